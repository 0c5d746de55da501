import Verif.Lemmas.Entities

/-!
# C30 (first half) and C58: entities
-/

namespace Kajiki.Props

/-- C30: decoding entities exactly undoes the escaping that the XML reader applies to character
data, for every text, including text that itself looks like entities. -/
theorem C30_unescape_undoes_escape (s : Str) : unescape (saxEscape s) = .ok s :=
  unescape_saxEscape s

example : saxEscape "a<b && c>\"&lt;\"".toList = "a&lt;b &amp;&amp; c&gt;\"&amp;lt;\"".toList := by
  decide +kernel

set_option maxRecDepth 20000 in
/-- Every key of the entity table that lacks the final `;` also occurs with it, with the same
value; keys are pairwise distinct. (Finite table.) -/
theorem table_closed : (html5Table.filter fun e => e.1.getLast? != some 59).all
    (fun e => (html5Table.find? fun f => f.1 == e.1 ++ [59]).map (·.2) == some e.2) = true := by
  decide +kernel

set_option maxRecDepth 20000 in
theorem table_chars_valid : html5Table.all
    (fun e => e.1.all (fun n => n < 128) && !e.1.isEmpty && !e.2.isEmpty) = true := by
  decide +kernel

theorem ascii_toNat : ∀ n < 128, (Char.ofNat n).toNat = n := by decide

/-- C58: every HTML5 entity name in Kajiki's table - written `&name;` in an XML template, whether or
not the table lists it with the final semicolon - stands for exactly the characters the table
gives for it. -/
theorem C58_known_entity (e : List Nat × List Nat)
    (hfirst : html5Table.find? (fun f => f.1 == e.1) = some e) :
    skippedEntity (e.1.map Char.ofNat) = .ok (e.2.map Char.ofNat) := by
  have he : e ∈ html5Table := List.mem_of_find?_eq_some hfirst
  have hv := List.all_eq_true.1 table_chars_valid e he
  simp only [Bool.and_eq_true, List.all_eq_true, decide_eq_true_eq, Bool.not_eq_true'] at hv
  obtain ⟨⟨hascii, hne⟩, _⟩ := hv
  have hback : ∀ l : List Nat, (∀ n ∈ l, n < 128) → (l.map Char.ofNat).map Char.toNat = l := by
    intro l hl
    rw [List.map_map]
    conv => rhs; rw [← List.map_id l]
    apply List.map_congr_left
    intro n hn
    have hn' : n < 128 := hl n hn
    exact ascii_toNat n hn'
  have hlast : ∀ n, e.1.getLast? = some n →
      (e.1.map Char.ofNat).getLast? = some (Char.ofNat n) := by
    intro n h; rw [List.getLast?_map, h]; rfl
  cases hl : e.1.getLast? with
  | none =>
    rw [List.getLast?_eq_none_iff] at hl
    rw [hl] at hne; cases hne
  | some n =>
    have hn : n < 128 := hascii n (List.mem_of_getLast? hl)
    unfold skippedEntity
    simp only [hlast n hl]
    by_cases h59 : n = 59
    · subst h59
      show (match html5Get (e.1.map Char.ofNat) with | some v => _ | none => _) = _
      unfold html5Get
      rw [hback e.1 hascii, hfirst]
      rfl
    · have hneq : Char.ofNat n ≠ ';' := by
        intro h
        have := congrArg Char.toNat h
        rw [ascii_toNat n hn] at this
        exact h59 this
      have hclosed := List.all_eq_true.1 table_closed e (by
        rw [List.mem_filter]
        refine ⟨he, ?_⟩
        rw [hl]
        simp [h59])
      simp only [beq_iff_eq] at hclosed
      have hkey : (e.1.map Char.ofNat ++ [';']).map Char.toNat = e.1 ++ [59] := by
        rw [List.map_append, hback e.1 hascii]; rfl
      split
      · rename_i v hv
        split at hv
        · rename_i h; exact absurd (Option.some.inj h) hneq
        · unfold html5Get at hv
          rw [hkey] at hv
          cases hf : html5Table.find? (fun f => f.1 == e.1 ++ [59]) with
          | none => rw [hf] at hv; cases hv
          | some f =>
            rw [hf] at hclosed hv
            simp only [Option.map_some, Option.some.injEq] at hclosed hv
            rw [← hv, hclosed]
        · rename_i h; cases h
      · rename_i hv
        split at hv
        · rename_i h; exact absurd (Option.some.inj h) hneq
        · unfold html5Get at hv
          rw [hkey] at hv
          cases hf : html5Table.find? (fun f => f.1 == e.1 ++ [59]) with
          | none => rw [hf] at hclosed; cases hclosed
          | some f => rw [hf] at hv; cases hv
        · rename_i h; cases h

set_option maxRecDepth 20000 in
/-- C58: an entity that is not in the table is an error (a bare `KeyError`), never empty text. -/
theorem C58_unknown_entity (name : Str)
    (h : ∀ e ∈ html5Table, e.1 ≠ name.map Char.toNat ∧ e.1 ≠ name.map Char.toNat ++ [59]) :
    skippedEntity name = .error .key := by
  have hf : ∀ k : List Nat, (∀ e ∈ html5Table, e.1 ≠ k) → html5Table.find? (fun f => f.1 == k) = none := by
    intro k hk
    rw [List.find?_eq_none]
    intro e he
    simpa using hk e he
  have key : ∀ s : Str, (∀ e ∈ html5Table, e.1 ≠ s.map Char.toNat) → html5Get s = none := by
    intro s hs
    unfold html5Get; rw [hf _ hs]; rfl
  unfold skippedEntity
  have h1 := key name fun e he => (h e he).1
  have h2 := key (name ++ [';']) fun e he => by
    rw [List.map_append]; exact (h e he).2
  simp only []
  split
  · rename_i v hv
    split at hv
    · rw [h1] at hv; cases hv
    · rw [h2] at hv; cases hv
    · rw [h1] at hv; cases hv
  · rfl

set_option maxRecDepth 20000 in
/-- `&nbsp;` and `&eacute;` as found in templates. -/
example : skippedEntity "nbsp".toList = .ok [Char.ofNat 0xa0] ∧
    skippedEntity "eacute".toList = .ok [Char.ofNat 0xe9] ∧
    skippedEntity "nosuch".toList = .error .key := by decide +kernel

end Kajiki.Props
