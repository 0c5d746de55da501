import Verif.Lemmas.Attrs
import Verif.Model.Program

/-! The functions of a class. -/

namespace Kajiki.Run

variable {C : Type}

theorem name_insertMethod {k : Str} {v : Str × C} {ms : List (Str × Str × C)} {a : Str}
    (h : a ∈ (insertMethod k v ms).map (·.1)) : a = k ∨ a ∈ ms.map (·.1) := by
  induction ms with
  | nil => simpa [insertMethod] using h
  | cons m ms ih =>
    obtain ⟨k', v'⟩ := m
    unfold insertMethod at h
    split at h
    · simp only [List.map_cons, List.mem_cons] at h ⊢
      rcases h with h | h
      · exact Or.inl h
      · exact Or.inr (Or.inr h)
    · split at h
      · simpa using h
      · simp only [List.map_cons, List.mem_cons] at h ⊢
        rcases h with h | h
        · exact Or.inr (Or.inl h)
        · rcases ih h with h | h
          · exact Or.inl h
          · exact Or.inr (Or.inr h)

/-- Names ascend. -/
def Asc (ms : List (Str × Str × C)) : Prop := (ms.map (·.1)).Pairwise fun a b => strLt a b = true

theorem asc_insert {k : Str} {v : Str × C} {ms : List (Str × Str × C)} (h : Asc ms) :
    Asc (insertMethod k v ms) := by
  unfold Asc at *
  induction ms with
  | nil => simp [insertMethod]
  | cons m ms ih =>
    obtain ⟨k', v'⟩ := m
    simp only [List.map_cons, List.pairwise_cons] at h
    unfold insertMethod
    split
    · rename_i hk
      subst hk
      simp only [List.map_cons, List.pairwise_cons]
      exact h
    · rename_i hk
      split
      · rename_i hlt
        simp only [List.map_cons, List.pairwise_cons, List.mem_cons]
        refine ⟨?_, h⟩
        rintro a (rfl | ha)
        · exact hlt
        · exact strLt_trans _ _ _ hlt (h.1 a ha)
      · rename_i hlt
        simp only [List.map_cons, List.pairwise_cons]
        refine ⟨fun a ha => ?_, ih h.2⟩
        rcases name_insertMethod ha with rfl | ha
        · rcases strLt_total a k' with h' | h' | h'
          · exact absurd h' hlt
          · exact absurd h' hk
          · exact h'
        · exact h.1 a ha

theorem methods_nodup (defs : List (Str × C)) : ((methodsOf defs).map (·.1)).Nodup := by
  have : Asc (methodsOf defs) := by
    unfold methodsOf
    have : ∀ ms : List (Str × Str × C), Asc ms →
        Asc (defs.foldl (fun ms d => insertMethod (declName d.1) d ms) ms) := by
      induction defs with
      | nil => exact fun _ h => h
      | cons d defs ih => exact fun ms h => ih _ (asc_insert h)
    exact this [] List.Pairwise.nil
  exact this.imp fun {a b} h he => by subst he; rw [strLt_irrefl] at h; cases h

theorem insertMethod_self (k : Str) (v : Str × C) (ms : List (Str × Str × C)) : (k, v) ∈ insertMethod k v ms := by
  induction ms with
  | nil => simp [insertMethod]
  | cons m ms ih =>
    unfold insertMethod
    split
    · simp
    · split
      · simp
      · exact List.mem_cons_of_mem _ ih

theorem insertMethod_other {k : Str} {v : Str × C} {ms : List (Str × Str × C)} {x : Str × Str × C} (h : x ∈ ms)
    (hk : x.1 ≠ k) : x ∈ insertMethod k v ms := by
  induction ms with
  | nil => cases h
  | cons m ms ih =>
    unfold insertMethod
    split
    · next he =>
      rcases List.mem_cons.1 h with rfl | h
      · exact absurd he.symm hk
      · exact List.mem_cons_of_mem _ h
    · split
      · exact List.mem_cons_of_mem _ h
      · rcases List.mem_cons.1 h with rfl | h
        · exact List.mem_cons_self
        · exact List.mem_cons_of_mem _ (ih h)

/-- Functions with distinct names are all there. -/
theorem methodsOf_mem {defs : List (Str × C)} (h : (defs.map fun d => declName d.1).Nodup) :
    ∀ d ∈ defs, (declName d.1, d) ∈ methodsOf defs := by
  have : ∀ (defs : List (Str × C)) (ms : List (Str × Str × C)), (defs.map fun d => declName d.1).Nodup →
      (∀ m ∈ ms, ∀ d ∈ defs, m.1 ≠ declName d.1) → ∀ m, (m ∈ ms ∨ ∃ d ∈ defs, m = (declName d.1, d)) →
        m ∈ defs.foldl (fun ms d => insertMethod (declName d.1) d ms) ms := by
    intro defs
    induction defs with
    | nil => intro ms _ _ m hm; simpa using hm
    | cons d defs ih =>
      intro ms hn hms m hm
      rw [List.map_cons, List.nodup_cons] at hn
      rw [List.foldl_cons]
      refine ih _ hn.2 (fun m' hm' d' hd' => ?_) m ?_
      · rcases name_insertMethod (List.mem_map_of_mem hm') with he | he
        · rw [he]
          exact fun hx => hn.1 (hx ▸ List.mem_map_of_mem (f := fun d => declName d.1) hd')
        · obtain ⟨m'', h1, h2⟩ := List.mem_map.1 he
          rw [← h2]
          exact hms m'' h1 d' (List.mem_cons_of_mem _ hd')
      · rcases hm with hm | ⟨d', hd', rfl⟩
        · exact .inl (insertMethod_other hm (hms m hm d List.mem_cons_self))
        · rcases List.mem_cons.1 hd' with rfl | hd'
          · exact .inl (insertMethod_self _ _ _)
          · exact .inr ⟨d', hd', rfl⟩
  exact fun d hd => this defs [] h (fun _ h => nomatch h) _ (.inr ⟨d, hd, rfl⟩)

theorem methodsOf_from {defs : List (Str × C)} {m : Str × Str × C} (h : m ∈ methodsOf defs) :
    ∃ d ∈ defs, m = (declName d.1, d) := by
  have : ∀ (defs : List (Str × C)) (ms : List (Str × Str × C)),
      m ∈ defs.foldl (fun ms d => insertMethod (declName d.1) d ms) ms → m ∈ ms ∨ ∃ d ∈ defs, m = (declName d.1, d) := by
    intro defs
    induction defs with
    | nil => exact fun ms h => .inl h
    | cons d defs ih =>
      intro ms h
      rcases ih _ h with h | ⟨d', hd', he⟩
      · have hin : ∀ (ms : List (Str × Str × C)), m ∈ insertMethod (declName d.1) d ms → m = (declName d.1, d) ∨ m ∈ ms := by
          intro ms
          induction ms with
          | nil => intro h; exact .inl (by simpa [insertMethod] using h)
          | cons y ms ih =>
            intro h
            unfold insertMethod at h
            split at h
            · exact (List.mem_cons.1 h).imp id (List.mem_cons_of_mem _)
            · split at h
              · exact List.mem_cons.1 h
              · rcases List.mem_cons.1 h with h | h
                · exact .inr (h ▸ List.mem_cons_self)
                · exact (ih h).imp id (List.mem_cons_of_mem _)
        rcases hin ms h with h | h
        · exact .inr ⟨d, List.mem_cons_self, h⟩
        · exact .inl h
      · exact .inr ⟨d', List.mem_cons_of_mem _ hd', he⟩
  rcases this defs [] h with h | h
  · cases h
  · exact h

end Kajiki.Run
