import Verif.Lemmas.Attrs

/-!
# C01–C07: escaping and attributes
-/

namespace Kajiki.Spec
open Kajiki

/-- Text that cannot be mistaken for markup: no `<`, `>`, `"`, and every `&` starts one of
the four predefined entities. -/
def Inert (s : Str) : Prop :=
  (∀ c ∈ s, c ≠ '<' ∧ c ≠ '>' ∧ c ≠ '"') ∧
  ∀ pre post, s = pre ++ '&' :: post →
    "amp;".toList <+: post ∨ "lt;".toList <+: post ∨ "gt;".toList <+: post ∨
      "quot;".toList <+: post

/-- Reading the four entities back. -/
def decode : Str → Str
  | '&' :: 'a' :: 'm' :: 'p' :: ';' :: r => '&' :: decode r
  | '&' :: 'l' :: 't' :: ';' :: r => '<' :: decode r
  | '&' :: 'g' :: 't' :: ';' :: r => '>' :: decode r
  | '&' :: 'q' :: 'u' :: 'o' :: 't' :: ';' :: r => '"' :: decode r
  | c :: r => c :: decode r
  | [] => []

/-- Values documented to be exempt from escaping. -/
def Exempt (v : Val) : Prop :=
  v = .none ∨ isFlat v = true ∨ hasHtml v = true

/-- HTML boolean attributes (`checked`, `disabled`, ...). -/
def isBooleanAttr (k : Str) : Bool :=
  k ∈ ["checked", "disabled", "readonly", "multiple", "selected", "nohref", "ismap",
    "declare", "defer"].map String.toList

/-- `True`, `False` and the integers equal to them. -/
inductive BoolValue : Val → Bool → Prop
  | bool (b) : BoolValue (.bool b) b
  | one : BoolValue (.int 1) true
  | zero : BoolValue (.int 0) false

end Kajiki.Spec

namespace Kajiki.Props
open Kajiki

theorem inert_escapeStr (s : Str) : Spec.Inert (escapeStr s) := by
  refine ⟨escapeStr_no s, ?_⟩
  intro pre post h
  obtain ⟨e, he, hp⟩ := escapeStr_amp s pre post h
  simp only [List.mem_cons, List.not_mem_nil, or_false] at he
  rcases he with rfl | rfl | rfl | rfl
  · exact .inl hp
  · exact .inr (.inl hp)
  · exact .inr (.inr (.inl hp))
  · exact .inr (.inr (.inr hp))

theorem decode_cons (c : Char) (h : c ≠ '&') (r : Str) : Spec.decode (c :: r) = c :: Spec.decode r := by
  rw [Spec.decode]
  all_goals (intros; subst_vars; exact absurd rfl h)

theorem decode_escapeStr (s : Str) : Spec.decode (escapeStr s) = s := by
  rw [escapeStr_eq]
  induction s with
  | nil => rfl
  | cons c s ih =>
    rw [List.flatMap_cons]
    by_cases h1 : c = '&'
    · subst h1; exact congrArg _ ih
    by_cases h2 : c = '<'
    · subst h2; exact congrArg _ ih
    by_cases h3 : c = '>'
    · subst h3; exact congrArg _ ih
    by_cases h4 : c = '"'
    · subst h4; exact congrArg _ ih
    · simp only [escChar, h1, h2, h3, h4, if_false]
      rw [List.singleton_append, decode_cons c h1, ih]

theorem escape_plain (v : Val) (h : ¬ Spec.Exempt v) : escape v = .str (escapeStr (toStr v)) := by
  simp only [Spec.Exempt, not_or] at h
  obtain ⟨h1, h2, h3⟩ := h
  cases v <;> first | rfl | exact absurd rfl h1 | exact absurd rfl h2 | exact absurd rfl h3

/-- **C01** Whatever a non-exempt value is, what `escape` (the function every `$expr` in
element text goes through) returns is a string that cannot be mistaken for markup. -/
theorem C01_escaped_is_inert (v : Val) (h : ¬ Spec.Exempt v) :
    ∃ s, escape v = .str s ∧ Spec.Inert s :=
  ⟨_, escape_plain v h, inert_escapeStr _⟩

example : ¬ Spec.Exempt (.str "<script>alert(\"x\")</script>".toList) := by
  simp [Spec.Exempt, isFlat, hasHtml]
example : escape (.str "<a&\"b\">".toList) = .str "&lt;a&amp;&quot;b&quot;&gt;".toList := by
  exact congrArg Val.str (by decide)

/-- **C02** Decoding the escaped text gives back exactly `str(value)`. -/
theorem C02_escape_lossless (v : Val) (h : ¬ Spec.Exempt v) :
    ∃ s, escape v = .str s ∧ Spec.decode s = toStr v :=
  ⟨_, escape_plain v h, decode_escapeStr _⟩

/-- **C02** Two different strings never render alike. -/
theorem C02_escape_injective (s t : Str) (h : escape (.str s) = escape (.str t)) : s = t := by
  have : escapeStr s = escapeStr t := by
    rw [escape_str, escape_str] at h; exact Val.str.inj h
  rw [← decode_escapeStr s, this, decode_escapeStr]

/-- **C02** Escaping distributes over concatenation, so where a text is split into
pieces does not matter. -/
theorem C02_escape_append (s t : Str) :
    escape (.str (s ++ t)) = .str (escapeStr s ++ escapeStr t) := by
  rw [escape_str, escapeStr_append]

/-- **C03** The exempt classes and what they become: `None` stays `None` (and so adds
nothing), flatteners pass through untouched, `__html__` objects contribute exactly their
`__html__()`, and any other value its escaped `str()`. -/
theorem C03_escape_cases (v : Val) :
    (v = .none → escape v = .none) ∧
    (isFlat v = true → escape v = v) ∧
    (∀ s h t, v = .html s h t → escape v = .str h) ∧
    (¬ Spec.Exempt v → escape v = .str ((toStr v).flatMap escChar)) := by
  refine ⟨?_, ?_, ?_, ?_⟩
  · rintro rfl; rfl
  · cases v <;> simp [isFlat, escape]
  · rintro s h t rfl; rfl
  · intro h
    rw [escape_plain v h, escapeStr_eq]

theorem contains_emptyAttrs (k : Str) : emptyAttrs.contains k = Spec.isBooleanAttr k := by
  rw [Bool.eq_iff_iff]
  simp only [emptyAttrs, Spec.isBooleanAttr, List.contains_iff_mem, decide_eq_true_eq]

/-- **C04** A template attribute whose collected text is `s` is rendered, outside the
html-mode boolean attributes, as ` name="V"` with `V` free of quotes and markup and decoding
to exactly `s`.  `s` is arbitrary: it may come from `literal()` or template functions. -/
theorem C04_attr_contained (name mode s : Str)
    (h : ¬ (isHtmlMode mode = true ∧ Spec.isBooleanAttr name = true)) :
    ∃ V, renderCollected name mode (some s) = [' ' :: name ++ "=\"".toList ++ V ++ ['"']] ∧
      Spec.Inert V ∧ Spec.decode V = s := by
  refine ⟨escapeStr s, ?_, inert_escapeStr s, decode_escapeStr s⟩
  have h' : (isHtmlMode mode && emptyAttrs.contains name) = false := by
    rw [contains_emptyAttrs, Bool.eq_false_iff]
    intro hh
    exact h (Bool.and_eq_true _ _ ▸ hh)
  have hb : boolLike (.str s) = false := by simp [boolLike, pyEq, numVal]
  simp only [renderCollected, Option.elim_some, renderAttr, hb, Bool.and_false, Bool.false_eq_true,
    if_false, h']
  rfl

example : renderCollected "title".toList "xml".toList (some "\" onclick=\"x".toList) =
    [" title=\"&quot; onclick=&quot;x\"".toList] := by decide

/-- **C05** The attribute disappears exactly when nothing was collected for it: no part
or only `None` parts. -/
theorem C05_attr_omitted_iff (name mode : Str) (parts : List Str) :
    renderCollected name mode (joinParts parts) = [] ↔ parts = [] := by
  constructor
  · intro h
    cases parts with
    | nil => rfl
    | cons p ps =>
      exfalso
      revert h
      have hb : ∀ s, boolLike (.str s) = false := by intro s; simp [boolLike, pyEq, numVal]
      simp only [joinParts, renderCollected, Option.elim_some, renderAttr, hb, Bool.and_false,
        Bool.false_eq_true, if_false]
      split <;> simp
  · rintro rfl
    simp only [joinParts, renderCollected, Option.elim_none, renderAttr]
    have hb : boolLike .none = false := by simp [boolLike, pyEq, numVal]
    simp [hb]

example : renderCollected "alt".toList "xml".toList (joinParts [[]]) = [" alt=\"\"".toList] := by
  decide

theorem boolLike_iff (v : Val) : boolLike v = true ↔ ∃ b, Spec.BoolValue v b := by
  constructor
  · intro h
    cases v <;> simp [boolLike, pyEq, numVal] at h
    · exact ⟨_, .bool _⟩
    · rcases h with h | h <;> subst h
      · exact ⟨_, .one⟩
      · exact ⟨_, .zero⟩
  · rintro ⟨b, h⟩
    cases h
    · cases b <;> rfl
    · rfl
    · rfl

theorem boolValue_truthy {v b} (h : Spec.BoolValue v b) : truthy v = b := by
  cases h <;> rfl

theorem isHtmlMode_iff (mode : Str) :
    isHtmlMode mode = true ↔ "html".toList <+: mode := by
  simp [isHtmlMode]

/-- **C06** `None` is always absent. -/
theorem C06_none_absent (mode k : Str) : renderAttr mode (k, .none) = [] := by
  have hb : boolLike .none = false := by simp [boolLike, pyEq, numVal]
  simp [renderAttr, hb]

/-- **C06** Boolean attributes with a boolean value: false means absent; true means
`name="name"` in xml mode and the bare name in html modes. -/
theorem C06_boolean_attr (mode k : Str) (v : Val) (b : Bool) (hk : Spec.isBooleanAttr k = true)
    (hv : Spec.BoolValue v b) :
    renderAttr mode (k, v) =
      if b = false then []
      else if isHtmlMode mode then [' ' :: k]
      else [' ' :: k ++ "=\"".toList ++ k ++ ['"']] := by
  have hc : emptyAttrs.contains k = true := by rw [contains_emptyAttrs, hk]
  have hbl := (boolLike_iff v).2 ⟨b, hv⟩
  have hlow : lowerAscii k = k := by
    simp only [Spec.isBooleanAttr, decide_eq_true_eq] at hk
    simp only [List.map_cons, List.map_nil, List.mem_cons, List.not_mem_nil, or_false] at hk
    rcases hk with h | h | h | h | h | h | h | h | h <;> subst h <;> decide
  have hesc : escapeStr k = k := by
    simp only [Spec.isBooleanAttr, decide_eq_true_eq] at hk
    simp only [List.map_cons, List.map_nil, List.mem_cons, List.not_mem_nil, or_false] at hk
    rcases hk with h | h | h | h | h | h | h | h | h <;> subst h <;> decide
  simp only [renderAttr, hc, hbl, Bool.and_self, if_true, boolValue_truthy hv, Bool.and_true, hlow]
  cases b
  · rfl
  · simp only [if_true, Bool.true_eq_false, if_false, escape_str, toStr_str, hesc]

/-- **C06** For every other name, or a boolean attribute with a non-boolean value other than
`None`, the value is rendered escaped (or, for boolean attributes in html modes, only the
name).  Values that `escape` passes through (flatteners) contribute their `str()`. -/
theorem C06_other_attr (mode k : Str) (v : Val) (hv : v ≠ .none)
    (h : Spec.isBooleanAttr k = false ∨ ∀ b, ¬ Spec.BoolValue v b) :
    renderAttr mode (k, v) =
      if isHtmlMode mode && Spec.isBooleanAttr k then [' ' :: lowerAscii k]
      else [' ' :: k ++ "=\"".toList ++ toStr (escape v) ++ ['"']] := by
  have hcond : (emptyAttrs.contains k && boolLike v) = false := by
    rcases h with h | h
    · rw [contains_emptyAttrs, h]; rfl
    · have : boolLike v = false := by
        cases hc : boolLike v
        · rfl
        · obtain ⟨b, hb⟩ := (boolLike_iff v).1 hc
          exact absurd hb (h b)
      rw [this, Bool.and_false]
  simp only [renderAttr, hcond, Bool.false_eq_true, if_false]
  simp only [contains_emptyAttrs]

example : Spec.isBooleanAttr "checked".toList := by decide
example : renderAttr "xml".toList ("checked".toList, .bool true) = [" checked=\"checked\"".toList] := by
  decide

/-- **C06 (finding)** `1`/`0` are treated as booleans too, because Python's
`v in (True, False)` compares with `==`: `{'checked': 0}` disappears. -/
theorem C06_zero_is_false : renderAttr "xml".toList ("checked".toList, .int 0) = [] := by
  decide

/-- **C07** Rendering a mapping (distinct keys) gives the same result whatever the order of
its items. -/
theorem C07_attrs_order_irrelevant (r r' mode : Str) (l l' : List (Str × Val))
    (hkeys : (l.map (·.1)).Nodup) (hperm : l.Perm l') :
    renderAttrs (.pairs r l) mode = renderAttrs (.pairs r' l') mode := by
  simp only [renderAttrs, sortAttrs_perm hperm hkeys]

/-- **C07** The attributes come in strictly ascending order of their names and are exactly
the mapping's entries, each rendered on its own. -/
theorem C07_attrs_sorted (r mode : Str) (l : List (Str × Val)) (hkeys : (l.map (·.1)).Nodup) :
    ∃ m : List (Str × Val), m.Perm l ∧ m.Pairwise (fun a b => strLt a.1 b.1 = true) ∧
      renderAttrs (.pairs r l) mode = .ok (m.flatMap (renderAttr mode)) :=
  ⟨insertionSort l, insertionSort_perm l, insertionSort_sorted l hkeys, by
    simp only [renderAttrs, sortAttrs, anyClash_false l hkeys]; rfl⟩

example : (([("b".toList, Val.int 1), ("a".toList, .none)] : List (Str × Val)).map (·.1)).Nodup := by
  decide

end Kajiki.Props
