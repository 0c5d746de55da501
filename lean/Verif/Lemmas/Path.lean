import Verif.Model.Loader
import Verif.Lemmas.Dict

/-! Helper lemmas for paths. -/

namespace Kajiki.Loader

theorem rfind_none {c : Char} {s : Str} : rfind c s = none ↔ c ∉ s := by
  induction s with
  | nil => simp [rfind]
  | cons d t ih =>
    unfold rfind
    split
    · rename_i i hi
      have : ¬ rfind c t = none := by rw [hi]; simp
      rw [ih] at this
      simp only [List.mem_cons, not_or, reduceCtorEq, false_iff]
      intro h; exact this h.2
    · rename_i hi
      have := ih.1 hi
      split
      · rename_i h; simp [h]
      · rename_i h; simp [this, Ne.symm h]

theorem rfind_append {c : Char} {a b : Str} (hb : c ∉ b) :
    rfind c (a ++ c :: b) = some a.length := by
  induction a with
  | nil =>
    show rfind c (c :: b) = _
    unfold rfind
    rw [rfind_none.2 hb]; simp
  | cons x a ih =>
    show rfind c (x :: (a ++ c :: b)) = _
    unfold rfind
    rw [ih]; simp

theorem rfind_some {c : Char} {s : Str} {i : Nat} (h : rfind c s = some i) :
    ∃ a b, s = a ++ c :: b ∧ a.length = i ∧ c ∉ b := by
  induction s generalizing i with
  | nil => simp [rfind] at h
  | cons d t ih =>
    unfold rfind at h
    split at h
    · rename_i j hj
      obtain ⟨a, b, e, l, n⟩ := ih hj
      refine ⟨d :: a, b, by rw [e]; rfl, ?_, n⟩
      cases h; simp [l]
    · rename_i hj
      split at h
      · rename_i hd
        cases h
        exact ⟨[], t, by rw [hd]; rfl, rfl, rfind_none.1 hj⟩
      · cases h

/-- Splitting off the extension gives the two parts of the name back. -/
theorem splitext_append (p : Str) : (splitext p).1 ++ (splitext p).2 = p := by
  unfold splitext
  split
  · simp
  · rename_i dot _
    by_cases h : (decide (lastComponent p ≤ dot) && (slice p (lastComponent p) dot).any (· != '.')) = true
    · simp only [if_pos h, List.take_append_drop]
    · simp only [if_neg h, List.append_nil]

theorem splitext_noslash {stem ext : Str} (hs : '/' ∉ stem) (he : '/' ∉ ext) (hd : '.' ∉ ext)
    (hn : ∃ c ∈ stem, c ≠ '.') : splitext (stem ++ '.' :: ext) = (stem, '.' :: ext) := by
  have hslash : rfind '/' (stem ++ '.' :: ext) = none := by
    rw [rfind_none]; simp [hs, he]
  unfold splitext
  rw [rfind_append hd]
  simp only [lastComponent, hslash]
  obtain ⟨c, hc, hc'⟩ := hn
  have : (slice (stem ++ '.' :: ext) 0 stem.length).any (· != '.') = true := by
    simp only [slice, List.take_left, List.drop_zero, List.any_eq_true]
    exact ⟨c, hc, by simpa using hc'⟩
  simp [this]

theorem splitext_of_last {stem ext : Str} {c : Char} (he : '/' ∉ ext) (hd : '.' ∉ ext)
    (hl : stem.getLast? = some c) (h1 : c ≠ '/') (h2 : c ≠ '.') :
    splitext (stem ++ '.' :: ext) = (stem, '.' :: ext) := by
  obtain ⟨init, rfl⟩ : ∃ init, stem = init ++ [c] := by
    exact List.getLast?_eq_some_iff.1 hl
  unfold splitext
  rw [rfind_append hd]
  dsimp only
  generalize hst : lastComponent (init ++ [c] ++ '.' :: ext) = start
  have hle : start ≤ init.length := by
    rw [← hst]
    unfold lastComponent
    split
    · rename_i i hi
      obtain ⟨a, b, e, l, n⟩ := rfind_some hi
      subst l
      by_cases hlt : a.length < init.length
      · exact hlt
      · exfalso
        have h0 : (init ++ [c] ++ '.' :: ext)[a.length]? = some '/' := by rw [e]; simp
        have hge : init.length ≤ a.length := by omega
        rw [List.append_assoc, List.getElem?_append_right hge] at h0
        rcases hk : a.length - init.length with _ | _ | k
        · rw [hk] at h0; simp at h0; exact h1 h0
        · rw [hk] at h0; simp at h0
        · rw [hk] at h0
          simp at h0
          exact he (List.mem_of_getElem? h0)
    · omega
  have : (slice (init ++ [c] ++ '.' :: ext) start (init ++ [c]).length).any (· != '.') = true := by
    simp only [slice, List.take_left, List.any_eq_true]
    refine ⟨c, ?_, by simpa using h2⟩
    rw [List.drop_append_of_le_length hle]
    simp
  rw [this]
  have h3 : start ≤ (init ++ [c]).length := by simp; omega
  rw [if_pos (by simp only [h3, decide_true, Bool.and_self]), List.take_left, List.drop_left]

theorem scanPackage_none {name module : Str} {fns : List Str} {found : Dict Str} (h : name ∉ fns) :
    scanPackage name module fns found =
      .inr (fns.foldl (fun d fn => if (splitext fn).1 = module then d.set (splitext fn).2 fn else d) found) := by
  induction fns generalizing found with
  | nil => rfl
  | cons fn fns ih =>
    unfold scanPackage
    have h1 : fn ≠ name := by intro e; exact h (by simp [e])
    rw [if_neg h1, List.foldl_cons]
    exact ih (by intro e; exact h (by simp [e]))

theorem found_get {module ext : Str} (fns : List Str) (found : Dict Str)
    (hsp : splitext (module ++ ext) = (module, ext))
    (hf : ∀ v, found.get ext = some v → v = module ++ ext) :
    Dict.get (fns.foldl (fun d fn => if (splitext fn).1 = module then d.set (splitext fn).2 fn else d) found)
      ext = if module ++ ext ∈ fns then some (module ++ ext) else found.get ext := by
  induction fns generalizing found with
  | nil => simp
  | cons fn fns ih =>
    rw [List.foldl_cons]
    by_cases h1 : (splitext fn).1 = module
    · rw [if_pos h1]
      have e := splitext_append fn
      rw [h1] at e
      by_cases h2 : (splitext fn).2 = ext
      · rw [h2] at e
        rw [h2, ih _ (by intro v hv; rw [Dict.get_set_same] at hv; cases hv; exact e.symm)]
        simp [← e]
      · rw [ih _ (by intro v hv; rw [Dict.get_set_other _ _ h2] at hv; exact hf v hv)]
        have : module ++ ext ≠ fn := by
          intro he; rw [← he, hsp] at h2; exact h2 rfl
        rw [Dict.get_set_other _ _ h2]
        simp [this]
    · rw [if_neg h1, ih _ hf]
      have : module ++ ext ≠ fn := by
        intro he; rw [← he, hsp] at h1; exact h1 rfl
      simp [this]

end Kajiki.Loader
