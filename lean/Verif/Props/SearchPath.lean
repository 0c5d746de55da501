import Verif.Lemmas.Path

/-!
# Properties of file search: C48
-/

namespace Kajiki.Spec.Path
open Kajiki.Loader

/-- `fn` is the file chosen for `name`: some directory of the path contains it and no earlier
directory contains a file of that name. -/
def Chosen (path : List Str) (fs : FS) (name fn : Str) : Prop :=
  ∃ (i : Nat) (base : Str), path[i]? = some base ∧ fn = pathJoin base name ∧ (fs fn).isSome = true ∧
    ∀ (j : Nat) (b : Str), j < i → path[j]? = some b → fs (pathJoin b name) = none

/-- The first extension of PackageLoader's preference for which the package has the file. -/
def preferred (fns : List Str) (module : Str) : Option Str :=
  ([".xml".toList, ".html".toList, ".html5".toList, ".txt".toList].find? fun ext =>
    decide (module ++ ext ∈ fns)).map (module ++ ·)

end Kajiki.Spec.Path

namespace Kajiki.Props
open Kajiki.Loader Kajiki.Spec.Path

/-- **C48.** The search uses the first directory of the path that contains the name. -/
theorem C48_first_directory (path : List Str) (fs : FS) (name fn : Str) :
    filename path fs name = some fn ↔ Chosen path fs name fn := by
  induction path with
  | nil =>
    simp [filename, Chosen]
  | cons base rest ih =>
    unfold filename
    dsimp only
    by_cases h : (fs (pathJoin base name)).isSome = true
    · rw [if_pos h]
      constructor
      · intro e; cases e
        exact ⟨0, base, rfl, rfl, h, by omega⟩
      · rintro ⟨i, b, hb, rfl, hs, hmin⟩
        cases i with
        | zero => cases hb; rfl
        | succ i =>
          have := hmin 0 base (by omega) rfl
          rw [this] at h; cases h
    · rw [if_neg h, ih]
      have hnone : fs (pathJoin base name) = none := by simpa using h
      constructor
      · rintro ⟨i, b, hb, e, hs, hmin⟩
        refine ⟨i + 1, b, hb, e, hs, ?_⟩
        intro j b' hj hb'
        cases j with
        | zero => cases hb'; exact hnone
        | succ j => exact hmin j b' (by omega) hb'
      · rintro ⟨i, b, hb, rfl, hs, hmin⟩
        cases i with
        | zero => cases hb; exact absurd hs h
        | succ i =>
          refine ⟨i, b, hb, rfl, hs, ?_⟩
          intro j b' hj hb'
          exact hmin (j + 1) b' (by omega) hb'

/-- **C48.** The name is not found exactly when no directory of the path contains it. -/
theorem C48_not_found (path : List Str) (fs : FS) (name : Str) :
    filename path fs name = none ↔ ∀ base ∈ path, fs (pathJoin base name) = none := by
  induction path with
  | nil => simp [filename]
  | cons base rest ih =>
    unfold filename
    dsimp only
    by_cases h : (fs (pathJoin base name)).isSome = true
    · rw [if_pos h]
      simp only [reduceCtorEq, List.mem_cons, forall_eq_or_imp, false_iff, not_and]
      intro h'; rw [h'] at h; cases h
    · rw [if_neg h, ih]
      have hnone : fs (pathJoin base name) = none := by simpa using h
      simp [hnone]

example : filename ["d1".toList, "d2".toList] (fun p => if p = "d2/a.xml".toList then some ⟨[], 1⟩ else none)
    "a.xml".toList = some "d2/a.xml".toList := by decide +kernel

/-- **C48.** A path given as a string is cut at its semicolons, and only there. -/
theorem C48_path_string (path : Str) :
    (∀ p ∈ splitSemi path, ';' ∉ p) ∧ join [';'] (splitSemi path) = path ∧ splitSemi path ≠ [] := by
  induction path with
  | nil => simp [splitSemi, join, List.intercalate]
  | cons c s ih =>
    obtain ⟨h1, h2, h3⟩ := ih
    unfold splitSemi
    cases hs : splitSemi s with
    | nil => exact absurd hs h3
    | cons p ps =>
      rw [hs] at h1 h2
      split
      · rename_i hc; subst hc
        refine ⟨?_, ?_, by simp⟩
        · intro q hq
          rcases List.mem_cons.1 hq with rfl | hq
          · simp
          · exact h1 q hq
        · rw [← h2]
          simp [join, List.intercalate]
      · rename_i hc
        refine ⟨?_, ?_, by simp⟩
        · intro q hq
          rcases List.mem_cons.1 hq with rfl | hq
          · have := h1 p (by simp)
            simp [this, Ne.symm hc]
          · exact h1 q (by simp [hq])
        · rw [← h2]
          cases ps <;> simp [join, List.intercalate]

/-- **C48.** PackageLoader: for the dotted name `package.module` in a package whose files are
`fns` (none of them called by the whole dotted name), the file chosen is the module's file with the
first extension of `.xml`, `.html`, `.html5`, `.txt` that is present; if none is, it is an error. -/
theorem C48_package_preference (listdir : Str → Except Err (List Str)) (resource : Str → Str → Str)
    (package module : Str) (fns : List Str) (hdir : listdir package = .ok fns)
    (hdot : '.' ∉ module) (hslash : '/' ∉ module) (hne : module ≠ [])
    (hname : package ++ '.' :: module ∉ fns) :
    packageFilename listdir resource (package ++ '.' :: module) =
      match preferred fns module with
      | some fn => .ok (some (resource package fn))
      | none => .error .ioError := by
  have hrs : rsplitDot (package ++ '.' :: module) = .ok (package, module) := by
    unfold rsplitDot
    rw [rfind_append hdot]
    simp
  have hnd : ∃ c ∈ module, c ≠ '.' := by
    cases module with
    | nil => exact absurd rfl hne
    | cons c m => exact ⟨c, by simp, by intro h; exact hdot (by simp [h])⟩
  have ex : ∀ e : Str, '/' ∉ e → '.' ∉ e → ∀ ext, ext = '.' :: e →
      Dict.get (fns.foldl (fun d fn => if (splitext fn).1 = module then d.set (splitext fn).2 fn else d) [])
        ext = if module ++ ext ∈ fns then some (module ++ ext) else none := by
    rintro e h1 h2 ext rfl
    rw [found_get fns [] (splitext_noslash hslash h1 h2 hnd) (by simp)]
    rfl
  unfold packageFilename
  rw [hrs]
  dsimp only
  rw [hdir]
  dsimp only
  rw [scanPackage_none hname]
  dsimp only
  rw [ex "xml".toList (by decide) (by decide) ".xml".toList (by decide),
    ex "html".toList (by decide) (by decide) ".html".toList (by decide),
    ex "html5".toList (by decide) (by decide) ".html5".toList (by decide),
    ex "txt".toList (by decide) (by decide) ".txt".toList (by decide)]
  unfold preferred
  generalize ".xml".toList = e1
  generalize ".html".toList = e2
  generalize ".html5".toList = e3
  generalize ".txt".toList = e4
  by_cases h1 : module ++ e1 ∈ fns <;> by_cases h2 : module ++ e2 ∈ fns <;>
    by_cases h3 : module ++ e3 ∈ fns <;> by_cases h4 : module ++ e4 ∈ fns <;>
    simp [h1, h2, h3, h4]

example : packageFilename (fun _ => .ok ["m.txt".toList, "m.html".toList, "m.py".toList])
    (fun p f => p ++ '/' :: f) "a.b.m".toList = .ok (some "a.b/m.html".toList) := by decide +kernel

/-- **C48.** The constructor is chosen by the extension: `.txt` makes a text template, `.xml`,
`.html`, `.html5` an XML template (with the mode fixed for the latter two), anything else is an
error; the file's stem may be any path that does not end in `/` or `.`. -/
theorem C48_extension_choice (stem ext : Str) (c : Char) (hl : stem.getLast? = some c)
    (h1 : c ≠ '/') (h2 : c ≠ '.') (he : '/' ∉ ext) (hd : '.' ∉ ext) :
    kindOf [] (stem ++ '.' :: ext) =
      match [("txt".toList, Kind.text), ("xml".toList, .xml []), ("html".toList, .xml "html".toList),
          ("html5".toList, .xml "html5".toList)].lookup ext with
      | some k => .ok k
      | none => .error .key := by
  have hn : ([] : Str) ≠ "text".toList := by decide
  unfold kindOf
  rw [splitext_of_last he hd hl h1 h2, if_neg hn]
  simp only [List.isEmpty_nil, Bool.not_true, Bool.false_eq_true, ↓reduceIte, List.drop_succ_cons,
    List.drop_zero]
  have d1 : "xml".toList ≠ "txt".toList := by decide
  have d2 : "html".toList ≠ "txt".toList := by decide
  have d3 : "html5".toList ≠ "txt".toList := by decide
  have d4 : "html".toList ≠ "xml".toList := by decide
  have d5 : "html5".toList ≠ "xml".toList := by decide
  have d6 : "html5".toList ≠ "html".toList := by decide
  generalize "txt".toList = e1 at *
  generalize "xml".toList = e2 at *
  generalize "html".toList = e3 at *
  generalize "html5".toList = e4 at *
  by_cases a1 : ext = e1
  · subst a1; simp [List.lookup]
  · by_cases a2 : ext = e2
    · subst a2; simp [List.lookup, a1, beq_eq_false_iff_ne.2 a1]
    · by_cases a3 : ext = e3
      · subst a3; simp [List.lookup, a1, a2, beq_eq_false_iff_ne.2 a1, beq_eq_false_iff_ne.2 a2]
      · by_cases a4 : ext = e4
        · subst a4; simp [List.lookup, a1, a2, a3, beq_eq_false_iff_ne.2 a1, beq_eq_false_iff_ne.2 a2, beq_eq_false_iff_ne.2 a3]
        · simp [List.lookup, a1, a2, a3, a4, beq_eq_false_iff_ne.2 a1, beq_eq_false_iff_ne.2 a2, beq_eq_false_iff_ne.2 a3, beq_eq_false_iff_ne.2 a4]

/-- **C48.** A forced mode decides the constructor whatever the file is called. -/
theorem C48_forced_mode (mode fn : Str) (h : mode ≠ []) :
    kindOf mode fn = .ok (if mode = "text".toList then .text else .xml mode) := by
  unfold kindOf
  by_cases hm : mode = "text".toList
  · rw [if_pos hm, if_pos hm]
  · rw [if_neg hm, if_neg hm]
    cases mode with
    | nil => exact absurd rfl h
    | cons c m => rfl

/-- The name under which `%import` without alias makes a template available: the base name without
extension. -/
theorem C48_default_alias (dir base ext : Str) (hb : '/' ∉ base) (hn : ∃ c ∈ base, c ≠ '.')
    (he : '/' ∉ ext) (hd : '.' ∉ ext) :
    defaultAliasFor (dir ++ '/' :: (base ++ '.' :: ext)) = base ∧
    defaultAliasFor (base ++ '.' :: ext) = base := by
  have hns : '/' ∉ base ++ '.' :: ext := by simp [hb, he]
  unfold defaultAliasFor basename
  rw [rfind_append hns, rfind_none.2 hns]
  have : (dir ++ '/' :: (base ++ '.' :: ext)).drop (dir.length + 1) = base ++ '.' :: ext := by
    rw [← List.drop_drop]
    simp
  dsimp only
  rw [this, splitext_noslash hb he hd hn]
  exact ⟨rfl, rfl⟩

example : kindOf [] "x/a.b.html".toList = .ok (.xml "html".toList) ∧
    defaultAliasFor "x/a.b.html".toList = "a.b".toList := by decide +kernel

end Kajiki.Props
