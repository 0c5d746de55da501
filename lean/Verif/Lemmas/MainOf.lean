import Verif.Model.Program
import Verif.Lemmas.RenderMain

/-!
# The main function of a class
-/

namespace Kajiki.Run

variable {W C : Type}

/-- The first method of a name. -/
def methodAt (k : Str) : List (Str × Str × C) → Option (Str × C)
  | [] => none
  | (k', v) :: ms => if k = k' then some v else methodAt k ms

theorem methodAt_insert (k k' : Str) (v : Str × C) (ms : List (Str × Str × C)) :
    methodAt k' (insertMethod k v ms) = if k' = k then some v else methodAt k' ms := by
  induction ms with
  | nil => rfl
  | cons m ms ih =>
    obtain ⟨j, u⟩ := m
    simp only [insertMethod]
    split
    · next h => subst h; simp only [methodAt]; split <;> rfl
    · next h =>
      split
      · rw [methodAt]
      · rw [methodAt, ih, methodAt]
        by_cases hj : k' = j
        · subst hj; simp [Ne.symm h]
        · simp [hj]

theorem methodAt_foldl {b : Str × C} {k : Str} (fs : List (Str × C)) (ms : List (Str × Str × C))
    (hm : methodAt k ms = some b ∨ b ∈ fs) (hb : declName b.1 = k) (hu : ∀ d ∈ fs, declName d.1 = k → d = b) :
    methodAt k (fs.foldl (fun ms d => insertMethod (declName d.1) d ms) ms) = some b := by
  induction fs generalizing ms with
  | nil => simpa using hm
  | cons d fs ih =>
    rw [List.foldl_cons]
    refine ih _ ?_ fun d hd => hu d (List.mem_cons_of_mem _ hd)
    rw [methodAt_insert]
    by_cases hd : k = declName d.1
    · rw [if_pos hd, hu d (List.mem_cons_self ..) hd.symm]
      exact .inl rfl
    · rw [if_neg hd]
      rcases hm with h | h
      · exact .inl h
      · rcases List.mem_cons.1 h with rfl | h
        · exact absurd hb.symm hd
        · exact .inr h

theorem methodAt_dict {k : Str} {v : Str × C} {ms : List (Str × Str × C)} (h : methodAt k ms = some v) (n : Nat) :
    ∃ i, Dict.get (methodDict n ms) k = some (.fn (n + i)) ∧ ms[i]? = some (k, v) := by
  induction ms generalizing n with
  | nil => cases h
  | cons m ms ih =>
    obtain ⟨j, u⟩ := m
    simp only [methodAt] at h
    split at h
    · next hj =>
      cases h
      subst hj
      exact ⟨0, by simp [methodDict, Dict.get], rfl⟩
    · next hj =>
      obtain ⟨i, h1, h2⟩ := ih h (n + 1)
      refine ⟨i + 1, ?_, by simpa using h2⟩
      simp only [methodDict, Dict.get, Ne.symm hj, if_false, h1]
      congr 2; omega

/-- Rendering a template in a new process calls its main function. -/
theorem run_main {P : Prog C} {i : Nat} {fs : List (Str × C)} {base : Dict Val} {decl : Str} {b : C}
    (hcls : P.classes[i]? = some (classOf fs base)) (hd : declName decl = "__main__".toList) (hm : (decl, b) ∈ fs)
    (hu : ∀ d ∈ fs, declName d.1 = "__main__".toList → d = (decl, b)) (call : Mode → Nat → List Val → MS C W Unit)
    (context : Dict Val) (w : W) :
    ∃ (s : Store C W) (f : Nat) (x : Inst), (M.bind (newInst P i context) fun j => emitMain call .stream j) (emptyStore C w) =
        call .stream f [] s ∧ s.fns[f]? = some ⟨.code decl b, 0, none, true⟩ ∧ s.insts = [x] ∧ s.world = w := by
  obtain ⟨f, h1, h2⟩ := methodAt_dict (methodAt_foldl (b := (decl, b)) fs [] (.inr hm) hd hu) 0
  rw [Nat.zero_add] at h1
  refine ⟨(newInst P i context (emptyStore C w)).st, f,
    ⟨i, context, newGlobals 0 base (methodDict 0 (methodsOf fs)) context, methodDict 0 (methodsOf fs)⟩, ?_, ?_, ?_, ?_⟩
  · have hn : newInst P i context (emptyStore C w) = ⟨.nil, (newInst P i context (emptyStore C w)).st, .ok 0⟩ := by
      simp only [newInst, hcls, emptyStore, List.length_nil]
    rw [bind_step hn]
    unfold emitMain
    refine bind_step ?_
    unfold attrFn
    rw [bind_step (s' := (newInst P i context (emptyStore C w)).st) (a := ⟨i, context,
      newGlobals 0 base (methodDict 0 (methodsOf fs)) context, methodDict 0 (methodsOf fs)⟩)]
    · simp only [methodsOf, h1]; rfl
    · simp only [getInst, newInst, hcls, emptyStore, List.length_nil, List.nil_append, List.getElem?_cons_zero]; rfl
  · simp only [newInst, hcls, emptyStore, List.nil_append, methodFns, List.length_nil, List.getElem?_map]
    show ((methodsOf fs)[f]?).map _ = _
    rw [methodsOf, h2]; rfl
  · simp only [newInst, hcls, emptyStore, List.nil_append, List.length_nil]; rfl
  · simp only [newInst, hcls, emptyStore]

theorem mem_set {V : Type} {d : Dict V} {k : Str} {v : V} {x : Str × V} (h : x ∈ Dict.set d k v) :
    x = (k, v) ∨ x ∈ d := by
  induction d with
  | nil => simp only [Dict.set, List.mem_singleton] at h; exact .inl h
  | cons y d ih =>
    obtain ⟨k', v'⟩ := y
    simp only [Dict.set] at h
    split at h
    · next hk =>
      subst hk
      rcases List.mem_cons.1 h with h | h
      · exact .inl h
      · exact .inr (List.mem_cons_of_mem _ h)
    · rcases List.mem_cons.1 h with rfl | h
      · exact .inr (List.mem_cons_self ..)
      · exact (ih h).imp id (List.mem_cons_of_mem _)

theorem set_mem {V : Type} (d : Dict V) (k : Str) (v : V) : (k, v) ∈ Dict.set d k v := by
  induction d with
  | nil => simp [Dict.set]
  | cons y d ih =>
    obtain ⟨k', v'⟩ := y
    simp only [Dict.set]
    split
    · next hk => subst hk; simp
    · exact List.mem_cons_of_mem _ ih

/-- The functions of a template: the main function first, then those it defines. -/
theorem mains {V : Type} {k : Str} {b : V} {fs : List (Str × V)} {x : Str × V}
    (h : x ∈ Dict.set (Dict.update [(k, b)] fs) k b) : x = (k, b) ∨ x ∈ fs := by
  have hu : ∀ (fs gs : List (Str × V)), ∃ v as, Dict.update ((k, b) :: gs) fs = (k, v) :: as ∧
      ∀ a ∈ as, a ∈ gs ∨ a ∈ fs := by
    intro fs gs
    have : ∀ (fs gs : List (Str × V)) (v : V), ∃ v' as, Dict.update ((k, v) :: gs) fs = (k, v') :: as ∧
        ∀ a ∈ as, a ∈ gs ∨ a ∈ fs := by
      intro fs
      induction fs with
      | nil => exact fun gs v => ⟨v, gs, rfl, fun a h => .inl h⟩
      | cons f fs ih =>
        intro gs v
        unfold Dict.update at ih ⊢
        rw [List.foldl_cons]
        by_cases hk : k = f.1
        · obtain ⟨v', as, h1, h2⟩ := ih gs f.2
          refine ⟨v', as, ?_, fun a ha => ?_⟩
          · rw [← h1]; congr 1; simp [Dict.set, hk]
          · rcases h2 a ha with h | h
            · exact .inl h
            · exact .inr (List.mem_cons_of_mem _ h)
        · obtain ⟨v', as, h1, h2⟩ := ih (Dict.set gs f.1 f.2) v
          refine ⟨v', as, ?_, fun a ha => ?_⟩
          · rw [← h1]; congr 1; simp [Dict.set, hk]
          · rcases h2 a ha with h | h
            · rcases mem_set h with h | h
              · exact .inr (h ▸ List.mem_cons_self ..)
              · exact .inl h
            · exact .inr (List.mem_cons_of_mem _ h)
    exact this fs gs b
  obtain ⟨v, as, h1, h2⟩ := hu fs []
  rw [h1] at h
  simp only [Dict.set, if_true] at h
  rcases List.mem_cons.1 h with h | h
  · exact .inl h
  · rcases h2 x h with h | h
    · cases h
    · exact .inr h

end Kajiki.Run
