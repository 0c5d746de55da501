import Verif.Lemmas.Merge
import Verif.Lemmas.CodeRead

/-!
# Compiled programs and programs of trees
-/

namespace Kajiki.Run
open Kajiki.Spec.Code Kajiki.Spec.Sem

variable {C D W : Type} {R : C → D → Prop}

theorem insertMethod_rel (k : Str) {v : Str × C} {v' : Str × D} (hv : v.1 = v'.1 ∧ R v.2 v'.2)
    {ms : List (Str × Str × C)} {ns : List (Str × Str × D)}
    (h : List.Forall₂ (fun (a : Str × Str × C) (b : Str × Str × D) =>
      a.1 = b.1 ∧ a.2.1 = b.2.1 ∧ R a.2.2 b.2.2) ms ns) :
    List.Forall₂ (fun (a : Str × Str × C) (b : Str × Str × D) =>
      a.1 = b.1 ∧ a.2.1 = b.2.1 ∧ R a.2.2 b.2.2) (insertMethod k v ms) (insertMethod k v' ns) := by
  induction h with
  | nil => exact .cons ⟨rfl, hv⟩ .nil
  | cons h ht ih =>
    rename_i a b l l'
    obtain ⟨a1, a2⟩ := a
    obtain ⟨b1, b2⟩ := b
    obtain ⟨rfl, h2⟩ := h
    simp only [insertMethod]
    split
    · exact .cons ⟨rfl, hv⟩ ht
    · split
      · exact .cons ⟨rfl, hv⟩ (.cons ⟨rfl, h2⟩ ht)
      · exact .cons ⟨rfl, h2⟩ ih

theorem methodsOf_rel {ds : List (Str × C)} {es : List (Str × D)}
    (h : List.Forall₂ (fun a b => a.1 = b.1 ∧ R a.2 b.2) ds es) :
    List.Forall₂ (fun (a : Str × Str × C) (b : Str × Str × D) =>
      a.1 = b.1 ∧ a.2.1 = b.2.1 ∧ R a.2.2 b.2.2) (methodsOf ds) (methodsOf es) := by
  unfold methodsOf
  have : ∀ ms ns, List.Forall₂ (fun (a : Str × Str × C) (b : Str × Str × D) =>
      a.1 = b.1 ∧ a.2.1 = b.2.1 ∧ R a.2.2 b.2.2) ms ns →
      List.Forall₂ (fun (a : Str × Str × C) (b : Str × Str × D) =>
      a.1 = b.1 ∧ a.2.1 = b.2.1 ∧ R a.2.2 b.2.2)
      (ds.foldl (fun ms d => insertMethod (declName d.1) d ms) ms)
      (es.foldl (fun ms d => insertMethod (declName d.1) d ms) ns) := by
    induction h with
    | nil => exact fun _ _ h => h
    | cons h _ ih =>
      intro ms ns hm
      simp only [List.foldl_cons]
      rw [h.1]
      exact ih _ _ (insertMethod_rel _ h hm)
  exact this _ _ .nil

/-- Merged sources. -/
def mergedSource (S : Source) : Source :=
  { S with tmpls := S.tmpls.map fun t => (mergedTmpl t.1, t.2) }

mutual
theorem casesOk_merged (x : Ir) : casesOk (merged x) = casesOk x := by
  cases x <;> simp only [merged, casesOk] <;> exact casesIn_mergedList _ _

theorem casesIn_mergedList (sw : Bool) (xs : List Ir) : casesIn sw (mergedList xs) = casesIn sw xs := by
  cases xs with
  | nil => rfl
  | cons x xs =>
    have h : ∀ y ys, casesIn sw (consMerge y ys) = casesIn sw (y :: ys) := by
      intro y ys
      unfold consMerge
      split
      · split
        · simp [casesIn, casesOk]
        · rfl
      · rfl
    rw [mergedList, h]
    have h1 := casesOk_merged x
    have h2 := fun s => casesIn_mergedList s xs
    cases x with
    | python ls l => cases ls <;> simp only [merged, casesIn, casesOk, h2]
    | _ => simp only [merged] at *; simp only [casesIn, h1, h2]
end

theorem defs_bodyOf {t : Tmpl} (hp : placedTmpl t = true) (hc : casesTmpl t = true) :
    List.Forall₂ (fun (a : Str × List Stmt) (b : Str × List Ir) => a.1 = b.1 ∧ BodyOf a.2 b.2)
      (codeTmpl (mergedTmpl t)).defs ((mergedTmpl t).defs.map fun d => (d.decl, d.body)) := by
  simp only [codeTmpl, mergedTmpl, List.map_map]
  rw [List.forall₂_map_left_iff, List.forall₂_map_right_iff, List.forall₂_same]
  intro d hd
  refine ⟨rfl, rfl, ?_, ?_⟩
  · simp only [Function.comp, casesIn_mergedList]
    exact List.all_eq_true.1 hc d hd
  · simp only [placedTmpl, Bool.and_eq_true, List.all_eq_true] at hp
    have := hp.2 d hd
    simp only [Function.comp, placed_mergedList]
    cases hb : d.body with
    | nil => simp [placed]
    | cons x xs => rw [hb] at this; simp at this; exact this.2

theorem compile_rel {S : Source} {P : Prog (List Stmt)} (h : S.compile = some P)
    (hc : ∀ t ∈ S.tmpls, casesTmpl t.1 = true) : ProgRel BodyOf P (trees (mergedSource S)) := by
  obtain ⟨ts, load, al⟩ := S
  simp only [Source.compile, Option.map_eq_some_iff] at h
  obtain ⟨cs, hcs, rfl⟩ := h
  refine ⟨rfl, rfl, ?_⟩
  simp only [trees, mergedSource, List.map_map]
  simp only at hc hcs
  clear load al
  induction ts generalizing cs with
  | nil => simp only [compileAll, Option.some.injEq] at hcs; subst hcs; exact .nil
  | cons t ts ih =>
    simp only [compileAll] at hcs
    split at hcs
    · next c cs' h1 h2 =>
      simp only [Option.some.injEq] at hcs
      subst hcs
      refine .cons ?_ (ih (fun t ht => hc t (List.mem_cons_of_mem _ ht)) _ h2)
      simp only [fromIr, compilePy_generatePython] at h1
      split at h1
      · next hp =>
        simp only [Option.map_some, Option.some.injEq] at h1
        subst h1
        exact ⟨rfl, methodsOf_rel (defs_bodyOf hp (hc t (List.mem_cons_self)))⟩
      · simp at h1
    · simp at hcs

theorem trees_merge (S : Source) (O : Oracle W)
    (hg : ∀ t ∈ S.tmpls, ∀ d ∈ t.1.defs, ∀ g ∈ textGuardsList d.body, Steady O g) :
    ProgRel (MergeOf O) (trees (mergedSource S)) (trees S) := by
  refine ⟨rfl, rfl, ?_⟩
  simp only [trees, mergedSource, List.map_map]
  rw [List.forall₂_map_left_iff, List.forall₂_map_right_iff, List.forall₂_same]
  intro t ht
  refine ⟨rfl, methodsOf_rel ?_⟩
  simp only [mergedTmpl, List.map_map]
  rw [List.forall₂_map_left_iff, List.forall₂_map_right_iff, List.forall₂_same]
  intro d hd
  exact ⟨rfl, rfl, hg t ht d hd⟩

theorem emptyStore_rel (w : W) : StoreRel R (emptyStore C w) (emptyStore D w) :=
  ⟨rfl, rfl, rfl, rfl, .nil, fun _ h => by simp [emptyStore] at h, fun _ h => by simp [emptyStore] at h⟩

/-- Running the compiled templates is reading their (merged) trees. -/
theorem render_merged {S : Source} {P : Prog (List Stmt)} (O : Oracle W) (h : S.compile = some P)
    (hc : ∀ t ∈ S.tmpls, casesTmpl t.1 = true) (n c : Nat) (context : Dict Val) (w : W) :
    ResRel BodyOf (emptyStore _ w) (render P O n c context w)
      (semProcess (mergedSource S) O n c context w) :=
  Rel.bind (R := BodyOf) (Rel.newInst (compile_rel h hc) c context)
    (fun i => render_rel O (compile_rel h hc) n i) _ _ (emptyStore_rel w) trivial

/-- Merging does not matter if guards have no side effects. -/
theorem sem_merged (S : Source) (O : Oracle W)
    (hg : ∀ t ∈ S.tmpls, ∀ d ∈ t.1.defs, ∀ g ∈ textGuardsList d.body, Steady O g)
    (n c : Nat) (context : Dict Val) (w : W) :
    ResRel (MergeOf O) (emptyStore _ w) (semProcess (mergedSource S) O n c context w)
      (semProcess S O n c context w) :=
  Rel.bind (R := MergeOf O) (Rel.newInst (trees_merge S O hg) c context)
    (fun i => merge_render O (trees_merge S O hg) n i) _ _ (emptyStore_rel w) trivial

end Kajiki.Run
