import Verif.Lemmas.Compile

/-!
# C10, C11: generated Python

C11 is stated against `Verif/Spec/Code.lean`: which nested statements a tree means (`codeTmpl`) and
when it is acceptable (`placedTmpl`).  `compilePy` reads lines with Python's indentation rules.
-/

namespace Kajiki.Props
open Kajiki.Run Kajiki.Spec.Code Kajiki.Spec.Sem

/-! ## C11 -/

/-- **C11.** For every tree, the generated lines are accepted by Python exactly when no directive
body is empty and every `else`/`case` directly follows what it belongs to; and then they are read as
exactly the block structure of the tree (with neighbouring texts merged). -/
theorem C11_block_structure (t : Tmpl) :
    compilePy (generatePython t) =
      if placedTmpl t then some (codeTmpl (mergedTmpl t)) else none :=
  compilePy_generatePython t

/-- A template with nested directives, for the examples. -/
private def demo : Tmpl :=
  ⟨[], [⟨"__main__()".toList,
    [.forN "i in x".toList [.ifN "i".toList [.text "a".toList none 1, .text "b".toList none 1] 1,
      .elseN [.expr "i".toList false 1] 1] 1, .text "end".toList none 2], 1⟩]⟩

example : compilePy (generatePython demo) = some
    ⟨[], [("__main__()".toList, [.forS "i in x".toList
      [.ifS (.code "i".toList) [.yieldLit "ab".toList] [.yieldEscape "i".toList]] [],
      .yieldLit "end".toList])]⟩ := by rw [C11_block_structure]; rfl

/-- What follows a directive is outside its block, whatever the directive contains: the statements of
`x` and of its right neighbours are separate, unless the neighbour is a `case` or `else`. -/
theorem C11_siblings_stay_outside (xs ys : List Ir) (h : elsePart ys = []) :
    code (xs ++ ys) = code xs ++ code ys := by
  have he : ∀ xs : List Ir, elsePart (xs ++ ys) = elsePart xs := by
    intro xs
    induction xs with
    | nil => simpa [elsePart] using h
    | cons x xs ih =>
      cases x with
      | python ls l => cases ls <;> simp only [List.cons_append, elsePart, ih]
      | _ => simp only [List.cons_append, elsePart, ih]
  induction xs with
  | nil => simp [code]
  | cons x xs ih => simp only [List.cons_append, code, ih, he, List.append_assoc]

example : code ([.ifN ['a'] [.pass 1] 1] ++ [.pass 2]) =
    [.ifS (.code ['a']) [.yieldLit []] []] ++ code [.pass 2] :=
  C11_siblings_stay_outside _ _ (by decide +kernel)

/-- The bodies of a node. -/
def Spec.Code.bodies : Ir → List (List Ir)
  | .attr _ _ _ v _ => [v]
  | .innerDef _ b _ | .call _ _ b _ | .forN _ b _ | .withN _ b _ | .switchN _ b _ | .caseN _ b _
  | .ifN _ b _ | .elseN b _ => [b]
  | _ => []

open Spec.Code (bodies)

/-- `ys` is `xs`, or the body of a node at any depth below `xs`. -/
inductive Spec.Code.Inside (ys : List Ir) : List Ir → Prop
  | here : Inside ys ys
  | deeper {x : Ir} {b xs : List Ir} : x ∈ xs → b ∈ bodies x → Inside ys b → Inside ys xs

open Spec.Code (Inside)

private theorem placed_mem {k : Follow} {xs : List Ir} {x : Ir} (h : placed k xs = true) (hx : x ∈ xs) :
    ∃ k', placedOne k' x = true := by
  induction xs generalizing k with
  | nil => simp at hx
  | cons y ys ih =>
    simp only [placed, Bool.and_eq_true] at h
    rcases List.mem_cons.1 hx with rfl | hx
    · exact ⟨_, h.1⟩
    · exact ih h.2 hx

private theorem placed_body {k : Follow} {x : Ir} {b : List Ir} (h : placedOne k x = true)
    (hb : b ∈ bodies x) : ∃ k', placed k' b = true := by
  cases x <;> simp only [bodies, List.mem_singleton, List.not_mem_nil] at hb <;> subst hb <;>
    simp only [placedOne, Bool.and_eq_true, Bool.or_eq_true, List.isEmpty_iff] at h
  case attr => rcases h with rfl | h; exacts [⟨.nothing, rfl⟩, ⟨_, h.2⟩]
  case innerDef => rcases h with rfl | h; exacts [⟨.nothing, rfl⟩, ⟨_, h.2⟩]
  case withN => exact ⟨_, h⟩
  case switchN => exact ⟨_, h⟩
  case caseN => exact ⟨_, h.2.2⟩
  case elseN => exact ⟨_, h.2.2⟩
  all_goals exact ⟨_, h.2⟩

private theorem placed_inside {k : Follow} {ys xs : List Ir} (hi : Inside ys xs)
    (h : placed k xs = true) : ∃ k', placed k' ys = true := by
  induction hi generalizing k with
  | here => exact ⟨_, h⟩
  | deeper hx hb _ ih =>
    obtain ⟨k1, h1⟩ := placed_mem h hx
    obtain ⟨k2, h2⟩ := placed_body h1 hb
    exact ih h2

private theorem reject {t : Tmpl} {d : Def} {zs : List Ir} (hd : d ∈ t.defs) (hi : Inside zs d.body)
    (hz : ∀ k, placed k zs = false) : compilePy (generatePython t) = none := by
  rw [C11_block_structure, if_neg]
  intro h
  simp only [placedTmpl, Bool.and_eq_true, List.all_eq_true] at h
  have := h.2 d hd
  have hp : placed .nothing d.body = true := by
    cases hb : d.body with
    | nil => rfl
    | cons _ _ => rw [hb] at this; simp at this; exact this.2
  obtain ⟨k, hk⟩ := placed_inside hi hp
  rw [hz] at hk
  cases hk

/-- **C11 (rejection).** A directive without content, at any depth of a function, is rejected. -/
theorem C11_empty_body_rejected (t : Tmpl) (d : Def) (hd : d ∈ t.defs) (xs ys : List Ir) (x : Ir)
    (hb : Inside (xs ++ x :: ys) d.body)
    (hx : (∃ e l, x = .ifN e [] l) ∨ (∃ e l, x = .forN e [] l) ∨ (∃ l, x = .elseN [] l) ∨
      (∃ e l, x = .caseN e [] l) ∨ (∃ f c l, x = .call f c [] l)) :
    compilePy (generatePython t) = none := by
  refine reject hd hb ?_
  clear hb
  induction xs with
  | nil =>
    intro k
    rcases hx with ⟨_, _, rfl⟩ | ⟨_, _, rfl⟩ | ⟨_, rfl⟩ | ⟨_, _, rfl⟩ | ⟨_, _, _, rfl⟩ <;>
      simp [placed, placedOne]
  | cons y xs ih => intro k; simp [placed, ih]

example : compilePy (generatePython ⟨[], [⟨['f'], [.forN ['y'] [.text ['a'] none 1, .ifN ['x'] [] 2] 1], 1⟩]⟩)
    = none :=
  C11_empty_body_rejected _ _ (List.mem_singleton.2 rfl) [_] [] _
    (.deeper (List.mem_singleton.2 rfl) (List.mem_singleton.2 rfl) .here) (Or.inl ⟨_, _, rfl⟩)

/-- **C11 (rejection).** An `else` that does not directly follow an `if`, a `for`, a `case`, an
attribute or a guarded text is rejected, at any depth. -/
theorem C11_misplaced_else_rejected (t : Tmpl) (d : Def) (hd : d ∈ t.defs) (xs ys b : List Ir) (x : Ir)
    (l : Nat) (hx : ∀ k, after k x = .nothing) (hb : Inside (xs ++ x :: .elseN b l :: ys) d.body) :
    compilePy (generatePython t) = none := by
  refine reject hd hb ?_
  clear hb
  induction xs with
  | nil => intro k; simp [placed, placedOne, hx]
  | cons y xs ih => intro k; simp [placed, ih]

example : compilePy (generatePython
    ⟨[], [⟨['f'], [.ifN ['x'] [.pass 1] 1, .expr ['y'] true 1, .elseN [.pass 1] 1], 1⟩]⟩) = none :=
  C11_misplaced_else_rejected _ _ (List.mem_singleton.2 rfl) [_] [] _ _ _ (fun _ => rfl) .here

/-! ## C10 -/

variable {W : Type}

/-- The classes without merging: every text is its own statement. -/
def plainProgram (S : Source) : Prog (List Stmt) :=
  ⟨S.tmpls.map fun t => classOf (codeTmpl t.1).defs t.2, S.load, S.aliasFor⟩

private theorem plain_rel (S : Source) (hp : ∀ t ∈ S.tmpls, placedTmpl t.1 = true)
    (hc : ∀ t ∈ S.tmpls, casesTmpl t.1 = true) : ProgRel BodyOf (plainProgram S) (trees S) := by
  refine ⟨rfl, rfl, ?_⟩
  simp only [plainProgram, trees]
  rw [List.forall₂_map_left_iff, List.forall₂_map_right_iff, List.forall₂_same]
  intro t ht
  refine ⟨rfl, methodsOf_rel ?_⟩
  simp only [codeTmpl]
  rw [List.forall₂_map_left_iff, List.forall₂_map_right_iff, List.forall₂_same]
  intro d hd
  refine ⟨rfl, rfl, List.all_eq_true.1 (hc t ht) d hd, ?_⟩
  have := hp t ht
  simp only [placedTmpl, Bool.and_eq_true, List.all_eq_true] at this
  have := this.2 d hd
  cases hb : d.body with
  | nil => simp [placed]
  | cons x xs => rw [hb] at this; simp at this; exact this.2

private theorem compile_placed {S : Source} {P : Prog (List Stmt)} (h : S.compile = some P) :
    ∀ t ∈ S.tmpls, placedTmpl t.1 = true := by
  simp only [Source.compile, Option.map_eq_some_iff] at h
  obtain ⟨cs, hcs, -⟩ := h
  generalize S.tmpls = ts at hcs
  induction ts generalizing cs with
  | nil => intro t ht; simp at ht
  | cons t ts ih =>
    simp only [compileAll] at hcs
    split at hcs
    · next c cs' h1 h2 =>
      intro t' ht
      rcases List.mem_cons.1 ht with rfl | ht
      · simp only [fromIr, compilePy_generatePython] at h1
        split at h1
        · assumption
        · simp at h1
      · exact ih _ h2 t' ht
    · simp at hcs

/-- **C10.** For any templates that compile, rendering any of them with the merged code gives the
same text, the same exception (if any) and the same side effects as with the code in which every text
is a statement of its own, provided the guards of guarded texts (`py:strip`) have no side effects. -/
theorem C10_merging_preserves_rendering (S : Source) (P : Prog (List Stmt)) (O : Oracle W)
    (h : S.compile = some P) (hc : ∀ t ∈ S.tmpls, casesTmpl t.1 = true)
    (hg : ∀ t ∈ S.tmpls, ∀ d ∈ t.1.defs, ∀ g ∈ textGuardsList d.body, Steady O g)
    (n c : Nat) (context : Dict Val) (w : W) :
    let merged := render P O n c context w
    let plain := render (plainProgram S) O n c context w
    merged.out.txt = plain.out.txt ∧ merged.val = plain.val ∧ merged.st.world = plain.st.world := by
  have h1 := render_merged O h hc n c context w
  have h2 := sem_merged S O hg n c context w
  have hp := plain_rel S (compile_placed h) hc
  have h3 : ResRel BodyOf (emptyStore _ w) (render (plainProgram S) O n c context w)
      (semProcess S O n c context w) :=
    Rel.bind (R := BodyOf) (Rel.newInst hp c context)
      (fun i => render_rel O hp n i) _ _ (emptyStore_rel w) trivial
  refine ⟨?_, ?_, ?_⟩
  · rw [h1.out, h2.out, h3.out]
  · rw [h1.val, h2.val, h3.val]
  · rw [h1.st.world, h2.st.world, h3.st.world]

/-- An oracle that counts evaluations; an expression is true the first time only. -/
private def counting : Oracle Nat where
  eval _ _ w := (.ok (.bool (w == 0)), w + 1)
  iter _ _ w := (.ok [], w)
  py _ _ w := (.ok [], w)
  args _ _ w := (.ok [], w)
  gettext _ s w := (.ok (.str s), w)

/-- An oracle in which every expression is true. -/
private def constTrue : Oracle Nat where
  eval _ _ w := (.ok (.bool true), w)
  iter _ _ w := (.ok [], w)
  py _ _ w := (.ok [], w)
  args _ _ w := (.ok [], w)
  gettext _ s w := (.ok (.str s), w)

private def guarded : Source :=
  ⟨[(⟨[], [⟨"__main__()".toList, [.text ['a'] (some ['g']) 1, .text ['b'] (some ['g']) 1], 1⟩]⟩, [])],
    fun _ => none, id⟩

example : ∃ P, guarded.compile = some P ∧
    (render P constTrue 5 0 [] 0).out.txt = ['a', 'b'] ∧
    (render P constTrue 5 0 [] 0).out.txt = (render (plainProgram guarded) constTrue 5 0 [] 0).out.txt := by
  obtain ⟨P, hP⟩ : ∃ P, guarded.compile = some P := Option.isSome_iff_exists.1 (by decide +kernel)
  refine ⟨P, hP, ?_, (C10_merging_preserves_rendering guarded P constTrue hP (by decide +kernel) ?_ 5 0 [] 0).1⟩
  · have : ((guarded.compile.map fun P => (render P constTrue 5 0 [] 0).out.txt)) = some ['a', 'b'] := by
      decide +kernel
    rw [hP] at this; simpa using this
  · intro t _ d _ g _ v w x w' hh
    simp only [constTrue, Prod.mk.injEq] at hh
    exact hh.2.symm

/-- The condition on guards is needed: a guard with side effects is evaluated once for merged texts,
so the output differs. -/
theorem C10_needs_steady_guards :
    ∃ (S : Source) (P : Prog (List Stmt)) (O : Oracle Nat), S.compile = some P ∧
      (render P O 5 0 [] 0).out.txt = ['a', 'b'] ∧
      (render (plainProgram S) O 5 0 [] 0).out.txt = ['a'] := by
  obtain ⟨P, hP⟩ : ∃ P, guarded.compile = some P := Option.isSome_iff_exists.1 (by decide +kernel)
  refine ⟨guarded, P, counting, hP, ?_, by decide +kernel⟩
  have : ((guarded.compile.map fun P => (render P counting 5 0 [] 0).out.txt)) = some ['a', 'b'] := by
    decide +kernel
  rw [hP] at this; simpa using this

end Kajiki.Props
