import Verif.Lemmas.ShareMain
import Mathlib.Data.Nat.Pairing

/-!
# C57: instances do not interfere

Any number of instances, of the same or of different classes, are rendered in one process; which rendering makes
the next step is arbitrary (`turns`).
-/

namespace Kajiki.Props
open Kajiki Kajiki.Run Spec.Share

section
variable {W : Type} (P : Prog (List Stmt)) (O : Nat → Oracle W) (O' : Nat → Oracle (Nat → W)) (fl : Nat → Nat → Nat)
  (depth cls : Nat → Nat) (ctx ctx' : Nat → Dict Val) (s : Store (List Stmt) (Nat → W)) (turns : List Nat)

/-- C57.  Rendering number `k` makes an instance of class `cls k` with context `ctx k` and renders it, in a process
with state `s` at the beginning (other objects may exist there).  At every moment it has produced a beginning of the
text it produces when it has the process for itself, and when it is finished it has produced all of that text, with
the same exception if there is one, and the same changes to its part of the world.

`hO` and `hctx` say that Python code of rendering `k` and its context are the same in both situations, up to the
numbering of objects (`fl k` numbers the flatteners of rendering `k`). -/
theorem C57_no_interference (hP : PlainProg P) (hinj : ∀ k, Function.Injective (fl k))
    (hfl : ∀ j k, j ≠ k → ∀ a b, fl j a ≠ fl k b) (hO : ∀ k, OracleR (fl k) k (O k) (O' k))
    (hctx : ∀ k, DictR (fl k) Ren.nil (ctx k) (ctx' k)) (hs : ∀ k a, fl k a ∉ s.used) (k : Nat) :
    let x := System.play ⟨fun k => ⟨.nil, renderP P (O' k) (depth k) (cls k) (ctx' k)⟩, s⟩ turns
    let alone := render P (O k) (depth k) (cls k) (ctx k) (s.world k)
    (x.threads k).out.txt <+: alone.out.txt ∧
    ∀ r, (x.threads k).proc = .done r →
      (x.threads k).out = alone.out ∧ r = alone.val ∧ x.store.world k = alone.st.world := by
  intro x alone
  obtain ⟨ρ, a, q, h⟩ := play_inv hfl turns (start_inv hinj s hs
    (p := fun k => renderP P (O k) (depth k) (cls k) (ctx k))
    (p' := fun k => renderP P (O' k) (depth k) (cls k) (ctx' k))
    fun k => render_rel hP (hO k) (depth k) (cls k) (hctx k))
  have ho := h.out k
  have hv := h.val k
  have ht := h.st k
  rw [run_render] at ho hv ht
  refine ⟨?_, fun r hr => ?_⟩
  · show _ <+: (render P (O k) (depth k) (cls k) (ctx k) (s.world k)).out.txt
    rw [ho]
    exact List.prefix_append _ _
  · have hp := h.proc k
    cases hq : q k with
    | step o n c => rw [hq, hr] at hp; exact hp.elim
    | done r' =>
      rw [hq, hr] at hp
      rw [hq] at ho hv ht
      refine ⟨?_, ?_, ?_⟩
      · rw [show alone.out = _ from ho]
        exact (Out.append_nil _).symm
      · rw [show alone.val = r' from hv]
        cases r with
        | ok u => cases r' with
          | ok u' => rfl
          | error e => exact hp.elim
        | error e => cases r' with
          | ok u' => exact hp.elim
          | error e' => exact congrArg _ (Eq.symm hp)
      · rw [show alone.st = a k from ht]
        exact (h.store k).world

/-- C57.  Other renderings cannot hold a rendering up: it is finished after as many turns of its own as it makes
steps when it is alone. -/
theorem C57_no_delay (hP : PlainProg P) (hinj : ∀ k, Function.Injective (fl k))
    (hfl : ∀ j k, j ≠ k → ∀ a b, fl j a ≠ fl k b) (hO : ∀ k, OracleR (fl k) k (O k) (O' k))
    (hctx : ∀ k, DictR (fl k) Ren.nil (ctx k) (ctx' k)) (hs : ∀ k a, fl k a ∉ s.used) (k : Nat)
    (ht : steps (renderP P (O k) (depth k) (cls k) (ctx k)) (emptyStore _ (s.world k)) ≤ turns.count k) :
    ∃ r, ((System.play ⟨fun k => ⟨.nil, renderP P (O' k) (depth k) (cls k) (ctx' k)⟩, s⟩ turns).threads k).proc =
      .done r := by
  obtain ⟨ρ, a, q, h⟩ := play_inv hfl turns (start_inv hinj s hs
    (p := fun k => renderP P (O k) (depth k) (cls k) (ctx k))
    (p' := fun k => renderP P (O' k) (depth k) (cls k) (ctx' k))
    fun k => render_rel hP (hO k) (depth k) (cls k) (hctx k))
  have hp := h.proc k
  have hst := h.steps k
  rw [List.nil_append] at hst
  revert hp
  generalize ((System.play _ turns).threads k).proc = t
  intro hp
  cases hq : q k with
  | done r =>
    rw [hq] at hp
    cases t with
    | done r' => exact ⟨r', rfl⟩
    | step o n c => exact hp.elim
  | step o n c =>
    rw [hq, steps] at hst
    rcases hst with ⟨r, hst⟩ | hst
    · cases hst
    · omega

end

/-! ## Examples -/

/-- An expression is a name: a local variable, or a global name of the instance. -/
private def look (e : Str) (V : View) : Except Err Val :=
  match V.locals.findSome? (Dict.get · e) with
  | some v => .ok v
  | none =>
    match V.insts[V.inst]? with
    | none => .error .name
    | some x => match Dict.get x.globals e with
      | some v => .ok v
      | none => .error .name

/-- Python that looks names up and counts how often it is asked.  `for` gives `x` the values 1 and 2. -/
private def demoO : Oracle Nat where
  eval e V w := (look e V, w + 1)
  iter _ _ w := (.ok [[(['x'], .int 1)], [(['x'], .int 2)]], w + 1)
  py _ _ w := (.ok [], w + 1)
  args _ _ w := (.ok [], w + 1)
  gettext _ s w := (.ok (.str s), w + 1)

/-- The same for rendering `k` in a shared process. -/
private def demoO' (k : Nat) : Oracle (Nat → Nat) where
  eval e V w := (look e V, fun i => if i = k then w i + 1 else w i)
  iter _ _ w := (.ok [[(['x'], .int 1)], [(['x'], .int 2)]], fun i => if i = k then w i + 1 else w i)
  py _ _ w := (.ok [], fun i => if i = k then w i + 1 else w i)
  args _ _ w := (.ok [], fun i => if i = k then w i + 1 else w i)
  gettext _ s w := (.ok (.str s), fun i => if i = k then w i + 1 else w i)

private theorem demoAns {α β : Type} {k : Nat} {R : α → β → Prop} {w : Nat → Nat} {r : Except Err α} {r' : Except Err β}
    (h : ExceptR R r r') : AnsR k R w (r, w k + 1) (r', fun i => if i = k then w i + 1 else w i) :=
  ⟨h, if_pos rfl, fun _ h => if_neg h⟩

private theorem look_rel {fl : Nat → Nat} {ρ : Ren} {V V' : View} (h : ViewR fl ρ V V') (e : Str) :
    ExceptR (ValR fl ρ) (look e V) (look e V') := by
  have h1 : Option.Rel (ValR fl ρ) (V.locals.findSome? (Dict.get · e)) (V'.locals.findSome? (Dict.get · e)) := by
    have := h.locals
    revert this
    generalize V.locals = l
    generalize V'.locals = l'
    intro h
    induction h with
    | nil => exact .none
    | cons a h ih =>
      rw [List.findSome?_cons, List.findSome?_cons]
      have ha := a.get e
      revert ha
      generalize Dict.get _ e = x
      generalize Dict.get _ e = y
      intro ha
      cases ha with
      | none => exact ih
      | some ha => exact .some ha
  unfold look
  revert h1
  generalize V.locals.findSome? _ = x
  generalize V'.locals.findSome? _ = y
  intro h1
  cases h1 with
  | some ha => exact ha
  | none =>
    obtain ⟨x, hx, y, hy, hr⟩ := get_some_of_forall₂' h.insts h.inst
    have ha := hr.globals.get e
    simp only [hx, hy]
    revert ha
    generalize Dict.get _ e = x
    generalize Dict.get _ e = y
    intro ha
    cases ha with
    | none => exact rfl
    | some ha => exact ha

private theorem demoO_rel (fl : Nat → Nat) (k : Nat) : OracleR fl k demoO (demoO' k) where
  eval _ e _ _ _ h := demoAns (look_rel h e)
  iter _ _ _ _ _ _ := demoAns (.cons (.cons ⟨rfl, .int 1⟩ .nil) (.cons (.cons ⟨rfl, .int 2⟩ .nil) .nil))
  py _ _ _ _ _ _ := demoAns .nil
  args _ _ _ _ _ _ _ := demoAns .nil
  gettext _ _ _ s _ _ _ := demoAns (.str s)

/-- `<py:for each="x in …"><py:switch test="x"><py:case value="who">!</py:case><py:else>.</py:else></py:switch></py:for>` -/
private def demoBody : List Stmt :=
  [.forS "x in xs".toList
    [.pushSwitch ['x'], .ifS (.case "who".toList) [.yieldLit ['!']] [.yieldLit ['.']], .popSwitch] []]

private def demoP : Prog (List Stmt) := ⟨[⟨[("__main__".toList, "__main__()".toList, demoBody)], []⟩], fun _ => none, id⟩

private def demoStore : Store (List Stmt) (Nat → Nat) := emptyStore _ fun _ => 0

private def demoCtx (k : Nat) : Dict Val := [("who".toList, .int k)]

/-- The renderings of one class with different contexts, all at the same time. -/
private def demoSystem : System (Store (List Stmt) (Nat → Nat)) :=
  ⟨fun k => ⟨.nil, renderP demoP (demoO' k) 5 0 (demoCtx k)⟩, demoStore⟩

/-- The hypotheses hold of it. -/
example (turns : List Nat) (k : Nat) :
    ((demoSystem.play turns).threads k).out.txt <+: (render demoP demoO 5 0 (demoCtx k) 0).out.txt :=
  (C57_no_interference demoP (fun _ => demoO) demoO' Nat.pair (fun _ => 5) (fun _ => 0) demoCtx demoCtx demoStore turns
    (by intro c hc x hx; simp only [demoP, List.mem_singleton] at hc; subst hc; simp at hx)
    (fun k a b h => (Nat.pair_eq_pair.1 h).2)
    (fun j k h a b e => h (Nat.pair_eq_pair.1 e).1)
    (fun k => demoO_rel _ k)
    (fun k => .cons ⟨rfl, .int k⟩ .nil)
    (by simp [demoStore, emptyStore]) k).1

/-- Rendering 1 and rendering 2 step by step in turn: each sees its own switch. -/
example : ((demoSystem.play ((List.replicate 40 [1, 2]).flatten)).threads 1).out.txt = "!.".toList ∧
    ((demoSystem.play ((List.replicate 40 [1, 2]).flatten)).threads 2).out.txt = ".!".toList := by
  decide +kernel

/-- Is a rendering finished? -/
private def finished {S α : Type} : Proc S α → Bool
  | .done _ => true
  | .step .. => false

private theorem done_of_finished {S α : Type} {p : Proc S α} (h : finished p = true) : ∃ r, p = .done r := by
  cases p with
  | done r => exact ⟨r, rfl⟩
  | step o n c => cases h

/-- C57 is about instances: two generators over *one* instance `i` can interfere (they share its switch stack), so
that one of them ends with another text than it would produce alone, although Python code is as in
`C57_no_interference`. -/
theorem C57_one_instance_interferes : ∃ (P : Prog (List Stmt)) (O : Oracle Nat) (O' : Nat → Oracle (Nat → Nat))
    (s : Store (List Stmt) (Nat → Nat)) (i : Nat) (turns : List Nat) (k : Nat),
    PlainProg P ∧ (∀ k, OracleR (Nat.pair k) k O (O' k)) ∧
    let x := System.play ⟨fun k => ⟨.nil, emitMainP (callNP P (O' k) 5) .stream i⟩, s⟩ turns
    (∃ r, (x.threads k).proc = .done r) ∧
    (x.threads k).out ≠ (Proc.run (emitMainP (callNP P (O' k) 5) .stream i) s).out := by
  refine ⟨demoP, demoO, demoO', (newInst demoP 0 (demoCtx 1) demoStore).st, 0,
    List.replicate 8 1 ++ (List.replicate 40 [1, 2]).flatten, 2,
    by intro c hc x hx; simp only [demoP, List.mem_singleton] at hc; subst hc; simp at hx,
    fun k => demoO_rel _ k, done_of_finished ?_, ?_⟩
  · decide +kernel
  · decide +kernel

end Kajiki.Props
