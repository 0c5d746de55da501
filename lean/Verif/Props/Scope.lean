import Verif.Lemmas.Scope

/-!
# C60: template functions have their own variables
-/

namespace Kajiki.Props
open Kajiki.Run Kajiki.Spec.Scope

variable {W : Type}

private theorem older_safe {s : Store (List Stmt) W} (h : Older s) : Scope.Safe (fun _ => True) Scope.anything s :=
  ⟨h, fun _ _ _ _ _ => trivial, fun _ _ => ⟨fun _ _ _ => trivial, fun _ _ _ => trivial⟩⟩

/-- A new process. -/
theorem C60_start (w : W) : Older (emptyStore (List Stmt) w) := by
  intro i f j h
  cases h

/-- **C60**.  Calling a template function, with everything it includes, imports, extends and calls, changes
no variable of any function that is running or that a nested function refers to, whether the call succeeds
or not: all variables that exist before the call have the same values afterwards. -/
theorem C60_call (P : Prog (List Stmt)) (O : Oracle W) (n : Nat) (mode : Mode) (f : Nat) (as : List Val)
    (s : Store (List Stmt) W) (h : Older s) :
    Older (callN P O n mode f as s).st ∧
    ∀ (i : Nat) (fr : Frame), s.frames[i]? = some fr → ∃ fr' : Frame, (callN P O n mode f as s).st.frames[i]? = some fr' ∧
      fr'.up = fr.up ∧ ∀ x, fr'.vars.get x = fr.vars.get x := by
  obtain ⟨h1, h2, _⟩ := Scope.callN_keeps (P := P) (O := O) (R := fun _ => True) (fun _ => trivial) n mode f as s (older_safe h)
  refine ⟨h1.ups, fun i fr hf => ?_⟩
  obtain ⟨g, hg, hu, hv⟩ := h2.frames i fr hf
  exact ⟨g, hg, hu, fun x => hv x id⟩

/-- What the caller sees: after the call, every name is found in the scopes of the caller with the value it
had before, or is in none of them as before. -/
theorem C60_call_seen (P : Prog (List Stmt)) (O : Oracle W) (n : Nat) (mode : Mode) (f : Nat) (as : List Val)
    (s : Store (List Stmt) W) (h : Older s) (env : Env) (he : env.frame < s.frames.length) (x : Str) :
    ((view env (callN P O n mode f as s).st).locals.findSome? fun d => d.get x) =
      (view env s).locals.findSome? fun d => d.get x := by
  obtain ⟨h1, h2, _⟩ := Scope.callN_keeps (P := P) (O := O) (R := fun _ => True) (fun _ => trivial) n mode f as s (older_safe h)
  have hle := h2.frames_le
  unfold view
  dsimp only
  rw [Scope.scopes_fuel h1.ups env.frame _ s.frames.length (by omega) he]
  refine (Scope.scopes_lookup (n := x) (older_safe h).ups (fun i f hf => ?_) s.frames.length env.frame he)
  obtain ⟨g, hg, hu, hv⟩ := h2.frames i f hf
  exact ⟨g, hg, hu, hv x id⟩

/-- A statement changes at most variables of the function it is in: not those of functions around it, and not
those of callers. -/
theorem C60_statement (P : Prog (List Stmt)) (O : Oracle W) (n : Nat) (env : Env) (x : Stmt)
    (s : Store (List Stmt) W) (h : Older s) :
    Older (exec P O (callN P O n) env x s).st ∧
    ∀ (i : Nat) (fr : Frame), i ≠ env.frame → s.frames[i]? = some fr →
      ∃ fr' : Frame, (exec P O (callN P O n) env x s).st.frames[i]? = some fr' ∧
        fr'.up = fr.up ∧ ∀ x, fr'.vars.get x = fr.vars.get x := by
  obtain ⟨h1, h2, _⟩ := Scope.exec_keeps (P := P) (O := O) (R := fun _ => True) (fun _ => trivial)
    (Scope.callN_keeps (fun _ => trivial) n) env x s (older_safe h)
  refine ⟨h1.ups, fun i fr hi hf => ?_⟩
  obtain ⟨g, hg, hu, hv⟩ := h2.frames i fr hf
  exact ⟨g, hg, hu, fun x => hv x fun h => hi h.1⟩

/-! ### An example

Function 0 sets `x`, as its caller did. -/

private def setsX : Oracle Nat where
  eval _ _ w := (.ok .none, w)
  iter _ _ w := (.ok [], w)
  py _ _ w := (.ok [(['x'], .int 2)], w)
  args _ _ w := (.ok [], w)
  gettext _ s w := (.ok (.str s), w)

private def caller : Store (List Stmt) Nat :=
  { emptyStore (List Stmt) 0 with
    frames := [⟨[(['x'], .int 1)], none, none⟩]
    fns := [⟨.code "f()".toList [.py []], 0, none, false⟩]
    insts := [⟨0, [], [], []⟩] }

example : Older caller ∧
    ((callN ⟨[], fun _ => none, id⟩ setsX 2 .stream 0 [] caller).st.frames.map fun f =>
      match f.vars.get ['x'] with | some (.int i) => i | _ => 0) = [1, 2] := by
  refine ⟨?_, by decide +kernel⟩
  intro i f j h hu
  cases i with
  | zero => cases h; cases hu
  | succ i => cases h

end Kajiki.Props
