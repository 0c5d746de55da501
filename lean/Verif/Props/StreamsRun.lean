import Verif.Lemmas.Used
import Verif.Lemmas.ExecSem

/-!
# C09: a literal in a running template
-/

namespace Kajiki.Props
open Kajiki.Run

variable {W : Type}

/-- In every state, the code `c` evaluates to the value `v`: a variable that is never reassigned. -/
def Spec.Stream.Holds (O : Oracle W) (c : Str) (v : Val) : Prop := ∀ view w, (O.eval c view w).1 = .ok v

open Spec.Stream (Holds)

/-- The store after evaluating `c`. -/
private def evald (O : Oracle W) (env : Env) (c : Str) (s : Store (List Stmt) W) : Store (List Stmt) W :=
  { s with world := (O.eval c (view env s) s.world).2 }

private theorem exec_holds {O : Oracle W} {c : Str} {id : Nat} {items : List Val} (h : Holds O c (.flatItems id items))
    (P : Prog (List Stmt)) (call : Mode → Nat → List Val → MS (List Stmt) W Unit) (env : Env)
    (s : Store (List Stmt) W) :
    exec P O call env (.yieldEscape c) s = emit call env.mode (.flatItems id items) (evald O env c s) := by
  rw [exec]
  have e : evalM O env c s = ⟨.nil, evald O env c s, .ok (.flatItems id items)⟩ := by
    simp only [evalM, ask, evald, h (view env s) s.world]
  simp only [M.bind, e, escape, Out.nil_append]

private theorem start_used (id : Nat) (s : Store (List Stmt) W) : id ∈ (start id s).st.used := by
  unfold start
  split
  · rename_i h; exact List.contains_iff_mem.1 h
  · exact List.mem_cons_self

/-- After showing a literal it counts as started, whatever happened. -/
private theorem shown_used {id : Nat} {items : List Val} (call : Mode → Nat → List Val → MS (List Stmt) W Unit)
    (hc : ∀ mode f as, Uses (call mode f as)) (mode : Mode) (s : Store (List Stmt) W) :
    id ∈ (emit call mode (.flatItems id items) s).st.used := by
  have key : ∀ mode, id ∈ ((M.bind (start id) fun fresh =>
      if fresh then emitList call mode items else M.pure ()) s).st.used := by
    intro mode
    have h1 := start_used id s
    simp only [M.bind]
    split
    · exact h1
    · rename_i b _
      cases b
      · exact h1
      · exact Uses.emitList hc mode items _ id h1
  rw [emit]
  unfold splice
  split
  · exact key _
  · exact key _
  · have := key .strict
    rw [M.bind]
    simp only
    split
    · exact this
    · exact this

/-- A literal that was started outputs nothing. -/
private theorem shown_again {id : Nat} {items : List Val} (call : Mode → Nat → List Val → MS (List Stmt) W Unit)
    (mode : Mode) (s : Store (List Stmt) W) (h : id ∈ s.used) :
    (emit call mode (.flatItems id items) s).out.txt = [] ∧ (emit call mode (.flatItems id items) s).val = .ok () := by
  have hc : s.used.contains id = true := List.contains_iff_mem.2 h
  have e : start id s = ⟨.nil, s, .ok false⟩ := by simp only [start, hc, if_pos]
  rw [emit]
  unfold splice
  split <;> simp [M.bind, e, M.pure, M.tell]

/-- **C09 is false in every template.** Once a template has interpolated a `literal()` / `Markup()`
value, interpolating the same value again adds nothing to the output, whatever statements ran in between, in this
or in other functions, and whether or not the value is reached through the same variable. -/
theorem C09_never_again (P : Prog (List Stmt)) (O : Oracle W) (n : Nat) (env : Env) (between : List Stmt)
    (c c' : Str) (id : Nat) (items items' : List Val) (h : Holds O c (.flatItems id items))
    (h' : Holds O c' (.flatItems id items')) (s : Store (List Stmt) W) :
    (execList P O (callN P O n) env (.yieldEscape c :: between ++ [.yieldEscape c']) s).out.txt =
      (execList P O (callN P O n) env (.yieldEscape c :: between) s).out.txt ∧
    (execList P O (callN P O n) env (.yieldEscape c :: between ++ [.yieldEscape c']) s).val =
      (execList P O (callN P O n) env (.yieldEscape c :: between) s).val := by
  have hc : ∀ mode f as, Uses (callN P O n mode f as) := Uses.callN n
  have hu : id ∈ (execList P O (callN P O n) env (.yieldEscape c :: between) s).st.used := by
    have h1 : id ∈ (exec P O (callN P O n) env (.yieldEscape c) s).st.used := by
      rw [exec_holds h]; exact shown_used _ hc _ _
    rw [execList]
    simp only [M.bind]
    split
    · exact h1
    · exact Uses.execList hc env between _ id h1
  rw [execList_append]
  simp only [M.bind]
  cases hv : (execList P O (callN P O n) env (.yieldEscape c :: between) s).val with
  | error e => exact ⟨rfl, rfl⟩
  | ok u =>
    generalize execList P O (callN P O n) env (.yieldEscape c :: between) s = r at hu
    have h1 := shown_again (items := items') (callN P O n) env.mode (evald O env c' r.st) hu
    rw [execList_single, exec_holds h', Out.append_txt, h1.1, h1.2, List.append_nil]
    exact ⟨rfl, rfl⟩

/-- **C09 (the part that holds).** The first interpolation of a literal made from the text `t` outputs `t`. -/
theorem C09_first_partial (P : Prog (List Stmt)) (O : Oracle W) (n : Nat) (env : Env) (c t : Str) (id : Nat)
    (h : Holds O c (.flatItems id [.str t])) (s : Store (List Stmt) W) (hs : id ∉ s.used) :
    (execList P O (callN P O n) env [.yieldEscape c] s).out.txt = t ∧
    (execList P O (callN P O n) env [.yieldEscape c] s).val = .ok () := by
  have hc : (evald O env c s).used.contains id = false := by
    simp only [evald]; simpa using hs
  have e : start id (evald O env c s) = ⟨.nil, { evald O env c s with used := id :: s.used }, .ok true⟩ := by
    simp only [start, hc]; rfl
  have ts : toStr (.str t) = t := rfl
  rw [execList]
  simp only [M.bind, exec_holds h]
  rw [emit]
  cases env.mode <;> simp [splice, M.bind, e, emitList, emit, chunk, M.tell, M.pure, Out.chunk, execList, ts]

/-- A process in which the variable `m` holds the literal `<b>` (flattener number 0). -/
private def litOracle : Oracle Unit :=
  { eval := fun c _ w => (if c = ['m'] then .ok (.flatItems 0 [.str "<b>".toList]) else .ok (.int 7), w)
    iter := fun _ _ w => (.ok [], w)
    py := fun _ _ w => (.ok [], w)
    args := fun _ _ w => (.ok [], w)
    gettext := fun _ _ w => (.ok .none, w) }

private def litProg : Prog (List Stmt) := ⟨[], fun _ => none, id⟩

example : Holds litOracle ['m'] (.flatItems 0 [.str "<b>".toList]) := fun _ _ => rfl

/-- `$m and ${x} and $m` -/
example : (execList litProg litOracle (callN litProg litOracle 3) ⟨0, 0, none, .stream⟩
    [.yieldEscape ['m'], .yieldLit " and ".toList, .yieldEscape ['x'], .yieldLit " and ".toList, .yieldEscape ['m']]
    (emptyStore _ ())).out.txt = "<b> and 7 and ".toList := by
  rw [show [Stmt.yieldEscape ['m'], .yieldLit " and ".toList, .yieldEscape ['x'], .yieldLit " and ".toList,
      .yieldEscape ['m']] = .yieldEscape ['m'] :: [.yieldLit " and ".toList, .yieldEscape ['x'],
      .yieldLit " and ".toList] ++ [.yieldEscape ['m']] from rfl]
  rw [(C09_never_again litProg litOracle 3 _ _ ['m'] ['m'] 0 _ _ (fun _ _ => rfl) (fun _ _ => rfl) _).1]
  decide +kernel

end Kajiki.Props
