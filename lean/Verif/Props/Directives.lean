import Verif.Lemmas.Compile
import Verif.Lemmas.Dict

/-!
# C12-C16, C19: what the directives do when a compiled template runs

`C12_rendering_is_meaning` compares the run of the compiled program with `Verif/Spec/Sem.lean`, which
reads the trees directly and has no runtime stacks.  The remaining theorems say what that means for
the single directives.  Expressions are arbitrary (`Oracle`): they may have side effects and fail.
-/

namespace Kajiki.Props
open Kajiki.Run Kajiki.Spec.Code Kajiki.Spec.Sem

variable {W : Type}

/-! ## The whole program -/

/-- **C12-C16, C19.** Rendering a template of any compiled set of templates gives the text, the
exception and the side effects that its trees mean, for every context and every behaviour of the
expressions. -/
theorem C12_rendering_is_meaning (S : Source) (P : Prog (List Stmt)) (O : Oracle W)
    (h : S.compile = some P) (hc : ∀ t ∈ S.tmpls, casesTmpl t.1 = true) (n c : Nat)
    (context : Dict Val) (w : W) :
    let real := render P O n c context w
    let meant := semProcess (mergedSource S) O n c context w
    real.out = meant.out ∧ real.val = meant.val ∧ real.st.world = meant.st.world := by
  have h1 := render_merged O h hc n c context w
  exact ⟨h1.out, h1.val, h1.st.world⟩

/-- The same with the texts as written, if the guards of `py:strip` have no side effects. -/
theorem C12_rendering_is_meaning_unmerged (S : Source) (P : Prog (List Stmt)) (O : Oracle W)
    (h : S.compile = some P) (hc : ∀ t ∈ S.tmpls, casesTmpl t.1 = true)
    (hg : ∀ t ∈ S.tmpls, ∀ d ∈ t.1.defs, ∀ g ∈ textGuardsList d.body, Steady O g) (n c : Nat)
    (context : Dict Val) (w : W) :
    let real := render P O n c context w
    let meant := semProcess S O n c context w
    real.out = meant.out ∧ real.val = meant.val ∧ real.st.world = meant.st.world := by
  have h1 := render_merged O h hc n c context w
  have h2 := sem_merged S O hg n c context w
  exact ⟨h1.out.trans h2.out, h1.val.trans h2.val, h1.st.world.trans h2.st.world⟩

/-! ### An example -/

/-- Names are looked up in the locals and then in the globals; nothing else is known. -/
private def lookup (e : Str) (v : View) : Option Val :=
  let rec go : List (Dict Val) → Option Val
    | [] => none
    | d :: ds => (Dict.get d e).or (go ds)
  (go v.locals).or ((v.insts[v.inst]?).bind fun i => Dict.get i.globals e)

private def names : Oracle Nat where
  eval e v w := (match lookup e v with | some x => .ok x | none => .error .name, w + 1)
  iter _ _ w := (.ok [[(['i'], .int 1)], [(['i'], .int 2)]], w)
  py _ _ w := (.ok [], w)
  args _ _ w := (.ok [], w)
  gettext _ s w := (.ok (.str s), w)

private def demo : Source :=
  ⟨[(⟨[], [⟨"__main__()".toList,
      [.forN "i in x".toList [.switchN ['i'] [.caseN ['a'] [.text "A".toList none 1] 1,
        .elseN [.text "-".toList none 1, .expr ['i'] false 1] 1] 1] 1,
       .ifN ['b'] [.text "yes".toList none 2] 2, .elseN [.text "no".toList none 2] 2], 1⟩]⟩, [])],
    fun _ => none, id⟩

private def ctx : Dict Val := [(['a'], .int 1), (['b'], .bool false)]

set_option maxRecDepth 4000 in
example : (demo.compile.map fun P => (render P names 5 0 ctx 0).out.txt) = some "A-2no".toList := by
  decide +kernel

example : ∃ P, demo.compile = some P ∧
    (render P names 5 0 ctx 0).out = (semProcess (mergedSource demo) names 5 0 ctx 0).out := by
  obtain ⟨P, hP⟩ : ∃ P, demo.compile = some P := Option.isSome_iff_exists.1 (by decide +kernel)
  exact ⟨P, hP, (C12_rendering_is_meaning demo P names hP (by decide +kernel) 5 0 ctx 0).1⟩

/-! ## C12: py:if and py:else -/

section
variable (P : Prog (List Stmt)) (O : Oracle W)
  (call : Mode → Nat → List Val → MS (List Stmt) W Unit) (env : Env)

/-- **C12.** The code of `py:if` with `py:else`, whatever follows: the test is evaluated once, its
truth selects one of the two contents, and then the rest runs. -/
theorem C12_if_else (e : Str) (b b' ys : List Ir) (l l' : Nat) :
    execList P O call env (code (.ifN e b l :: .elseN b' l' :: ys)) =
      M.bind (evalM O env e) fun v =>
      M.bind (if truthy v then execList P O call env (code b) else execList P O call env (code b'))
        fun _ => execList P O call env (code ys) := by
  simp only [code, codeOne, elsePart, List.nil_append, List.cons_append, execList, exec, Run.condM,
    M.bind_assoc, M.pure_bind]

/-- **C12.** `py:if` without `py:else`: if the test is false, nothing is rendered. -/
theorem C12_if_alone (e : Str) (b ys : List Ir) (l : Nat) (h : elsePart ys = []) :
    execList P O call env (code (.ifN e b l :: ys)) =
      M.bind (evalM O env e) fun v =>
      M.bind (if truthy v then execList P O call env (code b) else M.pure ())
        fun _ => execList P O call env (code ys) := by
  simp only [code, codeOne, h, List.cons_append, List.nil_append, execList, exec, Run.condM,
    M.bind_assoc, M.pure_bind]

/-! ## C13: py:for -/

/-- Running something once per item, in order: the outputs of the runs, the final state, and the
exception that stopped it, if any. -/
def Spec.Sem.runs {S α : Type} (f : α → M S Unit) : List α → S → List Out × S × Except Err Unit
  | [], s => ([], s, .ok ())
  | a :: as, s =>
    match (f a s).val with
    | .error e => ([(f a s).out], (f a s).st, .error e)
    | .ok _ =>
      let r := runs f as (f a s).st
      ((f a s).out :: r.1, r.2)

open Spec.Sem (runs)

/-- The texts of several outputs in a row. -/
def Spec.Sem.joined (os : List Out) : Str := (os.map (·.txt)).flatten

open Spec.Sem (joined)

/-- **C13.** The code of `py:for`: the header gives a list of bindings; for each of them in order the
loop variables are set and the content runs; then the rest runs. -/
theorem C13_for (d : Str) (b ys : List Ir) (l : Nat) (h : elsePart ys = []) :
    execList P O call env (code (.forN d b l :: ys)) =
      M.bind (ask env (O.iter d)) fun items =>
      M.bind (M.each (fun item => M.bind (setVars env item) fun _ => execList P O call env (code b)) items)
        fun _ => execList P O call env (code ys) := by
  simp only [code, codeOne, h, List.cons_append, List.nil_append, execList, exec, M.bind_assoc,
    M.bind_pure]

/-- **C13.** The loop runs its content once per item, in order, and its output is the concatenation of
the outputs of the iterations; an exception ends it. -/
theorem C13_output_is_concatenation {S α : Type} (f : α → M S Unit) (items : List α) (s : S) :
    (M.each f items s).out.txt = joined (runs f items s).1 ∧
    (M.each f items s).st = (runs f items s).2.1 ∧
    (M.each f items s).val = (runs f items s).2.2 ∧
    ((M.each f items s).val = .ok () → (runs f items s).1.length = items.length) := by
  induction items generalizing s with
  | nil => exact ⟨rfl, rfl, rfl, fun _ => rfl⟩
  | cons a as ih =>
    cases hv : (f a s).val with
    | error e => simp [M.each, M.bind, runs, joined, hv]
    | ok u =>
      obtain ⟨h1, h2, h3, h4⟩ := ih (f a s).st
      simp only [M.each, M.bind, runs, hv, joined, List.map_cons, List.flatten_cons,
        Out.append_txt, h1, h2, h3, List.length_cons, Nat.add_right_cancel_iff, true_and]
      exact fun h => h4 (h3.trans h)

end

/-- Setting the loop variables: inside the content a name has its new value, other names keep
theirs. -/
theorem C13_loop_variable (env : Env) (vars : Dict Val) (s : Store (List Stmt) W) (k : Str) (v : Val)
    (hf : env.frame < s.frames.length) (hv : vars.get k = some v) (hn : (vars.map (·.1)).Nodup) :
    (localVars env (setVars env vars s).st).get k = some v := by
  have : (setVars env vars s : Res (Store (List Stmt) W) Unit).st.frames[env.frame]? =
      some { s.frames[env.frame] with vars := Dict.update s.frames[env.frame].vars vars } := by
    simp [setVars, modFrame, M.modify, List.getElem?_eq_getElem hf]
  simp only [localVars, this]
  rw [Dict.get_update_nodup _ _ _ hn, hv]
  rfl

/-! ## Reachable states -/

/-- The states a process can be in. -/
private theorem history_rel {S : Source} {P : Prog (List Stmt)} (O : Oracle W) (h : S.compile = some P)
    (hc : ∀ t ∈ S.tmpls, casesTmpl t.1 = true) (n : Nat) (w : W) (as : List Act) :
    ∃ t, StoreRel BodyOf (history P O n w as) t := by
  unfold history
  have : ∀ s t, StoreRel BodyOf s t → ∃ t', StoreRel BodyOf (as.foldl (act P O n) s) t' := by
    induction as with
    | nil => exact fun s t hst => ⟨t, hst⟩
    | cons a as ih =>
      intro s t hst
      cases a with
      | make c context =>
        exact ih _ _ (Rel.newInst (compile_rel h hc) c context s t hst trivial).st
      | render i => exact ih _ _ (render_rel O (compile_rel h hc) n i s t hst trivial).st
  exact this _ _ (emptyStore_rel w)

/-! ## C16: the runtime stacks -/

/-- **C16.** After any sequence of creating and rendering instances, with any failures, rendering an
instance to its end leaves the switch and with stacks of every existing instance as they were. -/
theorem C16_stacks_balanced (S : Source) (P : Prog (List Stmt)) (O : Oracle W)
    (h : S.compile = some P) (hc : ∀ t ∈ S.tmpls, casesTmpl t.1 = true) (n : Nat) (w : W)
    (past : List Act) (i j : Nat) (hj : j < (history P O n w past).insts.length)
    (hok : (renderInst P O n i (history P O n w past)).val = .ok ()) :
    (renderInst P O n i (history P O n w past)).st.stacks j = (history P O n w past).stacks j := by
  obtain ⟨t, ht⟩ := history_rel O h hc n w past
  have := (render_rel O (compile_rel h hc) n i _ t ht trivial).stacks j hj
  rw [hok] at this
  exact this

/-- **C16.** What a rendering outputs, raises and does to the world does not depend on what is on the
stacks: leftovers of an earlier failed rendering are harmless. -/
theorem C16_leftovers_harmless (S : Source) (P : Prog (List Stmt)) (O : Oracle W)
    (h : S.compile = some P) (hc : ∀ t ∈ S.tmpls, casesTmpl t.1 = true) (n : Nat) (w : W)
    (past : List Act) (i : Nat) (other : Nat → Stacks) :
    let s := history P O n w past
    let a := renderInst P O n i s
    let b := renderInst P O n i (s.withStacks other)
    a.out = b.out ∧ a.val = b.val ∧ a.st.world = b.st.world := by
  obtain ⟨t, ht⟩ := history_rel O h hc n w past
  have h1 := render_rel O (compile_rel h hc) n i _ t ht trivial
  have h2 := render_rel O (compile_rel h hc) n i
    ((history P O n w past).withStacks other) t ⟨ht.1, ht.2, ht.3, ht.4, ht.5, ht.6, ht.7⟩ trivial
  exact ⟨h1.out.trans h2.out.symm, h1.val.trans h2.val.symm, h1.st.world.trans h2.st.world.symm⟩

/-- **C43 (the caller's context).** An instance keeps its class and the context it was created with,
whatever is rendered. -/
theorem C43_context_kept (S : Source) (P : Prog (List Stmt)) (O : Oracle W)
    (h : S.compile = some P) (hc : ∀ t ∈ S.tmpls, casesTmpl t.1 = true) (n : Nat) (w : W)
    (past : List Act) (i j : Nat) (x : Inst) (hx : (history P O n w past).insts[j]? = some x) :
    ∃ y, (renderInst P O n i (history P O n w past)).st.insts[j]? = some y ∧ y.cls = x.cls ∧
      y.context = x.context := by
  obtain ⟨t, ht⟩ := history_rel O h hc n w past
  exact (render_rel O (compile_rel h hc) n i _ t ht trivial).mono.keep j x hx

/-- **C16 (failures).** A failing rendering only adds entries on top of the stacks. -/
theorem C16_failure_only_adds (S : Source) (P : Prog (List Stmt)) (O : Oracle W)
    (h : S.compile = some P) (hc : ∀ t ∈ S.tmpls, casesTmpl t.1 = true) (n : Nat) (w : W)
    (past : List Act) (i j : Nat) (hj : j < (history P O n w past).insts.length) (e : Err)
    (hok : (renderInst P O n i (history P O n w past)).val = .error e) :
    ∃ x y, ((renderInst P O n i (history P O n w past)).st.stacks j).sw =
        x ++ ((history P O n w past).stacks j).sw ∧
      ((renderInst P O n i (history P O n w past)).st.stacks j).wi =
        y ++ ((history P O n w past).stacks j).wi := by
  obtain ⟨t, ht⟩ := history_rel O h hc n w past
  have := (render_rel O (compile_rel h hc) n i _ t ht trivial).stacks j hj
  rw [hok] at this
  exact this

/-- A rendering that fails inside a `py:switch` does leave an entry behind. -/
example : (demo.compile.map fun P =>
    (((history P names 5 0 [.make 0 [], .render 0]).stacks 0).sw).length) = some 1 := by
  decide +kernel

/-! ## C14: py:switch -/

/-- **C14.** In every reachable state, with `callN` running function calls of any depth (so also
switches inside functions called from case contents), the code of a `py:switch` evaluates its test
once and then does what `semCases` says: compare the value with the cases in order.  There the value
is an ordinary bound variable, so no case can be compared with another switch's value. -/
theorem C14_switch (S : Source) (P : Prog (List Stmt)) (O : Oracle W)
    (h : S.compile = some P) (hc : ∀ t ∈ S.tmpls, casesTmpl t.1 = true) (n : Nat)
    (s : Store (List Stmt) W) (t : Store (List Ir) W) (hst : StoreRel BodyOf s t) (env : Env)
    (henv : ∀ j, env.kj = some j → j < s.insts.length) (e : Str) (b : List Ir) (l : Nat)
    (hb : placed .elifOrElse b = true) (hb' : casesIn true b = true) :
    let Q := trees (mergedSource S)
    let real := execList P O (callN P O n) env (code [.switchN e b l]) s
    let meant := M.bind (kjInst env) (fun _ => M.bind (evalM O env e) fun v =>
      M.bind (semCases Q O (semCall Q O n) env v b) fun _ => semList Q O (semCall Q O n) env b) t
    real.out = meant.out ∧ real.val = meant.val ∧ StoreRel BodyOf real.st meant.st ∧
      (real.val = .ok () → ∀ j, j < s.insts.length → real.st.stacks j = s.stacks j) := by
  have hP := compile_rel h hc
  have := list_rel P (trees (mergedSource S)) O (callN P O n) _ hP (call_rel O hP n) env
    [.switchN e b l] .nothing false (by simp [placed, placedOne, hb])
    (by simp [casesIn, casesOk, hb']) s t hst henv
  simp only [semList, sem, M.bind_pure] at this
  refine ⟨this.out, this.val, this.st, fun hok j hj => ?_⟩
  have hk := this.stacks j hj
  rw [hok] at hk
  exact hk

/-- The expression evaluates to the value, without side effects. -/
def Spec.Sem.Evaluates (O : Oracle W) (env : Env) (t : Store (List Ir) W) (e : Str) (v : Val) : Prop :=
  O.eval e (view env t) t.world = (.ok v, t.world)

open Spec.Sem (Evaluates)

/-- **C14.** The cases before the first equal one are skipped, the first equal one is rendered, and
nothing after it is looked at. -/
theorem C14_first_equal_case (Q : Prog (List Ir)) (O : Oracle W) (call) (env : Env) (v : Val)
    (t : Store (List Ir) W) (before : List (Str × List Ir × Nat)) (e : Str) (b rest : List Ir) (l : Nat)
    (hbefore : ∀ c ∈ before, ∃ u, Evaluates O env t c.1 u ∧ pyEq u v = false)
    (he : ∃ u, Evaluates O env t e u ∧ pyEq u v = true) :
    semCases Q O call env v (before.map (fun c => .caseN c.1 c.2.1 c.2.2) ++ .caseN e b l :: rest) t =
      semList Q O call env b t := by
  induction before with
  | nil =>
    obtain ⟨u, hu, hv⟩ := he
    simp only [List.map_nil, List.nil_append, semCases]
    simp only [M.bind, evalM, ask]
    rw [show O.eval e (view env t) t.world = (.ok u, t.world) from hu]
    simp [hv]
  | cons c cs ih =>
    obtain ⟨u, hu, hv⟩ := hbefore c List.mem_cons_self
    have := ih fun c hc => hbefore c (List.mem_cons_of_mem _ hc)
    simp only [List.map_cons, List.cons_append, semCases]
    simp only [M.bind, evalM, ask]
    rw [show O.eval c.1 (view env t) t.world = (.ok u, t.world) from hu]
    simp [hv, this]

/-- **C14.** If no case is equal, the `py:else` is rendered, or nothing. -/
theorem C14_no_equal_case (Q : Prog (List Ir)) (O : Oracle W) (call) (env : Env) (v : Val)
    (t : Store (List Ir) W) (cases : List (Str × List Ir × Nat)) (els : Option (List Ir × Nat))
    (hcases : ∀ c ∈ cases, ∃ u, Evaluates O env t c.1 u ∧ pyEq u v = false) :
    semCases Q O call env v (cases.map (fun c => .caseN c.1 c.2.1 c.2.2) ++
      (els.map fun b => Ir.elseN b.1 b.2).toList) t =
      match els with
      | some b => semList Q O call env b.1 t
      | none => M.pure () t := by
  induction cases with
  | nil => cases els <;> simp [semCases]
  | cons c cs ih =>
    obtain ⟨u, hu, hv⟩ := hcases c List.mem_cons_self
    have := ih fun c hc => hcases c (List.mem_cons_of_mem _ hc)
    simp only [List.map_cons, List.cons_append, semCases]
    simp only [M.bind, evalM, ask]
    rw [show O.eval c.1 (view env t) t.world = (.ok u, t.world) from hu]
    simp only [hv, Bool.false_eq_true, if_false, this, Out.nil_append]

/-- A switch calling a function that contains another switch, inside a case. -/
private def nested : Source :=
  ⟨[(⟨[], [⟨"__main__()".toList,
      [.switchN ['x'] [.caseN ['x'] [.switchN ['y'] [.caseN ['y'] [.text "in ".toList none 1] 1] 1,
        .expr ['f'] true 1] 1, .caseN ['y'] [.text "bad".toList none 1] 1] 1,
       .switchN ['y'] [.caseN ['x'] [.text "bad".toList none 1] 1,
         .caseN ['y'] [.text "ok".toList none 1] 1] 1], 1⟩,
      ⟨"g()".toList, [.switchN ['y'] [.caseN ['x'] [.text "bad".toList none 1] 1,
        .elseN [.text "fn ".toList none 1] 1] 1], 2⟩]⟩, [])],
    fun _ => none, id⟩

private def nestedCtx : Dict Val :=
  [(['x'], .int 1), (['y'], .int 2), (['f'], .flatCall 7 1 [])]

set_option maxRecDepth 4000 in
example : (nested.compile.map fun P => (render P names 5 0 nestedCtx 0).out.txt) =
    some "in fn ok".toList := by decide +kernel

/-! ## C15: py:with -/

/-- **C15.** An assignment of `py:with` gives the variable the value of its expression and leaves the
other variables alone; as the assignments run one after the other, later ones see earlier ones. -/
theorem C15_assignments_in_order (P : Prog (List Stmt)) (O : Oracle W) (call) (env : Env)
    (vs : List (Str × Str)) (b : List Ir) (l : Nat) :
    execList P O call env (code [.withN vs b l]) =
      M.bind (exec P O call env (.pushWith (vs.map (·.1)))) fun _ =>
      M.bind (M.each (fun kv => M.bind (evalM O env kv.2) fun v => setVars env [(kv.1, v)]) vs) fun _ =>
      M.bind (execList P O call env (code b)) fun _ =>
      exec P O call env (.popWith (vs.map (·.1))) := by
  simp only [code, codeOne, List.append_nil, List.cons_append, execList, execList_append,
    execList_assigns, M.bind_pure]

private theorem get_zip_self (names : List Str) (f : Str → Val) (d : Dict Val) (k : Str)
    (hk : k ∈ names) : Dict.get (Dict.update d (names.zip (names.map f))) k = some (f k) := by
  have key : ∀ (names : List Str) (d : Dict Val), (k ∈ names ∨ Dict.get d k = some (f k)) →
      Dict.get (Dict.update d (names.zip (names.map f))) k = some (f k) := by
    intro names
    induction names with
    | nil => intro d h; simpa [Dict.update] using h
    | cons x xs ih =>
      intro d h
      simp only [Dict.update, List.map_cons, List.zip_cons_cons, List.foldl_cons] at ih ⊢
      apply ih
      by_cases hx : x = k
      · right; subst hx; rw [Dict.get_set]; simp
      · rcases h with h | h
        · left
          rcases List.mem_cons.1 h with h | h
          · exact absurd h.symm hx
          · exact h
        · right; rw [Dict.get_set]; simp [hx, h]
  exact key names d (Or.inl hk)

/-- After the block every variable assigned by `py:with` has the local value it had before, or the
empty tuple if it had none. -/
theorem C15_after_block (S : Source) (P : Prog (List Stmt)) (O : Oracle W)
    (h : S.compile = some P) (hc : ∀ t ∈ S.tmpls, casesTmpl t.1 = true) (n : Nat)
    (s : Store (List Stmt) W) (t : Store (List Ir) W) (hst : StoreRel BodyOf s t) (env : Env)
    (henv : ∀ j, env.kj = some j → j < s.insts.length) (hfr : env.frame < s.frames.length)
    (vs : List (Str × Str)) (b : List Ir) (l : Nat)
    (hb : placed .nothing b = true) (hb' : casesIn false b = true)
    (hok : (execList P O (callN P O n) env (code [.withN vs b l]) s).val = .ok ())
    (k : Str) (hk : k ∈ vs.map (·.1)) :
    (localVars env (execList P O (callN P O n) env (code [.withN vs b l]) s).st).get k =
      some (((localVars env s).get k).getD .unit) := by
  have hP := compile_rel h hc
  have hst' := stable_envOk (C := List Stmt) (W := W) env
  have hrel := list_rel P (trees (mergedSource S)) O (callN P O n) _ hP (call_rel O hP n) env b
    .nothing false hb hb'
  -- run up to the end of the content
  have hpre := RelAt.bind (m := M.each (fun kv => M.bind (evalM O env kv.2) fun v =>
      setVars env [(kv.1, v)]) vs) (n := M.each (fun kv => M.bind (evalM O env kv.2) fun v =>
      setVars env [(kv.1, v)]) vs) hst'
    (Rel.each hst' (fun kv => ((Rel.evalM O env kv.2).bind fun v => Rel.setVars env [(kv.1, v)]).at) vs)
    (fun _ => hrel)
  rw [C15_assignments_in_order] at hok ⊢
  cases hj : env.kj with
  | none => simp [exec, kjInst, hj, M.ofOption, M.bind, M.throw] at hok
  | some j =>
    have h1 : (kjInst env : MS (List Stmt) W Nat) = M.pure j := by simp [kjInst, hj, M.ofOption]
    have hrun : ∀ (rest : MS (List Stmt) W Unit),
        M.bind (exec P O (callN P O n) env (.pushWith (vs.map (·.1)))) (fun _ => rest) s =
        M.bind (pushWithM j ((vs.map (·.1)).map fun k => ((localVars env s).get k).getD .unit))
          (fun _ => rest) s := by
      intro rest
      simp only [exec, h1, M.pure_bind, M.bind_assoc]
      rfl
    simp only [← M.bind_assoc (M.each _ _)] at hok ⊢
    rw [hrun] at hok ⊢
    have hpop : exec P O (callN P O n) env (.popWith (vs.map (·.1))) =
        M.bind (popWithM j) fun v => unpack env (vs.map (·.1)) v := by
      simp only [exec, h1, M.pure_bind]
    simp only [hpop] at hok ⊢
    obtain ⟨s2, hg, hok2, hs2⟩ := with_ok hj hpre hst henv hok
    rw [hs2]
    simp only [unpack, List.length_map, if_true]
    have hf2 := Nat.lt_of_lt_of_le hfr hg.2
    have : ∀ z : Dict Val, (setVars env z s2 : Res (Store (List Stmt) W) Unit).st.frames[env.frame]? =
        some { s2.frames[env.frame] with vars := Dict.update s2.frames[env.frame].vars z } := by
      intro z
      simp [setVars, modFrame, M.modify, List.getElem?_eq_getElem hf2]
    simp only [localVars, this]
    exact get_zip_self _ (fun k => ((localVars env s).get k).getD .unit) _ k hk

/-- **C15 (the part that holds).** When a `py:with` block ends, every variable that had a *local* value
before the block has that value again.

Missing: variables whose value comes from the context or an enclosing function, see
`C15_context_variable_lost`. -/
theorem C15_local_values_restored_partial (S : Source) (P : Prog (List Stmt)) (O : Oracle W)
    (h : S.compile = some P) (hc : ∀ t ∈ S.tmpls, casesTmpl t.1 = true) (n : Nat)
    (s : Store (List Stmt) W) (t : Store (List Ir) W) (hst : StoreRel BodyOf s t) (env : Env)
    (henv : ∀ j, env.kj = some j → j < s.insts.length)
    (vs : List (Str × Str)) (b : List Ir) (l : Nat)
    (hb : placed .nothing b = true) (hb' : casesIn false b = true)
    (hok : (execList P O (callN P O n) env (code [.withN vs b l]) s).val = .ok ())
    (k : Str) (hk : k ∈ vs.map (·.1)) (v : Val) (hv : (localVars env s).get k = some v) :
    (localVars env (execList P O (callN P O n) env (code [.withN vs b l]) s).st).get k = some v := by
  have hfr : env.frame < s.frames.length := by
    rcases Nat.lt_or_ge env.frame s.frames.length with h | h
    · exact h
    · simp [localVars, List.getElem?_eq_none h] at hv
  rw [C15_after_block S P O h hc n s t hst env henv hfr vs b l hb hb' hok k hk, hv]
  rfl

private def withDemo : Source :=
  ⟨[(⟨[], [⟨"__main__()".toList,
      [.withN [(['v'], ['x'])] [.withN [(['v'], ['y'])] [.expr ['v'] false 1] 1, .expr ['v'] false 1] 1,
       .text "|".toList none 1, .expr ['v'] false 1], 1⟩]⟩, [])],
    fun _ => none, id⟩

/-- The inner block sees the inner value and the outer one its own value again. -/
example : (withDemo.compile.map fun P =>
    (render P names 5 0 [(['x'], .int 1), (['y'], .int 2)] 0).out.txt) = some "21|()".toList := by
  decide +kernel

/-- **C15 is false** for a variable that comes from the context: after the block it is the empty tuple
instead of the caller's value.  (`push_with` saves `locals().get(name, ())`; the context is in the
globals.)  Here the context has `v = 5`. -/
theorem C15_context_variable_lost :
    ∃ (S : Source) (P : Prog (List Stmt)) (O : Oracle Nat), S.compile = some P ∧
      (render P O 5 0 [(['v'], .int 5), (['x'], .int 1), (['y'], .int 2)] 0).out.txt =
        "21|()".toList := by
  obtain ⟨P, hP⟩ : ∃ P, withDemo.compile = some P := Option.isSome_iff_exists.1 (by decide +kernel)
  refine ⟨withDemo, P, names, hP, ?_⟩
  have : (withDemo.compile.map fun P =>
    (render P names 5 0 [(['v'], .int 5), (['x'], .int 1), (['y'], .int 2)] 0).out.txt) =
      some "21|()".toList := by decide +kernel
  rw [hP] at this
  simpa using this

/-! ## C19: functions -/

/-- Scopes, and the scopes of function definitions, exist. -/
def Spec.Sem.ScopesOk {C : Type} (s : Store C W) : Prop :=
  (∀ (i : Nat) (f : Frame), s.frames[i]? = some f → ∀ j, f.up = some j → j < s.frames.length) ∧
  ∀ (i : Nat) (f : Fn C), s.fns[i]? = some f → ∀ j, f.up = some j → j < s.frames.length

open Spec.Sem (ScopesOk)

private theorem scopesOk_of {s : Store (List Stmt) W} {t : Store (List Ir) W} (h : StoreRel BodyOf s t) :
    ScopesOk s := by
  refine ⟨fun i f hf j hj => ?_, fun i f hf j hj => ?_⟩
  · rw [h.frames] at hf ⊢
    exact h.ups f (List.mem_of_getElem? hf) j hj
  · obtain ⟨hlt, hpe⟩ := List.getElem?_eq_some_iff.1 hf
    have hlt' : i < t.fns.length := by rw [← h.fns.length_eq]; exact hlt
    have hr := List.forall₂_iff_get.1 h.fns |>.2 i hlt hlt'
    simp only [List.get_eq_getElem, hpe] at hr
    rw [h.frames]
    exact h.fnUps t.fns[i] (List.getElem_mem hlt') j (hr.up ▸ hj)

/-- Between renderings all scopes exist. -/
theorem C19_scopes_exist (S : Source) (P : Prog (List Stmt)) (O : Oracle W) (h : S.compile = some P)
    (hc : ∀ t ∈ S.tmpls, casesTmpl t.1 = true) (n : Nat) (w : W) (past : List Act) :
    ScopesOk (history P O n w past) := by
  obtain ⟨t, ht⟩ := history_rel O h hc n w past
  exact scopesOk_of ht

/-- ... and while statements are run, in every state reached by running a prefix of a function's
code. -/
theorem C19_scopes_exist_inside (S : Source) (P : Prog (List Stmt)) (O : Oracle W)
    (h : S.compile = some P) (hc : ∀ t ∈ S.tmpls, casesTmpl t.1 = true) (n : Nat)
    (s : Store (List Stmt) W) (t : Store (List Ir) W) (hst : StoreRel BodyOf s t) (env : Env)
    (henv : ∀ j, env.kj = some j → j < s.insts.length) (b : List Ir)
    (hb : placed .nothing b = true) (hb' : casesIn false b = true) :
    ScopesOk s ∧ ScopesOk (execList P O (callN P O n) env (code b) s).st :=
  ⟨scopesOk_of hst, scopesOk_of (list_rel P (trees (mergedSource S)) O (callN P O n) _ (compile_rel h hc)
    (call_rel O (compile_rel h hc) n) env b .nothing false hb hb' s t hst henv).st⟩

/-- Such states exist: those between renderings. -/
example (S : Source) (P : Prog (List Stmt)) (O : Oracle W) (h : S.compile = some P)
    (hc : ∀ t ∈ S.tmpls, casesTmpl t.1 = true) (w : W) (past : List Act) :
    ∃ t, StoreRel BodyOf (history P O 9 w past) t := history_rel O h hc 9 w past

/-- **C19.** Reading the result of a call of a template function: the arguments are bound to the
parameters in a new scope inside the scope where the function was defined, and its body runs there,
with the namespace of its own instance.  The body of a function without `yield` runs too, but it is no generator,
and reading its result is an error. -/
theorem C19_call_runs_body (P : Prog (List Stmt)) (O : Oracle W) (n : Nat) (mode : Mode) (f : Nat)
    (as : List Val) (s : Store (List Stmt) W) (hs : ScopesOk s) (fn : Fn (List Stmt)) (decl : Str)
    (body : List Stmt) (hf : s.fns[f]? = some fn) (hbody : fn.body = .code decl body) (vars : Dict Val)
    (w : W) (hargs : O.args decl as s.world = (.ok vars, w)) (i : Inst)
    (hi : s.insts[fn.inst]? = some i) :
    callN P O (n + 1) mode f as s =
      M.bind (execList P O (callN P O n)
        ⟨fn.inst, s.frames.length, localInst s.insts.length (Dict.get i.globals "local".toList), mode⟩
        body) (fun _ => if yieldsAny body then M.pure () else M.throw .type)
        { s with frames := s.frames ++ [⟨vars, fn.up, none⟩], world := w } := by
  have hup : liveScope s.frames fn.up = fn.up := by
    cases hu : fn.up with
    | none => rfl
    | some j => simp [liveScope, hs.2 f fn hf j hu]
  simp only [callN, callWith, M.bind, M.get, hf, M.ofOption, M.pure, hbody, hargs, newFrame, getInst, hi,
    Out.nil_append, hup, reading]

private theorem scopes_append (s : Store (List Stmt) W) (g : Frame) (h : ScopesOk s) (n : Nat)
    (o : Option Nat) (ho : ∀ j, o = some j → j < s.frames.length) :
    scopes (s.frames ++ [g]) n o = scopes s.frames n o := by
  induction n generalizing o with
  | zero => rfl
  | succ n ih =>
    cases o with
    | none => rfl
    | some i =>
      have hi := ho i rfl
      simp only [scopes, List.getElem?_append_left hi]
      cases hf : s.frames[i]? with
      | none => rfl
      | some f => simp only [ih f.up fun j hj => h.1 i f hf j hj]

/-- **C19.** What the body of a called function sees: its own variables, and then exactly the scopes
visible where the function was defined (with the values they have at the time of the call). -/
theorem C19_body_sees_definition_scope (s : Store (List Stmt) W) (h : ScopesOk s) (f : Nat)
    (fn : Fn (List Stmt)) (hf : s.fns[f]? = some fn) (inst : Nat)
    (vars : Dict Val) (up : Nat) (hup : fn.up = some up) (kj : Option Nat) (mode : Mode) :
    (view ⟨inst, s.frames.length, kj, mode⟩
      { s with frames := s.frames ++ [⟨vars, fn.up, none⟩] }).locals =
      vars :: (view ⟨inst, up, kj, mode⟩ s).locals := by
  have hlt := h.2 f fn hf up hup
  simp only [view, List.length_append, List.length_cons, List.length_nil, scopes]
  rw [List.getElem?_append_right (Nat.le_refl _)]
  simp only [Nat.sub_self, List.getElem?_cons_zero, List.cons.injEq, true_and]
  rw [hup]
  exact scopes_append _ _ h _ _ fun j hj => by cases hj; exact hlt

/-- **C19.** `py:call` makes a function of its content, defined in the current scope, and then yields
the value of the call expression. -/
theorem C19_py_call (P : Prog (List Stmt)) (O : Oracle W) (call) (env : Env) (d c : Str)
    (b : List Ir) (l : Nat) :
    execList P O call env (code [.call d c b l]) =
      M.bind (newFn ⟨.code d (code b), env.inst, some env.frame, false⟩) fun f =>
      M.bind (setVars env [(declName d, .fn f)]) fun _ =>
      M.bind (evalM O env c) fun v => emit call env.mode v := by
  simp only [code, codeOne, List.append_nil, execList, exec, fdefM, M.bind_assoc, M.bind_pure]

end Kajiki.Props
