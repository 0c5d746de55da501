import Verif.Lemmas.Rel

/-!
# Generated code does what the tree means
-/

namespace Kajiki.Run
open Kajiki.Spec.Code Kajiki.Spec.Sem

variable {C D W α β : Type} {R : C → D → Prop} {pre : Store C W → Prop}

/-! ## Brackets of the runtime stacks -/

/-- `local` is an existing instance. -/
def EnvOk (env : Env) (s : Store C W) : Prop := ∀ j, env.kj = some j → j < s.insts.length

theorem stable_envOk (env : Env) : Stable (EnvOk env : Store C W → Prop) :=
  fun _ _ h hl _ j hj => Nat.lt_of_lt_of_le (h j hj) hl.1

/-- The switch stack of `j` has `v` on top. -/
def TopIs (env : Env) (j : Nat) (v : Val) (s : Store C W) : Prop :=
  EnvOk env s ∧ j < s.insts.length ∧ (s.stacks j).sw.head? = some v

theorem stable_topIs (env : Env) (j : Nat) (v : Val) : Stable (TopIs env j v : Store C W → Prop) :=
  fun s s' h hl hs => ⟨stable_envOk env s s' h.1 hl hs, Nat.lt_of_lt_of_le h.2.1 hl.1, by
    rw [hs j h.2.1]; exact h.2.2⟩

theorem switch_bracket {env : Env} {j : Nat} {v : Val} {m : MS C W Unit} {n : MS D W Unit}
    (hj : env.kj = some j) (h : RelAt R (TopIs env j v) m n) :
    RelAt R (EnvOk env) (M.bind (pushSwitchM j v) fun _ => M.bind m fun _ => popSwitchM j) n := by
  intro s t hst hp
  have hlt : j < s.insts.length := hp j hj
  let s1 : Store C W := { s with stacks := fun i => if i = j then ⟨v :: (s.stacks i).sw, (s.stacks i).wi⟩ else s.stacks i }
  have hs1 : StoreRel R s1 t := ⟨hst.insts, hst.frames, hst.used, hst.world, hst.fns, hst.ups, hst.fnUps⟩
  have h1 := h s1 t hs1 ⟨hp, hlt, by simp [s1]⟩
  have hpush : (pushSwitchM j v : MS C W Unit) s = ⟨.nil, s1, .ok ()⟩ := rfl
  simp only [M.bind, hpush, Out.nil_append]
  cases hm : m s1 with
  | mk o st val =>
    rw [hm] at h1
    obtain ⟨ho, hv, hs, hmono, hstk⟩ := h1
    dsimp only at ho hv hs hmono hstk
    cases val with
    | error e =>
      refine ⟨ho, hv, hs, ⟨hmono.1, hmono.2, hmono.3⟩, fun i hi => ?_⟩
      obtain ⟨x, y, hx, hy⟩ := hstk i hi
      by_cases hij : i = j
      · refine ⟨x ++ [v], y, ?_, ?_⟩
        · rw [hx]; simp [s1, hij]
        · rw [hy]; simp [s1, hij]
      · refine ⟨x, y, ?_, ?_⟩
        · rw [hx]; simp [s1, hij]
        · rw [hy]; simp [s1, hij]
    | ok u =>
      have hj2 : st.stacks j = ⟨v :: (s.stacks j).sw, (s.stacks j).wi⟩ := by
        have := hstk j hlt; simpa [StackOk, isOk, s1] using this
      simp only [popSwitchM, M.bind, M.get, hj2, modStacks, M.modify]
      refine ⟨by simp [ho], ?_, ⟨hs.insts, hs.frames, hs.used, hs.world, hs.fns, hs.ups, hs.fnUps⟩, ⟨hmono.1, hmono.2, hmono.3⟩, fun i hi => ?_⟩
      · rw [← hv]
      · show _ = _
        by_cases hij : i = j
        · subst hij; simp [hj2]
        · have := hstk i hi
          simpa [StackOk, isOk, s1, hij] using this

theorem with_bracket {env : Env} {j : Nat} {vals : List Val} {m : MS C W Unit} {n : MS D W Unit}
    {f : List Val → MS C W Unit} {g : MS D W Unit} (hj : env.kj = some j)
    (h : RelAt R (EnvOk env) m n) (hf : RelAt R (EnvOk env) (f vals) g) :
    RelAt R (EnvOk env)
      (M.bind (pushWithM j vals) fun _ => M.bind m fun _ => M.bind (popWithM j) f)
      (M.bind n fun _ => g) := by
  intro s t hst hp
  have hlt : j < s.insts.length := hp j hj
  let s1 : Store C W := { s with stacks := fun i => if i = j then ⟨(s.stacks i).sw, vals :: (s.stacks i).wi⟩ else s.stacks i }
  have hs1 : StoreRel R s1 t := ⟨hst.insts, hst.frames, hst.used, hst.world, hst.fns, hst.ups, hst.fnUps⟩
  have h1 := h s1 t hs1 hp
  have hpush : (pushWithM j vals : MS C W Unit) s = ⟨.nil, s1, .ok ()⟩ := rfl
  simp only [M.bind, hpush, Out.nil_append]
  cases hm : m s1 with
  | mk o st val =>
    cases hn : n t with
    | mk o' st' val' =>
    rw [hm, hn] at h1
    obtain ⟨ho, hv, hs, hmono, hstk⟩ := h1
    dsimp only at ho hv hs hmono hstk
    subst ho hv
    cases val with
    | error e =>
      refine ⟨rfl, rfl, hs, ⟨hmono.1, hmono.2, hmono.3⟩, fun i hi => ?_⟩
      obtain ⟨x, y, hx, hy⟩ := hstk i hi
      by_cases hij : i = j
      · refine ⟨x, y ++ [vals], ?_, ?_⟩
        · rw [hx]; simp [s1, hij]
        · rw [hy]; simp [s1, hij]
      · refine ⟨x, y, ?_, ?_⟩
        · rw [hx]; simp [s1, hij]
        · rw [hy]; simp [s1, hij]
    | ok u =>
      have hj2 : st.stacks j = ⟨(s.stacks j).sw, vals :: (s.stacks j).wi⟩ := by
        have := hstk j hlt; simpa [StackOk, isOk, s1] using this
      simp only [popWithM, M.bind, M.get, hj2, modStacks, M.modify, M.pure]
      have key : ∀ i, i < s.insts.length →
          (if i = j then { st.stacks i with wi := (s.stacks j).wi } else st.stacks i) = s.stacks i := by
        intro i hi
        by_cases hij : i = j
        · subst hij; simp [hj2]
        · have := hstk i hi
          simpa [StackOk, isOk, s1, hij] using this
      have h2 := hf { st with stacks := fun i => if i = j then { st.stacks i with wi := (s.stacks j).wi } else st.stacks i } st'
        ⟨hs.insts, hs.frames, hs.used, hs.world, hs.fns, hs.ups, hs.fnUps⟩
        (fun k hk => Nat.lt_of_lt_of_le (hp k hk) hmono.1)
      obtain ⟨ho2, hv2, hs2, hm2, hk2⟩ := h2
      refine ⟨by simp [ho2], hv2, hs2, Grows.trans ⟨hmono.1, hmono.2, hmono.3⟩ ⟨hm2.1, hm2.2, hm2.3⟩, fun i hi => ?_⟩
      have := hk2 i (Nat.lt_of_lt_of_le hi hmono.1)
      dsimp only at this
      rw [key i hi] at this
      exact this

/-- The final state of a `py:with` that succeeds. -/
theorem with_ok {env : Env} {j : Nat} {vals : List Val} {m : MS C W Unit} {n : MS D W Unit}
    {f : List Val → MS C W Unit} (hj : env.kj = some j) (h : RelAt R (EnvOk env) m n)
    {s : Store C W} {t : Store D W} (hst : StoreRel R s t) (hp : EnvOk env s)
    (hok : ((M.bind (pushWithM j vals) fun _ => M.bind m fun _ => M.bind (popWithM j) f) s).val = .ok ()) :
    ∃ s2, Grows s s2 ∧ (f vals s2).val = .ok () ∧
      ((M.bind (pushWithM j vals) fun _ => M.bind m fun _ => M.bind (popWithM j) f) s).st =
        (f vals s2).st := by
  have hlt : j < s.insts.length := hp j hj
  let s1 : Store C W := { s with stacks := fun i => if i = j then ⟨(s.stacks i).sw, vals :: (s.stacks i).wi⟩ else s.stacks i }
  have hs1 : StoreRel R s1 t := ⟨hst.insts, hst.frames, hst.used, hst.world, hst.fns, hst.ups, hst.fnUps⟩
  have h1 := h s1 t hs1 hp
  have hpush : (pushWithM j vals : MS C W Unit) s = ⟨.nil, s1, .ok ()⟩ := rfl
  simp only [M.bind, hpush, Out.nil_append] at hok ⊢
  cases hm : m s1 with
  | mk o st val =>
    rw [hm] at h1 hok
    obtain ⟨-, -, -, hmono, hstk⟩ := h1
    dsimp only at hmono hstk
    cases val with
    | error e => simp at hok
    | ok u =>
      have hj2 : st.stacks j = ⟨(s.stacks j).sw, vals :: (s.stacks j).wi⟩ := by
        have := hstk j hlt; simpa [StackOk, isOk, s1] using this
      simp only [popWithM, M.bind, M.get, hj2, modStacks, M.modify, M.pure] at hok ⊢
      refine ⟨_, ?_, hok, rfl⟩
      exact ⟨hmono.1, hmono.2, hmono.3⟩

/-! ## Statements -/

theorem execList_append (P : Prog (List Stmt)) (O : Oracle W) (call) (env : Env) (a b : List Stmt) :
    execList P O call env (a ++ b) =
      M.bind (execList P O call env a) fun _ => execList P O call env b := by
  induction a with
  | nil => simp [execList, M.pure_bind]
  | cons x a ih => simp only [List.cons_append, execList, ih, M.bind_assoc]

theorem execList_single (P : Prog (List Stmt)) (O : Oracle W) (call) (env : Env) (x : Stmt) :
    execList P O call env [x] = exec P O call env x := by
  simp only [execList, M.bind_pure]

/-- The relation between generated function bodies and trees. -/
def BodyOf (c : List Stmt) (d : List Ir) : Prop :=
  c = bodyCode d ∧ casesIn false d = true ∧ placed .nothing d = true

theorem code_of_writes {b : List Ir} (h : b.any writesLines = true) : bodyCode b = code b := by
  cases b with
  | nil => simp at h
  | cons _ _ => rfl

theorem execList_assigns (P : Prog (List Stmt)) (O : Oracle W) (call) (env : Env)
    (vs : List (Str × Str)) :
    execList P O call env (vs.map fun kv => .assign kv.1 kv.2) =
      M.each (fun kv => M.bind (evalM O env kv.2) fun v => setVars env [(kv.1, v)]) vs := by
  induction vs with
  | nil => simp [execList, M.each]
  | cons x a ih => simp only [List.map_cons, execList, exec, M.each, ih]

theorem RelAt.bindPre {m : MS C W α} {n : MS D W α} {f : α → MS C W β} {g : α → MS D W β}
    (hpre : Stable pre) (h : Rel R m n) (hf : ∀ a, RelAt R pre (f a) (g a)) :
    RelAt R pre (M.bind m f) (M.bind n g) := RelAt.bind hpre h.at hf

theorem RelAt.test {O : Oracle W} {env : Env} {e : Str} {a b : MS (List Stmt) W Unit}
    {a' b' : MT W Unit} {pre : Store (List Stmt) W → Prop} {R} (hpre : Stable pre)
    (ha : RelAt R pre a a') (hb : RelAt R pre b b') :
    RelAt R pre (M.bind (condM O env (.code e)) fun t => if t then a else b)
      (M.bind (Spec.Sem.test O env e) fun t => if t then a' else b') := by
  refine RelAt.bindPre hpre ((Rel.evalM O env e).bind fun v => Rel.pure _) fun t => ?_
  cases t
  · exact hb
  · exact ha

/-! ## What is shown -/

theorem yieldsAny_append (a b : List Stmt) : yieldsAny (a ++ b) = (yieldsAny a || yieldsAny b) := by
  induction a with
  | nil => simp [yieldsAny]
  | cons x a ih => simp [yieldsAny, ih, Bool.or_assoc]

theorem yieldsAny_assigns (vs : List (Str × Str)) :
    yieldsAny (vs.map fun kv => Stmt.assign kv.1 kv.2) = false := by
  induction vs with
  | nil => rfl
  | cons x vs ih => simp [yieldsAny, yields, ih]

theorem elsePart_nothing : ∀ (xs : List Ir), placed .nothing xs = true → casesIn false xs = true → elsePart xs = []
  | [], _, _ => by simp only [elsePart]
  | x :: xs, hpl, hcs => by
    simp only [placed, Bool.and_eq_true] at hpl
    cases x with
    | caseN e b l => simp [casesIn] at hcs
    | elseN b l => simp [placedOne] at hpl
    | python ls l =>
      cases ls with
      | nil =>
        simp only [casesIn] at hcs
        simp only [elsePart]
        exact elsePart_nothing xs (by simpa [after] using hpl.2) hcs
      | cons a as => simp only [elsePart]
    | _ => simp only [elsePart]

/-- What a `case` or `else` shows is in the code of the node before it. -/
def ownElse : Ir → Bool
  | .caseN _ b _ => yieldsAny (code b)
  | .elseN b _ => yieldsAny (code b)
  | _ => false

/-- A node other than these has the code of what follows. -/
def given (els : List Stmt) : Ir → Bool
  | .caseN _ _ _ => false
  | .elseN _ _ => false
  | _ => yieldsAny els

mutual
theorem yields_one (x : Ir) (k : Follow) (els : List Stmt) (hpl : placedOne k x = true) (hcs : casesOk x = true)
    (he : after k x = .nothing → els = []) (hp : (∀ l, x = .python [] l → els = [])) :
    (yieldsAny (codeOne els x) || ownElse x) = (shows x || given els x) := by
  unfold ownElse given
  cases x with
  | text t g l =>
    simp only [codeOne, shows]
    cases hg : activeGuard g with
    | none => simp [yieldsAny, yields]
    | some g => simp [yieldsAny, yields]
  | trans t l => simp only [codeOne, shows]; split <;> simp [yieldsAny, yields]
  | expr c safe l => cases safe <;> simp [codeOne, shows, yieldsAny, yields]
  | attr n m g v l =>
    simp only [codeOne, shows]
    cases hg : activeGuard g <;> simp [yieldsAny, yields]
  | attrs c m g l =>
    simp only [codeOne, shows]
    cases hg : activeGuard g <;> simp [yieldsAny, yields]
  | python ls l =>
    simp only [codeOne, shows]
    cases ls with
    | nil => simp [hp l rfl, yieldsAny]
    | cons a as => simp [he rfl, yieldsAny, yields]
  | imp n a l => simp [codeOne, shows, yieldsAny, yields, he rfl]
  | incl n l => simp [codeOne, shows, yieldsAny, yields]
  | ext n l => simp [codeOne, shows, yieldsAny, yields]
  | innerDef d b l => simp [codeOne, shows, yieldsAny, yields, he rfl]
  | call d c b l => simp [codeOne, shows, yieldsAny, yields]
  | forN d b l =>
    simp only [placedOne, Bool.and_eq_true] at hpl
    have := yields_list b .nothing false hpl.2 hcs
    simp only [elsePart_nothing b hpl.2 hcs, yieldsAny, Bool.or_false] at this
    simp [codeOne, shows, yieldsAny, yields, this]
  | withN vs b l =>
    simp only [placedOne] at hpl
    have := yields_list b .nothing false hpl hcs
    simp only [elsePart_nothing b hpl hcs, yieldsAny, Bool.or_false] at this
    simp [codeOne, shows, yieldsAny, yields, this, yieldsAny_append, yieldsAny_assigns, he rfl]
  | switchN e b l =>
    simp only [placedOne] at hpl
    have := yields_list b .elifOrElse true hpl hcs
    rw [shows, ← this]
    simp [codeOne, yieldsAny, yields, yieldsAny_append, he rfl, Bool.or_comm]
  | caseN e b l =>
    simp only [placedOne, Bool.and_eq_true] at hpl
    have := yields_list b .nothing false hpl.2.2 hcs
    simp only [elsePart_nothing b hpl.2.2 hcs, yieldsAny, Bool.or_false] at this
    simp [codeOne, shows, yieldsAny, this]
  | ifN e b l =>
    simp only [placedOne, Bool.and_eq_true] at hpl
    have := yields_list b .nothing false hpl.2 hcs
    simp only [elsePart_nothing b hpl.2 hcs, yieldsAny, Bool.or_false] at this
    simp [codeOne, shows, yieldsAny, yields, this]
  | elseN b l =>
    simp only [placedOne, Bool.and_eq_true] at hpl
    have := yields_list b .nothing false hpl.2.2 hcs
    simp only [elsePart_nothing b hpl.2.2 hcs, yieldsAny, Bool.or_false] at this
    simp [codeOne, shows, yieldsAny, this]
  | pass l => simp [codeOne, shows, yieldsAny, yields]

theorem yields_list (xs : List Ir) (k : Follow) (sw : Bool) (hpl : placed k xs = true) (hcs : casesIn sw xs = true) :
    (yieldsAny (code xs) || yieldsAny (elsePart xs)) = showsAny xs := by
  cases xs with
  | nil => simp [code, elsePart, yieldsAny, showsAny]
  | cons x xs =>
    simp only [placed, Bool.and_eq_true] at hpl
    by_cases hx : ∃ e b l, x = .caseN e b l
    · obtain ⟨e, b, l, rfl⟩ := hx
      simp only [casesIn, Bool.and_eq_true] at hcs
      have h1 := yields_one (.caseN e b l) k [] hpl.1 hcs.1.2 (fun _ => rfl) (fun _ _ => rfl)
      have h2 := yields_list xs _ true hpl.2 hcs.2
      simp only [codeOne, yieldsAny, Bool.false_or, Bool.or_false, ownElse, given] at h1
      simp only [code, elsePart, codeOne, List.nil_append, yieldsAny, yields, showsAny, ← h2, ← h1]
      cases yieldsAny (code xs) <;> simp
    · by_cases hy : ∃ l, x = .python [] l
      · obtain ⟨l, rfl⟩ := hy
        simp only [casesIn] at hcs
        simp only [code, elsePart, codeOne, List.isEmpty_nil, if_true, List.nil_append, showsAny, shows, Bool.false_or]
        exact yields_list xs _ sw hpl.2 hcs
      · have hcs' : casesOk x = true ∧ casesIn false xs = true := by
          rw [casesIn] at hcs
          · simpa using hcs
          · intro e b l h; exact hx ⟨e, b, l, h⟩
          · intro l h; exact hy ⟨l, h⟩
        have h2 := yields_list xs _ false hpl.2 hcs'.2
        have h1 := yields_one x k (elsePart xs) hpl.1 hcs'.1
          (fun h => elsePart_nothing xs (h ▸ hpl.2) hcs'.2) (fun l h => absurd ⟨l, h⟩ hy)
        simp only [code, showsAny, ← h2, yieldsAny_append]
        cases x with
        | caseN e b l => exact absurd ⟨e, b, l, rfl⟩ hx
        | elseN b l =>
          have : elsePart xs = [] := elsePart_nothing xs (by simpa [after] using hpl.2) hcs'.2
          simp only [codeOne, yieldsAny, Bool.false_or, Bool.or_false, ownElse, given] at h1
          simp only [codeOne, yieldsAny, Bool.false_or, elsePart, this, ← h1, Bool.or_false]
          exact Bool.or_comm _ _
        | python ls l =>
          cases ls with
          | nil => exact absurd ⟨l, rfl⟩ hy
          | cons a as =>
            simp only [Bool.or_false, ownElse, given] at h1
            rw [h1]; simp only [elsePart, yieldsAny, Bool.false_or, Bool.or_assoc, Bool.or_comm]
        | _ =>
          simp only [Bool.or_false, ownElse, given] at h1
          rw [h1]; simp only [elsePart, yieldsAny, Bool.false_or, Bool.or_assoc, Bool.or_comm]
end

/-- Code is read as what it stands for. -/
theorem yields_code {xs : List Ir} (hpl : placed .nothing xs = true) (hcs : casesIn false xs = true) :
    yieldsAny (code xs) = showsAny xs := by
  have := yields_list xs .nothing false hpl hcs
  simpa [elsePart_nothing xs hpl hcs, yieldsAny] using this

theorem RelAt.reading {C D W : Type} {R : C → D → Prop} {pre : Store C W → Prop} {m : MS C W Unit} {n : MS D W Unit}
    (hst : Stable pre) (h : RelAt R pre m n) (y : Bool) : RelAt R pre (reading y m) (reading y n) := by
  refine RelAt.bind hst h fun _ => ?_
  cases y
  · exact (Rel.throw _).at
  · exact (Rel.pure _).at

section
variable (P : Prog (List Stmt)) (Q : Prog (List Ir)) (O : Oracle W)
  (call : Mode → Nat → List Val → MS (List Stmt) W Unit) (call' : Mode → Nat → List Val → MT W Unit)

mutual
theorem one_rel (hP : ProgRel BodyOf P Q) (hc : ∀ m f as, Rel BodyOf (call m f as) (call' m f as))
    (env : Env) (x : Ir) (k : Follow) (els : List Stmt) (elsM : MT W Unit)
    (hpl : placedOne k x = true) (hcs : casesOk x = true)
    (he : RelAt BodyOf (EnvOk env) (execList P O call env els) elsM) :
    RelAt BodyOf (EnvOk env) (execList P O call env (codeOne els x)) (sem Q O call' env elsM x) := by
  have hst := stable_envOk (C := List Stmt) (W := W) env
  cases x with
  | text t g l =>
    simp only [codeOne, sem]
    cases hg : activeGuard g with
    | none => simp only [execList_single, exec]; exact (Rel.tell _).at
    | some g =>
      simp only [execList_single, exec]
      exact RelAt.test hst (Rel.tell _).at he
  | trans t l =>
    simp only [codeOne, sem]
    split
    · simp only [execList_single, exec]; exact (Rel.tell _).at
    · simp only [execList_single, exec]
      exact ((Rel.gettextM O env t).bind fun v => Rel.emit hc _ v).at
  | expr c safe l =>
    simp only [codeOne, sem]
    cases safe
    · simp only [execList_single, exec, Bool.false_eq_true, if_false]
      exact ((Rel.evalM O env c).bind fun v => Rel.emit hc _ _).at
    · simp only [execList_single, exec, if_true]
      exact ((Rel.evalM O env c).bind fun v => Rel.emit hc _ _).at
  | attr n m g v l =>
    simp only [casesOk] at hcs
    have hv : ∀ env', RelAt BodyOf (EnvOk env')
        (Run.reading (yieldsAny (if v.isEmpty then [.yieldLit []] else code v))
          (execList P O call env' (if v.isEmpty then [.yieldLit []] else code v)))
        (if v.isEmpty then M.tell (.chunk []) else Run.reading (showsAny v) (semList Q O call' env' v)) := by
      intro env'
      cases hvv : v with
      | nil =>
        simp only [List.isEmpty_nil, if_true, execList_single, exec, yieldsAny, yields, Run.reading, Bool.true_or,
          M.bind_pure]
        exact (Rel.tell _).at
      | cons y ys =>
        simp only [List.isEmpty_cons, Bool.false_eq_true, if_false]
        rw [← hvv]
        have : placed .nothing v = true := by
          simp only [placedOne, hvv, List.isEmpty_cons, Bool.false_or, Bool.and_eq_true] at hpl
          rw [hvv]; exact hpl.2
        rw [yields_code this hcs]
        exact (list_rel hP hc env' v .nothing false this hcs).reading (stable_envOk env') _
    have hcol : RelAt BodyOf (EnvOk env)
        (collectM env fun env => Run.reading (yieldsAny (if v.isEmpty then [.yieldLit []] else code v))
          (execList P O call env (if v.isEmpty then [.yieldLit []] else code v)))
        (collectM env fun env =>
          if v.isEmpty then M.tell (.chunk []) else Run.reading (showsAny v) (semList Q O call' env v)) :=
      RelAt.collectM hst fun fr => (hv _).weaken fun s h => h
    simp only [codeOne, sem]
    cases hg : activeGuard g with
    | none =>
      simp only [execList, exec, M.bind_pure]
      exact RelAt.bind hst hcol fun _ => RelAt.bindPre hst (Rel.attrM _ _ _) fun _ => he
    | some g =>
      simp only [execList_single, exec]
      refine RelAt.test hst ?_ he
      simp only [execList, exec, M.bind_pure]
      exact RelAt.bind hst hcol fun _ => (Rel.attrM _ _ _).at
  | attrs c m g l =>
    simp only [codeOne, sem]
    cases hg : activeGuard g with
    | none =>
      simp only [execList_single, exec]
      exact RelAt.bindPre hst (Rel.attrsM _ _ _ _) fun _ => he
    | some g =>
      simp only [execList_single, exec]
      refine RelAt.test hst ?_ he
      simp only [execList, M.bind_pure]
      exact (Rel.attrsM _ _ _ _).at
  | python ls l =>
    simp only [codeOne, sem]
    split
    · simp only [execList]; exact (Rel.pure _).at
    · simp only [execList_single, exec]
      exact ((Rel.ask _ _).bind fun _ => Rel.setVars _ _).at
  | imp n a l =>
    simp only [codeOne, sem, execList_single, exec]
    exact ((Rel.importM hP _ _ _).bind fun _ => Rel.pure _).at
  | incl n l =>
    simp only [codeOne, sem, execList_single, exec]
    exact ((Rel.importM hP _ _ _).bind fun _ => Rel.emitMain hc _ _).at
  | ext n l =>
    simp only [codeOne, sem, execList_single, exec]
    exact ((Rel.extendM hP _ _).bind fun _ => Rel.emitMain hc _ _).at
  | innerDef d b l =>
    simp only [codeOne, sem, execList_single, exec]
    refine (Rel.fdefM env d ⟨rfl, hcs, ?_⟩).at
    cases b with
    | nil => simp [placed]
    | cons y ys =>
      simp only [placedOne, List.isEmpty_cons, Bool.false_or, Bool.and_eq_true] at hpl
      exact hpl.2
  | call d c b l =>
    simp only [placedOne, Bool.and_eq_true] at hpl
    simp only [codeOne, sem, execList, exec, M.bind_pure]
    rw [← code_of_writes hpl.1]
    exact ((Rel.fdefM env d ⟨rfl, hcs, hpl.2⟩).bind fun _ =>
      (Rel.evalM O env c).bind fun v => Rel.emit hc _ _).at
  | forN d b l =>
    simp only [placedOne, Bool.and_eq_true] at hpl
    simp only [codeOne, sem, execList_single, exec]
    exact RelAt.bindPre hst (Rel.ask _ _) fun bs => RelAt.bind hst
      (Rel.each hst (fun vars => RelAt.bindPre hst (Rel.setVars _ _) fun _ =>
        list_rel hP hc env b .nothing false hpl.2 hcs) bs) fun _ => he
  | withN vs b l =>
    simp only [codeOne, sem, execList, exec, execList_append, execList_assigns, List.cons_append,
      M.bind_assoc, M.bind_pure]
    cases hj : env.kj with
    | none =>
      have h1 : (kjInst env : MS (List Stmt) W Nat) = M.throw .attr := by simp [kjInst, hj, M.ofOption]
      have h2 : (kjInst env : MT W Nat) = M.throw .attr := by simp [kjInst, hj, M.ofOption]
      rw [h1, h2]
      exact fun s t hs _ => ⟨rfl, rfl, hs, Grows.same rfl rfl, fun _ _ => StackOk.refl _ _⟩
    | some j =>
      have h1 : (kjInst env : MS (List Stmt) W Nat) = M.pure j := by simp [kjInst, hj, M.ofOption]
      have h2 : (kjInst env : MT W Nat) = M.pure j := by simp [kjInst, hj, M.ofOption]
      simp only [h1, h2, M.pure_bind]
      refine RelAt.getBind fun s t hs hp => ?_
      rw [localVars_eq hs]
      simp only [placedOne] at hpl
      have := with_bracket (R := BodyOf) (vals := (vs.map (·.1)).map fun k => ((localVars env t).get k).getD .unit)
        (f := fun v => unpack env (vs.map (·.1)) v)
        (g := setVars env ((vs.map (·.1)).zip
          ((vs.map (·.1)).map fun k => ((localVars env t).get k).getD .unit))) hj
        (RelAt.bind (m := M.each (fun kv => M.bind (evalM O env kv.2) fun v => setVars env [(kv.1, v)]) vs)
          (n := M.each (fun kv => M.bind (evalM O env kv.2) fun v => setVars env [(kv.1, v)]) vs) hst
          (Rel.each hst (fun kv => ((Rel.evalM O env kv.2).bind fun v => Rel.setVars env [(kv.1, v)]).at) vs)
          fun _ => list_rel hP hc env b .nothing false hpl hcs)
        (by simp only [unpack, List.length_map, if_true]; exact (Rel.setVars _ _).at)
      simp only [M.bind_assoc] at this
      exact this s t hs hp
  | switchN e b l =>
    simp only [codeOne, sem, execList, exec, execList_append, M.bind_assoc,
      M.bind_pure, condM, M.pure_bind, Bool.false_eq_true, if_false]
    cases hj : env.kj with
    | none =>
      have h1 : (kjInst env : MS (List Stmt) W Nat) = M.throw .attr := by simp [kjInst, hj, M.ofOption]
      have h2 : (kjInst env : MT W Nat) = M.throw .attr := by simp [kjInst, hj, M.ofOption]
      rw [h1, h2]
      exact fun s t hs _ => ⟨rfl, rfl, hs, Grows.same rfl rfl, fun _ _ => StackOk.refl _ _⟩
    | some j =>
      have h1 : (kjInst env : MS (List Stmt) W Nat) = M.pure j := by simp [kjInst, hj, M.ofOption]
      have h2 : (kjInst env : MT W Nat) = M.pure j := by simp [kjInst, hj, M.ofOption]
      simp only [h1, h2, M.pure_bind]
      refine RelAt.bindPre hst (Rel.evalM O env e) fun v => ?_
      simp only [placedOne] at hpl
      have := switch_bracket (R := BodyOf) (v := v) hj
        (RelAt.bind (stable_topIs env j v) (cases_rel hP hc env b j v .elifOrElse hj hpl hcs)
          fun _ => (list_rel hP hc env b .elifOrElse true hpl hcs).weaken fun s h => h.1)
      simp only [M.bind_assoc] at this
      exact this
  | caseN e b l => simp only [codeOne, sem, execList]; exact (Rel.pure _).at
  | ifN e b l =>
    simp only [placedOne, Bool.and_eq_true] at hpl
    simp only [codeOne, sem, execList_single, exec]
    exact RelAt.test hst (list_rel hP hc env b .nothing false hpl.2 hcs) he
  | elseN b l => simp only [codeOne, sem, execList]; exact (Rel.pure _).at
  | pass l => simp only [codeOne, sem, execList_single, exec]; exact (Rel.tell _).at

theorem list_rel (hP : ProgRel BodyOf P Q) (hc : ∀ m f as, Rel BodyOf (call m f as) (call' m f as))
    (env : Env) (xs : List Ir) (k : Follow) (sw : Bool)
    (hpl : placed k xs = true) (hcs : casesIn sw xs = true) :
    RelAt BodyOf (EnvOk env) (execList P O call env (code xs)) (semList Q O call' env xs) := by
  have hst := stable_envOk (C := List Stmt) (W := W) env
  cases xs with
  | nil => simp only [code, semList, execList]; exact (Rel.pure _).at
  | cons x xs =>
    simp only [placed, Bool.and_eq_true] at hpl
    simp only [code, semList, execList_append]
    by_cases hx : ∃ e b l, x = .caseN e b l
    · obtain ⟨e, b, l, rfl⟩ := hx
      simp only [casesIn, Bool.and_eq_true] at hcs
      simp only [codeOne, sem, execList, M.pure_bind]
      exact list_rel hP hc env xs _ true hpl.2 hcs.2
    · by_cases hy : ∃ l, x = .python [] l
      · obtain ⟨l, rfl⟩ := hy
        simp only [casesIn] at hcs
        simp only [codeOne, sem, List.isEmpty_nil, if_true, execList, M.pure_bind]
        exact list_rel hP hc env xs _ sw hpl.2 hcs
      · have hcs' : casesOk x = true ∧ casesIn false xs = true := by
          rw [casesIn] at hcs
          · simpa using hcs
          · intro e b l h; exact hx ⟨e, b, l, h⟩
          · intro l h; exact hy ⟨l, h⟩
        exact RelAt.bind hst
          (one_rel hP hc env x k _ _ hpl.1 hcs'.1 (else_rel hP hc env xs _ hpl.2 hcs'.2))
          fun _ => list_rel hP hc env xs _ false hpl.2 hcs'.2

theorem else_rel (hP : ProgRel BodyOf P Q) (hc : ∀ m f as, Rel BodyOf (call m f as) (call' m f as))
    (env : Env) (xs : List Ir) (k : Follow)
    (hpl : placed k xs = true) (hcs : casesIn false xs = true) :
    RelAt BodyOf (EnvOk env) (execList P O call env (elsePart xs)) (semElse Q O call' env xs) := by
  cases xs with
  | nil => simp only [elsePart, semElse, execList]; exact (Rel.pure _).at
  | cons x xs =>
    simp only [placed, Bool.and_eq_true] at hpl
    cases x with
    | caseN e b l => simp [casesIn] at hcs
    | elseN b l =>
      simp only [placedOne, Bool.and_eq_true] at hpl
      simp only [casesIn, casesOk, Bool.and_eq_true] at hcs
      simp only [elsePart, semElse]
      exact list_rel hP hc env b .nothing false hpl.1.2.2 hcs.1
    | python ls l =>
      cases ls with
      | nil =>
        simp only [casesIn] at hcs
        simp only [elsePart, semElse]
        exact else_rel hP hc env xs _ hpl.2 hcs
      | cons a as => simp only [elsePart, semElse, execList]; exact (Rel.pure _).at
    | _ => simp only [elsePart, semElse, execList]; exact (Rel.pure _).at

theorem cases_rel (hP : ProgRel BodyOf P Q) (hc : ∀ m f as, Rel BodyOf (call m f as) (call' m f as))
    (env : Env) (xs : List Ir) (j : Nat) (v : Val) (k : Follow) (hj : env.kj = some j)
    (hpl : placed k xs = true) (hcs : casesIn true xs = true) :
    RelAt BodyOf (TopIs env j v) (execList P O call env (elsePart xs))
      (semCases Q O call' env v xs) := by
  have hst := stable_topIs (C := List Stmt) (W := W) env j v
  cases xs with
  | nil => simp only [elsePart, semCases, execList]; exact (Rel.pure _).at
  | cons x xs =>
    simp only [placed, Bool.and_eq_true] at hpl
    cases x with
    | caseN e b l =>
      simp only [placedOne, Bool.and_eq_true] at hpl
      simp only [casesIn, casesOk, Bool.and_eq_true] at hcs
      have h1 : (kjInst env : MS (List Stmt) W Nat) = M.pure j := by simp [kjInst, hj, M.ofOption]
      simp only [elsePart, semCases, execList_single, exec, condM, h1, M.pure_bind, M.bind_assoc]
      refine RelAt.bindPre hst (Rel.evalM O env e) fun u => ?_
      intro s t hs hp
      have htop : ∃ sw, (s.stacks j).sw = v :: sw := by
        have := hp.2.2
        cases h : (s.stacks j).sw with
        | nil => rw [h] at this; simp at this
        | cons a as => rw [h] at this; simp only [List.head?_cons, Option.some.injEq] at this; exact ⟨as, by rw [this]⟩
      obtain ⟨sw, hsw⟩ := htop
      have hcase : M.bind (caseM j u : MS (List Stmt) W Bool) (fun t =>
          if t then execList P O call env (code b) else execList P O call env (elsePart xs)) s =
          (if pyEq u v then execList P O call env (code b) else execList P O call env (elsePart xs)) s := by
        simp only [caseM, M.bind, M.get, hsw, M.pure, Out.nil_append]
      rw [hcase]
      split
      · exact ((list_rel hP hc env b .nothing false hpl.1.2.2 hcs.1.2).weaken fun s h => h.1) s t hs hp
      · exact cases_rel hP hc env xs j v _ hj hpl.2 hcs.2 s t hs hp
    | elseN b l =>
      simp only [placedOne, Bool.and_eq_true] at hpl
      simp only [casesIn, casesOk, Bool.and_eq_true] at hcs
      simp only [elsePart, semCases]
      exact (list_rel hP hc env b .nothing false hpl.1.2.2 hcs.1).weaken fun s h => h.1
    | python ls l =>
      cases ls with
      | nil =>
        simp only [casesIn] at hcs
        simp only [elsePart, semCases]
        exact cases_rel hP hc env xs j v _ hj hpl.2 hcs
      | cons a as => simp only [elsePart, semCases, execList]; exact (Rel.pure _).at
    | _ => simp only [elsePart, semCases, execList]; exact (Rel.pure _).at
end

end

/-! ## Calls -/

theorem localInst_lt {n : Nat} {v : Option Val} {j : Nat} (h : localInst n v = some j) : j < n := by
  unfold localInst at h
  split at h
  · split at h
    · simp only [Option.some.injEq] at h; omega
    · simp at h
  · simp at h

theorem callWith_rel (O : Oracle W) {run : Env → C → MS C W Unit} {run' : Env → D → MS D W Unit}
    {call : Mode → Nat → List Val → MS C W Unit} {call' : Mode → Nat → List Val → MS D W Unit}
    (hrun : ∀ env c d, R c d → RelAt R (EnvOk env) (run env c) (run' env d))
    (hc : ∀ m f as, Rel R (call m f as) (call' m f as)) (mode : Mode) (f : Nat) (as : List Val) :
    Rel R (callWith O run call mode f as) (callWith O run' call' mode f as) := by
  refine RelAt.getBind fun s t hs _ => ?_
  rcases hf : s.fns[f]? with _ | fn
  · have : t.fns[f]? = none := by
      rw [List.getElem?_eq_none_iff] at hf ⊢; rw [← hs.fns.length_eq]; exact hf
    rw [this]
    exact Rel.throw _ s t hs trivial
  · obtain ⟨hlt, hpe⟩ := List.getElem?_eq_some_iff.1 hf
    have hlt' : f < t.fns.length := by rw [← hs.fns.length_eq]; exact hlt
    have hq : t.fns[f]? = some t.fns[f] := List.getElem?_eq_getElem hlt'
    have hr := List.forall₂_iff_get.1 hs.fns |>.2 f hlt hlt'
    simp only [List.get_eq_getElem, hpe] at hr
    rw [hq]
    obtain ⟨hb, hi, hu, -⟩ := hr
    simp only [M.ofOption, M.pure_bind, hi, hu, hs.insts]
    generalize t.fns[f] = gn at *
    rcases hfb : fn.body with ⟨d, c⟩ | k <;> rcases hgb : gn.body with ⟨d', c'⟩ | k' <;>
      rw [hfb, hgb] at hb <;> simp only [BodyRel] at hb
    · obtain ⟨rfl, hcd⟩ := hb
      dsimp only
      have hst : Stable (fun x : Store C W => t.insts.length ≤ x.insts.length) :=
        fun _ _ h h2 _ => Nat.le_trans h h2.1
      refine RelAt.bind hst (f := fun vars => M.bind (newFrame vars gn.up) _) ?_ (fun vars =>
        RelAt.bindPre hst (Rel.newFrame _ _) fun fr => RelAt.bindPre hst (Rel.getInst _) fun i =>
          (hrun _ _ _ hcd).weaken fun x hx j hj => ?_) s t hs (by show _ ≤ s.insts.length; rw [hs.insts]; exact Nat.le_refl _)
      · intro s t hs _
        dsimp only
        rw [hs.world]
        exact ⟨rfl, rfl, ⟨hs.insts, hs.frames, hs.used, rfl, hs.fns, hs.ups, hs.fnUps⟩, Grows.same rfl rfl,
          fun _ _ => StackOk.refl _ _⟩
      · exact Nat.lt_of_lt_of_le (localInst_lt hj) hx
    · subst hb
      exact Rel.bind (R := R) (Rel.globalInst _ _) (fun p => (Rel.attrFn p _).bind fun g => hc _ _ _)
        s t hs trivial

theorem body_rel {P : Prog (List Stmt)} {Q : Prog (List Ir)} {O : Oracle W} {call call'}
    (hP : ProgRel BodyOf P Q) (hc : ∀ m f as, Rel BodyOf (call m f as) (call' m f as))
    (env : Env) (c : List Stmt) (d : List Ir) (h : BodyOf c d) :
    RelAt BodyOf (EnvOk env) (reading (yieldsAny c) (execList P O call env c)) (semBody Q O call' env d) := by
  obtain ⟨rfl, hcs, hpl⟩ := h
  unfold bodyCode semBody
  cases d with
  | nil =>
    simp only [List.isEmpty_nil, if_true, execList_single, exec, yieldsAny, yields, reading, Bool.true_or, M.bind_pure]
    exact (Rel.tell _).at
  | cons x xs =>
    simp only [List.isEmpty_cons, Bool.false_eq_true, if_false]
    rw [yields_code hpl hcs]
    exact (list_rel P Q O call call' hP hc env _ .nothing false hpl hcs).reading (stable_envOk env) _

theorem call_rel {P : Prog (List Stmt)} {Q : Prog (List Ir)} (O : Oracle W)
    (hP : ProgRel BodyOf P Q) (n : Nat) (m : Mode) (f : Nat) (as : List Val) :
    Rel BodyOf (callN P O n m f as) (semCall Q O n m f as) := by
  induction n generalizing m f as with
  | zero => exact Rel.throw _
  | succ n ih => exact callWith_rel O (fun env c d h => body_rel hP ih env c d h) ih m f as

theorem render_rel {P : Prog (List Stmt)} {Q : Prog (List Ir)} (O : Oracle W)
    (hP : ProgRel BodyOf P Q) (n i : Nat) :
    Rel BodyOf (renderInst P O n i) (semRender Q O n i) := Rel.emitMain (call_rel O hP n) _ _

end Kajiki.Run
