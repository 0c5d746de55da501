import Verif.Lemmas.ExecSem
import Verif.Lemmas.Codegen

/-!
# Merging texts does not change the meaning
-/

namespace Kajiki.Run
open Kajiki.Spec.Code Kajiki.Spec.Sem

variable {W : Type}

/-- Bodies before and after merging. -/
def MergeOf (O : Oracle W) (c d : List Ir) : Prop :=
  c = mergedList d ∧ ∀ g ∈ textGuardsList d, Steady O g

theorem tell_tell {S : Type} (a b : Str) :
    M.bind (M.tell (.chunk a) : M S Unit) (fun _ => M.tell (.chunk b)) = M.tell (.chunk (a ++ b)) := by
  funext s; rfl

theorem tell_tell_bind {S : Type} (a b : Str) (k : M S Unit) :
    M.bind (M.tell (.chunk a)) (fun _ => M.bind (M.tell (.chunk b)) fun _ => k) =
      M.bind (M.tell (.chunk (a ++ b))) fun _ => k := by
  rw [← M.bind_assoc, tell_tell]

/-- Asking a steady test twice. -/
theorem test_twice {O : Oracle W} {env : Env} {g : Str} (h : Steady O g) (a b : Str)
    (els k : MT W Unit) :
    M.bind (M.bind (test O env g) fun c => if c then M.tell (.chunk a) else M.pure ())
      (fun _ => M.bind (M.bind (test O env g) fun c => if c then M.tell (.chunk b) else els) fun _ => k) =
    M.bind (M.bind (test O env g) fun c => if c then M.tell (.chunk (a ++ b)) else els) fun _ => k := by
  funext s
  unfold Spec.Sem.test evalM Kajiki.Run.ask
  cases he : O.eval g (view env s) s.world with
  | mk v w' =>
    cases v with
    | error e => simp [M.bind, he]
    | ok x =>
      have hw := h _ _ _ _ he
      subst hw
      cases ht : truthy x
      · simp [M.bind, he, M.pure, ht]
      · simp only [M.bind, he, M.pure, ht, M.tell, if_true]
        have : view env s = view env { s with world := s.world } := rfl
        simp only [Out.nil_append]
        generalize k _ = r
        congr 1
        rw [← Out.append_assoc]; rfl

theorem semList_consMerge (Q : Prog (List Ir)) (O : Oracle W) (call) (env : Env) (x : Ir) (ys : List Ir)
    (h : ∀ g ∈ textGuards x, Steady O g) :
    semList Q O call env (consMerge x ys) = semList Q O call env (x :: ys) := by
  unfold consMerge
  split
  · next a g l b g' l' xs =>
    split
    · next hg =>
      subst hg
      simp only [semList, sem, semElse]
      cases hga : activeGuard g with
      | none => simp only []; rw [tell_tell_bind]
      | some e =>
        simp only []
        rw [test_twice (h e (by simp [textGuards, hga]))]
    · rfl
  · rfl

theorem semElse_consMerge (Q : Prog (List Ir)) (O : Oracle W) (call) (env : Env) (x : Ir) (ys : List Ir) :
    semElse Q O call env (consMerge x ys) = semElse Q O call env (x :: ys) := by
  unfold consMerge
  split
  · split <;> simp only [semElse]
  · rfl

theorem semCases_consMerge (Q : Prog (List Ir)) (O : Oracle W) (call) (env : Env) (v : Val) (x : Ir)
    (ys : List Ir) :
    semCases Q O call env v (consMerge x ys) = semCases Q O call env v (x :: ys) := by
  unfold consMerge
  split
  · split <;> simp only [semCases]
  · rfl

theorem textGuards_consMerge (x : Ir) (ys : List Ir) :
    ∀ g ∈ textGuardsList (consMerge x ys), g ∈ textGuards x ++ textGuardsList ys := by
  unfold consMerge
  split
  · split
    · next hg => subst hg; intro g hg; simp only [textGuardsList, textGuards, List.mem_append] at *; tauto
    · intro g hg; simpa only [textGuardsList] using hg
  · intro g hg; simpa only [textGuardsList] using hg

mutual
theorem textGuards_merged (x : Ir) : ∀ g ∈ textGuards (merged x), g ∈ textGuards x := by
  cases x <;> simp only [merged, textGuards, imp_self, implies_true] <;>
    exact textGuards_mergedList _

theorem textGuards_mergedList (xs : List Ir) :
    ∀ g ∈ textGuardsList (mergedList xs), g ∈ textGuardsList xs := by
  cases xs with
  | nil => simp [mergedList, textGuardsList]
  | cons x xs =>
    intro g hg
    have := textGuards_consMerge _ _ g hg
    simp only [textGuardsList, List.mem_append] at *
    exact this.imp (textGuards_merged x g) (textGuards_mergedList xs g)
end

theorem shows_consMerge (x : Ir) (ys : List Ir) : showsAny (consMerge x ys) = (shows x || showsAny ys) := by
  unfold consMerge
  split
  · split <;> simp [showsAny, shows]
  · rw [showsAny]

mutual
theorem shows_merged (x : Ir) : shows (merged x) = shows x := by
  cases x <;> simp only [merged, shows] <;> exact shows_mergedList _

theorem shows_mergedList (xs : List Ir) : showsAny (mergedList xs) = showsAny xs := by
  cases xs with
  | nil => simp [mergedList, showsAny]
  | cons x xs => rw [mergedList, shows_consMerge, shows_merged x, shows_mergedList xs, showsAny]
end

section
variable (Q Q' : Prog (List Ir)) (O : Oracle W)
  (call call' : Mode → Nat → List Val → MT W Unit)

theorem RelAt.test' {env : Env} {e : Str} {a b a' b' : MT W Unit} {R}
    (ha : Rel R a a') (hb : Rel R b b') :
    Rel R (M.bind (Spec.Sem.test O env e) fun t => if t then a else b)
      (M.bind (Spec.Sem.test O env e) fun t => if t then a' else b') := by
  refine ((Rel.evalM O env e).bind fun v => Rel.pure _).bind fun t => ?_
  cases t
  · exact hb
  · exact ha

mutual
theorem merge_one (hP : ProgRel (MergeOf O) Q Q')
    (hc : ∀ m f as, Rel (MergeOf O) (call m f as) (call' m f as)) (env : Env) (x : Ir)
    (els els' : MT W Unit) (hg : ∀ g ∈ textGuards x, Steady O g) (he : Rel (MergeOf O) els els') :
    Rel (MergeOf O) (sem Q O call env els (merged x)) (sem Q' O call' env els' x) := by
  cases x with
  | text t g l =>
    simp only [merged, sem]
    cases activeGuard g with
    | none => exact Rel.tell _
    | some g => exact RelAt.test' O (Rel.tell _) he
  | trans t l =>
    simp only [merged, sem]
    split
    · exact Rel.tell _
    · exact (Rel.gettextM O env t).bind fun v => Rel.emit hc _ v
  | expr c safe l =>
    simp only [merged, sem]
    exact (Rel.evalM O env c).bind fun v => Rel.emit hc _ _
  | attr n m g v l =>
    have hcol : Rel (MergeOf O)
        (collectM env fun env => if (mergedList v).isEmpty then M.tell (.chunk [])
          else reading (showsAny (mergedList v)) (semList Q O call env (mergedList v)))
        (collectM env fun env => if v.isEmpty then M.tell (.chunk [])
          else reading (showsAny v) (semList Q' O call' env v)) := by
      refine RelAt.collectM stable_true fun fr => ?_
      rw [mergedList_isEmpty, shows_mergedList]
      split
      · exact Rel.tell _
      · exact RelAt.reading stable_true (merge_list hP hc _ v hg) _
    simp only [merged, sem]
    cases activeGuard g with
    | none => exact hcol.bind fun _ => (Rel.attrM _ _ _).bind fun _ => he
    | some g => exact RelAt.test' O (hcol.bind fun _ => Rel.attrM _ _ _) he
  | attrs c m g l =>
    simp only [merged, sem]
    cases activeGuard g with
    | none => exact (Rel.attrsM _ _ _ _).bind fun _ => he
    | some g => exact RelAt.test' O (Rel.attrsM _ _ _ _) he
  | python ls l =>
    simp only [merged, sem]
    split
    · exact Rel.pure _
    · exact (Rel.ask _ _).bind fun _ => Rel.setVars _ _
  | imp n a l => simp only [merged, sem]; exact (Rel.importM hP _ _ _).bind fun _ => Rel.pure _
  | incl n l => simp only [merged, sem]; exact (Rel.importM hP _ _ _).bind fun _ => Rel.emitMain hc _ _
  | ext n l => simp only [merged, sem]; exact (Rel.extendM hP _ _).bind fun _ => Rel.emitMain hc _ _
  | innerDef d b l => simp only [merged, sem]; exact Rel.fdefM env d ⟨rfl, hg⟩
  | call d c b l =>
    simp only [merged, sem]
    exact (Rel.fdefM env d ⟨rfl, hg⟩).bind fun _ => (Rel.evalM O env c).bind fun v => Rel.emit hc _ _
  | forN d b l =>
    simp only [merged, sem]
    exact (Rel.ask _ _).bind fun bs => Rel.bind (Rel.each stable_true (fun vars =>
      (Rel.setVars _ _).bind fun _ => merge_list hP hc env b hg) bs) fun _ => he
  | withN vs b l =>
    simp only [merged, sem]
    refine (Rel.kjInst env).bind fun j => RelAt.getBind fun s t hs _ => ?_
    rw [localVars_eq hs]
    exact Rel.bind (R := MergeOf O) (Rel.each stable_true (fun kv => (Rel.evalM O env kv.2).bind fun v =>
      Rel.setVars env [(kv.1, v)]) vs) (fun _ => (merge_list hP hc env b hg).bind fun _ => Rel.setVars _ _)
      s t hs trivial
  | switchN e b l =>
    simp only [merged, sem]
    exact (Rel.kjInst env).bind fun j => (Rel.evalM O env e).bind fun v =>
      (merge_cases hP hc env v b hg).bind fun _ => merge_list hP hc env b hg
  | caseN e b l => simp only [merged, sem]; exact Rel.pure _
  | ifN e b l => simp only [merged, sem]; exact RelAt.test' O (merge_list hP hc env b hg) he
  | elseN b l => simp only [merged, sem]; exact Rel.pure _
  | pass l => simp only [merged, sem]; exact Rel.tell _

theorem merge_list (hP : ProgRel (MergeOf O) Q Q')
    (hc : ∀ m f as, Rel (MergeOf O) (call m f as) (call' m f as)) (env : Env) (xs : List Ir)
    (hg : ∀ g ∈ textGuardsList xs, Steady O g) :
    Rel (MergeOf O) (semList Q O call env (mergedList xs)) (semList Q' O call' env xs) := by
  cases xs with
  | nil => simp only [mergedList, semList]; exact Rel.pure _
  | cons x xs =>
    have h1 : ∀ g ∈ textGuards x, Steady O g := fun g h => hg g (by simp [textGuardsList, h])
    have h2 : ∀ g ∈ textGuardsList xs, Steady O g := fun g h => hg g (by simp [textGuardsList, h])
    rw [mergedList, semList_consMerge _ _ _ _ _ _ fun g h => h1 g (textGuards_merged x g h)]
    simp only [semList]
    exact (merge_one hP hc env x _ _ h1 (merge_else hP hc env xs h2)).bind fun _ =>
      merge_list hP hc env xs h2

theorem merge_else (hP : ProgRel (MergeOf O) Q Q')
    (hc : ∀ m f as, Rel (MergeOf O) (call m f as) (call' m f as)) (env : Env) (xs : List Ir)
    (hg : ∀ g ∈ textGuardsList xs, Steady O g) :
    Rel (MergeOf O) (semElse Q O call env (mergedList xs)) (semElse Q' O call' env xs) := by
  cases xs with
  | nil => simp only [mergedList, semElse]; exact Rel.pure _
  | cons x xs =>
    have h1 : ∀ g ∈ textGuards x, Steady O g := fun g h => hg g (by simp [textGuardsList, h])
    have h2 : ∀ g ∈ textGuardsList xs, Steady O g := fun g h => hg g (by simp [textGuardsList, h])
    rw [mergedList, semElse_consMerge]
    cases x with
    | elseN b l => simp only [merged, semElse]; exact merge_list hP hc env b h1
    | python ls l =>
      cases ls with
      | nil => simp only [merged, semElse]; exact merge_else hP hc env xs h2
      | cons a as => simp only [merged, semElse]; exact Rel.pure _
    | _ => simp only [merged, semElse]; exact Rel.pure _

theorem merge_cases (hP : ProgRel (MergeOf O) Q Q')
    (hc : ∀ m f as, Rel (MergeOf O) (call m f as) (call' m f as)) (env : Env) (v : Val) (xs : List Ir)
    (hg : ∀ g ∈ textGuardsList xs, Steady O g) :
    Rel (MergeOf O) (semCases Q O call env v (mergedList xs)) (semCases Q' O call' env v xs) := by
  cases xs with
  | nil => simp only [mergedList, semCases]; exact Rel.pure _
  | cons x xs =>
    have h1 : ∀ g ∈ textGuards x, Steady O g := fun g h => hg g (by simp [textGuardsList, h])
    have h2 : ∀ g ∈ textGuardsList xs, Steady O g := fun g h => hg g (by simp [textGuardsList, h])
    rw [mergedList, semCases_consMerge]
    cases x with
    | elseN b l => simp only [merged, semCases]; exact merge_list hP hc env b h1
    | caseN e b l =>
      simp only [merged, semCases]
      refine (Rel.evalM O env e).bind fun u => ?_
      split
      · exact merge_list hP hc env b h1
      · exact merge_cases hP hc env v xs h2
    | python ls l =>
      cases ls with
      | nil => simp only [merged, semCases]; exact merge_cases hP hc env v xs h2
      | cons a as => simp only [merged, semCases]; exact Rel.pure _
    | _ => simp only [merged, semCases]; exact Rel.pure _
end

end

theorem merge_body {Q Q' : Prog (List Ir)} {O : Oracle W} {call call'}
    (hP : ProgRel (MergeOf O) Q Q') (hc : ∀ m f as, Rel (MergeOf O) (call m f as) (call' m f as))
    (env : Env) (c d : List Ir) (h : MergeOf O c d) :
    Rel (MergeOf O) (semBody Q O call env c) (semBody Q' O call' env d) := by
  obtain ⟨rfl, hg⟩ := h
  unfold semBody
  rw [mergedList_isEmpty, shows_mergedList]
  split
  · exact Rel.tell _
  · exact RelAt.reading stable_true (merge_list Q Q' O call call' hP hc env d hg) _

theorem merge_call {Q Q' : Prog (List Ir)} (O : Oracle W)
    (hP : ProgRel (MergeOf O) Q Q') (n : Nat) (m : Mode) (f : Nat) (as : List Val) :
    Rel (MergeOf O) (semCall Q O n m f as) (semCall Q' O n m f as) := by
  induction n generalizing m f as with
  | zero => exact Rel.throw _
  | succ n ih => exact callWith_rel O (fun env c d h => (merge_body hP ih env c d h).at) ih m f as

theorem merge_render {Q Q' : Prog (List Ir)} (O : Oracle W)
    (hP : ProgRel (MergeOf O) Q Q') (n i : Nat) :
    Rel (MergeOf O) (semRender Q O n i) (semRender Q' O n i) := Rel.emitMain (merge_call O hP n) _ _

end Kajiki.Run
