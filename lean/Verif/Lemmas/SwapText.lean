import Verif.Spec.SwapText
import Verif.Lemmas.TextSem

/-!
# Lemmas for C89
-/

namespace Kajiki.SwapTextL
open Kajiki.Run Kajiki.Spec.TextSem Kajiki.Spec.SwapText
open Kajiki.Spec.TextTree (Dir)

variable {W : Type} {O : Oracle W} {c : Conf}

/-! ## Functions -/

/-- Bodies of functions of which one is the other with parts exchanged. -/
inductive PartR (O : Oracle W) : Part → Part → Prop
  | body {c : Conf} {p : Spot} {xs ys : List Dir} (h : SwappedAll O c p false xs ys) : PartR O (.body c p xs) (.body c p ys)
  | block {c : Conf} {p : Spot} {name : Str} {xs ys : List Dir} (h : SwappedAll O c p false xs ys) :
      PartR O (.block c p name xs) (.block c p name ys)

theorem all_refl : ∀ (xs : List Dir) (p : Spot) (sw : Bool), SwappedAll O c p sw xs xs
  | [], _, _ => .nil
  | x :: xs, _, _ => .cons (.same x) (all_refl xs _ _)

theorem part_refl (a : Part) : PartR O a a := by
  cases a with
  | body => exact .body (all_refl _ _ _)
  | block => exact .block (all_refl _ _ _)

/-- Functions with related bodies. -/
abbrev FunsR (O : Oracle W) : List (Str × Part) → List (Str × Part) → Prop :=
  List.Forall₂ fun a b => a.1 = b.1 ∧ PartR O a.2 b.2

theorem funs_refl (fs : List (Str × Part)) : FunsR O fs fs := List.forall₂_same.2 fun _ _ => ⟨rfl, part_refl _⟩

theorem funs_append {a b a' b' : List (Str × Part)} (h : FunsR O a a') (h' : FunsR O b b') :
    FunsR O (a ++ b) (a' ++ b') := List.rel_append h h'

theorem defsAll_append (p : Spot) : ∀ xs ys, defsAll c p (xs ++ ys) = defsAll c p xs ++ defsAll c (afterAll p xs) ys := by
  intro xs
  induction xs generalizing p with
  | nil => intro ys; rw [List.nil_append, defsAll, afterAll, List.nil_append]
  | cons x xs ih => intro ys; rw [List.cons_append, defsAll, defsAll, afterAll, ih, List.append_assoc]

theorem afterAll_append (p : Spot) : ∀ xs ys, afterAll p (xs ++ ys) = afterAll (afterAll p xs) ys := by
  intro xs
  induction xs generalizing p with
  | nil => intro ys; rw [List.nil_append, afterAll]
  | cons x xs ih => intro ys; rw [List.cons_append, afterAll, afterAll, ih]

theorem silentAll_append (p : Spot) : ∀ xs ys,
    silentAll p (xs ++ ys) = (silentAll p xs && silentAll (afterAll p xs) ys) := by
  intro xs
  induction xs generalizing p with
  | nil => intro ys; rw [List.nil_append, silentAll, afterAll, Bool.true_and]
  | cons x xs ih => intro ys; rw [List.cons_append, silentAll, silentAll, afterAll, ih, Bool.and_assoc]

theorem speaksAny_append (p : Spot) : ∀ xs ys,
    speaksAny p (xs ++ ys) = (speaksAny p xs || speaksAny (afterAll p xs) ys) := by
  intro xs
  induction xs generalizing p with
  | nil => intro ys; rw [List.nil_append, speaksAny, afterAll, Bool.false_or]
  | cons x xs ih => intro ys; rw [List.cons_append, speaksAny, speaksAny, afterAll, ih, Bool.or_assoc]

theorem dirs_append {P : Prog Part} {call} (env : Env) : ∀ (p : Spot) (xs ys : List Dir),
    dirs P O call c env p (xs ++ ys) =
      M.bind (dirs P O call c env p xs) fun _ => dirs P O call c env (afterAll p xs) ys
  | p, [], ys => by
    rw [List.nil_append, afterAll]
    conv_rhs => rw [dirs]
    rw [M.pure_bind]
  | p, x :: xs, ys => by
    rw [List.cons_append, dirs, dirs, M.bind_assoc, afterAll, dirs_append env (after p x) xs]

/-! ## What does not depend on states -/

/-- What two directives have in common of which one is the other with parts exchanged. -/
structure One (O : Oracle W) (c : Conf) (p : Spot) (x y : Dir) : Prop where
  after : after p x = after p y
  defs : FunsR O (defs c p x) (defs c p y)
  silent : silent p x = silent p y
  speaks : speaks p x = speaks p y

/-- The same for several directives. -/
structure All (O : Oracle W) (c : Conf) (p : Spot) (xs ys : List Dir) : Prop where
  after : afterAll p xs = afterAll p ys
  defs : FunsR O (defsAll c p xs) (defsAll c p ys)
  silent : silentAll p xs = silentAll p ys
  speaks : speaksAny p xs = speaksAny p ys

mutual
theorem one : ∀ {p : Spot} {x y : Dir}, Swapped O c p x y → One O c p x y
  | _, _, _, .same _ => ⟨rfl, funs_refl _, rfl, rfl⟩
  | p, _, _, .ifD (xs := xs) (ys := ys) h => by
    have ih := all h
    refine ⟨?_, ?_, ?_, ?_⟩
    · rw [after, after, ih.after]
    · rw [defs, defs]; exact ih.defs
    · rw [silent, silent] <;> nofun
    · rw [speaks, speaks, ih.speaks]
  | p, _, _, .ifElse h h' => by
    have ih := all h
    have ih' := all h'
    refine ⟨?_, ?_, ?_, ?_⟩
    · rw [after, after, ← ih.after, ih'.after]
    · rw [defs, defs, ← ih.after]; exact funs_append ih.defs ih'.defs
    · rw [silent, silent] <;> nofun
    · rw [speaks, speaks, ← ih.after, ih.speaks, ih'.speaks]
  | p, _, _, .forD h => by
    have ih := all h
    refine ⟨?_, ?_, ?_, ?_⟩
    · rw [after, after, ih.after]
    · rw [defs, defs]; exact ih.defs
    · rw [silent, silent] <;> nofun
    · rw [speaks, speaks, ih.speaks]
  | p, _, _, .switchD h => by
    have ih := all h
    refine ⟨?_, ?_, ?_, ?_⟩
    · rw [after, after, ih.after]
    · rw [defs, defs]; exact ih.defs
    · rw [silent, silent] <;> nofun
    · rw [speaks, speaks, ih.speaks]
  | p, _, _, .caseD h => by
    have ih := all h
    refine ⟨?_, ?_, ?_, ?_⟩
    · rw [after, after, ih.after]
    · rw [defs, defs]; exact ih.defs
    · rw [silent, silent] <;> nofun
    · rw [speaks, speaks, ih.speaks]
  | p, _, _, .elseD h => by
    have ih := all h
    refine ⟨?_, ?_, ?_, ?_⟩
    · rw [after, after, ih.after]
    · rw [defs, defs]; exact ih.defs
    · rw [silent, silent] <;> nofun
    · rw [speaks, speaks, ih.speaks]
  | p, _, _, .defD h => by
    have ih := all h
    refine ⟨?_, ?_, ?_, ?_⟩
    · rw [after, after, ih.after]
    · rw [defs, defs]
      refine funs_append ih.defs ?_
      split
      · exact .nil
      · exact .cons ⟨rfl, .body h⟩ .nil
    · rw [silent, silent]
    · rw [speaks, speaks]
  | p, _, _, .callD h => by
    have ih := all h
    refine ⟨?_, ?_, ?_, ?_⟩
    · rw [after, after, ih.after]
    · rw [defs, defs]; exact ih.defs
    · rw [silent, silent] <;> nofun
    · rw [speaks, speaks] <;> nofun
  | p, _, _, .blockD h => by
    have ih := all h
    refine ⟨?_, ?_, ?_, ?_⟩
    · rw [after, after, ih.after]
    · rw [defs, defs]; exact funs_append ih.defs (.cons ⟨rfl, .block h⟩ .nil)
    · rw [silent, silent, ih.after]
    · rw [speaks, speaks, ih.after]

theorem all : ∀ {p : Spot} {sw : Bool} {xs ys : List Dir}, SwappedAll O c p sw xs ys → All O c p xs ys
  | _, _, _, _, .nil => ⟨rfl, .nil, rfl, rfl⟩
  | p, _, _, _, .cons h hs => by
    have h1 := one h
    have h2 := all hs
    refine ⟨?_, ?_, ?_, ?_⟩
    · rw [afterAll, afterAll, ← h1.after, h2.after]
    · rw [defsAll, defsAll, ← h1.after]; exact funs_append h1.defs h2.defs
    · rw [silentAll, silentAll, ← h1.after, h1.silent, h2.silent]
    · rw [speaksAny, speaksAny, ← h1.after, h1.speaks, h2.speaks]
  | _, _, _, _, .part h hs => by
    have h2 := all hs
    refine ⟨?_, ?_, ?_, ?_⟩
    · rw [afterAll_append, afterAll_append, ← h.after, h2.after]
    · rw [defsAll_append, defsAll_append, ← h.after, ← h.defines]; exact funs_append (funs_refl _) h2.defs
    · rw [silentAll_append, silentAll_append, ← h.after, h.silent, h2.silent]
    · rw [speaksAny_append, speaksAny_append, ← h.after, h.speaks, h2.speaks]
end

/-! ## States -/

section
variable {P Q : Prog Part} (hP : ProgRel (PartR O) P Q) {call call' : Mode → Nat → List Val → MD W Unit}
  (hcall : ∀ mode f as, Rel (PartR O) (call mode f as) (call' mode f as))

theorem test_rel (env : Env) (e : Str) : Rel (PartR O) (test O env e) (test O env e) :=
  (Rel.evalM O env e).bind fun _ => Rel.pure _

include hcall in
theorem shown_rel (env : Env) (b : Bool) (e : Str) : Rel (PartR O) (shown O call env b e) (shown O call' env b e) :=
  (Rel.evalM O env e).bind fun _ => Rel.emit hcall _ _

theorem say_rel (t : Str) : Rel (PartR O) (say t : MD W Unit) (say t) := Rel.tell _

theorem python_rel (env : Env) (ls : List Str) : Rel (PartR O) (python O env ls) (python O env ls) := by
  unfold python
  split
  · exact Rel.pure _
  · exact (Rel.ask _ _).bind fun _ => Rel.setVars _ _

/-- What the contents of two directives do, so that the directives do the same. -/
abbrev Same (O : Oracle W) (P Q : Prog Part) (call call' : Mode → Nat → List Val → MD W Unit) (c : Conf) (p : Spot)
    (xs ys : List Dir) : Prop :=
  ∀ env : Env, Rel (PartR O) (dirs P O call c env p xs) (dirs Q O call' c env p ys)

theorem if_rel (env : Env) {p : Spot} {e : Str} {xs ys : List Dir} (h : Same O P Q call call' c p xs ys) :
    Rel (PartR O) (dir P O call c env p (.ifD e xs)) (dir Q O call' c env p (.ifD e ys)) := by
  rw [dir, dir]
  refine (test_rel env e).bind fun b => ?_
  cases b
  · exact Rel.pure _
  · exact h env

theorem ifElse_rel (env : Env) {p : Spot} {e : Str} {xs ys us vs : List Dir} (ha : afterAll p xs = afterAll p ys)
    (h : Same O P Q call call' c p xs ys) (h' : Same O P Q call call' c (afterAll p xs) us vs) :
    Rel (PartR O) (dir P O call c env p (.ifElse e xs us)) (dir Q O call' c env p (.ifElse e ys vs)) := by
  rw [dir, dir, ← ha]
  refine (test_rel env e).bind fun b => ?_
  cases b
  · exact h' env
  · exact h env

theorem for_rel (env : Env) {p : Spot} {e : Str} {xs ys : List Dir} (h : Same O P Q call call' c p xs ys) :
    Rel (PartR O) (dir P O call c env p (.forD e xs)) (dir Q O call' c env p (.forD e ys)) := by
  rw [dir, dir]
  exact (Rel.ask _ _).bind fun rs => Rel.each stable_true (fun a => (Rel.setVars _ _).bind fun _ => h env) _

theorem switch_rel (env : Env) {p : Spot} {e : Str} {xs ys : List Dir} (h : Same O P Q call call' c p xs ys)
    (h' : ∀ (env : Env) v, Rel (PartR O) (choice P O call c env p v xs) (choice Q O call' c env p v ys)) :
    Rel (PartR O) (dir P O call c env p (.switchD e xs)) (dir Q O call' c env p (.switchD e ys)) := by
  rw [dir, dir]
  exact (Rel.kjInst env).bind fun _ => (Rel.evalM O env e).bind fun v => (h' env v).bind fun _ => h env

theorem case_rel (env : Env) {p : Spot} {e : Str} {xs ys : List Dir} :
    Rel (PartR O) (dir P O call c env p (.caseD e xs)) (dir Q O call' c env p (.caseD e ys)) := by
  rw [dir, dir]; exact Rel.pure _

theorem else_rel (env : Env) {p : Spot} {xs ys : List Dir} :
    Rel (PartR O) (dir P O call c env p (.elseD xs)) (dir Q O call' c env p (.elseD ys)) := by
  rw [dir, dir]; exact Rel.pure _

theorem def_rel (env : Env) {p : Spot} {e : Str} {xs ys : List Dir} (h : SwappedAll O c p.fn false xs ys) :
    Rel (PartR O) (dir P O call c env p (.defD e xs)) (dir Q O call' c env p (.defD e ys)) := by
  rw [dir, dir]
  split
  · exact Rel.fdefM env e (.body h)
  · exact Rel.pure _

include hcall in
theorem call_rel (env : Env) {p : Spot} {a e : Str} {xs ys : List Dir} (h : SwappedAll O c p false xs ys) :
    Rel (PartR O) (dir P O call c env p (.callD a e xs)) (dir Q O call' c env p (.callD a e ys)) := by
  rw [dir, dir, (all h).after]
  exact (Rel.fdefM env _ (.body h)).bind fun _ => shown_rel hcall env _ _

include hcall in
theorem block_rel (env : Env) {p : Spot} {e : Str} {xs ys : List Dir} (ha : afterAll p xs = afterAll p ys) :
    Rel (PartR O) (dir P O call c env p (.blockD e xs)) (dir Q O call' c env p (.blockD e ys)) := by
  rw [dir, dir, ha]
  split
  · exact Rel.pure _
  · exact shown_rel hcall env _ _

set_option linter.unusedSectionVars false in
include hP hcall in
mutual
theorem dir_refl (env : Env) : ∀ (p : Spot) (d : Dir), Rel (PartR O) (dir P O call c env p d) (dir Q O call' c env p d)
  | p, .text t _ => by rw [dir, dir]; exact say_rel t
  | p, .expr e _ => by rw [dir, dir]; exact shown_rel hcall env _ e
  | p, .ifD e b => if_rel env fun env => dirs_refl env p b
  | p, .ifElse e b b' => ifElse_rel env rfl (fun env => dirs_refl env p b) fun env => dirs_refl env _ b'
  | p, .forD e b => for_rel env fun env => dirs_refl env p b
  | p, .switchD e b => switch_rel env (fun env => dirs_refl env p b) fun env v => choice_refl env p v b
  | p, .caseD e b => case_rel env
  | p, .elseD b => else_rel env
  | p, .defD e b => def_rel env (all_refl _ _ _)
  | p, .callD a e b => call_rel hcall env (all_refl _ _ _)
  | p, .blockD e b => block_rel hcall env rfl
  | p, .py m ls => by
    rw [dir, dir]
    split
    · exact Rel.pure _
    · exact python_rel env ls
  | p, .extendsD f => by rw [dir, dir]; exact (Rel.extendM hP env f).bind fun i => Rel.emitMain hcall _ i
  | p, .importD f a => by rw [dir, dir]; exact (Rel.importM hP env f a).bind fun i => Rel.pure _
  | p, .includeD f => by rw [dir, dir]; exact (Rel.importM hP env f none).bind fun i => Rel.emitMain hcall _ i

theorem dirs_refl (env : Env) : ∀ (p : Spot) (ds : List Dir),
    Rel (PartR O) (dirs P O call c env p ds) (dirs Q O call' c env p ds)
  | p, [] => by rw [dirs, dirs]; exact Rel.pure _
  | p, d :: ds => by
    have h1 := dir_refl env p d
    have h2 := dirs_refl env (after p d) ds
    rw [dirs, dirs]
    exact h1.bind fun _ => h2

theorem choice_refl (env : Env) : ∀ (p : Spot) (v : Val) (ds : List Dir),
    Rel (PartR O) (choice P O call c env p v ds) (choice Q O call' c env p v ds)
  | p, v, .caseD e b :: ds => by
    have h1 := dirs_refl env p b
    have h2 := choice_refl env (afterAll p b) v ds
    rw [choice, choice]
    refine (Rel.evalM O env e).bind fun u => ?_
    split
    · exact h1
    · exact h2
  | p, v, .elseD b :: ds => by
    have h1 := dirs_refl env p b
    rw [choice, choice]
    exact h1
  | p, v, [] => by rw [choice, choice] <;> first | exact Rel.pure _ | nofun
  | p, v, .text .. :: ds => by rw [choice, choice] <;> first | exact Rel.pure _ | nofun
  | p, v, .expr .. :: ds => by rw [choice, choice] <;> first | exact Rel.pure _ | nofun
  | p, v, .ifD .. :: ds => by rw [choice, choice] <;> first | exact Rel.pure _ | nofun
  | p, v, .ifElse .. :: ds => by rw [choice, choice] <;> first | exact Rel.pure _ | nofun
  | p, v, .forD .. :: ds => by rw [choice, choice] <;> first | exact Rel.pure _ | nofun
  | p, v, .switchD .. :: ds => by rw [choice, choice] <;> first | exact Rel.pure _ | nofun
  | p, v, .defD .. :: ds => by rw [choice, choice] <;> first | exact Rel.pure _ | nofun
  | p, v, .callD .. :: ds => by rw [choice, choice] <;> first | exact Rel.pure _ | nofun
  | p, v, .blockD .. :: ds => by rw [choice, choice] <;> first | exact Rel.pure _ | nofun
  | p, v, .py .. :: ds => by rw [choice, choice] <;> first | exact Rel.pure _ | nofun
  | p, v, .extendsD .. :: ds => by rw [choice, choice] <;> first | exact Rel.pure _ | nofun
  | p, v, .importD .. :: ds => by rw [choice, choice] <;> first | exact Rel.pure _ | nofun
  | p, v, .includeD .. :: ds => by rw [choice, choice] <;> first | exact Rel.pure _ | nofun
end

/-- Two directives as choices among others. -/
abbrev Picks (O : Oracle W) (P Q : Prog Part) (call call' : Mode → Nat → List Val → MD W Unit) (c : Conf) (p : Spot)
    (x y : Dir) : Prop :=
  ∀ (env : Env) (v : Val) (xs ys : List Dir),
    Rel (PartR O) (choice P O call c env (after p x) v xs) (choice Q O call' c env (after p x) v ys) →
    Rel (PartR O) (choice P O call c env p v (x :: xs)) (choice Q O call' c env p v (y :: ys))

include hP hcall in
theorem picks_refl (p : Spot) (x : Dir) : Picks O P Q call call' c p x x := by
  intro env v xs ys h
  cases x with
  | caseD e b =>
    rw [choice, choice]
    refine (Rel.evalM O env e).bind fun u => ?_
    split
    · exact dirs_refl hP hcall env p b
    · rw [after] at h; exact h
  | elseD b => rw [choice, choice]; exact dirs_refl hP hcall env p b
  | _ => rw [choice, choice] <;> first | exact Rel.pure _ | nofun

set_option linter.unusedSectionVars false in
include hP hcall in
mutual
theorem does : ∀ {p : Spot} {x y : Dir}, Swapped O c p x y →
    (∀ env, Rel (PartR O) (dir P O call c env p x) (dir Q O call' c env p y)) ∧ Picks O P Q call call' c p x y
  | p, _, _, .same x => ⟨fun env => dir_refl hP hcall env p x, picks_refl hP hcall p x⟩
  | p, _, _, .ifD h => by
    have ih := (do_all h).1
    exact ⟨fun env => if_rel env ih, fun env v xs ys _ => by rw [choice, choice] <;> first | exact Rel.pure _ | nofun⟩
  | p, _, _, .ifElse h h' => by
    have ih := (do_all h).1
    have ih' := (do_all h').1
    exact ⟨fun env => ifElse_rel env (all h).after ih ih',
      fun env v xs ys _ => by rw [choice, choice] <;> first | exact Rel.pure _ | nofun⟩
  | p, _, _, .forD h => by
    have ih := (do_all h).1
    exact ⟨fun env => for_rel env ih, fun env v xs ys _ => by rw [choice, choice] <;> first | exact Rel.pure _ | nofun⟩
  | p, _, _, .switchD h => by
    have ih := do_all h
    exact ⟨fun env => switch_rel env ih.1 (ih.2 rfl),
      fun env v xs ys _ => by rw [choice, choice] <;> first | exact Rel.pure _ | nofun⟩
  | p, _, _, .caseD h => by
    have ih := (do_all h).1
    have ha := (all h).after
    refine ⟨fun env => case_rel env, fun env v xs ys hs => ?_⟩
    rw [choice, choice, ← ha]
    refine (Rel.evalM O env _).bind fun u => ?_
    split
    · exact ih env
    · rw [after] at hs; exact hs
  | p, _, _, .elseD h => by
    have ih := (do_all h).1
    refine ⟨fun env => else_rel env, fun env v xs ys hs => ?_⟩
    rw [choice, choice]
    exact ih env
  | p, _, _, .defD h =>
    ⟨fun env => def_rel env h, fun env v xs ys _ => by rw [choice, choice] <;> first | exact Rel.pure _ | nofun⟩
  | p, _, _, .callD h =>
    ⟨fun env => call_rel hcall env h, fun env v xs ys _ => by rw [choice, choice] <;> first | exact Rel.pure _ | nofun⟩
  | p, _, _, .blockD h =>
    ⟨fun env => block_rel hcall env (all h).after,
      fun env v xs ys _ => by rw [choice, choice] <;> first | exact Rel.pure _ | nofun⟩

theorem do_all : ∀ {p : Spot} {sw : Bool} {xs ys : List Dir}, SwappedAll O c p sw xs ys →
    Same O P Q call call' c p xs ys ∧
      (sw = true → ∀ (env : Env) v, Rel (PartR O) (choice P O call c env p v xs) (choice Q O call' c env p v ys))
  | p, _, _, _, .nil => ⟨fun env => dirs_refl hP hcall env p [], fun _ env v => choice_refl hP hcall env p v []⟩
  | p, _, _, _, .cons h hs => by
    have h0 := (one h).after
    have h1 := does h
    have h2 := do_all hs
    refine ⟨fun env => ?_, fun e env v => h1.2 env v _ _ (h2.2 e env v)⟩
    rw [dirs, dirs, ← h0]
    exact (h1.1 env).bind fun _ => h2.1 env
  | p, _, _, _, .part (vs := vs) h hs => by
    have h2 := do_all hs
    refine ⟨fun env => ?_, nofun⟩
    rw [dirs_append, dirs_append, ← h.after, h.does]
    exact (dirs_refl hP hcall env p vs).bind fun _ => h2.1 env
end

include hP hcall in
theorem part_rel (env : Env) {a b : Part} (h : PartR O a b) :
    Rel (PartR O) (part P O call env a) (part Q O call' env b) := by
  have body {c : Conf} {p : Spot} {xs ys : List Dir} (h : SwappedAll O c p false xs ys) :
      Rel (PartR O)
        (if silentAll p xs then say [] else reading (speaksAny p xs) (dirs P O call c env p xs))
        (if silentAll p ys then say [] else reading (speaksAny p ys) (dirs Q O call' c env p ys)) := by
    rw [(all h).silent, (all h).speaks]
    split
    · exact say_rel _
    · exact RelAt.reading stable_true ((do_all hP hcall h).1 env) _
  cases h with
  | body h => rw [part, part]; exact body h
  | @block c p name xs ys h =>
    rw [part, part, (all h).after]
    split
    · rw [(all h).speaks]
      exact (python_rel env _).bind fun _ => RelAt.reading stable_true ((do_all hP hcall h).1 env) _
    · exact body h

end

theorem callText_rel {P Q : Prog Part} (hP : ProgRel (PartR O) P Q) (n : Nat) (m : Mode) (f : Nat) (as : List Val) :
    Rel (PartR O) (callText P O n m f as) (callText Q O n m f as) := by
  induction n generalizing m f as with
  | zero => exact Rel.throw _
  | succ n ih => exact callWith_rel O (fun env c d h => (part_rel hP ih env h).at) ih m f as

/-! ## Templates -/

theorem set_rel {d e : Dict Part} (h : FunsR O d e) {k : Str} {v w : Part} (hv : PartR O v w) :
    FunsR O (d.set k v) (e.set k w) := by
  induction h with
  | nil => exact .cons ⟨rfl, hv⟩ .nil
  | @cons a b as bs hab hs ih =>
    obtain ⟨a1, a2⟩ := a
    obtain ⟨b1, b2⟩ := b
    have he : a1 = b1 := hab.1
    subst he
    simp only [Dict.set]
    split
    · next h => subst h; exact .cons ⟨rfl, hv⟩ hs
    · exact .cons hab ih

theorem update_rel {d e : Dict Part} (h : FunsR O d e) {fs gs : Dict Part} (hf : FunsR O fs gs) :
    FunsR O (Dict.update d fs) (Dict.update e gs) := by
  unfold Dict.update
  induction hf generalizing d e with
  | nil => exact h
  | @cons a b as bs hab hs ih =>
    obtain ⟨a1, a2⟩ := a
    obtain ⟨b1, b2⟩ := b
    have he : a1 = b1 := hab.1
    subst he
    exact ih (set_rel h hab.2)

theorem functions_rel {t t' : Template} (h : Exchanged O t t') : FunsR O t.functions t'.functions := by
  unfold Template.functions
  dsimp only
  rw [h.conf]
  have hm : PartR O (.body t.conf .start t.tree) (.body t.conf .start t'.tree) := .body h.tree
  have h0 : FunsR O [("__main__()".toList, .body t.conf .start t.tree)] [("__main__()".toList, .body t.conf .start t'.tree)] :=
    .cons ⟨rfl, hm⟩ .nil
  exact set_rel (update_rel h0 (all h.tree).defs) hm

theorem program_rel {ts ts' : List Template} (h : List.Forall₂ (Exchanged O) ts ts') (load : Str → Option Nat)
    (aliasFor : Str → Str) : ProgRel (PartR O) (program ts load aliasFor) (program ts' load aliasFor) := by
  refine ⟨rfl, rfl, ?_⟩
  simp only [program]
  rw [List.forall₂_map_left_iff, List.forall₂_map_right_iff]
  exact h.imp fun t t' h => ⟨h.base.symm, methodsOf_rel (functions_rel h)⟩

theorem rendered_rel {ts ts' : List Template} (h : List.Forall₂ (Exchanged O) ts ts') (load : Str → Option Nat)
    (aliasFor : Str → Str) (n i : Nat) (context : Dict Val) (w : W) :
    ResRel (PartR O) (emptyStore _ w) (rendered (program ts load aliasFor) O n i context w)
      (rendered (program ts' load aliasFor) O n i context w) :=
  Rel.bind (R := PartR O) (Rel.newInst (program_rel h load aliasFor) i context)
    (fun j => Rel.emitMain (callText_rel (program_rel h load aliasFor) n) _ j) _ _ (emptyStore_rel w) trivial

/-! ## Laws -/

theorem alike_refl {p : Spot} (xs : List Dir) : Alike O c p xs xs := ⟨fun _ _ _ => rfl, rfl, rfl, rfl, rfl⟩

theorem alike_symm {p : Spot} {xs ys : List Dir} (h : Alike O c p xs ys) : Alike O c p ys xs :=
  ⟨fun P call env => (h.does P call env).symm, h.defines.symm, h.after.symm, h.silent.symm, h.speaks.symm⟩

theorem alike_trans {p : Spot} {xs ys zs : List Dir} (h : Alike O c p xs ys) (h' : Alike O c p ys zs) :
    Alike O c p xs zs :=
  ⟨fun P call env => (h.does P call env).trans (h'.does P call env), h.defines.trans h'.defines, h.after.trans h'.after,
    h.silent.trans h'.silent, h.speaks.trans h'.speaks⟩

end Kajiki.SwapTextL
