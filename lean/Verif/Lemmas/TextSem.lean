import Verif.Lemmas.DocSem
import Verif.Lemmas.TextTree
import Verif.Spec.TextSem

/-!
# The trees of text templates mean what the directives mean
-/

namespace Kajiki.Texts
open Kajiki.Run Kajiki.Spec.TextTree Kajiki.Spec.TextSem
open Kajiki.Spec.Sem (MT semList sem semElse semCases semBody semCall casesIn casesOk textGuardsList textGuards
  shows showsAny)
open Kajiki.Spec.XmlCompile (startsElse)

/-- The registries fit the place. -/
structure At (p : Spot) (r : Reg) : Prop where
  inDef : r.inDef = p.inDef
  child : r.isChild = p.child
  calls : r.fresh = p.calls

theorem At.fn {p : Spot} {r : Reg} (h : At p r) : At p.fn { r with inDef := true } := ⟨rfl, h.child, h.calls⟩

mutual
theorem node_after (ae : Bool) (gen : Nat → Str) {p : Spot} {r : Reg} (h : At p r) (d : Dir) :
    At (after p d) (node ae gen d r).2 := by
  cases d with
  | text t l => exact h
  | expr t l => exact h
  | ifD t b => simp only [after, node]; exact nodes_after ae gen h b
  | ifElse t b e => simp only [after, node]; exact nodes_after ae gen (nodes_after ae gen h b) e
  | forD t b => simp only [after, node]; exact nodes_after ae gen h b
  | switchD t b => simp only [after, node]; exact nodes_after ae gen h b
  | caseD t b => simp only [after, node]; exact nodes_after ae gen h b
  | elseD b => simp only [after, node]; exact nodes_after ae gen h b
  | defD t b =>
    have := nodes_after ae gen h.fn b
    simp only [after, node]
    split
    · next hd => exact ⟨h.inDef ▸ hd.symm, this.child, this.calls⟩
    · next hd => exact ⟨by rw [← h.inDef]; simpa using hd, this.child, this.calls⟩
  | callD a c b =>
    have := nodes_after ae gen h b
    simp only [after, node]
    exact ⟨this.inDef, this.child, congrArg (· + 1) this.calls⟩
  | blockD n b =>
    have := nodes_after ae gen h b
    simp only [after, node]
    split
    · exact ⟨this.inDef, this.child, this.calls⟩
    · exact ⟨this.inDef, this.child, this.calls⟩
  | py m ls => simp only [after, node]; split <;> exact ⟨h.inDef, h.child, h.calls⟩
  | extendsD f => exact ⟨h.inDef, rfl, h.calls⟩
  | importD f a => exact h
  | includeD f => exact h

theorem nodes_after (ae : Bool) (gen : Nat → Str) {p : Spot} {r : Reg} (h : At p r) (ds : List Dir) :
    At (afterAll p ds) (nodes ae gen ds r).2 := by
  cases ds with
  | nil => exact h
  | cons d ds => simp only [afterAll, nodes]; exact nodes_after ae gen (node_after ae gen h d) ds
end

/-! ## Lists of nodes -/

/-- The nodes start with a case or an else. -/
def startsChoice : List Ir → Bool
  | .elseN _ _ :: _ => true
  | .caseN _ _ _ :: _ => true
  | .python [] _ :: xs => startsChoice xs
  | _ => false

theorem startsElse_of {xs : List Ir} (h : startsChoice xs = false) : startsElse xs = false := by
  induction xs with
  | nil => rfl
  | cons x xs ih =>
    cases x
    case elseN => simp [startsChoice] at h
    case python ls l =>
      cases ls with
      | nil => exact ih h
      | cons => rfl
    all_goals rfl

theorem startsChoice_append {a b : List Ir} (ha : startsChoice a = false) (hb : startsChoice b = false) :
    startsChoice (a ++ b) = false := by
  induction a with
  | nil => exact hb
  | cons x a ih =>
    cases x
    case elseN => simp [startsChoice] at ha
    case caseN => simp [startsChoice] at ha
    case python ls l =>
      cases ls with
      | nil => exact ih ha
      | cons => rfl
    all_goals rfl

theorem node_starts {d : Dir} (h : tidy d = true) (ae : Bool) (gen : Nat → Str) (r : Reg) :
    startsChoice (node ae gen d r).1 = false := by
  cases d with
  | caseD => simp [tidy] at h
  | elseD => simp [tidy] at h
  | defD => simp only [node]; split <;> rfl
  | blockD => simp only [node]; split <;> rfl
  | py m ls =>
    simp only [node]
    split
    · rfl
    · cases ls <;> rfl
  | _ => rfl

theorem nodes_starts {ds : List Dir} (h : tidyAll ds = true) (ae : Bool) (gen : Nat → Str) (r : Reg) :
    startsChoice (nodes ae gen ds r).1 = false := by
  induction ds generalizing r with
  | nil => rfl
  | cons d ds ih =>
    simp only [tidyAll, Bool.and_eq_true] at h
    exact startsChoice_append (node_starts h.1 ae gen r) (ih h.2 _)

theorem semCases_of_not {W : Type} (P : Prog (List Ir)) (O : Oracle W) (call : Mode → Nat → List Val → MT W Unit)
    (env : Env) (v : Val) {xs : List Ir} (h : startsChoice xs = false) : semCases P O call env v xs = M.pure () := by
  induction xs with
  | nil => rw [semCases]; all_goals simp
  | cons x xs ih =>
    cases x
    case elseN => simp [startsChoice] at h
    case caseN => simp [startsChoice] at h
    case python ls l =>
      cases ls with
      | nil => rw [semCases]; exact ih (by simpa [startsChoice] using h)
      | cons _ _ => rw [semCases]; all_goals simp
    all_goals rw [semCases] <;> simp

/-! ## Related bodies -/

/-- The compiled body of a function. -/
def BodyR (b : List Ir) : Part → Prop
  | .body c p ds => ∃ r, At p r ∧ tidyAll ds = true ∧ b = (nodes c.autoescape c.gen ds r).1
  | .block c p name ds => ∃ r, At p r ∧ tidyAll ds = true ∧
      b = (if (afterAll p ds).child then [.python ["parent_block=parent.".toList ++ blockName name] 0] else []) ++
        (nodes c.autoescape c.gen ds r).1

section
variable {W : Type} {P : Prog (List Ir)} {Q : Prog Part} (hP : ProgRel BodyR P Q) (O : Oracle W)
  {call : Mode → Nat → List Val → MT W Unit} {call' : Mode → Nat → List Val → MD W Unit}
  (hcall : ∀ mode f as, Rel BodyR (call mode f as) (call' mode f as))

theorem rel_test (env : Env) (e : Str) :
    Rel BodyR (Spec.Sem.test O env e : MT W Bool) (Spec.TextSem.test O env e) :=
  (Rel.evalM O env e).bind fun _ => Rel.pure _

include hcall in
theorem rel_shown (env : Env) (b : Bool) (e : Str) :
    Rel BodyR (M.bind (evalM O env e) fun v => emit call env.mode (if b then escape v else v))
      (shown O call' env b e) :=
  (Rel.evalM O env e).bind fun _ => Rel.emit hcall _ _

theorem rel_say (t : Str) : Rel BodyR (M.tell (.chunk t) : MT W Unit) (say t) := Rel.tell _

theorem rel_append {env : Env} {a b : List Ir} {m : MD W Unit} {n : Unit → MD W Unit} (h : startsElse b = false)
    (ha : Rel BodyR (semList P O call env a) m) (hb : Rel BodyR (semList P O call env b) (n ())) :
    Rel BodyR (semList P O call env (a ++ b)) (M.bind m n) := by
  rw [semList_append P O call env h]
  exact ha.bind fun _ => hb

theorem semList_one (env : Env) (x : Ir) : semList P O call env [x] = sem P O call env (M.pure ()) x := by
  rw [semList, semList, M.bind_pure, semElse_of_not P O call env rfl]

theorem rel_python (env : Env) (ls : List Str) (l : Nat) :
    Rel BodyR (semList P O call env [.python ls l]) (python O env ls) := by
  rw [semList_one, sem]
  unfold python
  split
  · exact Rel.pure _
  · exact (Rel.ask _ _).bind fun _ => Rel.setVars _ _

theorem rel_nil (env : Env) : Rel BodyR (semList P O call env []) (M.pure () : MD W Unit) := by
  rw [semList]
  exact Rel.pure _

set_option linter.unusedSectionVars false

include hP hcall

mutual
theorem node_rel {c : Conf} {p : Spot} {r : Reg} (h : At p r) {d : Dir} (hd : tidy d = true) (env : Env) :
    Rel BodyR (semList P O call env (node c.autoescape c.gen d r).1) (dir Q O call' c env p d) := by
  cases d with
  | text t l =>
    simp only [node, dir]
    rw [semList_one, sem]
    exact rel_say t
  | expr e l =>
    simp only [node, dir]
    rw [semList_one, sem]
    have := rel_shown O hcall env c.autoescape e
    revert this
    cases c.autoescape <;> exact id
  | ifD e b =>
    simp only [tidy] at hd
    simp only [node, dir]
    rw [semList_one, sem]
    refine (rel_test O env e).bind fun v => ?_
    cases v
    · exact Rel.pure _
    · exact nodes_rel h hd env
  | ifElse e b b' =>
    simp only [tidy, Bool.and_eq_true] at hd
    simp only [node, dir]
    rw [semList, semElse, semList_one, sem, sem, M.bind_pure]
    refine (rel_test O env e).bind fun v => ?_
    cases v
    · exact nodes_rel (nodes_after _ _ h b) hd.2 env
    · exact nodes_rel h hd.1 env
  | forD decl b =>
    simp only [tidy] at hd
    simp only [node, dir]
    rw [semList_one, sem]
    refine (Rel.ask _ _).bind fun vs => ?_
    rw [M.bind_pure]
    exact Rel.each stable_true (fun v => (Rel.setVars env v).bind fun _ => nodes_rel h hd env) vs
  | switchD e items =>
    simp only [tidy] at hd
    simp only [node, dir]
    rw [semList_one, sem]
    exact (Rel.kjInst env).bind fun _ => (Rel.evalM O env e).bind fun v =>
      (choice_rel h hd env v).bind fun _ => items_rel h hd env
  | caseD => simp [tidy] at hd
  | elseD => simp [tidy] at hd
  | defD decl b =>
    simp only [tidy] at hd
    simp only [node, dir]
    rw [h.inDef]
    split
    · rw [semList_one, sem]
      exact Rel.fdefM env decl ⟨_, h.fn, hd, rfl⟩
    · exact rel_nil O env
  | callD args callee b =>
    simp only [tidy] at hd
    simp only [node, dir]
    rw [semList_one, sem, (nodes_after c.autoescape c.gen h b).calls]
    exact (Rel.fdefM env _ ⟨_, h, hd, rfl⟩).bind fun _ => rel_shown O hcall env false _
  | blockD name b =>
    simp only [node, dir]
    rw [(nodes_after c.autoescape c.gen h b).child]
    split
    · exact rel_nil O env
    · rw [semList_one, sem]
      have e : "_kj_block_".toList ++ (strip name ++ "()".toList) = blockDecl name := by
        unfold blockDecl blockName
        rw [List.append_assoc]
      rw [e]
      exact rel_shown O hcall env true _
  | py m ls =>
    simp only [node, dir]
    split
    · exact rel_nil O env
    · exact rel_python O env ls 0
  | extendsD f =>
    simp only [node, dir]
    rw [semList_one, sem]
    exact (Rel.extendM hP env f).bind fun i => Rel.emitMain hcall env.mode i
  | importD f a =>
    simp only [node, dir]
    rw [semList_one, sem]
    exact (Rel.importM hP env f a).bind fun i => Rel.pure _
  | includeD f =>
    simp only [node, dir]
    rw [semList_one, sem]
    exact (Rel.importM hP env f none).bind fun i => Rel.emitMain hcall env.mode i

theorem nodes_rel {c : Conf} {p : Spot} {r : Reg} (h : At p r) {ds : List Dir} (hd : tidyAll ds = true) (env : Env) :
    Rel BodyR (semList P O call env (nodes c.autoescape c.gen ds r).1) (dirs Q O call' c env p ds) := by
  cases ds with
  | nil => exact rel_nil O env
  | cons d ds =>
    simp only [tidyAll, Bool.and_eq_true] at hd
    simp only [nodes, dirs]
    exact rel_append O (startsElse_of (nodes_starts hd.2 _ _ _)) (node_rel h hd.1 env)
      (nodes_rel (node_after _ _ h d) hd.2 env)

/-- What is not a choice. -/
theorem items_rel {c : Conf} {p : Spot} {r : Reg} (h : At p r) {ds : List Dir} (hd : tidyChoices ds = true)
    (env : Env) :
    Rel BodyR (semList P O call env (nodes c.autoescape c.gen ds r).1) (dirs Q O call' c env p ds) := by
  cases ds with
  | nil => exact rel_nil O env
  | cons d ds =>
    simp only [nodes, dirs]
    cases d with
    | caseD e b =>
      simp only [tidyChoices, Bool.and_eq_true] at hd
      simp only [node, dir, List.cons_append, List.nil_append]
      rw [semList, sem]
      exact (Rel.pure _).bind fun _ => items_rel (node_after c.autoescape c.gen h (.caseD e b)) hd.2 env
    | elseD b =>
      simp only [tidyChoices, Bool.and_eq_true] at hd
      simp only [node, dir, List.cons_append, List.nil_append]
      rw [semList, sem]
      exact (Rel.pure _).bind fun _ => nodes_rel (node_after c.autoescape c.gen h (.elseD b)) hd.2 env
    | _ =>
      simp only [tidyChoices, Bool.and_eq_true] at hd
      exact rel_append O (startsElse_of (nodes_starts hd.2 _ _ _)) (node_rel h hd.1 env)
        (nodes_rel (node_after _ _ h _) hd.2 env)

theorem choice_rel {c : Conf} {p : Spot} {r : Reg} (h : At p r) {ds : List Dir} (hd : tidyChoices ds = true)
    (env : Env) (v : Val) :
    Rel BodyR (semCases P O call env v (nodes c.autoescape c.gen ds r).1) (choice Q O call' c env p v ds) := by
  cases ds with
  | nil =>
    rw [choice]
    · exact Rel.pure _
    all_goals simp
  | cons d ds =>
    simp only [nodes]
    cases d with
    | caseD e b =>
      simp only [tidyChoices, Bool.and_eq_true] at hd
      simp only [node, choice, List.cons_append, List.nil_append]
      rw [semCases]
      refine (Rel.evalM O env e).bind fun u => ?_
      split
      · exact nodes_rel h hd.1 env
      · exact choice_rel (nodes_after c.autoescape c.gen h b) hd.2 env v
    | elseD b =>
      simp only [tidyChoices, Bool.and_eq_true] at hd
      simp only [node, choice, List.cons_append, List.nil_append]
      rw [semCases]
      exact nodes_rel h hd.1 env
    | _ =>
      simp only [tidyChoices, Bool.and_eq_true] at hd
      rw [choice]
      · rw [semCases_of_not P O call env v (startsChoice_append (node_starts hd.1 _ _ _) (nodes_starts hd.2 _ _ _))]
        exact Rel.pure _
      all_goals simp
end

end

/-! ## Nothing but declarations -/

theorem node_silent {ae : Bool} {gen : Nat → Str} {p : Spot} {r : Reg} (h : At p r) (d : Dir) :
    (node ae gen d r).1.isEmpty = silent p d := by
  cases d with
  | defD decl b =>
    simp only [node, silent]
    rw [h.inDef]
    cases p.inDef <;> rfl
  | blockD n b =>
    simp only [node, silent]
    rw [(nodes_after ae gen h b).child]
    cases (afterAll p b).child <;> rfl
  | py m ls => simp only [node, silent]; cases m <;> rfl
  | _ => rfl

theorem nodes_silent {ae : Bool} {gen : Nat → Str} {p : Spot} {r : Reg} (h : At p r) (ds : List Dir) :
    (nodes ae gen ds r).1.isEmpty = silentAll p ds := by
  induction ds generalizing p r with
  | nil => rfl
  | cons d ds ih =>
    simp only [nodes, silentAll]
    rw [← node_silent (ae := ae) (gen := gen) h d, ← ih (node_after ae gen h d)]
    cases (node ae gen d r).1 <;> simp

mutual
theorem node_shows {ae : Bool} {gen : Nat → Str} {p : Spot} {r : Reg} (h : At p r) (d : Dir) :
    showsAny (node ae gen d r).1 = speaks p d := by
  cases d with
  | ifD e b => simp only [node, showsAny, shows, speaks, Bool.or_false]; exact nodes_show h b
  | ifElse e b b' =>
    simp only [node, showsAny, shows, speaks, Bool.or_false]
    rw [nodes_show h b, nodes_show (nodes_after ae gen h b) b']
  | forD e b => simp only [node, showsAny, shows, speaks, Bool.or_false]; exact nodes_show h b
  | switchD e b => simp only [node, showsAny, shows, speaks, Bool.or_false]; exact nodes_show h b
  | caseD e b => simp only [node, showsAny, shows, speaks, Bool.or_false]; exact nodes_show h b
  | elseD b => simp only [node, showsAny, shows, speaks, Bool.or_false]; exact nodes_show h b
  | defD decl b => simp only [node, speaks]; split <;> rfl
  | blockD n b =>
    simp only [node, speaks]
    rw [(nodes_after ae gen h b).child]
    cases (afterAll p b).child <;> rfl
  | py m ls => simp only [node, speaks]; cases m <;> rfl
  | _ => simp [node, showsAny, shows, speaks]

theorem nodes_show {ae : Bool} {gen : Nat → Str} {p : Spot} {r : Reg} (h : At p r) (ds : List Dir) :
    showsAny (nodes ae gen ds r).1 = speaksAny p ds := by
  cases ds with
  | nil => simp [nodes, showsAny, speaksAny]
  | cons d ds =>
    simp only [nodes, speaksAny]
    rw [shows_append, node_shows h d, nodes_show (node_after ae gen h d) ds]
end

/-! ## Functions -/

/-- Related functions. -/
def FunsR : List (Str × List Ir) → List (Str × Part) → Prop :=
  List.Forall₂ fun a b => a.1 = b.1 ∧ BodyR a.2 b.2

theorem FunsR.append {a b : List (Str × List Ir)} {x y : List (Str × Part)} (h : FunsR a x) (h2 : FunsR b y) :
    FunsR (a ++ b) (x ++ y) := List.rel_append h h2

/-- Functions added to the registry. -/
def Adds (r r' : Reg) (fs : List (Str × Part)) : Prop :=
  ∃ us, FunsR us fs ∧ r'.funs = Dict.update r.funs us

theorem Adds.none (r : Reg) : Adds r r [] := ⟨[], .nil, rfl⟩

theorem Adds.trans {a b c : Reg} {fs gs : List (Str × Part)} (h : Adds a b fs) (h2 : Adds b c gs) :
    Adds a c (fs ++ gs) := by
  obtain ⟨us, h1, h3⟩ := h
  obtain ⟨vs, h4, h5⟩ := h2
  refine ⟨us ++ vs, h1.append h4, ?_⟩
  rw [h5, h3]
  unfold Dict.update
  rw [List.foldl_append]

theorem Adds.set {a b c : Reg} {fs : List (Str × Part)} {k : Str} {v : List Ir} {w : Part} (h : Adds a b fs)
    (hv : BodyR v w) (hc : c.funs = b.funs.set k v) : Adds a c (fs ++ [(k, w)]) :=
  h.trans ⟨[(k, v)], .cons ⟨rfl, hv⟩ .nil, hc⟩

mutual
theorem node_funs (c : Conf) {p : Spot} {r : Reg} (h : At p r) {d : Dir} (hd : tidy d = true) :
    Adds r (node c.autoescape c.gen d r).2 (defs c p d) := by
  cases d with
  | text t l => exact Adds.none r
  | expr e l => exact Adds.none r
  | ifD e b =>
    simp only [tidy] at hd
    simp only [node, defs]
    exact nodes_funs c h hd
  | ifElse e b b' =>
    simp only [tidy, Bool.and_eq_true] at hd
    simp only [node, defs]
    exact (nodes_funs c h hd.1).trans (nodes_funs c (nodes_after _ _ h b) hd.2)
  | forD decl b =>
    simp only [tidy] at hd
    simp only [node, defs]
    exact nodes_funs c h hd
  | switchD e items =>
    simp only [tidy] at hd
    simp only [node, defs]
    exact items_funs c h hd
  | caseD => simp [tidy] at hd
  | elseD => simp [tidy] at hd
  | defD decl b =>
    simp only [tidy] at hd
    have h1 := nodes_funs c h.fn hd
    simp only [node, defs]
    rw [h.inDef]
    cases hi : p.inDef with
    | true =>
      simp only [if_true, List.append_nil]
      exact h1
    | false =>
      simp only [Bool.false_eq_true, if_false]
      exact Adds.set (a := r) h1 ⟨_, h.fn, hd, rfl⟩ rfl
  | callD args callee b =>
    simp only [tidy] at hd
    simp only [node, defs]
    exact nodes_funs c h hd
  | blockD name b =>
    simp only [tidy] at hd
    have h1 := nodes_funs c h hd
    simp only [node, defs]
    have e : "_kj_block_".toList ++ (strip name ++ "()".toList) = blockDecl name := by
      unfold blockDecl blockName
      rw [List.append_assoc]
    rw [e]
    have e2 : "parent_block=parent._kj_block_".toList ++ strip name =
        "parent_block=parent.".toList ++ blockName name := by
      unfold blockName
      rw [← List.append_assoc]
      rfl
    rw [e2]
    have hch := (nodes_after c.autoescape c.gen h b).child
    split
    · next hc =>
      refine h1.set ⟨r, h, hd, ?_⟩ rfl
      rw [← hch, if_pos hc]
      rfl
    · next hc =>
      refine h1.set ⟨r, h, hd, ?_⟩ rfl
      rw [← hch, if_neg hc]
      rfl
  | py m ls => simp only [node, defs]; split <;> exact Adds.none r
  | extendsD f => exact Adds.none r
  | importD f a => exact Adds.none r
  | includeD f => exact Adds.none r

theorem nodes_funs (c : Conf) {p : Spot} {r : Reg} (h : At p r) {ds : List Dir} (hd : tidyAll ds = true) :
    Adds r (nodes c.autoescape c.gen ds r).2 (defsAll c p ds) := by
  cases ds with
  | nil => exact Adds.none r
  | cons d ds =>
    simp only [tidyAll, Bool.and_eq_true] at hd
    simp only [nodes, defsAll]
    exact (node_funs c h hd.1).trans (nodes_funs c (node_after _ _ h d) hd.2)

theorem items_funs (c : Conf) {p : Spot} {r : Reg} (h : At p r) {ds : List Dir} (hd : tidyChoices ds = true) :
    Adds r (nodes c.autoescape c.gen ds r).2 (defsAll c p ds) := by
  cases ds with
  | nil => exact Adds.none r
  | cons d ds =>
    simp only [nodes, defsAll]
    cases d with
    | caseD e b =>
      simp only [tidyChoices, Bool.and_eq_true] at hd
      simp only [node, defs, after]
      exact (nodes_funs c h hd.1).trans (items_funs c (nodes_after _ _ h b) hd.2)
    | elseD b =>
      simp only [tidyChoices, Bool.and_eq_true] at hd
      simp only [node, defs, after]
      exact (nodes_funs c h hd.1).trans (nodes_funs c (nodes_after _ _ h b) hd.2)
    | _ =>
      simp only [tidyChoices, Bool.and_eq_true] at hd
      exact (node_funs c h hd.1).trans (nodes_funs c (node_after _ _ h _) hd.2)
end

/-! ## Cases are where they belong, and there are no conditions of py:strip -/

/-- Nodes without a case at the front and right inside. -/
def Fine (xs : List Ir) : Prop := (∀ x ∈ xs, DocComp.okNode x = true) ∧ textGuardsList xs = []

theorem Fine.nil : Fine [] := ⟨by simp, rfl⟩

theorem Fine.append {a b : List Ir} (h : Fine a) (h2 : Fine b) : Fine (a ++ b) :=
  ⟨DocComp.ok_append h.1 h2.1, by rw [DocComp.guards_append, h.2, h2.2]; rfl⟩

theorem Fine.one {x : Ir} (h : DocComp.okNode x = true) (h2 : textGuards x = []) : Fine [x] :=
  ⟨by simpa using h, by rw [DocComp.guards_one, h2]⟩

theorem casesIn_true {xs : List Ir} (h : ∀ x ∈ xs, DocComp.okNode x = true) : casesIn true xs = true := by
  induction xs with
  | nil => rfl
  | cons x xs ih =>
    have h1 := h x (List.mem_cons_self ..)
    have h2 := ih fun y hy => h y (List.mem_cons_of_mem _ hy)
    have h3 := DocComp.casesIn_of_ok fun y hy => h y (List.mem_cons_of_mem _ hy)
    cases x
    case caseN => simp [DocComp.okNode] at h1
    case python ls l => cases ls <;> simp [casesIn, casesOk, h2, h3]
    all_goals
      simp only [DocComp.okNode] at h1
      rw [casesIn, h1, h3] <;> simp

mutual
theorem node_fine (ae : Bool) (gen : Nat → Str) (r : Reg) {d : Dir} (hd : tidy d = true) :
    Fine (node ae gen d r).1 := by
  cases d with
  | text t l => exact Fine.one rfl rfl
  | expr e l => exact Fine.one rfl rfl
  | ifD e b =>
    simp only [tidy] at hd
    have := nodes_fine ae gen r hd
    exact Fine.one (DocComp.casesIn_of_ok this.1) this.2
  | ifElse e b b' =>
    simp only [tidy, Bool.and_eq_true] at hd
    have h1 := nodes_fine ae gen r hd.1
    have h2 := nodes_fine ae gen (nodes ae gen b r).2 hd.2
    exact Fine.append (a := [_]) (b := [_]) (Fine.one (DocComp.casesIn_of_ok h1.1) h1.2)
      (Fine.one (DocComp.casesIn_of_ok h2.1) h2.2)
  | forD decl b =>
    simp only [tidy] at hd
    have := nodes_fine ae gen r hd
    exact Fine.one (DocComp.casesIn_of_ok this.1) this.2
  | switchD e items =>
    simp only [tidy] at hd
    have := items_fine ae gen r hd
    exact Fine.one this.1 this.2
  | caseD => simp [tidy] at hd
  | elseD => simp [tidy] at hd
  | defD decl b =>
    simp only [tidy] at hd
    have := nodes_fine ae gen { r with inDef := true } hd
    simp only [node]
    split
    · exact Fine.one (DocComp.casesIn_of_ok this.1) this.2
    · exact Fine.nil
  | callD args callee b =>
    simp only [tidy] at hd
    have := nodes_fine ae gen r hd
    exact Fine.one (DocComp.casesIn_of_ok this.1) this.2
  | blockD name b =>
    simp only [node]
    split
    · exact Fine.nil
    · exact Fine.one rfl rfl
  | py m ls =>
    simp only [node]
    split
    · exact Fine.nil
    · exact Fine.one rfl rfl
  | extendsD f => exact Fine.one rfl rfl
  | importD f a => exact Fine.one rfl rfl
  | includeD f => exact Fine.one rfl rfl

theorem nodes_fine (ae : Bool) (gen : Nat → Str) (r : Reg) {ds : List Dir} (hd : tidyAll ds = true) :
    Fine (nodes ae gen ds r).1 := by
  cases ds with
  | nil => exact Fine.nil
  | cons d ds =>
    simp only [tidyAll, Bool.and_eq_true] at hd
    simp only [nodes]
    exact (node_fine ae gen r hd.1).append (nodes_fine ae gen _ hd.2)

theorem items_fine (ae : Bool) (gen : Nat → Str) (r : Reg) {ds : List Dir} (hd : tidyChoices ds = true) :
    casesIn true (nodes ae gen ds r).1 = true ∧ textGuardsList (nodes ae gen ds r).1 = [] := by
  cases ds with
  | nil => exact ⟨rfl, rfl⟩
  | cons d ds =>
    simp only [nodes]
    cases d with
    | caseD e b =>
      simp only [tidyChoices, Bool.and_eq_true] at hd
      have h1 := nodes_fine ae gen r hd.1
      have h2 := items_fine ae gen (nodes ae gen b r).2 hd.2
      simp only [node, List.cons_append, List.nil_append]
      refine ⟨?_, ?_⟩
      · rw [casesIn, casesOk, DocComp.casesIn_of_ok h1.1, h2.1]
        rfl
      · rw [textGuardsList, textGuards, h1.2, h2.2]
        rfl
    | elseD b =>
      simp only [tidyChoices, Bool.and_eq_true] at hd
      have h1 := nodes_fine ae gen r hd.1
      have h2 := nodes_fine ae gen (nodes ae gen b r).2 hd.2
      simp only [node, List.cons_append, List.nil_append]
      refine ⟨?_, ?_⟩
      · rw [casesIn, casesOk, DocComp.casesIn_of_ok h1.1, DocComp.casesIn_of_ok h2.1]
        all_goals simp
      · rw [textGuardsList, textGuards, h1.2, h2.2]
        rfl
    | _ =>
      simp only [tidyChoices, Bool.and_eq_true] at hd
      have h1 := node_fine ae gen r hd.1
      have h2 := fun r => nodes_fine ae gen r hd.2
      exact ⟨casesIn_true (h1.append (h2 _)).1, (h1.append (h2 _)).2⟩
end

theorem body_fine {b : List Ir} {x : Part} (h : BodyR b x) : casesIn false b = true ∧ textGuardsList b = [] := by
  cases x with
  | body c p ds =>
    obtain ⟨r, _, hd, rfl⟩ := h
    have := nodes_fine c.autoescape c.gen r hd
    exact ⟨DocComp.casesIn_of_ok this.1, this.2⟩
  | block c p name ds =>
    obtain ⟨r, _, hd, rfl⟩ := h
    have h1 := nodes_fine c.autoescape c.gen r hd
    have h2 : Fine (if (afterAll p ds).child then
        [.python ["parent_block=parent.".toList ++ blockName name] 0] else []) := by
      split
      · exact Fine.one rfl rfl
      · exact Fine.nil
    exact ⟨DocComp.casesIn_of_ok (h2.append h1).1, (h2.append h1).2⟩

/-! ## Programs -/

section
variable {W : Type} {P : Prog (List Ir)} {Q : Prog Part} (hP : ProgRel BodyR P Q) (O : Oracle W)

include hP in
theorem part_rel {call : Mode → Nat → List Val → MT W Unit} {call' : Mode → Nat → List Val → MD W Unit}
    (hcall : ∀ mode f as, Rel BodyR (call mode f as) (call' mode f as)) (env : Env) {b : List Ir} {x : Part}
    (h : BodyR b x) : Rel BodyR (semBody P O call env b) (part Q O call' env x) := by
  have plain : ∀ {c : Conf} {p : Spot} {ds : List Dir} {r : Reg}, At p r → tidyAll ds = true →
      Rel BodyR (semBody P O call env (nodes c.autoescape c.gen ds r).1)
        (if silentAll p ds then say [] else reading (speaksAny p ds) (dirs Q O call' c env p ds)) := by
    intro c p ds r h hd
    rw [semBody, nodes_silent h, nodes_show h]
    split
    · exact rel_say []
    · exact RelAt.reading stable_true (nodes_rel hP O hcall h hd env) _
  cases x with
  | body c p ds =>
    obtain ⟨r, h, hd, rfl⟩ := h
    exact plain h hd
  | block c p name ds =>
    obtain ⟨r, h, hd, rfl⟩ := h
    rw [part]
    split
    · rw [semBody, List.cons_append, List.isEmpty_cons, if_neg Bool.false_ne_true, ← List.cons_append]
      rw [shows_append, nodes_show h, semList_append P O call env (startsElse_of (nodes_starts hd _ _ _))]
      unfold reading
      rw [M.bind_assoc]
      exact Rel.bind (rel_python O env _ 0) fun _ => RelAt.reading stable_true (nodes_rel hP O hcall h hd env) _
    · exact plain h hd

include hP in
theorem callText_rel (n : Nat) (m : Mode) (f : Nat) (as : List Val) :
    Rel BodyR (semCall P O n m f as) (callText Q O n m f as) := by
  induction n generalizing m f as with
  | zero => exact Rel.throw _
  | succ n ih => exact callWith_rel O (fun env c d h => (part_rel hP O ih env h).at) ih m f as

end

/-! ## Templates -/

section
variable {β : Type} {R : List Ir → β → Prop}

theorem set_rel {S : Str × List Ir → Str × β → Prop} {d : Dict (List Ir)} {e : Dict β}
    (h : List.Forall₂ S d e) (hk : ∀ a b, S a b → a.1 = b.1) {k : Str} {v : List Ir} {w : β}
    (hv : S (k, v) (k, w)) : List.Forall₂ S (d.set k v) (e.set k w) := by
  induction h with
  | nil => exact .cons hv .nil
  | @cons a b as bs hab hs ih =>
    obtain ⟨a1, a2⟩ := a
    obtain ⟨b1, b2⟩ := b
    have he : a1 = b1 := hk _ _ hab
    subst he
    simp only [Dict.set]
    split
    · next h => subst h; exact .cons hv hs
    · exact .cons hab ih

theorem update_rel {S : Str × List Ir → Str × β → Prop} {d : Dict (List Ir)} {e : Dict β}
    (h : List.Forall₂ S d e) (hk : ∀ a b, S a b → a.1 = b.1) {fs : Dict (List Ir)} {gs : Dict β}
    (hf : List.Forall₂ S fs gs) : List.Forall₂ S (Dict.update d fs) (Dict.update e gs) := by
  unfold Dict.update
  induction hf generalizing d e with
  | nil => exact h
  | @cons a b as bs hab hs ih =>
    obtain ⟨a1, a2⟩ := a
    obtain ⟨b1, b2⟩ := b
    have he : a1 = b1 := hk _ _ hab
    subst he
    exact ih (set_rel h hk hab)

/-- Related, except for the main function. -/
def Almost (R : List Ir → β → Prop) (a : Str × List Ir) (b : Str × β) : Prop :=
  a.1 = b.1 ∧ (a.1 = mainDecl ∨ R a.2 b.2)

theorem almost_rest {d : Dict (List Ir)} {e : Dict β} (h : List.Forall₂ (Almost R) d e)
    (hn : mainDecl ∉ d.map (·.1)) : List.Forall₂ (fun a b => a.1 = b.1 ∧ R a.2 b.2) d e := by
  induction h with
  | nil => exact .nil
  | cons hab hs ih =>
    simp only [List.map_cons, List.mem_cons, not_or] at hn
    refine .cons ⟨hab.1, ?_⟩ (ih hn.2)
    rcases hab.2 with h | h
    · exact absurd h.symm hn.1
    · exact h

theorem almost_set {d : Dict (List Ir)} {e : Dict β} (h : List.Forall₂ (Almost R) d e)
    (hn : (d.map (·.1)).Nodup) {v : List Ir} {w : β} (hv : R v w) :
    List.Forall₂ (fun a b => a.1 = b.1 ∧ R a.2 b.2) (d.set mainDecl v) (e.set mainDecl w) := by
  induction h with
  | nil => exact .cons ⟨rfl, hv⟩ .nil
  | @cons a b as bs hab hs ih =>
    obtain ⟨a1, a2⟩ := a
    obtain ⟨b1, b2⟩ := b
    have he : a1 = b1 := hab.1
    subst he
    simp only [List.map_cons, List.nodup_cons] at hn
    simp only [Dict.set]
    split
    · next h =>
      subst h
      exact .cons ⟨rfl, hv⟩ (almost_rest hs hn.1)
    · next h =>
      refine .cons ⟨rfl, ?_⟩ (ih hn.2)
      rcases hab.2 with h' | h'
      · exact absurd h' h
      · exact h'

end

/-- The functions of the tree are those of the template. -/
theorem template_rel {t : Template} (hd : tidyAll t.tree = true) :
    FunsR ((template t.conf.autoescape t.conf.gen t.tree).defs.map fun d => (d.decl, d.body)) t.functions := by
  have h0 : At .start ⟨[("__main__()".toList, [])], [], false, false, 0⟩ := ⟨rfl, rfl, rfl⟩
  obtain ⟨us, h1, h2⟩ := nodes_funs t.conf h0 hd
  unfold template
  dsimp only
  rw [List.map_map, h2]
  have hid : ((fun d : Def => (d.decl, d.body)) ∘ fun f : Str × List Ir => (⟨f.1, f.2, 0⟩ : Def)) = id := by
    funext f; rfl
  rw [hid, List.map_id]
  unfold Template.functions
  dsimp only
  refine almost_set (R := BodyR) (update_rel (S := Almost BodyR) ?_ (fun a b h => h.1) ?_)
    (DocComp.update_keys _ _ ?_) ⟨_, h0, hd, rfl⟩
  · exact .cons ⟨rfl, Or.inl rfl⟩ .nil
  · exact h1.imp fun a b h => ⟨h.1, Or.inr h.2⟩
  · simp

/-- A template of a source. -/
def TextR (t : Template) (u : Tmpl × Dict Val) : Prop :=
  u = (template t.conf.autoescape t.conf.gen t.tree, t.base) ∧ tidyAll t.tree = true

theorem program_rel {ts : List Template} {S : Source} (h : List.Forall₂ TextR ts S.tmpls) :
    ProgRel BodyR (Spec.Sem.trees S) (program ts S.load S.aliasFor) := by
  refine ⟨rfl, rfl, ?_⟩
  simp only [Spec.Sem.trees, program]
  rw [List.forall₂_map_left_iff, List.forall₂_map_right_iff]
  refine h.flip.imp fun u t h => ?_
  obtain ⟨rfl, hd⟩ := h
  exact ⟨rfl, methodsOf_rel (template_rel hd)⟩

theorem text_fine {ts : List Template} {us : List (Tmpl × Dict Val)} (h : List.Forall₂ TextR ts us) :
    ∀ u ∈ us, Spec.Sem.casesTmpl u.1 = true ∧ ∀ d ∈ u.1.defs, textGuardsList d.body = [] := by
  refine DocComp.forall₂_right h fun t u h => ?_
  obtain ⟨rfl, hd⟩ := h
  have h1 : ∀ f ∈ (template t.conf.autoescape t.conf.gen t.tree).defs.map fun d => (d.decl, d.body),
      casesIn false f.2 = true ∧ textGuardsList f.2 = [] := by
    have : ∀ {us : List (Str × List Ir)} {fs : List (Str × Part)}, FunsR us fs → ∀ u ∈ us,
        casesIn false u.2 = true ∧ textGuardsList u.2 = [] := by
      intro us fs h
      induction h with
      | nil => intro u hu; cases hu
      | cons hab _ ih =>
        intro u hu
        rcases List.mem_cons.1 hu with rfl | hu
        · exact body_fine hab.2
        · exact ih u hu
    exact this (template_rel hd)
  refine ⟨?_, fun d hd => (h1 (d.decl, d.body) (List.mem_map_of_mem hd)).2⟩
  unfold Spec.Sem.casesTmpl
  rw [List.all_eq_true]
  intro d hd
  exact (h1 (d.decl, d.body) (List.mem_map_of_mem hd)).1

/-- Reading the trees is reading the directives. -/
theorem rendered_rel {W : Type} {ts : List Template} {S : Source} (h : List.Forall₂ TextR ts S.tmpls)
    (O : Oracle W) (n i : Nat) (context : Dict Val) (w : W) :
    ResRel BodyR (emptyStore _ w) (Spec.Sem.semProcess S O n i context w)
      (rendered (program ts S.load S.aliasFor) O n i context w) :=
  Rel.bind (R := BodyR) (Rel.newInst (program_rel h) i context)
    (fun j => Rel.emitMain (callText_rel (program_rel h) O n) _ j) _ _ (emptyStore_rel w) trivial

end Kajiki.Texts
