import Verif.Lemmas.XmlElem
import Verif.Lemmas.SemList

/-!
# `py:strip` (C17)
-/

namespace Kajiki.Props
open Kajiki.Spec.XmlCompile Kajiki.XmlComp Kajiki.Run Kajiki.Spec.Sem

/-! ## What is compiled -/

private theorem del_set {α : Type} (d : Dict α) (k : Str) (v : α) : (d.set k v).del k = d.del k := by
  induction d with
  | nil => simp [Dict.set, Dict.del]
  | cons e d ih =>
    obtain ⟨k', v'⟩ := e
    simp only [Dict.set]
    split
    · next h => subst h; simp [Dict.del]
    · next h =>
      unfold Dict.del at ih ⊢
      rw [List.filter_cons, List.filter_cons, ih]

private theorem anno_guarded (l : Nat) (G : Str) (x : Ir) : anno l (guarded G x) = guarded G (anno l x) := by
  have h : (guarded G x).ln = x.ln := by cases x <;> rfl
  unfold anno
  rw [h]
  split
  · cases x <;> rfl
  · rfl

private theorem compileAttrs_guard (env : CEnv) (G : Str) (ln : Nat) (as : List (Str × Str)) :
    compileAttrs env (some G) ln as = (compileAttrs env none ln as).map (List.map (guarded G)) := by
  induction as with
  | nil => rfl
  | cons kv as ih =>
    obtain ⟨k, v⟩ := kv
    simp only [compileAttrs]
    split
    · rfl
    · rw [ih]
      cases compileAttrs env none ln as with
      | error e => rfl
      | ok xs =>
        simp only [prepend, Except.map]
        split <;> simp [guarded]

private theorem map_anno_guarded (l : Nat) (G : Str) (xs : List Ir) :
    (xs.map (guarded G)).map (anno l) = (xs.map (anno l)).map (guarded G) := by
  rw [List.map_map, List.map_map]
  exact List.map_congr_left fun x _ => anno_guarded l G x

/-- **C17.** Adding `py:strip` to an element changes only this: the parts of its start tag and end tag get
a guard, the opposite of the expression (or `False` if it is empty).  The content is the same. -/
theorem C17_only_tags_are_guarded (env : CEnv) (ctx : Ctx) (tag : Str) (attrs : Dict Str) (ln : Nat)
    (kids : List DNode) (hk : kindOf tag = .xml) (ha : tag ∉ env.opts.autoblocks)
    (hn : attrs.get "py:strip".toList = none) (e : Str) (s : CState) :
    match compileNode env ctx (.elem tag attrs ln kids) s,
      compileNode env ctx (.elem tag (attrs.set "py:strip".toList e) ln kids) s with
    | .ok (xs, t), .ok (ys, t') => t' = t ∧ ∃ as e1 ks cls,
        let opn := .text ('<' :: tag) none ln :: as ++ [.text e1 none ln]
        let guard := if e = [] then "False".toList else "not (".toList ++ e ++ ")".toList
        (∀ x ∈ as, isAttrNode none x = true) ∧
        (cls = [] ∨ cls = [.text ("</".toList ++ tag ++ ">".toList) none ln]) ∧
        (getAttr attrs "py:content".toList = [] →
          if kids = [] then ks = [] else ∃ c, contentOf env tag attrs kids s = .ok (c, t) ∧ ks = c.map (anno ln)) ∧
        xs = opn ++ ks ++ cls ∧
        ys = opn.map (guarded guard) ++ ks ++ cls.map (guarded guard)
    | .error e, .error e' => e' = e
    | _, _ => False := by
  rw [node_xml hk ha, node_xml hk ha]
  have hG : stripGuard (attrs.set "py:strip".toList e) =
      some (if e = [] then "False".toList else "not (".toList ++ e ++ ")".toList) := by
    unfold stripGuard
    rw [Dict.get_set_same]
    cases e <;> rfl
  have hN : stripGuard attrs = none := by unfold stripGuard; rw [hn]; rfl
  have hget : ∀ k, k ≠ "py:strip".toList →
      getAttr (attrs.set "py:strip".toList e) k = getAttr attrs k := by
    intro k hk
    unfold getAttr
    rw [Dict.get_set_other _ _ hk.symm]
  have hsw : (attrs.set "py:strip".toList e).has "py:switch".toList = attrs.has "py:switch".toList := by
    unfold Dict.has
    rw [Dict.get_set_other _ _ (by decide +kernel)]
  generalize (if e = [] then "False".toList else "not (".toList ++ e ++ ")".toList) = G at hG ⊢
  have hco : contentOf env tag (attrs.set "py:strip".toList e) kids = contentOf env tag attrs kids := by
    unfold contentOf; rw [hsw]
  have hat : attrsNode env (some G) (attrs.set "py:strip".toList e) = (attrsNode env none attrs).map (guarded G) := by
    unfold attrsNode
    rw [hget _ (by decide +kernel)]
    simp only
    split <;> rfl
  have hp2 := attrsNode_nodes env none attrs
  have hct := hget "py:content".toList (by decide +kernel)
  unfold compileXml
  rw [hG, hN, del_set, hco]
  dsimp only
  rw [compileAttrs_guard]
  simp only [hat]
  cases has : compileAttrs env none ln (sortItems (attrs.del "py:strip".toList)) with
  | error e => rfl
  | ok as =>
    have hp1 := compileAttrs_nodes has
    have hp : ∀ x ∈ (as ++ attrsNode env none attrs).map (anno ln), isAttrNode none x = true := by
      intro x hx
      obtain ⟨y, hy, rfl⟩ := List.mem_map.1 hx
      rw [anno_attrNode]
      rcases List.mem_append.1 hy with hy | hy
      · exact hp1 y hy
      · exact hp2 y hy
    unfold compileBody
    rw [hct]
    cases hcv : getAttr attrs "py:content".toList with
    | cons c cs =>
      refine ⟨rfl, (as ++ attrsNode env none attrs).map (anno ln), ">".toList, [.expr (c :: cs) false ln],
        [.text (endTag tag) none ln], hp, .inr rfl, ?_, ?_, ?_⟩
      · intro h; exact absurd h (by simp)
      · simp [anno_text, anno_expr]
      · simp [-List.map_map, anno_text, anno_expr, guarded, map_anno_guarded]
    | nil =>
      cases kids with
      | nil =>
        refine ⟨rfl, (as ++ attrsNode env none attrs).map (anno ln), emptyEnd env.mode tag, [], [], hp, .inl rfl,
          fun _ => by simp, ?_, ?_⟩
        · simp [anno_text]
        · simp [-List.map_map, anno_text, guarded, map_anno_guarded]
      | cons k kids =>
        simp only [annotate, CM.bind, CM.lift, Except.map, CM.pure, List.isEmpty_nil, if_true, List.isEmpty_cons,
          Bool.false_eq_true, if_false]
        cases hc : contentOf env tag attrs (k :: kids) s with
        | error e => simp only
        | ok r =>
          obtain ⟨c, t⟩ := r
          refine ⟨rfl, (as ++ attrsNode env none attrs).map (anno ln), ">".toList, c.map (anno ln),
            (fullEnd env.mode tag none).map (anno ln), hp, ?_, fun _ => ?_, ?_, ?_⟩
          · unfold fullEnd
            split
            · exact .inl rfl
            · exact .inr rfl
          · rw [if_neg (by simp)]
            exact ⟨c, rfl, rfl⟩
          · simp [anno_text]
          · have : fullEnd env.mode tag (some G) = (fullEnd env.mode tag none).map (guarded G) := by
              unfold fullEnd
              split <;> rfl
            rw [this]
            simp [-List.map_map, anno_text, guarded, map_anno_guarded]

/-! ## What it means -/

section
variable {W : Type} (P : Prog (List Ir)) (O : Oracle W) (call : Mode → Nat → List Val → MT W Unit) (env : Env)

private theorem part_starts {x : Ir} {xs : List Ir} (h : isTagPart x = true) (g : Str) :
    startsElse (guarded g x :: xs) = false ∧ startsElse (x :: xs) = false := by
  cases x <;> simp [isTagPart] at h <;> exact ⟨rfl, rfl⟩

private theorem parts_start {xs : List Ir} (h : ∀ x ∈ xs, isTagPart x = true) (g : Str) :
    startsElse (xs.map (guarded g)) = false ∧ startsElse xs = false := by
  cases xs with
  | nil => exact ⟨rfl, rfl⟩
  | cons x xs => exact ⟨(part_starts (h x (by simp)) g).1, (part_starts (h x (by simp)) g).2⟩

private theorem active_cons {g : Str} (h : g ≠ []) : activeGuard (some g) = some g := by
  cases g with
  | nil => exact absurd rfl h
  | cons c g => rfl

private theorem quiet_bind {b : Bool} {g : Str} {α : Type} {s : Store (List Ir) W}
    (h : test O env g s = ⟨.nil, s, .ok b⟩) (f : Bool → MT W α) : M.bind (test O env g) f s = f b s := by
  simp [M.bind, h]

private theorem part_false {x : Ir} (h : isTagPart x = true) {g : Str} (hg : g ≠ []) {els : MT W Unit}
    {s : Store (List Ir) W} (hq : test O env g s = ⟨.nil, s, .ok false⟩) :
    sem P O call env els (guarded g x) s = els s := by
  cases x <;> simp [isTagPart] at h
  all_goals
    simp only [guarded, sem, active_cons hg]
    rw [quiet_bind O env hq]
    simp

private theorem part_true {x : Ir} (h : isTagPart x = true) {g : Str} (hg : g ≠ [])
    {s : Store (List Ir) W} (hq : test O env g s = ⟨.nil, s, .ok true⟩) :
    sem P O call env (M.pure ()) (guarded g x) s = sem P O call env (M.pure ()) x s := by
  cases x
  case text t gd l =>
    cases gd with
    | some _ => cases h
    | none =>
      simp only [guarded, sem, active_cons hg]
      rw [quiet_bind O env hq]
      rfl
  case attr n m gd v l =>
    cases gd with
    | some _ => cases h
    | none =>
      simp only [guarded, sem, active_cons hg]
      rw [quiet_bind O env hq, if_pos rfl]
      simp only [activeGuard, M.bind_pure]
  case attrs c m gd l =>
    cases gd with
    | some _ => cases h
    | none =>
      simp only [guarded, sem, active_cons hg]
      rw [quiet_bind O env hq, if_pos rfl]
      simp only [activeGuard, M.bind_pure]
  all_goals cases h

private theorem parts_false {xs : List Ir} (h : ∀ x ∈ xs, isTagPart x = true) {g : Str} (hg : g ≠ [])
    {s : Store (List Ir) W} (hq : test O env g s = ⟨.nil, s, .ok false⟩) :
    semList P O call env (xs.map (guarded g)) s = ⟨.nil, s, .ok ()⟩ := by
  induction xs with
  | nil => rw [List.map_nil, semList]; rfl
  | cons x xs ih =>
    have h1 := fun y hy => h y (List.mem_cons_of_mem x hy)
    rw [List.map_cons, semList, semElse_of_not P O call env (parts_start h1 g).1]
    have := part_false P O call env (h x (by simp)) hg (els := M.pure ()) hq
    simp only [M.bind, this, M.pure, ih h1]
    rw [Out.nil_append]

private theorem parts_true {xs : List Ir} (h : ∀ x ∈ xs, isTagPart x = true) {g : Str} (hg : g ≠ [])
    (I : Store (List Ir) W → Prop) (hI : ∀ s, I s → test O env g s = ⟨.nil, s, .ok true⟩)
    (hk : ∀ x ∈ xs, ∀ s, I s → I (sem P O call env (M.pure ()) x s).st)
    {s : Store (List Ir) W} (hs : I s) :
    semList P O call env (xs.map (guarded g)) s = semList P O call env xs s ∧
      I (semList P O call env xs s).st := by
  induction xs generalizing s with
  | nil => exact ⟨rfl, by rw [semList]; exact hs⟩
  | cons x xs ih =>
    have h1 := fun y hy => h y (List.mem_cons_of_mem x hy)
    have h2 := fun y hy => hk y (List.mem_cons_of_mem x hy)
    rw [List.map_cons, semList, semList, semElse_of_not P O call env (parts_start h1 g).1,
      semElse_of_not P O call env (parts_start h1 g).2]
    have h3 := part_true P O call env (h x (by simp)) hg (hI s hs)
    have h4 := hk x (by simp) s hs
    simp only [M.bind, h3]
    cases hv : (sem P O call env (M.pure ()) x s).val with
    | error e => exact ⟨rfl, h4⟩
    | ok a =>
      obtain ⟨h5, h6⟩ := ih h1 h2 h4
      exact ⟨by simp only [h5], h6⟩

end

/-- Python's `not` and `False`. -/
structure PyNot {W : Type} (O : Oracle W) : Prop where
  neg : ∀ e v w, O.eval ("not (".toList ++ e ++ ")".toList) v w =
    ((O.eval e v w).1.map fun x => .bool (!truthy x), (O.eval e v w).2)
  false_ : ∀ v w, O.eval "False".toList v w = (.ok (.bool false), w)

/-- In this state the `py:strip` expression has the truth value `b` and no side effects; an empty one
counts as true. -/
def Strips {W : Type} (O : Oracle W) (env : Env) (e : Str) (b : Bool) (s : Store (List Ir) W) : Prop :=
  if e = [] then b = true else test O env e s = ⟨.nil, s, .ok b⟩

private theorem strips_guard {W : Type} {O : Oracle W} (hO : PyNot O) {env : Env} {e : Str} {b : Bool}
    {s : Store (List Ir) W} (h : Strips O env e b s) :
    test O env (if e = [] then "False".toList else "not (".toList ++ e ++ ")".toList) s = ⟨.nil, s, .ok !b⟩ := by
  unfold Strips at h
  unfold test evalM ask M.bind at *
  split
  · next he =>
    rw [if_pos he] at h
    subst h
    simp only [hO.false_, M.pure, Out.nil_append]
    rfl
  · next he =>
    rw [if_neg he] at h
    simp only [hO.neg]
    dsimp only at h
    revert h
    generalize O.eval e (view env s) s.world = r
    obtain ⟨r, w⟩ := r
    cases r with
    | error e => intro h; simp at h
    | ok v =>
      simp only [M.pure, Except.map, Res.mk.injEq, Except.ok.injEq]
      rintro ⟨h1, h2, h3⟩
      refine ⟨rfl, h2, ?_⟩
      rw [← h3]
      rfl

/-- **C17.** Rendering an element with `py:strip`: when the expression is true (before the element and after its
content) only the content is rendered; when it is false (and neither the parts of the tag nor the
content change that) the element is rendered as if it had no `py:strip`.  Here `ks` is the content as in
`C17_only_tags_are_guarded`. -/
theorem C17_rendering {W : Type} (O : Oracle W) (hO : PyNot O) (P : Prog (List Ir))
    (call : Mode → Nat → List Val → MT W Unit) (env : Env) (e : Str) (opn ks cls : List Ir)
    (ho : ∀ x ∈ opn ++ cls, isTagPart x = true) (hks : startsElse ks = false)
    (guard : Str) (hg : guard = if e = [] then "False".toList else "not (".toList ++ e ++ ")".toList)
    (s : Store (List Ir) W) :
    (Strips O env e true s →
      ((semList P O call env ks s).val = .ok () → Strips O env e true (semList P O call env ks s).st) →
      semList P O call env (opn.map (guarded guard) ++ ks ++ cls.map (guarded guard)) s =
        semList P O call env ks s) ∧
    ∀ I : Store (List Ir) W → Prop, I s → (∀ s, I s → Strips O env e false s) →
      (∀ x ∈ opn ++ cls, ∀ s, I s → I (sem P O call env (M.pure ()) x s).st) →
      (∀ s, I s → I (semList P O call env ks s).st) →
      semList P O call env (opn.map (guarded guard) ++ ks ++ cls.map (guarded guard)) s =
        semList P O call env (opn ++ ks ++ cls) s := by
  have hne : guard ≠ [] := by
    rw [hg]
    split
    · decide +kernel
    · intro h
      have := congrArg List.length h
      simp at this
  have hq : ∀ b s, Strips O env e b s → test O env guard s = ⟨.nil, s, .ok !b⟩ := by
    intro b s h
    rw [hg]
    exact strips_guard hO h
  have ho1 : ∀ x ∈ opn, isTagPart x = true := fun x hx => ho x (List.mem_append_left _ hx)
  have ho2 : ∀ x ∈ cls, isTagPart x = true := fun x hx => ho x (List.mem_append_right _ hx)
  have hs2 := parts_start ho2 guard
  have hs1 : startsElse (ks ++ cls.map (guarded guard)) = false ∧ startsElse (ks ++ cls) = false := by
    clear hq
    induction ks with
    | nil => exact hs2
    | cons k ks ih =>
      cases k
      case python ls l =>
        cases ls with
        | nil => simp only [List.cons_append, startsElse] at hks ⊢; exact ih hks
        | cons _ _ => exact ⟨rfl, rfl⟩
      case elseN => cases hks
      all_goals exact ⟨rfl, rfl⟩
  rw [List.append_assoc, List.append_assoc, semList_append P O call env hs1.1, semList_append P O call env hs1.2,
    semList_append P O call env hs2.1, semList_append P O call env hs2.2]
  constructor
  · intro h1 h2
    have h3 := parts_false P O call env ho1 hne (hq _ _ h1)
    simp only [M.bind, h3]
    cases hv : (semList P O call env ks s).val with
    | error e =>
      simp only [Out.nil_append]
      rw [← hv]
    | ok a =>
      have h4 := parts_false P O call env ho2 hne (hq _ _ (h2 hv))
      simp only [h4, Out.nil_append, Out.append_nil]
      rw [← hv]
  · intro I h1 h2 h3 h4
    have h2' : ∀ s, I s → test O env guard s = ⟨.nil, s, .ok true⟩ := fun s hs => hq _ _ (h2 s hs)
    obtain ⟨h5, h6⟩ := parts_true P O call env ho1 hne I h2'
      (fun x hx => h3 x (List.mem_append_left _ hx)) h1
    simp only [M.bind, h5]
    cases (semList P O call env opn s).val with
    | error e => rfl
    | ok a =>
      have h7 := h4 _ h6
      cases (semList P O call env ks (semList P O call env opn s).st).val with
      | error e => rfl
      | ok b =>
        obtain ⟨h8, _⟩ := parts_true P O call env ho2 hne I h2'
          (fun x hx => h3 x (List.mem_append_right _ hx)) h7
        simp only [h8]

/-- **C17.** What is before or after the element does not matter: its nodes are rendered between them. -/
theorem C17_in_context {W : Type} (O : Oracle W) (P : Prog (List Ir))
    (call : Mode → Nat → List Val → MT W Unit) (env : Env) (before nodes rest : List Ir)
    (h1 : startsElse nodes = false) (h2 : startsElse rest = false) :
    semList P O call env (before ++ nodes ++ rest) =
      M.bind (semList P O call env before) fun _ =>
      M.bind (semList P O call env nodes) fun _ => semList P O call env rest := by
  rw [semList_append P O call env h2, semList_append P O call env h1, M.bind_assoc]

/-- a language with only `not (…)`, `False` and true expressions -/
private def ev (e : Str) : Bool :=
  if _h : "not (".toList.isPrefixOf e = true ∧ 5 < e.length then !ev (e.drop 5).dropLast
  else decide (e ≠ "False".toList)
termination_by e.length
decreasing_by simp; omega

example (O : Oracle Nat) : PyNot { O with eval := fun e _ w => (.ok (.bool (ev e)), w) } := by
  constructor
  · intro e v w
    have h : ev ("not (".toList ++ e ++ ")".toList) = !ev e := by
      rw [ev, dif_pos]
      · have : "not (".toList ++ e ++ ")".toList = ['n', 'o', 't', ' ', '('] ++ (e ++ [')']) := by
          rw [List.append_assoc]; rfl
        rw [this]
        show (!ev (e ++ [')']).dropLast) = !ev e
        rw [List.dropLast_concat]
      · refine ⟨?_, by simp⟩
        rw [List.isPrefixOf_iff_prefix, List.append_assoc]
        exact List.prefix_append _ _
    simp only [h, Except.map]
    rfl
  · intro v w
    have : ev "False".toList = false := by rw [ev, dif_neg (by decide +kernel)]; decide +kernel
    simp only [this]

private def envX : CEnv := ⟨fun _ => none, "xml".toList, ⟨[], false, [], true⟩, fun _ => []⟩

/-- `<p class="c" py:strip="x">a</p>` -/
example : (match compileNode envX ⟨none, false, []⟩ (.elem "p".toList
      (Dict.set [("class".toList, "c".toList)] "py:strip".toList "x".toList) 1 [.text "a".toList false 1]) .start with
    | .ok r => some r.1
    | .error _ => none) =
  some [.text "<p".toList (some "not (x)".toList) 1,
    .attr "class".toList "xml".toList (some "not (x)".toList) [.text "c".toList none 1] 1,
    .text ">".toList (some "not (x)".toList) 1, .trans "a".toList 1, .text "</p>".toList (some "not (x)".toList) 1] := rfl

end Kajiki.Props
