import Verif.Lemmas.XmlCompile
import Verif.Lemmas.Dom

/-!
# The messages of a document do not depend on the mode
-/

namespace Kajiki.XmlComp
open Kajiki.Spec.XmlCompile

variable {α β γ δ : Type}

/-- The node may be a child of `py:switch`. -/
def swOk : Ir → Bool
  | .text t _ _ => (strip t).isEmpty
  | .caseN _ _ _ => true
  | .elseN _ _ => true
  | _ => false

/-- The same messages, and allowed or not in `py:switch`. -/
def Sim (a b : List Ir) : Prop := messagesList a = messagesList b ∧ a.all swOk = b.all swOk

/-- Registries with the same functions and messages. -/
structure SimS (s t : CState) : Prop where
  funs : List.Forall₂ (fun f g : Str × List Ir => f.1 = g.1 ∧ messagesList f.2 = messagesList g.2) s.funs t.funs
  modPy : s.modPy = t.modPy
  inDef : s.inDef = t.inDef
  isChild : s.isChild = t.isChild
  fresh : s.fresh = t.fresh

/-- The same error, or related results. -/
def SimR (R : α → β → Prop) : Except Err (α × CState) → Except Err (β × CState) → Prop
  | .error e, .error e' => e = e'
  | .ok a, .ok b => R a.1 b.1 ∧ SimS a.2 b.2
  | _, _ => False

/-- Compilations that do the same up to the relation. -/
def SimC (R : α → β → Prop) (m : CM α) (n : CM β) : Prop := ∀ s t, SimS s t → SimR R (m s) (n t)

variable {R : α → β → Prop} {Q : γ → δ → Prop}

theorem SimC.bind {m : CM α} {n : CM β} {f : α → CM γ} {g : β → CM δ} (h : SimC R m n)
    (hf : ∀ a b, R a b → SimC Q (f a) (g b)) : SimC Q (CM.bind m f) (CM.bind n g) := by
  intro s t hs
  have := h s t hs
  unfold CM.bind
  cases hm : m s with
  | error e =>
    cases hn : n t with
    | error e' => rw [hm, hn] at this; exact this
    | ok b => rw [hm, hn] at this; exact this.elim
  | ok a =>
    cases hn : n t with
    | error e' => rw [hm, hn] at this; exact this.elim
    | ok b => rw [hm, hn] at this; exact hf _ _ this.1 _ _ this.2

theorem SimC.pure {a : α} {b : β} (h : R a b) : SimC R (CM.pure a) (CM.pure b) := fun _ _ hs => ⟨h, hs⟩
theorem SimC.throw (e : Err) : SimC R (CM.throw e) (CM.throw e) := fun _ _ _ => rfl
theorem SimC.get : SimC SimS CM.get CM.get := fun _ _ hs => ⟨hs, hs⟩
theorem SimC.modify {f g : CState → CState} (h : ∀ s t, SimS s t → SimS (f s) (g t)) :
    SimC (fun _ _ => True) (CM.modify f) (CM.modify g) := fun s t hs => ⟨trivial, h s t hs⟩

/-- Computations without state that agree. -/
def SimE (R : α → β → Prop) : Except Err α → Except Err β → Prop
  | .error e, .error e' => e = e'
  | .ok a, .ok b => R a b
  | _, _ => False

theorem SimC.lift {x : Except Err α} {y : Except Err β} (h : SimE R x y) : SimC R (CM.lift x) (CM.lift y) := by
  intro s t hs
  cases x <;> cases y
  · exact h
  · exact h.elim
  · exact h.elim
  · exact ⟨h, hs⟩

theorem SimE.refl (x : Except Err α) : SimE (· = ·) x x := by cases x <;> rfl

theorem SimC.same (x : Except Err α) : SimC (· = ·) (CM.lift x) (CM.lift x) := .lift (.refl x)

theorem Sim.refl (a : List Ir) : Sim a a := ⟨rfl, rfl⟩

theorem Sim.append {a b c d : List Ir} (h : Sim a b) (h2 : Sim c d) : Sim (a ++ c) (b ++ d) := by
  refine ⟨?_, ?_⟩
  · rw [messagesList_append, messagesList_append, h.1, h2.1]
  · rw [List.all_append, List.all_append, h.2, h2.2]

theorem swOk_anno (l : Nat) (x : Ir) : swOk (anno l x) = swOk x := by
  unfold anno
  split
  · cases x <;> rfl
  · rfl

theorem Sim.anno {a b : List Ir} (l : Nat) (h : Sim a b) : Sim (a.map (anno l)) (b.map (anno l)) := by
  refine ⟨?_, ?_⟩
  · rw [messagesList_anno, messagesList_anno, h.1]
  · rw [List.all_map, List.all_map]
    have : swOk ∘ Kajiki.anno l = swOk := funext fun x => swOk_anno l x
    rw [this, h.2]

theorem SimC.annotate {m n : CM (List Ir)} (l : Nat) (h : SimC Sim m n) :
    SimC Sim (annotate l m) (annotate l n) :=
  h.bind fun _ _ hx => .pure (hx.anno l)

theorem SimS.set {s t : CState} (h : SimS s t) (k : Str) {a b : List Ir}
    (hb : messagesList a = messagesList b) :
    SimS { s with funs := s.funs.set k a } { t with funs := t.funs.set k b } := by
  refine ⟨?_, h.modPy, h.inDef, h.isChild, h.fresh⟩
  show List.Forall₂ _ (s.funs.set k a) (t.funs.set k b)
  have := h.funs
  generalize s.funs = x at this ⊢
  generalize t.funs = y at this ⊢
  induction this with
  | nil => exact .cons ⟨rfl, hb⟩ .nil
  | @cons f g x y hfg hxy ih =>
    obtain ⟨k1, v1⟩ := f
    obtain ⟨k2, v2⟩ := g
    obtain ⟨h1, h2⟩ := hfg
    simp only at h1 h2
    subst h1
    simp only [Dict.set]
    split
    · exact .cons ⟨rfl, hb⟩ hxy
    · exact .cons ⟨rfl, h2⟩ ih

theorem Sim.wrap {x y : Ir} (h : messages x = messages y) (h2 : swOk x = swOk y) : Sim [x] [y] := by
  refine ⟨by simp [messagesList, h], by simp [h2]⟩

/-- Lists both of which are not allowed in `py:switch`. -/
theorem Sim.text {a b : List Ir} {t : Str} {g g' : Option Str} {l l' : Nat}
    (ht : (strip t).isEmpty = false) (h : messagesList a = messagesList b) :
    Sim (.text t g l :: a) (.text t g' l' :: b) := by
  refine ⟨by simp [messagesList, messages, h], ?_⟩
  simp only [List.all_cons, swOk, ht, Bool.false_and]

theorem messages_body (a : List Ir) :
    messagesList (if a.isEmpty then [.pass 0] else a) = messagesList a := by
  cases a <;> rfl

theorem SimC.finishBlock (name : Str) {a b : List Ir} (h : Sim a b) :
    SimC Sim (finishBlock name a) (finishBlock name b) := by
  unfold Kajiki.finishBlock
  have hm : messagesList (if a.isEmpty then [.pass 0] else a) =
      messagesList (if b.isEmpty then [.pass 0] else b) := by
    rw [messages_body, messages_body, h.1]
  refine SimC.bind (.modify fun s t hs => hs.set _ hm) fun _ _ _ => SimC.bind .get fun s t hs => ?_
  rw [hs.isChild]
  split
  · refine (SimC.same _).bind fun p q hpq => ?_
    subst hpq
    refine SimC.bind (.modify fun s t hs => hs.set _ ?_) fun _ _ _ => .pure (.refl _)
    simp only [messagesList, messages, hm]
  · exact .pure (.refl _)

theorem SimC.compileDef (decl : Str) {m n : CM (List Ir)} (h : SimC Sim m n) :
    SimC Sim (compileDef decl m) (compileDef decl n) := by
  unfold Kajiki.compileDef
  refine SimC.bind .get fun s t hs => SimC.bind (.modify fun s t hs => ⟨hs.funs, hs.modPy, rfl, hs.isChild, hs.fresh⟩)
    fun _ _ _ => h.bind fun a b hab =>
      SimC.bind (.modify fun s' t' hs' => ⟨hs'.funs, hs'.modPy, hs.inDef, hs'.isChild, hs'.fresh⟩) fun _ _ _ => ?_
  rw [hs.inDef]
  split
  · exact .pure (.wrap hab.1 rfl)
  · exact SimC.bind (.modify fun s t hs => hs.set _ hab.1) fun _ _ _ => .pure (.refl _)

theorem SimC.compileCall {env env' : CEnv} (f : Str) (kids : List DNode)
    {m n : CM (List Ir)} (h : SimC Sim m n) :
    SimC Sim (compileCall env f kids m) (compileCall env' f kids n) := by
  unfold Kajiki.compileCall
  refine (SimC.same _).bind fun d d' hd => h.bind fun a b hab => SimC.bind .get fun s t hs =>
    SimC.bind (.modify fun s t hs => ⟨hs.funs, hs.modPy, hs.inDef, hs.isChild, congrArg (· + 1) hs.fresh⟩)
      fun _ _ _ => .pure (.wrap hab.1 rfl)

/-- Not a text. -/
def notText : Ir → Bool
  | .text _ _ _ => false
  | _ => true

/-- The error of a bad child. -/
def switchErr : Err := .compile "py:switch".toList

theorem switchBody_eq (xs : List Ir) : switchBody xs =
    if xs.all swOk then .ok (xs.filter notText) else .error switchErr := by
  have hE : Err.compile "py:switch".toList = switchErr := rfl
  induction xs with
  | nil => rfl
  | cons x xs ih =>
    cases x with
    | text t g l =>
      simp only [switchBody, List.all_cons, swOk, List.filter_cons, notText]
      rw [ih, hE]
      generalize switchErr = e
      cases (strip t).isEmpty
      · rfl
      · simp only [Bool.true_and, Bool.false_eq_true, if_true, if_false]
    | caseN e b l =>
      simp only [switchBody, List.all_cons, swOk, List.filter_cons, notText, Bool.true_and]
      rw [ih]
      generalize switchErr = e
      cases xs.all swOk <;> rfl
    | elseN b l =>
      simp only [switchBody, List.all_cons, swOk, List.filter_cons, notText, Bool.true_and]
      rw [ih]
      generalize switchErr = e
      cases xs.all swOk <;> rfl
    | _ => rfl

theorem messages_filter (xs : List Ir) : messagesList (xs.filter notText) = messagesList xs := by
  induction xs with
  | nil => rfl
  | cons x xs ih => cases x <;> simp [List.filter_cons, notText, messagesList, messages, ih]

theorem SimE.switchBody {a b : List Ir} (h : Sim a b) :
    SimE (fun a b => messagesList a = messagesList b) (switchBody a) (switchBody b) := by
  rw [switchBody_eq, switchBody_eq, h.2]
  split
  · show messagesList _ = messagesList _
    rw [messages_filter, messages_filter, h.1]
  · rfl

theorem SimC.compileKind {env env' : CEnv} (ctx : Ctx) (attrs : Dict Str)
    (kids : List DNode) {m n : CM (List Ir)} (h : SimC Sim m n) (k : Kind) :
    SimC Sim (compileKind env ctx attrs kids m k) (compileKind env' ctx attrs kids n k) := by
  cases k with
  | ext =>
    exact SimC.bind (R := fun _ _ => True) (m := CM.modify fun s => { s with isChild := true })
      (n := CM.modify fun s => { s with isChild := true })
      (f := fun _ => CM.bind m fun b => CM.pure (.ext (getAttr attrs "href".toList) 0 :: b))
      (g := fun _ => CM.bind n fun b => CM.pure (.ext (getAttr attrs "href".toList) 0 :: b))
      (.modify fun s t hs => ⟨hs.funs, hs.modPy, hs.inDef, rfl, hs.fresh⟩) fun _ _ _ =>
      h.bind fun a b hab => .pure (Sim.append (.refl [.ext (getAttr attrs "href".toList) 0]) hab)
  | block => exact h.bind fun a b hab => .finishBlock _ hab
  | defn => exact .compileDef _ h
  | call => exact .compileCall _ _ h
  | forK => exact h.bind fun a b hab => .pure (.wrap hab.1 rfl)
  | withK =>
    refine h.bind fun a b hab => (SimC.same _).bind fun v w hv => ?_
    subst hv
    exact .pure (.wrap hab.1 rfl)
  | switchK => exact h.bind fun a b hab => (SimC.lift (.switchBody hab)).bind fun c d hcd => .pure (.wrap hcd rfl)
  | caseK => exact h.bind fun a b hab => .pure (.wrap hab.1 rfl)
  | ifK => exact h.bind fun a b hab => .pure (.wrap hab.1 rfl)
  | elseK => exact (SimC.same _).bind fun _ _ _ => h.bind fun a b hab => .pure (.wrap hab.1 rfl)
  | nop => exact h
  | broken => exact .throw _
  | endless => exact .throw _
  | _ => exact .pure (.refl _)

theorem compileAttrs_sim {env env' : CEnv} (hp : env.py = env'.py) (g : Option Str) (ln : Nat)
    (as : List (Str × Str)) :
    SimE (fun a b => messagesList a = [] ∧ messagesList b = []) (compileAttrs env g ln as)
      (compileAttrs env' g ln as) := by
  induction as with
  | nil => exact ⟨rfl, rfl⟩
  | cons kv as ih =>
    obtain ⟨k, v⟩ := kv
    simp only [compileAttrs, hp]
    cases hv : compileTextSrc env'.py ⟨false, true⟩ v ln with
    | error e => rfl
    | ok vs =>
      simp only
      have := textSrc_plain hv rfl
      cases h1 : compileAttrs env g ln as <;> cases h2 : compileAttrs env' g ln as <;> rw [h1, h2] at ih
      · exact ih
      · exact ih.elim
      · exact ih.elim
      · obtain ⟨i1, i2⟩ := ih
        refine ⟨?_, ?_⟩ <;> rw [messagesList_append] <;> split <;>
          simp [messagesList, messages, this, i1, i2]

theorem strip_lt (tag : Str) : (strip ('<' :: tag)).isEmpty = false := by
  have h1 : lstrip ('<' :: tag) = '<' :: tag := Doms.lstrip_of_head (by simp; decide)
  unfold strip
  rw [h1]
  cases h : rstrip ('<' :: tag) with
  | nil =>
    have := Doms.core_trail ('<' :: tag)
    rw [h, List.nil_append] at this
    have h2 : '<' ∈ Doms.trail ('<' :: tag) := by rw [this]; exact List.mem_cons_self
    unfold Doms.trail at h2
    exact absurd (List.all_eq_true.1 List.all_takeWhile _ (List.mem_reverse.1 h2)) (by decide)
  | cons c s => rfl

theorem SimC.compileXml {env env' : CEnv} (hp : env.py = env'.py) (tag : Str) (attrs : Dict Str) (ln : Nat)
    (e : Bool) {m n : CM (List Ir)} (h : SimC (fun a b => messagesList a = messagesList b) m n) :
    SimC Sim (compileXml env tag attrs ln e m) (compileXml env' tag attrs ln e n) := by
  unfold Kajiki.compileXml
  have hb : SimC (fun a b => messagesList a = messagesList b)
      (compileBody env tag attrs (stripGuard attrs) e m) (compileBody env' tag attrs (stripGuard attrs) e n) := by
    unfold compileBody
    simp only
    split
    · split
      · exact .pure rfl
      · refine h.bind fun a b hab => .pure ?_
        simp only [messagesList, messagesList_append, List.cons_append, messages, hab]
        unfold fullEnd
        split <;> split <;> rfl
    · exact .pure rfl
  refine (SimC.lift (compileAttrs_sim hp _ _ _)).bind fun a b hab => hb.bind fun c d hcd => .pure ?_
  refine Sim.text (strip_lt tag) ?_
  have hn : ∀ e : CEnv, messagesList (attrsNode e (stripGuard attrs) attrs) = [] := by
    intro e
    unfold attrsNode
    simp only
    split <;> rfl
  show messagesList (a ++ attrsNode env _ attrs ++ c) = messagesList (b ++ attrsNode env' _ attrs ++ d)
  simp only [messagesList_append, hab.1, hab.2, hcd, hn]

theorem SimC.compileText {env env' : CEnv} (hp : env.py = env'.py) (p : Option Str) (d : Str) (ln : Nat) :
    SimC Sim (compileText env p d ln) (compileText env' p d ln) := by
  unfold Kajiki.compileText
  cases p with
  | none => exact .throw _
  | some p =>
    simp only [hp]
    refine .annotate _ (.lift ?_)
    generalize compileTextSrc _ _ _ _ = x
    cases x
    · rfl
    · exact Sim.refl _

theorem SimC.mono {R' : α → β → Prop} {m : CM α} {n : CM β} (h : SimC R m n) (hr : ∀ a b, R a b → R' a b) :
    SimC R' m n := by
  intro s t hs
  have := h s t hs
  cases h1 : m s <;> cases h2 : n t <;> rw [h1, h2] at this
  · exact this
  · exact this.elim
  · exact this.elim
  · exact ⟨hr _ _ this.1, this.2⟩

theorem SimC.compileScript {env env' : CEnv} (hp : env.py = env'.py) (tag : Str) (kids : List DNode) :
    SimC (· = ·) (compileScript env tag kids) (compileScript env' tag kids) := by
  induction kids with
  | nil => exact .pure rfl
  | cons k kids ih =>
    cases k with
    | cdata d l => exact ih
    | text d e l =>
      simp only [Kajiki.compileScript]
      have : Kajiki.compileText env (some tag) d l = Kajiki.compileText env' (some tag) d l := by
        unfold Kajiki.compileText; rw [hp]
      rw [this]
      have h2 : SimC (· = ·) (Kajiki.compileText env' (some tag) d l) (Kajiki.compileText env' (some tag) d l) := by
        unfold Kajiki.compileText Kajiki.annotate
        exact (SimC.same _).bind fun a b hab => .pure (by rw [hab])
      refine h2.bind fun a b hab => ?_
      subst hab
      refine (SimC.same _).bind fun a b hab => ih.bind fun c d hcd => .pure ?_
      rw [hab, hcd]
    | _ => exact .throw _

theorem SimC.scriptKids {env env' : CEnv} (hp : env.py = env'.py) (tag : Str) (kids : List DNode) :
    SimC (fun a b => messagesList a = messagesList b) (scriptKids env tag kids) (scriptKids env' tag kids) := by
  refine (SimC.compileScript hp tag kids).bind fun a b hab => .pure ?_
  subst hab
  simp only [messagesList_append, scriptMark]
  split <;> split <;> rfl

/-- Environments that differ only in the mode, in `is_fragment` and in generated names. -/
structure SimEnv (e e' : CEnv) : Prop where
  py : e.py = e'.py
  autoblocks : e.opts.autoblocks = e'.opts.autoblocks
  cdataScripts : e.opts.cdataScripts = e'.opts.cdataScripts

variable {env env' : CEnv}

mutual
theorem node_sim (h : SimEnv env env') (ctx : Ctx) (x : DNode) :
    SimC Sim (compileNode env ctx x) (compileNode env' ctx x) := by
  cases x with
  | comment d ln => simp only [compileNode]; exact .annotate _ (.pure (.refl _))
  | text d e ln => simp only [compileNode]; exact .compileText h.py _ _ _
  | cdata d ln => simp only [compileNode]; exact .compileText h.py _ _ _
  | pi tg d ln =>
    simp only [compileNode]
    refine .annotate _ ((SimC.same _).bind fun p q hpq => ?_)
    subst hpq
    split
    · exact SimC.bind (.modify fun s t hs => ⟨hs.funs, by simp only [hs.modPy], hs.inDef, hs.isChild, hs.fresh⟩)
        fun _ _ _ => .pure (.refl _)
    · exact .pure (.refl _)
  | elem tag attrs ln kids =>
    simp only [compileNode]
    have ha : isAutoblock env tag attrs = isAutoblock env' tag attrs := by
      unfold isAutoblock; rw [h.autoblocks]
    rw [ha]
    refine (SimC.same _).bind fun a b hab => ?_
    subst hab
    have hk := fun raw => kids_sim h raw (some tag) (a.2.has "py:switch".toList) [] kids
    split
    · exact .annotate _ ((SimC.annotate _ (hk false)).bind fun c d hcd => .finishBlock _ hcd)
    · split
      · refine .annotate _ (.compileXml h.py _ _ _ _ ?_)
        have : isScript env tag = isScript env' tag := by unfold isScript; rw [h.cdataScripts]
        rw [this]
        split
        · exact .scriptKids h.py _ _
        · exact (hk true).mono fun _ _ hab => hab.1
      · exact .annotate _ (.compileKind _ _ _ (.annotate _ (hk false)) _)

theorem kids_sim (h : SimEnv env env') (raw : Bool) (p : Option Str) (sw : Bool) (prev : Str)
    (xs : List DNode) : SimC Sim (compileKids env raw p sw prev xs) (compileKids env' raw p sw prev xs) := by
  cases xs with
  | nil => simp only [compileKids]; exact .pure (.refl _)
  | cons x xs =>
    cases x with
    | cdata d ln =>
      simp only [compileKids]
      refine SimC.bind (R := Sim) ?_ fun a b hab => (kids_sim h raw p sw _ xs).bind fun c d hcd =>
        .pure (hab.append hcd)
      split
      · exact .pure (.refl _)
      · exact .compileText h.py _ _ _
    | _ =>
      simp only [compileKids]
      exact (node_sim h _ _).bind fun a b hab => (kids_sim h raw p sw _ xs).bind fun c d hcd =>
        .pure (hab.append hcd)
end

theorem doctypeNode_messages (mode dtd : Str) : messagesList (doctypeNode mode dtd) = [] := by
  unfold doctypeNode
  split
  · rfl
  · split <;> rfl

/-- The same error, or templates with the same messages. -/
theorem compileDoc_sim (h : SimEnv env env') (doc : Doc) :
    SimE (fun a b => messagesTmpl a = messagesTmpl b) (compileDoc env doc) (compileDoc env' doc) := by
  unfold compileDoc
  split
  · next root _ =>
    have := node_sim h ⟨none, false, []⟩ root .start .start
      ⟨.cons ⟨rfl, rfl⟩ .nil, rfl, rfl, rfl, rfl⟩
    cases h1 : compileNode env ⟨none, false, []⟩ root .start <;>
      cases h2 : compileNode env' ⟨none, false, []⟩ root .start <;> rw [h1, h2] at this
    · exact this
    · exact this.elim
    · exact this.elim
    · next a b =>
      obtain ⟨⟨hm, _⟩, hs⟩ := this
      obtain ⟨a, s⟩ := a
      obtain ⟨b, t⟩ := b
      simp only at hm hs ⊢
      have hm' : messagesList (if (!env.opts.isFragment && !s.isChild) = true then doctypeNode env.mode doc.dtd ++ a else a)
          = messagesList (if (!env'.opts.isFragment && !t.isChild) = true then doctypeNode env'.mode doc.dtd ++ b else b) := by
        split <;> split <;> simp [messagesList_append, doctypeNode_messages, hm]
      have := (hs.set mainDecl hm').funs
      show messagesTmpl _ = messagesTmpl _
      unfold messagesTmpl
      simp only at this ⊢
      generalize Dict.set s.funs mainDecl _ = x at this ⊢
      generalize Dict.set t.funs mainDecl _ = y at this ⊢
      induction this with
      | nil => rfl
      | cons hfg _ ih => simp only [List.map_cons, List.flatMap_cons, hfg.2, ih]
  · rfl

end Kajiki.XmlComp
