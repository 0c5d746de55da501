import Verif.Spec.XmlCompile
import Verif.Lemmas.XmlText
import Verif.Lemmas.Dict
import Mathlib.Data.List.Forall2

/-!
# Lemmas about compiled documents
-/

namespace Kajiki.XmlComp
open Kajiki.Spec.XmlCompile

variable {α β : Type}

/-! ## The compilation monad -/

theorem bind_ok {m : CM α} {f : α → CM β} {s : CState} {r : β × CState} :
    CM.bind m f s = .ok r ↔ ∃ a t, m s = .ok (a, t) ∧ f a t = .ok r := by
  unfold CM.bind
  cases m s with
  | error e => simp
  | ok p => obtain ⟨a, t⟩ := p; simp

theorem lift_ok {x : Except Err α} {s : CState} {r : α × CState} :
    CM.lift x s = .ok r ↔ x = .ok r.1 ∧ r.2 = s := by
  obtain ⟨a, t⟩ := r
  cases x <;> simp [CM.lift, eq_comm]

theorem pure_ok {a : α} {s : CState} {r : α × CState} : CM.pure a s = .ok r ↔ r = (a, s) := by
  simp [CM.pure, eq_comm]

theorem annotate_ok {l : Nat} {m : CM (List Ir)} {s : CState} {r : List Ir × CState} :
    annotate l m s = .ok r ↔ ∃ xs, m s = .ok (xs, r.2) ∧ r.1 = xs.map (anno l) := by
  obtain ⟨ys, t⟩ := r
  simp only [annotate, bind_ok, pure_ok, Prod.mk.injEq]
  constructor
  · rintro ⟨a, t', h, rfl, rfl⟩; exact ⟨a, h, rfl⟩
  · rintro ⟨xs, h, rfl⟩; exact ⟨xs, t, h, rfl, rfl⟩

theorem pure_bind (a : α) (f : α → CM β) : CM.bind (CM.pure a) f = f a := rfl

theorem bind_assoc {γ : Type} (m : CM α) (f : α → CM β) (g : β → CM γ) :
    CM.bind (CM.bind m f) g = CM.bind m fun a => CM.bind (f a) g := by
  funext s
  unfold CM.bind
  cases m s with
  | error e => rfl
  | ok p => rfl

theorem bind_pure (m : CM α) : CM.bind m CM.pure = m := by
  funext s
  unfold CM.bind CM.pure
  cases m s with
  | error e => rfl
  | ok p => rfl

/-! ## Messages -/

theorem messagesList_append (xs ys : List Ir) :
    messagesList (xs ++ ys) = messagesList xs ++ messagesList ys := by
  induction xs with
  | nil => rfl
  | cons x xs ih => simp [messagesList, ih]

theorem messages_anno (l : Nat) (x : Ir) : messages (anno l x) = messages x := by
  unfold anno
  split
  · cases x <;> simp only [Ir.setLn, messages]
  · rfl

theorem messagesList_anno (l : Nat) (xs : List Ir) :
    messagesList (xs.map (anno l)) = messagesList xs := by
  induction xs with
  | nil => rfl
  | cons x xs ih => simp [messagesList, ih, messages_anno]

theorem attrsPlainList_append (xs ys : List Ir) :
    attrsPlainList (xs ++ ys) = (attrsPlainList xs && attrsPlainList ys) := by
  induction xs with
  | nil => rfl
  | cons x xs ih => simp [attrsPlainList, ih, Bool.and_assoc]

theorem attrsPlain_anno (l : Nat) (x : Ir) : attrsPlain (anno l x) = attrsPlain x := by
  unfold anno
  split
  · cases x <;> simp only [Ir.setLn, attrsPlain]
  · rfl

theorem attrsPlainList_anno (l : Nat) (xs : List Ir) :
    attrsPlainList (xs.map (anno l)) = attrsPlainList xs := by
  induction xs with
  | nil => rfl
  | cons x xs ih => simp [attrsPlainList, ih, attrsPlain_anno]

/-! ## Texts -/

theorem prepend_ok {xs : List Ir} {r : Except Err (List Ir)} {zs : List Ir} :
    prepend xs r = .ok zs ↔ ∃ ys, r = .ok ys ∧ zs = xs ++ ys := by
  cases r <;> simp [prepend, eq_comm]

/-- A node made from a part of a text. -/
inductive TextPart (m : TextMode) (src : Str) : Ir → Prop
  | text (t : Str) (l : Nat) : t <:+: src → TextPart m src (textNode m t l)
  | expr (t : Str) (l : Nat) : TextPart m src (exprNode m t l)

theorem slice_infix (s : Str) (a b : Nat) : slice s a b <:+: s :=
  (List.drop_suffix a _).isInfix.trans (List.take_prefix b s).isInfix

theorem dollars_kind {skip pos : Nat} {s : Str} {a b : Nat} (h : (a, b, DKind.dollar) ∈ dollars skip pos s) :
    ['$'] <:+: s := by
  induction s generalizing skip pos with
  | nil => simp [dollars] at h
  | cons c s ih =>
    cases skip with
    | succ n => exact (ih h).trans (List.suffix_cons c s).isInfix
    | zero =>
      simp only [dollars] at h
      split at h
      · next k len hk =>
        rcases List.mem_cons.1 h with h1 | h1
        · simp only [Prod.mk.injEq] at h1
          obtain ⟨_, _, rfl⟩ := h1
          unfold dollarAt at hk
          split at hk
          · cases hk
          · next heq => simp at heq; rw [heq.1]; exact ⟨[], s, rfl⟩
          · split at hk <;> cases hk
          · cases hk
        · exact (ih h1).trans (List.suffix_cons c s).isInfix
      · exact (ih h).trans (List.suffix_cons c s).isInfix

theorem textLoop_parts (py : PyCompile) (m : TextMode) (src : Str) (ms : List (Nat × Nat × DKind))
    (hd : ∀ a b, (a, b, DKind.dollar) ∈ ms → ['$'] <:+: src) (pos ln : Nat) (xs : List Ir)
    (h : textLoop py m src pos ln ms = .ok xs) : ∀ x ∈ xs, TextPart m src x := by
  induction ms generalizing pos ln xs with
  | nil =>
    simp only [textLoop, Except.ok.injEq] at h
    subst h
    split
    · intro x hx
      simp only [List.mem_singleton] at hx
      subst hx
      exact .text _ _ (List.drop_suffix _ _).isInfix
    · simp
  | cons k ms ih =>
    obtain ⟨start, stop, k⟩ := k
    have hb : ∀ x ∈ (textBefore m src pos start ln).1, TextPart m src x := by
      unfold textBefore
      split
      · intro x hx
        simp only [List.mem_singleton] at hx
        subst hx
        exact .text _ _ (slice_infix _ _ _)
      · simp
    have hd' := fun a b h => hd a b (List.mem_cons_of_mem _ h)
    have fin : ∀ (n : Ir) (r : Except Err (List Ir)), TextPart m src n →
        (∀ ys, r = .ok ys → ∀ x ∈ ys, TextPart m src x) →
        prepend ((textBefore m src pos start ln).1 ++ [n]) r = .ok xs → ∀ x ∈ xs, TextPart m src x := by
      intro n r hn hr hp x hx
      obtain ⟨ys, hy, rfl⟩ := prepend_ok.1 hp
      simp only [List.mem_append, List.mem_singleton] at hx
      rcases hx with (hx | rfl) | hx
      · exact hb x hx
      · exact hn
      · exact hr ys hy x hx
    simp only [textLoop] at h
    cases k with
    | braced =>
      simp only at h
      split at h
      · cases h
      · exact fin _ _ (.expr _ _) (fun ys hy => ih hd' _ _ ys hy) h
    | named t => exact fin _ _ (.expr _ _) (fun ys hy => ih hd' _ _ ys hy) h
    | dollar =>
      exact fin _ _ (.text _ _ (hd _ _ (List.mem_cons_self))) (fun ys hy => ih hd' _ _ ys hy) h

/-- Compiled text consists of parts of the text, and expressions. -/
theorem textSrc_parts {py : PyCompile} {m : TextMode} {src : Str} {ln : Nat} {xs : List Ir}
    (h : compileTextSrc py m src ln = .ok xs) : ∀ x ∈ xs, TextPart m src x :=
  textLoop_parts py m src _ (fun _ _ h => dollars_kind h) _ _ _ h

theorem TextPart.messages {m : TextMode} {src : Str} {x : Ir} (h : TextPart m src x) :
    ∀ t ∈ messages x, m.translate = true ∧ (strip t).isEmpty = false ∧ t <:+: src := by
  cases h with
  | text t l ht =>
    unfold textNode
    split
    · next hc =>
      simp only [Bool.and_eq_true, Bool.not_eq_true', List.isEmpty_eq_false_iff] at hc
      intro u hu
      simp only [Spec.XmlCompile.messages, List.isEmpty_iff, hc.2, if_false, List.mem_singleton] at hu
      subst hu
      exact ⟨hc.1, by simpa using hc.2, ht⟩
    · simp [Spec.XmlCompile.messages]
  | expr t l => simp [exprNode, Spec.XmlCompile.messages]

theorem TextPart.attrsPlain {m : TextMode} {src : Str} {x : Ir} (h : TextPart m src x) :
    attrsPlain x = true := by
  cases h with
  | text t l ht => unfold textNode; split <;> rfl
  | expr t l => rfl

theorem messagesList_mem {xs : List Ir} {t : Str} : t ∈ messagesList xs ↔ ∃ x ∈ xs, t ∈ messages x := by
  induction xs with
  | nil => simp [messagesList]
  | cons x xs ih => simp [messagesList, ih]

theorem attrsPlainList_iff {xs : List Ir} : attrsPlainList xs = true ↔ ∀ x ∈ xs, attrsPlain x = true := by
  induction xs with
  | nil => simp [attrsPlainList]
  | cons x xs ih => simp [attrsPlainList, ih]

/-- Without translation a text has no messages. -/
theorem textSrc_plain {py : PyCompile} {m : TextMode} {src : Str} {ln : Nat} {xs : List Ir}
    (h : compileTextSrc py m src ln = .ok xs) (hm : m.translate = false) : messagesList xs = [] := by
  rw [List.eq_nil_iff_forall_not_mem]
  intro t ht
  obtain ⟨x, hx, ht⟩ := messagesList_mem.1 ht
  have := ((textSrc_parts h x hx).messages t ht).1
  rw [hm] at this
  cases this

theorem unescapeNodes_ok {xs ys : List Ir} (h : unescapeNodes xs = .ok ys) :
    List.Forall₂ (fun x y => unescapeNode x = .ok y) xs ys := by
  induction xs generalizing ys with
  | nil => simp only [unescapeNodes, Except.ok.injEq] at h; subst h; exact .nil
  | cons x xs ih =>
    simp only [unescapeNodes] at h
    split at h
    · cases h
    · next y hy =>
      obtain ⟨zs, hz, rfl⟩ := prepend_ok.1 h
      exact .cons hy (ih hz)

/-- A text or an expression: no message. -/
def isPlain : Ir → Bool
  | .text _ _ _ => true
  | .expr _ _ _ => true
  | _ => false

theorem isPlain_messages {x : Ir} (h : isPlain x = true) : messages x = [] ∧ attrsPlain x = true := by
  cases x <;> first | exact ⟨rfl, rfl⟩ | cases h

theorem isPlain_anno (l : Nat) {x : Ir} (h : isPlain x = true) : isPlain (anno l x) = true := by
  unfold anno
  split
  · cases x <;> first | rfl | cases h
  · exact h

theorem textSrc_isPlain {py : PyCompile} {m : TextMode} {src : Str} {ln : Nat} {xs : List Ir}
    (h : compileTextSrc py m src ln = .ok xs) (hm : m.translate = false) : ∀ x ∈ xs, isPlain x = true := by
  intro x hx
  cases textSrc_parts h x hx with
  | text t l ht => simp [textNode, hm, isPlain]
  | expr t l => rfl

theorem unescapeNode_isPlain {x y : Ir} (h : unescapeNode x = .ok y) (hx : isPlain x = true) :
    isPlain y = true := by
  cases x with
  | text t g l =>
    simp only [unescapeNode] at h
    cases hu : unescape t <;> rw [hu] at h <;> cases h; rfl
  | expr t g l =>
    simp only [unescapeNode] at h
    cases hu : unescape t <;> rw [hu] at h <;> cases h; rfl
  | _ => cases hx

theorem unescapeNodes_isPlain {xs ys : List Ir} (h : unescapeNodes xs = .ok ys)
    (hx : ∀ x ∈ xs, isPlain x = true) : ∀ y ∈ ys, isPlain y = true := by
  have := unescapeNodes_ok h
  clear h
  induction this with
  | nil => simp
  | cons h _ ih =>
    intro z hz
    rcases List.mem_cons.1 hz with rfl | hz
    · exact unescapeNode_isPlain h (hx _ List.mem_cons_self)
    · exact ih (fun x h => hx x (List.mem_cons_of_mem _ h)) z hz

/-! ## Where messages come from -/

/-- All messages satisfy `A`, and no attribute has messages. -/
def Good (A : Str → Prop) (xs : List Ir) : Prop :=
  (∀ t ∈ messagesList xs, A t) ∧ attrsPlainList xs = true

/-- The same for the registered functions. -/
def GoodS (A : Str → Prop) (s : CState) : Prop := ∀ f ∈ s.funs, Good A f.2

/-- The compilation only makes good nodes. -/
def Makes (A : Str → Prop) (m : CM (List Ir)) : Prop :=
  ∀ s, GoodS A s → ∀ xs t, m s = .ok (xs, t) → GoodS A t ∧ Good A xs

variable {A : Str → Prop}

theorem Good.nil : Good A [] := ⟨by simp [messagesList], rfl⟩

theorem Good.append {xs ys : List Ir} (h : Good A xs) (h2 : Good A ys) : Good A (xs ++ ys) := by
  refine ⟨fun t ht => ?_, ?_⟩
  · rw [messagesList_append, List.mem_append] at ht
    exact ht.elim (h.1 t) (h2.1 t)
  · rw [attrsPlainList_append, h.2, h2.2]; rfl

theorem Good.of {xs : List Ir} (h : ∀ x ∈ xs, (∀ t ∈ messages x, A t) ∧ attrsPlain x = true) :
    Good A xs :=
  ⟨fun t ht => by obtain ⟨x, hx, ht⟩ := messagesList_mem.1 ht; exact (h x hx).1 t ht,
    attrsPlainList_iff.2 fun x hx => (h x hx).2⟩

theorem Good.plain {xs : List Ir} (h : ∀ x ∈ xs, isPlain x = true) : Good A xs :=
  .of fun x hx => by rw [(isPlain_messages (h x hx)).1, (isPlain_messages (h x hx)).2]; simp

theorem Good.anno {xs : List Ir} (l : Nat) (h : Good A xs) : Good A (xs.map (anno l)) := by
  refine ⟨fun t ht => ?_, ?_⟩
  · rw [messagesList_anno] at ht; exact h.1 t ht
  · rw [attrsPlainList_anno]; exact h.2

theorem Good.sub {xs ys : List Ir} (h : Good A xs) (hs : ∀ y ∈ ys, y ∈ xs) : Good A ys :=
  ⟨fun t ht => by
    obtain ⟨x, hx, ht⟩ := messagesList_mem.1 ht
    exact h.1 t (messagesList_mem.2 ⟨x, hs x hx, ht⟩),
   attrsPlainList_iff.2 fun x hx => attrsPlainList_iff.1 h.2 x (hs x hx)⟩

/-- One node with a body. -/
theorem Good.wrap {xs : List Ir} {y : Ir} (hm : messages y = messagesList xs)
    (ha : attrsPlain y = attrsPlainList xs) (h : Good A xs) : Good A [y] := by
  refine ⟨fun t ht => ?_, ?_⟩
  · simp only [messagesList, hm, List.append_nil] at ht; exact h.1 t ht
  · simp [attrsPlainList, ha, h.2]

theorem Makes.pure {xs : List Ir} (h : Good A xs) : Makes A (CM.pure xs) := by
  intro s hs ys t he
  rw [pure_ok] at he
  cases he
  exact ⟨hs, h⟩

theorem Makes.throw (e : Err) : Makes A (CM.throw e) := by intro s hs ys t he; cases he

theorem Makes.bind {m : CM (List Ir)} {f : List Ir → CM (List Ir)} (h : Makes A m)
    (hf : ∀ xs, Good A xs → Makes A (f xs)) : Makes A (CM.bind m f) := by
  intro s hs ys t he
  obtain ⟨xs, s1, h1, h2⟩ := bind_ok.1 he
  obtain ⟨g1, g2⟩ := h s hs xs s1 h1
  exact hf xs g2 s1 g1 ys t h2

theorem Makes.lift {x : Except Err α} {f : α → CM (List Ir)} (h : ∀ a, x = .ok a → Makes A (f a)) :
    Makes A (CM.bind (CM.lift x) f) := by
  intro s hs ys t he
  obtain ⟨a, s1, h1, h2⟩ := bind_ok.1 he
  obtain ⟨h3, h4⟩ := lift_ok.1 h1
  simp only at h3 h4
  subst h4
  exact h a h3 s1 hs ys t h2

theorem Makes.get {f : CState → CM (List Ir)} (h : ∀ s, Makes A (f s)) : Makes A (CM.bind CM.get f) := by
  intro s hs ys t he
  exact h s s hs ys t he

theorem Makes.modify {g : CState → CState} {f : Unit → CM (List Ir)} (hg : ∀ s, GoodS A s → GoodS A (g s))
    (h : Makes A (f ())) : Makes A (CM.bind (CM.modify g) f) := by
  intro s hs ys t he
  exact h (g s) (hg s hs) ys t he

theorem Makes.annotate {m : CM (List Ir)} (l : Nat) (h : Makes A m) : Makes A (annotate l m) :=
  Makes.bind h fun _ hx => .pure (hx.anno l)

theorem GoodS.set {s : CState} (h : GoodS A s) (k : Str) {b : List Ir} (hb : Good A b) :
    GoodS A { s with funs := s.funs.set k b } := by
  intro f hf
  rcases Dict.mem_set hf with rfl | h1
  · exact hb
  · exact h f h1

theorem Makes.finishBlock (name : Str) {b : List Ir} (hb : Good A b) : Makes A (finishBlock name b) := by
  unfold Kajiki.finishBlock
  have hb' : Good A (if b.isEmpty then [.pass 0] else b) := by
    split
    · exact ⟨by simp [messagesList, messages], rfl⟩
    · exact hb
  refine .modify (fun s hs => hs.set _ hb') (.get fun s => ?_)
  split
  · refine .lift fun p _ => .modify (fun s hs => hs.set _ ?_) (.pure .nil)
    exact Good.append (xs := [.python p.2 0]) ⟨by simp [messagesList, messages], rfl⟩ hb'
  · exact .pure (.plain (by simp [isPlain]))

theorem Makes.compileDef (decl : Str) {m : CM (List Ir)} (h : Makes A m) :
    Makes A (compileDef decl m) := by
  unfold Kajiki.compileDef
  refine .get fun s => .modify (fun s hs => hs) (.bind h fun b hb => .modify (fun s hs => hs) ?_)
  split
  · exact .pure (.wrap rfl rfl hb)
  · exact .modify (fun s hs => hs.set _ hb) (.pure .nil)

theorem Makes.compileCall (env : CEnv) (f : Str) (kids : List DNode) {m : CM (List Ir)} (h : Makes A m) :
    Makes A (compileCall env f kids m) := by
  unfold Kajiki.compileCall
  exact .lift fun d _ => .bind h fun b hb => .get fun s => .modify (fun s hs => hs)
    (.pure (.wrap rfl rfl hb))

theorem switchBody_sub {xs ys : List Ir} (h : switchBody xs = .ok ys) : ∀ y ∈ ys, y ∈ xs := by
  induction xs generalizing ys with
  | nil => simp only [switchBody, Except.ok.injEq] at h; subst h; simp
  | cons x xs ih =>
    cases x with
    | text t g l =>
      simp only [switchBody] at h
      split at h
      · exact fun y hy => List.mem_cons_of_mem _ (ih h y hy)
      · cases h
    | caseN e b l =>
      obtain ⟨zs, hz, rfl⟩ := prepend_ok.1 h
      intro y hy
      simp only [List.cons_append, List.nil_append, List.mem_cons] at hy ⊢
      exact hy.imp id (ih hz y)
    | elseN b l =>
      obtain ⟨zs, hz, rfl⟩ := prepend_ok.1 h
      intro y hy
      simp only [List.cons_append, List.nil_append, List.mem_cons] at hy ⊢
      exact hy.imp id (ih hz y)
    | _ => cases h

theorem Makes.compileKind (env : CEnv) (ctx : Ctx) (attrs : Dict Str) (kids : List DNode)
    {m : CM (List Ir)} (h : Makes A m) (k : Kind) : Makes A (compileKind env ctx attrs kids m k) := by
  cases k with
  | replace => exact .pure (.plain (by simp [isPlain]))
  | imp => exact .pure ⟨by simp [messagesList, messages, importNode], rfl⟩
  | ext =>
    refine .modify (f := fun _ => CM.bind m fun b => CM.pure (.ext (getAttr attrs "href".toList) 0 :: b))
      (fun s hs => hs) (.bind h fun b hb => .pure ?_)
    exact Good.append (xs := [.ext _ 0]) ⟨by simp [messagesList, messages], rfl⟩ hb
  | incl => exact .pure ⟨by simp [messagesList, messages], rfl⟩
  | block => exact .bind h fun b hb => .finishBlock _ hb
  | defn => exact .compileDef _ h
  | call => exact .compileCall _ _ _ h
  | forK => exact .bind h fun b hb => .pure (.wrap rfl rfl hb)
  | withK => exact .bind h fun b hb => .lift fun vs _ => .pure (.wrap rfl rfl hb)
  | switchK =>
    exact .bind h fun b hb => .lift fun b' hb' => .pure (.wrap rfl rfl (hb.sub (switchBody_sub hb')))
  | caseK => exact .bind h fun b hb => .pure (.wrap rfl rfl hb)
  | ifK => exact .bind h fun b hb => .pure (.wrap rfl rfl hb)
  | elseK => exact .lift fun _ _ => .bind h fun b hb => .pure (.wrap rfl rfl hb)
  | nop => exact h
  | xml => exact .pure .nil
  | broken => exact .throw _
  | endless => exact .throw _

theorem compileAttrs_good {env : CEnv} {g : Option Str} {ln : Nat} {as : List (Str × Str)} {xs : List Ir}
    (h : compileAttrs env g ln as = .ok xs) : Good A xs := by
  induction as generalizing xs with
  | nil => simp only [compileAttrs, Except.ok.injEq] at h; subst h; exact .nil
  | cons kv as ih =>
    obtain ⟨k, v⟩ := kv
    simp only [compileAttrs] at h
    split at h
    · cases h
    · next vs hv =>
      obtain ⟨ys, hy, rfl⟩ := prepend_ok.1 h
      refine .append ?_ (ih hy)
      split
      · exact .nil
      · refine .of fun x hx => ?_
        simp only [List.mem_singleton] at hx
        subst hx
        simp [messages, attrsPlain, textSrc_plain hv rfl]

theorem Makes.compileXml (env : CEnv) (tag : Str) (attrs : Dict Str) (ln : Nat) (e : Bool)
    {m : CM (List Ir)} (h : Makes A m) : Makes A (compileXml env tag attrs ln e m) := by
  unfold Kajiki.compileXml
  have hb : Makes A (compileBody env tag attrs (stripGuard attrs) e m) := by
    unfold compileBody
    simp only
    split
    · split
      · exact .pure (.plain (by simp [isPlain]))
      · refine .bind h fun ks hk => .pure ?_
        refine Good.append (xs := .text _ _ 0 :: ks)
          (Good.append (xs := [.text _ _ 0]) (.plain (by simp [isPlain])) hk) ?_
        unfold fullEnd
        split
        · exact .nil
        · exact .plain (by simp [isPlain])
    · exact .pure (.plain (by simp [isPlain]))
  refine .lift fun as has => .bind hb fun ks hk => .pure ?_
  refine .append (xs := .text _ _ 0 :: as ++ attrsNode env _ attrs) (.append
    (Good.append (xs := [.text _ _ 0]) (.plain (by simp [isPlain])) (compileAttrs_good has)) ?_) hk
  unfold attrsNode
  simp only
  split
  · exact .nil
  · exact ⟨by simp [messagesList, messages], rfl⟩

theorem Makes.compileText (env : CEnv) (parent : Option Str) (d : Str) (l : Nat)
    (h : ∀ p, parent = some p → cdataTags.contains p = false →
      ∀ t, t <:+: d → (strip t).isEmpty = false → A t) : Makes A (compileText env parent d l) := by
  unfold Kajiki.compileText
  cases parent with
  | none => exact .throw _
  | some p =>
    intro s hs xs t he
    obtain ⟨ys, h1, rfl⟩ := annotate_ok.1 he
    obtain ⟨h2, h3⟩ := lift_ok.1 h1
    simp only at h2 h3 ⊢
    subst h3
    refine ⟨hs, Good.anno l (.of fun x hx => ⟨fun u hu => ?_, (textSrc_parts h2 x hx).attrsPlain⟩)⟩
    obtain ⟨a, b, c⟩ := (textSrc_parts h2 x hx).messages u hu
    exact h p rfl (by simpa using a) u c b

theorem Makes.compileScript (env : CEnv) (tag : Str) (ht : cdataTags.contains tag = true)
    (kids : List DNode) : Makes A (compileScript env tag kids) := by
  induction kids with
  | nil => exact .pure .nil
  | cons k kids ih =>
    cases k with
    | cdata d l => exact ih
    | text d e l =>
      intro s hs xs t he
      simp only [Kajiki.compileScript] at he
      obtain ⟨ys, s1, h1, h2⟩ := bind_ok.1 he
      obtain ⟨y2, s2, h3, h4⟩ := bind_ok.1 h2
      obtain ⟨h5, h6⟩ := lift_ok.1 h3
      obtain ⟨zs, s3, h7, h8⟩ := bind_ok.1 h4
      simp only at h5 h6
      subst h6
      obtain ⟨w, h9, h10⟩ := annotate_ok.1 h1
      obtain ⟨h11, h12⟩ := lift_ok.1 h9
      simp only at h10 h11 h12
      subst h12
      have hp : ∀ x ∈ w, isPlain x = true :=
        textSrc_isPlain h11 (by show (!cdataTags.contains tag) = false; rw [ht]; rfl)
      have hp2 : ∀ x ∈ ys, isPlain x = true := by
        subst h10
        intro x hx
        obtain ⟨y, hy, rfl⟩ := List.mem_map.1 hx
        exact isPlain_anno l (hp y hy)
      have hp3 : ∀ x ∈ y2, isPlain x = true := by
        split at h5
        · exact unescapeNodes_isPlain h5 hp2
        · cases h5; exact hp2
      cases (pure_ok.1 h8)
      obtain ⟨g1, g2⟩ := ih _ hs _ _ h7
      exact ⟨g1, .append (.plain hp3) g2⟩
    | _ => exact .throw _

theorem Makes.scriptKids (env : CEnv) (tag : Str) (ht : cdataTags.contains tag = true)
    (kids : List DNode) : Makes A (scriptKids env tag kids) := by
  refine .bind (.compileScript env tag ht kids) fun ks hk => .pure (.append (.append ?_ hk) ?_)
  all_goals
    unfold scriptMark
    split
    · exact .plain (by simp [isPlain])
    · exact .nil

/-- The texts that may be translated satisfy `A`. -/
def Sources (A : Str → Prop) (ts : List (Str × Str)) : Prop :=
  ∀ pd ∈ ts, cdataTags.contains pd.1 = false → ∀ t, t <:+: pd.2 → (strip t).isEmpty = false → A t

theorem Sources.left {a b : List (Str × Str)} (h : Sources A (a ++ b)) : Sources A a :=
  fun pd hp => h pd (List.mem_append_left _ hp)

theorem Sources.right {a b : List (Str × Str)} (h : Sources A (a ++ b)) : Sources A b :=
  fun pd hp => h pd (List.mem_append_right _ hp)

mutual
theorem node_makes (env : CEnv) (ctx : Ctx) (p : Str) (hp : ∀ q, ctx.parent = some q → q = p) (x : DNode)
    (h : Sources A (parentTexts p x)) : Makes A (compileNode env ctx x) := by
  cases x with
  | comment d ln =>
    simp only [compileNode]
    refine .annotate ln (.pure ?_)
    unfold compileComment
    split
    · exact .nil
    · exact .plain (by simp [isPlain])
  | text d e ln =>
    simp only [compileNode]
    exact .compileText env _ d ln fun q hq hc t ht hs =>
      h (p, d) (by simp [parentTexts]) (hp q hq ▸ hc) t ht hs
  | cdata d ln =>
    simp only [compileNode]
    exact .compileText env _ d ln fun q hq hc t ht hs =>
      h (p, d) (by simp [parentTexts]) (hp q hq ▸ hc) t ht hs
  | pi tg d ln =>
    simp only [compileNode]
    refine .annotate ln (.lift fun p _ => ?_)
    split
    · exact .modify (fun s hs => hs) (.pure .nil)
    · exact .pure ⟨by simp [messagesList, messages], rfl⟩
  | elem tag attrs ln kids =>
    simp only [compileNode]
    refine .lift fun auto _ => ?_
    have hk : ∀ raw, Makes A (compileKids env raw (some tag) (auto.2.has "py:switch".toList) [] kids) :=
      fun raw => kids_makes env raw (some tag) _ [] tag (fun q hq => by cases hq; rfl) kids
        (by simpa only [parentTexts] using h)
    split
    · exact .annotate ln (.bind (.annotate ln (hk false)) fun b hb => .finishBlock _ hb)
    · split
      · refine .annotate ln (.compileXml _ _ _ _ _ ?_)
        split
        · next hs =>
          simp only [isScript, Bool.and_eq_true] at hs
          exact .scriptKids env tag hs.2 kids
        · exact hk true
      · exact .annotate ln (.compileKind _ _ _ _ (.annotate ln (hk false)) _)

theorem kids_makes (env : CEnv) (raw : Bool) (parent : Option Str) (sw : Bool) (prev : Str) (p : Str)
    (hp : ∀ q, parent = some q → q = p) (xs : List DNode) (h : Sources A (parentTextsList p xs)) :
    Makes A (compileKids env raw parent sw prev xs) := by
  cases xs with
  | nil => simp only [compileKids]; exact .pure .nil
  | cons x xs =>
    simp only [parentTextsList] at h
    have h2 := fun pr => kids_makes env raw parent sw pr p hp xs h.right
    cases x with
    | cdata d ln =>
      simp only [compileKids]
      refine .bind ?_ fun ys hy => .bind (h2 _) fun zs hz => .pure (hy.append hz)
      split
      · exact .pure (.plain (by simp [isPlain]))
      · exact .compileText env _ d ln fun q hq hc t ht hs =>
          h.left (p, d) (by simp [parentTexts]) (hp q hq ▸ hc) t ht hs
    | _ =>
      simp only [compileKids]
      exact .bind (node_makes env _ p hp _ h.left) fun ys hy => .bind (h2 _) fun zs hz =>
        .pure (hy.append hz)
end

end Kajiki.XmlComp
