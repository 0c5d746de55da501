import Verif.Spec.Lines
import Verif.Lemmas.Extract
import Verif.Lemmas.XmlKeeps

/-!
# Lines of extracted messages
-/

namespace Kajiki.LinesL
open Kajiki.Spec.Lines Kajiki.Spec.XmlText Kajiki.XmlComp Kajiki.ExtractL Kajiki.DocComp

variable {α β : Type} {P : Nat → Str → Prop}

/-- The messages in the code have a line and the property. -/
def Fine (P : Nat → Str → Prop) (xs : List Ir) : Prop := ∀ ln m, (ln, Read.message m) ∈ readsList xs → ln ≠ 0 ∧ P ln m

theorem fine_nil : Fine P [] := by intro ln m h; simp [readsList] at h

theorem fine_cons {x : Ir} {xs : List Ir} : Fine P (x :: xs) ↔ Fine P [x] ∧ Fine P xs := by
  unfold Fine
  simp only [readsList, List.append_nil, List.mem_append]
  exact ⟨fun h => ⟨fun ln m k => h ln m (.inl k), fun ln m k => h ln m (.inr k)⟩,
    fun h ln m k => k.elim (h.1 ln m) (h.2 ln m)⟩

theorem fine_append {xs ys : List Ir} : Fine P (xs ++ ys) ↔ Fine P xs ∧ Fine P ys := by
  induction xs with
  | nil => exact ⟨fun h => ⟨fine_nil, h⟩, fun h => h.2⟩
  | cons x xs ih =>
    rw [List.cons_append, fine_cons, ih, fine_cons (xs := xs)]
    exact and_assoc.symm

theorem fine_iff {xs : List Ir} : Fine P xs ↔ ∀ x ∈ xs, Fine P [x] := by
  induction xs with
  | nil => exact ⟨fun _ x h => by simp at h, fun _ => fine_nil⟩
  | cons x xs ih => rw [fine_cons, ih]; simp

/-- A node that is no message and has no parts. -/
theorem fine_plain {x : Ir} (h : ∀ ln m, (ln, Read.message m) ∉ reads x) : Fine P [x] := by
  intro ln m k
  simp only [readsList, List.append_nil] at k
  exact absurd k (h ln m)

theorem fine_text (t : Str) (g : Option Str) (l : Nat) : Fine P [.text t g l] := fine_plain (by simp [reads])
theorem fine_expr (c : Str) (s : Bool) (l : Nat) : Fine P [.expr c s l] := fine_plain (by simp [reads])
theorem fine_python (c : List Str) (l : Nat) : Fine P [.python c l] := fine_plain (by simp [reads])

/-- A node around code. -/
theorem fine_around {x : Ir} {b : List Ir} (h : reads x = readsList b) (hb : Fine P b) : Fine P [x] := by
  intro ln m k
  simp only [readsList, List.append_nil, h] at k
  exact hb ln m k

theorem fine_anno {l : Nat} {x : Ir} (h : Fine P [x]) : Fine P [anno l x] := by
  unfold anno
  split
  case isFalse => exact h
  case isTrue h0 =>
    cases x with
    | trans t ln =>
      simp only [Ir.ln] at h0
      subst h0
      refine fine_plain fun ln m k => ?_
      have := h 0 t
      simp only [Ir.setLn, reads] at k
      split at k
      · simp at k
      · next hs => exact (this (by simp [readsList, reads, hs])).1 rfl
    | expr c s ln => exact fine_expr _ _ _
    | _ => intro ln m k; refine h ln m ?_; simpa only [readsList, reads, Ir.setLn] using k

theorem fine_map_anno {l : Nat} {xs : List Ir} (h : Fine P xs) : Fine P (xs.map (anno l)) := by
  rw [fine_iff] at h ⊢
  intro x hx
  obtain ⟨y, hy, rfl⟩ := List.mem_map.1 hx
  exact fine_anno (h y hy)

/-- All functions are fine. -/
def All (P : Nat → Str → Prop) (d : Dict (List Ir)) : Prop := ∀ f ∈ d, Fine P f.2

theorem All.set {d : Dict (List Ir)} (h : All P d) (k : Str) {v : List Ir} (hv : Fine P v) : All P (d.set k v) := by
  intro f hf
  rcases Dict.mem_set hf with rfl | hf
  · exact hv
  · exact h f hf

/-- Compiling gives something with `Q`, if the functions are fine, and keeps that. -/
def Gives (P : Nat → Str → Prop) (Q : α → Prop) (m : CM α) : Prop :=
  ∀ s, All P s.funs → ∀ a t, m s = .ok (a, t) → Q a ∧ All P t.funs

variable {Q : α → Prop} {R : β → Prop}

theorem Gives.pure {a : α} (h : Q a) : Gives P Q (CM.pure a) := by
  intro s hs b t k; cases pure_ok.1 k; exact ⟨h, hs⟩
theorem Gives.throw (e : Err) : Gives P Q (CM.throw e : CM α) := by intro s hs b t h; cases h
theorem Gives.lift {x : Except Err α} (h : ∀ a, x = .ok a → Q a) : Gives P Q (CM.lift x) := by
  intro s hs b t k
  obtain ⟨h1, h2⟩ := lift_ok.1 k
  simp only at h2; subst h2; exact ⟨h b h1, hs⟩
theorem Gives.any (x : Except Err α) : Gives P (fun _ => True) (CM.lift x) := .lift fun _ _ => trivial
theorem Gives.get : Gives P (fun _ => True) CM.get := by intro s hs b t h; cases h; exact ⟨trivial, hs⟩
theorem Gives.bind {m : CM α} {f : α → CM β} (h : Gives P Q m) (hf : ∀ a, Q a → Gives P R (f a)) :
    Gives P R (CM.bind m f) := by
  intro s hs b t he
  obtain ⟨a, s1, h1, h2⟩ := bind_ok.1 he
  obtain ⟨k1, k2⟩ := h s hs a s1 h1
  exact hf a k1 s1 k2 b t h2
theorem Gives.mod {g : CState → CState} {f : Unit → CM β} (hg : ∀ s, All P s.funs → All P (g s).funs)
    (h : Gives P R (f ())) : Gives P R (CM.bind (CM.modify g) f) :=
  fun s hs b t he => h (g s) (hg s hs) b t he
theorem Gives.annotate (l : Nat) {m : CM (List Ir)} (h : Gives P (Fine P) m) : Gives P (Fine P) (annotate l m) :=
  h.bind fun _ k => .pure (fine_map_anno k)

theorem Gives.finishBlock (name : Str) {b : List Ir} (hb : Fine P b) : Gives P (Fine P) (finishBlock name b) := by
  unfold Kajiki.finishBlock
  have hb' : Fine P (if b.isEmpty then [.pass 0] else b) := by
    split
    · exact fine_plain (by simp [reads])
    · exact hb
  refine .mod (fun s hs => hs.set _ hb') (Gives.get.bind fun s _ => ?_)
  split
  · exact (Gives.any _).bind fun p _ => .mod (fun s hs => hs.set _ (fine_cons.2 ⟨fine_python _ _, hb'⟩)) (.pure fine_nil)
  · exact .pure (fine_expr _ _ _)

theorem fine_switch {b c : List Ir} (h : switchBody b = .ok c) (hb : Fine P b) : Fine P c := by
  induction b generalizing c with
  | nil => cases h; exact fine_nil
  | cons x xs ih =>
    rw [fine_cons] at hb
    have pre : ∀ {y : Ir}, prepend [y] (switchBody xs) = .ok c → Fine P [y] → Fine P c := by
      intro y k hy
      cases hs : switchBody xs with
      | error e => rw [hs] at k; cases k
      | ok d =>
        rw [hs] at k
        cases k
        exact fine_append.2 ⟨hy, ih hs hb.2⟩
    cases x with
    | text t g l =>
      simp only [switchBody] at h
      split at h
      · exact ih h hb.2
      · cases h
    | caseN e b l => simp only [switchBody] at h; exact pre h hb.1
    | elseN b l => simp only [switchBody] at h; exact pre h hb.1
    | _ => simp [switchBody] at h

theorem Gives.kind (env : CEnv) (ctx : Ctx) (attrs : Dict Str) (kids : List DNode) {m : CM (List Ir)}
    (h : Gives P (Fine P) m) (k : Kind) : Gives P (Fine P) (compileKind env ctx attrs kids m k) := by
  cases k with
  | replace => exact .pure (fine_expr _ _ _)
  | imp => exact .pure (fine_plain (by simp [reads, importNode]))
  | incl => exact .pure (fine_plain (by simp [reads]))
  | ext =>
    exact .mod (g := fun s => { s with isChild := true }) (f := fun _ => CM.bind m fun b => CM.pure (.ext (getAttr attrs "href".toList) 0 :: b))
      (fun s hs => hs) (h.bind fun b hb => .pure (fine_cons.2 ⟨fine_plain (by simp [reads]), hb⟩))
  | block => exact h.bind fun b hb => .finishBlock _ hb
  | defn =>
    unfold compileKind compileDef
    refine Gives.get.bind fun s _ => .mod (fun s hs => hs) (h.bind fun b hb => .mod (fun s hs => hs) ?_)
    split
    · exact .pure (fine_around (by simp only [reads]) hb)
    · exact .mod (fun s hs => hs.set _ hb) (.pure fine_nil)
  | call =>
    exact (Gives.any _).bind fun _ _ => h.bind fun b hb => Gives.get.bind fun s _ => .mod (fun s hs => hs)
      (.pure (fine_around (by simp only [reads]) hb))
  | forK => exact h.bind fun b hb => .pure (fine_around (by simp only [reads]) hb)
  | withK => exact h.bind fun b hb => (Gives.any _).bind fun _ _ => .pure (fine_around (by simp only [reads]) hb)
  | switchK =>
    exact h.bind fun b hb => (Gives.lift (Q := Fine P) fun c hc => fine_switch hc hb).bind fun _ hc =>
      .pure (fine_around (by simp only [reads]) hc)
  | caseK => exact h.bind fun b hb => .pure (fine_around (by simp only [reads]) hb)
  | ifK => exact h.bind fun b hb => .pure (fine_around (by simp only [reads]) hb)
  | elseK => exact (Gives.any _).bind fun _ _ => h.bind fun b hb => .pure (fine_around (by simp only [reads]) hb)
  | nop => exact h
  | broken => exact .throw _
  | endless => exact .throw _
  | xml => exact .pure fine_nil

/-- A text or CDATA section whose messages are fine. -/
def Ok (py : PyCompile) (P : Nat → Str → Prop) (p : Str × Nat) : Prop :=
  ∀ xs, compileTextSrc py ⟨true, false⟩ p.1 p.2 = .ok xs → ∀ ln m, Ir.trans m ln ∈ xs → ln ≠ 0 ∧ P ln m

theorem fine_pieces {m : TextMode} {as : List (Str ⊕ Str)} {xs : List Ir} (h : List.Forall₂ (PieceNode m) as xs)
    (hm : ∀ ln t, Ir.trans t ln ∈ xs → ln ≠ 0 ∧ P ln t) : Fine P xs := by
  rw [fine_iff]
  intro x hx
  have : (∃ t l, x = textNode m t l) ∨ ∃ e l, x = .expr e m.safe l :=
    forall₂_right (Q := fun x => (∃ t l, x = textNode m t l) ∨ ∃ e l, x = .expr e m.safe l) h
      (fun a x k => by cases a with
        | inl t => obtain ⟨l, rfl⟩ := k; exact .inl ⟨t, l, rfl⟩
        | inr e => obtain ⟨l, rfl⟩ := k; exact .inr ⟨e, l, rfl⟩) x hx
  rcases this with ⟨t, l, rfl⟩ | ⟨e, l, rfl⟩
  · unfold textNode at hx ⊢
    split at hx
    · next hs =>
      rw [if_pos hs]
      intro ln u k
      simp only [readsList, reads, List.append_nil] at k
      split at k
      · simp at k
      · simp only [List.mem_singleton, Prod.mk.injEq, Read.message.injEq] at k
        obtain ⟨rfl, rfl⟩ := k
        exact hm _ _ hx
    · next hs => rw [if_neg hs]; exact fine_text _ _ _
  · exact fine_expr _ _ _

theorem no_trans {m : TextMode} (hm : m.translate = false) {as : List (Str ⊕ Str)} {xs : List Ir}
    (h : List.Forall₂ (PieceNode m) as xs) (ln : Nat) (t : Str) : Ir.trans t ln ∉ xs := by
  intro hx
  have : ∀ u l, Ir.trans t ln ≠ textNode m u l := by intro u l; unfold textNode; simp [hm]
  refine forall₂_right (Q := fun x => x ≠ Ir.trans t ln) h (fun a x k => ?_) _ hx rfl
  cases a with
  | inl u => obtain ⟨l, rfl⟩ := k; exact (this u l).symm
  | inr e => obtain ⟨l, rfl⟩ := k; nofun

theorem fine_off {py : PyCompile} {m : TextMode} (hm : m.translate = false) {d : Str} {l : Nat} {xs : List Ir}
    (h : compileTextSrc py m d l = .ok xs) : Fine P xs :=
  have := text_pieces h
  fine_pieces this fun _ _ k => absurd k (no_trans hm this _ _)

theorem Gives.text {env : CEnv} {d : Str} {l : Nat} (h : Ok env.py P (d, l)) (p : Option Str) :
    Gives P (Fine P) (compileText env p d l) := by
  unfold compileText
  cases p with
  | none => exact .throw _
  | some p =>
    refine .annotate _ (.lift fun xs hx => ?_)
    cases hp : cdataTags.contains p with
    | false => rw [hp] at hx; exact fine_pieces (text_pieces hx) fun ln m => h xs hx ln m
    | true => rw [hp] at hx; exact fine_off rfl hx

theorem fine_attrs {env : CEnv} {g : Option Str} {ln : Nat} {as : List (Str × Str)} {xs : List Ir}
    (h : compileAttrs env g ln as = .ok xs) : Fine P xs := by
  induction as generalizing xs with
  | nil => cases h; exact fine_nil
  | cons a as ih =>
    obtain ⟨k, v⟩ := a
    simp only [compileAttrs] at h
    cases hv : compileTextSrc env.py ⟨false, true⟩ v ln with
    | error e => rw [hv] at h; cases h
    | ok vs =>
      rw [hv] at h
      cases hs : compileAttrs env g ln as with
      | error e => rw [hs] at h; cases h
      | ok ys =>
        rw [hs] at h
        cases h
        refine fine_append.2 ⟨?_, ih hs⟩
        split
        · exact fine_nil
        · exact fine_around (by simp only [reads]) (fine_off rfl hv)

/-- A node that is text not to be translated, or an expression. -/
def Bare (x : Ir) : Prop := (∃ t g l, x = .text t g l) ∨ ∃ e s l, x = .expr e s l

theorem bare_fine {xs : List Ir} (h : ∀ x ∈ xs, Bare x) : Fine P xs := by
  rw [fine_iff]
  intro x hx
  rcases h x hx with ⟨t, g, l, rfl⟩ | ⟨e, s, l, rfl⟩
  · exact fine_text _ _ _
  · exact fine_expr _ _ _

theorem bare_anno {l : Nat} {x : Ir} (h : Bare x) : Bare (anno l x) := by
  unfold anno
  split
  · rcases h with ⟨t, g, l, rfl⟩ | ⟨e, s, l, rfl⟩
    · exact .inl ⟨_, _, _, rfl⟩
    · exact .inr ⟨_, _, _, rfl⟩
  · exact h

theorem bare_unescaped {xs ys : List Ir} (h : unescapeNodes xs = .ok ys) (hx : ∀ x ∈ xs, Bare x) : ∀ y ∈ ys, Bare y := by
  induction xs generalizing ys with
  | nil => cases h; simp
  | cons x xs ih =>
    simp only [unescapeNodes] at h
    cases hu : unescapeNode x with
    | error e => rw [hu] at h; cases h
    | ok y =>
      rw [hu] at h
      cases hs : unescapeNodes xs with
      | error e => rw [hs] at h; cases h
      | ok zs =>
        rw [hs] at h
        cases h
        intro z hz
        rcases List.mem_cons.1 hz with rfl | hz
        · rcases hx x List.mem_cons_self with ⟨t, g, l, rfl⟩ | ⟨e, s, l, rfl⟩
          · simp only [unescapeNode] at hu
            cases ht : unescape t with
            | error e => rw [ht] at hu; cases hu
            | ok t => rw [ht] at hu; cases hu; exact .inl ⟨_, _, _, rfl⟩
          · simp only [unescapeNode] at hu
            cases ht : unescape e with
            | error e => rw [ht] at hu; cases hu
            | ok t => rw [ht] at hu; cases hu; exact .inr ⟨_, _, _, rfl⟩
        · exact ih hs (fun x k => hx x (List.mem_cons_of_mem _ k)) z hz

theorem bare_pieces {m : TextMode} (hm : m.translate = false) {as : List (Str ⊕ Str)} {xs : List Ir}
    (h : List.Forall₂ (PieceNode m) as xs) : ∀ x ∈ xs, Bare x :=
  forall₂_right h fun a x k => by
    cases a with
    | inl t => obtain ⟨l, rfl⟩ := k; exact .inl ⟨t, none, l, by simp [textNode, hm]⟩
    | inr e => obtain ⟨l, rfl⟩ := k; exact .inr ⟨_, _, _, rfl⟩

theorem Gives.script (env : CEnv) {tag : Str} (ht : cdataTags.contains tag = true) (kids : List DNode) :
    Gives P (Fine P) (compileScript env tag kids) := by
  induction kids with
  | nil => exact .pure fine_nil
  | cons k kids ih =>
    cases k with
    | cdata d l => exact ih
    | text d e l =>
      have h1 : Gives P (fun xs => ∀ x ∈ xs, Bare x) (compileText env (some tag) d l) := by
        unfold compileText
        dsimp only
        rw [ht]
        refine (Gives.lift (Q := fun xs => ∀ x ∈ xs, Bare x) fun xs hx => bare_pieces rfl (text_pieces hx)).bind
          fun xs hx => .pure fun x k => ?_
        obtain ⟨y, hy, rfl⟩ := List.mem_map.1 k
        exact bare_anno (hx y hy)
      refine h1.bind fun ys hy => (Gives.lift (Q := Fine P) fun zs hz => ?_).bind fun zs hz => ih.bind fun ws hw =>
        .pure (fine_append.2 ⟨hz, hw⟩)
      split at hz
      · exact bare_fine (bare_unescaped hz hy)
      · cases hz; exact bare_fine hy
    | _ => exact .throw _

theorem Gives.xml (env : CEnv) (tag : Str) (attrs : Dict Str) (ln : Nat) (e : Bool) {m : CM (List Ir)}
    (h : Gives P (Fine P) m) : Gives P (Fine P) (compileXml env tag attrs ln e m) := by
  unfold compileXml
  refine (Gives.lift (Q := Fine P) fun xs hx => fine_attrs hx).bind fun as ha =>
    Gives.bind (Q := Fine P) ?_ fun ks hk => .pure ?_
  · unfold compileBody
    simp only
    split
    · split
      · exact .pure (fine_text _ _ _)
      · refine h.bind fun ks hk => .pure ?_
        rw [List.cons_append, fine_cons, fine_append]
        refine ⟨fine_text _ _ _, hk, ?_⟩
        unfold fullEnd
        split
        · exact fine_nil
        · exact fine_text _ _ _
    · exact .pure (fine_cons.2 ⟨fine_text _ _ _, fine_cons.2 ⟨fine_expr _ _ _, fine_text _ _ _⟩⟩)
  · rw [List.cons_append, List.cons_append, fine_cons, fine_append, fine_append]
    refine ⟨fine_text _ _ _, ⟨ha, ?_⟩, hk⟩
    unfold attrsNode
    simp only
    split
    · exact fine_nil
    · exact fine_plain (by simp [reads])

theorem fine_mark (mode : Str) (s : String) : Fine P (scriptMark mode s) := by
  unfold scriptMark
  split
  · exact fine_text _ _ _
  · exact fine_nil

mutual
theorem node_gives (env : CEnv) (ctx : Ctx) (x : DNode) (hx : ∀ p ∈ texts x, Ok env.py P p) :
    Gives P (Fine P) (compileNode env ctx x) := by
  cases x with
  | comment d ln =>
    simp only [compileNode]
    refine .annotate _ (.pure ?_)
    unfold compileComment
    split
    · exact fine_nil
    · exact fine_text _ _ _
  | text d e ln => simp only [compileNode]; exact .text (hx _ (by simp [texts])) _
  | cdata d ln => simp only [compileNode]; exact .text (hx _ (by simp [texts])) _
  | pi tg d ln =>
    simp only [compileNode]
    refine .annotate _ ((Gives.any _).bind fun p _ => ?_)
    split
    · exact .mod (fun s hs => hs) (.pure fine_nil)
    · exact .pure (fine_python _ _)
  | elem tag attrs ln kids =>
    simp only [compileNode]
    refine (Gives.any _).bind fun a _ => ?_
    rw [texts] at hx
    have hk := fun raw => kids_gives env raw (some tag) (a.2.has "py:switch".toList) [] kids hx
    split
    · exact .annotate _ ((Gives.annotate _ (hk false)).bind fun b hb => .finishBlock _ hb)
    · split
      · refine .annotate _ (.xml _ _ _ _ _ ?_)
        split
        · next hs =>
          refine (Gives.script _ (by unfold isScript at hs; exact (Bool.and_eq_true_iff.1 hs).2) _).bind fun ks hk => .pure ?_
          exact fine_append.2 ⟨fine_append.2 ⟨fine_mark _ _, hk⟩, fine_mark _ _⟩
        · exact hk true
      · exact .annotate _ (.kind _ _ _ _ (.annotate _ (hk false)) _)

theorem kids_gives (env : CEnv) (raw : Bool) (p : Option Str) (sw : Bool) (prev : Str)
    (xs : List DNode) (hx : ∀ p ∈ textsList xs, Ok env.py P p) : Gives P (Fine P) (compileKids env raw p sw prev xs) := by
  cases xs with
  | nil => simp only [compileKids]; exact .pure fine_nil
  | cons x xs =>
    rw [textsList] at hx
    have h1 : ∀ p ∈ texts x, Ok env.py P p := fun p k => hx p (List.mem_append_left _ k)
    have h2 : ∀ p ∈ textsList xs, Ok env.py P p := fun p k => hx p (List.mem_append_right _ k)
    cases x with
    | cdata d ln =>
      simp only [compileKids]
      refine Gives.bind (Q := Fine P) ?_ fun ys hy => (kids_gives env raw p sw _ xs h2).bind fun zs hz =>
        .pure (fine_append.2 ⟨hy, hz⟩)
      split
      · exact .pure (fine_text _ _ _)
      · exact .text (h1 _ (by simp [texts])) _
    | _ =>
      simp only [compileKids]
      exact (node_gives env _ _ h1).bind fun ys hy => (kids_gives env raw p sw _ xs h2).bind fun zs hz =>
        .pure (fine_append.2 ⟨hy, hz⟩)
end

theorem texts_mem {x : DNode} {xs : List DNode} (h : x ∈ xs) : ∀ p ∈ texts x, p ∈ textsList xs := by
  induction xs with
  | nil => cases h
  | cons y ys ih =>
    intro p hp
    rw [textsList]
    rcases List.mem_cons.1 h with rfl | h
    · exact List.mem_append_left _ hp
    · exact List.mem_append_right _ (ih h p hp)

theorem doc_fine {env : CEnv} {doc : Doc} {u : Tmpl} (h : compileDoc env doc = .ok u)
    (hx : ∀ p ∈ textsList doc.kids, Ok env.py P p) : ∀ d ∈ u.defs, Fine P d.body := by
  unfold compileDoc at h
  split at h
  · next root hr =>
    have hm : root ∈ doc.kids := List.mem_of_mem_filter (p := fun n => !isComment n) (by rw [hr]; simp)
    split at h
    · cases h
    · next body s hc =>
      cases h
      have start : All P CState.start.funs := by
        intro f hf
        simp only [CState.start, List.mem_singleton] at hf
        subst hf
        exact fine_nil
      obtain ⟨h1, h2⟩ := node_gives env _ root (fun p k => hx p (texts_mem hm p k)) _ start _ _ hc
      have hb : Fine P (if !env.opts.isFragment && !s.isChild then doctypeNode env.mode doc.dtd ++ body else body) := by
        split
        · refine fine_append.2 ⟨?_, h1⟩
          unfold doctypeNode
          split
          · exact fine_text _ _ _
          · split
            · exact fine_text _ _ _
            · exact fine_nil
        · exact h1
      intro d hd
      obtain ⟨f, hf, rfl⟩ := List.mem_map.1 hd
      exact h2.set mainDecl hb f hf
  · cases h

/-- What is read as message comes from a text. -/
theorem messages_fine {env : CEnv} {doc : Doc} {u : Tmpl} (h : compileDoc env doc = .ok u)
    (hx : ∀ p ∈ textsList doc.kids, Ok env.py P p) {ln : Nat} {m : Str} (hm : (ln, m) ∈ extractTmpl u) : P ln m := by
  rw [extractTmpl_reads] at hm
  obtain ⟨⟨ln', r⟩, h1, h2⟩ := List.mem_filterMap.1 hm
  cases r with
  | expression e => cases h2
  | message t =>
    cases h2
    obtain ⟨d, hd, hr⟩ := List.mem_flatMap.1 h1
    exact (doc_fine h hx d hd _ _ hr).2

/-! ## Lines within a text -/

theorem line_ge {py : PyCompile} {m : TextMode} {src : Str} {ms : List (Nat × Nat × DKind)} {pos ln : Nat} {xs : List Ir}
    (h : textLoop py m src pos ln ms = .ok xs) : ∀ x ∈ xs, ln ≤ x.ln := by
  have ht : ∀ t l, (textNode m t l).ln = l := by intro t l; unfold textNode; split <;> rfl
  have hb : ∀ pos start, ∀ x ∈ (textBefore m src pos start ln).1, ln ≤ x.ln := by
    intro pos start x hx
    unfold textBefore at hx
    split at hx
    · simp only [List.mem_singleton] at hx; subst hx; exact Nat.le_of_eq (ht _ _).symm
    · simp at hx
  induction ms generalizing pos ln xs with
  | nil =>
    simp only [textLoop, Except.ok.injEq] at h
    subst h
    intro x hx
    split at hx
    · simp only [List.mem_singleton] at hx; subst hx; exact Nat.le_of_eq (ht _ _).symm
    · simp at hx
  | cons q ms ih =>
    obtain ⟨start, stop, k⟩ := q
    have step : ∀ {y : Ir} {pos' ln' : Nat}, ln ≤ y.ln → ln ≤ ln' →
        prepend ((textBefore m src pos start ln).1 ++ [y]) (textLoop py m src pos' ln' ms) = .ok xs → ∀ x ∈ xs, ln ≤ x.ln := by
      intro y pos' ln' hy hl k x hx
      cases hs : textLoop py m src pos' ln' ms with
      | error e => rw [hs] at k; cases k
      | ok zs =>
        rw [hs] at k
        cases k
        rcases List.mem_append.1 hx with hx | hx
        · rcases List.mem_append.1 hx with hx | hx
          · exact hb _ _ x hx
          · simp only [List.mem_singleton] at hx; subst hx; exact hy
        · refine Nat.le_trans hl (ih hs ?_ x hx)
          intro pos start x hx
          unfold textBefore at hx
          split at hx
          · simp only [List.mem_singleton] at hx; subst hx; exact Nat.le_of_eq (ht _ _).symm
          · simp at hx
    simp only [textLoop] at h
    cases k with
    | braced =>
      simp only at h
      split at h
      · cases h
      · exact step (Nat.le_add_right _ _) (by omega) h
    | named t => exact step (Nat.le_add_right _ _) (by omega) h
    | dollar => exact step (by rw [ht]; exact Nat.le_add_right _ _) (by omega) h

theorem countNL_append (a b : Str) : countNL (a ++ b) = countNL a + countNL b := by
  simp [countNL]

theorem source_cons (p : Piece) (ps : List Piece) : source (p :: ps) = p.source ++ source ps := by simp [source]

theorem wellCut_space {py : PyCompile} {ps : List Piece} (h : WellCut py ps) {ws e : Str} (hm : Piece.expr ws e ∈ ps) :
    ∀ c ∈ ws, isSpace c = true := by
  induction ps with
  | nil => cases hm
  | cons p ps ih =>
    rcases List.mem_cons.1 hm with rfl | hm
    · exact h.2.1
    · exact ih h.1 hm

theorem lost_zero {ps : List Piece} (h : ∀ ws e, Piece.expr ws e ∈ ps → '\n' ∉ ws) : lost ps = 0 := by
  induction ps with
  | nil => rfl
  | cons p ps ih =>
    have h' := ih fun ws e k => h ws e (List.mem_cons_of_mem _ k)
    cases p with
    | expr ws e =>
      rw [lost, h', Nat.add_zero]
      exact List.count_eq_zero.2 (h ws e List.mem_cons_self)
    | _ => exact h'

theorem atOnce {py : PyCompile} {ps : List Piece} (hw : WellCut py ps) (h : StartAtOnce (source ps)) (ws e : Str)
    (hm : Piece.expr ws e ∈ ps) : '\n' ∉ ws := by
  obtain ⟨a, b, rfl⟩ := List.append_of_mem hm
  refine h (source a) ws (e ++ '}' :: source b) ?_ (wellCut_space hw hm)
  simp [source, Piece.source]

theorem lost_le (ps : List Piece) : lost ps ≤ countNL (source ps) := by
  induction ps with
  | nil => exact Nat.zero_le _
  | cons p ps ih =>
    rw [source_cons, countNL_append]
    cases p with
    | expr ws e =>
      rw [lost, Piece.source, show '$' :: '{' :: ws ++ e ++ ['}'] = ['$', '{'] ++ (ws ++ e) ++ ['}'] by simp,
        countNL_append, countNL_append, countNL_append]
      omega
    | _ => rw [lost] <;> first | omega | nofun

/-- No special sequence begins in text without dollar signs. -/
theorem no_marker {t : Str} (h : '$' ∉ t) (rest : Str) : ∀ a b, t = a ++ b → b ≠ [] → ¬ Marker (b ++ rest) := by
  rintro a (_ | ⟨c, b⟩) hab hb ⟨x, r, k, _⟩
  · exact hb rfl
  · rw [List.cons_append] at k
    exact h (by rw [hab, (List.cons.inj k).1]; simp)

theorem exists_left {α β : Type} {R : α → β → Prop} {as : List α} {bs : List β} (h : List.Forall₂ R as bs) {b : β}
    (hb : b ∈ bs) : ∃ a ∈ as, R a b := by
  induction h with
  | nil => cases hb
  | cons hr _ ih =>
    rcases List.mem_cons.1 hb with rfl | hb
    · exact ⟨_, List.mem_cons_self, hr⟩
    · obtain ⟨a, ha, k⟩ := ih hb
      exact ⟨a, List.mem_cons_of_mem _ ha, k⟩

/-- Where a message is in a text that was cut into pieces. -/
theorem trans_nodes {py : PyCompile} {m : TextMode} {ps : List Piece} {l ln : Nat} {t : Str} (hw : WellCut py ps)
    (h : Ir.trans t ln ∈ nodes m l ps) :
    ∃ before p after, ps = before ++ p :: after ∧ p.value = .inl t ∧ ln + lost before = l + countNL (source before) := by
  induction ps generalizing l with
  | nil => simp [nodes] at h
  | cons p ps ih =>
    rw [nodes, List.mem_cons] at h
    rcases h with h | h
    · refine ⟨[], p, ps, rfl, ?_, ?_⟩
      · cases hv : p.value with
        | inl u =>
          rw [hv] at h
          simp only [node] at h
          split at h
          · cases h; rfl
          · cases h
        | inr e => rw [hv] at h; cases h
      · cases hv : p.value with
        | inl u =>
          rw [hv] at h
          simp only [node] at h
          split at h
          · cases h; rfl
          · cases h
        | inr e => rw [hv] at h; cases h
    · obtain ⟨before, q, after, h1, h2, h3⟩ := ih hw.1 h
      refine ⟨p :: before, q, after, by rw [h1]; rfl, h2, ?_⟩
      rw [source_cons, countNL_append]
      cases p with
      | text u => simp only [lost, Piece.source, Piece.value, Sum.elim_inl, id] at h3 ⊢; omega
      | dollar =>
        simp only [lost, Piece.source, Piece.value, Sum.elim_inl, id] at h3 ⊢
        have e1 : countNL ['$'] = 0 := rfl
        have e2 : countNL ['$', '$'] = 0 := rfl
        omega
      | name n =>
        simp only [lost, Piece.source, Piece.value, Sum.elim_inr, id] at h3 ⊢
        have e1 : countNL ('$' :: n) = countNL n := by
          rw [show '$' :: n = ['$'] ++ n from rfl, countNL_append]; exact Nat.zero_add _
        omega
      | expr ws e =>
        simp only [lost, Piece.source, Piece.value, Sum.elim_inr, id] at h3 ⊢
        have e1 : countNL ('$' :: '{' :: ws ++ e ++ ['}']) = countNL ws + countNL e := by
          rw [show '$' :: '{' :: ws ++ e ++ ['}'] = ['$', '{'] ++ (ws ++ e) ++ ['}'] by simp, countNL_append, countNL_append,
            countNL_append]
          show 0 + _ + 0 = _
          omega
        omega

end Kajiki.LinesL
