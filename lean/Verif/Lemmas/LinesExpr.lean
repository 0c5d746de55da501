import Verif.Lemmas.Lines

/-!
# Lines of expressions in XML templates
-/

namespace Kajiki.LinesL
open Kajiki.Spec.Lines Kajiki.Spec.XmlText Kajiki.XmlComp Kajiki.DocComp

variable {α β : Type} {P : Str → Nat → Prop}

/-- The expressions in the code have a line and the property. -/
def Done (P : Str → Nat → Prop) (xs : List Ir) : Prop := ∀ ln e, (ln, Read.expression e) ∈ readsList xs → ln ≠ 0 ∧ P e ln

theorem done_nil : Done P [] := by intro ln m h; simp [readsList] at h

theorem done_cons {x : Ir} {xs : List Ir} : Done P (x :: xs) ↔ Done P [x] ∧ Done P xs := by
  unfold Done
  simp only [readsList, List.append_nil, List.mem_append]
  exact ⟨fun h => ⟨fun ln m k => h ln m (.inl k), fun ln m k => h ln m (.inr k)⟩,
    fun h ln m k => k.elim (h.1 ln m) (h.2 ln m)⟩

theorem done_append {xs ys : List Ir} : Done P (xs ++ ys) ↔ Done P xs ∧ Done P ys := by
  induction xs with
  | nil => exact ⟨fun h => ⟨done_nil, h⟩, fun h => h.2⟩
  | cons x xs ih =>
    rw [List.cons_append, done_cons, ih, done_cons (xs := xs)]
    exact and_assoc.symm

theorem done_iff {xs : List Ir} : Done P xs ↔ ∀ x ∈ xs, Done P [x] := by
  induction xs with
  | nil => exact ⟨fun _ x h => by simp at h, fun _ => done_nil⟩
  | cons x xs ih => rw [done_cons, ih]; simp

theorem done_plain {x : Ir} (h : ∀ ln m, (ln, Read.expression m) ∉ reads x) : Done P [x] := by
  intro ln m k
  simp only [readsList, List.append_nil] at k
  exact absurd k (h ln m)

theorem done_text (t : Str) (g : Option Str) (l : Nat) : Done P [.text t g l] := done_plain (by simp [reads])
theorem done_python (c : List Str) (l : Nat) : Done P [.python c l] := done_plain (by simp [reads])

theorem done_expr {c : Str} {s : Bool} {l : Nat} (hl : l ≠ 0) (h : P c l) : Done P [.expr c s l] := by
  intro ln e k
  simp only [readsList, reads, List.append_nil, List.mem_singleton, Prod.mk.injEq, Read.expression.injEq] at k
  obtain ⟨rfl, rfl⟩ := k
  exact ⟨hl, h⟩

theorem done_around {x : Ir} {b : List Ir} (h : reads x = readsList b) (hb : Done P b) : Done P [x] := by
  intro ln m k
  simp only [readsList, List.append_nil, h] at k
  exact hb ln m k

theorem done_anno {l : Nat} {x : Ir} (h : Done P [x]) : Done P [anno l x] := by
  unfold anno
  split
  case isFalse => exact h
  case isTrue h0 =>
    cases x with
    | expr c s ln =>
      simp only [Ir.ln] at h0
      subst h0
      exact absurd rfl (h 0 c (by simp [readsList, reads])).1
    | trans t ln => exact done_plain (by simp only [Ir.setLn, reads]; intro ln m; split <;> simp)
    | _ => intro ln m k; refine h ln m ?_; simpa only [readsList, reads, Ir.setLn] using k

/-- Once the nodes without a line have the line `l`, the code is fine. -/
def Near (P : Str → Nat → Prop) (l : Nat) (xs : List Ir) : Prop := ∀ x ∈ xs, Done P [anno l x]

theorem Done.near {l : Nat} {xs : List Ir} (h : Done P xs) : Near P l xs := fun x hx => done_anno (done_iff.1 h x hx)

theorem Near.done {l : Nat} {xs : List Ir} (h : Near P l xs) : Done P (xs.map (anno l)) := by
  rw [done_iff]
  intro x hx
  obtain ⟨y, hy, rfl⟩ := List.mem_map.1 hx
  exact h y hy

theorem near_nil {l : Nat} : Near P l [] := fun x h => by cases h
theorem near_cons {l : Nat} {x : Ir} {xs : List Ir} (h : Done P [anno l x]) (hs : Near P l xs) : Near P l (x :: xs) := by
  intro y hy
  rcases List.mem_cons.1 hy with rfl | hy
  · exact h
  · exact hs y hy
theorem near_append {l : Nat} {xs ys : List Ir} (h : Near P l xs) (hs : Near P l ys) : Near P l (xs ++ ys) := fun y hy =>
  (List.mem_append.1 hy).elim (h y) (hs y)
theorem near_expr {l : Nat} {c : Str} {s : Bool} (hl : l ≠ 0) (h : P c l) : Done P [anno l (.expr c s 0)] :=
  done_expr (c := c) (s := s) hl h

/-- All functions are fine. -/
def AllDone (P : Str → Nat → Prop) (d : Dict (List Ir)) : Prop := ∀ f ∈ d, Done P f.2

theorem AllDone.set {d : Dict (List Ir)} (h : AllDone P d) (k : Str) {v : List Ir} (hv : Done P v) : AllDone P (d.set k v) := by
  intro f hf
  rcases Dict.mem_set hf with rfl | hf
  · exact hv
  · exact h f hf

/-- Compiling gives something with `Q`, if the functions are fine, and keeps that. -/
def Makes (P : Str → Nat → Prop) (Q : α → Prop) (m : CM α) : Prop :=
  ∀ s, AllDone P s.funs → ∀ a t, m s = .ok (a, t) → Q a ∧ AllDone P t.funs

variable {Q : α → Prop} {R : β → Prop}

theorem Makes.pure {a : α} (h : Q a) : Makes P Q (CM.pure a) := by
  intro s hs b t k; cases pure_ok.1 k; exact ⟨h, hs⟩
theorem Makes.throw (e : Err) : Makes P Q (CM.throw e : CM α) := by intro s hs b t h; cases h
theorem Makes.lift {x : Except Err α} (h : ∀ a, x = .ok a → Q a) : Makes P Q (CM.lift x) := by
  intro s hs b t k
  obtain ⟨h1, h2⟩ := lift_ok.1 k
  simp only at h2; subst h2; exact ⟨h b h1, hs⟩
theorem Makes.any (x : Except Err α) : Makes P (fun _ => True) (CM.lift x) := .lift fun _ _ => trivial
theorem Makes.get : Makes P (fun _ => True) CM.get := by intro s hs b t h; cases h; exact ⟨trivial, hs⟩
theorem Makes.bind {m : CM α} {f : α → CM β} (h : Makes P Q m) (hf : ∀ a, Q a → Makes P R (f a)) :
    Makes P R (CM.bind m f) := by
  intro s hs b t he
  obtain ⟨a, s1, h1, h2⟩ := bind_ok.1 he
  obtain ⟨k1, k2⟩ := h s hs a s1 h1
  exact hf a k1 s1 k2 b t h2
theorem Makes.mod {g : CState → CState} {f : Unit → CM β} (hg : ∀ s, AllDone P s.funs → AllDone P (g s).funs)
    (h : Makes P R (f ())) : Makes P R (CM.bind (CM.modify g) f) :=
  fun s hs b t he => h (g s) (hg s hs) b t he
theorem Makes.annotate {l : Nat} {m : CM (List Ir)} (h : Makes P (Near P l) m) : Makes P (Done P) (annotate l m) :=
  h.bind fun _ k => .pure k.done
theorem Makes.near {l : Nat} {m : CM (List Ir)} (h : Makes P (Done P) m) : Makes P (Near P l) m := fun s hs a t k =>
  ⟨(h s hs a t k).1.near, (h s hs a t k).2⟩

/-- What an element says about lines: its own, and those of the expressions in its attributes. -/
structure ElemOk (py : PyCompile) (P : Str → Nat → Prop) (attrs : Dict Str) (l : Nat) : Prop where
  line : l ≠ 0
  value : ∀ kv ∈ attrs, P kv.2 l
  none : P [] l
  block : ∀ name, P ("_kj_block_".toList ++ name ++ "()".toList) l
  attr : ∀ kv ∈ attrs, ∀ m xs, compileTextSrc py m kv.2 l = .ok xs → ∀ c s ln, Ir.expr c s ln ∈ xs → ln ≠ 0 ∧ P c ln

theorem get_mem {d : Dict α} {k : Str} {v : α} (h : d.get k = some v) : (k, v) ∈ d := by
  induction d with
  | nil => cases h
  | cons x d ih =>
    obtain ⟨k', v'⟩ := x
    rw [Dict.get] at h
    split at h
    · next hk => cases h; subst hk; exact List.mem_cons_self
    · exact List.mem_cons_of_mem _ (ih h)

theorem ElemOk.get {py : PyCompile} {attrs : Dict Str} {l : Nat} (h : ElemOk py P attrs l) (k : Str) : P (getAttr attrs k) l := by
  unfold getAttr
  cases hk : attrs.get k with
  | none => exact h.none
  | some v => exact h.value _ (get_mem hk)

theorem ElemOk.sub {py : PyCompile} {attrs bs : Dict Str} {l : Nat} (h : ElemOk py P attrs l) (hs : ∀ kv ∈ bs, kv ∈ attrs) :
    ElemOk py P bs l :=
  ⟨h.line, fun kv k => h.value kv (hs kv k), h.none, h.block, fun kv k => h.attr kv (hs kv k)⟩

theorem Makes.finishBlock {l : Nat} (hl : l ≠ 0) (hb : ∀ name, P ("_kj_block_".toList ++ name ++ "()".toList) l) (name : Str)
    {b : List Ir} (h : Done P b) : Makes P (Near P l) (finishBlock name b) := by
  unfold Kajiki.finishBlock
  have hb' : Done P (if b.isEmpty then [.pass 0] else b) := by
    split
    · exact done_plain (by simp [reads])
    · exact h
  refine .mod (fun s hs => hs.set _ hb') (Makes.get.bind fun s _ => ?_)
  split
  · exact (Makes.any _).bind fun p _ => .mod (fun s hs => hs.set _ (done_cons.2 ⟨done_python _ _, hb'⟩)) (.pure near_nil)
  · exact .pure (near_cons (near_expr hl (hb name)) near_nil)

theorem done_switch {b c : List Ir} (h : switchBody b = .ok c) (hb : Done P b) : Done P c := by
  induction b generalizing c with
  | nil => cases h; exact done_nil
  | cons x xs ih =>
    rw [done_cons] at hb
    have pre : ∀ {y : Ir}, prepend [y] (switchBody xs) = .ok c → Done P [y] → Done P c := by
      intro y k hy
      cases hs : switchBody xs with
      | error e => rw [hs] at k; cases k
      | ok d =>
        rw [hs] at k
        cases k
        exact done_append.2 ⟨hy, ih hs hb.2⟩
    cases x with
    | text t g l =>
      simp only [switchBody] at h
      split at h
      · exact ih h hb.2
      · cases h
    | caseN e b l => simp only [switchBody] at h; exact pre h hb.1
    | elseN b l => simp only [switchBody] at h; exact pre h hb.1
    | _ => simp [switchBody] at h

theorem done_one {x : Ir} {l : Nat} (h : Done P [x]) : Near P l [x] := h.near

theorem Makes.kind {env : CEnv} {attrs : Dict Str} {l : Nat} (he : ElemOk env.py P attrs l) (ctx : Ctx) (kids : List DNode)
    {m : CM (List Ir)} (h : Makes P (Done P) m) (k : Kind) : Makes P (Near P l) (compileKind env ctx attrs kids m k) := by
  cases k with
  | replace => exact .pure (near_cons (near_expr he.line (he.get _)) near_nil)
  | imp => exact .pure (done_one (done_plain (by simp [reads, importNode])))
  | incl => exact .pure (done_one (done_plain (by simp [reads])))
  | ext =>
    exact .mod (g := fun s => { s with isChild := true }) (f := fun _ => CM.bind m fun b => CM.pure (.ext (getAttr attrs "href".toList) 0 :: b))
      (fun s hs => hs) (h.bind fun b hb => .pure (done_cons.2 ⟨done_plain (by simp [reads]), hb⟩).near)
  | block => exact h.bind fun b hb => .finishBlock he.line he.block _ hb
  | defn =>
    unfold compileKind compileDef
    refine Makes.get.bind fun s _ => .mod (fun s hs => hs) (h.bind fun b hb => .mod (fun s hs => hs) ?_)
    split
    · exact .pure (done_one (done_around (by simp only [reads]) hb))
    · exact .mod (fun s hs => hs.set _ hb) (.pure near_nil)
  | call =>
    exact (Makes.any _).bind fun _ _ => h.bind fun b hb => Makes.get.bind fun s _ => .mod (fun s hs => hs)
      (.pure (done_one (done_around (by simp only [reads]) hb)))
  | forK => exact h.bind fun b hb => .pure (done_one (done_around (by simp only [reads]) hb))
  | withK => exact h.bind fun b hb => (Makes.any _).bind fun _ _ => .pure (done_one (done_around (by simp only [reads]) hb))
  | switchK =>
    exact h.bind fun b hb => (Makes.lift (Q := Done P) fun c hc => done_switch hc hb).bind fun _ hc =>
      .pure (done_one (done_around (by simp only [reads]) hc))
  | caseK => exact h.bind fun b hb => .pure (done_one (done_around (by simp only [reads]) hb))
  | ifK => exact h.bind fun b hb => .pure (done_one (done_around (by simp only [reads]) hb))
  | elseK => exact (Makes.any _).bind fun _ _ => h.bind fun b hb => .pure (done_one (done_around (by simp only [reads]) hb))
  | nop => exact h.near
  | broken => exact .throw _
  | endless => exact .throw _
  | xml => exact .pure near_nil

/-- What a text says about the lines of its expressions; in a script it may be unescaped. -/
def TextOk (py : PyCompile) (P : Str → Nat → Prop) (p : Str × Nat) : Prop :=
  ∀ m xs, compileTextSrc py m p.1 p.2 = .ok xs → ∀ c s ln, Ir.expr c s ln ∈ xs →
    ln ≠ 0 ∧ P c ln ∧ ∀ c', unescape c = .ok c' → P c' ln

/-- Text or expression. -/
theorem piece_cases {m : TextMode} {as : List (Str ⊕ Str)} {xs : List Ir} (h : List.Forall₂ (PieceNode m) as xs) :
    ∀ x ∈ xs, (∃ t l, x = textNode m t l) ∨ ∃ e l, x = .expr e m.safe l :=
  forall₂_right h fun a x k => by
    cases a with
    | inl t => obtain ⟨l, rfl⟩ := k; exact .inl ⟨t, l, rfl⟩
    | inr e => obtain ⟨l, rfl⟩ := k; exact .inr ⟨e, l, rfl⟩

theorem done_textNode (m : TextMode) (t : Str) (l : Nat) : Done P [textNode m t l] := by
  unfold textNode
  split
  · exact done_plain (by simp only [reads]; intro ln m; split <;> simp)
  · exact done_text _ _ _

theorem done_pieces {m : TextMode} {as : List (Str ⊕ Str)} {xs : List Ir} (h : List.Forall₂ (PieceNode m) as xs)
    (hm : ∀ c s ln, Ir.expr c s ln ∈ xs → ln ≠ 0 ∧ P c ln) : Done P xs := by
  rw [done_iff]
  intro x hx
  rcases piece_cases h x hx with ⟨t, l, rfl⟩ | ⟨e, l, rfl⟩
  · exact done_textNode _ _ _
  · exact done_expr (hm _ _ _ hx).1 (hm _ _ _ hx).2

theorem Makes.text {env : CEnv} {d : Str} {l : Nat} (h : TextOk env.py P (d, l)) (p : Option Str) :
    Makes P (Done P) (compileText env p d l) := by
  unfold compileText
  cases p with
  | none => exact .throw _
  | some p =>
    exact .annotate (Makes.near (.lift fun xs hx => done_pieces (text_pieces hx) fun c s ln k =>
      ⟨(h _ xs hx c s ln k).1, (h _ xs hx c s ln k).2.1⟩))

theorem done_attrs {env : CEnv} {g : Option Str} {ln : Nat} {as : List (Str × Str)} {xs : List Ir}
    (h : compileAttrs env g ln as = .ok xs)
    (ha : ∀ kv ∈ as, ∀ m xs, compileTextSrc env.py m kv.2 ln = .ok xs → ∀ c s l, Ir.expr c s l ∈ xs → l ≠ 0 ∧ P c l) :
    Done P xs := by
  induction as generalizing xs with
  | nil => cases h; exact done_nil
  | cons a as ih =>
    obtain ⟨k, v⟩ := a
    simp only [compileAttrs] at h
    cases hv : compileTextSrc env.py ⟨false, true⟩ v ln with
    | error e => rw [hv] at h; cases h
    | ok vs =>
      rw [hv] at h
      cases hs : compileAttrs env g ln as with
      | error e => rw [hs] at h; cases h
      | ok ys =>
        rw [hs] at h
        cases h
        refine done_append.2 ⟨?_, ih hs fun kv k => ha kv (List.mem_cons_of_mem _ k)⟩
        split
        · exact done_nil
        · exact done_around (by simp only [reads]) (done_pieces (text_pieces hv) (ha _ List.mem_cons_self _ _ hv))

/-- A node of a script before unescaping. -/
def ScriptOk (P : Str → Nat → Prop) (x : Ir) : Prop :=
  (∃ t g l, x = .text t g l) ∨ ∃ c s l, x = .expr c s l ∧ l ≠ 0 ∧ P c l ∧ ∀ c', unescape c = .ok c' → P c' l

theorem script_done {xs : List Ir} (h : ∀ x ∈ xs, ScriptOk P x) : Done P xs := by
  rw [done_iff]
  intro x hx
  rcases h x hx with ⟨t, g, l, rfl⟩ | ⟨c, s, l, rfl, h1, h2, -⟩
  · exact done_text _ _ _
  · exact done_expr h1 h2

theorem script_unescaped {xs ys : List Ir} (h : unescapeNodes xs = .ok ys) (hx : ∀ x ∈ xs, ScriptOk P x) : Done P ys := by
  induction xs generalizing ys with
  | nil => cases h; exact done_nil
  | cons x xs ih =>
    simp only [unescapeNodes] at h
    cases hu : unescapeNode x with
    | error e => rw [hu] at h; cases h
    | ok y =>
      rw [hu] at h
      cases hs : unescapeNodes xs with
      | error e => rw [hs] at h; cases h
      | ok zs =>
        rw [hs] at h
        cases h
        refine done_append.2 ⟨?_, ih hs fun x k => hx x (List.mem_cons_of_mem _ k)⟩
        rcases hx x List.mem_cons_self with ⟨t, g, l, rfl⟩ | ⟨c, s, l, rfl, h1, h2, h3⟩
        · simp only [unescapeNode] at hu
          cases ht : unescape t with
          | error e => rw [ht] at hu; cases hu
          | ok t => rw [ht] at hu; cases hu; exact done_text _ _ _
        · simp only [unescapeNode] at hu
          cases ht : unescape c with
          | error e => rw [ht] at hu; cases hu
          | ok t => rw [ht] at hu; cases hu; exact done_expr h1 (h3 t ht)

theorem script_anno {l : Nat} {x : Ir} (h : ScriptOk P x) : ScriptOk P (anno l x) := by
  unfold anno
  split
  · next h0 =>
    rcases h with ⟨t, g, l, rfl⟩ | ⟨c, s, l, rfl, h1, h2, h3⟩
    · exact .inl ⟨_, _, _, rfl⟩
    · exact absurd h0 h1
  · exact h

theorem Makes.script {env : CEnv} {tag : Str} (ht : cdataTags.contains tag = true) (kids : List DNode)
    (hk : ∀ p ∈ textsList kids, TextOk env.py P p) : Makes P (Done P) (compileScript env tag kids) := by
  induction kids with
  | nil => exact .pure done_nil
  | cons k kids ih =>
    rw [textsList] at hk
    have ih := ih fun p k => hk p (List.mem_append_right _ k)
    cases k with
    | cdata d l => exact ih
    | text d e l =>
      have hd : TextOk env.py P (d, l) := hk _ (List.mem_append_left _ (by simp [texts]))
      have h1 : Makes P (fun xs => ∀ x ∈ xs, ScriptOk P x) (compileText env (some tag) d l) := by
        unfold compileText
        dsimp only
        rw [ht]
        refine (Makes.lift (Q := fun xs => ∀ x ∈ xs, ScriptOk P x) fun xs hx => fun x hm => ?_).bind fun xs hx => .pure fun x k => ?_
        · rcases piece_cases (text_pieces hx) x hm with ⟨t, l', rfl⟩ | ⟨c, l', rfl⟩
          · exact .inl ⟨t, _, l', by simp [textNode]; rfl⟩
          · exact .inr ⟨_, _, _, rfl, hd _ xs hx _ _ _ hm⟩
        · obtain ⟨y, hy, rfl⟩ := List.mem_map.1 k
          exact script_anno (hx y hy)
      refine h1.bind fun ys hy => (Makes.lift (Q := Done P) fun zs hz => ?_).bind fun zs hz => ih.bind fun ws hw =>
        .pure (done_append.2 ⟨hz, hw⟩)
      split at hz
      · exact script_unescaped hz hy
      · cases hz; exact script_done hy
    | _ => exact .throw _

theorem sortItems_mem {x : Str × Str} {as : Dict Str} (h : x ∈ sortItems as) : x ∈ as := by
  unfold sortItems at h
  induction as with
  | nil => exact h
  | cons a as ih =>
    rw [List.foldr_cons] at h
    rcases insertAttr_mem h with rfl | h
    · exact List.mem_cons_self
    · exact List.mem_cons_of_mem _ (ih h)

theorem Makes.xml {env : CEnv} (tag : Str) {attrs : Dict Str} {ln : Nat} (he : ElemOk env.py P attrs ln) (e : Bool)
    {m : CM (List Ir)} (h : Makes P (Done P) m) : Makes P (Near P ln) (compileXml env tag attrs ln e m) := by
  unfold compileXml
  refine (Makes.lift (Q := Done P) fun xs hx => done_attrs hx fun kv k => he.attr kv
    (List.mem_of_mem_filter (sortItems_mem k))).bind fun as ha => Makes.bind (Q := Near P ln) ?_ fun ks hk => .pure ?_
  · unfold compileBody
    simp only
    split
    · split
      · exact .pure (done_text _ _ _).near
      · refine h.bind fun ks hk => .pure ?_
        refine Done.near ?_
        rw [List.cons_append, done_cons, done_append]
        refine ⟨done_text _ _ _, hk, ?_⟩
        unfold fullEnd
        split
        · exact done_nil
        · exact done_text _ _ _
    · exact .pure (near_cons (done_anno (done_text _ _ _)) (near_cons (near_expr he.line (he.get _)) (done_text _ _ _).near))
  · rw [List.cons_append, List.cons_append]
    refine near_cons (done_anno (done_text _ _ _)) (near_append (near_append ha.near (Done.near ?_)) hk)
    unfold attrsNode
    simp only
    split
    · exact done_nil
    · exact done_plain (by simp [reads])

theorem done_mark (mode : Str) (s : String) : Done P (scriptMark mode s) := by
  unfold scriptMark
  split
  · exact done_text _ _ _
  · exact done_nil

theorem autoblock_sub {env : CEnv} {tag : Str} {attrs : Dict Str} {a : Bool × Dict Str} (h : isAutoblock env tag attrs = .ok a) :
    ∀ kv ∈ a.2, kv ∈ attrs := by
  unfold isAutoblock at h
  split at h
  · split at h
    · cases h; exact fun _ k => k
    · dsimp only at h
      split at h
      · cases h; exact fun _ k => List.mem_of_mem_filter k
      · split at h
        · cases h; exact fun _ k => k
        · cases h
  · cases h; exact fun _ k => k

mutual
theorem node_makes (env : CEnv) (ctx : Ctx) (x : DNode) (hx : ∀ p ∈ texts x, TextOk env.py P p)
    (he : ∀ p ∈ elems x, ElemOk env.py P p.1 p.2) : Makes P (Done P) (compileNode env ctx x) := by
  cases x with
  | comment d ln =>
    simp only [compileNode]
    refine .annotate (.pure (Done.near ?_))
    unfold compileComment
    split
    · exact done_nil
    · exact done_text _ _ _
  | text d e ln => simp only [compileNode]; exact .text (hx _ (by simp [texts])) _
  | cdata d ln => simp only [compileNode]; exact .text (hx _ (by simp [texts])) _
  | pi tg d ln =>
    simp only [compileNode]
    refine .annotate ((Makes.any _).bind fun p _ => ?_)
    split
    · exact .mod (fun s hs => hs) (.pure near_nil)
    · exact .pure (done_python _ _).near
  | elem tag attrs ln kids =>
    simp only [compileNode]
    refine (Makes.lift (Q := fun a : Bool × Dict Str => ∀ kv ∈ a.2, kv ∈ attrs) fun a ha => autoblock_sub ha).bind fun a ha => ?_
    rw [texts] at hx
    rw [elems] at he
    have hel : ElemOk env.py P a.2 ln := (he (attrs, ln) List.mem_cons_self).sub ha
    have hk := fun raw => kids_makes env raw (some tag) (a.2.has "py:switch".toList) [] kids hx
      fun p k => he p (List.mem_cons_of_mem _ k)
    split
    · exact .annotate ((Makes.annotate (l := ln) (hk false).near).bind fun b hb => .finishBlock hel.line hel.block _ hb)
    · split
      · refine .annotate (.xml _ hel _ ?_)
        split
        · next hs =>
          refine (Makes.script (by unfold isScript at hs; exact (Bool.and_eq_true_iff.1 hs).2) _ hx).bind fun ks hk => .pure ?_
          exact done_append.2 ⟨done_append.2 ⟨done_mark _ _, hk⟩, done_mark _ _⟩
        · exact hk true
      · exact .annotate (.kind hel _ _ (.annotate (hk false).near) _)

theorem kids_makes (env : CEnv) (raw : Bool) (p : Option Str) (sw : Bool) (prev : Str)
    (xs : List DNode) (hx : ∀ p ∈ textsList xs, TextOk env.py P p) (he : ∀ p ∈ elemsList xs, ElemOk env.py P p.1 p.2) :
    Makes P (Done P) (compileKids env raw p sw prev xs) := by
  cases xs with
  | nil => simp only [compileKids]; exact .pure done_nil
  | cons x xs =>
    rw [textsList] at hx
    rw [elemsList] at he
    have h1 : ∀ p ∈ texts x, TextOk env.py P p := fun p k => hx p (List.mem_append_left _ k)
    have h2 : ∀ p ∈ textsList xs, TextOk env.py P p := fun p k => hx p (List.mem_append_right _ k)
    have e1 : ∀ p ∈ elems x, ElemOk env.py P p.1 p.2 := fun p k => he p (List.mem_append_left _ k)
    have e2 : ∀ p ∈ elemsList xs, ElemOk env.py P p.1 p.2 := fun p k => he p (List.mem_append_right _ k)
    cases x with
    | cdata d ln =>
      simp only [compileKids]
      refine Makes.bind (Q := Done P) ?_ fun ys hy => (kids_makes env raw p sw _ xs h2 e2).bind fun zs hz =>
        .pure (done_append.2 ⟨hy, hz⟩)
      split
      · exact .pure (done_text _ _ _)
      · exact .text (h1 _ (by simp [texts])) _
    | _ =>
      simp only [compileKids]
      exact (node_makes env _ _ h1 e1).bind fun ys hy => (kids_makes env raw p sw _ xs h2 e2).bind fun zs hz =>
        .pure (done_append.2 ⟨hy, hz⟩)
end

theorem elems_mem {x : DNode} {xs : List DNode} (h : x ∈ xs) : ∀ p ∈ elems x, p ∈ elemsList xs := by
  induction xs with
  | nil => cases h
  | cons y ys ih =>
    intro p hp
    rw [elemsList]
    rcases List.mem_cons.1 h with rfl | h
    · exact List.mem_append_left _ hp
    · exact List.mem_append_right _ (ih h p hp)

theorem doc_done {env : CEnv} {doc : Doc} {u : Tmpl} (h : compileDoc env doc = .ok u)
    (hx : ∀ p ∈ textsList doc.kids, TextOk env.py P p) (he : ∀ p ∈ elemsList doc.kids, ElemOk env.py P p.1 p.2)
    {ln : Nat} {e : Str} (hm : (ln, Read.expression e) ∈ readsTmpl u) : ln ≠ 0 ∧ P e ln := by
  have key : ∀ d ∈ u.defs, Done P d.body := by
    unfold compileDoc at h
    split at h
    · next root hr =>
      have hroot : root ∈ doc.kids := List.mem_of_mem_filter (p := fun n => !isComment n) (by rw [hr]; simp)
      split at h
      · cases h
      · next body s hc =>
        cases h
        have start : AllDone P CState.start.funs := by
          intro f hf
          simp only [CState.start, List.mem_singleton] at hf
          subst hf
          exact done_nil
        obtain ⟨h1, h2⟩ := node_makes env _ root (fun p k => hx p (texts_mem hroot p k)) (fun p k => he p (elems_mem hroot p k)) _ start
          _ _ hc
        have hb : Done P (if !env.opts.isFragment && !s.isChild then doctypeNode env.mode doc.dtd ++ body else body) := by
          split
          · refine done_append.2 ⟨?_, h1⟩
            unfold doctypeNode
            split
            · exact done_text _ _ _
            · split
              · exact done_text _ _ _
              · exact done_nil
          · exact h1
        intro d hd
        obtain ⟨f, hf, rfl⟩ := List.mem_map.1 hd
        exact h2.set mainDecl hb f hf
    · cases h
  obtain ⟨d, hd, hr⟩ := List.mem_flatMap.1 hm
  exact key d hd _ _ hr

/-- Where an expression is in a text that was cut into pieces. -/
theorem expr_nodes {py : PyCompile} {m : TextMode} {ps : List Piece} {l ln : Nat} {t : Str} {f : Bool} (hw : WellCut py ps)
    (h : Ir.expr t f ln ∈ nodes m l ps) :
    ∃ before p after, ps = before ++ p :: after ∧ p.value = .inr t ∧ ln + lost before = l + countNL (source before) := by
  induction ps generalizing l with
  | nil => simp [nodes] at h
  | cons p ps ih =>
    rw [nodes, List.mem_cons] at h
    rcases h with h | h
    · refine ⟨[], p, ps, rfl, ?_, ?_⟩
      · cases hv : p.value with
        | inl u =>
          rw [hv] at h
          simp only [node] at h
          split at h <;> cases h
        | inr e => rw [hv] at h; cases h; rfl
      · cases hv : p.value with
        | inl u =>
          rw [hv] at h
          simp only [node] at h
          split at h <;> cases h
        | inr e => rw [hv] at h; cases h; rfl
    · obtain ⟨before, q, after, h1, h2, h3⟩ := ih hw.1 h
      refine ⟨p :: before, q, after, by rw [h1]; rfl, h2, ?_⟩
      rw [source_cons, countNL_append]
      cases p with
      | text u => simp only [lost, Piece.source, Piece.value, Sum.elim_inl, id] at h3 ⊢; omega
      | dollar =>
        simp only [lost, Piece.source, Piece.value, Sum.elim_inl, id] at h3 ⊢
        have e1 : countNL ['$'] = 0 := rfl
        have e2 : countNL ['$', '$'] = 0 := rfl
        omega
      | name n =>
        simp only [lost, Piece.source, Piece.value, Sum.elim_inr, id] at h3 ⊢
        have e1 : countNL ('$' :: n) = countNL n := by
          rw [show '$' :: n = ['$'] ++ n from rfl, countNL_append]; exact Nat.zero_add _
        omega
      | expr ws e =>
        simp only [lost, Piece.source, Piece.value, Sum.elim_inr, id] at h3 ⊢
        have e1 : countNL ('$' :: '{' :: ws ++ e ++ ['}']) = countNL ws + countNL e := by
          rw [show '$' :: '{' :: ws ++ e ++ ['}'] = ['$', '{'] ++ (ws ++ e) ++ ['}'] by simp, countNL_append, countNL_append,
            countNL_append]
          show 0 + _ + 0 = _
          omega
        omega

end Kajiki.LinesL
