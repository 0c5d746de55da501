import Verif.Spec.Accept
import Verif.Lemmas.DocSem

/-!
# Which documents the compiler accepts

`Acc m p p' ok Q`: from a state of place `p`, the compilation succeeds if and only if `ok`, and then leads to
place `p'` with a result that has `Q`.
-/

namespace Kajiki.DocComp
open Kajiki.Spec.DocSem Kajiki.Spec.Accept Kajiki.XmlComp

def Acc (m : CM (List Ir)) (p p' : Place) (ok : Bool) (Q : List Ir → Prop) : Prop :=
  ∀ s, Match s p →
    if ok = true then ∃ ys s', m s = .ok (ys, s') ∧ Match s' p' ∧ Q ys else ∃ e, m s = .error e

variable {p p' p'' : Place} {m : CM (List Ir)} {ok ok' : Bool} {Q Q' : List Ir → Prop}

theorem Acc.pure {ys : List Ir} (h : Q ys) : Acc (CM.pure ys) p p true Q := by
  intro s hs
  rw [if_pos rfl]
  exact ⟨ys, s, rfl, hs, h⟩

theorem Acc.throw {e : Err} : Acc (CM.throw e) p p' false Q := by
  intro s hs
  rw [if_neg (by simp)]
  exact ⟨e, rfl⟩

theorem Acc.mono (h : Acc m p p' ok Q) (hq : ∀ ys, Q ys → Q' ys) : Acc m p p' ok Q' := by
  intro s hs
  have := h s hs
  split at this
  · next ho =>
    rw [if_pos ho]
    obtain ⟨ys, s', h1, h2, h3⟩ := this
    exact ⟨ys, s', h1, h2, hq _ h3⟩
  · next ho => rw [if_neg ho]; exact this

theorem Acc.cast (h : Acc m p p' ok Q) (he : ok = ok') : Acc m p p' ok' Q := he ▸ h

theorem Acc.seq {f : List Ir → CM (List Ir)} (h : Acc m p p' ok Q) (hf : ∀ b, Q b → Acc (f b) p' p'' ok' Q') :
    Acc (CM.bind m f) p p'' (ok && ok') Q' := by
  intro s hs
  have := h s hs
  cases ok with
  | false =>
    rw [if_neg (by simp)] at this ⊢
    obtain ⟨e, he⟩ := this
    exact ⟨e, by unfold CM.bind; rw [he]⟩
  | true =>
    rw [if_pos rfl] at this
    obtain ⟨ys, s', h1, h2, h3⟩ := this
    have he : CM.bind m f s = f ys s' := by unfold CM.bind; rw [h1]
    rw [he, Bool.true_and]
    exact hf ys h3 s' h2

theorem Acc.wrap {f : List Ir → List Ir} (h : Acc m p p' ok Q) (hf : ∀ b, Q b → Q' (f b)) :
    Acc (CM.bind m fun b => CM.pure (f b)) p p' ok Q' :=
  (h.seq fun b hb => Acc.pure (hf b hb)).cast (Bool.and_true _)

theorem Acc.annotate (l : Nat) (h : Acc m p p' ok Q) (hq : ∀ b, Q b → Q' (b.map (anno l))) :
    Acc (annotate l m) p p' ok Q' := h.wrap hq

theorem Acc.lift {α : Type} {x : Except Err α} {f : α → CM (List Ir)}
    (h : ∀ a, x = .ok a → Acc (f a) p p' ok Q) : Acc (CM.bind (CM.lift x) f) p p' (fine x && ok) Q := by
  intro s hs
  cases hx : x with
  | error e =>
    rw [show fine (Except.error e : Except Err α) = false from rfl, Bool.false_and, if_neg (by simp)]
    exact ⟨e, by unfold CM.bind CM.lift; rfl⟩
  | ok a =>
    rw [show fine (Except.ok a : Except Err α) = true from rfl, Bool.true_and]
    exact h a hx s hs

theorem Acc.modify {f : CState → CState} {k : Unit → CM (List Ir)} (hf : ∀ s, Match s p → Match (f s) p')
    (h : Acc (k ()) p' p'' ok Q) : Acc (CM.bind (CM.modify f) k) p p'' ok Q := by
  intro s hs
  exact h (f s) (hf s hs)

/-! ## Texts -/

theorem fine_prepend (xs : List Ir) (r : Except Err (List Ir)) : fine (prepend xs r) = fine r := by
  cases r <;> rfl

theorem fine_textLoop (py : PyCompile) (m m' : TextMode) (src : Str) (ms : List (Nat × Nat × DKind)) :
    ∀ pos l l', fine (textLoop py m src pos l ms) = fine (textLoop py m' src pos l' ms) := by
  induction ms with
  | nil => intro pos l l'; rfl
  | cons k ms ih =>
    intro pos l l'
    obtain ⟨a, b, k⟩ := k
    cases k with
    | braced =>
      simp only [textLoop]
      split
      · rfl
      · rw [fine_prepend, fine_prepend]; exact ih _ _ _
    | named t => simp only [textLoop]; rw [fine_prepend, fine_prepend]; exact ih _ _ _
    | dollar => simp only [textLoop]; rw [fine_prepend, fine_prepend]; exact ih _ _ _

theorem fine_text (py : PyCompile) (m : TextMode) (src : Str) (l : Nat) :
    fine (compileTextSrc py m src l) = scans py src := by
  unfold scans compileTextSrc
  exact fine_textLoop _ _ _ _ _ _ _ _

theorem swOk_anno (l : Nat) (x : Ir) : swOk (anno l x) = swOk x := by
  unfold anno
  split
  · cases x <;> rfl
  · rfl

theorem all_swOk_anno (l : Nat) (xs : List Ir) : (xs.map (anno l)).all swOk = xs.all swOk := by
  rw [List.all_map]
  exact congrArg (xs.all ·) (funext fun x => swOk_anno l x)

theorem swOk_pieces {m : TextMode} {ps : List (Str ⊕ Str)} {xs : List Ir} (h : List.Forall₂ (PieceNode m) ps xs) :
    xs.all swOk = ps.all blankPiece := by
  induction h with
  | nil => rfl
  | @cons a x ps xs h _ ih =>
    rw [List.all_cons, List.all_cons, ih]
    congr 1
    cases a with
    | inl t =>
      obtain ⟨l, rfl⟩ := h
      unfold textNode
      split
      · next hb =>
        rw [Bool.and_eq_true] at hb
        simp only [swOk, blankPiece]
        simpa using hb.2
      · simp [swOk, blankPiece]
    | inr e => obtain ⟨l, rfl⟩ := h; rfl

theorem acc_text (c : CEnv) (p : Place) (parent : Option Str) (d : Str) (l : Nat) :
    Acc (compileText c parent d l) p p (parent.isSome && scans c.py d) fun ys =>
      ys.all swOk = (cut c.py d).all blankPiece ∧
      ∃ tag, parent = some tag ∧ List.Forall₂ (PieceNode ⟨!cdataTags.contains tag, false⟩) (cut c.py d) ys := by
  unfold compileText
  cases parent with
  | none => exact .throw
  | some q =>
    refine Acc.cast ?_ (Bool.true_and _).symm
    refine Acc.annotate (Q := fun ys => List.Forall₂ (PieceNode ⟨!cdataTags.contains q, false⟩) (cut c.py d) ys) l ?_
      fun b h => ⟨swOk_pieces (pieces_anno h l), q, rfl, pieces_anno h l⟩
    intro s hs
    rw [← fine_text c.py ⟨!cdataTags.contains q, false⟩ d l]
    cases hx : compileTextSrc c.py ⟨!cdataTags.contains q, false⟩ d l with
    | error e => exact ⟨e, rfl⟩
    | ok ys => exact ⟨ys, s, rfl, hs, text_pieces hx⟩

/-! ## Scripts -/

theorem fine_unescapeNodes {m : TextMode} {ps : List (Str ⊕ Str)} {xs : List Ir}
    (h : List.Forall₂ (PieceNode m) ps xs) : fine (unescapeNodes xs) = ps.all resolvable := by
  induction h with
  | nil => rfl
  | @cons a x ps xs h _ ih =>
    rw [List.all_cons, ← ih]
    conv_lhs => unfold unescapeNodes
    have hx : fine (unescapeNode x) = resolvable a := by
      cases a with
      | inl t =>
        obtain ⟨l, rfl⟩ := h
        unfold textNode
        split <;> simp only [unescapeNode, resolvable] <;> cases unescape t <;> rfl
      | inr e =>
        obtain ⟨l, rfl⟩ := h
        simp only [unescapeNode, resolvable]
        cases unescape e <;> rfl
    rw [← hx]
    cases unescapeNode x with
    | error e => rfl
    | ok y => simp only [fine_prepend]; rfl

theorem acc_script (c : CEnv) (p : Place) (tag : Str) (ks : List DNode) :
    Acc (compileScript c tag ks) p p (scriptAccepted c ks) fun _ => True := by
  induction ks with
  | nil => exact .pure trivial
  | cons k ks ih =>
    cases k with
    | cdata d l => exact ih
    | text d e l =>
      simp only [compileScript, scriptAccepted, Bool.and_assoc]
      refine ((acc_text c p (some tag) d l).cast (Bool.true_and _)).seq fun b hb => ?_
      obtain ⟨-, q, -, hb⟩ := hb
      have he : fine (if e then unescapeNodes b else .ok b) = (!e || (cut c.py d).all resolvable) := by
        cases e with
        | true => rw [if_pos rfl, fine_unescapeNodes hb]; rfl
        | false => rfl
      rw [← he]
      refine Acc.lift fun a _ => ?_
      exact ih.wrap fun _ _ => trivial
    | _ => exact .throw

/-! ## Blocks -/

theorem acc_block (c : CEnv) (p : Place) (name : Str) (ks : List DNode) {Q : List Ir → Prop}
    (h : Acc m p (afterAll c.opts p ks) ok Q) :
    Acc (CM.bind m fun b => finishBlock name b) p (afterAll c.opts p ks)
      (ok && nameAccepted (afterAll c.opts p ks) name) fun ys => ys.all swOk = (afterAll c.opts p ks).child := by
  refine h.seq fun b _ => ?_
  generalize afterAll c.opts p ks = q
  intro s hs
  unfold finishBlock
  have hc := hs.child
  simp only [CM.bind, CM.modify, CM.get]
  unfold nameAccepted
  rw [← hc]
  cases hi : s.isChild with
  | false =>
    simp only [Bool.not_false, Bool.true_or, if_true, Bool.false_eq_true, if_false]
    exact ⟨_, _, rfl, ⟨hs.inDef, hi.symm.trans hs.child, hs.calls⟩, rfl⟩
  | true =>
    simp only [Bool.not_true, Bool.false_or, if_true]
    unfold blockName CM.lift
    cases pythonNode ("parent_block=parent.".toList ++ ("_kj_block_".toList ++ name)) with
    | error e => exact ⟨e, rfl⟩
    | ok a => exact ⟨[], _, rfl, ⟨hs.inDef, hi.symm.trans hs.child, hs.calls⟩, rfl⟩

/-! ## Attributes and ordinary elements -/

theorem fine_compileAttrs (c : CEnv) (g : Option Str) (ln : Nat) (as : List (Str × Str)) :
    fine (compileAttrs c g ln as) = as.all fun kv => scans c.py kv.2 := by
  induction as with
  | nil => rfl
  | cons kv as ih =>
    obtain ⟨k, v⟩ := kv
    simp only [compileAttrs, List.all_cons]
    rw [← fine_text c.py ⟨false, true⟩ v ln]
    cases compileTextSrc c.py ⟨false, true⟩ v ln with
    | error e => rfl
    | ok vs => simp only [fine_prepend, ih]; rfl

theorem all_insertAttr (f : Str × Str → Bool) (kv : Str × Str) (l : List (Str × Str)) :
    (insertAttr kv l).all f = (f kv && l.all f) := by
  induction l with
  | nil => rfl
  | cons x l ih =>
    unfold insertAttr
    split
    · rw [List.all_cons, ih, List.all_cons]
      cases f kv <;> cases f x <;> rfl
    · rfl

theorem all_sortItems (f : Str × Str → Bool) (as : Dict Str) : (sortItems as).all f = as.all f := by
  induction as with
  | nil => rfl
  | cons x as ih =>
    change (insertAttr x (sortItems as)).all f = _
    rw [all_insertAttr, ih]
    rfl

theorem fine_attrs (c : CEnv) (g : Option Str) (ln : Nat) (as : Dict Str) :
    fine (compileAttrs c g ln (sortItems (as.del "py:strip".toList))) =
      as.all fun kv => kv.1 = "py:strip".toList || scans c.py kv.2 := by
  rw [fine_compileAttrs, all_sortItems, del_eq, List.all_filter]
  congr 1
  funext kv
  generalize "py:strip".toList = k
  by_cases h : kv.1 = k <;> simp [h]

theorem acc_xml (c : CEnv) (p : Place) (tag : Str) (as : Dict Str) (ln : Nat) (ks : List DNode)
    (kids : CM (List Ir)) (h : ks = [] → ok = true) (hk : Acc kids p p' ok Q) (hp : ks = [] → p' = p) :
    Acc (compileXml c tag as ln ks.isEmpty kids) p (if (attr as "py:content").isEmpty then p' else p)
      (as.all (fun kv => kv.1 = "py:strip".toList || scans c.py kv.2) && (!(attr as "py:content").isEmpty || ok))
      fun ys => ys.all swOk = false := by
  unfold compileXml
  rw [← fine_attrs c (stripGuard as) ln as]
  refine Acc.lift fun a _ => ?_
  have hb : Acc (compileBody c tag as (stripGuard as) ks.isEmpty kids) p
      (if (attr as "py:content").isEmpty then p' else p) (!(attr as "py:content").isEmpty || ok) fun _ => True := by
    unfold compileBody
    change Acc (if (attr as "py:content").isEmpty = true then _ else _) _ _ _ _
    cases (attr as "py:content").isEmpty with
    | false => exact .pure trivial
    | true =>
      simp only [if_true, Bool.not_true, Bool.false_or]
      cases ks with
      | nil =>
        rw [h rfl, hp rfl]
        exact .pure trivial
      | cons k ks => exact hk.wrap fun _ _ => trivial
  refine hb.wrap fun b _ => ?_
  simp only [List.cons_append, List.all_cons, swOk, strip_lt, Bool.false_and]

/-! ## Directives -/

theorem accepted_auto (c : CEnv) (p : Place) (parent : Option Str) (sw : Bool) (prev t : Str) (as : Dict Str) (l : Nat)
    (ks : List DNode) (hm : markAccepted c.opts t as = true) (ha : auto c.opts t as = true) :
    accepted c p parent sw prev (.elem t as l ks) =
      (acceptedAll c p false (some t) (Dict.has as "py:switch".toList) [] ks &&
        nameAccepted (afterAll c.opts p ks) t) := by
  unfold accepted
  rw [hm, Bool.true_and]
  simp only
  rw [if_pos ha]

theorem accepted_none (c : CEnv) (p : Place) (parent : Option Str) (sw : Bool) (prev t : Str) (as : Dict Str) (l : Nat)
    (ks : List DNode) (hm : markAccepted c.opts t as = true) (ha : auto c.opts t as = false) (hd : dirOf t = none) :
    accepted c p parent sw prev (.elem t as l ks) =
      ((plainAttrs c.opts t as).all (fun kv => kv.1 = "py:strip".toList || scans c.py kv.2) &&
        (!(attr as "py:content").isEmpty ||
          if script c.opts t then scriptAccepted c ks
          else acceptedAll c p true (some t) (Dict.has as "py:switch".toList) [] ks)) := by
  unfold accepted
  rw [hm, Bool.true_and]
  simp only
  rw [if_neg (by simp [ha]), hd]

/-- What is required of the element of a directive. -/
def dirAccepted (c : CEnv) (p : Place) (parent : Option Str) (sw : Bool) (prev : Str) (as : Dict Str)
    (ks : List DNode) (inner : Place → Bool) : Dir → Bool
  | .replace => true
  | .imp => true
  | .incl => true
  | .ext => inner p.ext
  | .block => inner p && nameAccepted (afterAll c.opts p ks) (attr as "name")
  | .defn => inner p.fn
  | .call => startsWithElement ks && inner p
  | .withD => inner p && fine (withAssignments (attr as "vars"))
  | .switchD => inner p && choicesOnly c p ks
  | .elseD => elseAccepted parent sw prev && inner p
  | _ => inner p

theorem accepted_dir (c : CEnv) (p : Place) (parent : Option Str) (sw : Bool) (prev t : Str) (as : Dict Str) (l : Nat)
    (ks : List DNode) {d : Dir} (hm : markAccepted c.opts t as = true) (ha : auto c.opts t as = false)
    (hd : dirOf t = some d) :
    accepted c p parent sw prev (.elem t as l ks) = dirAccepted c p parent sw prev as ks
      (fun p => acceptedAll c p false (some t) (Dict.has as "py:switch".toList) [] ks) d := by
  unfold accepted
  rw [hm, Bool.true_and]
  simp only
  rw [if_neg (by simp [ha]), hd]
  cases d <;> rfl

/-- Whether the element of a directive can be in a `py:switch`. -/
def dirChoice (c : CEnv) (p : Place) (ks : List DNode) : Dir → Bool
  | .caseD => true
  | .elseD => true
  | .nop => choicesOnly c p ks
  | .block => (afterAll c.opts p ks).child
  | .defn => !p.inDef
  | _ => false

theorem choiceOnly_dir (c : CEnv) (p : Place) (t : Str) (as : Dict Str) (l : Nat) (ks : List DNode) {d : Dir}
    (ha : auto c.opts t as = false) (hd : dirOf t = some d) :
    choiceOnly c p (.elem t as l ks) = dirChoice c p ks d := by
  unfold choiceOnly
  rw [if_neg (by simp [ha]), hd]
  cases d <;> rfl

theorem acc_kind (c : CEnv) (ctx : Ctx) (p : Place) (as : Dict Str) (ks : List DNode) (as' : Dict Str)
    (hA : ∀ k, k ≠ "py:autoblock".toList → Dict.get as' k = Dict.get as k) (nop : CM (List Ir)) (d : Dir)
    (inner : Place → Bool)
    (hn : ∀ p, Acc nop p (afterAll c.opts p ks) (inner p) fun ys => ys.all swOk = choicesOnly c p ks) :
    Acc (compileKind c ctx as' ks nop (kindD d)) p (afterDir c.opts p ks d)
      (dirAccepted c p ctx.parent ctx.switch ctx.prev as ks inner d)
      (fun ys => ys.all swOk = dirChoice c p ks d) := by
  have hg : ∀ k : Str, k ≠ "py:autoblock".toList → getAttr as' k = (Dict.get as k).getD [] := by
    intro k hk; unfold getAttr; rw [hA k hk]
  have ek : ∀ k ∈ ["value", "href", "name", "function", "each", "vars", "test"].map String.toList,
    k ≠ "py:autoblock".toList := by decide +kernel
  have e1 : getAttr as' "value".toList = attr as "value" := hg _ (ek _ (by decide +kernel))
  have e2 : getAttr as' "href".toList = attr as "href" := hg _ (ek _ (by decide +kernel))
  have e3 : getAttr as' "name".toList = attr as "name" := hg _ (ek _ (by decide +kernel))
  have e4 : getAttr as' "function".toList = attr as "function" := hg _ (ek _ (by decide +kernel))
  have e5 : getAttr as' "each".toList = attr as "each" := hg _ (ek _ (by decide +kernel))
  have e6 : getAttr as' "vars".toList = attr as "vars" := hg _ (ek _ (by decide +kernel))
  have e7 : getAttr as' "test".toList = attr as "test" := hg _ (ek _ (by decide +kernel))
  have e8 : Dict.get as' "alias".toList = Dict.get as "alias".toList := hA _ (by decide +kernel)
  simp only [kindD, compileKind, importNode, e1, e2, e3, e4, e5, e6, e7, e8]
  clear hg ek e1 e2 e3 e4 e5 e6 e7 e8
  cases d with
  | replace => exact .pure rfl
  | imp => exact .pure rfl
  | incl => exact .pure rfl
  | ext =>
    refine Acc.modify (p' := p.ext) (fun s hs => ⟨hs.inDef, rfl, hs.calls⟩) ?_
    exact (hn p.ext).wrap fun b _ => rfl
  | block => exact acc_block c p (attr as "name") ks (hn p)
  | defn =>
    intro s hs
    change if inner p.fn = true then ∃ ys s', compileDef (attr as "function") nop s = _ ∧ _ else
      ∃ e, compileDef (attr as "function") nop s = _
    have h := hn p.fn { s with inDef := true } ⟨rfl, hs.child, hs.calls⟩
    unfold compileDef
    simp only [CM.bind, CM.get, CM.modify]
    split at h
    · next ho =>
      rw [if_pos ho]
      obtain ⟨ys, s', h1, h2, h3⟩ := h
      rw [h1]
      simp only [dirChoice]
      rw [← hs.inDef]
      cases hi : s.inDef with
      | true => exact ⟨_, _, rfl, ⟨hi.symm.trans hs.inDef, h2.child, h2.calls⟩, rfl⟩
      | false => exact ⟨_, _, rfl, ⟨hi.symm.trans hs.inDef, h2.child, h2.calls⟩, rfl⟩
    · next ho =>
      rw [if_neg ho]
      obtain ⟨e, he⟩ := h
      rw [he]
      exact ⟨e, rfl⟩
  | call =>
    change Acc (compileCall c (attr as "function") ks nop) _ _ _ _
    unfold compileCall
    have hf : fine (callerDecl ks) = startsWithElement ks := by
      cases ks with
      | nil => rfl
      | cons k ks => cases k <;> rfl
    simp only [dirAccepted]
    rw [← hf]
    refine Acc.lift fun a _ => ?_
    refine ((hn p).seq (p'' := afterDir c.opts p ks .call) (ok' := true) fun b _ => ?_).cast (Bool.and_true _)
    intro s hs
    exact ⟨_, _, rfl, ⟨hs.inDef, hs.child, congrArg (· + 1) hs.calls⟩, rfl⟩
  | forD => exact (hn p).wrap fun b _ => rfl
  | withD =>
    refine (hn p).seq fun b _ => ?_
    refine Acc.cast (ok := fine _ && true) ?_ (Bool.and_true _)
    exact Acc.lift fun a _ => .pure rfl
  | switchD =>
    refine (hn p).seq fun b hb => ?_
    have hf : fine (switchBody b) = choicesOnly c p ks := by
      rw [switchBody_eq, ← hb]
      cases b.all swOk <;> rfl
    rw [← hf]
    refine Acc.cast (ok := fine _ && true) ?_ (Bool.and_true _)
    exact Acc.lift fun a _ => .pure rfl
  | caseD => exact (hn p).wrap fun b _ => rfl
  | ifD => exact (hn p).wrap fun b _ => rfl
  | elseD =>
    have hf : fine (elseAllowed ctx) = elseAccepted ctx.parent ctx.switch ctx.prev := by
      unfold elseAllowed elseAccepted
      cases ctx.parent with
      | none => rfl
      | some q =>
        simp only
        have : nopTag = "py:nop".toList := rfl
        rw [this]
        generalize "py:nop".toList = a
        generalize "py:if".toList = b
        by_cases h1 : q = a <;> by_cases h2 : ctx.prev = b <;> cases ctx.switch <;> simp [h1, h2, fine]
    simp only [dirAccepted]
    rw [← hf]
    exact Acc.lift fun _ _ => (hn p).wrap fun b _ => rfl
  | nop => exact hn p

/-! ## Nodes -/

theorem fine_autoblock (c : CEnv) (t : Str) (as : Dict Str) :
    fine (isAutoblock c t as) = markAccepted c.opts t as := by
  unfold isAutoblock markAccepted
  cases c.opts.autoblocks.contains t with
  | false => rfl
  | true =>
    simp only [if_true, Bool.not_true, Bool.false_or]
    cases Dict.get as "py:autoblock".toList with
    | none => rfl
    | some v =>
      simp only
      generalize "true".toList = a
      generalize "false".toList = b
      generalize lowerAscii v = u
      generalize Dict.del as "py:autoblock".toList = as'
      by_cases h2 : u = b
      · rw [if_pos h2]; exact (decide_eq_true (Or.inr h2)).symm
      · rw [if_neg h2]
        by_cases h1 : u = a
        · rw [if_pos h1]; exact (decide_eq_true (Or.inl h1)).symm
        · rw [if_neg h1]; exact (decide_eq_false (fun h => h.elim h1 h2)).symm

theorem has_plain (o : Opts) (tag : Str) (as : Dict Str) (k : Str) (hk : k ≠ "py:autoblock".toList) :
    Dict.has (plainAttrs o tag as) k = Dict.has as k := by
  unfold Dict.has
  rw [get_plain _ _ _ _ hk]

theorem sel_append {a b : List Ir} {x y : Bool} (h : a.all swOk = x) (h2 : b.all swOk = y) :
    (a ++ b).all swOk = (x && y) := by rw [List.all_append, h, h2]

theorem sel_anno {l : Nat} {x : Bool} (b : List Ir) (h : b.all swOk = x) : (b.map (anno l)).all swOk = x := by
  rw [all_swOk_anno, h]

theorem swOk_comment (d : Str) (l : Nat) :
    swOk (.text ("<!-- ".toList ++ d ++ " -->".toList) none l) = false := strip_lt _

mutual
theorem acc_node (c : CEnv) (ctx : Ctx) (p : Place) (x : DNode) (hx : known c.opts x = true) :
    Acc (compileNode c ctx x) p (after c.opts p x) (accepted c p ctx.parent ctx.switch ctx.prev x)
      fun ys => ys.all swOk = choiceOnly c p x := by
  cases x with
  | comment d ln =>
    simp only [compileNode, after, accepted, choiceOnly]
    refine .annotate ln (.pure ?_) sel_anno
    unfold compileComment
    cases h : ['!'].isPrefixOf d with
    | true => rfl
    | false =>
      simp only [Bool.false_eq_true, if_false, List.all_cons, swOk_comment, Bool.false_and]
  | text d e ln =>
    simp only [compileNode, after, accepted, choiceOnly]
    exact (acc_text c p _ d ln).mono fun ys h => h.1
  | cdata d ln =>
    simp only [compileNode, after, accepted, choiceOnly]
    exact (acc_text c p _ d ln).mono fun ys h => h.1
  | pi tg d ln =>
    simp only [compileNode, after, accepted, choiceOnly]
    refine .annotate ln ?_ sel_anno
    unfold compilePi
    refine (Acc.lift (ok := true) fun q hq => ?_).cast (Bool.and_true _)
    have hl : pyLines (strip d) = q := by unfold pyLines; rw [hq]
    rw [hl]
    cases q.1 with
    | true =>
      rw [if_pos rfl]
      exact Acc.modify (fun s hs => ⟨hs.inDef, hs.child, hs.calls⟩) (.pure rfl)
    | false => exact .pure rfl
  | elem t as ln kids =>
    simp only [compileNode]
    unfold known at hx
    rw [Bool.and_eq_true] at hx
    cases hm : markAccepted c.opts t as with
    | false =>
      have : accepted c p ctx.parent ctx.switch ctx.prev (.elem t as ln kids) = false := by
        unfold accepted; rw [hm]; rfl
      rw [this]
      refine (Acc.lift (ok := false) fun a ha => ?_).cast (Bool.and_false _)
      rw [← fine_autoblock, ha] at hm
      cases hm
    | true =>
      have hauto1 := fine_autoblock c t as
      rw [hm] at hauto1
      refine (Acc.lift fun a hauto => ?_).cast (by rw [hauto1, Bool.true_and])
      obtain ⟨h1, h2, h3⟩ := autoblock_plain hauto
      cases ha : a.1 with
      | true =>
        rw [ha] at h1
        rw [accepted_auto c p _ _ _ t as ln kids hm h1.symm]
        simp only [if_true]
        have hafter : after c.opts p (.elem t as ln kids) = afterAll c.opts p kids := by
          simp only [after]; rw [if_pos h1.symm]
        have hch : choiceOnly c p (.elem t as ln kids) = (afterAll c.opts p kids).child := by
          unfold choiceOnly; rw [if_pos h1.symm]
        rw [hafter, hch, h3 ha]
        exact .annotate ln (acc_block c p t kids (Q := fun _ => True)
          (.annotate ln (acc_kids c false (some t) _ [] p kids hx.2) fun _ _ => trivial))
          sel_anno
      | false =>
        rw [ha] at h1
        simp only [Bool.false_eq_true, if_false]
        rw [h2 ha]
        have hsw : Dict.has (plainAttrs c.opts t as) "py:switch".toList = Dict.has as "py:switch".toList :=
          has_plain _ _ _ _ (by decide +kernel)
        have hct := attr_plain c.opts t as "py:content" (by decide +kernel)
        cases hd : dirOf t with
        | none =>
          have hpy : (!"py:".toList.isPrefixOf t) = true := by
            have := hx.1
            rw [← h1, hd] at this
            simpa using this
          rw [kindOf_none hpy]
          rw [accepted_none c p _ _ _ t as ln kids hm h1.symm hd]
          have hch : choiceOnly c p (.elem t as ln kids) = false := by
            unfold choiceOnly
            rw [if_neg (by rw [← h1]; simp), hd]
          have hafter : after c.opts p (.elem t as ln kids) =
              if ownContent c.opts t as then p else afterAll c.opts p kids := by
            simp only [after]; rw [if_neg (by rw [← h1]; simp), hd]
          rw [hch, hafter]
          refine .annotate ln ?_ sel_anno
          rw [hsw, script_eq]
          cases hs : script c.opts t with
          | true =>
            have := acc_xml c p t (plainAttrs c.opts t as) ln kids (scriptKids c t kids) (ok := scriptAccepted c kids)
              (p' := p) (Q := fun _ => True) (by rintro rfl; rfl) (by
                unfold scriptKids
                exact (acc_script c p t kids).wrap fun _ _ => trivial) (fun _ => rfl)
            rw [hct] at this
            have hp : (if ownContent c.opts t as = true then p else afterAll c.opts p kids) =
                if (attr as "py:content").isEmpty = true then p else p := by
              unfold ownContent
              rw [hs, Bool.or_true, if_pos rfl, ite_self]
            rw [hp]
            exact this
          | false =>
            have := acc_xml c p t (plainAttrs c.opts t as) ln kids
              (compileKids c true (some t) (Dict.has as "py:switch".toList) [] kids)
              (by rintro rfl; rfl) (acc_kids c true (some t) _ [] p kids hx.2) (by rintro rfl; rfl)
            rw [hct] at this
            have hp : (if ownContent c.opts t as = true then p else afterAll c.opts p kids) =
                if (attr as "py:content").isEmpty = true then afterAll c.opts p kids else p := by
              unfold ownContent
              rw [hs, Bool.or_false]
              cases (attr as "py:content").isEmpty <;> rfl
            rw [hp]
            exact this
        | some d =>
          have hne : kindOf t ≠ .xml := by rw [kindOf_dir hd]; cases d <;> exact fun h => nomatch h
          rw [accepted_dir c p _ _ _ t as ln kids hm h1.symm hd, choiceOnly_dir c p t as ln kids h1.symm hd,
            after_dir p h1.symm hd, hsw]
          have := acc_kind c ctx p as kids (plainAttrs c.opts t as) (fun k hk => get_plain _ _ _ _ hk)
            (annotate ln (compileKids c false (some t) (Dict.has as "py:switch".toList) [] kids)) d
            (fun p => acceptedAll c p false (some t) (Dict.has as "py:switch".toList) [] kids)
            (fun p => .annotate ln (acc_kids c false (some t) _ [] p kids hx.2) fun b h => sel_anno b (h rfl))
          rw [← kindOf_dir hd] at this
          split
          · next h => exact absurd h hne
          · exact .annotate ln this sel_anno

theorem acc_kids (c : CEnv) (raw : Bool) (parent : Option Str) (sw : Bool) (prev : Str) (p : Place)
    (xs : List DNode) (hx : knownAll c.opts xs = true) :
    Acc (compileKids c raw parent sw prev xs) p (afterAll c.opts p xs) (acceptedAll c p raw parent sw prev xs)
      fun ys => raw = false → ys.all swOk = choicesOnly c p xs := by
  cases xs with
  | nil => simp only [compileKids, afterAll, acceptedAll]; exact .pure fun _ => by simp [choicesOnly]
  | cons x xs =>
    unfold knownAll at hx
    rw [Bool.and_eq_true] at hx
    simp only [afterAll]
    have general : (raw = true → ∀ d l, x ≠ .cdata d l) →
        Acc (CM.bind (compileNode c ⟨parent, sw, prev⟩ x) fun ys =>
          CM.bind (compileKids c raw parent sw (tagOf x) xs) fun zs => CM.pure (ys ++ zs)) p
          (afterAll c.opts (after c.opts p x) xs) (acceptedAll c p raw parent sw prev (x :: xs))
          fun ys => raw = false → ys.all swOk = choicesOnly c p (x :: xs) := by
      intro hr
      have he : acceptedAll c p raw parent sw prev (x :: xs) = (accepted c p parent sw prev x &&
          acceptedAll c (after c.opts p x) raw parent sw (tagOf x) xs) := by
        conv_lhs => unfold acceptedAll
        cases raw with
        | false => rfl
        | true =>
          cases x with
          | cdata d l => exact absurd rfl (hr rfl d l)
          | _ => rfl
      rw [he]
      refine (acc_node c ⟨parent, sw, prev⟩ p x hx.1).seq fun b hb => ?_
      refine (acc_kids c raw parent sw (tagOf x) (after c.opts p x) xs hx.2).wrap fun b' hb' hr => ?_
      rw [sel_append hb (hb' hr)]
      simp only [choicesOnly]
    cases x with
    | cdata d l =>
      simp only [compileKids]
      cases raw with
      | true =>
        simp only [if_true, after]
        rw [XmlComp.pure_bind]
        have he : acceptedAll c p true parent sw prev (.cdata d l :: xs) = acceptedAll c p true parent sw [] xs := by
          conv_lhs => unfold acceptedAll
          simp only [Bool.true_and, after, tagOf]
        rw [he]
        exact (acc_kids c true parent sw [] p xs hx.2).wrap fun b _ h => nomatch h
      | false =>
        simp only [Bool.false_eq_true, if_false]
        have := general (by simp)
        simp only [compileNode, tagOf] at this
        exact this
    | _ => simp only [compileKids]; exact general (by simp)
end

end Kajiki.DocComp
