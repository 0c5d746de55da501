import Verif.Lemmas.FillSem
import Verif.Lemmas.StaticDom

/-! Parsing and transforming documents with expressions. -/

namespace Kajiki.FillDoc
open Kajiki.Spec.Fill Kajiki.Spec.DocSem Kajiki.Doms
open Kajiki.Spec.Static (reserved)
open Kajiki.Spec.Dom (order)
open Kajiki.StaticDoc (comments)

section
variable {py : PyCompile} {G : Str → Prop} {val : Str → Val}

/-! ## Lists -/

theorem serAll_append (o : Opts) (mode : Str) (xs ys : List T) :
    serAll val o mode (xs ++ ys) = serAll val o mode xs ++ serAll val o mode ys := by
  induction xs with
  | nil => rw [List.nil_append, serAll, List.nil_append]
  | cons x xs ih => rw [List.cons_append, serAll, serAll, ih, List.append_assoc]

theorem okAll_append (o : Opts) (xs ys : List T) : OkAll py G o (xs ++ ys) ↔ OkAll py G o xs ∧ OkAll py G o ys := by
  simp only [okAll_iff, List.mem_append]
  exact ⟨fun h => ⟨fun x hx => h x (.inl hx), fun x hx => h x (.inr hx)⟩, fun h x hx => hx.elim (h.1 x) (h.2 x)⟩

/-! ## Expanding -/

mutual
theorem expand_ok (o : Opts) : ∀ x, Ok py G o x → expand (toD x) = toD x
  | .text _ _ _, _ => rfl
  | .cdata _ _, _ => rfl
  | .comment _ _, _ => rfl
  | .elem t as ln kids, h => by
    obtain ⟨h1, h2, -, -, -, h6⟩ := h
    have h2' := plain_keys fun kv hkv => (h2 kv hkv).1
    have ht : t ∉ order := fun hm => by rw [StaticDoc.order_reserved t hm] at h1; cases h1
    have hx : Dict.get (as.map fun kv => (kv.1, written kv.2)) extendsTag = none :=
      StaticDoc.get_reserved h2' (by decide +kernel)
    have hp : pullExtends t (as.map fun kv => (kv.1, written kv.2)) ln = (as.map fun kv => (kv.1, written kv.2), []) := by
      unfold pullExtends; rw [hx]; split <;> rfl
    rw [toD, expand, normTag_other ht]
    dsimp only
    rw [hp, StaticDoc.wrapAll_none _ _ _ _ fun d hd => StaticDoc.get_reserved h2' (StaticDoc.order_reserved _ (by
      rw [← directives_order]; exact List.mem_map.2 ⟨d, hd, rfl⟩)), expandList_ok o kids h6]
    rfl

theorem expandList_ok (o : Opts) : ∀ xs, OkAll py G o xs → expandList (toDAll xs) = toDAll xs
  | [], _ => rfl
  | x :: xs, h => by rw [toDAll, expandList, expand_ok o x h.1, expandList_ok o xs h.2]
end

/-! ## Merging -/

/-- Neighbouring texts are both outside or both inside a CDATA section, and no name goes on. -/
def Next : T → T → Prop
  | .text ts e _, .text us e' _ => e = e' ∧ goesOn ts us
  | _, _ => True

mutual
/-- All neighbouring texts are. -/
def Chained : T → Prop
  | .elem _ _ _ kids => kids.IsChain Next ∧ ChainedAll kids
  | _ => True

/-- The same for several nodes. -/
def ChainedAll : List T → Prop
  | [] => True
  | x :: xs => Chained x ∧ ChainedAll xs
end

/-- Two lists of nodes that are shown in the same way. -/
structure Same (py : PyCompile) (G : Str → Prop) (val : Str → Val) (o : Opts) (xs ys : List T) : Prop where
  ok : OkAll py G o ys
  ser : ∀ mode, serAll val o mode ys = serAll val o mode xs
  script : ys.flatMap (scriptOut val) = xs.flatMap (scriptOut val)
  text : (∀ x ∈ xs, isTextT x = true) → ∀ y ∈ ys, isTextT y = true
  empty : ys.isEmpty = xs.isEmpty

theorem Same.refl {o : Opts} {xs : List T} (h : OkAll py G o xs) : Same py G val o xs xs :=
  ⟨h, fun _ => rfl, rfl, id, rfl⟩

theorem Same.trans {o : Opts} {xs ys zs : List T} (h : Same py G val o xs ys) (h' : Same py G val o ys zs) :
    Same py G val o xs zs :=
  ⟨h'.ok, fun m => (h'.ser m).trans (h.ser m), h'.script.trans h.script, fun hx => h'.text (h.text hx),
    h'.empty.trans h.empty⟩

theorem Same.append {o : Opts} {xs ys xs' ys' : List T} (h : Same py G val o xs ys) (h' : Same py G val o xs' ys') :
    Same py G val o (xs ++ xs') (ys ++ ys') :=
  ⟨(okAll_append ..).2 ⟨h.ok, h'.ok⟩, fun m => by rw [serAll_append, serAll_append, h.ser, h'.ser],
    by rw [List.flatMap_append, List.flatMap_append, h.script, h'.script],
    fun hx y hy => (List.mem_append.1 hy).elim (h.text (fun x hx' => hx x (List.mem_append_left _ hx')) y)
      (h'.text (fun x hx' => hx x (List.mem_append_right _ hx')) y),
    by
      have h1 := h.empty
      have h2 := h'.empty
      cases xs <;> cases ys <;> simp_all⟩

/-- The element with other children. -/
theorem Same.elem {o : Opts} {t : Str} {as : List (Str × List Item)} {ln : Nat} {xs ys : List T}
    (hl : Ok py G o (.elem t as ln xs)) (h : Same py G val o xs ys) :
    Same py G val o [.elem t as ln xs] [.elem t as ln ys] := by
  obtain ⟨h1, h2, h3, h4, h5, h6⟩ := hl
  refine ⟨⟨⟨h1, h2, h3, h4, fun hs => h.text (h5 hs), h.ok⟩, trivial⟩, fun mode => ?_, rfl, ?_, rfl⟩
  · simp only [serAll, FillDoc.ser, List.append_nil]
    rw [h.empty, h.ser]
    unfold scriptSer
    rw [h.script]
  · intro hx
    have := hx _ (List.mem_singleton.2 rfl)
    cases this

/-- Texts. -/
def texts (e : Bool) (ps : List (List Item × Nat)) : List T := ps.map fun p => .text p.1 e p.2

theorem known_append {e : Bool} {a b : List Item} (h : Known py G e (a ++ b)) : Known py G e a ∧ Known py G e b := by
  obtain ⟨h1, h2⟩ := h
  obtain ⟨h3, h4⟩ := Text.append h1
  unfold expressions at h2
  rw [List.filterMap_append] at h2
  exact ⟨⟨h3, fun x hx => h2 x (List.mem_append_left _ hx)⟩, h4, fun x hx => h2 x (List.mem_append_right _ hx)⟩

theorem known_join {e : Bool} {a b : List Item} (ha : Known py G e a) (hb : Known py G e b)
    (h : ∀ x ∈ a.getLast?, ∀ y ∈ b.head?, apart x y) : Known py G e (a ++ b) := by
  refine ⟨Text.join ha.text hb.text h, ?_⟩
  unfold expressions
  rw [List.filterMap_append]
  exact fun x hx => (List.mem_append.1 hx).elim (ha.known x) (hb.known x)

theorem textShown_append (a b : List Item) : textShown val (a ++ b) = textShown val a ++ textShown val b := by
  simp [textShown]

theorem rawShown_append (a b : List Item) : rawShown val (a ++ b) = rawShown val a ++ rawShown val b := by
  simp [rawShown]

/-- Texts one after the other. -/
theorem same_texts {o : Opts} {e : Bool} (ts us : List (List Item × Nat))
    (h : (ts.map (·.1)).flatten = (us.map (·.1)).flatten) (he : ts.isEmpty = us.isEmpty)
    (hk : ∀ p ∈ us, Known py G e p.1) : Same py G val o (texts e ts) (texts e us) := by
  have hs : ∀ ts : List (List Item × Nat), ∀ mode, serAll val o mode (texts e ts) =
      if e then textShown val (ts.map (·.1)).flatten else rawShown val (ts.map (·.1)).flatten := by
    intro ts mode
    induction ts with
    | nil => cases e <;> rfl
    | cons p ts ih =>
      unfold texts at ih ⊢
      rw [List.map_cons, serAll, ih, ser]
      cases e <;> simp [textShown_append, rawShown_append]
  have hsc : ∀ ts : List (List Item × Nat), (texts e ts).flatMap (scriptOut val) = rawShown val (ts.map (·.1)).flatten := by
    intro ts
    induction ts with
    | nil => rfl
    | cons p ts ih =>
      unfold texts at ih ⊢
      rw [List.map_cons, List.flatMap_cons, ih, List.map_cons, List.flatten_cons, rawShown_append]; rfl
  refine ⟨(okAll_iff ..).2 ?_, ?_, ?_, ?_, ?_⟩
  · intro x hx
    obtain ⟨p, hp, rfl⟩ := List.mem_map.1 hx
    exact hk p hp
  · intro m; rw [hs, hs, h]
  · rw [hsc, hsc, h]
  · intro _ x hx
    obtain ⟨p, -, rfl⟩ := List.mem_map.1 hx
    rfl
  · simpa [texts] using he.symm

theorem squash_same {o : Opts} : ∀ (m : Option (List Item × Bool × Nat)) (xs : List T), OkAll py G o xs →
    (m.toList.map (fun p => T.text p.1 p.2.1 p.2.2) ++ xs).IsChain Next →
    (∀ d e l, m = some (d, e, l) → Known py G e d) →
    ∃ ys, squash (m.map fun p => (enc p.2.1 p.1, p.2.1, p.2.2)) (toDAll xs) = toDAll ys ∧
      Same py G val o (m.toList.map (fun p => T.text p.1 p.2.1 p.2.2) ++ xs) ys := by
  intro m xs
  induction xs generalizing m with
  | nil =>
    intro _ _ hm
    cases m with
    | none => exact ⟨[], rfl, .refl trivial⟩
    | some p =>
      obtain ⟨d, e, l⟩ := p
      exact ⟨[.text d e l], rfl, .refl ⟨hm d e l rfl, trivial⟩⟩
  | cons x xs ih =>
    intro hl hc hm
    obtain ⟨h1, h2⟩ := hl
    have hrest : (∀ d e l, x ≠ .text d e l) →
        ∃ ys, toD x :: squash none (toDAll xs) = toDAll ys ∧ Same py G val o (x :: xs) ys := by
      intro _
      have hc' : xs.IsChain Next := by
        cases m with
        | none => exact hc.tail
        | some p => exact hc.tail.tail
      obtain ⟨ys, e1, e2⟩ := ih none h2 hc' (by intro _ _ _ h; cases h)
      refine ⟨x :: ys, by rw [toDAll]; exact congrArg _ e1, ?_⟩
      exact Same.append (xs := [x]) (ys := [x]) (.refl ⟨h1, trivial⟩) e2
    cases m with
    | none =>
      cases x with
      | text d e l =>
        rw [toDAll, toD, Option.map_none, squash]
        exact ih (some (d, e, l)) h2 hc (by rintro _ _ _ ⟨⟩; exact h1)
      | _ =>
        rw [toDAll, toD, Option.map_none, squash]
        · exact hrest (by intros; nofun)
        all_goals (intro _ _ _ h; cases h)
    | some p =>
      obtain ⟨d, e, l⟩ := p
      have hd := hm d e l rfl
      cases x with
      | text d' e' l' =>
        rw [toDAll, toD, Option.map_some, squash]
        have he : e = e' ∧ goesOn d d' := by
          have := hc
          simp only [Option.toList, List.map_cons, List.map_nil, List.cons_append, List.nil_append,
            List.isChain_cons_cons] at this
          exact this.1
        obtain ⟨rfl, hne, hg⟩ := he
        rw [← enc_append]
        have hk := known_join hd h1 hg
        have hc' : ((some (d ++ d', e, l)).toList.map (fun p => T.text p.1 p.2.1 p.2.2) ++ xs).IsChain Next := by
          have h3 := hc.tail
          simp only [Option.toList, List.map_cons, List.map_nil, List.cons_append, List.nil_append] at h3 ⊢
          cases xs with
          | nil => exact .singleton _
          | cons y ys =>
            simp only [List.tail_cons, List.isChain_cons_cons] at h3 ⊢
            refine ⟨?_, h3.2⟩
            cases y with
            | text d'' e'' l'' =>
              refine ⟨h3.1.1, h3.1.2.1, ?_⟩
              rw [List.getLast?_append_of_ne_nil _ hne]
              exact h3.1.2.2
            | _ => trivial
        obtain ⟨ys, e1, e2⟩ := ih (some (d ++ d', e, l)) h2 hc' (by rintro _ _ _ ⟨⟩; exact hk)
        refine ⟨ys, e1, Same.trans ?_ e2⟩
        exact Same.append (xs := texts e [(d, l), (d', l')]) (ys := texts e [(d ++ d', l)])
          (same_texts [(d, l), (d', l')] [(d ++ d', l)] (by simp) rfl (by
            intro p hp; rw [List.mem_singleton.1 hp]; exact hk)) (.refl h2)
      | _ =>
        rw [toDAll, toD, Option.map_some, squash]
        · obtain ⟨ys, e1, e2⟩ := hrest (by intros; nofun)
          refine ⟨.text d e l :: ys, ?_, ?_⟩
          · rw [toDAll, ← e1]; rfl
          · exact Same.append (xs := [_]) (ys := [_]) (.refl ⟨hd, trivial⟩) e2
        all_goals (intro _ _ _ h; cases h)

/-- The same text, or both are none. -/
def Like (x y : T) : Prop := x = y ∨ ((∀ z, Next x z) ∧ (∀ z, Next z x)) ∧ (∀ z, Next y z) ∧ ∀ z, Next z y

theorem Like.next {x y x' y' : T} (h : Like x y) (h' : Like x' y') (hn : Next x x') : Next y y' := by
  rcases h with rfl | ⟨-, h, -⟩
  · rcases h' with rfl | ⟨-, -, h'⟩
    · exact hn
    · exact h' _
  · exact h _

theorem chain_like {xs ys : List T} (h : List.Forall₂ Like xs ys) (hc : xs.IsChain Next) : ys.IsChain Next := by
  induction h with
  | nil => exact .nil
  | cons h1 h2 ih =>
    cases h2 with
    | nil => exact .singleton _
    | cons h3 h4 =>
      rw [List.isChain_cons_cons] at hc
      exact List.isChain_cons_cons.2 ⟨h1.next h3 hc.1, ih hc.2⟩

mutual
/-- Texts are merged. -/
theorem merge_same (o : Opts) : ∀ x, Ok py G o x → Chained x →
    ∃ y, merge (toD x) = toD y ∧ Same py G val o [x] [y] ∧ Like x y
  | .text d e l, h, _ => ⟨_, rfl, .refl ⟨h, trivial⟩, .inl rfl⟩
  | .cdata _ _, h, _ => ⟨_, rfl, .refl ⟨h, trivial⟩, .inl rfl⟩
  | .comment _ _, h, _ => ⟨_, rfl, .refl ⟨h, trivial⟩, .inl rfl⟩
  | .elem t as ln kids, h, hf => by
    obtain ⟨ys, e1, e2, e3⟩ := mergeList_same o kids h.2.2.2.2.2 hf.2
    obtain ⟨zs, f1, f2⟩ := squash_same none ys e2.ok (chain_like e3 hf.1) (by intro _ _ _ h; cases h)
    refine ⟨.elem t as ln zs, ?_, Same.elem h (e2.trans f2), .inr ⟨⟨?_, ?_⟩, ?_, ?_⟩⟩
    · rw [toD, merge, e1, toD]
      exact congrArg _ f1
    all_goals (intro z; cases z <;> trivial)

theorem mergeList_same (o : Opts) : ∀ xs, OkAll py G o xs → ChainedAll xs →
    ∃ ys, mergeList (toDAll xs) = toDAll ys ∧ Same py G val o xs ys ∧ List.Forall₂ Like xs ys
  | [], _, _ => ⟨[], rfl, .refl trivial, .nil⟩
  | x :: xs, h, hf => by
    obtain ⟨y, e1, e2, e3⟩ := merge_same o x h.1 hf.1
    obtain ⟨ys, f1, f2, f3⟩ := mergeList_same o xs h.2 hf.2
    exact ⟨y :: ys, by rw [toDAll, mergeList, e1, f1, toDAll], Same.append (xs := [x]) (ys := [y]) e2 f2, .cons e3 f3⟩
end

/-! ## Splitting -/

theorem enc_chars (e : Bool) {s : Str} (h : ∀ c ∈ s, isSpace c = true) : enc e (chars s) = s := by
  induction s with
  | nil => rfl
  | cons c s ih =>
    have hd : c ≠ '$' := by rintro rfl; have := h '$' (by simp); rw [isSpace_dollar] at this; cases this
    have hp := space_plain (h c (by simp))
    have h1 : encTok e (.ch c) = [c] := by
      rw [encTok_ch, if_neg hd]
      cases e with
      | false => rfl
      | true => simp [escChar, saxEscapeChar, hp.1, hp.2.1, hp.2.2]
    have : chars (c :: s) = .ch c :: chars s := rfl
    rw [this, enc_cons, h1, ih fun d hd => h d (by simp [hd])]
    rfl

theorem unlessEmpty_same (e : Bool) {s : Str} (h : ∀ c ∈ s, isSpace c = true) (l : Nat) :
    ∃ ts : List (List Item × Nat), textUnlessEmpty s e l = toDAll (texts e ts) ∧ (ts.map (·.1)).flatten = chars s ∧
      ∀ p ∈ ts, p.1 = chars s := by
  unfold textUnlessEmpty
  split
  · next hs =>
    rw [List.isEmpty_iff.1 hs]
    exact ⟨[], rfl, rfl, by intro p hp; cases hp⟩
  · refine ⟨[(chars s, l)], ?_, by simp, ?_⟩
    · change [_] = [DNode.text (enc e (chars s)) e l]
      rw [enc_chars e h]
    · intro p hp
      rw [List.mem_singleton.1 hp]

theorem split_same {o : Opts} (e : Bool) (ts : List Item) (l : Nat) (hk : Known py G e ts) :
    ∃ ys, splitText (enc e ts) e l = toDAll ys ∧ Same py G val o [.text ts e l] ys := by
  rw [splitText_eq]
  split
  · exact ⟨[.text ts e l], rfl, .refl ⟨hk, trivial⟩⟩
  · have hb1 : ∀ c ∈ (enc e ts).takeWhile isSpace, isSpace c = true := fun c hc => mem_takeWhile hc
    have hb2 := trail_blank (lstrip (enc e ts))
    obtain ⟨t1, h1, h2⟩ := enc_lead hk.text.1 (cut_lead_core_trail (enc e ts)).symm hb1
    obtain ⟨hk0, hk1⟩ := known_append (h1 ▸ hk)
    obtain ⟨t2, h3, h4⟩ := enc_trail hk1.text.1 h2.symm hb2
    obtain ⟨hk2, hk3⟩ := known_append (h3 ▸ hk1)
    generalize (enc e ts).takeWhile isSpace = a at *
    generalize trail (lstrip (enc e ts)) = b at *
    rw [h4]
    obtain ⟨ts1, e1, f1, g1⟩ := unlessEmpty_same e hb1 l
    obtain ⟨ts2, e2, f2, g2⟩ := unlessEmpty_same e hb2 (l + countNL a + countNL (enc e t2))
    refine ⟨texts e ts1 ++ .text t2 e (l + countNL a) :: texts e ts2, ?_, ?_⟩
    · rw [e1, e2, toDAll_append, toDAll]
      simp [toD]
    · have := same_texts (val := val) (o := o) (e := e) (py := py) (G := G) [(ts, l)] (ts1 ++ (t2, l + countNL a) :: ts2)
        (by simp [f1, f2, h1, h3]) (by cases ts1 <;> rfl) (by
          intro p hp
          rcases List.mem_append.1 hp with hp | hp
          · rw [g1 p hp]; exact hk0
          · rcases List.mem_cons.1 hp with rfl | hp
            · exact hk2
            · rw [g2 p hp]; exact hk3)
      simpa [texts] using this

mutual
theorem extract_same (o : Opts) : ∀ x, Ok py G o x → ∃ ys, extract (toD x) = toDAll ys ∧ Same py G val o [x] ys
  | .text d e l, h => split_same e d l h
  | .cdata d l, h => ⟨[.cdata d l], rfl, .refl ⟨h, trivial⟩⟩
  | .comment d l, h => ⟨[.comment d l], rfl, .refl ⟨h, trivial⟩⟩
  | .elem t as ln kids, h => by
    obtain ⟨ys, e1, e2⟩ := extractList_same o kids h.2.2.2.2.2
    refine ⟨[.elem t as ln ys], ?_, Same.elem h e2⟩
    rw [toD, extract, e1]
    rfl

theorem extractList_same (o : Opts) : ∀ xs, OkAll py G o xs →
    ∃ ys, extractList (toDAll xs) = toDAll ys ∧ Same py G val o xs ys
  | [], _ => ⟨[], rfl, .refl trivial⟩
  | x :: xs, h => by
    obtain ⟨ys, e1, e2⟩ := extract_same o x h.1
    obtain ⟨zs, f1, f2⟩ := extractList_same o xs h.2
    exact ⟨ys ++ zs, by rw [toDAll, extractList, e1, f1, toDAll_append], Same.append (xs := [x]) e2 f2⟩
end

/-! ## The transformed document -/

theorem transform_same (o : Opts) (dtd : Str) (before after : List (Str × Nat)) (t : Str) (as : List (Str × List Item))
    (ln : Nat) (kids : List T) (h : Ok py G o (.elem t as ln kids)) (hf : Chained (.elem t as ln kids)) :
    ∃ kids', transform false ⟨dtd, comments before ++ toD (.elem t as ln kids) :: comments after⟩ =
        ⟨dtd, comments before ++ toD (.elem t as ln kids') :: comments after⟩ ∧
      Same py G val o [.elem t as ln kids] [.elem t as ln kids'] := by
  unfold transform
  simp only [Bool.false_eq_true, if_false]
  cases before with
  | nil =>
    obtain ⟨ys, e1, e2, e3⟩ := mergeList_same (val := val) o kids h.2.2.2.2.2 hf.2
    obtain ⟨zs, f1, f2⟩ := squash_same none ys e2.ok (chain_like e3 hf.1) (by intro _ _ _ h; cases h)
    have hz := Same.elem h (e2.trans f2)
    obtain ⟨us, g1, g2⟩ := extractList_same (val := val) o zs hz.ok.1.2.2.2.2.2
    refine ⟨us, ?_, hz.trans (Same.elem hz.ok.1 g2)⟩
    simp only [comments, List.map_nil, List.nil_append, onFirst]
    rw [expand_ok o _ h, extractList]
    have := StaticDoc.extract_comments after
    unfold comments at this
    rw [this, toD, merge, e1, extract]
    have f1 : squash none (toDAll ys) = toDAll zs := f1
    rw [f1, g1]
    rfl
  | cons c cs =>
    obtain ⟨us, g1, g2⟩ := extractList_same (val := val) o kids h.2.2.2.2.2
    refine ⟨us, ?_, Same.elem h g2⟩
    have : onFirst merge (onFirst expand (comments (c :: cs) ++ toD (.elem t as ln kids) :: comments after)) =
        comments (c :: cs) ++ toD (.elem t as ln kids) :: comments after := rfl
    rw [this, StaticDoc.extractList_append, StaticDoc.extract_comments, extractList, StaticDoc.extract_comments, toD,
      extract, g1]
    rfl

/-! ## Parsing -/

mutual
/-- The nodes in the document. -/
def dom : Node → List T
  | .elem tag attrs ln kids => [.elem tag attrs ln (domAll kids)]
  | .text ts ln => [.text ts true ln]
  | .cdata ps ln ln' => .cdata "<![CDATA[".toList ln :: (texts false ps ++ [.cdata "]]>".toList ln'])
  | .comment t ln => [.comment t ln]

/-- The same for several nodes. -/
def domAll : List Node → List T
  | [] => []
  | x :: xs => dom x ++ domAll xs
end

open StaticDoc (appendAll appendAll_append appendAll_cdata appendAll_open appendAll_doc)

theorem events_cdata (p : PState) (hp : p.cdata ≠ 0) (ps : List (List Item × Nat)) (es : List Event) :
    PState.events p (ps.map (fun q => .characters (written q.1) q.2) ++ es) =
      PState.events (appendAll p (toDAll (texts false ps))) es := by
  induction ps generalizing p with
  | nil => rfl
  | cons q ps ih =>
    have hc : (p.cdata == 0) = false := by simpa using hp
    have : p.event (.characters (written q.1) q.2) = .ok (p.append (.text (enc false q.1) false q.2)) := by
      simp only [PState.event, PState.characters, hc, Bool.false_eq_true, if_false, written_eq]
    rw [List.map_cons, List.cons_append, PState.events, this]
    exact ih _ (by rw [append_cdata]; exact hp)

mutual
theorem events_dom (o : Opts) : ∀ (x : Node) (p : PState) (es : List Event), Plain py o x → p.cdata = 0 →
    PState.events p (Spec.Fill.events x ++ es) = PState.events (appendAll p (toDAll (dom x))) es
  | .text ts ln, p, es, h, hp => by
    have : p.event (.characters (written ts) ln) = .ok (p.append (.text (enc true ts) true ln)) := by
      simp only [PState.event, PState.characters, hp, BEq.rfl, if_true]
      rw [saxEscape_written (py := py) h.1]
    rw [Spec.Fill.events, List.singleton_append, PState.events, this]
    rfl
  | .comment t ln, p, es, _, hp => by
    rw [Spec.Fill.events, List.singleton_append, PState.events, PState.event]
    rfl
  | .cdata ps ln ln', p, es, _, hp => by
    rw [Spec.Fill.events, List.cons_append, PState.events, PState.event]
    dsimp only
    rw [List.append_assoc, events_cdata _ (by simp)]
    rw [List.singleton_append, PState.events, PState.event]
    rw [if_neg (by rw [append_cdata, appendAll_cdata]; simp)]
    rw [dom, toDAll, toDAll_append]
    obtain ⟨els, doc, n⟩ := p
    change n = 0 at hp
    subst hp
    generalize toDAll (texts false ps) = us
    cases els with
    | nil =>
      simp only [PState.append, appendAll, List.foldl_cons, List.foldl_append, List.foldl_nil, toDAll, toD]
      have := appendAll_doc (doc ++ [DNode.cdata "<![CDATA[".toList ln]) (0 + 1) us
      have h2 := appendAll_doc (doc ++ [DNode.cdata "<![CDATA[".toList ln]) 0 us
      unfold appendAll at this h2
      rw [this, h2]
      rfl
    | cons q qs =>
      simp only [PState.append, appendAll, List.foldl_cons, List.foldl_append, List.foldl_nil, toDAll, toD]
      have := appendAll_open { q with kids := q.kids ++ [DNode.cdata "<![CDATA[".toList ln] } qs doc (0 + 1) us
      have h2 := appendAll_open { q with kids := q.kids ++ [DNode.cdata "<![CDATA[".toList ln] } qs doc 0 us
      unfold appendAll at this h2
      rw [this, h2]
      rfl
  | .elem tag attrs ln kids, p, es, h, hp => by
    obtain ⟨-, -, h3, -, -, -, h6⟩ := h
    obtain ⟨els, doc, n⟩ := p
    change n = 0 at hp
    subst hp
    have hu : Dict.update [] (attrs.map fun kv => (kv.1, written kv.2)) = attrs.map fun kv => (kv.1, written kv.2) :=
      StaticDoc.update_nodup [] _ (by rw [List.nil_append, List.map_map]; exact h3)
    rw [Spec.Fill.events, List.cons_append, PState.events, PState.event, hu]
    dsimp only
    rw [List.append_assoc, events_domAll o kids _ _ h6 rfl, appendAll_open, List.singleton_append, PState.events,
      PState.event]
    dsimp only
    rw [if_pos rfl, List.nil_append, dom]
    rfl

theorem events_domAll (o : Opts) : ∀ (xs : List Node) (p : PState) (es : List Event), PlainAll py o xs →
    p.cdata = 0 → PState.events p (eventsAll xs ++ es) = PState.events (appendAll p (toDAll (domAll xs))) es
  | [], p, es, _, _ => rfl
  | x :: xs, p, es, h, hp => by
    rw [eventsAll, List.append_assoc, events_dom o x p _ h.1 hp, events_domAll o xs _ es h.2
      (by rw [appendAll_cdata]; exact hp), domAll, toDAll_append, appendAll_append]
end

theorem parse_page (o : Opts) (dtd : Str) (d : Page) (h : Plain py o d.root) :
    parseEvents dtd d.events = .ok ⟨dtd, comments d.before ++
      toD (.elem d.tag d.attrs d.ln (domAll d.kids)) :: comments d.after⟩ := by
  unfold parseEvents Page.events
  rw [List.append_assoc, StaticDoc.events_comments, events_dom o d.root _ _ h (by rw [appendAll_cdata])]
  have := StaticDoc.events_comments d.after
    (appendAll (appendAll ⟨[], [], 0⟩ (comments d.before)) (toDAll (dom d.root))) []
  rw [List.append_nil] at this
  rw [this, appendAll_doc, appendAll_doc, appendAll_doc]
  simp [PState.events, Page.root, dom, toDAll]

/-! ## What the nodes are -/

theorem dom_ne (x : Node) : dom x ≠ [] := by cases x <;> simp [dom]

theorem isText_dom (ks : List Node) (h : ∀ x ∈ ks, isText x = true) : ∀ x ∈ domAll ks, isTextT x = true := by
  induction ks with
  | nil => intro x hx; cases hx
  | cons k ks ih =>
    intro x hx
    rw [domAll] at hx
    rcases List.mem_append.1 hx with hx | hx
    · have hk := h k (by simp)
      cases k with
      | text => rw [dom] at hx; rw [List.mem_singleton.1 hx]; rfl
      | cdata ps l l' =>
        rw [dom] at hx
        rcases List.mem_cons.1 hx with rfl | hx
        · rfl
        · rcases List.mem_append.1 hx with hx | hx
          · obtain ⟨p, -, rfl⟩ := List.mem_map.1 hx
            rfl
          · rw [List.mem_singleton.1 hx]; rfl
      | _ => cases hk
    · exact ih (fun x hx => h x (by simp [hx])) x hx

mutual
theorem dom_ok (o : Opts) : ∀ x, Plain py o x → (∀ e ∈ x.expressions, G e) → OkAll py G o (dom x)
  | .text ts ln, h, hg => ⟨⟨h, hg⟩, trivial⟩
  | .comment t ln, _, _ => ⟨trivial, trivial⟩
  | .cdata ps ln ln', h, hg => by
    rw [okAll_iff, dom]
    intro x hx
    rcases List.mem_cons.1 hx with rfl | hx
    · trivial
    · rcases List.mem_append.1 hx with hx | hx
      · obtain ⟨p, hp, rfl⟩ := List.mem_map.1 hx
        exact ⟨h.1 p hp, fun e he => hg e (List.mem_flatMap.2 ⟨p, hp, he⟩)⟩
      · rw [List.mem_singleton.1 hx]; trivial
  | .elem tag attrs ln kids, h, hg => by
    obtain ⟨h1, h2, h3, h4, h5, -, h6⟩ := h
    rw [Node.expressions] at hg
    refine ⟨⟨h1, ?_, h3, h4, fun hs => isText_dom kids (h5 hs),
      domAll_ok o kids h6 fun e he => hg e (List.mem_append_right _ he)⟩, trivial⟩
    intro kv hkv
    exact ⟨(h2 kv hkv).1, (h2 kv hkv).2, fun e he => hg e (List.mem_append_left _ (List.mem_flatMap.2 ⟨kv, hkv, he⟩))⟩

theorem domAll_ok (o : Opts) : ∀ xs, PlainAll py o xs → (∀ e ∈ expressionsAll xs, G e) → OkAll py G o (domAll xs)
  | [], _, _ => trivial
  | x :: xs, h, hg => by
    rw [expressionsAll] at hg
    rw [domAll, okAll_append]
    exact ⟨dom_ok o x h.1 fun e he => hg e (List.mem_append_left _ he),
      domAll_ok o xs h.2 fun e he => hg e (List.mem_append_right _ he)⟩
end

theorem texts_chain (ps : List (List Item × Nat)) (h : (ps.map (·.1)).IsChain goesOn) :
    (texts false ps).IsChain Next := by
  induction ps with
  | nil => exact .nil
  | cons u us ih =>
    cases us with
    | nil => exact .singleton _
    | cons v us =>
      simp only [List.map_cons, List.isChain_cons_cons] at h
      exact .cons_cons ⟨rfl, h.1⟩ (ih h.2)

/-- The nodes of a node. -/
theorem dom_chain (x : Node) (o : Opts) (h : Plain py o x) : (dom x).IsChain Next := by
  cases x with
  | cdata ps l l' =>
    rw [dom]
    have h2 := texts_chain ps h.2
    refine List.isChain_cons.2 ⟨fun _ _ => trivial, List.isChain_append.2 ⟨h2, .singleton _, ?_⟩⟩
    rintro x _ y ⟨⟩
    cases x <;> trivial
  | _ => exact .singleton _

/-- Where two nodes meet. -/
theorem dom_next {x y : Node} (h : next x y) : ∀ a ∈ (dom x).getLast?, ∀ b ∈ (dom y).head?, Next a b := by
  intro a ha b hb
  cases x with
  | cdata ps l l' =>
    rw [dom, ← List.cons_append, List.getLast?_append] at ha
    cases ha
    trivial
  | text ts l =>
    cases ha
    cases y with
    | text us l' => cases hb; exact ⟨rfl, h⟩
    | _ => cases hb; trivial
  | _ => cases ha; trivial

theorem head_domAll (x : Node) (xs : List Node) : (domAll (x :: xs)).head? = (dom x).head? := by
  rw [domAll, List.head?_append_of_ne_nil _ (dom_ne x)]

theorem domAll_chain (o : Opts) (xs : List Node) (h : PlainAll py o xs) (hc : xs.IsChain next) :
    (domAll xs).IsChain Next := by
  induction xs with
  | nil => exact .nil
  | cons x xs ih =>
    rw [domAll]
    refine List.isChain_append.2 ⟨dom_chain x o h.1, ih h.2 hc.tail, ?_⟩
    cases xs with
    | nil => intro a _ b hb; cases hb
    | cons y ys =>
      rw [head_domAll]
      exact dom_next (List.isChain_cons_cons.1 hc).1

theorem chainedAll_append (xs ys : List T) : ChainedAll (xs ++ ys) ↔ ChainedAll xs ∧ ChainedAll ys := by
  induction xs with
  | nil => simp [ChainedAll]
  | cons x xs ih => rw [List.cons_append, ChainedAll, ChainedAll, ih, and_assoc]

mutual
theorem dom_chained (o : Opts) : ∀ x, Plain py o x → ChainedAll (dom x)
  | .text _ _, _ => ⟨trivial, trivial⟩
  | .comment _ _, _ => ⟨trivial, trivial⟩
  | .cdata ps _ _, _ => by
    rw [dom]
    refine ⟨trivial, (chainedAll_append ..).2 ⟨?_, trivial, trivial⟩⟩
    clear * -
    induction ps with
    | nil => trivial
    | cons p ps ih => exact ⟨trivial, ih⟩
  | .elem _ _ _ kids, h => ⟨⟨domAll_chain o kids h.2.2.2.2.2.2 h.2.2.2.2.2.1, domAll_chained o kids h.2.2.2.2.2.2⟩, trivial⟩

theorem domAll_chained (o : Opts) : ∀ xs, PlainAll py o xs → ChainedAll (domAll xs)
  | [], _ => trivial
  | x :: xs, h => (chainedAll_append ..).2 ⟨dom_chained o x h.1, domAll_chained o xs h.2⟩
end

/-! ## How the nodes are shown -/

theorem scriptOut_dom (x : Node) : (dom x).flatMap (scriptOut val) = Spec.Fill.scriptText val x := by
  cases x with
  | cdata ps l l' =>
    simp only [dom, List.flatMap_cons, List.flatMap_append, scriptOut, Spec.Fill.scriptText, List.flatMap_nil,
      List.nil_append, List.append_nil, texts, List.flatMap_map]
  | _ => simp [dom, scriptOut, Spec.Fill.scriptText]

theorem scriptOut_domAll (xs : List Node) : (domAll xs).flatMap (scriptOut val) = xs.flatMap (Spec.Fill.scriptText val) := by
  induction xs with
  | nil => rfl
  | cons x xs ih => rw [domAll, List.flatMap_append, ih, scriptOut_dom, List.flatMap_cons]

theorem domAll_empty (xs : List Node) : (domAll xs).isEmpty = xs.isEmpty := by
  cases xs with
  | nil => rfl
  | cons x xs =>
    rw [domAll]
    have := dom_ne x
    cases h : dom x with
    | nil => contradiction
    | cons => rfl

theorem serAll_texts (o : Opts) (mode : Str) (ps : List (List Item × Nat)) :
    serAll val o mode (texts false ps) = ps.flatMap fun p => rawShown val p.1 := by
  induction ps with
  | nil => rfl
  | cons p ps ih => rw [texts, List.map_cons, serAll, ser]; exact congrArg _ ih

mutual
theorem ser_dom (o : Opts) (mode : Str) : ∀ x, serAll val o mode (dom x) = Spec.Fill.shown val o mode x
  | .text ts ln => by
    rw [dom, serAll, serAll, ser, List.append_nil, if_pos rfl]
    unfold Spec.Fill.shown
    rfl
  | .comment t ln => by
    rw [dom, serAll, serAll, ser, List.append_nil]
    unfold Spec.Fill.shown
    rfl
  | .cdata ps l l' => by
    rw [dom, serAll, serAll_append, serAll_texts, serAll, serAll, ser, ser, List.append_nil]
    unfold Spec.Fill.shown
    rw [List.append_assoc]
  | .elem t as ln kids => by
    rw [dom, serAll, serAll, ser, List.append_nil, domAll_empty, ser_domAll o mode kids]
    unfold scriptSer
    rw [scriptOut_domAll]
    unfold Spec.Fill.shown Spec.Fill.scriptContent
    simp only [List.append_assoc, List.cons_append]

theorem ser_domAll (o : Opts) (mode : Str) : ∀ xs, serAll val o mode (domAll xs) = shownAll val o mode xs
  | [] => rfl
  | x :: xs => by rw [domAll, serAll_append, ser_dom o mode x, ser_domAll o mode xs, shownAll]
end

end

end Kajiki.FillDoc
