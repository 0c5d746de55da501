import Verif.Lemmas.StaticSem
import Verif.Lemmas.Dom
import Mathlib.Data.List.Chain

/-! Parsing and transforming documents without directives. -/

namespace Kajiki.StaticDoc
open Kajiki.Spec.Static Kajiki.Spec.DocSem Kajiki.Doms
open Kajiki.Spec.XmlText (doubled)
open Kajiki.Spec.Dom (order)

/-! ## Lists -/

theorem serAll_append (tr : Str → Str) (o : Opts) (mode tag : Str) (xs ys : List DNode) :
    serAll tr o mode tag (xs ++ ys) = serAll tr o mode tag xs ++ serAll tr o mode tag ys := by
  induction xs with
  | nil => rw [List.nil_append, serAll, List.nil_append]
  | cons x xs ih => rw [List.cons_append, serAll, serAll, ih, List.append_assoc]

theorem litAll_append (o : Opts) (xs ys : List DNode) : LitAll o (xs ++ ys) ↔ LitAll o xs ∧ LitAll o ys := by
  simp only [litAll_iff, List.mem_append]
  exact ⟨fun h => ⟨fun x hx => h x (.inl hx), fun x hx => h x (.inr hx)⟩, fun h x hx => hx.elim (h.1 x) (h.2 x)⟩

/-! ## Text without translation -/

theorem textOut_id (tag d : Str) : textOut id tag d = und d := by
  unfold textOut
  have : (fun t : Str => if scriptTag tag then t else if (strip t).isEmpty then t else id t) = id := by
    funext t; simp
  rw [this, List.flatMap_id, segs_flatten]

theorem scriptOut_enc (e : Bool) (t : Str) (l : Nat) : scriptOut (.text (enc e t) e l) = t := by
  unfold scriptOut
  dsimp only
  rw [und_enc]
  cases e with
  | false =>
    simp only [Bool.false_eq_true, if_false]
    exact List.flatMap_id.trans (segs_flatten t)
  | true =>
    simp only [if_true]
    rw [segs_saxEscape, List.flatMap_map]
    have : (fun s : Str => resolve (saxEscape s)) = id := by
      funext s; unfold resolve; rw [unescape_saxEscape]; rfl
    exact (congrArg (fun f => List.flatMap f (segs t)) this).trans (List.flatMap_id.trans (segs_flatten t))

/-! ## Expanding -/

theorem order_reserved : ∀ k ∈ order, reserved k = true := by decide +kernel

theorem wrapAll_none (ln : Nat) (inner : Dict Str → DNode) (as : Dict Str) :
    ∀ ds : List (Str × Str), (∀ d ∈ ds, as.get d.1 = none) → wrapAll ln inner ds as = inner as
  | [], _ => rfl
  | d :: ds, h => by
    rw [wrapAll, h d (by simp)]
    exact wrapAll_none ln inner as ds fun d hd => h d (by simp [hd])

mutual
theorem expand_lit (o : Opts) : ∀ x, Lit o x → expand x = x
  | .text _ _ _, _ => rfl
  | .cdata _ _, _ => rfl
  | .comment _ _, _ => rfl
  | .pi _ _ _, _ => rfl
  | .elem t as ln kids, h => by
    obtain ⟨h1, h2, -, -, -, h6⟩ := h
    have h2' : ∀ kv ∈ as, reserved kv.1 = false := fun kv hkv => (h2 kv hkv).1
    have ht : t ∉ order := fun hm => by rw [order_reserved t hm] at h1; cases h1
    have hx : as.get extendsTag = none := get_reserved h2' (by decide +kernel)
    have hp : pullExtends t as ln = (as, []) := by
      unfold pullExtends; rw [hx]; split <;> rfl
    rw [expand, normTag_other ht]
    dsimp only
    rw [hp, wrapAll_none _ _ _ _ fun d hd => get_reserved h2' (order_reserved _ (by
      rw [← directives_order]; exact List.mem_map.2 ⟨d, hd, rfl⟩)), expandList_lit o kids h6]
    rfl

theorem expandList_lit (o : Opts) : ∀ xs, LitAll o xs → expandList xs = xs
  | [], _ => rfl
  | x :: xs, h => by rw [expandList, expand_lit o x h.1, expandList_lit o xs h.2]
end

/-! ## Merging -/

/-- Neighbouring texts are both outside or both inside a CDATA section. -/
def Next : DNode → DNode → Prop
  | .text _ e _, .text _ e' _ => e = e'
  | _, _ => True

mutual
/-- All neighbouring texts are. -/
def Flags : DNode → Prop
  | .elem _ _ _ kids => kids.IsChain Next ∧ FlagsAll kids
  | _ => True

/-- The same for several nodes. -/
def FlagsAll : List DNode → Prop
  | [] => True
  | x :: xs => Flags x ∧ FlagsAll xs
end

/-- Two lists of nodes that are shown in the same way. -/
structure SameShow (o : Opts) (xs ys : List DNode) : Prop where
  lit : LitAll o ys
  ser : ∀ mode tag, serAll id o mode tag ys = serAll id o mode tag xs
  script : ys.flatMap scriptOut = xs.flatMap scriptOut
  text : (∀ x ∈ xs, isTextD x = true) → ∀ y ∈ ys, isTextD y = true
  empty : ys.isEmpty = xs.isEmpty

theorem SameShow.refl {o : Opts} {xs : List DNode} (h : LitAll o xs) : SameShow o xs xs :=
  ⟨h, fun _ _ => rfl, rfl, id, rfl⟩

theorem SameShow.trans {o : Opts} {xs ys zs : List DNode} (h : SameShow o xs ys) (h' : SameShow o ys zs) :
    SameShow o xs zs :=
  ⟨h'.lit, fun m t => (h'.ser m t).trans (h.ser m t), h'.script.trans h.script, fun hx => h'.text (h.text hx),
    h'.empty.trans h.empty⟩

theorem SameShow.append {o : Opts} {xs ys xs' ys' : List DNode} (h : SameShow o xs ys) (h' : SameShow o xs' ys') :
    SameShow o (xs ++ xs') (ys ++ ys') :=
  ⟨(litAll_append ..).2 ⟨h.lit, h'.lit⟩, fun m t => by rw [serAll_append, serAll_append, h.ser, h'.ser],
    by rw [List.flatMap_append, List.flatMap_append, h.script, h'.script],
    fun hx y hy => (List.mem_append.1 hy).elim (h.text (fun x hx' => hx x (List.mem_append_left _ hx')) y)
      (h'.text (fun x hx' => hx x (List.mem_append_right _ hx')) y),
    by
      have h1 := h.empty
      have h2 := h'.empty
      cases xs <;> cases ys <;> simp_all⟩

/-- The element with other children. -/
theorem SameShow.elem {o : Opts} {t : Str} {as : Dict Str} {ln : Nat} {xs ys : List DNode}
    (hl : Lit o (.elem t as ln xs)) (h : SameShow o xs ys) :
    SameShow o [.elem t as ln xs] [.elem t as ln ys] := by
  obtain ⟨h1, h2, h3, h4, h5, h6⟩ := hl
  refine ⟨⟨⟨h1, h2, h3, h4, fun hs => h.text (h5 hs), h.lit⟩, trivial⟩, fun mode tag => ?_, rfl, ?_, rfl⟩
  · simp only [serAll, StaticDoc.ser, List.append_nil]
    rw [h.empty, h.ser]
    unfold scriptSer
    rw [h.script]
  · intro hx
    have := hx _ (List.mem_singleton.2 rfl)
    cases this

theorem ser_text (o : Opts) (mode tag d : Str) (e : Bool) (l : Nat) : ser id o mode tag (.text d e l) = und d := by
  rw [ser, textOut_id]

/-- Texts one after the other. -/
theorem sameShow_texts {o : Opts} {e : Bool} (ts : List (Str × Nat)) (ts' : List (Str × Nat))
    (h : (ts.map (·.1)).flatten = (ts'.map (·.1)).flatten) (he : ts.isEmpty = ts'.isEmpty) :
    SameShow o (ts.map fun p => .text (enc e p.1) e p.2) (ts'.map fun p => .text (enc e p.1) e p.2) := by
  have hs : ∀ ts : List (Str × Nat), ∀ mode tag, serAll id o mode tag (ts.map fun p => .text (enc e p.1) e p.2) =
      if e then saxEscape (ts.map (·.1)).flatten else (ts.map (·.1)).flatten := by
    intro ts mode tag
    induction ts with
    | nil => cases e <;> rfl
    | cons p ts ih =>
      rw [List.map_cons, serAll, ih, ser_text, und_enc]
      cases e <;> simp [saxEscape]
  have hsc : ∀ ts : List (Str × Nat), (ts.map fun p => (.text (enc e p.1) e p.2 : DNode)).flatMap scriptOut =
      (ts.map (·.1)).flatten := by
    intro ts
    induction ts with
    | nil => rfl
    | cons p ts ih => rw [List.map_cons, List.flatMap_cons, ih, scriptOut_enc]; rfl
  refine ⟨(litAll_iff ..).2 ?_, ?_, ?_, ?_, ?_⟩
  · intro x hx
    obtain ⟨p, -, rfl⟩ := List.mem_map.1 hx
    exact ⟨p.1, rfl⟩
  · intro m t; rw [hs, hs, h]
  · rw [hsc, hsc, h]
  · intro _ x hx
    obtain ⟨p, -, rfl⟩ := List.mem_map.1 hx
    rfl
  · simpa using he.symm

theorem squash_same {o : Opts} : ∀ (m : Option (Str × Bool × Nat)) (xs : List DNode), LitAll o xs →
    (m.toList.map (fun p => DNode.text p.1 p.2.1 p.2.2) ++ xs).IsChain Next →
    (∀ d e l, m = some (d, e, l) → ∃ t, d = enc e t) →
    SameShow o (m.toList.map (fun p => DNode.text p.1 p.2.1 p.2.2) ++ xs) (squash m xs) := by
  intro m xs
  induction xs generalizing m with
  | nil =>
    intro _ _ hm
    cases m with
    | none => exact .refl trivial
    | some p =>
      obtain ⟨d, e, l⟩ := p
      exact .refl ⟨hm d e l rfl, trivial⟩
  | cons x xs ih =>
    intro hl hc hm
    obtain ⟨h1, h2⟩ := hl
    have hrest : (∀ d e l, x ≠ .text d e l) → SameShow o (x :: xs) (x :: squash none xs) := by
      intro _
      have hc' : xs.IsChain Next := by
        cases m with
        | none => exact hc.tail
        | some p => exact hc.tail.tail
      have := SameShow.append (xs := [x]) (ys := [x]) (.refl ⟨h1, trivial⟩) (ih none h2 hc' (by intro _ _ _ h; cases h))
      exact this
    cases m with
    | none =>
      cases x with
      | text d e l =>
        rw [squash]
        exact ih (some (d, e, l)) h2 hc (by rintro _ _ _ ⟨⟩; exact h1)
      | _ =>
        rw [squash]
        · exact hrest (by intros; nofun)
        all_goals (intro _ _ _ h; cases h)
    | some p =>
      obtain ⟨d, e, l⟩ := p
      obtain ⟨t, rfl⟩ := hm d e l rfl
      cases x with
      | text d' e' l' =>
        rw [squash]
        have he : e = e' := by
          have := hc
          simp only [Option.toList, List.map_cons, List.map_nil, List.cons_append, List.nil_append,
            List.isChain_cons_cons] at this
          exact this.1
        subst he
        obtain ⟨t', rfl⟩ := h1
        rw [← enc_append]
        have hc' : ((some (enc e (t ++ t'), e, l)).toList.map (fun p => DNode.text p.1 p.2.1 p.2.2) ++ xs).IsChain
            Next := by
          have h3 := hc.tail
          simp only [Option.toList, List.map_cons, List.map_nil, List.cons_append, List.nil_append] at h3 ⊢
          cases xs with
          | nil => exact .singleton _
          | cons y ys =>
            simp only [List.tail_cons, List.isChain_cons_cons] at h3 ⊢
            refine ⟨?_, h3.2⟩
            cases y <;> first | trivial | exact h3.1
        have h4 := ih (some (enc e (t ++ t'), e, l)) h2 hc' (by rintro _ _ _ ⟨⟩; exact ⟨_, rfl⟩)
        refine SameShow.trans ?_ h4
        exact SameShow.append (xs := [.text (enc e t) e l, .text (enc e t') e l'])
          (sameShow_texts (o := o) (e := e) [(t, l), (t', l')] [(t ++ t', l)] (by simp) rfl) (.refl h2)
      | _ =>
        rw [squash]
        · exact SameShow.append (xs := [_]) (ys := [_]) (.refl ⟨⟨t, rfl⟩, trivial⟩) (hrest (by intros; nofun))
        all_goals (intro _ _ _ h; cases h)

theorem merge_next {x y x' y' : DNode} (hx : merge x = x') (hy : merge y = y') (h : Next x y) : Next x' y' := by
  subst hx hy
  cases x <;> cases y <;> exact h

theorem mergeList_chain {xs : List DNode} (h : xs.IsChain Next) : (mergeList xs).IsChain Next := by
  induction xs with
  | nil => exact .nil
  | cons x xs ih =>
    cases xs with
    | nil => exact .singleton _
    | cons y ys =>
      have ih := ih h.tail
      simp only [mergeList, List.isChain_cons_cons] at h ih ⊢
      exact ⟨merge_next rfl rfl h.1, ih⟩

mutual
theorem merge_same (o : Opts) : ∀ x, Lit o x → Flags x → SameShow o [x] [merge x]
  | .text _ _ _, h, _ => .refl ⟨h, trivial⟩
  | .cdata _ _, h, _ => .refl ⟨h, trivial⟩
  | .comment _ _, h, _ => .refl ⟨h, trivial⟩
  | .pi _ _ _, h, _ => .refl ⟨h, trivial⟩
  | .elem t as ln kids, h, hf => by
    have h1 := mergeList_same o kids h.2.2.2.2.2 hf.2
    rw [merge]
    exact SameShow.elem h (h1.trans (squash_same none _ h1.lit (mergeList_chain hf.1) (by intro _ _ _ h; cases h)))

theorem mergeList_same (o : Opts) : ∀ xs, LitAll o xs → FlagsAll xs → SameShow o xs (mergeList xs)
  | [], _, _ => .refl trivial
  | x :: xs, h, hf => by
    rw [mergeList]
    exact SameShow.append (xs := [x]) (ys := [merge x]) (merge_same o x h.1 hf.1) (mergeList_same o xs h.2 hf.2)
end

/-! ## Splitting -/

theorem unlessEmpty_same (e : Bool) (t : Str) (l : Nat) :
    ∃ ts : List (Str × Nat), textUnlessEmpty (enc e t) e l = ts.map (fun p => .text (enc e p.1) e p.2) ∧
      (ts.map (·.1)).flatten = t := by
  unfold textUnlessEmpty
  split
  · next h =>
    refine ⟨[], rfl, ?_⟩
    cases t with
    | nil => rfl
    | cons c t =>
      rw [enc_cons, List.isEmpty_iff] at h
      exact absurd (List.append_eq_nil_iff.1 h).1 (enc_char e c).2.1
  · exact ⟨[(t, l)], rfl, by simp⟩

theorem split_same {o : Opts} (e : Bool) (t : Str) (l : Nat) :
    SameShow o [.text (enc e t) e l] (splitText (enc e t) e l) := by
  rw [splitText_eq]
  split
  · exact .refl ⟨⟨t, rfl⟩, trivial⟩
  · obtain ⟨t1, h1, h2⟩ := enc_lead (cut_lead_core_trail (enc e t)).symm fun c hc => mem_takeWhile hc
    obtain ⟨t2, h3, h4⟩ := enc_trail h2.symm (trail_blank _)
    have hlead : (enc e t).takeWhile isSpace = enc e ((enc e t).takeWhile isSpace) := by
      obtain ⟨t0, h5, h6⟩ := enc_lead (e := e) (t := t) (a := []) (b := enc e t) rfl (by simp)
      have : ∀ s : Str, (∀ c ∈ s, isSpace c = true) → s = enc e s := by
        intro s hs
        induction s with
        | nil => cases e <;> rfl
        | cons c s ih =>
          rw [enc_cons, (enc_char e c).1 (hs c (by simp)), ← ih fun d hd => hs d (by simp [hd])]
          rfl
      exact this _ fun c hc => mem_takeWhile hc
    have htrail : trail (lstrip (enc e t)) = enc e (trail (lstrip (enc e t))) := by
      have : ∀ s : Str, (∀ c ∈ s, isSpace c = true) → s = enc e s := by
        intro s hs
        induction s with
        | nil => cases e <;> rfl
        | cons c s ih =>
          rw [enc_cons, (enc_char e c).1 (hs c (by simp)), ← ih fun d hd => hs d (by simp [hd])]
          rfl
      exact this _ (trail_blank _)
    generalize (enc e t).takeWhile isSpace = a at *
    generalize trail (lstrip (enc e t)) = b at *
    rw [h4]
    obtain ⟨ts1, e1, f1⟩ := unlessEmpty_same e a l
    obtain ⟨ts2, e2, f2⟩ := unlessEmpty_same e b (l + countNL a + countNL (enc e t2))
    rw [← hlead] at e1
    rw [← htrail] at e2
    rw [e1, e2]
    have := sameShow_texts (o := o) (e := e) [(t, l)] (ts1 ++ (t2, l + countNL a) :: ts2)
      (by simp [f1, f2, h1, h3]) (by cases ts1 <;> rfl)
    simpa using this

mutual
theorem extract_same (o : Opts) : ∀ x, Lit o x → SameShow o [x] (extract x)
  | .text d e l, h => by
    obtain ⟨t, rfl⟩ := h
    exact split_same e t l
  | .cdata _ _, h => .refl ⟨h, trivial⟩
  | .comment _ _, h => .refl ⟨h, trivial⟩
  | .pi _ _ _, h => .refl ⟨h, trivial⟩
  | .elem t as ln kids, h => by
    rw [extract]
    exact SameShow.elem h (extractList_same o kids h.2.2.2.2.2)

theorem extractList_same (o : Opts) : ∀ xs, LitAll o xs → SameShow o xs (extractList xs)
  | [], _ => .refl trivial
  | x :: xs, h => by
    rw [extractList]
    exact SameShow.append (xs := [x]) (extract_same o x h.1) (extractList_same o xs h.2)
end

/-! ## The transformed document -/

/-- Comments. -/
def comments (cs : List (Str × Nat)) : List DNode := cs.map fun c => .comment c.1 c.2

theorem extractList_append (xs ys : List DNode) : extractList (xs ++ ys) = extractList xs ++ extractList ys := by
  induction xs with
  | nil => rfl
  | cons x xs ih => rw [List.cons_append, extractList, extractList, ih, List.append_assoc]

theorem extract_comments (cs : List (Str × Nat)) : extractList (comments cs) = comments cs := by
  induction cs with
  | nil => rfl
  | cons c cs ih =>
    change extractList (.comment c.1 c.2 :: comments cs) = .comment c.1 c.2 :: comments cs
    rw [extractList, ih]; rfl

theorem transform_same (o : Opts) (dtd : Str) (before after : List (Str × Nat)) (t : Str) (as : Dict Str) (ln : Nat)
    (kids : List DNode) (h : Lit o (.elem t as ln kids)) (hf : Flags (.elem t as ln kids)) :
    ∃ kids', transform false ⟨dtd, comments before ++ .elem t as ln kids :: comments after⟩ =
        ⟨dtd, comments before ++ .elem t as ln kids' :: comments after⟩ ∧
      SameShow o [.elem t as ln kids] [.elem t as ln kids'] := by
  unfold transform
  simp only [Bool.false_eq_true, if_false]
  cases before with
  | nil =>
    refine ⟨extractList (squash none (mergeList kids)), ?_, ?_⟩
    · simp only [comments, List.map_nil, List.nil_append, onFirst]
      rw [expand_lit o _ h, extractList]
      have := extract_comments after
      unfold comments at this
      rw [this]
      rfl
    · have h1 := merge_same o _ h hf
      have h2 := extract_same o _ ((litAll_iff ..).1 h1.lit _ (List.mem_singleton.2 rfl))
      exact h1.trans h2
  | cons c cs =>
    refine ⟨extractList kids, ?_, extract_same o _ h⟩
    have : onFirst merge (onFirst expand (comments (c :: cs) ++ .elem t as ln kids :: comments after)) =
        comments (c :: cs) ++ .elem t as ln kids :: comments after := rfl
    rw [this, extractList_append, extract_comments, extractList, extract_comments]
    rfl

/-! ## Parsing -/

mutual
/-- The nodes in the document. -/
def dom : Static → List DNode
  | .elem tag attrs ln kids => [.elem tag (attrs.map fun kv => (kv.1, doubled kv.2)) ln (domAll kids)]
  | .text t ln => [.text (enc true t) true ln]
  | .cdata ts ln ln' => .cdata "<![CDATA[".toList ln ::
      (ts.map (fun p => .text (enc false p.1) false p.2) ++ [.cdata "]]>".toList ln'])
  | .comment t ln => [.comment t ln]

/-- The same for several nodes. -/
def domAll : List Static → List DNode
  | [] => []
  | x :: xs => dom x ++ domAll xs
end

/-- Add several nodes. -/
def appendAll (p : PState) (xs : List DNode) : PState := xs.foldl PState.append p

theorem appendAll_append (p : PState) (xs ys : List DNode) :
    appendAll p (xs ++ ys) = appendAll (appendAll p xs) ys := List.foldl_append ..

theorem appendAll_cdata (p : PState) (xs : List DNode) : (appendAll p xs).cdata = p.cdata := by
  induction xs generalizing p with
  | nil => rfl
  | cons x xs ih => exact (ih _).trans (append_cdata p x)

theorem appendAll_open (o : Open) (os : List Open) (doc : List DNode) (n : Nat) (xs : List DNode) :
    appendAll ⟨o :: os, doc, n⟩ xs = ⟨{ o with kids := o.kids ++ xs } :: os, doc, n⟩ := by
  induction xs generalizing o with
  | nil => simp [appendAll]
  | cons x xs ih =>
    change appendAll ⟨{ o with kids := o.kids ++ [x] } :: os, doc, n⟩ xs = _
    rw [ih]
    simp

theorem appendAll_doc (doc : List DNode) (n : Nat) (xs : List DNode) :
    appendAll ⟨[], doc, n⟩ xs = ⟨[], doc ++ xs, n⟩ := by
  induction xs generalizing doc with
  | nil => simp [appendAll]
  | cons x xs ih =>
    change appendAll ⟨[], doc ++ [x], n⟩ xs = _
    rw [ih]
    simp

theorem set_new {α : Type} (d : Dict α) (k : Str) (v : α) (h : k ∉ d.map (·.1)) : d.set k v = d ++ [(k, v)] := by
  induction d with
  | nil => rfl
  | cons x d ih =>
    obtain ⟨k', v'⟩ := x
    simp only [List.map_cons, List.mem_cons, not_or] at h
    rw [Dict.set, if_neg (Ne.symm h.1), ih h.2]
    rfl

theorem update_nodup {α : Type} (d e : Dict α) (h : ((d ++ e).map (·.1)).Nodup) : Dict.update d e = d ++ e := by
  induction e generalizing d with
  | nil => simp [Dict.update]
  | cons x e ih =>
    have h1 : x.1 ∉ d.map (·.1) := by
      rw [List.map_append, List.nodup_append] at h
      intro hm
      exact h.2.2 _ hm _ (by simp) rfl
    change Dict.update (d.set x.1 x.2) e = _
    rw [set_new _ _ _ h1, ih]
    · simp
    · simpa using h

theorem events_cdata (p : PState) (hp : p.cdata ≠ 0) (ts : List (Str × Nat)) (es : List Event) :
    PState.events p (ts.map (fun q => .characters (doubled q.1) q.2) ++ es) =
      PState.events (appendAll p (ts.map fun q => .text (enc false q.1) false q.2)) es := by
  induction ts generalizing p with
  | nil => rfl
  | cons q ts ih =>
    have hc : (p.cdata == 0) = false := by simpa using hp
    have : p.event (.characters (doubled q.1) q.2) = .ok (p.append (.text (enc false q.1) false q.2)) := by
      simp only [PState.event, PState.characters, hc, Bool.false_eq_true, if_false]
      rfl
    rw [List.map_cons, List.cons_append, PState.events, this]
    exact ih _ (by rw [append_cdata]; exact hp)

mutual
theorem events_dom (o : Opts) : ∀ (x : Static) (p : PState) (es : List Event), plain o x = true → p.cdata = 0 →
    PState.events p (Spec.Static.events x ++ es) = PState.events (appendAll p (dom x)) es
  | .text t ln, p, es, _, hp => by
    have : p.event (.characters (doubled t) ln) = .ok (p.append (.text (enc true t) true ln)) := by
      simp only [PState.event, PState.characters, hp, BEq.rfl, if_true, saxEscape_doubled]
      rfl
    rw [Spec.Static.events, List.singleton_append, PState.events, this]
    rfl
  | .comment t ln, p, es, _, hp => by
    rw [Spec.Static.events, List.singleton_append, PState.events, PState.event]
    rfl
  | .cdata ts ln ln', p, es, _, hp => by
    rw [Spec.Static.events, List.cons_append, PState.events, PState.event]
    dsimp only
    rw [List.append_assoc, events_cdata _ (by simp)]
    rw [List.singleton_append, PState.events, PState.event]
    rw [if_neg (by rw [append_cdata, appendAll_cdata]; simp)]
    rw [dom]
    obtain ⟨els, doc, n⟩ := p
    change n = 0 at hp
    subst hp
    cases els with
    | nil =>
      simp only [PState.append, appendAll, List.foldl_cons, List.foldl_append, List.foldl_nil]
      have := appendAll_doc (doc ++ [DNode.cdata "<![CDATA[".toList ln]) (0 + 1) (ts.map fun p => .text (enc false p.1) false p.2)
      have h2 := appendAll_doc (doc ++ [DNode.cdata "<![CDATA[".toList ln]) 0 (ts.map fun p => .text (enc false p.1) false p.2)
      unfold appendAll at this h2
      rw [this, h2]
      rfl
    | cons q qs =>
      simp only [PState.append, appendAll, List.foldl_cons, List.foldl_append, List.foldl_nil]
      have := appendAll_open { q with kids := q.kids ++ [DNode.cdata "<![CDATA[".toList ln] } qs doc (0 + 1)
        (ts.map fun p => .text (enc false p.1) false p.2)
      have h2 := appendAll_open { q with kids := q.kids ++ [DNode.cdata "<![CDATA[".toList ln] } qs doc 0
        (ts.map fun p => .text (enc false p.1) false p.2)
      unfold appendAll at this h2
      rw [this, h2]
      rfl
  | .elem tag attrs ln kids, p, es, h, hp => by
    unfold plain at h
    simp only [Bool.and_eq_true, decide_eq_true_eq] at h
    obtain ⟨⟨⟨⟨⟨-, -⟩, h3⟩, -⟩, -⟩, h6⟩ := h
    obtain ⟨els, doc, n⟩ := p
    change n = 0 at hp
    subst hp
    have hu : Dict.update [] (attrs.map fun kv => (kv.1, doubled kv.2)) = attrs.map fun kv => (kv.1, doubled kv.2) :=
      update_nodup [] _ (by rw [List.nil_append, List.map_map]; exact h3)
    rw [Spec.Static.events, List.cons_append, PState.events, PState.event, hu]
    dsimp only
    rw [List.append_assoc, events_domAll o kids _ _ h6 rfl, appendAll_open, List.singleton_append, PState.events,
      PState.event]
    dsimp only
    rw [if_pos rfl, List.nil_append, dom]
    rfl

theorem events_domAll (o : Opts) : ∀ (xs : List Static) (p : PState) (es : List Event), plainAll o xs = true →
    p.cdata = 0 → PState.events p (eventsAll xs ++ es) = PState.events (appendAll p (domAll xs)) es
  | [], p, es, _, _ => rfl
  | x :: xs, p, es, h, hp => by
    unfold plainAll at h
    rw [Bool.and_eq_true] at h
    rw [eventsAll, List.append_assoc, events_dom o x p _ h.1 hp, events_domAll o xs _ es h.2
      (by rw [appendAll_cdata]; exact hp), domAll, appendAll_append]
end

theorem events_comments (cs : List (Str × Nat)) (p : PState) (es : List Event) :
    PState.events p (cs.map (fun c => .comment c.1 c.2) ++ es) = PState.events (appendAll p (comments cs)) es := by
  induction cs generalizing p with
  | nil => rfl
  | cons c cs ih =>
    rw [List.map_cons, List.cons_append, PState.events, PState.event]
    exact ih _

theorem parse_page (o : Opts) (dtd : Str) (d : Page) (h : plain o d.root = true) :
    parseEvents dtd d.events = .ok ⟨dtd, comments d.before ++
      .elem d.tag (d.attrs.map fun kv => (kv.1, doubled kv.2)) d.ln (domAll d.kids) :: comments d.after⟩ := by
  unfold parseEvents Page.events
  rw [List.append_assoc, events_comments, events_dom o d.root _ _ h (by rw [appendAll_cdata])]
  have := events_comments d.after (appendAll (appendAll ⟨[], [], 0⟩ (comments d.before)) (dom d.root)) []
  rw [List.append_nil] at this
  rw [this, appendAll_doc, appendAll_doc, appendAll_doc]
  simp [PState.events, Page.root, dom]

/-! ## What the nodes are -/

theorem dom_ne (x : Static) : dom x ≠ [] := by cases x <;> simp [dom]

mutual
theorem dom_lit (o : Opts) : ∀ x, plain o x = true → LitAll o (dom x)
  | .text t ln, _ => ⟨⟨t, rfl⟩, trivial⟩
  | .comment t ln, _ => ⟨trivial, trivial⟩
  | .cdata ts ln ln', _ => by
    rw [litAll_iff, dom]
    intro x hx
    rcases List.mem_cons.1 hx with rfl | hx
    · trivial
    · rcases List.mem_append.1 hx with hx | hx
      · obtain ⟨p, -, rfl⟩ := List.mem_map.1 hx
        exact ⟨p.1, rfl⟩
      · rw [List.mem_singleton.1 hx]; trivial
  | .elem tag attrs ln kids, h => by
    unfold plain at h
    simp only [Bool.and_eq_true, decide_eq_true_eq, Bool.not_eq_true', List.all_eq_true, Bool.or_eq_true] at h
    obtain ⟨⟨⟨⟨⟨h1, h2⟩, h3⟩, h4⟩, h5⟩, h6⟩ := h
    refine ⟨⟨h1, ?_, by rw [List.map_map]; exact h3, h4, ?_, domAll_lit o kids h6⟩, trivial⟩
    · intro kv hkv
      obtain ⟨kv, hm, rfl⟩ := List.mem_map.1 hkv
      exact ⟨h2 kv hm, _, rfl⟩
    · intro hs
      rcases h5 with h5 | h5
      · rw [hs] at h5; cases h5
      · have : ∀ ks : List Static, (∀ x ∈ ks, isText x = true) → ∀ x ∈ domAll ks, isTextD x = true := by
          intro ks
          induction ks with
          | nil => intro _ x hx; cases hx
          | cons k ks ih =>
            intro hk x hx
            rw [domAll] at hx
            rcases List.mem_append.1 hx with hx | hx
            · have hk := hk k (by simp)
              cases k with
              | text => rw [dom] at hx; rw [List.mem_singleton.1 hx]; rfl
              | cdata ts l l' =>
                rw [dom] at hx
                rcases List.mem_cons.1 hx with rfl | hx
                · rfl
                · rcases List.mem_append.1 hx with hx | hx
                  · obtain ⟨p, -, rfl⟩ := List.mem_map.1 hx
                    rfl
                  · rw [List.mem_singleton.1 hx]; rfl
              | _ => cases hk
            · exact ih (fun x hx => hk x (by simp [hx])) x hx
        exact this kids h5

theorem domAll_lit (o : Opts) : ∀ xs, plainAll o xs = true → LitAll o (domAll xs)
  | [], _ => trivial
  | x :: xs, h => by
    unfold plainAll at h
    rw [Bool.and_eq_true] at h
    rw [domAll, litAll_append]
    exact ⟨dom_lit o x h.1, domAll_lit o xs h.2⟩
end

/-- Not a text in a CDATA section. -/
def Outer : DNode → Prop
  | .text _ e _ => e = true
  | _ => True

theorem next_outer {x y : DNode} (hx : Outer x) (hy : Outer y) : Next x y := by
  cases x <;> cases y <;> first | exact (Eq.trans hx hy.symm) | trivial

theorem chain_append {xs ys : List DNode} (hx : xs.IsChain Next) (hy : ys.IsChain Next)
    (h1 : ∀ x ∈ xs.getLast?, Outer x) (h2 : ∀ y ∈ ys.head?, Outer y) : (xs ++ ys).IsChain Next :=
  List.isChain_append.2 ⟨hx, hy, fun x hx y hy => next_outer (h1 x hx) (h2 y hy)⟩

theorem dom_ends (x : Static) : (∀ y ∈ (dom x).head?, Outer y) ∧ (∀ y ∈ (dom x).getLast?, Outer y) ∧
    (dom x).IsChain Next := by
  cases x with
  | cdata ts l l' =>
    rw [dom]
    refine ⟨by rintro y ⟨⟩; trivial, ?_, ?_⟩
    · intro y hy
      rw [← List.cons_append, List.getLast?_append] at hy
      cases hy
      trivial
    · cases ts with
      | nil => exact .cons_cons trivial (.singleton _)
      | cons t ts =>
        refine .cons_cons trivial ?_
        change (List.map (fun p : Str × Nat => DNode.text (enc false p.1) false p.2) (t :: ts) ++ _).IsChain Next
        refine List.isChain_append.2 ⟨?_, .singleton _, ?_⟩
        · generalize t :: ts = us
          induction us with
          | nil => exact .nil
          | cons u us ih =>
            cases us with
            | nil => exact .singleton _
            | cons v us => exact .cons_cons rfl ih
        · rintro x _ y ⟨⟩
          cases x <;> trivial
  | text t l => exact ⟨by rintro y ⟨⟩; rfl, by rintro y ⟨⟩; rfl, .singleton _⟩
  | _ => exact ⟨by rintro y ⟨⟩; trivial, by rintro y ⟨⟩; trivial, .singleton _⟩

theorem domAll_chain (xs : List Static) : (∀ y ∈ (domAll xs).head?, Outer y) ∧ (domAll xs).IsChain Next := by
  induction xs with
  | nil => exact ⟨by rintro y ⟨⟩, .nil⟩
  | cons x xs ih =>
    obtain ⟨h1, h2, h3⟩ := dom_ends x
    rw [domAll]
    refine ⟨?_, chain_append h3 ih.2 h2 ih.1⟩
    intro y hy
    cases hd : dom x with
    | nil => exact absurd hd (dom_ne x)
    | cons z zs =>
      rw [hd] at hy h1
      exact h1 y hy

theorem flagsAll_append (xs ys : List DNode) : FlagsAll (xs ++ ys) ↔ FlagsAll xs ∧ FlagsAll ys := by
  induction xs with
  | nil => simp [FlagsAll]
  | cons x xs ih => simp only [List.cons_append, FlagsAll, ih, and_assoc]

mutual
theorem dom_flags : ∀ x, FlagsAll (dom x)
  | .text t ln => ⟨trivial, trivial⟩
  | .comment t ln => ⟨trivial, trivial⟩
  | .cdata ts ln ln' => by
    rw [dom]
    refine ⟨trivial, (flagsAll_append _ _).2 ⟨?_, trivial, trivial⟩⟩
    induction ts with
    | nil => trivial
    | cons t ts ih => exact ⟨trivial, ih⟩
  | .elem tag attrs ln kids => ⟨⟨(domAll_chain kids).2, domAll_flags kids⟩, trivial⟩

theorem domAll_flags : ∀ xs, FlagsAll (domAll xs)
  | [] => trivial
  | x :: xs => by rw [domAll, flagsAll_append]; exact ⟨dom_flags x, domAll_flags xs⟩
end

theorem scriptOut_dom (x : Static) : (dom x).flatMap scriptOut = Spec.Static.scriptText x := by
  cases x with
  | text t l =>
    rw [dom, List.flatMap_cons, scriptOut_enc]
    simp [Spec.Static.scriptText]
  | cdata ts l l' =>
    rw [dom, List.flatMap_cons, List.flatMap_append]
    have : (ts.map fun p => (.text (enc false p.1) false p.2 : DNode)).flatMap scriptOut = (ts.map (·.1)).flatten := by
      induction ts with
      | nil => rfl
      | cons p ts ih => rw [List.map_cons, List.flatMap_cons, ih, scriptOut_enc]; rfl
    rw [this]
    simp [Spec.Static.scriptText, scriptOut]
  | _ => rfl

theorem scriptOut_domAll (xs : List Static) : (domAll xs).flatMap scriptOut = xs.flatMap Spec.Static.scriptText := by
  induction xs with
  | nil => rfl
  | cons x xs ih => rw [domAll, List.flatMap_append, ih, scriptOut_dom, List.flatMap_cons]

mutual
theorem ser_dom (o : Opts) (mode : Str) : ∀ (x : Static) (tag : Str), plain o x = true →
    serAll id o mode tag (dom x) = serialize o mode x
  | .text t ln, tag, _ => by
    rw [dom, serAll, serAll, ser_text, und_enc]
    unfold serialize
    rw [shown_eq]
    simp
  | .comment t ln, tag, _ => by
    rw [dom, serAll, serAll, ser]
    unfold serialize
    simp
  | .cdata ts ln ln', tag, _ => by
    rw [dom, serAll, serAll_append, serAll, serAll, ser, ser]
    unfold serialize
    have : ∀ ts : List (Str × Nat), serAll id o mode tag (ts.map fun p => .text (enc false p.1) false p.2) =
        (ts.map (·.1)).flatten := by
      intro ts
      induction ts with
      | nil => rfl
      | cons p ts ih => rw [List.map_cons, serAll, ih, ser_text, und_enc]; rfl
    rw [this]
    simp
  | .elem t attrs ln kids, tag, h => by
    unfold plain at h
    simp only [Bool.and_eq_true, decide_eq_true_eq] at h
    obtain ⟨⟨⟨⟨⟨-, -⟩, h3⟩, -⟩, -⟩, h6⟩ := h
    rw [dom, serAll, serAll, ser]
    unfold serialize
    rw [List.append_nil, sortItems_map, List.flatMap_map, sorted_eq _ h3]
    have ha : (fun a : Str × Str => attrText mode (a.1, und (doubled a.2))) = attrText mode := by
      funext a; rw [und_doubled]
    have he : (domAll kids).isEmpty = kids.isEmpty := by
      cases kids with
      | nil => rfl
      | cons k ks =>
        rw [domAll]
        cases hd : dom k with
        | nil => exact absurd hd (dom_ne k)
        | cons _ _ => rfl
    have hs : scriptSer mode (domAll kids) = Spec.Static.scriptContent mode kids := by
      unfold scriptSer Spec.Static.scriptContent
      rw [scriptOut_domAll, List.append_assoc]
    rw [ha, he, hs, ser_domAll o mode kids t h6]
    simp only [List.append_assoc]

theorem ser_domAll (o : Opts) (mode : Str) : ∀ (xs : List Static) (tag : Str), plainAll o xs = true →
    serAll id o mode tag (domAll xs) = serializeAll o mode xs
  | [], _, _ => by rw [domAll, serAll, serializeAll]
  | x :: xs, tag, h => by
    unfold plainAll at h
    rw [Bool.and_eq_true] at h
    rw [domAll, serAll_append, ser_dom o mode x tag h.1, ser_domAll o mode xs tag h.2, serializeAll]
end

end Kajiki.StaticDoc
