import Verif.Spec.TreeSem
import Verif.Lemmas.StaticText

/-! What a document with directives shows is read as its tree. -/

namespace Kajiki.Trees
open Kajiki.Spec.DocSem
open Kajiki.Spec.Reader (Tree joined noMarkup)
open Kajiki.Spec.Fill (plainValue escapedValue isNone ordinary)
open Kajiki.Spec.Pure (Look Py Vars look Shown)
open Kajiki.Spec.TreeSem (Grown Format decode given allGiven)
open Kajiki.Spec.Static (attrText quoted flags)

/-- How texts are read in a format. -/
structure Reading (F : Format) (mode : Str) (Rd : Str → List Tree → Prop) : Prop where
  nil : Rd [] []
  append {a b : Str} {x y : List Tree} : Rd a x → Rd b y → Rd (a ++ b) (x ++ y)
  text {t u : Str} : decode t = some u → Rd t [.text u]
  value {v : Val} : noMarkup v = true → Rd (escapedValue v) [.text (plainValue v)]
  markup {h : Str} {ts : List Tree} : F.markup h = some ts → Rd h ts
  comment {t : Str} : ¬ "--".toList <:+: t → Rd ("<!-- ".toList ++ t ++ " -->".toList) [.comment (' ' :: t ++ [' '])]
  elem {tag body : Str} {kvs : List (Str × Str)} {ts : List Tree} : F.name tag = true → (∀ kv ∈ kvs, F.name kv.1 = true) →
    (kvs.map (·.1)).Nodup → F.fits tag ts = true → Rd body ts →
    Rd ('<' :: tag ++ kvs.flatMap (attrText mode) ++ (">".toList ++ body ++ if html mode && void tag then [] else close tag))
      [.elem tag (kvs.map fun kv => (kv.1, F.attr kv.1 kv.2)) (joined ts)]
  empty {tag : Str} {kvs : List (Str × Str)} : F.name tag = true → (∀ kv ∈ kvs, F.name kv.1 = true) →
    (kvs.map (·.1)).Nodup → F.fits tag [] = true →
    Rd ('<' :: tag ++ kvs.flatMap (attrText mode) ++ emptyTag mode tag)
      [.elem tag (kvs.map fun kv => (kv.1, F.attr kv.1 kv.2)) []]
  script {tag x s : Str} {kvs : List (Str × Str)} : F.name tag = true → (∀ kv ∈ kvs, F.name kv.1 = true) →
    (kvs.map (·.1)).Nodup → scriptTag tag = true → F.script x = some s →
    Rd ('<' :: tag ++ kvs.flatMap (attrText mode) ++
        (">".toList ++ ((if mode = "xml".toList then "/*<![CDATA[*/".toList else []) ++ x ++
          (if mode = "xml".toList then "/*]]>*/".toList else [])) ++ close tag))
      [.elem tag (kvs.map fun kv => (kv.1, F.attr kv.1 kv.2)) (joined [.text s])]

section
variable {F : Format} {mode : Str} {Rd : Str → List Tree → Prop} {α β : Type}

/-- The text is read as the tree, if it is all there. -/
structure Rel (Rd : Str → List Tree → Prop) (m : Shown α) (g : Grown α) : Prop where
  res : g.res = m.res
  read : ∀ ts, g.trees = some ts → ∀ a, m.res = .ok a → Rd m.text ts

variable (R : Reading F mode Rd)
include R

theorem rel_done (a : α) : Rel Rd (.done a) (.done a) := ⟨rfl, fun ts h _ _ => by cases h; exact R.nil⟩

theorem rel_get (r : Except Err α) : Rel Rd (.get r) (.get r) := by
  cases r with
  | ok a => exact rel_done R a
  | error e => exact ⟨rfl, fun _ _ _ h => by cases h⟩

theorem rel_next {m : Shown α} {g : Grown α} {f : α → Shown β} {k : α → Grown β} (h : Rel Rd m g)
    (h' : ∀ a, m.res = .ok a → Rel Rd (f a) (k a)) : Rel Rd (m.next f) (g.next k) := by
  unfold Shown.next Grown.next
  rw [h.res]
  cases hr : m.res with
  | error e => exact ⟨rfl, fun _ _ _ h => by cases h⟩
  | ok a =>
    refine ⟨(h' a hr).res, fun ts ht b hb => ?_⟩
    simp only [Option.bind_eq_some_iff, Option.map_eq_some_iff] at ht
    obtain ⟨x, hx, y, hy, rfl⟩ := ht
    exact R.append (h.read x hx a hr) ((h' a hr).read y hy b hb)

omit R in
theorem rel_only {m : Shown α} {g : Grown α} (b : Bool) (h : b = true → Rel Rd m g) (hr : g.res = m.res) :
    Rel Rd m (g.only b) := by
  cases b with
  | true => exact h rfl
  | false => exact ⟨hr, fun _ h => by cases h⟩

omit R in
theorem rel_put {t : Str} {ts : Option (List Tree)} (h : ∀ x, ts = some x → Rd t x) : Rel Rd (.put t) (.put ts) :=
  ⟨rfl, fun x hx _ _ => h x hx⟩

theorem rel_keeping {m : Shown Unit} {g : Grown Unit} (h : Rel Rd m g) (ρ : Vars) :
    Rel Rd (Spec.Pure.keeping ρ m) (Spec.TreeSem.keeping ρ g) := rel_next R h fun _ _ => rel_done R ρ

theorem rel_each {γ : Type} {f : γ → Shown Unit} {k : γ → Grown Unit} (h : ∀ a, Rel Rd (f a) (k a)) (xs : List γ) :
    Rel Rd (Shown.each f xs) (Grown.each k xs) := by
  induction xs with
  | nil => exact rel_done R ()
  | cons x xs ih => exact rel_next R (h x) fun _ _ => ih

theorem rel_loop {f : Vars → Shown Vars} {k : Vars → Grown Vars} (h : ∀ ρ, Rel Rd (f ρ) (k ρ)) (bs : List (Dict Val)) :
    ∀ ρ, Rel Rd (Spec.Pure.loop f bs ρ) (Spec.TreeSem.loop k bs ρ) := by
  induction bs with
  | nil => intro ρ; exact rel_done R ρ
  | cons b bs ih => intro ρ; exact rel_next R (h _) fun _ _ => ih _

variable {py : Py} {calls : Str → Option (Look → Grown Unit)}

omit R in
/-- Calls of functions are read as their trees. -/
def CallsRel (Rd : Str → List Tree → Prop) (py : Py) (calls : Str → Option (Look → Grown Unit)) : Prop :=
  ∀ e, Option.Rel (fun m g => ∀ look, Rel Rd (m look) (g look)) (py.call e) (calls e)

theorem rel_value (hc : CallsRel Rd py calls) (look : Look) (e : Str) :
    Rel Rd (Spec.Pure.value py look e) (Spec.TreeSem.value F py calls look e) := by
  unfold Spec.Pure.value Spec.TreeSem.value
  have := hc e
  revert this
  cases py.call e <;> cases calls e <;> intro this
  · refine rel_next R (rel_get R _) fun v _ => rel_put fun x hx => ?_
    cases v with
    | html r h s => exact R.markup hx
    | _ => cases hx; exact R.value rfl
  · cases this
  · cases this
  · cases this with
    | some h => exact h look

theorem rel_text (hc : CallsRel Rd py calls) (c : CEnv) (look : Look) (tag d : Str) :
    Rel Rd (Spec.Pure.text py c look tag d) (Spec.TreeSem.text F py calls c look tag d) := by
  refine rel_each R (fun p => ?_) _
  cases p with
  | inl t =>
    refine rel_put fun x hx => ?_
    rw [Option.map_eq_some_iff] at hx
    obtain ⟨u, hu, rfl⟩ := hx
    exact R.text hu
  | inr e => exact rel_value R hc look e

theorem rel_assign (G : Look) (vs : List (Str × Str)) :
    ∀ ρ, Rel Rd (Spec.Pure.assign py G vs ρ) (Spec.TreeSem.assign py G vs ρ) := by
  induction vs with
  | nil => intro ρ; exact rel_done R ρ
  | cons kv vs ih => intro ρ; exact rel_next R (rel_get R _) fun _ _ => ih _

end

/-! ## Tags -/

section
variable {py : Py} {L : Look} {attrs : Dict Str} {α β : Type}

theorem next_done (a : α) (f : α → Shown β) : (Shown.done a).next f = f a := by
  simp [Shown.next, Shown.done]

theorem seq_done {m : Shown β} : (Shown.done ()).seq m = m := next_done () _

theorem kept_get : Spec.Pure.kept py L attrs = .get (Spec.Pure.kept py L attrs).res := by
  unfold Spec.Pure.kept
  split
  · rfl
  · rfl
  · rename_i e _ _
    cases py.eval e L <;> rfl

theorem tagPart_of {b : Bool} (h : (Spec.Pure.kept py L attrs).res = .ok b) (m : Shown Unit) :
    Spec.Pure.tagPart py L attrs m = if b then m else .done () := by
  unfold Spec.Pure.tagPart
  rw [kept_get, h]
  exact next_done b _

theorem tagPart_error {e : Err} (h : (Spec.Pure.kept py L attrs).res = .error e) (m : Shown Unit) :
    Spec.Pure.tagPart py L attrs m = .raise e := by
  unfold Spec.Pure.tagPart
  rw [kept_get, h]
  rfl

theorem start_error {c : CEnv} {tag : Str} {e : Err} (h : (Spec.Pure.kept py L attrs).res = .error e) :
    Spec.Pure.startTag py c L tag attrs = .raise e := by
  unfold Spec.Pure.startTag
  rw [tagPart_error h]
  rfl

theorem start_false {c : CEnv} {tag : Str} (h : (Spec.Pure.kept py L attrs).res = .ok false) :
    Spec.Pure.startTag py c L tag attrs = .done () := by
  have he : ∀ kvs : List (Str × Str), Shown.each (fun kv => Spec.Pure.tagPart py L attrs
      (Spec.Pure.oneAttribute py c L kv)) kvs = .done () := by
    intro kvs
    induction kvs with
    | nil => rfl
    | cons kv kvs ih =>
      unfold Shown.each
      rw [tagPart_of h, ih]
      rfl
  unfold Spec.Pure.startTag
  rw [tagPart_of h, if_neg Bool.false_ne_true, he, seq_done, seq_done]
  split
  · rfl
  · rw [tagPart_of h]
    rfl

theorem attributes_shown (c : CEnv) (kvs : List (Str × Str)) :
    (Shown.each (Spec.Pure.oneAttribute py c L) kvs).res =
        (Spec.TreeSem.attributes py c L kvs).map (fun _ => ()) ∧
      ∀ as, Spec.TreeSem.attributes py c L kvs = .ok as →
        (Shown.each (Spec.Pure.oneAttribute py c L) kvs).text = as.flatMap (attrText c.mode) := by
  induction kvs with
  | nil => exact ⟨rfl, fun as h => by cases h; rfl⟩
  | cons kv kvs ih =>
    have e1 : Shown.each (Spec.Pure.oneAttribute py c L) (kv :: kvs) =
      (Spec.Pure.oneAttribute py c L kv).seq (Shown.each (Spec.Pure.oneAttribute py c L) kvs) := rfl
    rw [e1]
    generalize Shown.each (Spec.Pure.oneAttribute py c L) kvs = m at ih
    unfold Spec.TreeSem.attributes Shown.seq Spec.Pure.oneAttribute
    cases hp : Spec.Pure.parts py L (cut c.py kv.2) with
    | error e => exact ⟨rfl, nofun⟩
    | ok ps =>
      rw [show (Shown.get (.ok ps) : Shown (List (Option Str))) = .done ps from rfl, next_done]
      dsimp only [Shown.put, Shown.next]
      rw [ih.1]
      cases ha : Spec.TreeSem.attributes py c L kvs with
      | error e => exact ⟨rfl, nofun⟩
      | ok as =>
        refine ⟨rfl, fun as' h => ?_⟩
        cases h
        rw [ih.2 as ha, List.flatMap_append]
        refine congrArg (· ++ _) ?_
        split
        · rfl
        · simp

theorem lower_flag {k : Str} (h : flags.contains k = true) : lowerAscii k = k := by
  have : ∀ f ∈ flags, lowerAscii f = f := by decide +kernel
  exact this k (by simpa using h)

/-- An attribute that is shown. -/
def out (mode k : Str) : Val → List Str
  | .none => []
  | v =>
    if isHtmlMode mode && flags.contains k then [' ' :: lowerAscii k]
    else [' ' :: k ++ "=\"".toList ++ toStr (escape v) ++ ['"']]

theorem renderAttr_out (mode k : Str) (v : Val) :
    renderAttr mode (k, v) = out mode k (if flags.contains k && boolLike v then (if truthy v then .str k else .none) else v) :=
  rfl

theorem out_shown {mode k : Str} {v : Val} (hv : ordinary v = true) : (out mode k v).flatten = attrText mode (k, toStr v) := by
  have hs : toStr (escape v) = quoted (toStr v) := by
    rw [Kajiki.StaticDoc.quoted_eq]
    cases v <;> first | rfl | cases hv
  have ho : out mode k v = if isHtmlMode mode && flags.contains k then [' ' :: lowerAscii k]
      else [' ' :: k ++ "=\"".toList ++ toStr (escape v) ++ ['"']] := by
    cases v <;> first | rfl | cases hv
  rw [ho, hs]
  unfold attrText
  rw [show isHtmlMode mode = html mode from rfl]
  split
  · next hf =>
    rw [Bool.and_eq_true] at hf
    rw [lower_flag hf.2]
    simp
  · rw [show "\"".toList = ['"'] from rfl, List.flatten_cons, List.flatten_nil, List.append_nil]

theorem given_shown {mode : Str} {kv : Str × Val} {as : List (Str × Str)} (h : given kv = some as) :
    (renderAttr mode kv).flatten = as.flatMap (attrText mode) := by
  obtain ⟨k, v⟩ := kv
  unfold given at h
  dsimp only at h
  rw [renderAttr_out]
  by_cases hn : isNone v = true
  · rw [if_pos hn] at h
    cases h
    have hv : v = .none := by cases v <;> first | rfl | cases hn
    subst hv
    have : boolLike .none = false := by decide
    rw [this, Bool.and_false]
    rfl
  · rw [if_neg hn] at h
    by_cases ho : ordinary v = true
    · rw [if_neg (by simp [ho])] at h
      by_cases hb : (flags.contains k && boolLike v) = true
      · rw [if_pos hb] at h ⊢
        cases h
        by_cases ht : truthy v = true
        · rw [if_pos ht, if_pos ht, out_shown rfl, List.flatMap_singleton]
          rfl
        · rw [if_neg ht, if_neg ht]
          rfl
      · rw [if_neg hb] at h ⊢
        cases h
        rw [out_shown ho, List.flatMap_singleton]
    · rw [if_pos (by simp [ho])] at h
      cases h

theorem allGiven_shown {mode : Str} {kvs : List (Str × Val)} {as : List (Str × Str)} (h : allGiven kvs = some as) :
    (kvs.flatMap (renderAttr mode)).flatten = as.flatMap (attrText mode) := by
  induction kvs generalizing as with
  | nil => cases h; rfl
  | cons kv kvs ih =>
    unfold allGiven at h
    simp only [Option.bind_eq_some_iff, Option.map_eq_some_iff] at h
    obtain ⟨x, hx, y, hy, rfl⟩ := h
    rw [List.flatMap_cons, List.flatten_append, given_shown hx, ih hy, List.flatMap_append]

theorem more_shown (c : CEnv) (e : Str) :
    (Spec.Pure.moreAttributes py c L e).res = (Spec.TreeSem.moreAttributes py L e).map (fun _ => ()) ∧
      ∀ as, Spec.TreeSem.moreAttributes py L e = .ok (some as) →
        (Spec.Pure.moreAttributes py c L e).text = as.flatMap (attrText c.mode) := by
  unfold Spec.Pure.moreAttributes Spec.TreeSem.moreAttributes
  cases hv : py.eval e L with
  | error x => exact ⟨rfl, nofun⟩
  | ok v =>
    rw [show (Shown.get (.ok v) : Shown Val) = .done v from rfl, next_done]
    cases v with
    | pairs r l =>
      unfold renderAttrs
      dsimp only
      cases hs : sortAttrs l with
      | error x => exact ⟨rfl, nofun⟩
      | ok l =>
        dsimp only
        rw [show (Shown.get (.ok (l.flatMap (renderAttr c.mode))) : Shown (List Str)) = .done _ from rfl, next_done]
        refine ⟨rfl, fun as h => ?_⟩
        cases h' : allGiven l with
        | none => rw [Except.map, h'] at h; cases h
        | some x =>
          rw [Except.map, h'] at h
          cases h
          exact allGiven_shown h'
    | none => exact ⟨rfl, fun as h => by cases h; rfl⟩
    | _ => exact ⟨rfl, nofun⟩

theorem start_true {c : CEnv} {tag : Str} (h : (Spec.Pure.kept py L attrs).res = .ok true) :
    (Spec.Pure.startTag py c L tag attrs).res = (Spec.TreeSem.startTag py c L attrs).map (fun _ => ()) ∧
      ∀ as, Spec.TreeSem.startTag py c L attrs = .ok (some as) →
        (Spec.Pure.startTag py c L tag attrs).text = '<' :: tag ++ as.flatMap (attrText c.mode) := by
  have he : (fun kv => Spec.Pure.tagPart py L attrs (Spec.Pure.oneAttribute py c L kv)) = Spec.Pure.oneAttribute py c L := by
    funext kv
    rw [tagPart_of h]
    rfl
  unfold Spec.Pure.startTag Spec.TreeSem.startTag
  rw [he, tagPart_of h, if_pos rfl]
  obtain ⟨h1, h2⟩ := attributes_shown (py := py) (L := L) c (sortItems (attrs.filter fun kv => !special kv.1))
  generalize Shown.each (Spec.Pure.oneAttribute py c L) (sortItems (attrs.filter fun kv => !special kv.1)) = m at h1 h2
  cases ha : Spec.TreeSem.attributes py c L (sortItems (attrs.filter fun kv => !special kv.1)) with
  | error x =>
    rw [ha] at h1
    refine ⟨?_, nofun⟩
    simp only [Shown.seq, Shown.next, Shown.put, h1]
    rfl
  | ok as =>
    rw [ha] at h1
    have h2 := h2 as ha
    dsimp only
    split
    · refine ⟨?_, fun as' h' => ?_⟩
      · simp only [Shown.seq, Shown.next, Shown.put, h1]
        rfl
      · cases h'
        simp [Shown.seq, Shown.next, Shown.put, h1, Shown.done, h2, Except.map]
    · rw [tagPart_of h, if_pos rfl]
      obtain ⟨h3, h4⟩ := more_shown (py := py) (L := L) c (attr attrs "py:attrs")
      refine ⟨?_, fun as' h' => ?_⟩
      · simp only [Shown.seq, Shown.next, Shown.put, h1, h3, Except.map]
        cases Spec.TreeSem.moreAttributes py L (attr attrs "py:attrs") <;> rfl
      · cases hm : Spec.TreeSem.moreAttributes py L (attr attrs "py:attrs") with
        | error x => rw [hm] at h'; cases h'
        | ok o =>
          cases o with
          | none => rw [hm] at h'; cases h'
          | some x =>
            rw [hm] at h'
            cases h'
            simp [Shown.seq, Shown.next, Shown.put, h1, h2, h4 x hm, Except.map]

end

/-! ## Elements -/

section
variable {F : Format} {Rd : Str → List Tree → Prop} {py : Py} {calls : Str → Option (Look → Grown Unit)} {c : CEnv}
  (R : Reading F c.mode Rd)

theorem script_shown (look : Look) (kids : List DNode) :
    (Spec.Pure.scriptContent py c look kids).res = (Spec.TreeSem.scriptSource py c look kids).res ∧
      ((Spec.TreeSem.scriptSource py c look kids).res = .ok () → (Spec.Pure.scriptContent py c look kids).text =
        (if c.mode = "xml".toList then "/*<![CDATA[*/".toList else []) ++ (Spec.TreeSem.scriptSource py c look kids).text ++
          (if c.mode = "xml".toList then "/*]]>*/".toList else [])) := by
  unfold Spec.Pure.scriptContent
  change ((Shown.put _).seq ((Spec.TreeSem.scriptSource py c look kids).seq (Shown.put _))).res = _ ∧ (_ →
    ((Shown.put _).seq ((Spec.TreeSem.scriptSource py c look kids).seq (Shown.put _))).text = _)
  generalize Spec.TreeSem.scriptSource py c look kids = m
  obtain ⟨t, r⟩ := m
  cases r with
  | error e => exact ⟨rfl, nofun⟩
  | ok u =>
    generalize "/*<![CDATA[*/".toList = a
    generalize "/*]]>*/".toList = b
    refine ⟨rfl, fun _ => ?_⟩
    dsimp only [Shown.seq, Shown.next, Shown.put]
    rw [List.append_assoc]

omit R in
/-- The end of an element. -/
theorem rel_steady {G : Look} {attrs : Dict Str} {b : Bool} {ρ : Vars} {t : Str} :
    Rel (fun s ts => ts = [] ∧ s = if b then t else [])
      (Spec.Pure.keeping ρ (Spec.Pure.tagPart py (look G ρ) attrs (.put t))) (Spec.TreeSem.steady py G attrs b ρ) := by
  unfold Spec.TreeSem.steady Spec.Pure.keeping
  cases hk : (Spec.Pure.kept py (look G ρ) attrs).res with
  | error e =>
    rw [tagPart_error hk]
    exact ⟨rfl, fun _ _ _ h => by cases h⟩
  | ok b' =>
    rw [tagPart_of hk]
    refine ⟨by cases b' <;> rfl, fun ts ht σ _ => ?_⟩
    simp only [Grown.next, Grown.get, Grown.only, Grown.done, Option.bind_some, Option.map_eq_some_iff] at ht
    obtain ⟨x, hx, rfl⟩ := ht
    split at hx
    · next hb =>
      rw [beq_iff_eq] at hb
      cases hx
      subst hb
      exact ⟨rfl, by cases b' <;> simp [Shown.next, Shown.put, Shown.done]⟩
    · cases hx

omit R in
/-- Content between tags. -/
theorem framed {G : Look} {attrs : Dict Str} {ρ : Vars} {Rd' : Str → List Tree → Prop} {C : Vars → Shown Vars}
    {Cg : Grown Vars}
    {b : Bool} (hk : (Spec.Pure.kept py (look G ρ) attrs).res = .ok b) (h : Rel Rd' (C ρ) Cg) (v : Bool) (o cl : Str) :
    Rel (fun s ts => ∃ body, s = (if b then o else []) ++ body ++ (if v || !b then [] else cl) ∧ Rd' body ts)
      ((Spec.Pure.keeping ρ (Spec.Pure.tagPart py (look G ρ) attrs (.put o))).next fun ρ => (C ρ).next fun ρ =>
        if v then .done ρ else Spec.Pure.keeping ρ (Spec.Pure.tagPart py (look G ρ) attrs (.put cl)))
      (Cg.next fun ρ => if v then .done ρ else Spec.TreeSem.steady py G attrs b ρ) := by
  have ho : Spec.Pure.keeping ρ (Spec.Pure.tagPart py (look G ρ) attrs (.put o)) =
      ⟨if b then o else [], .ok ρ⟩ := by
    unfold Spec.Pure.keeping
    rw [tagPart_of hk]
    cases b <;> simp [Shown.next, Shown.put, Shown.done]
  rw [ho]
  simp only [Shown.next]
  generalize C ρ = C at h
  obtain ⟨h1, h2⟩ := h
  obtain ⟨t, r⟩ := C
  obtain ⟨tr, r'⟩ := Cg
  dsimp only at h1 h2
  subst h1
  cases r' with
  | error e => exact ⟨rfl, fun _ _ _ h => by cases h⟩
  | ok σ =>
    cases v with
    | true =>
      refine ⟨rfl, fun ts ht τ _ => ?_⟩
      simp only [Grown.next, Grown.done, Option.bind_eq_some_iff, Option.map_eq_some_iff] at ht
      obtain ⟨x, hx, y, hy, rfl⟩ := ht
      cases hy
      rw [List.append_nil]
      exact ⟨t, by simp [Shown.done], h2 x hx σ rfl⟩
    | false =>
      obtain ⟨h3, h4⟩ := rel_steady (py := py) (G := G) (attrs := attrs) (b := b) (ρ := σ) (t := cl)
      simp only [Grown.next, Bool.false_eq_true, if_false]
      refine ⟨h3, fun ts ht τ hτ => ?_⟩
      simp only [Option.bind_eq_some_iff, Option.map_eq_some_iff] at ht
      obtain ⟨x, hx, y, hy, rfl⟩ := ht
      obtain ⟨rfl, h5⟩ := h4 y hy τ hτ
      rw [List.append_nil]
      refine ⟨t, ?_, h2 x hx σ rfl⟩
      rw [h5]
      cases b <;> simp

omit R in
theorem Rel.mono {α : Type} {P Q : Str → List Tree → Prop} {m : Shown α} {g : Grown α} (h : Rel P m g)
    (hpq : ∀ s ts, P s ts → Q s ts) : Rel Q m g := ⟨h.res, fun ts ht a ha => hpq _ _ (h.read ts ht a ha)⟩

omit R in
/-- A start tag, and what follows. -/
theorem rel_wrap {α : Type} {L : Look} {attrs : Dict Str} {t : Str} {sc : Bool} {P : Str → List Tree → Prop} {X : Shown α}
    {g : Grown α} (hk : (Spec.Pure.kept py L attrs).res = .ok true) (h : Rel P X g)
    (hP : ∀ s ts (as : List (Str × Str)), P s ts → F.name t = true → (∀ kv ∈ as, F.name kv.1 = true) →
      (as.map (·.1)).Nodup → (sc || F.fits t ts) = true →
      Rd ('<' :: t ++ as.flatMap (attrText c.mode) ++ s) [.elem t (as.map fun kv => (kv.1, F.attr kv.1 kv.2)) (joined ts)]) :
    Rel Rd ((Spec.Pure.startTag py c L t attrs).seq X)
      ((Grown.get (Spec.TreeSem.startTag py c L attrs)).next fun as => Spec.TreeSem.wrap F sc t as g) := by
  obtain ⟨h1, h2⟩ := start_true (c := c) (tag := t) hk
  generalize Spec.Pure.startTag py c L t attrs = S at h1 h2
  obtain ⟨st, sr⟩ := S
  dsimp only at h1 h2
  subst h1
  cases hs : Spec.TreeSem.startTag py c L attrs with
  | error e => exact ⟨rfl, fun _ _ _ h => by cases h⟩
  | ok o =>
    refine ⟨h.res, fun ts ht a ha => ?_⟩
    simp only [Grown.next, Grown.get, Spec.TreeSem.wrap, Option.bind_some, Option.map_eq_some_iff,
      Option.bind_eq_some_iff] at ht
    obtain ⟨x, ⟨as, ho, y, hy, hx⟩, rfl⟩ := ht
    split at hx
    · next hc =>
      cases hx
      simp only [Bool.and_eq_true, List.all_eq_true, decide_eq_true_eq] at hc
      rw [ho] at hs
      have := hP _ _ as (h.read y hy a ha) hc.1.1.1 hc.1.1.2 hc.1.2 hc.2
      rw [List.nil_append]
      change Rd (st ++ X.text) _
      rw [h2 as hs]
      exact this
    · cases hx

omit R in
theorem get_next {α β : Type} (a : α) (f : α → Grown β) : (Grown.get (.ok a)).next f = f a := by
  simp [Grown.next, Grown.get]

omit R in
theorem only_wrap {α β : Type} {m : Shown β} {g : Grown α} {k : α → Grown β} (b : Bool) (h : b = true → Rel Rd m (g.next k))
    (hr : (g.next k).res = m.res) : Rel Rd m (g.next fun a => (k a).only b) := by
  cases b with
  | true => exact h rfl
  | false =>
    refine ⟨?_, fun ts ht a ha => ?_⟩
    · rw [← hr]
      unfold Grown.next
      cases g.res <;> rfl
    · obtain ⟨gt, gr⟩ := g
      cases gr with
      | error e => rw [ha] at hr; cases hr
      | ok a => cases gt <;> simp [Grown.next, Grown.only] at ht

omit R in
/-- A start tag, and how it ends. -/
theorem wrap_res {α : Type} {L : Look} {attrs : Dict Str} {t : Str} {sc : Bool} {X : Shown α}
    {g : Grown α} (hk : (Spec.Pure.kept py L attrs).res = .ok true) (h : g.res = X.res) :
    ((Grown.get (Spec.TreeSem.startTag py c L attrs)).next fun as => Spec.TreeSem.wrap F sc t as g).res =
      ((Spec.Pure.startTag py c L t attrs).seq X).res :=
  (rel_wrap (P := fun _ _ => True) (Rd := fun _ _ => True) hk ⟨h, fun _ _ _ _ => trivial⟩ fun _ _ _ _ _ _ _ _ => trivial).res

omit R in
/-- A start tag if the tags are kept, and what follows. -/
theorem rel_tagged {α : Type} {L : Look} {attrs : Dict Str} {t : Str} {sc okT okF b : Bool} {P : Str → List Tree → Prop}
    {X : Shown α} {g : Grown α} (hk : (Spec.Pure.kept py L attrs).res = .ok b) (h : Rel P X g)
    (hF : b = false → okF = true → ∀ s ts, P s ts → Rd s ts)
    (hT : b = true → okT = true → ∀ s ts (as : List (Str × Str)), P s ts → F.name t = true → (∀ kv ∈ as, F.name kv.1 = true) →
      (as.map (·.1)).Nodup → (sc || F.fits t ts) = true →
      Rd ('<' :: t ++ as.flatMap (attrText c.mode) ++ s) [.elem t (as.map fun kv => (kv.1, F.attr kv.1 kv.2)) (joined ts)]) :
    Rel Rd ((Spec.Pure.startTag py c L t attrs).seq X)
      (if b then (Grown.get (Spec.TreeSem.startTag py c L attrs)).next fun as => (Spec.TreeSem.wrap F sc t as g).only okT
        else g.only okF) := by
  cases b with
  | false =>
    rw [start_false hk, seq_done]
    exact rel_only _ (fun ho => h.mono (hF rfl ho)) h.res
  | true => exact only_wrap _ (fun ho => rel_wrap hk h (hT rfl ho)) (wrap_res hk h.res)

theorem not_void {o : Opts} {t : Str} (h : script o t = true) : void t = false := by
  unfold script at h
  rw [Bool.and_eq_true] at h
  have h := h.2
  unfold scriptTag at h
  rw [decide_eq_true_eq] at h
  rcases h with rfl | rfl <;> decide +kernel

include R

/-- An element, when its content is read. -/
theorem rel_elem (hc : CallsRel Rd py calls) (G : Look) (t : Str) (attrs : Dict Str) (kids : List DNode) (ρ : Vars)
    (m : Vars → Shown Vars) (g : Grown Vars) (hm : Rel Rd (m ρ) g) (hnil : kids.isEmpty = true → g = .done ρ) :
    Rel Rd
      (let tag := fun ρ s => Spec.Pure.keeping ρ (Spec.Pure.tagPart py (look G ρ) attrs (.put s))
      (Spec.Pure.startTag py c (look G ρ) t attrs).seq <|
        if !(attr attrs "py:content").isEmpty then
          (tag ρ ">".toList).next fun ρ =>
          (Spec.Pure.keeping ρ (Spec.Pure.value py (look G ρ) (attr attrs "py:content"))).next fun ρ => tag ρ (close t)
        else if kids.isEmpty then tag ρ (emptyTag c.mode t)
        else
          (tag ρ ">".toList).next fun ρ =>
          (if script c.opts t then Spec.Pure.keeping ρ (Spec.Pure.scriptContent py c (look G ρ) kids) else m ρ).next fun ρ =>
          if html c.mode && void t then .done ρ else tag ρ (close t))
      (let own := !(attr attrs "py:content").isEmpty
      let script := script c.opts t && !own && !kids.isEmpty
      (Grown.get (Spec.Pure.kept py (look G ρ) attrs).res).next fun b =>
      let content :=
        (if own then Spec.TreeSem.keeping ρ (Spec.TreeSem.value F py calls (look G ρ) (attr attrs "py:content"))
        else if script then Spec.TreeSem.keeping ρ (Spec.TreeSem.scriptContent F py c (look G ρ) kids)
        else g).next fun ρ =>
          if html c.mode && void t && !own then .done ρ else Spec.TreeSem.steady py G attrs b ρ
      if b then
        (Grown.get (Spec.TreeSem.startTag py c (look G ρ) attrs)).next fun as =>
          (Spec.TreeSem.wrap F script t as content).only (!(own && html c.mode && void t))
      else content.only (!script)) := by
  dsimp only
  cases hk : (Spec.Pure.kept py (look G ρ) attrs).res with
  | error e =>
    rw [start_error hk]
    exact ⟨rfl, fun _ _ _ h => by cases h⟩
  | ok b =>
    rw [get_next]
    by_cases hown : (!(attr attrs "py:content").isEmpty) = true
    · simp only [hown, Bool.not_true, Bool.and_false, Bool.false_and, Bool.true_and, Bool.false_eq_true, if_false, if_true]
      have hf := framed (o := ">".toList) (cl := close t) (C := fun ρ => Spec.Pure.keeping ρ
          (Spec.Pure.value py (look G ρ) (attr attrs "py:content"))) hk
        (rel_keeping R (rel_value R hc (look G ρ) (attr attrs "py:content")) ρ) false
      simp only [Bool.false_eq_true, if_false] at hf
      refine rel_tagged hk hf ?_ ?_
      · rintro rfl _ s ts ⟨body, rfl, h⟩
        simpa using h
      · rintro rfl hv s ts as ⟨body, rfl, h⟩ h1 h2 h3 h4
        have := R.elem h1 h2 h3 h4 h
        rw [Bool.not_eq_true'] at hv
        rw [hv] at this
        exact this
    · rw [Bool.not_eq_true] at hown
      simp only [hown, Bool.not_false, Bool.and_true, Bool.false_and, Bool.false_eq_true, if_false]
      by_cases he : kids.isEmpty = true
      · simp only [he, hnil he, Bool.not_true, Bool.and_false, Bool.false_eq_true, if_false, if_true]
        refine rel_tagged (P := fun s ts => ts = [] ∧ s = if b then emptyTag c.mode t else []) hk ?_ ?_ ?_
        · have h0 : Spec.Pure.keeping ρ (Spec.Pure.tagPart py (look G ρ) attrs (.put (emptyTag c.mode t))) =
              ⟨if b then emptyTag c.mode t else [], .ok ρ⟩ := by
            unfold Spec.Pure.keeping
            rw [tagPart_of hk]
            cases b <;> simp [Shown.next, Shown.put, Shown.done]
          rw [show (Grown.done ρ : Grown Vars) = .get (.ok ρ) from rfl, get_next]
          by_cases hv : (html c.mode && void t) = true
          · rw [h0, if_pos hv]
            exact ⟨rfl, fun ts ht _ _ => by cases ht; exact ⟨rfl, rfl⟩⟩
          · rw [if_neg hv]
            exact rel_steady
        · rintro rfl _ s ts ⟨rfl, rfl⟩
          exact R.nil
        · rintro rfl _ s ts as ⟨rfl, rfl⟩ h1 h2 h3 h4
          exact R.empty h1 h2 h3 h4
      · rw [Bool.not_eq_true] at he
        simp only [he, Bool.not_false, Bool.and_true, Bool.false_eq_true, if_false]
        by_cases hs : script c.opts t = true
        · simp only [hs, if_true, not_void hs, Bool.and_false, Bool.false_eq_true, if_false, Bool.not_true]
          have hf := framed (o := ">".toList) (cl := close t) (Rd' := fun body ts => ∃ x s, F.script x = some s ∧
              ts = [.text s] ∧ body = (if c.mode = "xml".toList then "/*<![CDATA[*/".toList else []) ++ x ++
                (if c.mode = "xml".toList then "/*]]>*/".toList else []))
            (C := fun ρ => Spec.Pure.keeping ρ (Spec.Pure.scriptContent py c (look G ρ) kids))
            (Cg := Spec.TreeSem.keeping ρ (Spec.TreeSem.scriptContent F py c (look G ρ) kids)) hk ?_ false
          · simp only [Bool.false_eq_true, if_false] at hf
            refine rel_tagged hk hf nofun ?_
            rintro rfl hv s ts as ⟨body, rfl, x, u, h, rfl, rfl⟩ h1 h2 h3 h4
            have ht : scriptTag t = true := by
              unfold script at hs
              rw [Bool.and_eq_true] at hs
              exact hs.2
            exact R.script h1 h2 h3 ht h
          · obtain ⟨h1, h2⟩ := script_shown (py := py) (c := c) (look G ρ) kids
            unfold Spec.Pure.keeping Spec.TreeSem.keeping Spec.TreeSem.scriptContent
            generalize Spec.Pure.scriptContent py c (look G ρ) kids = S at h1 h2
            obtain ⟨st, sr⟩ := S
            dsimp only at h1 h2
            subst h1
            cases hr : (Spec.TreeSem.scriptSource py c (look G ρ) kids).res with
            | error e => exact ⟨rfl, fun _ _ _ h => by cases h⟩
            | ok u =>
              refine ⟨rfl, fun ts ht _ _ => ?_⟩
              simp only [Grown.next, Grown.done, Option.bind_eq_some_iff, Option.map_eq_some_iff] at ht
              obtain ⟨_, ⟨s, hs, rfl⟩, y, hy, rfl⟩ := ht
              cases hy
              refine ⟨_, s, hs, rfl, ?_⟩
              rw [← h2 hr]
              exact List.append_nil _
        · rw [Bool.not_eq_true] at hs
          simp only [hs, Bool.false_eq_true, if_false, Bool.not_false]
          have hf := framed (o := ">".toList) (cl := close t) (C := m) hk hm (html c.mode && void t)
          refine rel_tagged hk hf ?_ ?_
          · rintro rfl _ s ts ⟨body, rfl, h⟩
            simpa using h
          · rintro rfl hv s ts as ⟨body, rfl, h⟩ h1 h2 h3 h4
            have := R.elem h1 h2 h3 h4 h
            simpa using this

/-! ## Nodes -/

set_option linter.unusedSectionVars false
variable (hc : CallsRel Rd py calls) {G : Look} {over : Str → Option (Shown Unit)} {over' : Str → Option (Grown Unit)}
  (ho : ∀ n, Option.Rel (Rel Rd) (over n) (over' n))
include hc ho

mutual
theorem rel_node : ∀ (x : DNode) (els : Vars → Shown Vars) (els' : Vars → Grown Vars) (_ : ∀ ρ, Rel Rd (els ρ) (els' ρ))
    (tag : Str) (ρ : Vars),
    Rel Rd (Spec.Pure.node py G over c els tag x ρ) (Spec.TreeSem.node F py calls G over' c els' tag x ρ)
  | .text d _ _, els, els', he, tag, ρ => by
    unfold Spec.Pure.node Spec.TreeSem.node
    exact rel_keeping R (rel_text R hc c _ tag d) ρ
  | .cdata d _, els, els', he, tag, ρ => by
    unfold Spec.Pure.node Spec.TreeSem.node
    exact rel_keeping R (rel_only false nofun (rel_text R hc c _ tag d).res) ρ
  | .comment d _, els, els', he, tag, ρ => by
    unfold Spec.Pure.node Spec.TreeSem.node
    refine rel_keeping R (rel_put fun x hx => ?_) ρ
    split at hx
    · next hp => rw [if_pos hp]; cases hx; exact R.nil
    · next hp =>
      rw [if_neg hp]
      split at hx
      · cases hx
      · next hd => cases hx; exact R.comment hd
  | .pi _ d _, els, els', he, tag, ρ => by
    unfold Spec.Pure.node Spec.TreeSem.node
    split
    · exact rel_done R ρ
    · exact rel_next R (rel_get R _) fun _ _ => rel_done R _
  | .elem t as _ kids, els, els', he, tag, ρ => by
    unfold Spec.Pure.node Spec.TreeSem.node
    dsimp only
    cases dirOf t with
    | none =>
      refine rel_elem R hc G t _ kids ρ (fun ρ => Spec.Pure.nodes py G over c true t kids ρ) _ (rel_nodes kids true t ρ)
        fun hk => ?_
      have : kids = [] := by simpa using hk
      subst this
      rfl
    | some d =>
      cases d with
      | replace => exact rel_keeping R (rel_value R hc _ _) ρ
      | forD => exact rel_next R (rel_get R _) fun bs _ => rel_loop R (fun ρ => rel_nodes kids false t ρ) bs ρ
      | withD => exact rel_next R (rel_assign R G _ ρ) fun σ _ => rel_next R (rel_nodes kids false t σ) fun τ _ => rel_done R _
      | switchD => exact rel_next R (rel_get R _) fun v _ => rel_choices kids v _ _ (fun ρ => rel_done R ρ) ρ
      | ifD =>
        refine rel_next R (rel_get R _) fun v _ => ?_
        split
        · exact rel_nodes kids false t ρ
        · exact he ρ
      | nop => exact rel_nodes kids false t ρ
      | block =>
        refine rel_keeping R ?_ ρ
        have := ho (attr as "name")
        revert this
        cases over (attr as "name") <;> cases over' (attr as "name") <;> intro this
        · exact rel_next R (rel_nodes kids false t []) fun _ _ => rel_done R _
        · cases this
        · cases this
        · cases this with
          | some h => exact h
      | incl => exact rel_keeping R (rel_only false nofun rfl) ρ
      | _ => exact rel_done R ρ
theorem rel_nodes : ∀ (xs : List DNode) (raw : Bool) (tag : Str) (ρ : Vars),
    Rel Rd (Spec.Pure.nodes py G over c raw tag xs ρ) (Spec.TreeSem.nodes F py calls G over' c raw tag xs ρ)
  | [], raw, tag, ρ => by
    unfold Spec.Pure.nodes Spec.TreeSem.nodes
    exact rel_done R ρ
  | x :: xs, raw, tag, ρ => by
    unfold Spec.Pure.nodes Spec.TreeSem.nodes
    refine rel_next R ?_ fun ρ _ => rel_nodes xs raw tag ρ
    have hx := rel_node x _ _ (fun ρ => rel_otherwise xs ρ) tag ρ
    cases raw with
    | false => exact hx
    | true =>
      cases x with
      | cdata d l => exact rel_only false nofun rfl
      | text _ _ _ => exact hx
      | comment _ _ => exact hx
      | pi _ _ _ => exact hx
      | elem _ _ _ _ => exact hx
theorem rel_otherwise : ∀ (xs : List DNode) (ρ : Vars),
    Rel Rd (Spec.Pure.otherwise py G over c xs ρ) (Spec.TreeSem.otherwise F py calls G over' c xs ρ)
  | [], ρ => by
    unfold Spec.Pure.otherwise Spec.TreeSem.otherwise
    exact rel_done R ρ
  | .elem t _ _ kids :: _, ρ => by
    unfold Spec.Pure.otherwise Spec.TreeSem.otherwise
    split
    · exact rel_nodes kids false t ρ
    · exact rel_done R ρ
  | .text _ _ _ :: _, ρ => by
    unfold Spec.Pure.otherwise Spec.TreeSem.otherwise
    exact rel_done R ρ
  | .cdata _ _ :: _, ρ => by
    unfold Spec.Pure.otherwise Spec.TreeSem.otherwise
    exact rel_done R ρ
  | .comment _ _ :: _, ρ => by
    unfold Spec.Pure.otherwise Spec.TreeSem.otherwise
    exact rel_done R ρ
  | .pi _ _ _ :: _, ρ => by
    unfold Spec.Pure.otherwise Spec.TreeSem.otherwise
    exact rel_done R ρ
theorem rel_choice : ∀ (x : DNode) (v : Val) (rest : Vars → Shown Vars) (rest' : Vars → Grown Vars)
    (_ : ∀ ρ, Rel Rd (rest ρ) (rest' ρ)) (ρ : Vars),
    Rel Rd (Spec.Pure.choice py G over c v rest x ρ) (Spec.TreeSem.choice F py calls G over' c v rest' x ρ)
  | .elem t as _ kids, v, rest, rest', hr, ρ => by
    unfold Spec.Pure.choice Spec.TreeSem.choice
    cases dirOf t with
    | none => exact hr ρ
    | some d =>
      cases d with
      | caseD =>
        refine rel_next R (rel_get R _) fun u _ => ?_
        split
        · exact rel_nodes kids false t ρ
        · exact hr ρ
      | elseD => exact rel_nodes kids false t ρ
      | nop => exact rel_choices kids v rest rest' hr ρ
      | _ => exact hr ρ
  | .text _ _ _, v, rest, rest', hr, ρ => by
    unfold Spec.Pure.choice Spec.TreeSem.choice
    exact hr ρ
  | .cdata _ _, v, rest, rest', hr, ρ => by
    unfold Spec.Pure.choice Spec.TreeSem.choice
    exact hr ρ
  | .comment _ _, v, rest, rest', hr, ρ => by
    unfold Spec.Pure.choice Spec.TreeSem.choice
    exact hr ρ
  | .pi _ _ _, v, rest, rest', hr, ρ => by
    unfold Spec.Pure.choice Spec.TreeSem.choice
    exact hr ρ
theorem rel_choices : ∀ (xs : List DNode) (v : Val) (rest : Vars → Shown Vars) (rest' : Vars → Grown Vars)
    (_ : ∀ ρ, Rel Rd (rest ρ) (rest' ρ)) (ρ : Vars),
    Rel Rd (Spec.Pure.choices py G over c v rest xs ρ) (Spec.TreeSem.choices F py calls G over' c v rest' xs ρ)
  | [], v, rest, rest', hr, ρ => by
    unfold Spec.Pure.choices Spec.TreeSem.choices
    exact hr ρ
  | x :: xs, v, rest, rest', hr, ρ => by
    unfold Spec.Pure.choices Spec.TreeSem.choices
    exact rel_choice x v _ _ (fun ρ => rel_choices xs v rest rest' hr ρ) ρ
end

end

end Kajiki.Trees
