import Verif.Lemmas.TreeSem
import Verif.Lemmas.HtmlReader

/-! The trees of `Verif/Spec/TreeSem.lean` are what is read, in XML and in HTML. -/

namespace Kajiki.Trees
open Kajiki.Spec.DocSem
open Kajiki.Spec.Reader (Tree joined noMarkup)
open Kajiki.Spec.TreeSem (Format decode decodeFrom flatten flattenAll isText)
open Kajiki.Spec.Static (attrText quoted flags)

/-! ## XML -/

section
open Kajiki.Spec.Reader
open Kajiki.Reads

/-- How a text is read in XML. -/
def Xml (t : Str) (ts : List Tree) : Prop :=
  ∀ h up, ∃ k, (State.mk .content h up).feed t = some ⟨.content, k.reverse ++ h, up⟩ ∧ Same k ts

theorem joined_nil_text (z : List Tree) : joined (.text [] :: z) = joined z := by
  have := same_chars [] z
  exact this.symm

theorem same_joined (a : List Tree) : Same a (joined a) := by
  intro z
  induction a with
  | nil => rfl
  | cons x a ih =>
    cases x with
    | text t =>
      rw [List.cons_append, show Tree.text t :: (a ++ z) = [Tree.text t] ++ (a ++ z) from rfl, joined_congr _ ih]
      simp only [joined]
      rcases joined a with _ | ⟨y, ys⟩
      · dsimp only
        split
        · next ht => subst ht; exact joined_nil_text z
        · rfl
      · cases y with
        | text u => exact joined_text t u _
        | _ =>
          dsimp only
          split
          · next ht => subst ht; exact joined_nil_text _
          · rfl
    | _ => simp only [List.cons_append, joined, ih]

theorem read_decoded (s : Str) (h : List Tree) (up : List (Str × List (Str × Str) × List Tree)) :
    ∀ r u, decodeFrom r s = some u →
      (State.mk (match r with | none => .content | some n => .ref n) h up).feed s = some ⟨.content, (chars u).reverse ++ h, up⟩ := by
  induction s generalizing h with
  | nil =>
    intro r u hu
    cases r with
    | none => cases hu; rfl
    | some n => cases hu
  | cons c s ih =>
    intro r u hu
    unfold decodeFrom at hu
    cases r with
    | none =>
      dsimp only at hu ⊢
      split at hu
      · cases hu
      · next h1 =>
        split at hu
        · next h2 =>
          subst h2
          exact feed_cons (s' := ⟨.ref [], h, up⟩) (by simp [State.step]) (ih h (some []) u hu)
        · next h2 =>
          rw [Option.map_eq_some_iff] at hu
          obtain ⟨u', hu', rfl⟩ := hu
          refine feed_cons (s' := ⟨.content, .text [c] :: h, up⟩) (by simp [State.step, State.add, h1, h2])
            ((ih _ none u' hu').trans ?_)
          simp [chars]
    | some n =>
      dsimp only at hu ⊢
      split at hu
      · next h1 =>
        rw [Option.bind_eq_some_iff] at hu
        obtain ⟨x, hx, hu⟩ := hu
        rw [Option.map_eq_some_iff] at hu
        obtain ⟨u', hu', rfl⟩ := hu
        refine feed_cons (s' := ⟨.content, .text [x] :: h, up⟩) (by simp [State.step, State.add, h1, hx])
          ((ih _ none u' hu').trans ?_)
        simp [chars]
      · next h1 =>
        exact feed_cons (s' := ⟨.ref (n ++ [c]), h, up⟩) (by simp [State.step, h1]) (ih h (some (n ++ [c])) u hu)

/-- Reading in a document: what was there before. -/
def lift (h : List Tree) (up : List (Str × List (Str × Str) × List Tree)) (here : List Tree) :
    List (Str × List (Str × Str) × List Tree) → List Tree × List (Str × List (Str × Str) × List Tree)
  | [] => (here ++ h, up)
  | (t, as, b) :: ups => (here, (t, as, (lift h up b ups).1) :: (lift h up b ups).2)

theorem lift_cons (h : List Tree) (up : List (Str × List (Str × Str) × List Tree)) (x : Tree) (here : List Tree)
    (ups : List (Str × List (Str × Str) × List Tree)) :
    lift h up (x :: here) ups = (x :: (lift h up here ups).1, (lift h up here ups).2) := by
  cases ups <;> rfl

/-- Reading in a document. -/
def lifted (h : List Tree) (up : List (Str × List (Str × Str) × List Tree)) (s : State) : State :=
  ⟨s.mode, (lift h up s.here s.up).1, (lift h up s.here s.up).2⟩

theorem lifted_mode (h : List Tree) (up : List (Str × List (Str × Str) × List Tree)) (s : State) (m : Mode) :
    lifted h up { s with mode := m } = { lifted h up s with mode := m } := rfl

theorem lifted_add (h : List Tree) (up : List (Str × List (Str × Str) × List Tree)) (s : State) (x : Tree) :
    lifted h up (s.add x) = (lifted h up s).add x := by
  unfold lifted State.add
  rw [lift_cons]

theorem lifted_tagEnd (h : List Tree) (up : List (Str × List (Str × Str) × List Tree)) (s s' : State) (t : Str)
    (as : List (Str × Str)) (c : Char) (hs : s.tagEnd t as c = some s') :
    (lifted h up s).tagEnd t as c = some (lifted h up s') := by
  unfold State.tagEnd at hs ⊢
  split at hs
  · next h1 => rw [if_pos h1]; cases hs; rfl
  · next h1 =>
    rw [if_neg h1]
    split at hs
    · next h2 => rw [if_pos h2]; cases hs; rfl
    · next h2 =>
      rw [if_neg h2]
      split at hs
      · next h3 => rw [if_pos h3]; cases hs; rfl
      · cases hs

theorem lifted_step (h : List Tree) (up : List (Str × List (Str × Str) × List Tree)) (s s' : State) (c : Char)
    (hs : s.step c = some s') : (lifted h up s).step c = some (lifted h up s') := by
  obtain ⟨m, here, ups⟩ := s
  have ht := lifted_tagEnd h up ⟨m, here, ups⟩ s'
  have ha := lifted_add h up ⟨m, here, ups⟩
  cases m with
  | close t =>
    unfold State.step at hs ⊢
    dsimp only [lifted] at hs ⊢
    split at hs
    · next h1 => rw [if_pos h1]; cases hs; rfl
    · next h1 =>
      rw [if_neg h1]
      cases ups with
      | nil => cases hs
      | cons f ups =>
        obtain ⟨t', as, before⟩ := f
        dsimp only [lift] at hs ⊢
        split at hs
        · next h2 =>
          rw [if_pos h2]
          cases hs
          rw [lift_cons]
        · cases hs
  | bang b =>
    unfold State.step at hs ⊢
    dsimp only [lifted] at hs ⊢
    cases hl : declarations.lookup (b ++ [c]) with
    | some m => rw [hl] at hs; cases hs; rfl
    | none =>
      rw [hl] at hs
      dsimp only at hs ⊢
      revert hs
      split_ifs
      · intro hs; cases hs; rfl
      · nofun
  | ref n =>
    unfold State.step at hs ⊢
    dsimp only [lifted] at hs ⊢
    revert hs
    split_ifs
    · intro hs
      rw [Option.map_eq_some_iff] at hs ⊢
      obtain ⟨x, hx, rfl⟩ := hs
      exact ⟨x, hx, (ha _).symm⟩
    · intro hs; cases hs; rfl
  | valueRef t as n v r =>
    unfold State.step at hs ⊢
    dsimp only [lifted] at hs ⊢
    revert hs
    split_ifs
    · intro hs
      rw [Option.map_eq_some_iff] at hs ⊢
      obtain ⟨x, hx, rfl⟩ := hs
      exact ⟨x, hx, rfl⟩
    · intro hs; cases hs; rfl
  | _ =>
    unfold State.step at hs ⊢
    dsimp only [lifted] at hs ⊢
    revert hs
    first
      | (split_ifs <;> intro hs <;>
          first
          | (cases hs <;> rfl)
          | (cases hs; exact congrArg some (ha _).symm)
          | exact ht _ _ _ hs)
      | (intro hs; exact ht _ _ _ hs)

theorem lifted_feed (h : List Tree) (up : List (Str × List (Str × Str) × List Tree)) (t : Str) :
    ∀ s s' : State, s.feed t = some s' → (lifted h up s).feed t = some (lifted h up s') := by
  induction t with
  | nil => intro s s' hs; cases hs; rfl
  | cons c t ih =>
    intro s s' hs
    unfold State.feed at hs
    rw [Option.bind_eq_some_iff] at hs
    obtain ⟨s1, h1, h2⟩ := hs
    exact feed_cons (lifted_step h up s s1 c h1) (ih s1 s' h2)

theorem xml_markup {t : Str} {ts : List Tree} (ht : Spec.TreeSem.xml.markup t = some ts) : Xml t ts := by
  intro h up
  change (if t.contains '\r' then none else Spec.Reader.read t) = some ts at ht
  split at ht
  · cases ht
  · next hr =>
    unfold Spec.Reader.read at ht
    split at ht
    · rw [line_ends (by simpa using hr)] at ht
      split at ht
      · next here hf =>
        cases ht
        refine ⟨here.reverse, (lifted_feed h up t _ _ hf).trans ?_, same_joined _⟩
        rw [List.reverse_reverse]
        rfl
      · cases ht
    · cases ht

theorem xml_name {n : Str} (h : Spec.TreeSem.xml.name n = true) : Name n := by
  change (!n.isEmpty && n.all nameChar) = true at h
  rw [Bool.and_eq_true, List.all_eq_true] at h
  exact ⟨by simpa using h.1, h.2⟩

theorem xml_attrs {h : List Tree} {up : List (Str × List (Str × Str) × List Tree)} {m : Mode} {t : Str}
    {as : List (Str × Str)} (hm : AtTag m t as) (kvs : List (Str × Str)) (hn : ∀ kv ∈ kvs, Name kv.1) :
    ∃ m', AtTag m' t (as ++ kvs.map fun kv => (kv.1, normal kv.2)) ∧
      (State.mk m h up).feed (kvs.flatMap (attrText "xml".toList)) = some ⟨m', h, up⟩ := by
  induction kvs generalizing m as with
  | nil => exact ⟨m, by simpa using hm, rfl⟩
  | cons kv kvs ih =>
    rw [List.flatMap_cons, List.map_cons]
    obtain ⟨m', h1, h2⟩ := ih (as := as ++ [(kv.1, normal kv.2)]) (.inr rfl) fun x hx => hn x (List.mem_cons_of_mem _ hx)
    exact ⟨m', by simpa using h1, feed_then (read_attr h up hm _ _ (hn kv (List.mem_cons_self ..))) h2⟩

theorem names_map (F : Format) (kvs : List (Str × Str)) :
    (kvs.map fun kv => (kv.1, F.attr kv.1 kv.2)).map (·.1) = kvs.map (·.1) := by
  rw [List.map_map]
  rfl

/-- XML is read. -/
theorem reading_xml : Reading Spec.TreeSem.xml "xml".toList Xml where
  nil := fun h up => ⟨[], rfl, Same.refl _⟩
  append := by
    intro a b x y ha hb h up
    obtain ⟨k, h1, h2⟩ := ha h up
    obtain ⟨k', h3, h4⟩ := hb (k.reverse ++ h) up
    exact ⟨k ++ k', (feed_then h1 h3).trans (by simp), h2.append h4⟩
  text := fun {t u} hu h up => ⟨_, read_decoded t h up none u hu, same_chars _⟩
  value := fun {v} hv h up => ⟨_, read_value h up v hv, same_chars _⟩
  markup := xml_markup
  comment := fun {t} ht h up => ⟨[_], read_comment h up t ht, Same.refl _⟩
  elem := by
    intro tag body kvs ts ht hn hd _ hb h up
    have ht := xml_name ht
    obtain ⟨m, hm, hm'⟩ := xml_attrs (h := h) (up := up) (m := .name tag) (t := tag) (as := []) (.inl ⟨rfl, rfl⟩) kvs
      (fun kv hkv => xml_name (hn kv hkv))
    rw [List.nil_append] at hm
    obtain ⟨k, h1, h2⟩ := hb [] ((tag, kvs.map fun kv => (kv.1, normal kv.2), h) :: up)
    rw [xml_html]
    simp only [Bool.false_and, Bool.false_eq_true, if_false]
    refine ⟨[_], feed_then (feed_then (read_name h up tag ht) hm')
      (feed_then (feed_then (feed_one (hm.gt h up ((names_map Spec.TreeSem.xml kvs).symm ▸ hd))) h1)
        ((read_close _ up tag _ h ht).trans ?_)), Same.refl _⟩
    rw [List.append_nil, List.reverse_reverse, h2.joined_eq]
    rfl
  empty := by
    intro tag kvs ht hn hd _ h up
    have ht := xml_name ht
    obtain ⟨m, hm, hm'⟩ := xml_attrs (h := h) (up := up) (m := .name tag) (t := tag) (as := []) (.inl ⟨rfl, rfl⟩) kvs
      (fun kv hkv => xml_name (hn kv hkv))
    rw [List.nil_append] at hm
    have hd' := (names_map Spec.TreeSem.xml kvs).symm ▸ hd
    refine ⟨[_], feed_then (feed_then (read_name h up tag ht) hm') ?_, Same.refl _⟩
    unfold emptyTag
    rw [xml_html]
    simp only [Bool.false_and, Bool.false_or, Bool.false_eq_true, if_false]
    split
    · refine feed_cons (hm.gt h up hd') ((read_close [] up tag _ h ht).trans ?_)
      rfl
    · exact hm.empty h up hd'
  script := by
    intro tag x s kvs ht hn hd _ hs h up
    have ht := xml_name ht
    obtain ⟨m, hm, hm'⟩ := xml_attrs (h := h) (up := up) (m := .name tag) (t := tag) (as := []) (.inl ⟨rfl, rfl⟩) kvs
      (fun kv hkv => xml_name (hn kv hkv))
    rw [List.nil_append] at hm
    have hd' := (names_map Spec.TreeSem.xml kvs).symm ▸ hd
    change (if "]]>".toList <:+: x then none else some ("/**/".toList ++ x ++ "/**/".toList)) = some s at hs
    split at hs
    · cases hs
    · next hc =>
      cases hs
      rw [if_pos rfl, if_pos rfl]
      obtain ⟨k, h1, h2⟩ := read_script_text [] ((tag, kvs.map fun kv => (kv.1, normal kv.2), h) :: up) hc
      refine ⟨[_], feed_then (feed_then (read_name h up tag ht) hm')
        (feed_then (feed_then (feed_one (hm.gt h up hd')) h1) ((read_close _ up tag _ h ht).trans ?_)), Same.refl _⟩
      rw [List.append_nil, List.reverse_reverse, h2.joined_eq]
      rfl

end

/-! ## HTML -/

section
open Kajiki.Spec.HtmlReader
open Kajiki.ReadsHtml

/-- How a text is read in HTML. -/
def Html (t : Str) (ts : List Tree) : Prop :=
  (ts = [] → t = []) ∧ ∀ it h, (it = true → ts.all isText = true) →
    ∃ k, (State.mk .content it h).feed t = some ⟨.content, it, k.reverse ++ h⟩ ∧ Same k (flattenAll ts)

theorem flattenAll_cons (x : Tree) (xs : List Tree) : flattenAll (x :: xs) = flatten x ++ flattenAll xs := rfl

theorem flattenAll_append (xs ys : List Tree) : flattenAll (xs ++ ys) = flattenAll xs ++ flattenAll ys := by
  induction xs with
  | nil => rfl
  | cons x xs ih =>
    rw [List.cons_append, flattenAll_cons, flattenAll_cons, ih, List.append_assoc]

theorem nil_chars (z : List Token) : joined (.chars [] :: z) = joined z := (same_chars [] z).symm

theorem same_flatten (ts : List Tree) : Same (flattenAll ts) (flattenAll (Spec.Reader.joined ts)) := by
  intro z
  induction ts with
  | nil => rfl
  | cons x ts ih =>
    cases x with
    | text t =>
      have e : flattenAll (.text t :: ts) ++ z = [.chars t] ++ (flattenAll ts ++ z) := by
        conv_lhs => unfold flattenAll flatten
        rfl
      rw [e, joined_congr _ ih]
      simp only [Spec.Reader.joined]
      rcases Spec.Reader.joined ts with _ | ⟨y, ys⟩
      · dsimp only
        split
        · next ht => subst ht; exact nil_chars z
        · rfl
      · cases y with
        | text u =>
          unfold flattenAll flatten
          exact joined_chars t u _
        | _ =>
          dsimp only
          split
          · next ht => subst ht; exact nil_chars _
          · conv_rhs => unfold flattenAll flatten
            rfl
    | _ =>
      simp only [Spec.Reader.joined]
      unfold flattenAll
      rw [List.append_assoc, List.append_assoc]
      exact joined_congr _ ih

theorem read_decoded_html (s : Str) (it : Bool) (h : List Token) :
    ∀ r u, decodeFrom r s = some u →
      (State.mk (match r with | none => .content | some n => .ref n) it h).feed s = some ⟨.content, it, (chars u).reverse ++ h⟩ := by
  induction s generalizing h with
  | nil =>
    intro r u hu
    cases r with
    | none => cases hu; rfl
    | some n => cases hu
  | cons c s ih =>
    intro r u hu
    unfold decodeFrom at hu
    cases r with
    | none =>
      dsimp only at hu ⊢
      split at hu
      · cases hu
      · next h1 =>
        split at hu
        · next h2 =>
          subst h2
          exact feed_cons (s' := ⟨.ref [], it, h⟩) (by simp [State.step]) (ih h (some []) u hu)
        · next h2 =>
          rw [Option.map_eq_some_iff] at hu
          obtain ⟨u', hu', rfl⟩ := hu
          refine feed_cons (s' := ⟨.content, it, .chars [c] :: h⟩) (by simp [State.step, State.add, h1, h2])
            ((ih _ none u' hu').trans ?_)
          simp [chars]
    | some n =>
      dsimp only at hu ⊢
      split at hu
      · next h1 =>
        rw [Option.bind_eq_some_iff] at hu
        obtain ⟨x, hx, hu⟩ := hu
        rw [Option.map_eq_some_iff] at hu
        obtain ⟨u', hu', rfl⟩ := hu
        refine feed_cons (s' := ⟨.content, it, .chars [x] :: h⟩) (by simp [State.step, State.add, h1, hx])
          ((ih _ none u' hu').trans ?_)
        simp [chars]
      · next h1 =>
        exact feed_cons (s' := ⟨.ref (n ++ [c]), it, h⟩) (by simp [State.step, h1]) (ih h (some (n ++ [c])) u hu)

theorem html_name {n : Str} (h : Spec.TreeSem.html.name n = true) : Name n := by
  change (!n.isEmpty && n.all nameChar) = true at h
  rw [Bool.and_eq_true, List.all_eq_true] at h
  exact ⟨by simpa using h.1, h.2⟩

/-- The value of an attribute. -/
def valued (kv : Str × Str) : Str × Str := (kv.1, if flags.contains kv.1 then [] else kv.2)

theorem html_attrs {mode : Str} (hh : html mode = true) {it : Bool} {h : List Token} {m : Mode} {t : Str}
    {as : List (Str × Str)} (hm : AtTag m t as) (kvs : List (Str × Str)) (hn : ∀ kv ∈ kvs, Name kv.1) :
    ∃ m', AtTag m' t (as ++ kvs.map valued) ∧
      (State.mk m it h).feed (kvs.flatMap (attrText mode)) = some ⟨m', it, h⟩ := by
  induction kvs generalizing m as with
  | nil => exact ⟨m, by simpa using hm, rfl⟩
  | cons kv kvs ih =>
    rw [List.flatMap_cons, List.map_cons]
    obtain ⟨m1, h1, h2⟩ := read_attr it h hh hm kv.1 kv.2 (hn kv (List.mem_cons_self ..))
    obtain ⟨m', h3, h4⟩ := ih h1 fun x hx => hn x (List.mem_cons_of_mem _ hx)
    exact ⟨m', by simpa [valued] using h3, feed_then h2 h4⟩

theorem html_fits {tag : Str} {ts : List Tree} (h : Spec.TreeSem.html.fits tag ts = true) :
    tag ∉ strange ∧ (tag ∈ rawTags → ts = []) ∧ (tag ∈ textTags → ts.all isText = true) := by
  change (!strange.contains tag && (!rawTags.contains tag || ts.isEmpty) && (!textTags.contains tag || ts.all isText)) = true at h
  simp only [Bool.and_eq_true, Bool.or_eq_true, Bool.not_eq_true', List.contains_eq_mem, decide_eq_false_iff_not] at h
  refine ⟨h.1.1, fun hr => ?_, fun ht => ?_⟩
  · simpa using h.1.2.resolve_left (fun x => x hr)
  · exact h.2.resolve_left (fun x => x ht)

theorem raw_not_strange {tag : Str} (h : tag ∈ rawTags) : tag ∉ strange ∧ tag ∉ textTags := by
  have : ∀ t ∈ rawTags, t ∉ strange ∧ t ∉ textTags := by decide +kernel
  exact this tag h

/-- An element. -/
theorem html_elem {mode : Str} (hh : html mode = true) {tag body : Str} {kvs : List (Str × Str)} {ts : List Tree}
    (ht : Spec.TreeSem.html.name tag = true) (hn : ∀ kv ∈ kvs, Spec.TreeSem.html.name kv.1 = true)
    (hd : (kvs.map (·.1)).Nodup) (hf : Spec.TreeSem.html.fits tag ts = true)
    (hb : Html body ts) :
    Html ('<' :: tag ++ kvs.flatMap (attrText mode) ++ (">".toList ++ body ++ if void tag then [] else close tag))
      [.elem tag (kvs.map fun kv => (kv.1, Spec.TreeSem.html.attr kv.1 kv.2)) (Spec.Reader.joined ts)] := by
  refine ⟨nofun, fun it h hit => ?_⟩
  have : it = false := by
    cases it with
    | false => rfl
    | true => have := hit rfl; cases this
  subst this
  obtain ⟨hbe, hb⟩ := hb
  have ht := html_name ht
  obtain ⟨hst, hfr, hft⟩ := html_fits hf
  obtain ⟨m, hm, hm'⟩ := html_attrs hh (it := false) (h := h) (m := .name tag) (t := tag) (as := []) (.inl ⟨rfl, rfl⟩) kvs
    (fun kv hkv => html_name (hn kv hkv))
  rw [List.nil_append] at hm
  have hd' : ((kvs.map valued).map (·.1)).Nodup := (names_map Spec.TreeSem.html kvs).symm ▸ hd
  have h0 := hm.gt false h hd' hst
  have h1 := feed_then (read_name h tag ht) hm'
  have hs : Same (flattenAll ts) (flattenAll (Spec.Reader.joined ts)) := same_flatten ts
  rw [show ">".toList = ['>'] from rfl]
  by_cases hr : tag ∈ rawTags
  · have hvo := void_not_raw (.inl hr)
    rw [if_pos hr] at h0
    rw [hbe (hfr hr), hvo, hfr hr]
    have h2 := read_raw (decide (tag ∈ textTags)) (.start tag (kvs.map valued) :: h) [] tag (by decide +kernel) ht
    refine ⟨[.start tag (kvs.map valued), .chars [], .stop tag], feed_then h1 (feed_cons h0 h2), ?_⟩
    unfold flattenAll flatten
    rw [hvo]
    intro z
    change joined (.start tag _ :: .chars [] :: .stop tag :: z) = joined (.start tag _ :: .stop tag :: z)
    rw [show (kvs.map fun kv => (kv.1, Spec.TreeSem.html.attr kv.1 kv.2)) = kvs.map valued from rfl]
    exact joined_congr [Token.start tag (kvs.map valued)] (nil_chars _)
  · rw [if_neg hr] at h0
    obtain ⟨k, h2, h3⟩ := hb (decide (tag ∈ textTags)) (.start tag (kvs.map valued) :: h) fun hx => hft (by simpa using hx)
    by_cases hvo : void tag = true
    · have htt : tag ∉ textTags := fun hx => by rw [void_not_raw (.inr hx)] at hvo; cases hvo
      rw [hvo, if_pos rfl, List.append_nil]
      refine ⟨.start tag (kvs.map valued) :: k, (feed_then h1 (feed_cons h0 h2)).trans ?_, ?_⟩
      · rw [decide_eq_false htt]
        simp
      · rw [flattenAll_cons, flatten, hvo, if_pos rfl, List.append_nil]
        intro z
        rw [show flattenAll [] = [] from rfl, List.append_nil]
        exact joined_congr [Token.start tag (kvs.map valued)] ((h3 z).trans (hs z))
    · rw [if_neg hvo]
      refine ⟨.start tag (kvs.map valued) :: (k ++ [.stop tag]),
        (feed_then h1 (feed_cons h0 (feed_then h2 (read_close _ _ tag ht)))).trans (by simp), ?_⟩
      rw [flattenAll_cons, flatten, if_neg hvo]
      intro z
      rw [show flattenAll [] = [] from rfl, List.append_nil]
      have := (h3.append (Same.refl [.stop tag])) z
      have h5 := (hs.append (Same.refl [.stop tag])) z
      exact joined_congr [Token.start tag (kvs.map valued)] (this.trans h5)

theorem html_script {mode : Str} (hh : html mode = true) {tag x s : Str} {kvs : List (Str × Str)}
    (ht : Spec.TreeSem.html.name tag = true) (hn : ∀ kv ∈ kvs, Spec.TreeSem.html.name kv.1 = true)
    (hd : (kvs.map (·.1)).Nodup) (hst : scriptTag tag = true) (hs : Spec.TreeSem.html.script x = some s) :
    Html ('<' :: tag ++ kvs.flatMap (attrText mode) ++ (">".toList ++ x ++ close tag))
      [.elem tag (kvs.map fun kv => (kv.1, Spec.TreeSem.html.attr kv.1 kv.2)) (Spec.Reader.joined [.text s])] := by
  refine ⟨nofun, fun it h hit => ?_⟩
  have : it = false := by
    cases it with
    | false => rfl
    | true => have := hit rfl; cases this
  subst this
  have ht := html_name ht
  have hr : tag ∈ rawTags := by simpa [scriptTag, rawTags] using hst
  obtain ⟨hns, -⟩ := raw_not_strange hr
  obtain ⟨m, hm, hm'⟩ := html_attrs hh (it := false) (h := h) (m := .name tag) (t := tag) (as := []) (.inl ⟨rfl, rfl⟩) kvs
    (fun kv hkv => html_name (hn kv hkv))
  rw [List.nil_append] at hm
  have hd' : ((kvs.map valued).map (·.1)).Nodup := (names_map Spec.TreeSem.html kvs).symm ▸ hd
  have h0 := hm.gt false h hd' hns
  rw [if_pos hr] at h0
  have h1 := feed_then (read_name h tag ht) hm'
  have hvo := void_not_raw (.inl hr)
  change (if "</".toList <:+: x then none else some x) = some s at hs
  split at hs
  · cases hs
  · next hc =>
    cases hs
    have h2 := read_raw (decide (tag ∈ textTags)) (.start tag (kvs.map valued) :: h) x tag hc ht
    rw [show ">".toList = ['>'] from rfl]
    refine ⟨[.start tag (kvs.map valued), .chars x, .stop tag], feed_then h1 (feed_cons h0 h2), ?_⟩
    rw [flattenAll_cons, flatten, hvo]
    intro z
    have h5 := ((same_flatten [.text x]).append (Same.refl [.stop tag])) z
    exact joined_congr [Token.start tag (kvs.map valued)] (by simpa [flattenAll, flatten] using h5)

/-- HTML is read. -/
theorem reading_html {mode : Str} (hh : html mode = true) : Reading Spec.TreeSem.html mode Html where
  nil := ⟨fun _ => rfl, fun it h _ => ⟨[], rfl, Same.refl _⟩⟩
  append := by
    intro a b x y ha hb
    refine ⟨fun he => ?_, fun it h hit => ?_⟩
    · rw [List.append_eq_nil_iff] at he
      rw [ha.1 he.1, hb.1 he.2]
      rfl
    · rw [List.all_append] at hit
      obtain ⟨k, h1, h2⟩ := ha.2 it h fun hi => ((Bool.and_eq_true _ _).mp (hit hi)).1
      obtain ⟨k', h3, h4⟩ := hb.2 it (k.reverse ++ h) fun hi => ((Bool.and_eq_true _ _).mp (hit hi)).2
      rw [flattenAll_append]
      exact ⟨k ++ k', (feed_then h1 h3).trans (by simp), h2.append h4⟩
  text := fun {t u} hu => ⟨nofun, fun it h _ => ⟨_, read_decoded_html t it h none u hu, same_chars _⟩⟩
  value := fun {v} hv => ⟨nofun, fun it h _ => ⟨_, read_value it h v hv, same_chars _⟩⟩
  markup := nofun
  comment := by
    intro t ht
    refine ⟨nofun, fun it h hit => ?_⟩
    have : it = false := by
      cases it with
      | false => rfl
      | true => have := hit rfl; cases this
    subst this
    exact ⟨[_], read_comment h t ht, Same.refl _⟩
  elem := by
    intro tag body kvs ts ht hn hd hf hb
    rw [hh, Bool.true_and]
    exact html_elem hh ht hn hd hf hb
  empty := by
    intro tag kvs ht hn hd hf
    have := html_elem hh ht hn hd hf (body := []) ⟨fun _ => rfl, fun it h _ => ⟨[], rfl, Same.refl _⟩⟩
    have e : emptyTag mode tag = ">".toList ++ [] ++ if void tag then [] else close tag := by
      unfold emptyTag
      rw [hh]
      simp only [Bool.true_and, Bool.true_or, if_true]
      cases void tag <;> rfl
    rw [e]
    exact this
  script := by
    intro tag x s kvs ht hn hd hst hs
    have hmode : mode ≠ "xml".toList := by rintro rfl; revert hh; decide +kernel
    rw [if_neg hmode, if_neg hmode, List.nil_append, List.append_nil]
    exact html_script hh ht hn hd hst hs

end

end Kajiki.Trees
