import Verif.Lemmas.Reader
import Verif.Props.Fill

/-!
# C72: what is rendered is read as the document with the values as text

`Verif/Spec/Reader.lean` has a reader of XML that knows nothing of Kajiki.
-/

namespace Kajiki.Props
open Kajiki.Run Kajiki.Spec.Fill Kajiki.Spec.Reader Kajiki.Reads

variable {W : Type}

private theorem doctype_read {o : Opts} {dtd : Str} (hd : o.isFragment = true ∨ dtd = [] ∨ Doctype (strip dtd)) :
    ∃ k, (State.mk .content [] []).feed (Spec.Static.doctype o "xml".toList dtd) = some ⟨.content, k, []⟩ ∧
      k = if Spec.Static.doctype o "xml".toList dtd = [] then [] else [.text ['\n']] := by
  have hx : ("xml".toList = "html5".toList) = False := by simp
  unfold Spec.Static.doctype
  by_cases hf : o.isFragment = true
  · simp only [hf, if_true]
    exact ⟨[], rfl, rfl⟩
  · by_cases hn : dtd = []
    · subst hn
      simp only [hf, hx, List.isEmpty_nil, Bool.not_true, Bool.false_eq_true, if_false, if_true]
      exact ⟨[], rfl, rfl⟩
    · have he : (!dtd.isEmpty) = true := by simpa using hn
      simp only [hf, he, Bool.false_eq_true, if_false, if_true, List.append_eq_nil_iff, List.cons_ne_nil, and_false]
      exact ⟨_, feed_then (read_doctype [] [] _ (by tauto)) (feed_one (by simp [State.step]; rfl)), rfl⟩

/-- **C72.** A document with expressions and without directives, in xml mode.  When the expressions have the values
`val` and none of them is markup, an XML reader reads what is rendered as the document itself: the same elements,
attributes and comments, with the strings of the values in the places of the expressions.  (What is rendered must
consist of characters of XML, without `\r`, and not contain `]]>` in CDATA sections and scripts.) -/
theorem C72_read_as_document (d : Page) (py : PyCompile) (gen : Nat → Str) (o : Opts) (dtd : Str) (base : Dict Val)
    (load : Str → Option Nat) (aliasFor : Str → Str) (h : Plain py o d.root) (hp : Proper d.root)
    (hb : Dict.get base "local".toList = none) (hm : selectMode o.mode dtd = "xml".toList)
    (hd : o.isFragment = true ∨ dtd = [] ∨ Doctype (strip dtd)) :
    ∃ u P, xmlTemplate py gen o false dtd d.events = .ok u ∧ (Source.mk [(u, base)] load aliasFor).compile = some P ∧
      ∀ (O : Oracle W) (w : W) (context : Dict Val) (val : Str → Val), Gives O w context d val →
        (∀ e ∈ d.root.expressions, noMarkup (val e) = true) → Closed val o d.root → ∀ n : Nat,
        let r := render P O (n + 1) 0 context w
        (∀ c ∈ r.out.txt, legal c = true ∧ c ≠ '\r') →
        r.val = .ok () ∧ Spec.Reader.read r.out.txt = some (meantPage val o "xml".toList dtd d) := by
  obtain ⟨u, P, h1, h2, h3⟩ := C66_values_in_documents (W := W) d py gen o dtd base load aliasFor h hb
  refine ⟨u, P, h1, h2, fun O w context val hg hv hc n => ?_⟩
  obtain ⟨h4, h5, -⟩ := h3 O w context val hg n
  intro r hl
  refine ⟨h5, ?_⟩
  have e : r.out.txt = d.shown val o "xml".toList dtd := h4.trans (by rw [hm])
  have hall : r.out.txt.all legal = true := List.all_eq_true.2 fun c hc => (hl c hc).1
  have hcr : '\r' ∉ r.out.txt := fun hc => (hl _ hc).2 rfl
  unfold Spec.Reader.read
  rw [if_pos hall, line_ends hcr, e]
  unfold Page.shown
  obtain ⟨k, hk, hk'⟩ := doctype_read hd
  obtain ⟨k2, hk2, hs⟩ := read_node d.root h hp hc hv k []
  rw [feed_then hk hk2]
  dsimp only
  rw [List.reverse_append, List.reverse_reverse, joined_congr k.reverse hs.joined_eq, hk']
  unfold meantPage
  refine congrArg some ?_
  unfold Page.root meant
  split <;> rfl

private theorem skeleton_append (xs ys : List Tree) : skeletonAll (xs ++ ys) = skeletonAll xs ++ skeletonAll ys := by
  induction xs with
  | nil => rfl
  | cons x xs ih => rw [List.cons_append, skeletonAll, skeletonAll, ih, List.append_assoc]

private theorem skeleton_joined (xs : List Tree) : skeletonAll (joined xs) = skeletonAll xs := by
  have txt : ∀ t ys, skeletonAll (.text t :: ys) = skeletonAll ys := fun t ys => by simp [skeletonAll, skeleton]
  induction xs with
  | nil => rfl
  | cons x xs ih =>
    cases x with
    | elem t as ks => simp only [joined, skeletonAll, ih]
    | comment t => simp only [joined, skeletonAll, ih]
    | text t =>
      rw [txt, ← ih]
      simp only [joined]
      split
      · next h => rw [h, txt, txt]
      · split
        · rfl
        · rw [txt]

private theorem kept {val : Str → Val} {kv : Str × List Item}
    (h : ∀ e ∈ expressions kv.2, ordinary (val e) = true) : attrOf val kv = some (kv.1, normal (attrValue val kv.2)) := by
  unfold attrOf
  rw [if_neg]
  intro ha
  simp only [Bool.and_eq_true, List.all_eq_true, Bool.not_eq_true', List.isEmpty_eq_false_iff] at ha
  obtain ⟨hne, ha⟩ := ha
  obtain ⟨t, ht⟩ := List.exists_mem_of_ne_nil _ hne
  have h1 := ha t ht
  have h2 : ∀ e, t.expression = some e → ordinary (val e) = true := fun e he =>
    h e (List.mem_filterMap.2 ⟨t, ht, he⟩)
  cases t with
  | ch c => cases h1
  | name e =>
    have := h2 e rfl
    simp only [absent] at h1
    cases hv : val e <;> rw [hv] at h1 this <;> simp [isNone, ordinary] at h1 this
  | expr ws e =>
    have := h2 e rfl
    simp only [absent] at h1
    cases hv : val e <;> rw [hv] at h1 this <;> simp [isNone, ordinary] at h1 this

private theorem kept_names {val : Str → Val} {kvs : List (Str × List Item)}
    (h : ∀ e ∈ kvs.flatMap (fun kv => expressions kv.2), ordinary (val e) = true) :
    (kvs.filterMap (attrOf val)).map (fun kv => (kv.1, ([] : Str))) = kvs.map fun kv => (kv.1, []) := by
  induction kvs with
  | nil => rfl
  | cons kv kvs ih =>
    rw [List.flatMap_cons] at h
    rw [List.filterMap_cons, kept fun e he => h e (List.mem_append_left _ he)]
    dsimp only
    rw [List.map_cons, List.map_cons, ih fun e he => h e (List.mem_append_right _ he)]

mutual
private theorem skeleton_same {val val' : Str → Val} {o : Opts} : ∀ (x : Node)
    (_ : ∀ e ∈ x.expressions, ordinary (val e) = true) (_ : ∀ e ∈ x.expressions, ordinary (val' e) = true),
    skeletonAll (meant val o x) = skeletonAll (meant val' o x)
  | .text ts _, _, _ => by unfold meant; rfl
  | .cdata ps _ _, _, _ => by unfold meant; rfl
  | .comment t _, _, _ => by unfold meant; rfl
  | .elem tag attrs ln kids, h, h' => by
    unfold Node.expressions at h h'
    have hp : ((sorted attrs).flatMap fun kv => expressions kv.2).Perm (attrs.flatMap fun kv => expressions kv.2) :=
      (List.perm_insertionSort _ attrs).flatMap_right _
    unfold meant
    have one : ∀ as ks, skeletonAll [.elem tag as ks] = [.elem tag (as.map fun kv => (kv.1, [])) (skeletonAll ks)] :=
      fun as ks => by simp [skeletonAll, skeleton]
    rw [one, one,
      kept_names fun e he => h e (List.mem_append_left _ (hp.mem_iff.1 he)),
      kept_names fun e he => h' e (List.mem_append_left _ (hp.mem_iff.1 he))]
    refine congrArg (fun k => [Tree.elem tag _ k]) ?_
    split
    · rfl
    · split
      · rfl
      · rw [skeleton_joined, skeleton_joined]
        exact skeletons_same kids (fun e he => h e (List.mem_append_right _ he))
          (fun e he => h' e (List.mem_append_right _ he))

private theorem skeletons_same {val val' : Str → Val} {o : Opts} : ∀ (xs : List Node)
    (_ : ∀ e ∈ expressionsAll xs, ordinary (val e) = true) (_ : ∀ e ∈ expressionsAll xs, ordinary (val' e) = true),
    skeletonAll (meantAll val o xs) = skeletonAll (meantAll val' o xs)
  | [], _, _ => rfl
  | x :: xs, h, h' => by
    unfold expressionsAll at h h'
    unfold meantAll
    rw [skeleton_append, skeleton_append,
      skeleton_same x (fun e he => h e (List.mem_append_left _ he)) (fun e he => h' e (List.mem_append_left _ he)),
      skeletons_same xs (fun e he => h e (List.mem_append_right _ he)) (fun e he => h' e (List.mem_append_right _ he))]
end

/-- **C72.** No value can add, remove or change an element or an attribute: whatever the strings of the values, the
reader finds the same elements with the same attributes, those of the template. -/
theorem C72_values_add_no_elements (d : Page) (py : PyCompile) (gen : Nat → Str) (o : Opts) (dtd : Str) (base : Dict Val)
    (load : Str → Option Nat) (aliasFor : Str → Str) (h : Plain py o d.root) (hp : Proper d.root)
    (hb : Dict.get base "local".toList = none) (hm : selectMode o.mode dtd = "xml".toList)
    (hd : o.isFragment = true ∨ dtd = [] ∨ Doctype (strip dtd)) :
    ∃ u P skel, xmlTemplate py gen o false dtd d.events = .ok u ∧
      (Source.mk [(u, base)] load aliasFor).compile = some P ∧
      ∀ (O : Oracle W) (w : W) (context : Dict Val) (val : Str → Val), Gives O w context d val →
        (∀ e ∈ d.root.expressions, ordinary (val e) = true) → Closed val o d.root → ∀ n : Nat,
        let r := render P O (n + 1) 0 context w
        (∀ c ∈ r.out.txt, legal c = true ∧ c ≠ '\r') →
        ∃ ts, Spec.Reader.read r.out.txt = some ts ∧ skeletonAll ts = skel := by
  obtain ⟨u, P, h1, h2, h3⟩ := C72_read_as_document (W := W) d py gen o dtd base load aliasFor h hp hb hm hd
  refine ⟨u, P, skeletonAll (meant (fun _ => .int 0) o d.root), h1, h2, fun O w context val hg hv hc n hl => ?_⟩
  obtain ⟨-, h4⟩ := h3 O w context val hg (fun e he => by
    have := hv e he
    cases hx : val e <;> rw [hx] at this <;> first | rfl | cases this) hc n hl
  refine ⟨_, h4, ?_⟩
  unfold meantPage
  rw [skeleton_append, skeleton_same d.root hv (val' := fun _ => .int 0) fun _ _ => rfl]
  split <;> rfl

/-! ### Examples -/

open Kajiki.FillDemo

/-- `<a><![CDATA[$x><b/>]]></a>` -/
private def early : Page := ⟨[], "a".toList, [], 1, [.cdata [([var "x"] ++ chs "><b/>", 1)] 1 1], []⟩

private theorem early_plain : Plain names (opts "xml") early.root :=
  ⟨by decide +kernel, nofun, by decide +kernel, by simp [opts], fun h => absurd h (by decide +kernel), .singleton _,
    ⟨fun p hp => by rw [List.mem_singleton.1 hp]; exact okText _ _ (by decide +kernel) (by decide +kernel), .singleton _⟩,
    trivial⟩

/-- **C72** (finding).  The condition on CDATA sections cannot be left out: a value can end the section, so that what
follows in the template is read as an element.  Here is a document that is read without that element when the value
is the empty string, and with it when the value is `]]`. -/
theorem C72_section_can_end_early : ∃ (d : Page) (o : Opts) (u : Tmpl) (P : Prog (List Stmt)) (O : Oracle Unit)
    (context : Str → Dict Val) (val : Str → Str → Val), Plain names o d.root ∧ Proper d.root ∧
      xmlTemplate names (fun _ => []) o false [] d.events = .ok u ∧
      (Source.mk [(u, [])] (fun _ => none) id).compile = some P ∧
      (∀ s, Gives O () (context s) d (val s) ∧ ∀ e ∈ d.root.expressions, val s e = .str s) ∧
      Spec.Reader.read (render P O 1 0 (context []) ()).out.txt = some [.elem "a".toList [] [.text "><b/>".toList]] ∧
      Spec.Reader.read (render P O 1 0 (context "]]".toList) ()).out.txt =
        some [.elem "a".toList [] [.elem "b".toList [] [], .text "]]>".toList]] := by
  obtain ⟨u, P, h1, h2, h3⟩ := C66_values_in_documents (W := Unit) early names (fun _ => []) (opts "xml") [] []
    (fun _ => none) id early_plain rfl
  have hx : early.root.expressions = ["x".toList] := by decide +kernel
  have hg : ∀ s, Gives lookup () [("x".toList, .str s)] early (valueOf [("x".toList, .str s)]) := fun s =>
    lookup_gives _ _ (by simp) rfl (by
      rw [hx]
      intro e he
      rw [List.mem_singleton.1 he]
      exact ⟨rfl, rfl, by decide +kernel, by decide +kernel⟩)
  have h4 := fun s => (h3 lookup () _ _ (hg s) 0).1
  refine ⟨early, opts "xml", u, P, lookup, fun s => [("x".toList, .str s)], fun s => valueOf [("x".toList, .str s)],
    early_plain, ⟨⟨nofun, by decide +kernel⟩, nofun, trivial, trivial⟩, h1, h2, fun s => ⟨hg s, ?_⟩, ?_, ?_⟩
  · rw [hx]
    intro e he
    rw [List.mem_singleton.1 he]
    rfl
  · rw [h4 []]
    have e : early.shown (valueOf [("x".toList, .str [])]) (opts "xml") (selectMode (opts "xml").mode []) [] =
        "<a><![CDATA[><b/>]]></a>".toList := by decide +kernel
    rw [e]
    rfl
  · rw [h4 "]]".toList]
    have e : early.shown (valueOf [("x".toList, .str "]]".toList)]) (opts "xml") (selectMode (opts "xml").mode []) [] =
        "<a><![CDATA[]]><b/>]]></a>".toList := by decide +kernel
    rw [e]
    rfl

private theorem letter_proper : Proper letter.root := by
  refine ⟨⟨nofun, by decide +kernel⟩, ?_, trivial, ⟨⟨nofun, by decide +kernel⟩, nofun, trivial⟩, trivial, trivial⟩
  intro kv hkv
  simp only [letter, List.mem_cons, List.not_mem_nil, or_false] at hkv
  rcases hkv with rfl | rfl | rfl
  all_goals exact ⟨nofun, by decide +kernel⟩

private theorem letter_closed : Closed (valueOf context) (opts "xml") letter.root := by
  unfold letter Page.root Closed
  rw [if_neg (by decide +kernel)]
  refine ⟨trivial, ?_, ?_, trivial⟩
  · unfold el Closed
    rw [if_neg (by decide +kernel)]
    trivial
  · unfold Closed
    decide +kernel

example : ∃ u P, xmlTemplate names (fun _ => []) (opts "xml") false [] letter.events = .ok u ∧
    (Source.mk [(u, [])] (fun _ => none) id).compile = some P ∧
    Spec.Reader.read (render P lookup 1 0 context ()).out.txt = some [.elem "p".toList
      [("class".toList, "big \"x".toList), ("id".toList, "7".toList)]
      [.text "Dear <b>&, you owe $3!".toList, .elem "br".toList [] [], .text "<&lt;b&gt;&amp;>".toList]] := by
  obtain ⟨u, P, h1, h2, h3⟩ := C72_read_as_document (W := Unit) letter names (fun _ => []) (opts "xml") [] []
    (fun _ => none) id letter_plain letter_proper rfl (by decide +kernel) (.inr (.inl rfl))
  have hg := lookup_gives letter context (by decide +kernel) (by decide +kernel) (by decide +kernel)
  obtain ⟨u', P', h1', h2', h3'⟩ := C66_values_in_documents (W := Unit) letter names (fun _ => []) (opts "xml") [] []
    (fun _ => none) id letter_plain rfl
  obtain ⟨h4, -⟩ := h3' lookup () context _ hg 0
  rw [h1] at h1'
  cases h1'
  rw [h2] at h2'
  cases h2'
  refine ⟨u, P, h1, h2, (h3 lookup () context _ hg (by decide +kernel) letter_closed 0 ?_).2.trans ?_⟩
  · rw [h4]
    decide +kernel
  · rfl

end Kajiki.Props
