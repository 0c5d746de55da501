import Verif.Lemmas.HtmlReader
import Verif.Lemmas.FillDemo
import Verif.Props.Fill

/-!
# C73: what is rendered in html mode is read as the document with the values as text

`Verif/Spec/HtmlReader.lean` has a tokenizer of HTML that knows nothing of Kajiki.
-/

namespace Kajiki.Props
open Kajiki.Run Kajiki.Spec.Fill Kajiki.Spec.HtmlReader Kajiki.ReadsHtml
open Kajiki.Spec.Reader (noMarkup Doctype legal)
open Kajiki.Spec.DocSem (html)

variable {W : Type}

private theorem html_doctype_read {o : Opts} {mode dtd : Str}
    (hd : o.isFragment = true ∨ dtd = [] ∨ Doctype (strip dtd)) :
    (State.mk .content false []).feed (Spec.Static.doctype o mode dtd) =
      some ⟨.content, false, if Spec.Static.doctype o mode dtd = [] then [] else [.chars ['\n']]⟩ := by
  unfold Spec.Static.doctype
  by_cases hf : o.isFragment = true
  · simp only [hf, if_true]
    rfl
  · by_cases hn : dtd = []
    · subst hn
      simp only [hf, List.isEmpty_nil, Bool.not_true, Bool.false_eq_true, if_false]
      by_cases h5 : mode = "html5".toList
      · rw [if_pos h5]
        rfl
      · rw [if_neg h5]
        rfl
    · have he : (!dtd.isEmpty) = true := by simpa using hn
      simp only [hf, he, Bool.false_eq_true, if_false, if_true, List.append_eq_nil_iff, List.cons_ne_nil, and_false]
      exact feed_then (read_doctype [] _ (by tauto)) (feed_one (by simp [State.step, State.add]))

/-- **C73.** A document with expressions and without directives, in an html mode.  When the expressions have the
values `val` and none of them is markup, an HTML reader reads what is rendered as the document itself: the same tags,
attributes and comments in the same order, with the strings of the values in the places of the expressions.  (What is
rendered must consist of ordinary characters, without `\r`, and not contain `</` in scripts and style sheets.) -/
theorem C73_read_as_document (d : Page) (py : PyCompile) (gen : Nat → Str) (o : Opts) (dtd : Str) (base : Dict Val)
    (load : Str → Option Nat) (aliasFor : Str → Str) (h : Plain py o d.root) (hp : Proper d.root)
    (hb : Dict.get base "local".toList = none) (hm : html (selectMode o.mode dtd) = true) (hs : o.cdataScripts = true)
    (hd : o.isFragment = true ∨ dtd = [] ∨ Doctype (strip dtd)) :
    ∃ u P, xmlTemplate py gen o false dtd d.events = .ok u ∧ (Source.mk [(u, base)] load aliasFor).compile = some P ∧
      ∀ (O : Oracle W) (w : W) (context : Dict Val) (val : Str → Val), Gives O w context d val →
        (∀ e ∈ d.root.expressions, noMarkup (val e) = true) → Closed val d.root → ∀ n : Nat,
        let r := render P O (n + 1) 0 context w
        (∀ c ∈ r.out.txt, legal c = true ∧ c ≠ '\r') →
        r.val = .ok () ∧ tokens r.out.txt = some (joined (meantPage val o (selectMode o.mode dtd) dtd d)) := by
  obtain ⟨u, P, h1, h2, h3⟩ := C66_values_in_documents (W := W) d py gen o dtd base load aliasFor h hb
  refine ⟨u, P, h1, h2, fun O w context val hg hv hc n => ?_⟩
  obtain ⟨h4, h5, -⟩ := h3 O w context val hg n
  intro r hl
  refine ⟨h5, ?_⟩
  have e : r.out.txt = d.shown val o (selectMode o.mode dtd) dtd := h4
  have hall : r.out.txt.all legal = true := List.all_eq_true.2 fun c hc => (hl c hc).1
  have hcr : '\r' ∉ r.out.txt := fun hc => (hl _ hc).2 rfl
  unfold tokens
  rw [if_pos hall, Reads.line_ends hcr, e]
  unfold Page.shown
  obtain ⟨k2, hk2, hs2⟩ := read_node hm hs d.root h hp hc hv
    (if Spec.Static.doctype o (selectMode o.mode dtd) dtd = [] then [] else [.chars ['\n']])
  rw [feed_then (html_doctype_read hd) hk2]
  dsimp only
  rw [List.reverse_append, List.reverse_reverse, joined_congr _ hs2.joined_eq]
  unfold meantPage
  refine congrArg some (congrArg joined ?_)
  split <;> rfl

private theorem skeleton_append_html (xs ys : List Token) : skeleton (xs ++ ys) = skeleton xs ++ skeleton ys :=
  List.filterMap_append ..

private theorem skeleton_joined_html (xs : List Token) : skeleton (joined xs) = skeleton xs := by
  have txt : ∀ t ys, skeleton (.chars t :: ys) = skeleton ys := fun t ys => rfl
  induction xs with
  | nil => rfl
  | cons x xs ih =>
    have other : ∀ y ys, skeleton (y :: ys) = skeleton [y] ++ skeleton ys := fun y ys => skeleton_append_html [y] ys
    cases x with
    | start t as => simp only [joined]; rw [other, ih, ← other]
    | stop t => simp only [joined]; rw [other, ih, ← other]
    | comment t => simp only [joined]; rw [other, ih, ← other]
    | chars t =>
      rw [txt, ← ih]
      simp only [joined]
      split
      · next h => rw [h, txt, txt]
      · split
        · rfl
        · rw [txt]

private theorem kept_html {val : Str → Val} {kv : Str × List Item}
    (h : ∀ e ∈ expressions kv.2, ordinary (val e) = true) : ∃ v, attrOf val kv = some (kv.1, v) := by
  unfold attrOf
  rw [if_neg]
  · exact ⟨_, rfl⟩
  intro ha
  simp only [Bool.and_eq_true, List.all_eq_true, Bool.not_eq_true', List.isEmpty_eq_false_iff] at ha
  obtain ⟨hne, ha⟩ := ha
  obtain ⟨t, ht⟩ := List.exists_mem_of_ne_nil _ hne
  have h1 := ha t ht
  have h2 : ∀ e, t.expression = some e → ordinary (val e) = true := fun e he =>
    h e (List.mem_filterMap.2 ⟨t, ht, he⟩)
  cases t with
  | ch c => cases h1
  | name e =>
    have := h2 e rfl
    simp only [absent] at h1
    cases hv : val e <;> rw [hv] at h1 this <;> simp [isNone, ordinary] at h1 this
  | expr ws e =>
    have := h2 e rfl
    simp only [absent] at h1
    cases hv : val e <;> rw [hv] at h1 this <;> simp [isNone, ordinary] at h1 this

private theorem kept_names_html {val : Str → Val} {kvs : List (Str × List Item)}
    (h : ∀ e ∈ kvs.flatMap (fun kv => expressions kv.2), ordinary (val e) = true) :
    (kvs.filterMap (attrOf val)).map (fun kv => (kv.1, ([] : Str))) = kvs.map fun kv => (kv.1, []) := by
  induction kvs with
  | nil => rfl
  | cons kv kvs ih =>
    rw [List.flatMap_cons] at h
    obtain ⟨v, hv⟩ := kept_html (kv := kv) fun e he => h e (List.mem_append_left _ he)
    rw [List.filterMap_cons, hv]
    dsimp only
    rw [List.map_cons, List.map_cons, ih fun e he => h e (List.mem_append_right _ he)]

mutual
private theorem skeleton_same_html {val val' : Str → Val} : ∀ (x : Node)
    (_ : ∀ e ∈ x.expressions, ordinary (val e) = true) (_ : ∀ e ∈ x.expressions, ordinary (val' e) = true),
    skeleton (meant val x) = skeleton (meant val' x)
  | .text ts _, _, _ => by unfold meant; rfl
  | .cdata ps _ _, _, _ => by unfold meant; rfl
  | .comment t _, _, _ => by unfold meant; rfl
  | .elem tag attrs ln kids, h, h' => by
    unfold Node.expressions at h h'
    have hp : ((sorted attrs).flatMap fun kv => expressions kv.2).Perm (attrs.flatMap fun kv => expressions kv.2) :=
      (List.perm_insertionSort _ attrs).flatMap_right _
    unfold meant
    have one : ∀ as ks, skeleton (.start tag as :: ks) = .start tag (as.map fun kv => (kv.1, [])) :: skeleton ks :=
      fun as ks => rfl
    rw [one, one,
      kept_names_html fun e he => h e (List.mem_append_left _ (hp.mem_iff.1 he)),
      kept_names_html fun e he => h' e (List.mem_append_left _ (hp.mem_iff.1 he)),
      skeleton_append_html, skeleton_append_html]
    refine congrArg (fun k => _ :: (k ++ _)) ?_
    split
    · rfl
    · exact skeletons_same_html kids (fun e he => h e (List.mem_append_right _ he))
        (fun e he => h' e (List.mem_append_right _ he))

private theorem skeletons_same_html {val val' : Str → Val} : ∀ (xs : List Node)
    (_ : ∀ e ∈ expressionsAll xs, ordinary (val e) = true) (_ : ∀ e ∈ expressionsAll xs, ordinary (val' e) = true),
    skeleton (meantAll val xs) = skeleton (meantAll val' xs)
  | [], _, _ => rfl
  | x :: xs, h, h' => by
    unfold expressionsAll at h h'
    unfold meantAll
    rw [skeleton_append_html, skeleton_append_html,
      skeleton_same_html x (fun e he => h e (List.mem_append_left _ he)) (fun e he => h' e (List.mem_append_left _ he)),
      skeletons_same_html xs (fun e he => h e (List.mem_append_right _ he)) (fun e he => h' e (List.mem_append_right _ he))]
end

/-- **C73.** No value can add, remove or change a tag or an attribute: whatever the strings of the values, the reader
finds the same tags with the same attributes, those of the template. -/
theorem C73_values_add_no_tags (d : Page) (py : PyCompile) (gen : Nat → Str) (o : Opts) (dtd : Str) (base : Dict Val)
    (load : Str → Option Nat) (aliasFor : Str → Str) (h : Plain py o d.root) (hp : Proper d.root)
    (hb : Dict.get base "local".toList = none) (hm : html (selectMode o.mode dtd) = true) (hs : o.cdataScripts = true)
    (hd : o.isFragment = true ∨ dtd = [] ∨ Doctype (strip dtd)) :
    ∃ u P skel, xmlTemplate py gen o false dtd d.events = .ok u ∧
      (Source.mk [(u, base)] load aliasFor).compile = some P ∧
      ∀ (O : Oracle W) (w : W) (context : Dict Val) (val : Str → Val), Gives O w context d val →
        (∀ e ∈ d.root.expressions, ordinary (val e) = true) → Closed val d.root → ∀ n : Nat,
        let r := render P O (n + 1) 0 context w
        (∀ c ∈ r.out.txt, legal c = true ∧ c ≠ '\r') →
        ∃ ts, tokens r.out.txt = some ts ∧ skeleton ts = skel := by
  obtain ⟨u, P, h1, h2, h3⟩ := C73_read_as_document (W := W) d py gen o dtd base load aliasFor h hp hb hm hs hd
  refine ⟨u, P, skeleton (meant (fun _ => .int 0) d.root), h1, h2, fun O w context val hg hv hc n hl => ?_⟩
  obtain ⟨-, h4⟩ := h3 O w context val hg (fun e he => by
    have := hv e he
    cases hx : val e <;> rw [hx] at this <;> first | rfl | cases this) hc n hl
  refine ⟨_, h4, ?_⟩
  rw [skeleton_joined_html]
  unfold meantPage
  rw [skeleton_append_html, skeleton_same_html d.root hv (val' := fun _ => .int 0) fun _ _ => rfl]
  split <;> rfl

/-! ### Examples -/

open Kajiki.FillDemo

/-- `<form><title>$t</title><script>if (a<b) f('$x')</script><input value="$x" checked="$c"/>$x</form>` -/
private def form : Page :=
  ⟨[], "form".toList, [], 1,
    [el "title" [] [.text [var "t"] 1], el "script" [] [.cdata [(chs "if (a<b) f('" ++ [var "x"] ++ chs "')", 1)] 1 1],
     el "input" [("value", [var "x"]), ("checked", [var "c"])] [], .text [var "x"] 1], []⟩

private def formContext : Dict Val :=
  [("t".toList, .str "</title>".toList), ("x".toList, .str "\"<br>'".toList), ("c".toList, .int 1)]

private theorem form_plain : Plain names (opts "html5") form.root := by
  refine ⟨by decide +kernel, nofun, by decide +kernel, by simp [opts], fun h => absurd h (by decide +kernel), ?_,
    ?_, ?_, ?_, ?_, trivial⟩
  · exact .cons_cons trivial (.cons_cons trivial (.cons_cons trivial (.singleton _)))
  · exact ⟨by decide +kernel, nofun, by decide +kernel, by simp [opts], fun h => absurd h (by decide +kernel), .singleton _,
      okText _ _ (by decide +kernel) (by decide +kernel), trivial⟩
  · exact ⟨by decide +kernel, nofun, by decide +kernel, by simp [opts],
      fun _ x hx => by rw [List.mem_singleton.1 hx]; rfl, .singleton _,
      ⟨fun p hp => by rw [List.mem_singleton.1 hp]; exact okText _ _ (by decide +kernel) (by decide +kernel),
        .singleton _⟩, trivial⟩
  · refine ⟨by decide +kernel, ?_, by decide +kernel, by simp [opts], nofun, .nil, trivial⟩
    intro kv hkv
    simp only [List.map_cons, List.map_nil, List.mem_cons, List.not_mem_nil, or_false] at hkv
    rcases hkv with rfl | rfl
    all_goals exact ⟨by decide +kernel, okText _ _ (by decide +kernel) (by decide +kernel)⟩
  · exact okText _ _ (by decide +kernel) (by decide +kernel)

private theorem form_proper : Proper form.root := by
  refine ⟨⟨nofun, by decide +kernel⟩, by decide +kernel, nofun, fun h => absurd h (by decide +kernel), fun _ => ⟨?_, ?_, ?_, ?_, trivial⟩⟩
  · exact ⟨⟨nofun, by decide +kernel⟩, by decide +kernel, nofun, fun _ x hx => by rw [List.mem_singleton.1 hx]; rfl,
      fun _ => ⟨trivial, trivial⟩⟩
  · exact ⟨⟨nofun, by decide +kernel⟩, by decide +kernel, nofun, fun h => absurd h (by decide +kernel),
      fun h => absurd (by decide +kernel) h⟩
  · refine ⟨⟨nofun, by decide +kernel⟩, by decide +kernel, ?_, fun h => absurd h (by decide +kernel), fun _ => trivial⟩
    intro kv hkv
    simp only [List.map_cons, List.map_nil, List.mem_cons, List.not_mem_nil, or_false] at hkv
    rcases hkv with rfl | rfl
    all_goals exact ⟨nofun, by decide +kernel⟩
  · trivial

private theorem form_closed : Closed (valueOf formContext) form.root := by
  unfold form Page.root Closed
  rw [if_neg (by decide +kernel)]
  refine ⟨?_, ?_, ?_, trivial, trivial⟩
  · unfold el Closed
    rw [if_neg (by decide +kernel)]
    exact ⟨trivial, trivial⟩
  · unfold el Closed
    rw [if_pos (by decide +kernel)]
    decide +kernel
  · unfold el Closed
    rw [if_neg (by decide +kernel)]
    trivial

example : ∃ u P, xmlTemplate names (fun _ => []) (opts "html5") false [] form.events = .ok u ∧
    (Source.mk [(u, [])] (fun _ => none) id).compile = some P ∧
    tokens (render P lookup 1 0 formContext ()).out.txt = some [.chars "\n".toList, .start "form".toList [],
      .start "title".toList [], .chars "</title>".toList, .stop "title".toList,
      .start "script".toList [], .chars "if (a<b) f('&quot;&lt;br&gt;'')".toList, .stop "script".toList,
      .start "input".toList [("checked".toList, []), ("value".toList, "\"<br>'".toList)],
      .chars "\"<br>'".toList, .stop "form".toList] := by
  obtain ⟨u, P, h1, h2, h3⟩ := C73_read_as_document (W := Unit) form names (fun _ => []) (opts "html5") [] []
    (fun _ => none) id form_plain form_proper rfl (by decide +kernel) rfl (.inr (.inl rfl))
  have hg := lookup_gives form formContext (by decide +kernel) (by decide +kernel) (by decide +kernel)
  obtain ⟨u', P', h1', h2', h3'⟩ := C66_values_in_documents (W := Unit) form names (fun _ => []) (opts "html5") [] []
    (fun _ => none) id form_plain rfl
  obtain ⟨h4, -⟩ := h3' lookup () formContext _ hg 0
  rw [h1] at h1'
  cases h1'
  rw [h2] at h2'
  cases h2'
  refine ⟨u, P, h1, h2, (h3 lookup () formContext _ hg (by decide +kernel) form_closed 0 ?_).2.trans ?_⟩
  · rw [h4]
    decide +kernel
  · decide +kernel

/-- `<p><![CDATA[$x]]></p>` -/
private def section_ : Page := ⟨[], "p".toList, [], 1, [.cdata [([var "x"], 1)] 1 1], []⟩

private theorem section_plain : Plain names (opts "html5") section_.root :=
  ⟨by decide +kernel, nofun, by decide +kernel, by simp [opts], fun h => absurd h (by decide +kernel), .singleton _,
    ⟨fun p hp => by rw [List.mem_singleton.1 hp]; exact okText _ _ (by decide +kernel) (by decide +kernel), .singleton _⟩,
    trivial⟩

/-- **C73** (finding).  CDATA sections outside of scripts have to be left out: they are rendered as they are also in
html mode, and there they are read as comments, so that their text is not shown. -/
theorem C73_section_is_comment : ∃ (d : Page) (o : Opts) (u : Tmpl) (P : Prog (List Stmt)) (O : Oracle Unit)
    (context : Dict Val), Plain names o d.root ∧ html (selectMode o.mode []) = true ∧
      xmlTemplate names (fun _ => []) o false [] d.events = .ok u ∧
      (Source.mk [(u, [])] (fun _ => none) id).compile = some P ∧
      Dict.get context "x".toList = some (.str "text".toList) ∧
      (render P O 1 0 context ()).out.txt = "<!DOCTYPE html>\n<p><![CDATA[text]]></p>".toList ∧
      tokens (render P O 1 0 context ()).out.txt = some [.chars "\n".toList, .start "p".toList [],
        .comment "[CDATA[text]]".toList, .stop "p".toList] := by
  obtain ⟨u, P, h1, h2, h3⟩ := C66_values_in_documents (W := Unit) section_ names (fun _ => []) (opts "html5") [] []
    (fun _ => none) id section_plain rfl
  have hg : Gives lookup () [("x".toList, .str "text".toList)] section_ (valueOf [("x".toList, .str "text".toList)]) :=
    lookup_gives _ _ (by decide +kernel) (by decide +kernel) (by decide +kernel)
  obtain ⟨h4, -⟩ := h3 lookup () _ _ hg 0
  have e : section_.shown (valueOf [("x".toList, .str "text".toList)]) (opts "html5") (selectMode (opts "html5").mode []) [] =
      "<!DOCTYPE html>\n<p><![CDATA[text]]></p>".toList := by decide +kernel
  refine ⟨section_, opts "html5", u, P, lookup, _, section_plain, by decide +kernel, h1, h2, rfl, h4.trans e, ?_⟩
  rw [h4, e]
  decide +kernel

end Kajiki.Props
