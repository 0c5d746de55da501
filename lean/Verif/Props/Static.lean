import Verif.Lemmas.StaticRun
import Verif.Lemmas.StaticTrans
import Verif.Props.Accept

/-!
# C63: documents without directives are reproduced

`Verif/Spec/Static.lean` says how a tree of elements, text, CDATA sections and comments is written as a template
and how it is shown.  The theorems are about everything from the events of the parser to the rendered text.
-/

namespace Kajiki.Props
open Kajiki.Run Kajiki.Spec.Static Kajiki.StaticDoc
open Kajiki.Spec.DocSem (Template)
open Kajiki.Spec.XmlText (doubled)

variable {W : Type}

/-- From the events to the output, for a transformed root element of which it is known how it is shown. -/
private theorem renders (d : Page) (py : PyCompile) (gen : Nat → Str) (o : Opts) (dtd : Str) (base : Dict Val)
    (load : Str → Option Nat) (aliasFor : Str → Str) (h : plain o d.root = true)
    (hb : Dict.get base "local".toList = none) (tr : Str → Str) (shown : Str)
    (hk : ∀ kids, transform false ⟨dtd, comments d.before ++ .elem d.tag (d.attrs.map fun kv => (kv.1, doubled kv.2))
        d.ln (domAll d.kids) :: comments d.after⟩ = ⟨dtd, comments d.before ++
          .elem d.tag (d.attrs.map fun kv => (kv.1, doubled kv.2)) d.ln kids :: comments d.after⟩ →
      Lit o (.elem d.tag (d.attrs.map fun kv => (kv.1, doubled kv.2)) d.ln kids) ∧
      ser tr o (selectMode o.mode dtd) [] (.elem d.tag (d.attrs.map fun kv => (kv.1, doubled kv.2)) d.ln kids) = shown) :
    ∃ u P, xmlTemplate py gen o false dtd d.events = .ok u ∧ (Source.mk [(u, base)] load aliasFor).compile = some P ∧
      ∀ (O : Oracle W) (w : W), (∀ g s w, O.gettext g s w = (.ok (.str (tr s)), w)) →
        O.args "__main__()".toList [] w = (.ok [], w) →
        ∀ (n : Nat) (context : Dict Val), Dict.get context "local".toList = none →
          let r := render P O (n + 1) 0 context w
          r.out.txt = doctype o (selectMode o.mode dtd) dtd ++ shown ∧ r.val = .ok () ∧ r.st.world = w := by
  have hl := dom_lit o d.root h
  have hf := dom_flags d.root
  rw [Page.root, dom] at hl hf
  obtain ⟨kids, ht, -⟩ := transform_same o dtd d.before d.after _ _ _ _ hl.1 hf.1
  obtain ⟨hlit, hser⟩ := hk kids ht
  let t : Template := ⟨⟨py, selectMode o.mode dtd, o, gen⟩, ⟨dtd, comments d.before ++
    .elem d.tag (d.attrs.map fun kv => (kv.1, doubled kv.2)) d.ln kids :: comments d.after⟩, base⟩
  have hL : BareTemplate t d.before d.after (.elem d.tag (d.attrs.map fun kv => (kv.1, doubled kv.2)) d.ln kids) :=
    ⟨rfl, lit_bare _ _ hlit, _, _, _, _, rfl⟩
  obtain ⟨us, P, h1, h2, h3⟩ := C62_complete_templates_render (W := W) [t] load aliasFor
    (by intro x hx; rw [List.mem_singleton.1 hx]; exact hL.known)
    (by intro x hx; rw [List.mem_singleton.1 hx]; exact hL.placed)
    (by intro x hx; rw [List.mem_singleton.1 hx]; exact hL.accepted (hL.accepted_root hlit))
    (by intro x hx; rw [List.mem_singleton.1 hx]; exact hL.filled)
  cases h1 with
  | @cons _ u _ us hu hus =>
    cases hus
    obtain ⟨u, ub⟩ := u
    obtain ⟨hu, hub⟩ := hu
    cases hub
    refine ⟨u, P, ?_, h2, ?_⟩
    · unfold xmlTemplate
      rw [parse_page o dtd d h]
      dsimp only
      rw [ht]
      exact hu
    · intro O w hg ha n context hc
      have hs := h3 O (fun t' ht' x hx e he => by
        cases List.mem_singleton.1 ht'
        rw [hL.tagConds x hx] at he
        cases he) (n + 1) 0 context w
      have hr := rendered_lit hL hlit load aliasFor O tr hg n context w hb hc ha
      dsimp only at hs hr ⊢
      rw [hs.1, hs.2.1, hs.2.2, hr.1, hr.2.1, hr.2.2, doctype_eq t _ (lit_bare _ _ hlit)]
      exact ⟨by rw [← hser], rfl, rfl⟩

/-- **C63.** A template that is a document without directives and expressions (dollar signs are doubled) is
accepted.  With any context without a variable `local`, rendering it gives the DOCTYPE and the document
itself: the same elements, attributes (in alphabetical order), texts, CDATA sections and comments in the same
order, with special characters as references. -/
theorem C63_static_document (d : Page) (py : PyCompile) (gen : Nat → Str) (o : Opts) (dtd : Str) (base : Dict Val)
    (load : Str → Option Nat) (aliasFor : Str → Str) (h : plain o d.root = true)
    (hb : Dict.get base "local".toList = none) :
    ∃ u P, xmlTemplate py gen o false dtd d.events = .ok u ∧ (Source.mk [(u, base)] load aliasFor).compile = some P ∧
      ∀ (O : Oracle W) (w : W), (∀ g s w, O.gettext g s w = (.ok (.str s), w)) →
        O.args "__main__()".toList [] w = (.ok [], w) →
        ∀ (n : Nat) (context : Dict Val), Dict.get context "local".toList = none →
          let r := render P O (n + 1) 0 context w
          r.out.txt = d.serialize o (selectMode o.mode dtd) dtd ∧ r.val = .ok () ∧ r.st.world = w := by
  refine renders d py gen o dtd base load aliasFor h hb id (serialize o (selectMode o.mode dtd) d.root) fun kids ht => ?_
  have hl := dom_lit o d.root h
  have hf := dom_flags d.root
  have hs := ser_dom o (selectMode o.mode dtd) d.root [] h
  rw [Page.root, dom] at hl hf hs
  obtain ⟨kids', ht', hsame⟩ := transform_same o dtd d.before d.after _ _ _ _ hl.1 hf.1
  rw [ht] at ht'
  have : kids = kids' := by
    simp only [Doc.mk.injEq, List.append_cancel_left_eq, List.cons.injEq, DNode.elem.injEq, true_and, and_true] at ht'
    exact ht'
  subst this
  refine ⟨hsame.lit.1, ?_⟩
  have := hsame.ser (selectMode o.mode dtd) []
  simp only [serAll, List.append_nil] at this hs
  rw [this, hs]
  rfl

private theorem serializeAll_mem (o : Opts) (mode : Str) {x : Static} {xs : List Static} (h : x ∈ xs) :
    ∃ a b, serializeAll o mode xs = a ++ serialize o mode x ++ b := by
  induction xs with
  | nil => cases h
  | cons y ys ih =>
    rw [serializeAll]
    rcases List.mem_cons.1 h with rfl | h
    · exact ⟨[], _, by rw [List.nil_append]⟩
    · obtain ⟨a, b, e⟩ := ih h
      exact ⟨serialize o mode y ++ a, b, by rw [e]; simp only [List.append_assoc]⟩

private theorem plainAll_mem (o : Opts) {x : Static} {xs : List Static} (h : x ∈ xs) (hp : plainAll o xs = true) :
    plain o x = true := by
  induction xs with
  | nil => cases h
  | cons y ys ih =>
    unfold plainAll at hp
    rw [Bool.and_eq_true] at hp
    rcases List.mem_cons.1 h with rfl | h
    · exact hp.1
    · exact ih h hp.2

/-- An element in a document is shown as it is shown alone. -/
private theorem serialize_within (o : Opts) (mode : Str) {t : Str} {as : List (Str × Str)} {l : Nat} {ks : List Static}
    {x : Static} (h : Within (.elem t as l ks) x) (hp : plain o x = true) :
    ∃ a b, serialize o mode x = a ++ serialize o mode (.elem t as l ks) ++ b := by
  induction h with
  | here => exact ⟨[], [], by simp⟩
  | @inside tag attrs ln kids x hx h ih =>
    unfold Spec.Static.plain at hp
    simp only [Bool.and_eq_true] at hp
    obtain ⟨⟨-, hs⟩, hk⟩ := hp
    have hsc : Spec.DocSem.script o tag = false := by
      cases hsc : Spec.DocSem.script o tag with
      | false => rfl
      | true =>
        rw [hsc] at hs
        have := List.all_eq_true.1 hs x hx
        cases h <;> cases this
    obtain ⟨a, b, e⟩ := ih (plainAll_mem o hx hk)
    obtain ⟨a', b', e'⟩ := serializeAll_mem o mode hx
    have hne : kids.isEmpty = false := by cases kids with
      | nil => cases hx
      | cons => rfl
    conv => enter [1, a, 1, b, 1]; unfold serialize
    rw [hsc, hne, if_neg Bool.false_ne_true, if_neg Bool.false_ne_true, e', e]
    exact ⟨'<' :: tag ++ (sorted attrs).flatMap (attrText mode) ++ ">".toList ++ a' ++ a,
      b ++ b' ++ (if (Spec.DocSem.html mode && Spec.DocSem.void tag) = true then [] else Spec.DocSem.close tag), by
      simp only [List.append_assoc]⟩

/-- **C30.** The text of every script and style sheet of such a document is in the output as the author wrote it
(`<` for `&lt;`), between its start and end tag, with the CDATA markers in xml mode only. -/
theorem C30_scripts_verbatim (d : Page) (py : PyCompile) (gen : Nat → Str) (o : Opts) (dtd : Str) (base : Dict Val)
    (load : Str → Option Nat) (aliasFor : Str → Str) (h : plain o d.root = true)
    (hb : Dict.get base "local".toList = none) (tag t : Str) (attrs : List (Str × Str)) (ln ln' : Nat)
    (hs : Within (.elem tag attrs ln [.text t ln']) d.root)
    (ht : tag = "script".toList ∨ tag = "style".toList) (hc : o.cdataScripts = true) :
    ∃ u P, xmlTemplate py gen o false dtd d.events = .ok u ∧ (Source.mk [(u, base)] load aliasFor).compile = some P ∧
      ∀ (O : Oracle W) (w : W), (∀ g s w, O.gettext g s w = (.ok (.str s), w)) →
        O.args "__main__()".toList [] w = (.ok [], w) →
        ∀ (n : Nat) (context : Dict Val), Dict.get context "local".toList = none →
          ∃ a as b, (render P O (n + 1) 0 context w).out.txt = a ++ ('<' :: tag ++ as ++ ['>']) ++
            (if selectMode o.mode dtd = "xml".toList then "/*<![CDATA[*/".toList ++ t ++ "/*]]>*/".toList else t) ++
            ("</".toList ++ tag ++ ['>']) ++ b := by
  obtain ⟨u, P, h1, h2, h3⟩ := C63_static_document (W := W) d py gen o dtd base load aliasFor h hb
  refine ⟨u, P, h1, h2, fun O w hg ha n context hl => ?_⟩
  rw [(h3 O w hg ha n context hl).1]
  generalize selectMode o.mode dtd = mode
  obtain ⟨a, b, e⟩ := serialize_within o mode hs h
  have hsc : Spec.DocSem.script o tag = true := by
    unfold Spec.DocSem.script
    rw [hc]
    rcases ht with rfl | rfl <;> decide +kernel
  have hv : Spec.DocSem.void tag = false := by rcases ht with rfl | rfl <;> decide +kernel
  refine ⟨doctype o mode dtd ++ a, (sorted attrs).flatMap (attrText mode), b, ?_⟩
  unfold Page.serialize
  rw [e]
  have hcl : Spec.DocSem.close tag = "</".toList ++ tag ++ ['>'] := rfl
  have hgt : ">".toList = ['>'] := rfl
  unfold serialize scriptContent
  simp only [List.isEmpty_cons, Bool.false_eq_true, if_false, hsc, if_true, hv, Bool.and_false, hcl, hgt,
    List.flatMap_cons, List.flatMap_nil, scriptText, List.append_nil, List.append_assoc]

/-- **C63.** With a translation, the texts of such a document are translated, and nothing else: not scripts and
style sheets, attributes, comments and the whitespace around texts. -/
theorem C63_translated_document (d : Page) (py : PyCompile) (gen : Nat → Str) (o : Opts) (dtd : Str) (base : Dict Val)
    (load : Str → Option Nat) (aliasFor : Str → Str) (h : plain o d.root = true) (hw : whole d.root = true)
    (hb : Dict.get base "local".toList = none) (tr : Str → Str) :
    ∃ u P, xmlTemplate py gen o false dtd d.events = .ok u ∧ (Source.mk [(u, base)] load aliasFor).compile = some P ∧
      ∀ (O : Oracle W) (w : W), (∀ g s w, O.gettext g s w = (.ok (.str (tr s)), w)) →
        O.args "__main__()".toList [] w = (.ok [], w) →
        ∀ (n : Nat) (context : Dict Val), Dict.get context "local".toList = none →
          let r := render P O (n + 1) 0 context w
          r.out.txt = d.translated tr o (selectMode o.mode dtd) dtd ∧ r.val = .ok () ∧ r.st.world = w := by
  refine renders d py gen o dtd base load aliasFor h hb tr (translated tr o (selectMode o.mode dtd) [] d.root)
    fun kids ht => ?_
  have hl := dom_lit o d.root h
  have hd := dom_whole d.root hw
  have hs := ser_extract tr o (selectMode o.mode dtd) d.root [] h hw
  have hx := extractList_same o _ hl
  rw [Page.root, dom] at hl hd hs hx
  have ht' : transform false ⟨dtd, comments d.before ++ .elem d.tag (d.attrs.map fun kv => (kv.1, doubled kv.2))
        d.ln (domAll d.kids) :: comments d.after⟩ = ⟨dtd, comments d.before ++
          .elem d.tag (d.attrs.map fun kv => (kv.1, doubled kv.2)) d.ln (extractList (domAll d.kids)) :: comments d.after⟩ := by
    unfold transform
    simp only [Bool.false_eq_true, if_false]
    have : onFirst merge (onFirst expand (comments d.before ++ .elem d.tag (d.attrs.map fun kv => (kv.1, doubled kv.2))
        d.ln (domAll d.kids) :: comments d.after)) = comments d.before ++ .elem d.tag
          (d.attrs.map fun kv => (kv.1, doubled kv.2)) d.ln (domAll d.kids) :: comments d.after := by
      cases d.before with
      | nil =>
        simp only [comments, List.map_nil, List.nil_append, onFirst]
        rw [expand_lit o _ hl.1, merge_whole _ hd.1]
      | cons c cs => rfl
    rw [this, extractList_append, extract_comments, extractList, extract_comments, extract]
    rfl
  rw [ht] at ht'
  have : kids = extractList (domAll d.kids) := by
    simp only [Doc.mk.injEq, List.append_cancel_left_eq, List.cons.injEq, DNode.elem.injEq, true_and, and_true] at ht'
    exact ht'
  subst this
  rw [extractList, extract, extractList, List.append_nil] at hx hs
  refine ⟨hx.lit.1, ?_⟩
  simp only [serAll, List.append_nil] at hs
  exact hs

/-! ### Examples -/

private def el (tag : String) (as : List (String × String)) (kids : List Static) : Static :=
  .elem tag.toList (as.map fun a => (a.1.toList, a.2.toList)) 1 kids
private def txt (s : String) : Static := .text s.toList 1

/-- `<!--top--><html lang="en" id="&lt;1"><head><script>if (a &lt; b) f();</script></head>
<body checked=""> Cost: 5$$ &amp; more <br/><![CDATA[<raw>]]><!--c--><!--!hidden--></body></html>` -/
private def page : Page :=
  ⟨[("top".toList, 1)], "html".toList, [("lang".toList, "en".toList), ("id".toList, "<1".toList)], 1,
    [el "head" [] [el "script" [] [txt "if (a < b) f();"]],
     el "body" [("checked", "")] [txt " Cost: 5$ & more ", el "br" [] [], .cdata [("<raw>".toList, 2)] 2 2,
       .comment "c".toList 3, .comment "!hidden".toList 3]], []⟩

private def opts (mode : String) : Opts := ⟨mode.toList, false, [], true⟩

example : plain (opts "xml") page.root = true ∧ plain (opts "html5") page.root = true ∧ whole page.root = true := by
  decide +kernel

example : page.serialize (opts "xml") "xml".toList [] =
    ("<html id=\"&lt;1\" lang=\"en\"><head><script>/*<![CDATA[*/if (a < b) f();/*]]>*/</script></head>" ++
     "<body checked=\"\"> Cost: 5$ &amp; more <br/><![CDATA[<raw>]]><!-- c --></body></html>").toList := by
  decide +kernel

example : page.serialize (opts "html5") "html5".toList [] =
    ("<!DOCTYPE html>\n<html id=\"&lt;1\" lang=\"en\"><head><script>if (a < b) f();</script></head>" ++
     "<body checked> Cost: 5$ &amp; more <br><![CDATA[<raw>]]><!-- c --></body></html>").toList := by
  decide +kernel

/-- The script of the page. -/
example : Within (el "script" [] [txt "if (a < b) f();"]) page.root ∧ (opts "xml").cdataScripts = true :=
  ⟨.inside (x := el "head" [] [el "script" [] [txt "if (a < b) f();"]]) (by simp [page])
    (.inside (by simp) .here), rfl⟩

/-- Every message in brackets. -/
private def brackets (s : Str) : Str := '[' :: s ++ "]".toList

example : page.translated brackets (opts "html5") "html5".toList [] =
    ("<!DOCTYPE html>\n<html id=\"&lt;1\" lang=\"en\"><head><script>if (a < b) f();</script></head>" ++
     "<body checked> [Cost: 5][$][ &amp; more] <br><![CDATA[[<raw>]]]><!-- c --></body></html>").toList := by
  decide +kernel

/-- Python in which only what the theorems need works. -/
private def quiet (tr : Str → Str) : Oracle Unit where
  eval _ _ w := (.error .name, w)
  iter _ _ w := (.error .name, w)
  py _ _ w := (.error .name, w)
  args _ _ w := (.ok [], w)
  gettext _ s w := (.ok (.str (tr s)), w)

/-- The text rendering gives, or the exception. -/
private def result (tr : Str → Str) (d : Page) (mode : String) (context : Dict Val) : Option (Str × Except Err Unit) :=
  match xmlTemplate (fun _ => none) (fun _ => []) (opts mode) false [] d.events with
  | .ok u => (Source.mk [(u, [])] (fun _ => none) id).compile.map fun P =>
      let r := render P (quiet tr) 1 0 context ()
      (r.out.txt, r.val)
  | .error _ => none

example : result id page "html5" [("x".toList, .int 1)] =
    some (page.serialize (opts "html5") (selectMode "html5".toList []) [], .ok ()) := by
  obtain ⟨u, P, h1, h2, h3⟩ := C63_static_document (W := Unit) page (fun _ => none) (fun _ => []) (opts "html5") [] []
    (fun _ => none) id (by decide +kernel) rfl
  obtain ⟨h4, h5, -⟩ := h3 (quiet id) () (fun _ _ _ => rfl) rfl 0 [("x".toList, .int 1)] (by decide +kernel)
  unfold result
  rw [h1]
  simp only [h2, Option.map_some, h4, h5]
  rfl

/-- `<a>b</a>` -/
private def small : Page := ⟨[], "a".toList, [], 1, [txt "b"], []⟩

private def broken (r : Option (Str × Except Err Unit)) : Bool :=
  match r with
  | some (_, .error .attr) => true
  | _ => false

/-- **C63 (finding).** The condition on the context cannot be left out: with a variable called `local` not even
a document without expressions can be rendered, because the generated code finds its own runtime under that
name.  The same call without the variable gives `<a>b</a>`. -/
theorem C63_local_cannot_be_used : ∃ (d : Page) (o : Opts) (u : Tmpl) (P : Prog (List Stmt)) (O : Oracle Unit)
    (context : Dict Val), plain o d.root = true ∧ xmlTemplate (fun _ => none) (fun _ => []) o false [] d.events = .ok u ∧
      (Source.mk [(u, [])] (fun _ => none) id).compile = some P ∧
      (∀ g s w, O.gettext g s w = (.ok (.str s), w)) ∧ (∀ w, O.args "__main__()".toList [] w = (.ok [], w)) ∧
      (∀ kv ∈ context, kv.1 = "local".toList) ∧
      (render P O 1 0 [] ()).val = .ok () ∧ (render P O 1 0 context ()).val = .error .attr := by
  obtain ⟨u, P, h1, h2, h3⟩ := C63_static_document (W := Unit) small (fun _ => none) (fun _ => []) (opts "xml") [] []
    (fun _ => none) id (by decide +kernel) rfl
  refine ⟨small, opts "xml", u, P, quiet id, [("local".toList, .str "x".toList)], by decide +kernel, h1, h2,
    fun _ _ _ => rfl, fun _ => rfl, fun kv hkv => by rw [List.mem_singleton.1 hkv],
    (h3 (quiet id) () (fun _ _ _ => rfl) rfl 0 [] rfl).2.1, ?_⟩
  have : broken (result id small "xml" [("local".toList, .str "x".toList)]) = true := by decide +kernel
  unfold result at this
  rw [h1] at this
  simp only [h2, Option.map_some] at this
  unfold broken at this
  split at this
  · next h =>
    simp only [Option.some.injEq, Prod.mk.injEq] at h
    exact h.2
  · cases this

end Kajiki.Props
