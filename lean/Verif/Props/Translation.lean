import Verif.Lemmas.OwnText
import Verif.Lemmas.XmlSame
import Verif.Lemmas.Gettext

/-!
# Translation (C35, C36)
-/

namespace Kajiki.Props
open Kajiki.Spec.XmlCompile Kajiki.Spec.Gettext Kajiki.XmlComp Kajiki.Run

/-! ## C36 -/

private theorem doc_good {A : Str → Prop} {env : CEnv} {doc : Doc} {t : Tmpl}
    (h : compileDoc env doc = .ok t) (hs : Sources A (parentTextsList "script".toList doc.kids)) :
    ∀ d ∈ t.defs, Good A d.body := by
  unfold compileDoc at h
  split at h
  · next root hroot =>
    split at h
    · cases h
    · next body s hc =>
      have hm : root ∈ doc.kids := (List.mem_filter.1 (hroot ▸ List.mem_singleton.2 rfl)).1
      have hs' : Sources A (parentTexts "script".toList root) := by
        intro pd hp
        refine hs pd ?_
        generalize doc.kids = ks at hm
        clear hroot
        induction ks with
        | nil => cases hm
        | cons k ks ih =>
          simp only [parentTextsList, List.mem_append]
          rcases List.mem_cons.1 hm with rfl | hm
          · exact .inl hp
          · exact .inr (ih hm)
      obtain ⟨g1, g2⟩ := node_makes env ⟨none, false, []⟩ "script".toList (fun q hq => by cases hq) root hs'
        .start (fun f hf => by simp only [CState.start, List.mem_singleton] at hf; subst hf; exact .nil)
        body s hc
      simp only [Except.ok.injEq] at h
      subst h
      intro d hd
      simp only [List.mem_map] at hd
      obtain ⟨f, hf, rfl⟩ := hd
      rcases Dict.mem_set hf with rfl | hf
      · simp only
        split
        · refine .append (.plain ?_) g2
          unfold doctypeNode
          split
          · simp [isPlain]
          · split <;> simp [isPlain]
        · exact g2
      · exact g1 f hf
  · cases h

private theorem sources_transform (st : Bool) (doc : Doc) :
    Sources (fun t => ∃ el ∈ ownTextsList doc.kids, el.1 ∉ cdataTags ∧ t <:+: el.2 ∧ strip t ≠ [])
      (parentTextsList "script".toList (transform st doc).kids) := by
  intro pd hp hc t ht hb
  have hb' : strip t ≠ [] := by
    intro e; rw [e] at hb; cases hb
  have key : ∀ pd ∈ parentTextsList "script".toList (extractList (onFirst merge (onFirst expand doc.kids))),
      cdataTags.contains pd.1 = false → t <:+: pd.2 →
      ∃ el ∈ ownTextsList doc.kids, el.1 ∉ cdataTags ∧ t <:+: el.2 ∧ strip t ≠ [] := by
    intro pd hp hc ht
    rcases parentTextsList_own _ _ pd hp with ⟨b, hb, e1, e2⟩ | ⟨e1, _⟩
    · rcases transform_own doc b hb with h | ⟨el, hel, e3, e4⟩
      · rw [h] at e2
        have : t = [] := List.infix_nil.1 (ht.trans e2)
        subst this
        exact absurd rfl hb'
      · refine ⟨el, hel, ?_, e3 ▸ ht.trans e2, hb'⟩
        rw [← e1, hc] at e4
        intro hm
        rw [List.contains_iff_mem.2 hm] at e4
        cases e4
    · rw [e1] at hc
      exact absurd hc (by decide +kernel)
  unfold transform at hp
  simp only at hp
  split at hp
  · obtain ⟨b, hb, e1, e2⟩ := parentTextsList_strip _ _ pd hp
    exact key b hb (e1 ▸ hc) (ht.trans e2)
  · exact key pd hp hc ht

/-- **C36.** Whatever the options, a message of a template is a part, not all whitespace, of the
character data directly inside an element of the source that is neither `script` nor `style`; and no
attribute contains a message. -/
theorem C36_origin_of_messages (py : PyCompile) (gen : Nat → Str) (o : Opts) (stripText : Bool) (dtd : Str)
    (es : List Event) (doc : Doc) (t : Tmpl) (hd : parseEvents dtd es = .ok doc)
    (ht : xmlTemplate py gen o stripText dtd es = .ok t) :
    (∀ m ∈ (extractTmpl t).map (·.2), ∃ el ∈ ownTextsList doc.kids,
      el.1 ≠ "script".toList ∧ el.1 ≠ "style".toList ∧ m <:+: el.2 ∧ strip m ≠ []) ∧
    ∀ d ∈ t.defs, attrsPlainList d.body = true := by
  unfold xmlTemplate at ht
  rw [hd] at ht
  have := doc_good ht (sources_transform stripText doc)
  refine ⟨fun m hm => ?_, fun d hd => (this d hd).2⟩
  rw [Msgs.extractTmpl_messages] at hm
  simp only [messagesTmpl, List.mem_flatMap] at hm
  obtain ⟨d, hd, hm⟩ := hm
  obtain ⟨el, h1, h2, h3⟩ := (this d hd).1 m hm
  refine ⟨el, h1, ?_, ?_, h3⟩
  · intro e; exact h2 (e ▸ by decide +kernel)
  · intro e; exact h2 (e ▸ by decide +kernel)

/-- `<p title="Hi $x"> Hello $x<script>var a</script> </p>` -/
private def page : List Event :=
  [.startElement "p".toList [("title".toList, "Hi $x".toList)] 1, .characters " Hello $x".toList 1,
   .startElement "script".toList [] 1, .characters "var a".toList 1, .endElement "script".toList,
   .characters " ".toList 1, .endElement "p".toList]

private def valid : PyCompile := fun _ => none
private def names : Nat → Str := fun n => "_fn_".toList ++ (toString n).toList

example : (match xmlTemplate valid names ⟨[], false, [], true⟩ false [] page with
    | .ok t => extractTmpl t == [(1, "Hello ".toList)]
    | .error _ => false) = true := by decide +kernel

/-! ## C35 -/

/-- **C35.** The strings that the code of a template passes to gettext are exactly the extracted ones,
in the same order. -/
theorem C35_code_and_extraction_agree (t : Tmpl) (m : Module) (h : compilePy (generatePython t) = some m) :
    ofModule m = (extractTmpl t).map (·.2) := by
  have : fromIr t [] = some (classOf m.defs []) := by simp only [fromIr, h, Option.map_some]
  obtain ⟨m', h1, h2, _⟩ := fromIr_gettext this
  rw [h] at h1
  cases h1
  rw [h2, Msgs.extractTmpl_messages]

example : (match xmlTemplate valid names ⟨[], false, [], true⟩ false [] page with
    | .ok t => (compilePy (generatePython t)).map ofModule
    | .error _ => none) = some ["Hello ".toList] := by decide +kernel

/-- **C35.** Running any templates in any way does not depend on what gettext answers for strings that
were not extracted from them: everything a process does is the same with another gettext that agrees on
the extracted messages. -/
theorem C35_only_extracted_are_asked {W : Type} (S : Source) (P : Prog (List Stmt)) (O O' : Oracle W)
    (h : S.compile = some P)
    (hO : SameButGettext (fun m => ∃ t ∈ S.tmpls, m ∈ (extractTmpl t.1).map (·.2)) O O')
    (n : Nat) (w : W) :
    (∀ c ctx, render P O n c ctx w = render P O' n c ctx w) ∧
    ∀ as, history P O n w as = history P O' n w as := by
  have hP := compile_progIn (L := fun m => ∃ t ∈ S.tmpls, m ∈ (extractTmpl t.1).map (·.2)) h
    fun t ht x hx => ⟨t, ht, by rwa [Msgs.extractTmpl_messages]⟩
  exact ⟨fun c ctx => render_alike hP hO n c ctx w, fun as => history_alike hP hO n w as⟩

/-- two different gettext functions that agree on `Hello ` -/
example (O : Oracle Nat) :
    let O1 : Oracle Nat := { O with gettext := fun _ s w => (.ok (.str s), w) }
    let O2 : Oracle Nat := { O with gettext := fun _ s w =>
      (.ok (.str (if s = "Hello ".toList then s else [])), w) }
    SameButGettext (· = "Hello ".toList) O1 O2 ∧ O1.gettext ≠ O2.gettext := by
  refine ⟨⟨rfl, rfl, rfl, rfl, ?_⟩, ?_⟩
  · rintro g s w rfl
    simp only [if_true]
  · intro h
    have := congrFun (congrFun (congrFun h .none) "x".toList) 0
    simp only at this
    rw [if_neg (by decide +kernel)] at this
    injection this with this
    injection this with this
    injection this with this
    cases this

/-- **C35.** `extract` with any mode and any `is_fragment` finds the messages of the template compiled with
any other mode and `is_fragment` (and the default `cdata_scripts` and `autoblocks`, which `extract` cannot be
told); it fails exactly when compiling the template fails. -/
theorem C35_extract_whatever_mode (py : PyCompile) (gen gen' : Nat → Str) (o : Opts)
    (ha : o.autoblocks = []) (hs : o.cdataScripts = true) (mode : Str) (isFragment stripText : Bool)
    (dtd : Str) (es : List Event) :
    match xmlTemplate py gen o stripText dtd es, extractMessages py gen' mode isFragment stripText dtd es with
    | .ok t, .ok ms => ms.map (·.2) = (extractTmpl t).map (·.2)
    | .error e, .error e' => e = e'
    | _, _ => False := by
  unfold extractMessages xmlTemplate
  cases parseEvents dtd es with
  | error e => rfl
  | ok doc =>
    simp only [compileXmlDoc]
    have := compileDoc_sim (env := ⟨py, selectMode o.mode (transform stripText doc).dtd, o, gen⟩)
      (env' := ⟨py, selectMode mode (transform stripText doc).dtd, extractOpts mode isFragment, gen'⟩)
      ⟨rfl, ha, hs⟩ (transform stripText doc)
    revert this
    generalize compileDoc _ _ = x
    have ho : (extractOpts mode isFragment).mode = mode := rfl
    rw [ho]
    generalize compileDoc _ _ = y
    intro this
    cases x <;> cases y
    · exact this
    · exact this.elim
    · exact this.elim
    · show (extractTmpl _).map _ = (extractTmpl _).map _
      rw [Msgs.extractTmpl_messages, Msgs.extractTmpl_messages]
      exact Eq.symm this

/-- `<p>a<script><b>c</b></script></p>` -/
private def markup : List Event :=
  [.startElement "p".toList [] 1, .characters "a".toList 1, .startElement "script".toList [] 1,
   .startElement "b".toList [] 1, .characters "c".toList 1, .endElement "b".toList,
   .endElement "script".toList, .endElement "p".toList]

private def found : Except Err Tmpl → Except Err (List Str)
  | .ok t => .ok ((extractTmpl t).map (·.2))
  | .error e => .error e

private theorem found_ok {x : Except Err Tmpl} {l : List Str} (h : found x = .ok l) :
    ∃ t, x = .ok t ∧ (extractTmpl t).map (·.2) = l := by
  cases x with
  | ok t => exact ⟨t, rfl, by injection h⟩
  | error e => cases h

private theorem found_error {x : Except Err Tmpl} {e : Err} (h : found x = .error e) : x = .error e := by
  cases x with
  | ok t => cases h
  | error e' => injection h with h; rw [h]

private def sameE (a b : Except Err (List Str)) : Bool :=
  match a, b with
  | .ok x, .ok y => x == y
  | .error x, .error y => x == y
  | _, _ => false

private theorem eq_of_sameE {a b : Except Err (List Str)} (h : sameE a b = true) : a = b := by
  cases a <;> cases b <;> simp [sameE] at h <;> rw [h]

private theorem markup_ok : found (xmlTemplate valid names ⟨[], false, [], false⟩ false [] markup) =
    .ok ["a".toList, "c".toList] := eq_of_sameE (by decide +kernel)

private theorem markup_fails : found (xmlTemplate valid names (extractOpts [] false) false [] markup) =
    .error .assertion := eq_of_sameE (by decide +kernel)

/-- **C35 needs the default `cdata_scripts`**: with `cdata_scripts=False` a template can be compiled (and asks for
messages) although `extract` fails on it. -/
theorem C35_needs_cdata_scripts :
    ∃ (o : Opts) (t : Tmpl) (es : List Event), xmlTemplate valid names o false [] es = .ok t ∧
      (extractTmpl t).map (·.2) = ["a".toList, "c".toList] ∧
      ∀ mode isFragment, extractMessages valid names mode isFragment false [] es = .error .assertion := by
  obtain ⟨t, h1, h2⟩ := found_ok markup_ok
  refine ⟨_, t, markup, h1, h2, fun mode frag => ?_⟩
  have h4 := C35_extract_whatever_mode valid names names (extractOpts [] false) rfl rfl mode frag false [] markup
  rw [found_error markup_fails] at h4
  revert h4
  generalize extractMessages valid names mode frag false [] markup = x
  cases x with
  | ok l => exact False.elim
  | error e => intro h; exact congrArg _ (Eq.symm h)

end Kajiki.Props
