import Verif.Lemmas.FillRun
import Verif.Lemmas.FillBlanks
import Verif.Lemmas.FillDemo
import Verif.Props.Escaping
import Verif.Props.Accept

/-!
# C66: documents with expressions show the values in their places

`Verif/Spec/Fill.lean` says how a tree of elements, text, CDATA sections and comments with expressions is written
as a template and how it is shown when the expressions have given values.  The theorem is about everything from
the events of the parser to the rendered text.
-/

namespace Kajiki.Props
open Kajiki.Run Kajiki.Spec.Fill Kajiki.FillDoc
open Kajiki.Spec.DocSem (Template)
open Kajiki.StaticDoc (BareTemplate comments)

variable {W : Type}

/-- **C66.** A template that is a document with expressions and without directives is accepted.  When the
expressions have the values `val` in the given context, rendering gives the DOCTYPE and the document, with the
value of each expression in its place: in texts, CDATA sections and scripts its string with special characters
as references (or its markup, or nothing for `None`), in attributes likewise but without markup, and attributes
that are all `None` are left out.  Nothing else depends on the values. -/
theorem C66_values_in_documents (d : Page) (py : PyCompile) (gen : Nat → Str) (o : Opts) (dtd : Str) (base : Dict Val)
    (load : Str → Option Nat) (aliasFor : Str → Str) (h : Plain py o d.root)
    (hb : Dict.get base "local".toList = none) :
    ∃ u P, xmlTemplate py gen o false dtd d.events = .ok u ∧ (Source.mk [(u, base)] load aliasFor).compile = some P ∧
      ∀ (O : Oracle W) (w : W) (context : Dict Val) (val : Str → Val), Gives O w context d val → ∀ n : Nat,
        let r := render P O (n + 1) 0 context w
        r.out.txt = d.shown val o (selectMode o.mode dtd) dtd ∧ r.val = .ok () ∧ r.st.world = w := by
  have hf := dom_chained o d.root h
  rw [Page.root, dom] at hf
  have hl := dom_ok (G := fun _ => True) o d.root h fun _ _ => trivial
  rw [Page.root, dom] at hl
  obtain ⟨kids, ht, hsame⟩ := transform_same (val := fun _ => .none) o dtd d.before d.after _ _ _ _ hl.1 hf.1
  have hok := hsame.ok.1
  let t : Template := ⟨⟨py, selectMode o.mode dtd, o, gen⟩, ⟨dtd, comments d.before ++
    toD (.elem d.tag d.attrs d.ln kids) :: comments d.after⟩, base⟩
  have hL : BareTemplate t d.before d.after (toD (.elem d.tag d.attrs d.ln kids)) :=
    ⟨rfl, bare _ _ hok, _, _, _, _, rfl⟩
  have hacc : Spec.Accept.accepted t.conf .root none false [] (toD (.elem d.tag d.attrs d.ln kids)) = true :=
    accepted_ok t.conf _ _ _ _ _ hok (by intros; nofun) nofun
  obtain ⟨us, P, h1, h2, h3⟩ := C62_complete_templates_render (W := W) [t] load aliasFor
    (by intro x hx; rw [List.mem_singleton.1 hx]; exact hL.known)
    (by intro x hx; rw [List.mem_singleton.1 hx]; exact hL.placed)
    (by intro x hx; rw [List.mem_singleton.1 hx]; exact hL.accepted hacc)
    (by intro x hx; rw [List.mem_singleton.1 hx]; exact hL.filled)
  cases h1 with
  | @cons _ u _ us hu hus =>
    cases hus
    obtain ⟨u, ub⟩ := u
    obtain ⟨hu, hub⟩ := hu
    cases hub
    refine ⟨u, P, ?_, h2, ?_⟩
    · unfold xmlTemplate
      rw [parse_page o dtd d h]
      dsimp only
      rw [ht]
      exact hu
    · intro O w context val ⟨hv, hn, hc, hg, ha⟩ n
      have hl := dom_ok (G := Given O val context) o d.root h fun e he => ⟨(hv e he).2, (hv e he).1⟩
      have hs := ser_dom (val := val) o (selectMode o.mode dtd) d.root
      rw [Page.root, dom] at hl hs
      obtain ⟨kids', ht', hsame'⟩ := transform_same (val := val) o dtd d.before d.after _ _ _ _ hl.1 hf.1
      rw [ht] at ht'
      have hk : toD (.elem d.tag d.attrs d.ln kids) = toD (.elem d.tag d.attrs d.ln kids') := by
        simp only [Doc.mk.injEq, List.append_cancel_left_eq, List.cons.injEq, true_and, and_true] at ht'
        exact ht'
      have hs3 := h3 O (fun t' ht' x hx e he => by
        cases List.mem_singleton.1 ht'
        rw [hL.tagConds x hx] at he
        cases he) (n + 1) 0 context w
      have hr := StaticDoc.rendered_bare hL load aliasFor O n context w hb hc ha
        (ser val o (selectMode o.mode dtd) (.elem d.tag d.attrs d.ln kids')) fun P call env els _ => by
          rw [hk]
          exact says_node call P hg (shows_context _ _ _ _ _ _ hn) t.conf _ els [] _ hsame'.ok.1 (by intros; nofun)
      have he := hsame'.ser (selectMode o.mode dtd)
      simp only [serAll, List.append_nil] at he hs
      dsimp only at hs3 hr ⊢
      rw [hs3.1, hs3.2.1, hs3.2.2, hr.1, hr.2.1, hr.2.2, StaticDoc.doctype_eq t _ hL.bare, he, hs]
      exact ⟨rfl, rfl, rfl⟩

/-! ## C01, C02: rendered documents -/

private theorem inert_quoted (s : Str) : Spec.Inert (Spec.Static.quoted s) := by
  rw [StaticDoc.quoted_eq]
  exact inert_escapeStr s

/-- **C01, C04.** The same document as a text with blanks.  Text and blanks depend on the template only, and in
the blanks there are the strings of the values without raw `<`, `>` and `"`, and with `&` only in references.  No
value is lost in xml mode.  (`ordinary` leaves out `None`, markup and template functions.) -/
theorem C01_rendered_with_blanks (d : Page) (py : PyCompile) (gen : Nat → Str) (o : Opts) (dtd : Str) (base : Dict Val)
    (load : Str → Option Nat) (aliasFor : Str → Str) (h : Plain py o d.root)
    (hb : Dict.get base "local".toList = none) :
    ∃ u P blanks, xmlTemplate py gen o false dtd d.events = .ok u ∧
      (Source.mk [(u, base)] load aliasFor).compile = some P ∧
      (selectMode o.mode dtd = "xml".toList → (blankFor blanks).Perm d.root.expressions) ∧
      (∀ v : Val, Spec.Inert (Spec.Static.quoted (toStr v))) ∧
      ∀ (O : Oracle W) (w : W) (context : Dict Val) (val : Str → Val), Gives O w context d val →
        (∀ e ∈ d.root.expressions, ordinary (val e) = true) → ∀ n : Nat,
        let r := render P O (n + 1) 0 context w
        r.out.txt = fillIn val blanks ∧ r.val = .ok () := by
  obtain ⟨u, P, h1, h2, h3⟩ := C66_values_in_documents (W := W) d py gen o dtd base load aliasFor h hb
  refine ⟨u, P, .inl (Spec.Static.doctype o (selectMode o.mode dtd) dtd) :: nodeBlanks o (selectMode o.mode dtd) d.root,
    h1, h2, fun hm => ?_, fun v => inert_quoted _, fun O w context val hg ho n => ?_⟩
  · rw [blankFor_inl]
    exact blankFor_node py o (by rw [hm]; decide +kernel) _ h
  · obtain ⟨h4, h5, -⟩ := h3 O w context val hg n
    exact ⟨by rw [h4, fillIn_inl, ← fill_node o _ d.root ho]; rfl, h5⟩

/-- The characters of markup. -/
private def marks (s : Str) : Str := s.filter fun c => c = '<' || c = '>' || c = '"'

private theorem marks_fillIn (val val' : Str → Val) (bs : List (Str ⊕ Str)) : marks (fillIn val bs) = marks (fillIn val' bs) := by
  induction bs with
  | nil => rfl
  | cons b bs ih =>
    have hq : ∀ s, marks (Spec.Static.quoted s) = [] := by
      intro s
      unfold marks
      rw [List.filter_eq_nil_iff]
      intro c hc
      have := (inert_quoted s).1 c hc
      simp [this.1, this.2.1, this.2.2]
    unfold fillIn at *
    rw [List.flatMap_cons, List.flatMap_cons]
    unfold marks at *
    rw [List.filter_append, List.filter_append, ih]
    cases b with
    | inl t => rfl
    | inr e => dsimp only; rw [hq, hq]

/-- **C01.** All markup is that of the template: however different the values, the characters `<`, `>` and `"`
of the two renderings are the same. -/
theorem C01_markup_of_the_template (d : Page) (py : PyCompile) (gen : Nat → Str) (o : Opts) (dtd : Str) (base : Dict Val)
    (load : Str → Option Nat) (aliasFor : Str → Str) (h : Plain py o d.root)
    (hb : Dict.get base "local".toList = none) :
    ∃ u P, xmlTemplate py gen o false dtd d.events = .ok u ∧ (Source.mk [(u, base)] load aliasFor).compile = some P ∧
      ∀ (O O' : Oracle W) (w w' : W) (context context' : Dict Val) (val val' : Str → Val),
        Gives O w context d val → Gives O' w' context' d val' →
        (∀ e ∈ d.root.expressions, ordinary (val e) = true ∧ ordinary (val' e) = true) → ∀ n n' : Nat,
        (render P O (n + 1) 0 context w).out.txt.filter (fun c => c = '<' || c = '>' || c = '"') =
          (render P O' (n' + 1) 0 context' w').out.txt.filter (fun c => c = '<' || c = '>' || c = '"') := by
  obtain ⟨u, P, bs, h1, h2, -, -, h3⟩ := C01_rendered_with_blanks (W := W) d py gen o dtd base load aliasFor h hb
  refine ⟨u, P, h1, h2, fun O O' w w' c c' val val' hg hg' ho n n' => ?_⟩
  rw [(h3 O w c val hg (fun e he => (ho e he).1) n).1, (h3 O' w' c' val' hg' (fun e he => (ho e he).2) n').1]
  exact marks_fillIn val val' bs

/-- **C02.** Of a document with one expression, the rendering tells which string its value has: renderings with
different strings are different. -/
theorem C02_rendered_value_is_recovered (d : Page) (py : PyCompile) (gen : Nat → Str) (o : Opts) (dtd : Str)
    (base : Dict Val) (load : Str → Option Nat) (aliasFor : Str → Str) (h : Plain py o d.root)
    (hb : Dict.get base "local".toList = none) (hm : selectMode o.mode dtd = "xml".toList) (e : Str)
    (he : d.root.expressions = [e]) :
    ∃ u P, xmlTemplate py gen o false dtd d.events = .ok u ∧ (Source.mk [(u, base)] load aliasFor).compile = some P ∧
      ∀ (O O' : Oracle W) (w w' : W) (context context' : Dict Val) (val val' : Str → Val),
        Gives O w context d val → Gives O' w' context' d val' → ordinary (val e) = true → ordinary (val' e) = true →
        ∀ n n' : Nat, (render P O (n + 1) 0 context w).out.txt = (render P O' (n' + 1) 0 context' w').out.txt →
          toStr (val e) = toStr (val' e) := by
  obtain ⟨u, P, bs, h1, h2, hp, -, h3⟩ := C01_rendered_with_blanks (W := W) d py gen o dtd base load aliasFor h hb
  refine ⟨u, P, h1, h2, fun O O' w w' c c' val val' hg hg' ho ho' n n' heq => ?_⟩
  rw [he] at h3
  rw [(h3 O w c val hg (by simpa using ho) n).1, (h3 O' w' c' val' hg' (by simpa using ho') n').1] at heq
  have hb := List.perm_singleton.1 ((hp hm).trans (.of_eq he))
  have hnone : ∀ bs : List (Str ⊕ Str), blankFor bs = [] → fillIn val bs = fillIn val' bs := by
    intro bs hb
    induction bs with
    | nil => rfl
    | cons b bs ih =>
      cases b with
      | inl t => rw [fillIn_inl, fillIn_inl, ih hb]
      | inr x => cases hb
  clear hp h3
  induction bs with
  | nil => cases hb
  | cons b bs ih =>
    cases b with
    | inl t =>
      rw [fillIn_inl, fillIn_inl] at heq
      exact ih (List.append_cancel_left heq) hb
    | inr x =>
      have hb : x :: blankFor bs = [e] := hb
      injection hb with hx hbs
      subst hx
      have heq : Spec.Static.quoted (toStr (val x)) ++ fillIn val bs = Spec.Static.quoted (toStr (val' x)) ++ fillIn val' bs := heq
      rw [hnone bs hbs] at heq
      have := List.append_cancel_right heq
      rw [StaticDoc.quoted_eq, StaticDoc.quoted_eq] at this
      have := congrArg Spec.decode this
      rwa [decode_escapeStr, decode_escapeStr] at this

/-! ### Examples -/

open Kajiki.FillDemo

example : written (chs "Dear " ++ [var "name"] ++ chs ", you owe $" ++ [braces "n"] ++ chs "!") =
    "Dear $name, you owe $$${n}!".toList := by decide +kernel

example : Gives lookup () context letter (valueOf context) :=
  lookup_gives _ _ (by decide +kernel) (by decide +kernel) (by decide +kernel)

example : letter.shown (valueOf context) (opts "xml") "xml".toList [] =
    ("<p class=\"big &quot;x\" id=\"7\">Dear &lt;b&gt;&amp;, you owe $3!<br/>" ++
      "<![CDATA[<&lt;b&gt;&amp;>]]></p>").toList := by decide +kernel

/-- The text rendering gives, or the exception. -/
private def result (d : Page) (mode : String) (context : Dict Val) : Option (Str × Except Err Unit) :=
  match xmlTemplate names (fun _ => []) (opts mode) false [] d.events with
  | .ok u => (Source.mk [(u, [])] (fun _ => none) id).compile.map fun P =>
      let r := render P lookup 1 0 context ()
      (r.out.txt, r.val)
  | .error _ => none

example : result letter "xml" context =
    some (letter.shown (valueOf context) (opts "xml") (selectMode "xml".toList []) [], .ok ()) := by
  obtain ⟨u, P, h1, h2, h3⟩ := C66_values_in_documents (W := Unit) letter names (fun _ => []) (opts "xml") [] []
    (fun _ => none) id letter_plain rfl
  obtain ⟨h4, h5, -⟩ := h3 lookup () context _ (lookup_gives _ _ (by decide +kernel) (by decide +kernel) (by decide +kernel)) 0
  unfold result
  rw [h1]
  simp only [h2, Option.map_some, h4, h5]
  rfl

/-- `<a>b$x</a>` -/
private def small : Page := ⟨[], "a".toList, [], 1, [.text (chs "b" ++ [var "x"]) 1], []⟩

example : Plain names (opts "xml") small.root ∧ small.root.expressions = ["x".toList] ∧
    selectMode (opts "xml").mode [] = "xml".toList ∧
    Gives lookup () [("x".toList, .str "<".toList)] small (valueOf [("x".toList, .str "<".toList)]) ∧
    ordinary (valueOf [("x".toList, .str "<".toList)] "x".toList) = true :=
  ⟨⟨by decide +kernel, nofun, by decide +kernel, by simp [opts], fun h => absurd h (by decide +kernel), .singleton _,
    okText _ _ (by decide +kernel) (by decide +kernel), trivial⟩, by decide +kernel, by decide +kernel,
    lookup_gives _ _ (by decide +kernel) (by decide +kernel) (by decide +kernel), by decide +kernel⟩

end Kajiki.Props
