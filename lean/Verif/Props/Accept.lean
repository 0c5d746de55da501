import Verif.Lemmas.AcceptCode
import Verif.Props.Document

/-!
# C62: which templates are accepted

`Verif/Spec/Accept.lean` says when the directives of a document are complete (`Template.accepted`) and have
content (`Template.filled`).  The compiler raises no exception if and only if they are complete; Python accepts
the generated code if and only if they also have content.
-/

namespace Kajiki.Props
open Kajiki.Run Kajiki.Spec.DocSem Kajiki.Spec.Accept Kajiki.DocComp
open Kajiki.Spec.Sem (Steady)

variable {W : Type}

/-- **C62.** The compiler accepts a document without unknown directives if and only if its directives are
complete. -/
theorem C62_compiles_iff (t : Template) (hk : Template.known t = true) :
    (∃ u, compileDoc t.conf t.doc = .ok u) ↔ Template.accepted t = true := template_acc hk

private theorem fromIr_isSome (u : Tmpl) (base : Dict Val) :
    (fromIr u base).isSome = Spec.Code.placedTmpl u := by
  unfold fromIr
  rw [compilePy_generatePython]
  cases Spec.Code.placedTmpl u <;> rfl

/-- **C62.** The template can be loaded, with all directives in the right places, if and only if they are
complete and have content. -/
theorem C62_loads_iff (t : Template) (hk : Template.known t = true) (hp : t.placed = true) :
    (∃ u c, compileDoc t.conf t.doc = .ok u ∧ fromIr u t.base = some c) ↔
      Template.accepted t = true ∧ Template.filled t = true := by
  constructor
  · rintro ⟨u, c, h1, h2⟩
    refine ⟨(C62_compiles_iff t hk).1 ⟨u, h1⟩, ?_⟩
    rw [← template_code h1 hp, ← fromIr_isSome u t.base, h2]
    rfl
  · rintro ⟨h1, h2⟩
    obtain ⟨u, hu⟩ := (C62_compiles_iff t hk).2 h1
    rw [← template_code hu hp, ← fromIr_isSome u t.base] at h2
    obtain ⟨c, hc⟩ := Option.isSome_iff_exists.1 h2
    exact ⟨u, c, hu, hc⟩

/-- **C62.** A directive without content is not found by the compiler but makes the Python code invalid. -/
theorem C62_empty_is_syntax_error (t : Template) (hk : Template.known t = true) (hp : t.placed = true)
    (ha : Template.accepted t = true) (hf : Template.filled t = false) :
    ∃ u, compileDoc t.conf t.doc = .ok u ∧ fromIr u t.base = none := by
  obtain ⟨u, hu⟩ := (C62_compiles_iff t hk).2 ha
  refine ⟨u, hu, ?_⟩
  rw [← template_code hu hp, ← fromIr_isSome u t.base] at hf
  cases h : fromIr u t.base with
  | none => rfl
  | some c => rw [h] at hf; cases hf

/-- **C62.** From the source: the template is compiled if and only if the events give a document and it is
accepted. -/
theorem C62_source_compiles_iff (x : SourceFile) (hk : ∀ t, x.template = some t → Template.known t = true) :
    (∃ u, xmlTemplate x.py x.gen x.opts x.stripText x.dtd x.events = .ok u) ↔
      ∃ t, x.template = some t ∧ Template.accepted t = true := by
  unfold xmlTemplate
  unfold SourceFile.template at *
  cases hd : parseEvents x.dtd x.events with
  | error e => simp
  | ok doc =>
    rw [hd] at hk
    have := C62_compiles_iff _ (hk _ rfl)
    simp only [Option.some.injEq, exists_eq_left']
    exact this

/-- **C62.** Templates that are complete, with directives in the right places and not empty, can be loaded, and
rendering them gives what their documents mean. -/
theorem C62_complete_templates_render (ts : List Template) (load : Str → Option Nat) (aliasFor : Str → Str)
    (hk : ∀ t ∈ ts, Template.known t = true) (hp : ∀ t ∈ ts, t.placed = true)
    (ha : ∀ t ∈ ts, Template.accepted t = true) (hf : ∀ t ∈ ts, Template.filled t = true) :
    ∃ us P, List.Forall₂ (fun t u => compileDoc t.conf t.doc = .ok u.1 ∧ u.2 = t.base) ts us ∧
      (Source.mk us load aliasFor).compile = some P ∧
      ∀ (O : Oracle W), (∀ t ∈ ts, ∀ x ∈ t.doc.kids, ∀ e ∈ tagConds t.conf.opts x, Steady O e) →
        ∀ (n i : Nat) (context : Dict Val) (w : W),
          let real := render P O n i context w
          let meant := rendered (program ts load aliasFor) O n i context w
          real.out = meant.out ∧ real.val = meant.val ∧ real.st.world = meant.st.world := by
  have : ∃ us cs, List.Forall₂ (fun t u => compileDoc t.conf t.doc = .ok u.1 ∧ u.2 = t.base) ts us ∧
      compileAll us = some cs := by
    clear load aliasFor
    induction ts with
    | nil => exact ⟨[], [], .nil, rfl⟩
    | cons t ts ih =>
      obtain ⟨us, cs, h1, h2⟩ := ih (fun t h => hk t (List.mem_cons_of_mem _ h))
        (fun t h => hp t (List.mem_cons_of_mem _ h)) (fun t h => ha t (List.mem_cons_of_mem _ h))
        (fun t h => hf t (List.mem_cons_of_mem _ h))
      have hm : t ∈ t :: ts := List.mem_cons_self ..
      obtain ⟨u, c, h3, h4⟩ := (C62_loads_iff t (hk t hm) (hp t hm)).2 ⟨ha t hm, hf t hm⟩
      refine ⟨(u, t.base) :: us, c :: cs, .cons ⟨h3, rfl⟩ h1, ?_⟩
      unfold compileAll
      rw [h4, h2]
  obtain ⟨us, cs, h1, h2⟩ := this
  have hS : ∃ P, (Source.mk us load aliasFor).compile = some P := by
    unfold Source.compile
    rw [h2]
    exact ⟨_, rfl⟩
  obtain ⟨P, hP⟩ := hS
  exact ⟨us, P, h1, hP, fun O hs n i context w =>
    C61_rendering_is_document ts ⟨us, load, aliasFor⟩ P O h1 hp hP hs n i context w⟩

/-! ### Examples -/

/-- Anything without a closing brace is an expression. -/
private def valid : PyCompile := fun s => if s.contains '}' then some (1, s.idxOf '}' + 1) else none
private def genName : Nat → Str := fun n => "_fn_".toList ++ (toString n).toList
private def conf : CEnv := ⟨valid, "xml".toList, ⟨"xml".toList, false, [], true⟩, genName⟩
private def el (tag : String) (as : List (String × String)) (kids : List DNode) : DNode :=
  .elem tag.toList (as.map fun a => (a.1.toList, a.2.toList)) 1 kids
private def txt (s : String) : DNode := .text s.toList true 1
private def tm (root : DNode) : Template := ⟨conf, ⟨[], [root]⟩, []⟩
private def loads (t : Template) : Bool :=
  match compileDoc t.conf t.doc with
  | .ok u => (fromIr u t.base).isSome
  | .error _ => false

/-- `<div><py:def function="f(x)"><b title="$x">$x</b></py:def><py:if test="a">${f(1)}</py:if><py:else>no</py:else>
<py:switch test="a"> <py:case value="1"><?py y = 1?></py:case> <py:else>-</py:else></py:switch></div>` -/
private def good : Template := tm (el "div" []
  [el "py:def" [("function", "f(x)")] [el "b" [("title", "$x")] [txt "$x"]],
   el "py:if" [("test", "a")] [txt "${f(1)}"], el "py:else" [] [txt "no"],
   el "py:nop" [] [el "py:switch" [("test", "a")] [txt " ", el "py:case" [("value", "1")] [.pi "py".toList "y = 1".toList 1], txt " ",
     el "py:nop" [] [el "py:else" [] [txt "-"]]]]])

example : Template.known good = true ∧ good.placed = true ∧ Template.accepted good = true ∧ Template.filled good = true := by
  decide +kernel
example : ∃ u c, compileDoc good.conf good.doc = .ok u ∧ fromIr u good.base = some c :=
  (C62_loads_iff good (by decide +kernel) (by decide +kernel)).2 ⟨by decide +kernel, by decide +kernel⟩

/-- `<a><py:if test="x"><py:def function="f()">x</py:def></py:if></a>`: the function leaves nothing in the condition. -/
private def hollow : Template :=
  tm (el "a" [] [el "py:if" [("test", "x")] [el "py:def" [("function", "f()")] [txt "x"]]])

example : Template.known hollow = true ∧ hollow.placed = true ∧ Template.accepted hollow = true ∧
    Template.filled hollow = false ∧ loads hollow = false := by decide +kernel

/-- `<a><py:else>x</py:else></a>` -/
private def lost : Template := tm (el "a" [] [el "py:else" [] [txt "x"]])
/-- `<a><py:switch test="x">text<py:case value="1">x</py:case></py:switch></a>` -/
private def noisy : Template :=
  tm (el "a" [] [el "py:switch" [("test", "x")] [txt "text", el "py:case" [("value", "1")] [txt "x"]]])
/-- `<a title="${x">x</a>` -/
private def open_ : Template := tm (el "a" [("title", "${x")] [txt "x"])

example : [lost, noisy, open_].all (fun t => Template.known t && !Template.accepted t && !loads t) = true := by
  decide +kernel

/-- **C62** (finding).  In a `py:nop`, `py:else` is also accepted after a `py:for`, and becomes the `else` of the
Python loop: it is shown although there were rounds. -/
theorem C62_else_of_loop : ∃ (t : Template) (u : Tmpl), t.doc.kids =
      [.elem "py:nop".toList [] 1
        [.elem "py:for".toList [("each".toList, "i in x".toList)] 1 [.text ['a'] true 1],
         .elem "py:else".toList [] 1 [.text ['b'] true 1]]] ∧
    t.placed = false ∧ compileDoc t.conf t.doc = .ok u ∧
    (compilePy (generatePython u)).map (·.defs) =
      some [("__main__()".toList, [.forS "i in x".toList [.yieldGettext ['a']] [.yieldGettext ['b']]])] := by
  refine ⟨tm (el "py:nop" [] [el "py:for" [("each", "i in x")] [txt "a"], el "py:else" [] [txt "b"]]), ?_⟩
  have h : (match compileDoc (tm (el "py:nop" [] [el "py:for" [("each", "i in x")] [txt "a"], el "py:else" [] [txt "b"]])).conf
      (tm (el "py:nop" [] [el "py:for" [("each", "i in x")] [txt "a"], el "py:else" [] [txt "b"]])).doc with
    | .ok u => (compilePy (generatePython u)).map (·.defs)
    | .error _ => none) =
      some [("__main__()".toList, [.forS "i in x".toList [.yieldGettext ['a']] [.yieldGettext ['b']]])] := by
    rfl
  split at h
  · next u hu => exact ⟨u, rfl, by decide +kernel, hu, h⟩
  · cases h

end Kajiki.Props
