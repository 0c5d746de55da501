import Verif.Lemmas.WovenXml
import Verif.Props.Pure

/-!
# Values cannot bring in markup

C78: whatever templates do, what they show is woven from their own texts and escaped values.
-/

namespace Kajiki.Props
open Kajiki.Run Kajiki.Spec Kajiki.Spec.Woven
open Kajiki.Spec.DocSem (Template SourceFile)

variable {W : Type}

/-! ## C78 -/

/-- Whatever compiled templates do — loops, functions, blocks, inheritance, inclusion, side effects, exceptions — if
the variables are no markup and Python makes none from such (`NoMarkup`), expressions shown as they are give results of
functions only (`Calls`), and those of `py:attrs` attributes that can be written (`Attributes`), then what is shown is put
together from the templates' own texts and pieces with no `<`, `>` or `"` and with `&` only as part of a reference. -/
theorem C78_no_markup_from_values (P : Prog (List Stmt)) (O : Oracle W) (tr : Str → Str) (h : NoMarkup O P tr)
    (hr : ∀ e, .raw e ∈ parts P → Calls O e) (hm : ∀ e, .mapping e ∈ parts P → Attributes O e)
    (n c : Nat) (context : Dict Val) (hc : CleanDict context) (w : W) :
    Woven (Own P tr) (render P O n c context w).out.txt := by
  refine Kajiki.Woven.render_woven (K := fun i => i ∈ parts P) (tr := tr) ?_ ⟨fun c hc m hm => ?_, h.names⟩ ?_ n c hc w
  · exact ⟨fun t ht => .inl ht, fun m hm => .inr (.inl ⟨m, hm, rfl⟩), fun t ht => .inr (.inr ht)⟩
  · exact ⟨List.mem_flatMap.2 ⟨c, hc, List.mem_flatMap.2 ⟨m, hm, .head _⟩⟩,
      fun i hi => List.mem_flatMap.2 ⟨c, hc, List.mem_flatMap.2 ⟨m, hm, .tail _ hi⟩⟩⟩
  · exact ⟨h.exprs, h.loops, h.blocks, h.args, h.messages, hr, hm⟩

/-- In compiled documents only the functions of `py:call` are shown as they are, and only `py:attrs` gives attributes. -/
theorem C78_only_calls_are_raw (ts : List Template) (S : Source) (P : Prog (List Stmt))
    (hc : List.Forall₂ (fun t u => compileDoc t.conf t.doc = .ok u.1 ∧ u.2 = t.base) ts S.tmpls)
    (h : S.compile = some P) :
    (∀ e, .raw e ∈ parts P → ∃ t ∈ ts, ∃ f ∈ calledAll t.doc.kids, ∃ k, e = callCode t.conf.gen k f) ∧
      ∀ e, .mapping e ∈ parts P → ∃ t ∈ ts, e ∈ mappedAll t.doc.kids := by
  unfold Source.compile at h
  cases ha : compileAll S.tmpls with
  | none => rw [ha] at h; cases h
  | some cs =>
    rw [ha] at h
    cases h
    have key := Kajiki.WovenXml.compileAll_only
      (A := fun e => ∃ t ∈ ts, ∃ f ∈ calledAll t.doc.kids, ∃ k, e = callCode t.conf.gen k f)
      (B := fun e => ∃ t ∈ ts, e ∈ mappedAll t.doc.kids) hc ha (fun t ht f hf k => ⟨t, ht, f, hf, k, rfl⟩)
      (fun t ht e he => ⟨t, ht, he⟩)
    refine ⟨fun e he => ?_, fun e he => ?_⟩
    all_goals
      obtain ⟨c, hc, he⟩ := List.mem_flatMap.1 he
      obtain ⟨m, hm, he⟩ := List.mem_flatMap.1 he
      rcases List.mem_cons.1 he with he | he
      · cases he
    · exact (key c hc m hm).1 e (Kajiki.WovenXml.unescaped_of_items _ _ _ he)
    · exact (key c hc m hm).2 e (Kajiki.WovenXml.mappings_of_items _ _ _ he)

/-- **C78.** Templates compiled from documents: whatever strings the variables have, no markup comes from them, if
functions of `py:call` give only what functions of templates show, and expressions of `py:attrs` attributes that can be
written. -/
theorem C78_documents_keep_values_out (ts : List Template) (S : Source) (P : Prog (List Stmt)) (O : Oracle W)
    (tr : Str → Str)
    (hc : List.Forall₂ (fun t u => compileDoc t.conf t.doc = .ok u.1 ∧ u.2 = t.base) ts S.tmpls)
    (h : S.compile = some P) (hO : NoMarkup O P tr)
    (hcalls : ∀ t ∈ ts, ∀ f ∈ calledAll t.doc.kids, ∀ k, Calls O (callCode t.conf.gen k f))
    (hattrs : ∀ t ∈ ts, ∀ e ∈ mappedAll t.doc.kids, Attributes O e)
    (n c : Nat) (context : Dict Val) (hx : CleanDict context) (w : W) :
    Woven (Own P tr) (render P O n c context w).out.txt := by
  obtain ⟨h1, h2⟩ := C78_only_calls_are_raw ts S P hc h
  refine C78_no_markup_from_values P O tr hO (fun e he => ?_) (fun e he => ?_) n c context hx w
  · obtain ⟨t, ht, f, hf, k, rfl⟩ := h1 e he
    exact hcalls t ht f hf k
  · obtain ⟨t, ht, he⟩ := h2 e he
    exact hattrs t ht e he

namespace WovenDemo
open PureDemo (el txt)

/-- A variable. -/
def look (k : Str) (v : View) : Option Val :=
  match v.locals.findSome? fun d => Dict.get d k with
  | some x => some x
  | none => (v.insts[v.inst]?).bind fun i => Dict.get i.globals k

/-- What is in the parentheses of `f(x)`. -/
def inner (e : Str) : Str := ((e.dropWhile (· ≠ '(')).drop 1).dropLast

/-- Python with variables, calls `f()` and `f(x)`, and one mapping. -/
def python : Oracle Nat where
  eval e v w :=
    if e = "{'title': t}".toList then
      (.ok (.pairs [] [("title".toList, .str (((look "t".toList v).map toStr).getD []))]), w)
    else if e.contains '(' then
      match look (e.takeWhile (· ≠ '(')) v with
      | some (.fn f) => (.ok (.flatCall w f (look (inner e) v).toList), w + 1)
      | _ => (.error .type, w)
    else match look e v with
      | some x => (.ok x, w)
      | none => (.error .name, w)
  iter _ _ w := (.ok [[("i".toList, .int 1)], [("i".toList, .int 2)]], w)
  py _ _ w := (.ok [], w)
  args d as w := (.ok (as.take 1 |>.map fun a => (inner d, a)), w)
  gettext _ s w := (.ok (.str s), w)

theorem look_clean {k : Str} {v : View} {x : Val} (hv : CleanView v) (h : look k v = some x) : Clean x := by
  unfold look at h
  split at h
  · next y hy =>
    cases h
    obtain ⟨d, hd, hg⟩ := List.exists_of_findSome?_eq_some hy
    exact (hv.1 d hd).get hg
  · obtain ⟨i, hi, hg⟩ := Option.bind_eq_some_iff.1 h
    exact (hv.2 i (List.mem_of_getElem? hi)).2.1.get hg

theorem eval_clean (e : Str) (v : View) (w : Nat) (x : Val) (hv : CleanView v) (h : (python.eval e v w).1 = .ok x) : Clean x := by
  unfold python at h
  dsimp only at h
  split at h
  · cases h
    refine .pairs _ _ fun kv hkv => ?_
    rw [List.mem_singleton.1 hkv]
    exact .str _
  · split at h
    · split at h
      · cases h
        refine .flatCall _ _ _ fun a ha => ?_
        exact look_clean hv (Option.mem_toList.1 ha)
      · cases h
    · split at h
      · next y hy => cases h; exact look_clean hv hy
      · cases h

theorem python_tame (P : Prog (List Stmt)) (hP : ∀ c ∈ P.classes, c.baseGlobals = []) : NoMarkup python P id where
  exprs e _ := eval_clean e
  loops d _ v w bs _ h := by
    cases h
    intro b hb kv hkv
    simp only [List.mem_cons, List.not_mem_nil, or_false] at hb
    rcases hb with rfl | rfl <;> (rw [List.mem_singleton.1 hkv]; exact .int _)
  blocks _ _ _ _ _ _ h := by cases h; exact nofun
  args d _ as w b ha h := by
    cases h
    intro kv hkv
    obtain ⟨a, h, rfl⟩ := List.mem_map.1 hkv
    exact ha a (List.mem_of_mem_take h)
  messages _ _ _ _ _ h := by cases h; rfl
  names c hc := by rw [hP c hc]; exact nofun

/-- An expression with a parenthesis gives the result of a function. -/
theorem call_calls {e : Str} (h : e ≠ "{'title': t}".toList ∧ e.contains '(' = true) : Calls python e := by
  intro v w x _ hx
  unfold python at hx
  dsimp only at hx
  rw [if_neg h.1, if_pos h.2] at hx
  split at hx
  · cases hx; rfl
  · cases hx

theorem mapping_writes : Attributes python "{'title': t}".toList := by
  intro v w x _ hx
  unfold python at hx
  dsimp only at hx
  rw [if_pos rfl] at hx
  cases hx
  rintro i l ⟨⟩ kv hkv
  rw [List.mem_singleton.1 hkv]
  refine ⟨⟨show ∀ c ∈ "title".toList, _ by decide, fun pre post h => ?_⟩, .inr ?_⟩
  · exact absurd (show '&' ∈ "title".toList from by dsimp only at h; rw [h]; simp) (by decide)
  · rintro (h | h | h) <;> cases h

/-- `<div title="$t"><py:def function="f(c)">[$t${c()}]</py:def><i py:for="…">$i</i><py:call function="f(%caller)">$t</py:call>
<b py:attrs="{'title': t}">$t</b></div>` -/
def page : DNode :=
  el "div" [("title", "$t")] [el "py:def" [("function", "f(c)")] [txt "[$t${c()}]"],
    el "py:for" [("each", "i in xs")] [el "i" [] [txt "$i"]],
    el "py:call" [("function", "f(%caller)")] [el "u" [] [txt "$t"]],
    el "b" [("py:attrs", "{'title': t}")] [txt "$t"]]

/-- `<p><py:call function="t"><u/></py:call></p>` -/
def hole : DNode := el "p" [] [el "py:call" [("function", "t")] [el "u" [] []]]

def tm (root : DNode) : Template :=
  ⟨⟨fun s => if s.contains '}' then some (1, s.idxOf '}' + 1) else none, "xml".toList, ⟨"xml".toList, false, [], true⟩,
    fun _ => "_fn".toList⟩, ⟨[], [root]⟩, []⟩

def site (root : DNode) : Option (Prog (List Stmt)) :=
  match compileDoc (tm root).conf (tm root).doc with
  | .ok u => (Source.mk [(u, [])] (fun _ => none) id).compile
  | _ => none

def context : Dict Val := [("t".toList, .str "<script>".toList)]

set_option maxRecDepth 10000 in
example : ((site page).map fun P => (render P python 9 0 context 0).out.txt) =
    some ("<div title=\"&lt;script&gt;\"><i>1</i><i>2</i>[&lt;script&gt;<u>&lt;script&gt;</u>]" ++
      "<b title=\"&lt;script&gt;\">&lt;script&gt;</b></div>").toList := by decide +kernel

/-- Whatever string `t` is, it brings in no markup. -/
example (t : Str) (n : Nat) : ∃ P, site page = some P ∧
    Woven (Own P id) (render P python n 0 [("t".toList, .str t)] 0).out.txt := by
  have h1 : (match compileDoc (tm page).conf (tm page).doc with
    | .ok u => ((Source.mk [(u, [])] (fun _ => none) id).compile).isSome
    | _ => false) = true := by decide +kernel
  unfold site
  cases hu : compileDoc (tm page).conf (tm page).doc with
  | error e => rw [hu] at h1; cases h1
  | ok u =>
    rw [hu] at h1
    obtain ⟨P, hP⟩ := Option.isSome_iff_exists.1 h1
    refine ⟨P, hP, C78_documents_keep_values_out [tm page] ⟨[(u, [])], fun _ => none, id⟩ P python id
      (.cons ⟨hu, rfl⟩ .nil) hP (python_tame P ?_) ?_ ?_ n 0 _ ?_ 0⟩
    · unfold Source.compile compileAll at hP
      cases hf : fromIr u [] with
      | none => simp [hf] at hP
      | some c =>
        simp only [hf, compileAll, Option.map_some, Option.some.injEq] at hP
        subst hP
        intro d hd
        rw [List.mem_singleton.1 hd]
        unfold fromIr at hf
        obtain ⟨m, _, rfl⟩ := Option.map_eq_some_iff.1 hf
        rfl
    · intro t ht f hf k
      rw [List.mem_singleton.1 ht] at hf ⊢
      rw [show calledAll (tm page).doc.kids = ["f(%caller)".toList] by decide +kernel, List.mem_singleton] at hf
      rw [hf, show callCode (tm page).conf.gen k "f(%caller)".toList = "f(_fn)".toList from
        (by decide +kernel : callCode (fun _ => "_fn".toList) 0 "f(%caller)".toList = "f(_fn)".toList)]
      exact call_calls (by decide +kernel)
    · intro t ht e he
      rw [List.mem_singleton.1 ht] at he
      rw [show mappedAll (tm page).doc.kids = ["{'title': t}".toList] by decide +kernel, List.mem_singleton] at he
      rw [he]
      exact mapping_writes
    · intro kv hkv
      rw [List.mem_singleton.1 hkv]
      exact .str _

/-- The result of a function of `py:call` is not escaped, so here the variable is markup. -/
theorem _root_.Kajiki.Props.C78_call_is_not_escaped :
    ((site hole).map fun P => (render P python 9 0 context 0).out.txt) = some "<p><script></p>".toList := by
  decide +kernel

end WovenDemo

end Kajiki.Props
