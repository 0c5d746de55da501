import Verif.Lemmas.WellFormedDoc
import Verif.Props.Directives

/-!
# C23: output is well-formed

`C23_wellformed_partial` composes the parser, the transformer, the compiler, the code generator and the
interpreter.  What is missing from the full statement, and why it is false as it stands, is at
`C23_strip_can_unbalance` and in DESIGN.md.
-/

namespace Kajiki.Props
open Kajiki.Run Kajiki.Spec.Sem Kajiki.Spec.WellFormed

variable {W : Type}

/-- The template is compiled in xml mode from a source without CDATA sections and scripts in CDATA.  If it
has a DOCTYPE that is rendered, this is one without an internal subset. -/
def Spec.WellFormed.PlainXml (O : Oracle W) (t : Tmpl) : Prop :=
  ∃ py gen o stripText dtd es, xmlTemplate py gen o stripText dtd es = .ok t ∧
    selectMode o.mode dtd = "xml".toList ∧ (dtd = [] ∨ Doctype (strip dtd) ∨ o.isFragment = true) ∧
    ∀ e ∈ es, EventOk O o.cdataScripts e

open Spec.WellFormed (PlainXml)

/-- **C23**, in part.  Whatever the templates, the context and the expressions, a rendering in xml mode that
succeeds gives well-formed content: all tags are balanced and properly nested, attributes are quoted and not
repeated, and everything else is character data, a comment or a DOCTYPE.  Values that declare themselves to
be markup must be well-formed (`Tame…`), and the results of `py:call` are not escaped (`RawExpr`).  The names
that a `py:strip` depends on must not be bound between the start tag and the end tag, nor be names of template
functions (`SteadyGuards`; see `C23_strip_can_unbalance`).  The values of `py:attrs` must be attributes that
the element does not have already (`AttrsExpr` in `EventOk`; see `C23_attrs_can_repeat`).
Missing: CDATA sections and scripts (`PlainXml`). -/
theorem C23_wellformed_partial (S : Source) (P : Prog (List Stmt)) (O : Oracle W) (h : S.compile = some P)
    (context : Dict Val)
    (hx : ∀ t ∈ S.tmpls, PlainXml O t.1) (hb : ∀ t ∈ S.tmpls, TameDict t.2)
    (hc : ∀ t ∈ S.tmpls, casesTmpl t.1 = true)
    (hg : ∀ t ∈ S.tmpls, ∀ d ∈ t.1.defs, SteadyGuards O (Spec.Scope.Reserved S context) d.body)
    (hk : ∀ t ∈ S.tmpls, ∀ d ∈ t.1.defs, ∀ e ∈ calleesList d.body, RawExpr O e)
    (hO : TameOracle O) (n c : Nat) (hctx : TameDict context) (w : W)
    (hr : (render P O n c context w).val = .ok ()) : Content (render P O n c context w).out.txt := by
  let L : Wf.Lang := ⟨fun e mid => ∃ ns, Spec.Scope.Reads O e ns ∧ Spec.Scope.NoBinds O ns mid ∧
    ∀ n ∈ ns, ¬ Spec.Scope.Reserved S context n, RawExpr O, AttrsExpr O, Spec.Scope.Reserved S context, S.aliasFor⟩
  have hs : ∀ t ∈ S.tmpls, ∀ d ∈ t.1.defs, Wf.Shape L d.body := by
    intro t ht d hd
    obtain ⟨py, gen, o, st, dtd, es, h1, h2, h3, h4⟩ := hx t ht
    exact (Wf.xmlTemplate_shape h2 h4 h3 h1 d hd).restrict (fun _ _ h => h) (hg t ht d hd) (hk t ht d hd)
  obtain ⟨h1, h2, _⟩ := C12_rendering_is_meaning_unmerged S P O h hc
    (fun t ht d hd g hm v w x w' he => by
      obtain ⟨mid, ns, h, _⟩ := (hs t ht d hd).guards g hm
      exact (h v v w w x x w' w' (fun _ _ => rfl) he he).2) n c context w
  rw [h2] at hr
  rw [h1]
  refine Wf.render_content (L := L) hO ⟨fun _ _ h => h, fun _ h => h, fun _ _ h => h⟩
    ⟨?_, ?_, rfl, Wf.progSafe S context⟩ hctx (fun k f hk => .inr (.inr (.inl ⟨f, hk⟩))) n c w hr
  · intro cl hcl
    obtain ⟨t, ht, rfl⟩ := List.mem_map.1 hcl
    exact Wf.treeClass_ok (hs t ht)
  · intro cl hcl
    obtain ⟨t, ht, rfl⟩ := List.mem_map.1 hcl
    exact hb t ht

/-! ### An example

`<!DOCTYPE a><div id="$s"><p py:for="i in x" py:strip="i" py:attrs="m" class="c">a &lt; $s<br/></p></div>`:
the loop changes `i`, but not inside the element. -/

private def page : List Event :=
  [.startElement "div".toList [("id".toList, "$s".toList)] 1,
   .startElement "p".toList [("py:for".toList, "i in x".toList), ("py:strip".toList, "i".toList),
     ("py:attrs".toList, "m".toList), ("class".toList, "c".toList)] 1,
   .characters "a < $s".toList 1, .startElement "br".toList [] 1, .endElement "br".toList,
   .endElement "p".toList, .endElement "div".toList]

private def valid : PyCompile := fun _ => none

private def opts : Opts := ⟨"xml".toList, false, [], true⟩

private theorem ok_of_isSome {α : Type} {x : Except Err α} (h : x.toOption.isSome = true) : ∃ a, x = .ok a := by
  cases x with
  | error e => cases h
  | ok a => exact ⟨a, rfl⟩

private def doctype : Str := "<!DOCTYPE a>".toList

private def source (dtd : Str) (es : List Event) : Source :=
  match xmlTemplate valid (fun _ => []) opts false dtd es with
  | .ok t => ⟨[(t, [])], fun _ => none, id⟩
  | .error _ => ⟨[], fun _ => none, id⟩

/-- `i` is a variable, `m` is `{"k": '"<'}`, and all other expressions are strings with markup in them. -/
private def nasty : Oracle Nat where
  eval e v w :=
    if e = "not (i)".toList then
      (.ok (.bool !(match Spec.Scope.lookup v ['i'] with | some (.bool b) => b | _ => false)), w)
    else if e = ['m'] then (.ok (.pairs [] [(['k'], .str "\"<".toList)]), w)
    else (.ok (.str ("<&".toList ++ e)), w)
  iter _ _ w := (.ok [[(['i'], .bool false)], [(['i'], .bool true)]], w)
  py _ _ w := (.ok [], w)
  args _ _ w := (.ok [], w)
  gettext _ s w := (.ok (.str s), w)

private theorem nasty_tame : TameOracle nasty where
  eval e v w x w' _ h := by
    simp only [nasty] at h
    split at h
    · cases h; exact .bool _
    · split at h
      · cases h; exact .pairs fun kv hk => by cases List.mem_singleton.1 hk; exact .str _
      · cases h; exact .str _
  iter d v w bs w' _ h := by
    cases h
    intro b hb kv hk
    simp only [List.mem_cons, List.not_mem_nil, or_false] at hb
    rcases hb with rfl | rfl <;> simp only [List.mem_cons, List.not_mem_nil, or_false] at hk <;> subst hk <;> exact .bool _
  py ls v w b w' _ h := by cases h; intro kv hk; cases hk
  args d as w b w' _ h := by cases h; intro kv hk; cases hk
  gettext g s w x w' hs h := by cases h; exact .other rfl (by simp) (.chars hs)

private theorem start_ok (O : Oracle W) (tag : Str) (as : Dict Str) (h : Name tag ∧
    (∀ kv ∈ as, Name kv.1 ∧ kv.1 ≠ "py:attrs".toList) ∧ tag ≠ "script".toList ∧ tag ≠ "style".toList) (l : Nat) :
    EventOk O true (.startElement tag as l) :=
  ⟨h.1, fun kv hk => (h.2.1 kv hk).1, fun _ he => absurd rfl (h.2.1 _ he).2, fun _ => h.2.2⟩

private theorem page_ok : ∀ e ∈ page, EventOk nasty true e := by
  intro e he
  simp only [page, List.mem_cons, List.not_mem_nil, or_false] at he
  rcases he with rfl | rfl | rfl | rfl | rfl | rfl | rfl
  · exact start_ok _ _ _ (by decide +kernel) _
  · refine ⟨by decide +kernel, by decide +kernel, fun e he => ?_, by decide +kernel⟩
    simp at he
    subst he
    intro v w r l w' _ h
    cases h
    refine ⟨by decide, fun kv hk => ?_⟩
    cases List.mem_singleton.1 hk
    exact ⟨by decide +kernel, by decide +kernel, by decide +kernel, rfl, fun _ _ _ h => by cases h⟩
  · trivial
  · exact start_ok _ _ _ (by decide +kernel) _
  all_goals trivial

/-- A list of nodes where no condition of a `py:strip` changes: there is none, or the only one is `e` and
nothing is bound. -/
private def still (e : Str) (xs : List Ir) : Bool :=
  (xs.all fun | .text _ g _ => (activeGuard g).isNone | _ => true) ||
  (xs.all fun | .text _ g _ => (activeGuard g).all (· = e) | .attr .. => true | .attrs .. => true
              | .expr .. => true | .trans .. => true | _ => false)

private theorem still_steady {O : Oracle W} {e : Str} {ns : List Str} {R : Str → Prop} (hr : Spec.Scope.Reads O e ns)
    (hn : ∀ n ∈ ns, ¬ R n) {body : List Ir} (h : (body :: nestedList body).all (still e) = true) : SteadyGuards O R body := by
  intro xs hx pre mid post t t' g g' l l' e' he hg hg'
  have h := List.all_eq_true.1 h xs hx
  rw [still, Bool.or_eq_true, List.all_eq_true, List.all_eq_true] at h
  have hmem : Ir.text t g l ∈ xs := by rw [he]; simp
  rcases h with h | h
  · have := h _ hmem
    simp only [hg] at this
    cases this
  · have hee := h _ hmem
    simp [hg] at hee
    subst hee
    refine ⟨ns, hr, ?_, hn⟩
    have hm : ∀ x ∈ mid, x ∈ xs := fun x hx => by rw [he]; simp [hx]
    clear he
    induction mid with
    | nil => trivial
    | cons x mid ih =>
      refine ⟨?_, ih fun y hy => hm y (List.mem_cons_of_mem _ hy)⟩
      have := h x (hm x List.mem_cons_self)
      cases x <;> trivial

private theorem reads_i : Spec.Scope.Reads nasty "not (i)".toList [['i']] := by
  intro v v' w w' x x' u u' hv h h'
  have hv := hv ['i'] List.mem_cons_self
  simp only [nasty, if_true, Prod.mk.injEq, Except.ok.injEq] at h h'
  rw [← h.1, ← h'.1, hv]
  exact ⟨rfl, h.2.symm⟩

set_option maxRecDepth 20000 in
example : ∃ P, (source doctype page).compile = some P ∧
    (render P nasty 5 0 [] 0).out.txt =
      ("<!DOCTYPE a>\n<div id=\"&lt;&amp;s\"><p class=\"c\" k=\"&quot;&lt;\">a &lt; &lt;&amp;s<br/></p>" ++
       "a &lt; &lt;&amp;s<br/></div>").toList ∧
    Content (render P nasty 5 0 [] 0).out.txt := by
  obtain ⟨P, hP⟩ : ∃ P, (source doctype page).compile = some P := Option.isSome_iff_exists.1 (by decide +kernel)
  have hr : (source doctype page).compile.map (fun P => (render P nasty 5 0 [] 0).val) = some (.ok ()) := by decide +kernel
  have ho : (source doctype page).compile.map (fun P => (render P nasty 5 0 [] 0).out.txt) =
      some ("<!DOCTYPE a>\n<div id=\"&lt;&amp;s\"><p class=\"c\" k=\"&quot;&lt;\">a &lt; &lt;&amp;s<br/></p>" ++
       "a &lt; &lt;&amp;s<br/></div>").toList := by decide +kernel
  rw [hP] at hr ho
  refine ⟨P, hP, Option.some.inj ho, ?_⟩
  have hT : ∃ t, xmlTemplate valid (fun _ => []) opts false doctype page = .ok t := ok_of_isSome (by decide +kernel)
  refine C23_wellformed_partial (source doctype page) P nasty hP [] ?_ ?_ (by decide +kernel) ?_ ?_ nasty_tame 5 0
    (fun _ h => by cases h) 0 (Option.some.inj hr)
  · intro t ht
    obtain ⟨u, hu⟩ := hT
    rw [show source doctype page = ⟨[(u, [])], fun _ => none, id⟩ by unfold source; rw [hu]] at ht
    cases List.mem_singleton.1 ht
    exact ⟨_, _, _, _, _, _, hu, by decide +kernel, .inr (.inl ⟨" a".toList, by decide +kernel, by decide⟩), page_ok⟩
  · have : ∀ t ∈ (source doctype page).tmpls, t.2.length = 0 := by decide +kernel
    intro t ht
    rw [List.eq_nil_of_length_eq_zero (this t ht)]
    intro kv hk; cases hk
  · have : ∀ t ∈ (source doctype page).tmpls, ∀ d ∈ t.1.defs, (d.body :: nestedList d.body).all (still "not (i)".toList) = true := by
      decide +kernel
    have hres : ∀ t ∈ (source doctype page).tmpls, ∀ d ∈ t.1.defs,
        declName d.decl ≠ ['i'] ∧ ['i'] ∉ Spec.Scope.aliasesList (source doctype page).aliasFor d.body := by
      decide +kernel
    have h2 : ∀ t ∈ (source doctype page).tmpls, t.2.length = 0 := by decide +kernel
    intro t ht d hd
    refine still_steady reads_i ?_ (this t ht d hd)
    intro n hn
    cases List.mem_singleton.1 hn
    rintro (h | ⟨t, ht, d, hd, h | h⟩ | ⟨f, h⟩ | ⟨t, ht, f, h⟩)
    · revert h; decide
    · exact (hres t ht d hd).1 h
    · exact (hres t ht d hd).2 h
    · cases h
    · rw [List.eq_nil_of_length_eq_zero (h2 t ht)] at h; cases h
  · have : ∀ t ∈ (source doctype page).tmpls, ∀ d ∈ t.1.defs, calleesList d.body = [] := by decide +kernel
    intro t ht d hd e he
    rw [this t ht d hd] at he
    cases he

/-! ### Why the condition on `py:strip`

`<a py:strip="x"><py:for each="x in y">t</py:for></a>`: the loop changes `x` between the start tag and the
end tag, and the condition is evaluated for each of them. -/

private def shaky : List Event :=
  [.startElement "a".toList [("py:strip".toList, "x".toList)] 1,
   .startElement "py:for".toList [("each".toList, "x in y".toList)] 1,
   .characters "t".toList 1, .endElement "py:for".toList, .endElement "a".toList]

/-- `x` is a local variable or false; the loop sets it to true. -/
private def shakyO : Oracle Nat where
  eval _ v w := (.ok (.bool (!(v.locals.any fun d => (Dict.get d ['x']).isSome))), w)
  iter _ _ w := (.ok [[(['x'], .bool true)]], w)
  py _ _ w := (.ok [], w)
  args _ _ w := (.ok [], w)
  gettext _ s w := (.ok (.str s), w)

private theorem content_closes {s : Str} (h : Content s) (h1 : '/' ∉ s) (h2 : '!' ∉ s) : '<' ∉ s := by
  induction h with
  | chars h => exact fun hm => (h.1 _ hm).1 rfl
  | append _ _ ih1 ih2 =>
    simp only [List.mem_append, not_or] at h1 h2 ⊢
    exact ⟨ih1 h1.1 h2.1, ih2 h1.2 h2.2⟩
  | empty => exact absurd (by simp) h1
  | elem => exact absurd (by simp) h1
  | comment => exact absurd (by simp) h2
  | doctype h =>
    obtain ⟨r, rfl, _⟩ := h
    exact absurd (by simp) h2

set_option maxRecDepth 20000 in
/-- **C23 is false in general**: a `py:strip` whose condition changes while the content is rendered leaves
the element open.  All values are harmless, and everything else is as in `C23_wellformed_partial`. -/
theorem C23_strip_can_unbalance : ∃ (S : Source) (P : Prog (List Stmt)) (O : Oracle Nat), S.compile = some P ∧
    (∀ t ∈ S.tmpls, PlainXml O t.1) ∧ TameOracle O ∧
    (render P O 5 0 [] 0).val = .ok () ∧ (render P O 5 0 [] 0).out.txt = "<a>t".toList ∧
    ¬ Content (render P O 5 0 [] 0).out.txt := by
  obtain ⟨P, hP⟩ : ∃ P, (source [] shaky).compile = some P := Option.isSome_iff_exists.1 (by decide +kernel)
  have hr : (source [] shaky).compile.map (fun P => (render P shakyO 5 0 [] 0).val) = some (.ok ()) := by decide +kernel
  have ho : (source [] shaky).compile.map (fun P => (render P shakyO 5 0 [] 0).out.txt) = some "<a>t".toList := by
    decide +kernel
  obtain ⟨u, hu⟩ : ∃ t, xmlTemplate valid (fun _ => []) opts false [] shaky = .ok t := ok_of_isSome (by decide +kernel)
  rw [hP] at hr ho
  have ho : (render P shakyO 5 0 [] 0).out.txt = "<a>t".toList := Option.some.inj ho
  refine ⟨source [] shaky, P, shakyO, hP, ?_, ?_, Option.some.inj hr, ho, ?_⟩
  · intro t ht
    rw [show source [] shaky = ⟨[(u, [])], fun _ => none, id⟩ by unfold source; rw [hu]] at ht
    cases List.mem_singleton.1 ht
    refine ⟨_, _, _, _, _, _, hu, by decide +kernel, .inl rfl, ?_⟩
    intro e he
    simp only [shaky, List.mem_cons, List.not_mem_nil, or_false] at he
    rcases he with rfl | rfl | rfl | rfl | rfl
    · exact start_ok _ _ _ (by decide +kernel) _
    · exact start_ok _ _ _ (by decide +kernel) _
    all_goals trivial
  · exact {
      eval := fun e v w x w' _ h => by cases h; exact .bool _
      iter := fun d v w bs w' _ h => by
        cases h
        intro b hb kv hk
        cases List.mem_singleton.1 hb
        cases List.mem_singleton.1 hk
        exact .bool _
      py := fun ls v w b w' _ h => by cases h; intro kv hk; cases hk
      args := fun d as w b w' _ h => by cases h; intro kv hk; cases hk
      gettext := fun g s w x w' hs h => by cases h; exact .other rfl (by simp) (.chars hs) }
  · rw [ho]
    exact fun h => content_closes h (by decide) (by decide) (by decide)

/-! ### Why the condition on `py:attrs`

`<a k="1" py:attrs="m"/>`: attributes of the element are not left out if `m` has them as well. -/

private def twice : List Event :=
  [.startElement "a".toList [("k".toList, "1".toList), ("py:attrs".toList, "m".toList)] 1, .endElement "a".toList]

private theorem content_starts {s t : Str} (h : Content s) (h2 : '!' ∉ s) (hs : s = '<' :: t) :
    ∃ tag as ns c rest, Name tag ∧ Attrs ns as ∧ ns.Nodup ∧ (c = '/' ∨ c = '>') ∧ t = tag ++ (as ++ c :: rest) := by
  induction h generalizing t with
  | chars h => subst hs; exact absurd rfl (h.1 '<' List.mem_cons_self).1
  | @append a b _ _ ih1 ih2 =>
    simp only [List.mem_append, not_or] at h2
    cases a with
    | nil => exact ih2 h2.2 hs
    | cons x a =>
      cases hs
      obtain ⟨tag, as, ns, c, rest, h3, h4, h5, h6, rfl⟩ := ih1 h2.1 rfl
      exact ⟨tag, as, ns, c, rest ++ b, h3, h4, h5, h6, by simp⟩
  | empty h3 h4 h5 => cases hs; exact ⟨_, _, _, '/', ['>'], h3, h4, h5, .inl rfl, by simp⟩
  | @elem tag as c _ h3 h4 h5 =>
    cases hs
    exact ⟨_, _, _, '>', c ++ "</".toList ++ tag ++ ">".toList, h3, h4, h5, .inr rfl, by simp⟩
  | comment => exact absurd (by simp) h2
  | doctype h =>
    obtain ⟨r, rfl, _⟩ := h
    exact absurd (by simp) h2

private theorem split_at {p : Char → Prop} {a a' b b' : Str} {c c' : Char} (h : a ++ c :: b = a' ++ c' :: b')
    (ha : ∀ x ∈ a, p x) (ha' : ∀ x ∈ a', p x) (hc : ¬ p c) (hc' : ¬ p c') : a = a' ∧ c = c' ∧ b = b' := by
  induction a generalizing a' with
  | nil =>
    cases a' with
    | nil => cases h; exact ⟨rfl, rfl, rfl⟩
    | cons x a' => cases h; exact absurd (ha' _ List.mem_cons_self) hc
  | cons x a ih =>
    cases a' with
    | nil => cases h; exact absurd (ha _ List.mem_cons_self) hc'
    | cons y a' =>
      injection h with h1 h2
      obtain ⟨h3, h4⟩ := ih h2 (fun z hz => ha z (List.mem_cons_of_mem _ hz)) fun z hz => ha' z (List.mem_cons_of_mem _ hz)
      exact ⟨by rw [h1, h3], h4⟩

/-- A tag with an attribute, read from the left. -/
private theorem attrs_cons {ns : List Str} {as n v rest rest' : Str} {c : Char} (h : Attrs ns as) (hc : c = '/' ∨ c = '>')
    (he : as ++ c :: rest = ' ' :: (n ++ '=' :: '"' :: (v ++ '"' :: rest'))) (hn : ∀ x ∈ n, x ∉ notInNames)
    (hv : '"' ∉ v) : ∃ ns' as', ns = n :: ns' ∧ Attrs ns' as' ∧ as' ++ c :: rest = rest' := by
  cases h with
  | nil =>
    injection he with h1 _
    rcases hc with rfl | rfl <;> exact absurd h1 (by decide)
  | @cons m u s ms h1 h2 h3 =>
    simp only [List.cons_append, List.append_assoc, List.nil_append, List.cons.injEq, true_and] at he
    obtain ⟨rfl, _, he⟩ := split_at (p := fun x => x ∉ notInNames) he h1.2 hn (by decide) (by decide)
    have he := (List.cons.inj he).2
    obtain ⟨rfl, _, he⟩ := split_at (p := fun x => x ≠ '"') he (fun x hx e => (h2.1 x hx).2.2 e)
      (fun x hx e => hv (e ▸ hx)) (by decide) (by decide)
    exact ⟨ms, s, rfl, h3, he⟩

set_option maxRecDepth 20000 in
/-- Nor is C23 true for every `py:attrs`: an attribute that the element has already is repeated. -/
theorem C23_attrs_can_repeat : ∃ (S : Source) (P : Prog (List Stmt)) (O : Oracle Nat), S.compile = some P ∧
    TameOracle O ∧ (render P O 5 0 [] 0).val = .ok () ∧
    (render P O 5 0 [] 0).out.txt = "<a k=\"1\" k=\"&quot;&lt;\"/>".toList ∧
    ¬ Content (render P O 5 0 [] 0).out.txt := by
  obtain ⟨P, hP⟩ : ∃ P, (source [] twice).compile = some P := Option.isSome_iff_exists.1 (by decide +kernel)
  have hr : (source [] twice).compile.map (fun P => (render P nasty 5 0 [] 0).val) = some (.ok ()) := by decide +kernel
  have ho : (source [] twice).compile.map (fun P => (render P nasty 5 0 [] 0).out.txt) =
      some "<a k=\"1\" k=\"&quot;&lt;\"/>".toList := by decide +kernel
  rw [hP] at hr ho
  have ho : (render P nasty 5 0 [] 0).out.txt = "<a k=\"1\" k=\"&quot;&lt;\"/>".toList := Option.some.inj ho
  refine ⟨source [] twice, P, nasty, hP, nasty_tame, Option.some.inj hr, ho, ?_⟩
  have hq : "<a k=\"1\" k=\"&quot;&lt;\"/>".toList = '<' :: ("a".toList ++ ' ' :: ("k".toList ++ '=' :: '"' ::
      ("1".toList ++ '"' :: (' ' :: ("k".toList ++ '=' :: '"' :: ("&quot;&lt;".toList ++ '"' :: "/>".toList)))))) := by
    decide +kernel
  rw [ho]
  intro h
  have hb : '!' ∉ "<a k=\"1\" k=\"&quot;&lt;\"/>".toList := by decide +kernel
  obtain ⟨tag, as, ns, c, rest, h1, h2, h3, h4, h5⟩ := content_starts h hb hq
  have h6 : ∃ x r, as ++ c :: rest = x :: r ∧ x ∈ notInNames := by
    cases h2 with
    | nil => exact ⟨c, rest, rfl, by rcases h4 with rfl | rfl <;> decide⟩
    | cons => exact ⟨' ', _, rfl, by decide⟩
  obtain ⟨x, r, h6, hx⟩ := h6
  have h7 := h5
  rw [h6] at h7
  obtain ⟨rfl, rfl, hr⟩ := split_at (p := fun x => x ∉ notInNames) h7 (by decide) h1.2 (by decide) (not_not_intro hx)
  rw [← hr] at h6
  obtain ⟨ns1, as1, rfl, h8, h9⟩ := attrs_cons h2 h4 h6 (by decide) (by decide)
  obtain ⟨ns2, as2, rfl, _, _⟩ := attrs_cons h8 h4 h9 (by decide) (by decide)
  exact absurd h3 (by simp)

end Kajiki.Props
