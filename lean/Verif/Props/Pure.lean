import Verif.Lemmas.PureRun
import Verif.Props.Document

/-!
# C67: what a template with directives shows

`Verif/Spec/Pure.lean` says what a document with directives shows, as a function of the values of the variables.
-/

namespace Kajiki.Props
open Kajiki.Run Kajiki.Spec.Pure Kajiki.PureDoc
open Kajiki.Spec.DocSem (Template SourceFile tagConds)
open Kajiki.Spec.Sem (Steady)

variable {W : Type}

/-- C67 with the global variables as they are. -/
theorem shows (ts : List Template) (S : Source) (P : Prog (List Stmt))
    (hc : List.Forall₂ (fun t u => compileDoc t.conf t.doc = .ok u.1 ∧ u.2 = t.base) ts S.tmpls)
    (hp : ∀ t ∈ ts, t.placed = true) (h : S.compile = some P) (i : Nat) (t : Template) (ht : ts[i]? = some t)
    (root : DNode) (context : Dict Val) (O : Oracle W) (w : W) (py : Py) (hr : Runs O py w context t root)
    (hs : ∀ t ∈ ts, ∀ x ∈ t.doc.kids, ∀ e ∈ tagConds t.conf.opts x, Steady O e) (n : Nat) :
    let r := render P O (n + 1) i context w
    let m := shown py (globals t.base context) t root
    r.out.txt = m.text ∧ r.val = (m.res.map fun _ => ()) ∧ r.st.world = w := by
  have h1 := C61_rendering_is_document ts S P O hc hp h hs (n + 1) i context w
  have h2 := rendered_ok ht hr.isRoot hr.ok hr.noCalls hr.noBlocks hr.speaks hr.messages S.load S.aliasFor n context w hr.base hr.free hr.main
  dsimp only at h1 h2 ⊢
  rw [h1.1, h1.2.1, h1.2.2]
  exact h2

/-- **C67.** Rendering a template without functions and without other templates, one of a set of compiled ones.
The text it gives, and whether it ends with an exception, is what the document shows as a function of the variables
of the context. -/
theorem C67_template_shows (ts : List Template) (S : Source) (P : Prog (List Stmt))
    (hc : List.Forall₂ (fun t u => compileDoc t.conf t.doc = .ok u.1 ∧ u.2 = t.base) ts S.tmpls)
    (hp : ∀ t ∈ ts, t.placed = true) (h : S.compile = some P) (i : Nat) (t : Template) (ht : ts[i]? = some t)
    (root : DNode) (context : Dict Val) (hn : (context.map (·.1)).Nodup) :
    ∃ G, Globals t.base context G ∧ ∀ (O : Oracle W) (w : W) (py : Py), Runs O py w context t root →
      (∀ t ∈ ts, ∀ x ∈ t.doc.kids, ∀ e ∈ tagConds t.conf.opts x, Steady O e) → ∀ n : Nat,
        let r := render P O (n + 1) i context w
        let m := shown py G t root
        r.out.txt = m.text ∧ r.val = (m.res.map fun _ => ()) ∧ r.st.world = w := by
  exact ⟨globals t.base context, globals_ok _ _ hn, fun O w py hr hs n =>
    shows ts S P hc hp h i t ht root context O w py hr hs n⟩

theorem kids_root {t : Template} {root : DNode} (h : t.root? = some root) :
    ∀ x ∈ t.doc.kids, x = root ∨ ∃ d l, x = .comment d l := by
  intro x hx
  unfold Spec.DocSem.Template.root? at h
  split at h
  · next r hr =>
    cases h
    cases x with
    | comment d l => exact .inr ⟨d, l, rfl⟩
    | _ =>
      left
      refine List.mem_singleton.1 (hr ▸ List.mem_filter.2 ⟨hx, rfl⟩)
  · cases h

/-- **C67.** The same from the source of a template to the output. -/
theorem C67_source_shows (x : SourceFile) (u : Tmpl) (load : Str → Option Nat) (aliasFor : Str → Str)
    (P : Prog (List Stmt)) (hx : xmlTemplate x.py x.gen x.opts x.stripText x.dtd x.events = .ok u)
    (h : (Source.mk [(u, x.base)] load aliasFor).compile = some P) :
    ∃ t, x.template = some t ∧ (t.placed = true → ∀ (root : DNode) (context : Dict Val),
      (context.map (·.1)).Nodup → ∃ G, Globals t.base context G ∧
        ∀ (O : Oracle W) (w : W) (py : Py), Runs O py w context t root → ∀ n : Nat,
          let r := render P O (n + 1) 0 context w
          let m := shown py G t root
          r.out.txt = m.text ∧ r.val = (m.res.map fun _ => ()) ∧ r.st.world = w) := by
  unfold xmlTemplate at hx
  unfold SourceFile.template
  cases hd : parseEvents x.dtd x.events with
  | error e => rw [hd] at hx; cases hx
  | ok doc =>
    rw [hd] at hx
    let t : Template := ⟨⟨x.py, selectMode x.opts.mode (transform x.stripText doc).dtd, x.opts, x.gen⟩,
      transform x.stripText doc, x.base⟩
    refine ⟨t, rfl, fun hp root context hn => ?_⟩
    obtain ⟨G, h1, h2⟩ := C67_template_shows (W := W) [t] ⟨[(u, x.base)], load, aliasFor⟩ P
      (.cons ⟨hx, rfl⟩ .nil) (fun t ht => by rw [List.mem_singleton.1 ht]; exact hp) h 0 _ rfl root context hn
    refine ⟨G, h1, fun O w py hr n => h2 O w py hr (fun t ht y hy e he => ?_) n⟩
    cases List.mem_singleton.1 ht
    rcases kids_root hr.isRoot y hy with rfl | ⟨d, l, rfl⟩
    · exact steady_ok _ _ _ hr.ok e he
    · unfold tagConds at he
      cases he

/-! ### Examples -/

namespace PureDemo

def el (tag : String) (as : List (String × String)) (kids : List DNode) : DNode :=
  .elem tag.toList (as.map fun a => (a.1.toList, a.2.toList)) 1 kids
def txt (t : String) : DNode := .text t.toList true 1

/-- `<ul py:strip="s" class="$c"><li py:for="x in xs" py:if="x">$x</li><py:else>-</py:else></ul>`, roughly. -/
def root : DNode :=
  el "ul" [("py:strip", "s"), ("class", "$c")]
    [el "py:for" [("each", "x in xs")]
      [el "py:if" [("test", "x")] [el "li" [] [txt "$x"]], el "py:else" [] [txt "-"]],
     el "py:with" [("vars", "x=y")] [el "py:switch" [("test", "x")]
       [el "py:case" [("value", "c")] [txt "same"], el "py:nop" [] [el "py:else" [] [txt "other"]]]],
     txt "$x"]

def tm : Template := ⟨⟨fun _ => none, "xml".toList, ⟨"xml".toList, false, [], true⟩, fun _ => []⟩, ⟨[], [root]⟩, []⟩

def name (look : Look) (k : Str) : Except Err Val :=
  match look k with
  | some v => if Spec.Fill.settled v then .ok v else .error .type
  | none => .error .name

/-- Python in which expressions are names of variables, `False`, or negations of names. -/
def eval (e : Str) (look : Look) : Except Err Val :=
  if e = "False".toList then .ok (.bool false)
  else if "not (".toList.isPrefixOf e then (name look ((e.drop 5).dropLast)).map fun v => .bool (!truthy v)
  else name look e

def demo : Py where
  eval := eval
  iter _ look := match look "xs".toList with
    | some (.pairs _ l) => .ok (l.map fun kv => [("x".toList, kv.2)])
    | _ => .error .type
  block _ _ := .ok []
  tr t := t

/-- Python that does what `py` does. -/
def python (py : Py) : Oracle Unit where
  eval e v w := (py.eval e (visible v), w)
  iter e v w := (py.iter e (visible v), w)
  py ls v w := (py.block ls (visible v), w)
  args _ _ w := (.ok [], w)
  gettext _ s w := (.ok (.str (py.tr s)), w)

theorem evals (e : Str) : Evals (python demo) demo e := by
  refine ⟨fun _ _ => rfl, fun look v h => ?_⟩
  change eval e look = _ at h
  unfold eval at h
  split at h
  · cases h; rfl
  · split at h
    · cases hr : name look ((e.drop 5).dropLast) with
      | error x => rw [hr] at h; cases h
      | ok x => rw [hr] at h; cases h; rfl
    · unfold name at h
      split at h
      · split at h
        · next hs => cases h; exact hs
        · cases h
      · cases h

theorem negates : Negates (python demo) demo "s".toList := by
  refine ⟨evals _, ?_⟩
  rw [if_neg (by decide)]
  intro look
  rfl

mutual
/-- There are no functions and no other templates. -/
def check (o : Opts) : DNode → Bool
  | .elem t as _ kids =>
    !Spec.DocSem.auto o t as && [none, some "s".toList].contains (Dict.get (Spec.DocSem.plainAttrs o t as) "py:strip".toList) &&
    ![some .imp, some .ext, some .incl, some .block, some .defn, some .call].contains (Spec.DocSem.dirOf t) && checkAll o kids
  | _ => true
def checkAll (o : Opts) : List DNode → Bool
  | [] => true
  | x :: xs => check o x && checkAll o xs
end

section
variable {py : Py} (evals : ∀ e, Evals (python py) py e) (negates : Negates (python py) py "s".toList)
include evals negates

set_option linter.unusedSectionVars false in
theorem evalsText (c : CEnv) (d : Str) : EvalsText (python py) py .no c d :=
  fun _ _ => ⟨fun _ => evals _, fun _ => evals _⟩

set_option linter.unusedSectionVars false in
mutual
theorem check_ok_of (c : CEnv) : ∀ x, check c.opts x = true → Ok (python py) py .no c x
  | .text d _ _, _ => by unfold Ok; exact evalsText evals negates c d
  | .cdata d _, _ => by unfold Ok; exact evalsText evals negates c d
  | .comment _ _, _ => by unfold Ok; trivial
  | .pi _ d _, _ => by unfold Ok; exact fun _ _ => rfl
  | .elem t as ln kids, h => by
    unfold check at h
    simp only [Bool.and_eq_true, Bool.not_eq_true'] at h
    obtain ⟨⟨⟨h1, h2⟩, h3⟩, h4⟩ := h
    unfold Ok
    refine ⟨h1, fun e he => ?_, ?_, ?_⟩
    · rw [he] at h2
      have : e = "s".toList := by simpa using h2
      rw [this]
      exact negates
    · cases hd : Spec.DocSem.dirOf t with
      | none => exact ⟨fun _ _ _ _ _ => evals _, fun _ => evals _, fun _ _ => evals _⟩
      | some d =>
        rw [hd] at h3
        cases d with
        | replace => exact fun _ => evals _
        | forD => exact fun _ _ => rfl
        | withD => exact fun _ _ => evals _
        | switchD => exact evals _
        | caseD => exact evals _
        | ifD => exact evals _
        | elseD => trivial
        | nop => trivial
        | block => trivial
        | _ => exact absurd h3 (by decide)
    · have hu : ∀ d, Spec.Pure.Allowed.no.under d = .no := fun d => by
        cases d with
        | none => rfl
        | some d => cases d <;> rfl
      rw [hu]
      exact checkAll_ok c kids h4
theorem checkAll_ok (c : CEnv) : ∀ xs, checkAll c.opts xs = true → OkAll (python py) py .no c xs
  | [], _ => by unfold OkAll; trivial
  | x :: xs, h => by
    unfold checkAll at h
    rw [Bool.and_eq_true] at h
    unfold OkAll
    exact ⟨check_ok_of c x h.1, checkAll_ok c xs h.2⟩
end

end

theorem check_ok (c : CEnv) : ∀ x, check c.opts x = true → Ok (python demo) demo .no c x := check_ok_of evals negates c

def context : Dict Val :=
  [("xs".toList, .pairs [] [([], .int 1), ([], .int 0), ([], .str "<".toList)]), ("s".toList, .bool false),
   ("c".toList, .str "k".toList), ("y".toList, .str "k".toList)]

example : (shown demo (Dict.get context) tm root).text =
    "<ul class=\"k\"><li>1</li>-<li>&lt;</li>same&lt;</ul>".toList := by decide +kernel

theorem demo_runs : Runs (python demo) demo () context tm root where
  isRoot := rfl
  ok := check_ok tm.conf root (by decide +kernel)
  noCalls _ := rfl
  noBlocks := by decide +kernel
  speaks := by decide +kernel
  messages _ _ _ := rfl
  main := rfl
  free := by decide +kernel
  base := rfl

/-- The text rendering the example gives. -/
def result (context : Dict Val) : Option (Str × Except Err Unit) :=
  match compileDoc tm.conf tm.doc with
  | .ok u => (Source.mk [(u, [])] (fun _ => none) id).compile.map fun P =>
      let r := render P (python demo) 1 0 context ()
      (r.out.txt, r.val)
  | .error _ => none

example : result context = some ("<ul class=\"k\"><li>1</li>-<li>&lt;</li>same&lt;</ul>".toList, .ok ()) := by
  have h1 : (match compileDoc tm.conf tm.doc with
    | .ok u => ((Source.mk [(u, [])] (fun _ => none) id).compile).isSome
    | .error _ => false) = true := by decide +kernel
  unfold result
  cases hu : compileDoc tm.conf tm.doc with
  | error e => rw [hu] at h1; cases h1
  | ok u =>
    rw [hu] at h1
    obtain ⟨P, hP⟩ := Option.isSome_iff_exists.1 h1
    obtain ⟨h3, h4, -⟩ := shows [tm] ⟨[(u, [])], fun _ => none, id⟩ P (.cons ⟨hu, rfl⟩ .nil)
      (by decide +kernel) hP 0 tm rfl root context (python demo) () demo demo_runs (fun t ht x hx => by
        cases List.mem_singleton.1 ht
        cases List.mem_singleton.1 hx
        exact steady_ok _ _ _ demo_runs.ok) 0
    change Option.map _ ((Source.mk [(u, [])] (fun _ => none) id).compile) = _
    rw [hP, Option.map_some]
    dsimp only
    rw [h3, h4]
    decide +kernel

end PureDemo

end Kajiki.Props
