import Verif.Lemmas.TreeRead
import Verif.Spec.TreeFuns

/-! Whole documents are read as their trees, also with functions. -/

namespace Kajiki.Trees
open Kajiki.Spec.DocSem
open Kajiki.Spec.Reader (Tree Doctype)
open Kajiki.Spec.Pure (Look Py Vars look Shown)
open Kajiki.Spec.TreeSem (Grown Format)
open Kajiki.Spec.Funs (Fn Level Calls means fnAt)

/-! ## Functions -/

section
variable {F : Format} {Rd : Str → List Tree → Prop} {ls : List Level} {C : Calls} {py : Py} {G : Nat → Look}
  {up : Nat → Str → Val} (R : ∀ l ∈ ls, Reading F l.t.conf.mode Rd)

/-- What functions show is read as their trees. -/
structure MRel (Rd : Str → List Tree → Prop) (p : Spec.Funs.Meaning) (m : Spec.TreeFuns.Meaning) : Prop where
  fn : ∀ a d args, Rel Rd (p.fn a d args) (m.fn a d args)
  above : ∀ a f args, Rel Rd (p.above a f args) (m.above a f args)

variable {p : Spec.Funs.Meaning} {m : Spec.TreeFuns.Meaning} (hm : MRel Rd p m)

theorem calls_rel {mode : Str} (R : Reading F mode Rd) (hm : MRel Rd p m) (a : Nat) (block : Option Str) :
    CallsRel Rd (Spec.Funs.pyAt ls C py p a block) (Spec.TreeFuns.calls ls C m a block) := by
  intro e
  unfold Spec.Funs.pyAt Spec.TreeFuns.calls
  dsimp only
  cases C.callee e with
  | none => exact .none
  | some fa =>
    obtain ⟨f, args⟩ := fa
    dsimp only [Option.bind_some]
    split
    · exact .some fun look => rel_next R (rel_get R _) fun _ _ => hm.above _ _ _
    · split
      · exact .none
      · cases means ls a f with
        | none => exact .none
        | some d => exact .some fun look => rel_next R (rel_get R _) fun _ _ => hm.fn _ _ _

theorem inPlace_rel {mode : Str} (R : Reading F mode Rd) (hm : MRel Rd p m) (a : Nat) (l : Level) (n : Str) :
    Option.Rel (Rel Rd) (Spec.Funs.inPlace ls p a l n) (Spec.TreeFuns.inPlace ls m a l n) := by
  unfold Spec.Funs.inPlace Spec.TreeFuns.inPlace
  cases l.child with
  | true => exact .some (rel_done R ())
  | false =>
    simp only [Bool.false_eq_true, if_false]
    cases means ls a (blockName n) with
    | none => exact .none
    | some d => exact .some (hm.fn _ _ _)

theorem content_rel {l : Level} (R : Reading F l.t.conf.mode Rd) (hm : MRel Rd p m) (a : Nat) (block : Option Str)
    {over : Str → Option (Shown Unit)} {over' : Str → Option (Grown Unit)} (ho : ∀ n, Option.Rel (Rel Rd) (over n) (over' n))
    (tag : Str) (kids : List DNode) (ρ : Vars) :
    Rel Rd ((Spec.Pure.nodes (Spec.Funs.pyAt ls C py p a block) (G a) over l.t.conf false tag kids ρ).next fun _ => .done ())
      (Spec.TreeFuns.content F ls C py G p m a l block over' tag kids ρ) :=
  rel_next R (rel_nodes R (calls_rel R hm a block) ho kids false tag ρ) fun _ _ => rel_done R ()

include R

theorem body_rel (hnil : Rd [] []) (hm : MRel Rd p m) (a : Nat) (d : Fn) (args : List Val) :
    Rel Rd (Spec.Funs.body ls C py G up p a d args) (Spec.TreeFuns.body F ls C py G up p m a d args) := by
  unfold Spec.Funs.body Spec.TreeFuns.body
  cases hl : ls[a]? with
  | none => exact ⟨rfl, fun ts h _ _ => by cases h; exact hnil⟩
  | some l =>
    have R := R l (List.mem_of_getElem? hl)
    dsimp only
    refine rel_next R (rel_get R _) fun ρ _ => ?_
    cases d with
    | defn decl kids => exact content_rel R hm a none (inPlace_rel R hm a l) _ kids ρ
    | block name kids =>
      dsimp only
      split
      · exact content_rel R hm a (some name) (fun _ => .some (rel_done R ())) _ kids _
      · exact content_rel R hm a none (inPlace_rel R hm a l) _ kids _

theorem meaning_rel (hnil : Rd [] []) (n : Nat) :
    MRel Rd (Spec.Funs.meaning ls C py G up n) (Spec.TreeFuns.meaning F ls C py G up n) := by
  induction n with
  | zero => exact ⟨fun _ _ _ => ⟨rfl, fun _ _ _ h => by cases h⟩, fun _ _ _ => ⟨rfl, fun _ _ _ h => by cases h⟩⟩
  | succ n ih =>
    refine ⟨fun a d args => body_rel R hnil ih a d args, fun a f args => ?_⟩
    unfold Spec.Funs.meaning Spec.TreeFuns.meaning
    dsimp only
    cases fnAt ls a f with
    | none => exact ih.above _ _ _
    | some d => exact body_rel R hnil ih a d args

end

/-! ## Whole documents -/

/-- How whole documents are read. -/
structure Top (Rd D : Str → List Tree → Prop) : Prop where
  of : ∀ {t ts}, Rd t ts → D t ts
  append : ∀ {a b x y}, D a x → D b y → D (a ++ b) (x ++ y)

section
variable {F : Format} {Rd D : Str → List Tree → Prop}

theorem top_next {α β : Type} (T : Top Rd D) {m : Shown α} {g : Grown α} {f : α → Shown β} {k : α → Grown β} (h : Rel D m g)
    (h' : ∀ a, m.res = .ok a → Rel Rd (f a) (k a)) : Rel D (m.next f) (g.next k) := by
  unfold Shown.next Grown.next
  rw [h.res]
  cases hr : m.res with
  | error e => exact ⟨rfl, fun _ _ _ h => by cases h⟩
  | ok a =>
    refine ⟨(h' a hr).res, fun ts ht b hb => ?_⟩
    simp only [Option.bind_eq_some_iff, Option.map_eq_some_iff] at ht
    obtain ⟨x, hx, y, hy, rfl⟩ := ht
    exact T.append (h.read x hx a hr) (T.of ((h' a hr).read y hy b hb))

/-- The DOCTYPE and the line end after it. -/
def doctypeTree (s : Str) : List Tree := if s = [] then [] else [.text ['\n']]

theorem shown_rel {t : Template} (T : Top Rd D) (R : Reading F t.conf.mode Rd) {root : DNode} {py : Py}
    (hc : ∀ e, py.call e = none) (G : Look) (hd : D (t.doctype root) (doctypeTree (t.doctype root))) :
    Rel D (Spec.Pure.shown py G t root) (Spec.TreeSem.grown F py G t root) := by
  unfold Spec.Pure.shown Spec.TreeSem.grown
  refine top_next T ⟨rfl, fun ts h _ _ => by cases h; exact hd⟩ fun _ _ => ?_
  refine rel_node R (fun e => ?_) (fun _ => .none) root _ _ (fun ρ => rel_done R ρ) [] []
  rw [hc e]
  exact .none

theorem shownAt_rel {ls : List Level} (T : Top Rd D) (R : ∀ l ∈ ls, Reading F l.t.conf.mode Rd) (hnil : Rd [] [])
    {C : Calls} {py : Py} {G : Nat → Look} {up : Nat → Str → Val}
    (hd : ∀ l ∈ ls, D ((l.t.root?.map l.t.doctype).getD []) (doctypeTree ((l.t.root?.map l.t.doctype).getD []))) (n : Nat) :
    ∀ a, Rel D (Spec.Funs.shownAt ls C py G up n a) (Spec.TreeFuns.grownAt F ls C py G up n a) := by
  induction n with
  | zero => exact fun a => ⟨rfl, fun _ _ _ h => by cases h⟩
  | succ n ih =>
    intro a
    unfold Spec.Funs.shownAt Spec.TreeFuns.grownAt
    cases hl : ls[a]? with
    | none => exact ⟨rfl, fun ts h _ _ => by cases h; exact T.of hnil⟩
    | some l =>
      have hl' := List.mem_of_getElem? hl
      have R' := R l hl'
      have hm := meaning_rel (C := C) (py := py) (G := G) (up := up) R hnil n
      dsimp only
      refine top_next T ?_ fun _ _ => content_rel R' hm a none (inPlace_rel R' hm a l) _ l.kids []
      split
      · exact ih (a + 1)
      · exact ⟨rfl, fun ts h _ _ => by cases h; exact hd l hl'⟩

end

/-! ## XML -/

theorem top_xml : Top Xml Xml := ⟨id, reading_xml.append⟩

theorem xml_doctype {s : Str} (hs : Doctype s) : Xml (s ++ ['\n']) [.text ['\n']] := by
  intro h up
  refine ⟨[.text ['\n']], Reads.feed_then (Reads.read_doctype h up s hs) (Reads.feed_one ?_), Reads.Same.refl _⟩
  simp [Spec.Reader.State.step, Spec.Reader.State.add]

theorem doctype_cases {t : Template} {root : DNode} (hd : t.doc.dtd = [] ∨ Doctype (strip t.doc.dtd)) :
    t.doctype root = [] ∨ ∃ s, Doctype s ∧ t.doctype root = s ++ ['\n'] := by
  unfold Template.doctype
  split
  · exact .inl rfl
  · split
    · next h1 =>
      refine .inr ⟨_, hd.resolve_left ?_, rfl⟩
      simpa using h1
    · split
      · exact .inr ⟨_, ⟨" html".toList, rfl, by decide +kernel⟩, rfl⟩
      · exact .inl rfl

theorem xml_doctype_tree {t : Template} {root : DNode} (hd : t.doc.dtd = [] ∨ Doctype (strip t.doc.dtd)) :
    Xml (t.doctype root) (doctypeTree (t.doctype root)) := by
  unfold doctypeTree
  rcases doctype_cases (root := root) hd with h | ⟨s, hs, h⟩
  · rw [h, if_pos rfl]
    exact reading_xml.nil
  · rw [h, if_neg (by simp)]
    exact xml_doctype hs

theorem xml_read {s : Str} {ts : List Tree} (h : Xml s ts) (hl : ∀ c ∈ s, Spec.Reader.legal c = true ∧ c ≠ '\r') :
    Spec.Reader.read s = some (Spec.Reader.joined ts) := by
  have hall : s.all Spec.Reader.legal = true := List.all_eq_true.2 fun c hc => (hl c hc).1
  have hcr : '\r' ∉ s := fun hc => (hl _ hc).2 rfl
  obtain ⟨k, h1, h2⟩ := h [] []
  unfold Spec.Reader.read
  rw [if_pos hall, Reads.line_ends hcr, h1]
  dsimp only
  rw [List.append_nil, List.reverse_reverse, h2.joined_eq]

/-! ## HTML -/

/-- How a whole document is read in HTML. -/
def Html0 (t : Str) (ts : List Tree) : Prop :=
  ∀ h, ∃ k, (Spec.HtmlReader.State.mk .content false h).feed t = some ⟨.content, false, k.reverse ++ h⟩ ∧
    ReadsHtml.Same k (Spec.TreeSem.flattenAll ts)

theorem top_html : Top Html Html0 where
  of h := fun out => h.2 false out nofun
  append ha hb := by
    intro h
    obtain ⟨k, h1, h2⟩ := ha h
    obtain ⟨k', h3, h4⟩ := hb (k.reverse ++ h)
    rw [flattenAll_append]
    exact ⟨k ++ k', (ReadsHtml.feed_then h1 h3).trans (by simp), h2.append h4⟩

theorem html_doctype_tree {t : Template} {root : DNode} (hd : t.doc.dtd = [] ∨ Doctype (strip t.doc.dtd)) :
    Html0 (t.doctype root) (doctypeTree (t.doctype root)) := by
  intro h
  unfold doctypeTree
  rcases doctype_cases (root := root) hd with h1 | ⟨s, hs, h1⟩
  · rw [h1, if_pos rfl]
    exact ⟨[], rfl, ReadsHtml.Same.refl _⟩
  · rw [h1, if_neg (by simp)]
    refine ⟨[.chars ['\n']], ReadsHtml.feed_then (ReadsHtml.read_doctype h s hs) (ReadsHtml.feed_one ?_), ReadsHtml.Same.refl _⟩
    simp [Spec.HtmlReader.State.step, Spec.HtmlReader.State.add]

theorem html_read {s : Str} {ts : List Tree} (h : Html0 s ts) (hl : ∀ c ∈ s, Spec.Reader.legal c = true ∧ c ≠ '\r') :
    Spec.HtmlReader.tokens s = some (Spec.HtmlReader.joined (Spec.TreeSem.flattenAll ts)) := by
  have hall : s.all Spec.Reader.legal = true := List.all_eq_true.2 fun c hc => (hl c hc).1
  have hcr : '\r' ∉ s := fun hc => (hl _ hc).2 rfl
  obtain ⟨k, h1, h2⟩ := h []
  unfold Spec.HtmlReader.tokens
  rw [if_pos hall, Reads.line_ends hcr, h1]
  dsimp only
  rw [List.append_nil, List.reverse_reverse, h2.joined_eq]

end Kajiki.Trees
