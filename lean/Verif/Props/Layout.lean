import Verif.Lemmas.LayoutChain
import Verif.Props.Document

/-!
# C70: what a page with a layout shows

`Verif/Spec/Layout.lean` says what a template shows that extends a layout, directly or through other templates.
-/

namespace Kajiki.Props
open Kajiki.Run Kajiki.Spec.Layout Kajiki.LayoutDoc
open Kajiki.Spec.Pure (Py Look Ok OkAll Evals EvalsText Shown)
open Kajiki.Spec.DocSem (Template tagConds program rendered Place)
open Kajiki.Spec.Sem (Steady)

variable {W : Type}

private theorem page_shows (ts : List Template) (load : Str → Option Nat) (aliasFor : Str → Str) (i : Nat) (cs : List Child)
    (t : Template) (root : DNode) (hx : Extends ts load i cs t root) (context : Dict Val)
    (hn : (context.map (·.1)).Nodup) :
    ∃ Gs G, Gs.length = cs.length ∧
      (∀ G' ∈ G :: Gs, Globals ((t :: cs.map (·.t)).map (·.base)) context G') ∧
      ∀ (O : Oracle W) (w : W) (py : Py), Runs O py context cs t root → ∀ n, cs.length + 1 + depth root ≤ n →
        let r := rendered (program ts load aliasFor) O n i context w
        let m := page py (cs.zip Gs) G t root
        r.out.txt = m.text ∧ r.val = m.res := by
  by_cases hex : ∃ (O : Oracle W) (_ : W) (py : Py), Runs O py context cs t root
  · obtain ⟨O₀, w₀, py₀, hr₀⟩ := hex
    obtain ⟨t', ht', hm'⟩ := extends_get hx
    have hbases : ∀ x ∈ t :: cs.map (·.t), x.base ∈ (t :: cs.map (·.t)).map (·.base) := fun x hx =>
      List.mem_map_of_mem hx
    have hcls : (program ts load aliasFor).classes[i]? = some (classOf t'.functions t'.base) := by
      unfold program
      dsimp only
      rw [List.getElem?_map, ht']
      rfl
    obtain ⟨s₀, I, h1, h2, h3, h4, h5, h6⟩ := state_new hcls hn hr₀.free (hbases t' hm') w₀
    obtain ⟨Is, IL, k1, k2, k3⟩ := chain_run aliasFor hn hr₀.free hx cs O₀ py₀ hbases hr₀ [] s₀ I rfl
      fun t'' c p bs body ht'' hsh => by
        rw [ht'] at ht''
        cases ht''
        exact h6 c p bs body hsh
    refine ⟨Is.map PureDoc.glob, PureDoc.glob IL, by simp [k1], fun G' hG' => ?_, fun O w py hr n hle => ?_⟩
    · rcases List.mem_cons.1 hG' with rfl | hG'
      · exact k2 _ List.mem_cons_self
      · obtain ⟨I', hI', rfl⟩ := List.mem_map.1 hG'
        exact k2 _ (List.mem_cons_of_mem _ hI')
    · obtain ⟨next, hnext⟩ := hr.calls
      obtain ⟨s, -, e1, e2, -, -, -, -⟩ := state_new (bases := [t'.base]) hcls hn hr₀.free List.mem_cons_self w
      obtain ⟨q1, q2⟩ := h5 w s e1
      obtain ⟨s', any, g1, -⟩ := k3 O py next hr hnext s q1 q2 (by rw [e2]; nofun) n hle
      dsimp only
      have : rendered (program ts load aliasFor) O n i context w = ⟨⟨(page py (cs.zip (Is.map PureDoc.glob)) (PureDoc.glob IL) t root).text,
          any⟩, s', (page py (cs.zip (Is.map PureDoc.glob)) (PureDoc.glob IL) t root).res⟩ := by
        unfold rendered
        rw [PureDoc.bind_ok e1]
        exact congrArg (fun r : Res _ _ => (⟨⟨[] ++ r.out.txt, false || r.out.any⟩, r.st, r.val⟩ : Res _ _)) g1
      rw [this]
      exact ⟨rfl, rfl⟩
  · have hG : Globals ((t :: cs.map (·.t)).map (·.base)) context fun k => Dict.get context k :=
      ⟨fun _ _ h _ => h, fun _ h _ _ _ => h⟩
    refine ⟨cs.map fun _ k => Dict.get context k, fun k => Dict.get context k, by simp, fun G' hG' => ?_,
      fun O w py hr => absurd ⟨O, w, py, hr⟩ hex⟩
    rcases List.mem_cons.1 hG' with rfl | hG'
    · exact hG
    · obtain ⟨-, -, rfl⟩ := List.mem_map.1 hG'
      exact hG

/-- **C70.** Rendering a template that extends a layout, directly or through any number of other templates.  The text
it gives, and whether it ends with an exception, is the layout in which each block is replaced by the block of this name
of the first of the templates that has one, starting with the one that is rendered.  What they have beside their blocks
follows. -/
theorem C70_page_shows (ts : List Template) (S : Source) (P : Prog (List Stmt))
    (hc : List.Forall₂ (fun t u => compileDoc t.conf t.doc = .ok u.1 ∧ u.2 = t.base) ts S.tmpls)
    (hp : ∀ t ∈ ts, t.placed = true) (h : S.compile = some P) (i : Nat) (cs : List Child) (t : Template) (root : DNode)
    (hx : Extends ts S.load i cs t root) (context : Dict Val) (hn : (context.map (·.1)).Nodup) :
    ∃ Gs G, Gs.length = cs.length ∧
      (∀ G' ∈ G :: Gs, Globals ((t :: cs.map (·.t)).map (·.base)) context G') ∧
      ∀ (O : Oracle W) (w : W) (py : Py), Runs O py context cs t root →
        (∀ t ∈ ts, ∀ x ∈ t.doc.kids, ∀ e ∈ tagConds t.conf.opts x, Steady O e) →
        ∀ n, cs.length + 1 + depth root ≤ n →
          let r := render P O n i context w
          let m := page py (cs.zip Gs) G t root
          r.out.txt = m.text ∧ r.val = m.res := by
  obtain ⟨Gs, G, h1, h2, h3⟩ := page_shows (W := W) ts S.load S.aliasFor i cs t root hx context hn
  refine ⟨Gs, G, h1, h2, fun O w py hr hs n hle => ?_⟩
  have h4 := C61_rendering_is_document ts S P O hc hp h hs n i context w
  have h5 := h3 O w py hr n hle
  dsimp only at h4 h5 ⊢
  rw [h4.1, h4.2.1]
  exact h5

/-! ### Examples -/

private def el (tag : String) (as : List (String × String)) (kids : List DNode) : DNode :=
  .elem tag.toList (as.map fun a => (a.1.toList, a.2.toList)) 1 kids
private def txt (t : String) : DNode := .text t.toList true 1
private def bl (name : String) (kids : List DNode) : DNode := el "py:block" [("name", name)] kids

/-- A layout with three blocks, one of them inside another one. -/
private def lay : DNode :=
  el "html" [] [bl "head" [txt "H"], bl "body" [el "p" [] [txt "$x"], bl "foot" [txt "F"]]]

/-- A template that replaces the inner one. -/
private def mid : List DNode := [bl "foot" [txt "($x)"]]

/-- A template that replaces it again, and another one, and says something beside. -/
private def top : List DNode := [bl "head" [el "b" [] [txt "T"]], txt "!"]

private def tm (root : DNode) : Template :=
  ⟨⟨fun _ => none, "xml".toList, ⟨"xml".toList, false, [], true⟩, fun _ => []⟩, ⟨[], [root]⟩, []⟩
private def tmLay : Template := tm lay
private def tmMid : Template := tm (el "py:extends" [("href", "layout")] mid)
private def tmTop : Template := tm (el "py:extends" [("href", "mid")] top)
private def tms : List Template := [tmTop, tmMid, tmLay]
private def load (s : Str) : Option Nat :=
  if s = "mid".toList then some 1 else if s = "layout".toList then some 2 else none

private theorem demo_extends : Extends tms load 0 [⟨tmTop, top⟩, ⟨tmMid, mid⟩] tmLay lay :=
  .child (t := tmTop) rfl rfl (by decide +kernel) (j := 1) (by decide +kernel)
    (.child (t := tmMid) rfl rfl (by decide +kernel) (j := 2) (by decide +kernel) (.layout rfl rfl))

/-- Python in which expressions are names of variables. -/
private def demo : Py where
  eval e look := match look e with
    | some v => if Spec.Fill.settled v then .ok v else .error .type
    | none => .error .name
  iter _ _ := .ok []
  block _ _ := .ok []
  tr t := t

/-- Python that does what `demo` does, and can call blocks. -/
private def pyth : Oracle Nat where
  eval e v w :=
    if "_kj_block_".toList.isPrefixOf e then
      match Spec.Pure.visible v (e.take (e.length - 2)) with
      | some (.fn f) => (.ok (.flatCall w f []), w + 1)
      | _ => (.error .name, w)
    else (demo.eval e (Spec.Pure.visible v), w)
  iter e v w := (demo.iter e (Spec.Pure.visible v), w)
  py ls v w := (demo.block ls (Spec.Pure.visible v), w)
  args _ _ w := (.ok [], w)
  gettext _ s w := (.ok (.str s), w)

private theorem evals {e : Str} (h : "_kj_block_".toList.isPrefixOf e = false) : Evals pyth demo e := by
  refine ⟨fun v w => ?_, fun look v h => ?_⟩
  · unfold pyth
    dsimp only
    rw [h, if_neg Bool.false_ne_true]
  · unfold demo at h
    dsimp only at h
    split at h
    · split at h
      · next hs => cases h; exact hs
      · cases h
    · cases h

private def plainText (c : CEnv) (d : Str) : Bool :=
  (Spec.DocSem.cut c.py d).all fun
    | .inr e => !"_kj_block_".toList.isPrefixOf e && !"_kj_block_".toList.isPrefixOf (Spec.DocSem.resolve e)
    | .inl _ => true

mutual
/-- Elements without attributes, blocks, and text. -/
private def check (c : CEnv) : DNode → Bool
  | .elem t as _ kids =>
    !Spec.DocSem.auto c.opts t as && (Spec.DocSem.plainAttrs c.opts t as).all (fun a => a.1 == "name".toList) &&
    ((Spec.DocSem.plainAttrs c.opts t as).isEmpty && Spec.DocSem.dirOf t == none || Spec.DocSem.dirOf t == some .block) &&
    checkAll c kids
  | .text d _ _ => plainText c d
  | _ => false
private def checkAll (c : CEnv) : List DNode → Bool
  | [] => true
  | x :: xs => check c x && checkAll c xs
end

mutual
private theorem check_ok (c : CEnv) : ∀ x, check c x = true → Ok pyth demo .no c x
  | .text d _ _, h => by
    unfold check plainText at h
    unfold Ok
    intro e he
    have := List.all_eq_true.1 h _ he
    simp only [Bool.and_eq_true, Bool.not_eq_true'] at this
    exact ⟨fun _ => evals this.1, fun _ => evals this.2⟩
  | .cdata d _, h => by unfold check at h; cases h
  | .comment _ _, h => by unfold check at h; cases h
  | .pi _ d _, h => by unfold check at h; cases h
  | .elem t as ln kids, h => by
    unfold check at h
    simp only [Bool.and_eq_true, Bool.not_eq_true', Bool.or_eq_true] at h
    obtain ⟨⟨⟨h1, h2⟩, h3⟩, h4⟩ := h
    unfold Ok
    refine ⟨h1, fun e he => ?_, ?_, ?_⟩
    · have h5 := List.all_eq_true.1 h2 _ (Dict.get_eq_some_mem he)
      simp at h5
    · rcases h3 with ⟨h5, h6⟩ | h6
      · have h6 : Spec.DocSem.dirOf t = none := by simpa using h6
        rw [h6]
        dsimp only
        rw [List.isEmpty_iff.1 h5]
        exact ⟨nofun, fun h => absurd rfl h, fun h => absurd rfl h⟩
      · have h6 : Spec.DocSem.dirOf t = some .block := by simpa using h6
        rw [h6]
        trivial
    · have hu : ∀ d, Spec.Pure.Allowed.no.under d = .no := fun d => by
        cases d with
        | none => rfl
        | some d => cases d <;> rfl
      rw [hu]
      exact checkAll_ok c kids h4
private theorem checkAll_ok (c : CEnv) : ∀ xs, checkAll c xs = true → OkAll pyth demo .no c xs
  | [], _ => by unfold OkAll; trivial
  | x :: xs, h => by
    unfold checkAll at h
    rw [Bool.and_eq_true] at h
    unfold OkAll
    exact ⟨check_ok c x h.1, checkAll_ok c xs h.2⟩
end

private def context : Dict Val := [("x".toList, .int 1)]

private theorem demo_runs : Runs pyth demo context [⟨tmTop, top⟩, ⟨tmMid, mid⟩] tmLay lay where
  okKids x hx := by
    rcases List.mem_cons.1 hx with rfl | hx
    · exact checkAll_ok _ _ (by decide +kernel)
    · cases List.mem_singleton.1 hx
      exact checkAll_ok _ _ (by decide +kernel)
  okRoot := check_ok _ _ (by decide +kernel)
  noCalls _ := rfl
  speaks := by decide +kernel
  childBlocks := by unfold goodBlocks; decide +kernel
  layoutBlocks := by unfold goodBlocks; decide +kernel
  messages _ _ _ := rfl
  args _ _ := rfl
  main _ := rfl
  calls := by
    refine ⟨id, fun name v w f hf => ⟨w + 1, ?_, Nat.lt_succ_self _⟩⟩
    unfold pyth
    dsimp only
    have h1 : "_kj_block_".toList.isPrefixOf (Spec.DocSem.blockDecl name) = true := by
      unfold Spec.DocSem.blockDecl Spec.DocSem.blockName
      rw [List.append_assoc]
      exact List.isPrefixOf_iff_prefix.2 (List.prefix_append _ _)
    have h2 : (Spec.DocSem.blockDecl name).take ((Spec.DocSem.blockDecl name).length - 2) = Spec.DocSem.blockName name := by
      unfold Spec.DocSem.blockDecl
      have : ("()".toList).length = 2 := rfl
      rw [List.length_append, this, Nat.add_sub_cancel, List.take_left]
    rw [h1, if_pos rfl, h2, hf]
    rfl
  parent _ _ _ := rfl
  tidy := ⟨(fun e L bs h b hb => by cases h; cases hb), fun ls L b h => by cases h; exact fun _ _ => rfl⟩
  withs := by unfold BlockName; decide +kernel
  layoutWiths := by unfold BlockName; decide +kernel
  free := by
    rintro k (rfl | h)
    · rfl
    · unfold context
      rw [Dict.get_cons, if_neg]
      · rfl
      · rintro rfl
        exact absurd h (by unfold BlockName; decide +kernel)
  bases x hx := by
    have : x.base = [] := by
      rcases List.mem_cons.1 hx with rfl | hx
      · rfl
      · rcases List.mem_cons.1 hx with rfl | hx
        · rfl
        · cases List.mem_singleton.1 hx; rfl
    rw [this]
    exact ⟨List.nodup_nil, fun _ _ => rfl⟩

/-- What the page shows. -/
example : let G := Dict.get context
    (page demo [(⟨tmTop, top⟩, G), (⟨tmMid, mid⟩, G)] G tmLay lay).text =
      "<html><b>T</b><p>1</p>(1)</html>!".toList := by decide +kernel

/-- The example is compiled. -/
example : (match compileDoc tmTop.conf tmTop.doc, compileDoc tmMid.conf tmMid.doc, compileDoc tmLay.conf tmLay.doc with
    | .ok a, .ok b, .ok c => (Source.mk [(a, []), (b, []), (c, [])] load id).compile.isSome
    | _, _, _ => false) = true := by decide +kernel

example : ∃ Gs G, ∀ w n, 5 ≤ n → let r := rendered (program tms load id) pyth n 0 context w
    r.out.txt = (page demo ([⟨tmTop, top⟩, ⟨tmMid, mid⟩].zip Gs) G tmLay lay).text := by
  obtain ⟨Gs, G, -, -, h⟩ := page_shows (W := Nat) tms load id 0 _ _ _ demo_extends context (by decide +kernel)
  exact ⟨Gs, G, fun w n hn => (h pyth w demo demo_runs n (by
    have : depth lay = 2 := by decide +kernel
    rw [this]
    simp only [List.length_cons, List.length_nil]
    omega)).1⟩

end Kajiki.Props
