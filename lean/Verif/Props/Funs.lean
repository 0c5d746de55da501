import Verif.Lemmas.FunsChain
import Verif.Props.Document

/-!
# C71: what templates with functions show

`Verif/Spec/Funs.lean` says what a template shows that has functions and blocks and may extend other templates.
-/

namespace Kajiki.Props
open Kajiki.Run Kajiki.FunsDoc
open Kajiki.Spec.Funs (Calls Level levels shownAt Runs Globals Reserved goodFn)
open Kajiki.Spec.Layout (Child Extends)
open Kajiki.Spec.Pure (Py Look Ok OkAll Evals)
open Kajiki.Spec.DocSem (Template tagConds program rendered)
open Kajiki.Spec.Sem (Steady)

variable {W : Type}

private theorem funs_show (ts : List Template) (load : Str → Option Nat) (aliasFor : Str → Str) (i : Nat) (cs : List Child)
    (t : Template) (root : DNode) (hx : Extends ts load i cs t root) (context : Dict Val)
    (hn : (context.map (·.1)).Nodup) :
    ∃ G up, (∀ a < (levels cs t root).length, Globals (levels cs t root) context (G a)) ∧
      ∀ (O : Oracle W) (w : W) (py : Py) (C : Calls), Runs O py C context (levels cs t root) → ∀ n,
        let r := rendered (program ts load aliasFor) O n i context w
        let m := shownAt (levels cs t root) C py G up n 0
        r.out.txt = m.text ∧ r.val = m.res := by
  by_cases hex : ∃ (O : Oracle W) (_ : W) (py : Py) (C : Calls), Runs O py C context (levels cs t root)
  · obtain ⟨O₀, w₀, py₀, C₀, hr₀⟩ := hex
    have hg := good_of hr₀ hn
    obtain ⟨t', ht', -⟩ := LayoutDoc.extends_get hx
    have hcls : (program ts load aliasFor).classes[i]? = some (classOf t'.functions t'.base) := by
      unfold program
      dsimp only
      rw [List.getElem?_map, ht']
      rfl
    have hl0 : ∃ l, (levels cs t root)[0]? = some l ∧ l.t = t' := by
      cases hx with
      | layout h _ => rw [ht'] at h; cases h; exact ⟨_, rfl, rfl⟩
      | child h _ _ _ _ => rw [ht'] at h; cases h; exact ⟨_, rfl, rfl⟩
    obtain ⟨l, hl0, rfl⟩ := hl0
    have hlast : ∀ a l, (levels cs t root)[a]? = some l → (l.child = false ↔ a + 1 = (levels cs t root).length) := by
      intro a l hl
      rw [levels_last cs t root a l hl]
      simp [levels]
    obtain ⟨s₀, I, h1, h2, h3, h4, h5, h6⟩ := state_new' (context := context) hl0 hcls w₀
    obtain ⟨insts, fns, -, k2, k3⟩ := chain_run aliasFor hg O₀ py₀ C₀ hr₀ hlast hx [] 0 s₀ I rfl rfl
      fun l' body hl' hsh => by
        rw [hl0] at hl'
        cases hl'
        exact h6 body hg hsh
    refine ⟨globs insts, ups insts, k2, fun O w py C hr n => ?_⟩
    obtain ⟨next, hnext⟩ := hr.calls
    obtain ⟨s, -, e1, e2, -, -, -, -⟩ := state_new' (context := context) hl0 hcls w
    obtain ⟨q1, q2⟩ := h5 w s e1
    obtain ⟨s', any, g1, -⟩ := k3 O py C next hr hnext s q1 q2 (by rw [e2]; nofun) n
    dsimp only
    have : rendered (program ts load aliasFor) O n i context w =
        ⟨⟨(shownAt (levels cs t root) C py (globs insts) (ups insts) n 0).text, any⟩, s',
          (shownAt (levels cs t root) C py (globs insts) (ups insts) n 0).res⟩ := by
      unfold rendered
      rw [PureDoc.bind_ok e1]
      exact congrArg (fun r : Res _ _ => (⟨⟨[] ++ r.out.txt, false || r.out.any⟩, r.st, r.val⟩ : Res _ _)) g1
    rw [this]
    exact ⟨rfl, rfl⟩
  · exact ⟨fun _ k => Dict.get context k, fun _ _ => .none, fun _ _ => ⟨fun _ _ h _ => h, fun _ h _ _ _ => h⟩,
      fun O w py C hr => absurd ⟨O, w, py, C, hr⟩ hex⟩

/-- **C71.** Rendering a template that has functions (`py:def`) and blocks, and that may extend another template, which
may extend another one, and so on.  Functions have parameters and call each other and themselves, and blocks call the
blocks they replace.  The text it gives, and whether it ends with an exception, is what `shownAt` says, which is a
function of the values of variables.  A name of a function means that of the first template that has one, starting with
the one that is rendered.  `n` is how deep calls can be nested before Python raises an exception. -/
theorem C71_functions_show (ts : List Template) (S : Source) (P : Prog (List Stmt))
    (hc : List.Forall₂ (fun t u => compileDoc t.conf t.doc = .ok u.1 ∧ u.2 = t.base) ts S.tmpls)
    (hp : ∀ t ∈ ts, t.placed = true) (h : S.compile = some P) (i : Nat) (cs : List Child) (t : Template) (root : DNode)
    (hx : Extends ts S.load i cs t root) (context : Dict Val) (hn : (context.map (·.1)).Nodup) :
    ∃ G up, (∀ a < (levels cs t root).length, Globals (levels cs t root) context (G a)) ∧
      ∀ (O : Oracle W) (w : W) (py : Py) (C : Calls), Runs O py C context (levels cs t root) →
        (∀ t ∈ ts, ∀ x ∈ t.doc.kids, ∀ e ∈ tagConds t.conf.opts x, Steady O e) → ∀ n,
          let r := render P O n i context w
          let m := shownAt (levels cs t root) C py G up n 0
          r.out.txt = m.text ∧ r.val = m.res := by
  obtain ⟨G, up, h1, h2⟩ := funs_show (W := W) ts S.load S.aliasFor i cs t root hx context hn
  refine ⟨G, up, h1, fun O w py C hr hs n => ?_⟩
  have h4 := C61_rendering_is_document ts S P O hc hp h hs n i context w
  have h5 := h2 O w py C hr n
  dsimp only at h4 h5 ⊢
  rw [h4.1, h4.2.1]
  exact h5

/-! ### Examples -/

namespace FunsDemo

def el (tag : String) (as : List (String × String)) (kids : List DNode) : DNode :=
  .elem tag.toList (as.map fun a => (a.1.toList, a.2.toList)) 1 kids
def txt (t : String) : DNode := .text t.toList true 1
def bl (name : String) (kids : List DNode) : DNode := el "py:block" [("name", name)] kids
def def' (decl : String) (kids : List DNode) : DNode := el "py:def" [("function", decl)] kids
def if' (test : String) (kids : List DNode) : DNode := el "py:if" [("test", test)] kids

/-- A layout with a function that calls itself, another one, and a block. -/
def lay : DNode :=
  el "html" [] [def' "count(n)" [if' "n" [txt "$n,${count(n-1)}"]], def' "end()" [txt "."],
    bl "body" [txt "${count(x)}"], txt "${end()}"]

/-- A template that replaces the block, and one of the functions. -/
def mid : List DNode := [bl "body" [txt "[${parent_block()}]"], def' "end()" [txt "!"]]

/-- A template that replaces the block again. -/
def top : List DNode := [bl "body" [txt "(${parent_block()})"]]

def valid : PyCompile := fun s => if s.contains '}' then some (1, s.idxOf '}' + 1) else none
def tm (root : DNode) : Template :=
  ⟨⟨valid, "xml".toList, ⟨"xml".toList, false, [], true⟩, fun _ => []⟩, ⟨[], [root]⟩, []⟩
def tmLay : Template := tm lay
def tmMid : Template := tm (el "py:extends" [("href", "layout")] mid)
def tmTop : Template := tm (el "py:extends" [("href", "mid")] top)
def tms : List Template := [tmTop, tmMid, tmLay]
def load (s : Str) : Option Nat :=
  if s = "mid".toList then some 1 else if s = "layout".toList then some 2 else none
def demoLevels : List Level := levels [⟨tmTop, top⟩, ⟨tmMid, mid⟩] tmLay lay

theorem demo_extends : Extends tms load 0 [⟨tmTop, top⟩, ⟨tmMid, mid⟩] tmLay lay :=
  .child (t := tmTop) rfl rfl (by decide +kernel) (j := 1) (by decide +kernel)
    (.child (t := tmMid) rfl rfl (by decide +kernel) (j := 2) (by decide +kernel) (.layout rfl rfl))

/-- Python in which expressions are names of variables. -/
def demo : Py where
  eval e look := match look e with
    | some v => if Spec.Fill.settled v then .ok v else .error .type
    | none => .error .name
  iter _ _ := .ok []
  block _ _ := .ok []
  tr t := t

/-- Calls of the functions of the example. -/
def calls : Calls where
  callee e :=
    if "_kj_block_".toList.isPrefixOf e then some (e.take (e.length - 2), fun _ => .ok [])
    else if e = "count(n-1)".toList then some ("count".toList, fun L =>
      match L "n".toList with
      | some (.int k) => .ok [.int (k - 1)]
      | _ => .error .type)
    else if e = "count(x)".toList then some ("count".toList, fun L =>
      match L "x".toList with
      | some v => .ok [v]
      | none => .error .name)
    else if e = "end()".toList then some ("end".toList, fun _ => .ok [])
    else if e = "parent_block()".toList then some ("parent_block".toList, fun _ => .ok [])
    else none
  bind d vs :=
    if d = "count(n)".toList then (match vs with
      | [v] => .ok [("n".toList, v)]
      | _ => .error .type)
    else if vs.isEmpty then .ok [] else .error .type

/-- Python that does what `demo` does, and calls functions. -/
def pyth : Oracle Nat where
  eval e v w :=
    match calls.callee e with
    | some (f, args) =>
      match Spec.Pure.visible v f with
      | some (.fn g) =>
        match args (Spec.Pure.visible v) with
        | .ok vs => (.ok (.flatCall w g vs), w + 1)
        | .error x => (.error x, w)
      | _ => (.error .name, w)
    | none => (demo.eval e (Spec.Pure.visible v), w)
  iter e v w := (demo.iter e (Spec.Pure.visible v), w)
  py ls v w :=
    match Spec.Pure.visible v "parent".toList with
    | some (.inst p) =>
      match (v.insts[p]?).bind fun i => Dict.get i.attrs ((ls.headD []).drop 20) with
      | some x => (.ok [("parent_block".toList, x)], w)
      | none => (.error .attr, w)
    | _ => (.ok [], w)
  args d vs w := (calls.bind d vs, w)
  gettext _ s w := (.ok (.str s), w)

theorem evals {e : Str} (h : calls.callee e = none) : Evals pyth demo e := by
  refine ⟨fun v w => ?_, fun look v h => ?_⟩
  · unfold pyth
    dsimp only
    rw [h]
  · unfold demo at h
    dsimp only at h
    split at h
    · split at h
      · next hs => cases h; exact hs
      · cases h
    · cases h

def checkText (A : Spec.Pure.Allowed) (c : CEnv) (d : Str) : Bool :=
  (Spec.DocSem.cut c.py d).all fun
    | .inr e => (A.calls e || (calls.callee e).isNone) &&
      (A.calls (Spec.DocSem.resolve e) || (calls.callee (Spec.DocSem.resolve e)).isNone)
    | .inl _ => true

mutual
/-- Elements without attributes, `py:if`, blocks, functions, and text. -/
def check (A : Spec.Pure.Allowed) (c : CEnv) : DNode → Bool
  | .elem t as _ kids =>
    !Spec.DocSem.auto c.opts t as && (Dict.get (Spec.DocSem.plainAttrs c.opts t as) "py:strip".toList).isNone &&
    (match Spec.DocSem.dirOf t with
      | none => (Spec.DocSem.plainAttrs c.opts t as).isEmpty
      | some .ifD => (calls.callee (Spec.DocSem.attr as "test")).isNone
      | some .block => true
      | some .defn => A.defs && (Spec.Pure.blocksAll c.opts kids).isEmpty
      | _ => false) &&
    checkAll (A.under (Spec.DocSem.dirOf t)) c kids
  | .text d _ _ => checkText A c d
  | _ => false
def checkAll (A : Spec.Pure.Allowed) (c : CEnv) : List DNode → Bool
  | [] => true
  | x :: xs => check A c x && checkAll A c xs
end

mutual
theorem check_ok (A : Spec.Pure.Allowed) (c : CEnv) : ∀ x, check A c x = true → Ok pyth demo A c x
  | .text d _ _, h => by
    unfold check checkText at h
    unfold Ok
    intro e he
    have := List.all_eq_true.1 h _ he
    simp only [Bool.and_eq_true, Bool.or_eq_true, Option.isNone_iff_eq_none] at this
    exact ⟨fun hA => evals (this.1.resolve_left (by rw [hA]; exact Bool.false_ne_true)),
      fun hA => evals (this.2.resolve_left (by rw [hA]; exact Bool.false_ne_true))⟩
  | .cdata d _, h => by unfold check at h; cases h
  | .comment _ _, h => by unfold check at h; cases h
  | .pi _ d _, h => by unfold check at h; cases h
  | .elem t as ln kids, h => by
    unfold check at h
    simp only [Bool.and_eq_true, Bool.not_eq_true', Option.isNone_iff_eq_none] at h
    obtain ⟨⟨⟨h1, h2⟩, h3⟩, h4⟩ := h
    unfold Ok
    refine ⟨h1, fun e he => ?_, ?_, checkAll_ok _ c kids h4⟩
    · rw [h2] at he; cases he
    · cases hd : Spec.DocSem.dirOf t with
      | none =>
        rw [hd] at h3
        dsimp only at h3 ⊢
        rw [List.isEmpty_iff.1 h3]
        exact ⟨nofun, fun h => absurd rfl h, fun h => absurd rfl h⟩
      | some d =>
        rw [hd] at h3
        cases d with
        | ifD => exact evals (by simpa using h3)
        | block => trivial
        | defn =>
          dsimp only at h3
          rw [Bool.and_eq_true] at h3
          exact ⟨h3.1, List.isEmpty_iff.1 h3.2⟩
        | _ => cases h3
theorem checkAll_ok (A : Spec.Pure.Allowed) (c : CEnv) : ∀ xs, checkAll A c xs = true → OkAll pyth demo A c xs
  | [], _ => by unfold OkAll; trivial
  | x :: xs, h => by
    unfold checkAll at h
    rw [Bool.and_eq_true] at h
    unfold OkAll
    exact ⟨check_ok A c x h.1, checkAll_ok A c xs h.2⟩
end

def context : Dict Val := [("x".toList, .int 2)]

def fnames : List Str := demoLevels.flatMap fun l => l.fns.map (·.name)

theorem reserved_iff {k : Str} (h : Reserved demoLevels k) : k ∈ "parent_block".toList :: fnames := by
  rcases h with rfl | ⟨l, hl, d, hd, rfl⟩
  · exact List.mem_cons_self
  · exact List.mem_cons_of_mem _ (List.mem_flatMap.2 ⟨l, hl, List.mem_map_of_mem hd⟩)

theorem demo_runs : Runs pyth demo calls context demoLevels where
  ok a l hl := by
    match a, hl with
    | 0, hl => cases hl; exact checkAll_ok _ _ _ (by decide +kernel)
    | 1, hl => cases hl; exact checkAll_ok _ _ _ (by decide +kernel)
    | 2, hl => cases hl; exact checkAll_ok _ _ _ (by decide +kernel)
    | a + 3, hl => cases hl
  speaks := by decide +kernel
  distinct := by decide +kernel
  good l hl d hd := by
    have : ∀ l ∈ demoLevels, ∀ d ∈ l.fns, (match d with
      | .block name kids => Spec.Layout.plainName name && Spec.Layout.readable l.t.conf l.place kids
      | .defn decl kids => !(decide ((Spec.Funs.Fn.defn decl kids).name ∈ "parent_block".toList :: Spec.Layout.names)) &&
        !("_kj_block_".toList.isPrefixOf (Spec.Funs.Fn.defn decl kids).name) && Spec.Layout.readable l.t.conf l.place.fn kids)
        = true := by decide +kernel
    have := this l hl d hd
    cases d with
    | block name kids =>
      dsimp only at this
      rw [Bool.and_eq_true] at this
      exact this
    | defn decl kids =>
      dsimp only at this
      simp only [Bool.and_eq_true, Bool.not_eq_true', decide_eq_false_iff_not] at this
      exact ⟨this.1.1, by unfold Spec.Layout.BlockName; rw [this.1.2]; exact Bool.false_ne_true, this.2⟩
  messages _ _ _ := rfl
  main _ := rfl
  args _ _ _ _ _ _ := rfl
  params l hl d hd vs ρ h k hk := by
    unfold calls at h
    dsimp only at h
    split at h
    · split at h
      · cases h
        rw [Dict.get_cons, if_neg]
        · rfl
        · rintro rfl
          exact absurd (reserved_iff hk) (by decide +kernel)
      · cases h
    · split at h
      · cases h; rfl
      · cases h
  noParams name vs ρ h := by
    unfold calls at h
    dsimp only at h
    rw [if_neg] at h
    · split at h
      · cases h; rfl
      · cases h
    · intro he
      have : "_kj_block_".toList.isPrefixOf (Spec.DocSem.blockDecl name) = true := by
        unfold Spec.DocSem.blockDecl Spec.DocSem.blockName
        rw [List.append_assoc]
        exact List.isPrefixOf_iff_prefix.2 (List.prefix_append _ _)
      rw [he] at this
      exact absurd this (by decide +kernel)
  calls := by
    refine ⟨id, fun e f args v w g he hf => ?_⟩
    unfold pyth
    dsimp only
    rw [he]
    dsimp only
    rw [hf]
    cases args (Spec.Pure.visible v) with
    | error x => rfl
    | ok vs => exact ⟨w + 1, rfl, Nat.lt_succ_self _⟩
  blockCalls name := by
    have h1 : "_kj_block_".toList.isPrefixOf (Spec.DocSem.blockDecl name) = true := by
      unfold Spec.DocSem.blockDecl Spec.DocSem.blockName
      rw [List.append_assoc]
      exact List.isPrefixOf_iff_prefix.2 (List.prefix_append _ _)
    have h2 : (Spec.DocSem.blockDecl name).take ((Spec.DocSem.blockDecl name).length - 2) = Spec.DocSem.blockName name := by
      unfold Spec.DocSem.blockDecl
      have : ("()".toList).length = 2 := rfl
      rw [List.length_append, this, Nat.add_sub_cancel, List.take_left]
    unfold calls
    dsimp only
    rw [h1, if_pos rfl, h2]
  parent name v w p i x h1 h2 h3 := by
    unfold pyth
    dsimp only
    rw [h1]
    dsimp only
    have : ([Spec.Layout.parentBlock name].headD []).drop 20 = Spec.DocSem.blockName name := rfl
    rw [this, h2, Option.bind_some, h3]
  tidy := ⟨(fun e L bs h b hb => by cases h; cases hb), fun ls L b h => by cases h; exact fun _ _ => rfl⟩
  withs l hl k hk := by
    have : ∀ l ∈ demoLevels, Spec.Pure.boundAll l.t.conf.opts l.kids = [] := by decide +kernel
    rw [this l hl] at hk
    cases hk
  free k hk := by
    have : k ∈ "local".toList :: "parent_block".toList :: fnames := by
      rcases hk with rfl | hk
      · exact List.mem_cons_self
      · exact List.mem_cons_of_mem _ (reserved_iff hk)
    exact (by decide +kernel : ∀ k ∈ "local".toList :: "parent_block".toList :: fnames, Dict.get context k = none) k this
  bases l hl := by
    have : ∀ l ∈ demoLevels, l.t.base = [] := by
      intro l hl
      rcases List.mem_cons.1 hl with rfl | hl
      · rfl
      · rcases List.mem_cons.1 hl with rfl | hl
        · rfl
        · cases List.mem_singleton.1 hl; rfl
    rw [this l hl]
    exact ⟨List.nodup_nil, fun _ _ => rfl⟩

/-- What the example shows. -/
example : let G := fun (_ : Nat) => Dict.get context
    (shownAt demoLevels calls demo G (fun _ _ => .none) 9 0).text = "<html>([2,1,])!</html>".toList := by decide +kernel

/-- If calls cannot be nested that deep. -/
example : let G := fun (_ : Nat) => Dict.get context
    let m := shownAt demoLevels calls demo G (fun _ _ => .none) 8 0
    m.text = "<html>([2,1,".toList ∧ m.res.toOption = none := by decide +kernel

/-- The example is compiled. -/
example : (match compileDoc tmTop.conf tmTop.doc, compileDoc tmMid.conf tmMid.doc, compileDoc tmLay.conf tmLay.doc with
    | .ok a, .ok b, .ok c => (Source.mk [(a, []), (b, []), (c, [])] load id).compile.isSome
    | _, _, _ => false) = true := by decide +kernel

example : ∃ G up, ∀ w n, let r := rendered (program tms load id) pyth n 0 context w
    r.out.txt = (shownAt demoLevels calls demo G up n 0).text := by
  obtain ⟨G, up, -, h⟩ := funs_show (W := Nat) tms load id 0 _ _ _ demo_extends context (by decide +kernel)
  exact ⟨G, up, fun w n => (h pyth w demo calls demo_runs n).1⟩

end FunsDemo

end Kajiki.Props
