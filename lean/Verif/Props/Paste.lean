import Verif.Lemmas.Paste
import Verif.Props.Include

/-!
# C83: including is pasting

A `py:include` shows what it would show to have the root element of the included template in its place, if the two do not
look at each other's local variables (`Verif/Spec/Paste.lean`).
-/

namespace Kajiki.Props
open Kajiki.Run Kajiki.Spec.Pure Kajiki.PureDoc Kajiki.Spec.Paste Kajiki.PasteL
open Kajiki.Spec.DocSem (Template)

variable {W : Type}

private theorem no_child {O : Oracle W} {py : Py} {load : Str → Option Nat} {aliasFor : Str → Str} {H : Str → Bool}
    {context : Dict Val} {ts : List Template} (hr : Spec.Include.Runs O py load aliasFor H context ts) :
    ∀ t ∈ ts, ∀ root, t.root? = some root → (Spec.DocSem.after t.conf.opts .root root).child = false := by
  intro t ht root hroot
  obtain ⟨root', hf⟩ := hr.fits t ht
  rw [hf.isRoot] at hroot
  cases hroot
  rw [after_ok _ _ _ _ hf.ok]
  rfl

/-- **C83.** Two sets of templates, where the second is the first with some `py:include`s, in any templates and at any
depth, replaced by the root elements of the templates they include.  Any template of the first set gives the same text and
the same exception as the one of the second, unless rendering fails because of the limit of nested calls; the second
needs no higher limit. -/
theorem C83_including_is_pasting (ts ts' : List Template) (S S' : Source) (P P' : Prog (List Stmt))
    (hc : List.Forall₂ (fun t u => compileDoc t.conf t.doc = .ok u.1 ∧ u.2 = t.base) ts S.tmpls)
    (hc' : List.Forall₂ (fun t u => compileDoc t.conf t.doc = .ok u.1 ∧ u.2 = t.base) ts' S'.tmpls)
    (hp : ∀ t ∈ ts, t.placed = true) (hp' : ∀ t ∈ ts', t.placed = true) (h : S.compile = some P)
    (h' : S'.compile = some P') (hl : S'.load = S.load) (i : Nat) (hi : i < ts.length) (context : Dict Val) (O : Oracle W)
    (py : Py) (H H' : Str → Bool) (hr : Spec.Include.Runs O py S.load S.aliasFor H context ts)
    (hr' : Spec.Include.Runs O py S'.load S'.aliasFor H' context ts')
    (hP : List.Forall₂ (Pasted py ts S.load) ts ts') (n n' : Nat) (hn : n ≤ n') (w : W) :
    let r := render P O n i context w
    let r' := render P' O n' i context w
    r.val ≠ .error .recursion → r'.out.txt = r.out.txt ∧ r'.val = r.val ∧ r'.st.world = r.st.world := by
  have hi' : i < ts'.length := hP.length_eq ▸ hi
  obtain ⟨a1, a2, a3⟩ := included_shows ts S P hc hp h i _ (List.getElem?_eq_getElem hi) context O py H hr n w
  obtain ⟨b1, b2, b3⟩ := included_shows ts' S' P' hc' hp' h' i _ (List.getElem?_eq_getElem hi') context O py H' hr' n' w
  have hbase : (ts'[i]).base = (ts[i]).base := by
    obtain ⟨⟨f, names, left, hpt, -⟩⟩ := hP.get hi hi'
    rw [List.get_eq_getElem, List.get_eq_getElem] at hpt
    rw [hpt]
    rfl
  rw [hl, hbase] at b1 b2
  have key := shownIn_rel (G := globals (ts[i]).base context) hr.noCalls hP
    (fun t ht => (hr.fits t ht).imp fun _ hf => hf.isRoot)
    (fun t ht => (List.mem_append.1 ht).elim (no_child hr t) (no_child hr' t)) n n' hn i
  dsimp only
  rw [a1, a2, a3, b1, b2, b3]
  intro hrec
  rcases key with key | ⟨k1, k2⟩
  · exact absurd key.2 hrec
  · refine ⟨k1.symm, ?_, rfl⟩
    revert k2
    unfold Same
    split
    · next e1 e2 => intro _; rw [e1, e2]
    · next e1 e2 => intro hh; rw [e1, e2, hh]
    · exact False.elim

/-- **C83.** Templates that set no local variables can be pasted into others that set none, whatever variables they look
at. -/
theorem C83_without_local_variables (ts : List Template) (load : Str → Option Nat) (py : Py) (t : Template)
    (f : Str → Option DNode) (ht : ∀ root, t.root? = some root → Sets py (fun _ => False) root)
    (hf : ∀ href r, f href = some r → ∃ i u, load href = some i ∧ ts[i]? = some u ∧ u.root? = some r ∧
      (∃ tag as l kids, r = .elem tag as l kids ∧ Spec.DocSem.dirOf tag = none) ∧ u.doctype r = [] ∧
      SameOptions u.conf t.conf ∧ (∀ k, Dict.get u.base k = Dict.get t.base k) ∧ Sets py (fun _ => False) r) :
    Pasted py ts load t (pasted f t) := by
  refine ⟨⟨f, fun _ => False, fun _ => False, rfl, fun _ h => h, fun root hr => ⟨careful_nothing _ _ _, ht root hr⟩,
    fun href r h => ?_⟩⟩
  obtain ⟨i, u, h1, h2, h3, h4, h5, h6, h7, h8⟩ := hf href r h
  exact ⟨i, u, h1, h2, h3, h4, h5, h6, h7, careful_nothing _ _ _, h8⟩

/-! ### Examples

A page that includes an item in a loop; the item has a loop with the same variable. -/

namespace PasteDemo
open PureDemo (el txt)
open IncludeDemo (tm load aliasFor files demo context again check fits loaded own mask mask_eq)

def item : DNode := el "b" [] [el "py:for" [("each", "x in xs")] [txt "$x"]]

def page : DNode :=
  el "div" [] [el "py:for" [("each", "x in xs")] [txt "-", el "py:include" [("href", "item.html")] []], txt "$c"]

def f (href : Str) : Option DNode := if href = "item.html".toList then some item else none

def ts : List Template := [tm page false, tm item true, tm again true]
def ts' : List Template := [pasted f (tm page false), tm item true, tm again true]

example : pasted f (tm page false) = tm (el "div" [] [el "py:for" [("each", "x in xs")] [txt "-", item], txt "$c"]) false := by
  rfl

def isX (k : Str) : Prop := k = "x".toList

theorem ignores_c (hid : Str → Prop) (h : ∀ k, hid k → isX k) : Ignores hid (demo.eval "c".toList) := by
  intro L L' hL
  have hc : mask L "c".toList = mask L' "c".toList := by
    unfold mask
    rw [hL "c".toList fun hh => absurd (h _ hh) (by unfold isX; decide +kernel)]
  change PureDemo.eval "c".toList (mask L) = PureDemo.eval "c".toList (mask L')
  unfold PureDemo.eval
  rw [if_neg (by decide +kernel), if_neg (by decide +kernel), if_neg (by decide +kernel), if_neg (by decide +kernel)]
  unfold PureDemo.name
  rw [hc]

theorem ignores_iter (e : Str) (hid : Str → Prop) (h : ∀ k, hid k → isX k) : Ignores hid (demo.iter e) := by
  intro L L' hL
  have hc : mask L "xs".toList = mask L' "xs".toList := by
    unfold mask
    rw [hL "xs".toList fun hh => absurd (h _ hh) (by unfold isX; decide +kernel)]
  change (match mask L "xs".toList with | some (.pairs _ l) => _ | _ => _) = match mask L' "xs".toList with | some (.pairs _ l) => _ | _ => _
  rw [hc]

theorem iter_sets {e : Str} {L : Look} {bs : List (Dict Val)} (h : demo.iter e L = .ok bs) {b : Dict Val} (hb : b ∈ bs) :
    ∃ v, b = [("x".toList, v)] := by
  unfold demo PureDemo.demo at h
  dsimp only at h
  split at h
  · cases h
    obtain ⟨kv, -, rfl⟩ := List.mem_map.1 hb
    exact ⟨_, rfl⟩
  · cases h

theorem x_hidden : (fun k => isX k ∧ ¬isX k) = fun _ => False := funext fun k => by simp

theorem cut_c : Spec.DocSem.cut (tm page false).conf.py "$c".toList = [.inr "c".toList] := by decide +kernel
theorem cut_dash : Spec.DocSem.cut (tm page false).conf.py "-".toList = [.inl "-".toList] := by decide +kernel
theorem dir_for : Spec.DocSem.dirOf "py:for".toList = some .forD := by decide +kernel
theorem dir_incl : Spec.DocSem.dirOf "py:include".toList = some .incl := by decide +kernel

/-- An ordinary element without attributes. -/
theorem careful_el {left glob : Str → Prop} {c : CEnv} {hid : Str → Prop} {tag : Str} {kids : List DNode} (hd : Spec.DocSem.dirOf tag = none)
    (h : CarefulAll demo left glob c hid kids) : Careful demo left glob c hid (.elem tag [] 1 kids) := by
  rw [Careful, hd]
  have hp : Spec.DocSem.plainAttrs c.opts tag [] = [] := by unfold Spec.DocSem.plainAttrs; split <;> rfl
  dsimp only
  rw [hp]
  exact ⟨nofun, nofun, fun hh => absurd rfl hh, fun hh => absurd rfl hh, h⟩

theorem item_careful : Careful demo (fun _ => False) (fun _ => False) (tm item true).conf isX item := by
  refine careful_el (by decide +kernel) ?_
  unfold CarefulAll CarefulAll
  refine ⟨?_, trivial⟩
  unfold el
  rw [Careful, dir_for]
  refine ⟨ignores_iter _ _ fun _ h => h, isX, fun L bs h b hb k hk => ?_, ?_⟩
  · obtain ⟨v, rfl⟩ := iter_sets h hb
    rw [hk, Dict.get, if_pos rfl]
    nofun
  · rw [x_hidden]
    exact carefulAll_nothing _ _ _

theorem page_careful : Careful demo isX (fun _ => False) (tm page false).conf isX page := by
  refine careful_el (by decide +kernel) ?_
  unfold CarefulAll CarefulAll CarefulAll
  refine ⟨?_, ?_, trivial⟩
  · unfold el
    rw [Careful, dir_for]
    refine ⟨ignores_iter _ _ fun _ h => h, fun _ => False, fun _ _ _ _ _ _ h => h.elim, ?_⟩
    unfold CarefulAll CarefulAll CarefulAll
    refine ⟨?_, ?_, trivial⟩
    · unfold txt Careful
      rw [cut_dash]
      intro e he
      simp at he
    · rw [Careful]
      change (match Spec.DocSem.dirOf "py:include".toList with | _ => _)
      rw [dir_incl]
      exact fun k hk => ⟨hk, id⟩
  · unfold txt Careful
    rw [cut_c]
    intro e he
    have he : e = "c".toList := by simpa using he
    subst he
    have hres : Spec.DocSem.resolve "c".toList = "c".toList := by decide +kernel
    rw [hres]
    exact ⟨ignores_c _ fun _ h => h, ignores_c _ fun _ h => h⟩

mutual
/-- There are no Python blocks and no `py:with`. -/
def onlyLoops : DNode → Bool
  | .pi .. => false
  | .elem t _ _ kids => Spec.DocSem.dirOf t != some .withD && onlyLoopsAll kids
  | _ => true
def onlyLoopsAll : List DNode → Bool
  | [] => true
  | x :: xs => onlyLoops x && onlyLoopsAll xs
end

mutual
theorem sets_x : ∀ x, onlyLoops x = true → Sets demo isX x
  | .text .., _ => by unfold Sets; trivial
  | .cdata .., _ => by unfold Sets; trivial
  | .comment .., _ => by unfold Sets; trivial
  | .pi .., h => by unfold onlyLoops at h; cases h
  | .elem t as l kids, h => by
    unfold onlyLoops at h
    rw [Bool.and_eq_true] at h
    unfold Sets
    refine ⟨fun _ L bs hb b hm k hk => ?_, fun hw => ?_, setsAll_x kids h.2⟩
    · obtain ⟨v, rfl⟩ := iter_sets hb hm
      rw [Dict.get, if_neg fun hh => hk hh.symm]
      rfl
    · rw [hw] at h
      exact absurd h.1 (by decide)
theorem setsAll_x : ∀ xs, onlyLoopsAll xs = true → SetsAll demo isX xs
  | [], _ => by unfold SetsAll; trivial
  | x :: xs, h => by
    unfold onlyLoopsAll at h
    rw [Bool.and_eq_true] at h
    unfold SetsAll
    exact ⟨sets_x x h.1, setsAll_x xs h.2⟩
end

theorem demo_pasted : List.Forall₂ (Pasted demo ts load) ts ts' := by
  refine .cons ⟨⟨f, isX, isX, rfl, fun _ h => h, fun root hr => ?_, fun href r h => ?_⟩⟩
    (.cons (pasted_refl _ _ _ _) (.cons (pasted_refl _ _ _ _) .nil))
  · have : root = page := by
      have h1 : (tm page false).root? = some page := rfl
      rw [h1] at hr
      cases hr
      rfl
    subst this
    exact ⟨page_careful, sets_x _ (by decide +kernel)⟩
  · unfold f at h
    split at h
    · next hh =>
      subst hh
      cases h
      exact ⟨1, tm item true, by decide +kernel, rfl, rfl, ⟨_, _, _, _, rfl, by decide +kernel⟩, rfl, ⟨rfl, rfl, rfl, rfl⟩,
        fun _ => rfl, item_careful, sets_x _ (by decide +kernel)⟩
    · cases h

/-- Pages of this kind run. -/
theorem runs (root : DNode) (h1 : check (tm root false).conf.opts root = true)
    (h2 : Spec.Pure.blocks (tm root false).conf.opts root = []) (h3 : Spec.DocSem.speaks (tm root false).conf .root root = true)
    (h4 : (tm root false).root? = some root) :
    Spec.Include.Runs (PureDemo.python demo) demo load aliasFor files context [tm root false, tm item true, tm again true] :=
  { IncludeDemo.demo_runs with
    fits := fun t ht => by
      simp only [List.mem_cons, List.not_mem_nil, or_false] at ht
      rcases ht with rfl | rfl | rfl
      · exact ⟨root, fits _ _ h1 h2 h3 h4⟩
      · exact ⟨item, fits _ _ (by decide +kernel) (by decide +kernel) (by decide +kernel) rfl⟩
      · exact ⟨again, fits _ _ (by decide +kernel) (by decide +kernel) (by decide +kernel) rfl⟩ }

example : Spec.Include.Runs (PureDemo.python demo) demo load aliasFor files context ts :=
  runs page (by decide +kernel) (by decide +kernel) (by decide +kernel) rfl
example : Spec.Include.Runs (PureDemo.python demo) demo load aliasFor files context ts' :=
  runs (paste f page) (by decide +kernel) (by decide +kernel) (by decide +kernel) rfl

example : (Spec.Include.shownIn ts load demo (Dict.get context) 2 0).text = "<div>-<b>1&lt;</b>-<b>1&lt;</b>k</div>".toList ∧
    (Spec.Include.shownIn ts' load demo (Dict.get context) 1 0).text = "<div>-<b>1&lt;</b>-<b>1&lt;</b>k</div>".toList := by
  constructor <;> decide +kernel

/-- Why local variables matter: the item of the example of C76 shows the variable `x` of the context, but when it is
pasted that of the loop. -/
example :
    let f := fun href => if href = "item.html".toList then some IncludeDemo.item else none
    let us := [pasted f (tm IncludeDemo.page false), tm IncludeDemo.item true, tm again true]
    (Spec.Include.shownIn IncludeDemo.ts load demo (Dict.get context) 2 0).text ≠
      (Spec.Include.shownIn us load demo (Dict.get context) 2 0).text := by decide +kernel

/-- Templates without loops. -/
example : Sets demo (fun _ => False) (el "b" [("class", "$c")] [txt "$x"]) := by
  unfold el txt Sets SetsAll SetsAll Sets
  refine ⟨fun h => ?_, fun h => ?_, trivial, trivial⟩
  · exact absurd h (by decide +kernel)
  · exact absurd h (by decide +kernel)

end PasteDemo

end Kajiki.Props
