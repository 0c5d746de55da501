import Verif.Lemmas.StaticDom
import Verif.Spec.Accept

/-! Documents without directives are accepted, and what rendering them gives. -/

namespace Kajiki.StaticDoc
open Kajiki.Run Kajiki.Spec.Static Kajiki.Spec.DocSem Kajiki.Spec.Accept
open Kajiki.Spec.XmlText (doubled)

/-! ## Places -/

mutual
/-- There are no directives. -/
def Bare (o : Opts) : DNode → Prop
  | .pi _ _ _ => False
  | .elem t as _ kids =>
    reserved t = false ∧ (∀ kv ∈ as, reserved kv.1 = false) ∧ o.autoblocks.contains t = false ∧ BareAll o kids
  | _ => True

/-- The same for several nodes. -/
def BareAll (o : Opts) : List DNode → Prop
  | [] => True
  | x :: xs => Bare o x ∧ BareAll o xs
end

mutual
theorem lit_bare (o : Opts) : ∀ x, Lit o x → Bare o x
  | .text _ _ _, _ => trivial
  | .cdata _ _, _ => trivial
  | .comment _ _, _ => trivial
  | .pi _ _ _, h => h
  | .elem _ _ _ kids, h => ⟨h.1, fun kv hkv => (h.2.1 kv hkv).1, h.2.2.2.1, lit_bareAll o kids h.2.2.2.2.2⟩

theorem lit_bareAll (o : Opts) : ∀ xs, LitAll o xs → BareAll o xs
  | [], _ => trivial
  | x :: xs, h => ⟨lit_bare o x h.1, lit_bareAll o xs h.2⟩
end

mutual
theorem after_bare (o : Opts) (p : Place) : ∀ x, Bare o x → after o p x = p
  | .text _ _ _, _ => by unfold after; rfl
  | .cdata _ _, _ => by unfold after; rfl
  | .comment _ _, _ => by unfold after; rfl
  | .pi _ _ _, _ => by unfold after; rfl
  | .elem t as ln kids, h => by
    obtain ⟨h1, -, h4, h6⟩ := h
    unfold after
    rw [auto_plain h4, if_neg Bool.false_ne_true, dirOf_plain h1]
    dsimp only
    rw [afterAll_bare o p kids h6, ite_self]

theorem afterAll_bare (o : Opts) (p : Place) : ∀ xs, BareAll o xs → afterAll o p xs = p
  | [], _ => by rw [afterAll]
  | x :: xs, h => by rw [afterAll, after_bare o p x h.1, afterAll_bare o p xs h.2]
end

mutual
theorem defs_bare (c : CEnv) (p : Place) : ∀ x, Bare c.opts x → defs c p x = []
  | .text _ _ _, _ => by unfold defs; rfl
  | .cdata _ _, _ => by unfold defs; rfl
  | .comment _ _, _ => by unfold defs; rfl
  | .pi _ _ _, _ => by unfold defs; rfl
  | .elem t as ln kids, h => by
    obtain ⟨h1, -, h4, h6⟩ := h
    unfold defs
    rw [auto_plain h4, if_neg Bool.false_ne_true, dirOf_plain h1]
    dsimp only
    rw [defsAll_bare c p kids h6, ite_self]

theorem defsAll_bare (c : CEnv) (p : Place) : ∀ xs, BareAll c.opts xs → defsAll c p xs = []
  | [], _ => by rw [defsAll]
  | x :: xs, h => by rw [defsAll, defs_bare c p x h.1, after_bare c.opts p x h.1, defsAll_bare c p xs h.2]; rfl
end

mutual
theorem placed_bare (o : Opts) (sw : Sw) (prev : Str) : ∀ x, Bare o x → placed o sw prev x = some sw
  | .text _ _ _, _ => by unfold placed; rfl
  | .cdata _ _, _ => by unfold placed; rfl
  | .comment _ _, _ => by unfold placed; rfl
  | .pi _ _ _, _ => by unfold placed; rfl
  | .elem t as ln kids, h => by
    obtain ⟨h1, -, h4, h6⟩ := h
    unfold placed
    rw [auto_plain h4, if_neg Bool.false_ne_true, dirOf_plain h1]
    dsimp only
    rw [placedAll_bare o .no [] kids h6]
    unfold reserved at h1
    rw [h1]
    simp

theorem placedAll_bare (o : Opts) (sw : Sw) (prev : Str) : ∀ xs, BareAll o xs → placedAll o sw prev xs = some sw
  | [], _ => by rw [placedAll]
  | x :: xs, h => by rw [placedAll, placed_bare o sw prev x h.1, Option.bind_some, placedAll_bare o sw _ xs h.2]
end

mutual
theorem tagConds_bare (o : Opts) : ∀ x, Bare o x → tagConds o x = []
  | .text _ _ _, _ => by unfold tagConds; rfl
  | .cdata _ _, _ => by unfold tagConds; rfl
  | .comment _ _, _ => by unfold tagConds; rfl
  | .pi _ _ _, _ => by unfold tagConds; rfl
  | .elem t as ln kids, h => by
    obtain ⟨-, h2, h4, h6⟩ := h
    unfold tagConds
    rw [plainAttrs_plain h4, keepTag_plain h2, tagCondsAll_bare o kids h6]
    rfl

theorem tagCondsAll_bare (o : Opts) : ∀ xs, BareAll o xs → tagCondsAll o xs = []
  | [], _ => by rw [tagCondsAll]
  | x :: xs, h => by rw [tagCondsAll, tagConds_bare o x h.1, tagCondsAll_bare o xs h.2]; rfl
end

/-! ## Acceptance -/

theorem scans_lit (py : PyCompile) (u : Str) : scans py (doubled u) = true := by
  unfold scans
  rw [scans_doubled]
  rfl

theorem scans_enc (py : PyCompile) (e : Bool) (t : Str) : scans py (enc e t) = true := by
  obtain ⟨u, hu⟩ := enc_doubled e t
  rw [hu]
  exact scans_lit py u

theorem scriptAccepted_lit (c : CEnv) : ∀ xs, LitAll c.opts xs → (∀ x ∈ xs, isTextD x = true) →
    scriptAccepted c xs = true
  | [], _, _ => rfl
  | x :: xs, h, ht => by
    have ih := scriptAccepted_lit c xs h.2 fun y hy => ht y (by simp [hy])
    have hx := ht x (by simp)
    cases x with
    | cdata d l => rw [scriptAccepted]; exact ih
    | text d e l =>
      obtain ⟨t, rfl⟩ := h.1
      rw [scriptAccepted, scans_enc, ih, Bool.true_and, Bool.and_true]
      cases e with
      | false => rfl
      | true =>
        change (_ || (cut c.py (doubled (saxEscape t))).all resolvable) = true
        rw [cut_doubled, segs_saxEscape]
        simp only [Bool.not_true, Bool.false_or, List.all_map, List.all_eq_true]
        intro s _
        change fine (unescape (saxEscape s)) = true
        rw [unescape_saxEscape]
        rfl
    | _ => cases hx

theorem has_reserved {as : Dict Str} (h : ∀ kv ∈ as, reserved kv.1 = false) {k : Str} (hk : reserved k = true) :
    Dict.has as k = false := by
  unfold Dict.has
  rw [get_reserved h hk]
  rfl

mutual
theorem accepted_lit (c : CEnv) (p : Place) (parent : Option Str) (sw : Bool) (prev : Str) :
    ∀ x, Lit c.opts x → (∀ d l, x ≠ .cdata d l) → (isTextD x = true → parent.isSome = true) →
      accepted c p parent sw prev x = true
  | .text d e _, h, _, hp => by
    obtain ⟨t, rfl⟩ := h
    unfold accepted
    rw [scans_enc, hp rfl]
    rfl
  | .cdata d l, _, hn, _ => absurd rfl (hn d l)
  | .comment _ _, _, _, _ => by unfold accepted; rfl
  | .pi _ _ _, h, _, _ => h.elim
  | .elem t as ln kids, h, _, _ => by
    obtain ⟨h1, h2, h3, h4, h5, h6⟩ := h
    have h2' : ∀ kv ∈ as, reserved kv.1 = false := fun kv hkv => (h2 kv hkv).1
    unfold accepted
    have hm : markAccepted c.opts t as = true := by
      unfold markAccepted
      rw [h4]; rfl
    rw [hm, Bool.true_and]
    dsimp only
    rw [auto_plain h4, if_neg Bool.false_ne_true, dirOf_plain h1]
    dsimp only
    rw [plainAttrs_plain h4, Bool.and_eq_true, List.all_eq_true]
    refine ⟨fun kv hkv => ?_, ?_⟩
    · obtain ⟨v, hv⟩ := (h2 kv hkv).2
      rw [hv, scans_lit, Bool.or_true]
    · rw [Bool.or_eq_true]
      right
      split
      · next hs => exact scriptAccepted_lit c kids h6 (h5 hs)
      · exact acceptedAll_lit c p (some t) _ [] kids h6 rfl

theorem acceptedAll_lit (c : CEnv) (p : Place) (parent : Option Str) (sw : Bool) (prev : Str) :
    ∀ xs, LitAll c.opts xs → parent.isSome = true → acceptedAll c p true parent sw prev xs = true
  | [], _, _ => by rw [acceptedAll]
  | x :: xs, h, hp => by
    obtain ⟨h1, h2⟩ := h
    unfold acceptedAll
    rw [after_bare c.opts p x (lit_bare _ _ h1), acceptedAll_lit c p parent sw _ xs h2 hp, Bool.and_true]
    cases x with
    | cdata d l => rfl
    | _ => exact accepted_lit c p parent sw prev _ h1 (by intros; nofun) fun _ => hp
end

mutual
theorem filled_bare (c : CEnv) (p : Place) : ∀ x, Bare c.opts x → filled c p x = true
  | .text _ _ _, _ => by unfold filled; rfl
  | .cdata _ _, _ => by unfold filled; rfl
  | .comment _ _, _ => by unfold filled; rfl
  | .pi _ _ _, _ => by unfold filled; rfl
  | .elem t as ln kids, h => by
    obtain ⟨h1, -, -, h6⟩ := h
    unfold filled
    rw [dirOf_plain h1]
    dsimp only
    rw [filledAll_bare c p kids h6, Bool.or_true, Bool.or_true]

theorem filledAll_bare (c : CEnv) (p : Place) : ∀ xs, BareAll c.opts xs → filledAll c p xs = true
  | [], _ => by rw [filledAll]
  | x :: xs, h => by
    rw [filledAll, filled_bare c p x h.1, after_bare c.opts p x h.1, filledAll_bare c p xs h.2]
    rfl
end

mutual
theorem known_bare (o : Opts) : ∀ x, Bare o x → known o x = true
  | .text _ _ _, _ => by unfold known; rfl
  | .cdata _ _, _ => by unfold known; rfl
  | .comment _ _, _ => by unfold known; rfl
  | .pi _ _ _, _ => by unfold known; rfl
  | .elem t as ln kids, h => by
    obtain ⟨h1, -, -, h6⟩ := h
    unfold known
    unfold reserved at h1
    rw [h1, knownAll_bare o kids h6]
    simp

theorem knownAll_bare (o : Opts) : ∀ xs, BareAll o xs → knownAll o xs = true
  | [], _ => by rw [knownAll]
  | x :: xs, h => by rw [knownAll, known_bare o x h.1, knownAll_bare o xs h.2]; rfl
end

/-! ## Templates -/

/-- A template of a root element without directives, with comments before and after it. -/
structure BareTemplate (t : Template) (before after : List (Str × Nat)) (root : DNode) : Prop where
  kids : t.doc.kids = comments before ++ root :: comments after
  bare : Bare t.conf.opts root
  elem : ∃ g as ln ks, root = .elem g as ln ks

namespace BareTemplate
variable {t : Template} {bs as : List (Str × Nat)} {root : DNode}

theorem root? (h : BareTemplate t bs as root) : t.root? = some root := by
  have hc : ∀ (f : DNode → Bool), (∀ d l, f (.comment d l) = false) → ∀ cs, (comments cs).filter f = [] := by
    intro f hf cs
    rw [List.filter_eq_nil_iff]
    intro x hx
    obtain ⟨c, -, rfl⟩ := List.mem_map.1 hx
    rw [hf]; simp
  obtain ⟨g, atts, ln, ks, rfl⟩ := h.elem
  unfold Template.root?
  rw [h.kids, List.filter_append, hc _ (fun _ _ => rfl), List.nil_append, List.filter_cons_of_pos rfl,
    hc _ (fun _ _ => rfl)]

theorem functions (h : BareTemplate t bs as root) :
    t.functions = [("__main__()".toList, Part.main t.conf (t.doctype root) root)] := by
  unfold Template.functions
  rw [h.root?]
  dsimp only
  rw [defs_bare _ _ _ h.bare]
  generalize "__main__()".toList = k
  simp [Dict.update, Dict.set]

theorem known (h : BareTemplate t bs as root) : Template.known t = true := by
  unfold Template.known
  rw [h.root?]
  exact known_bare _ _ h.bare

theorem accepted (h : BareTemplate t bs as root)
    (ha : Spec.Accept.accepted t.conf .root none false [] root = true) : Template.accepted t = true := by
  unfold Template.accepted
  rw [h.root?]
  exact ha

theorem accepted_root (h : BareTemplate t bs as root) (hl : Lit t.conf.opts root) :
    Spec.Accept.accepted t.conf .root none false [] root = true := by
  obtain ⟨g, atts, ln, ks, he⟩ := h.elem
  refine accepted_lit _ _ _ _ _ _ hl ?_ ?_
  · rw [he]; intros; nofun
  · rw [he]; intro h; cases h

theorem filled (h : BareTemplate t bs as root) : Template.filled t = true := by
  unfold Template.filled
  rw [h.functions]
  simp only [List.all_cons, List.all_nil, Bool.and_true]
  exact filled_bare _ _ _ h.bare

theorem all (h : BareTemplate t bs as root) {Q : DNode → Prop} (hc : ∀ d l, Q (.comment d l)) (hr : Q root) :
    ∀ x ∈ t.doc.kids, Q x := by
  intro x hx
  rw [h.kids] at hx
  rcases List.mem_append.1 hx with hx | hx
  · obtain ⟨c, -, rfl⟩ := List.mem_map.1 hx
    exact hc _ _
  · rcases List.mem_cons.1 hx with rfl | hx
    · exact hr
    · obtain ⟨c, -, rfl⟩ := List.mem_map.1 hx
      exact hc _ _

theorem placed (h : BareTemplate t bs as root) : t.placed = true := by
  unfold Template.placed
  rw [List.all_eq_true]
  refine h.all (fun d l => ?_) ?_
  · unfold Spec.DocSem.placed; rfl
  · rw [placed_bare _ _ _ _ h.bare]; rfl

theorem tagConds (h : BareTemplate t bs as root) : ∀ x ∈ t.doc.kids, Spec.DocSem.tagConds t.conf.opts x = [] :=
  h.all (fun _ _ => tagConds_bare _ _ trivial) (tagConds_bare _ _ h.bare)

end BareTemplate

theorem doctype_eq (t : Template) (root : DNode) (h : Bare t.conf.opts root) :
    t.doctype root = doctype t.conf.opts t.conf.mode t.doc.dtd := by
  unfold Template.doctype doctype
  rw [after_bare _ _ _ h]
  have hf : Spec.DocSem.Place.root.child = false := rfl
  have hd : "<!DOCTYPE html>".toList ++ ['\n'] = "<!DOCTYPE html>\n".toList := by decide +kernel
  rw [hf, Bool.or_false, hd]

/-! ## Rendering -/

section
variable {W : Type}

theorem get_update_none (d : Dict Val) {e : Dict Val} {k : Str} (h : Dict.get e k = none) :
    Dict.get (Dict.update d e) k = Dict.get d k := by
  induction e generalizing d with
  | nil => rfl
  | cons x e ih =>
    obtain ⟨k', v⟩ := x
    rw [Dict.get_cons] at h
    split at h
    · cases h
    · next hk => exact (ih (d.set k' v) h).trans (Dict.get_set_other d v hk)

theorem get_update_some (d e : Dict Val) {k : Str} (h : ∃ g, Dict.get d k = some g) :
    ∃ g, Dict.get (Dict.update d e) k = some g := by
  induction e generalizing d with
  | nil => exact h
  | cons x e ih =>
    refine ih (d.set x.1 x.2) ?_
    rw [Dict.get_set]
    split
    · exact ⟨_, rfl⟩
    · exact h

theorem globals_local (i : Nat) (base methods context : Dict Val) (hb : Dict.get base "local".toList = none)
    (hm : Dict.get methods "local".toList = none) (hc : Dict.get context "local".toList = none) :
    Dict.get (newGlobals i base methods context) "local".toList = some (.inst i) := by
  unfold newGlobals
  dsimp only
  rw [Dict.get_set_other _ _ (by decide +kernel), Dict.get_set_other _ _ (by decide +kernel), get_update_none _ hc,
    get_update_none _ hm, get_update_none _ hb, get_update_none _ (by decide +kernel), Dict.get_cons, if_pos rfl]

theorem globals_gettext (i : Nat) (base methods context : Dict Val) :
    ∃ g, Dict.get (newGlobals i base methods context) "gettext".toList = some g := by
  unfold newGlobals
  dsimp only
  rw [Dict.get_set_other _ _ (by decide +kernel), Dict.get_set_other _ _ (by decide +kernel)]
  refine get_update_some _ _ (get_update_some _ _ (get_update_some _ _ ?_))
  have : ∀ d : Dict Val, ∃ g, Dict.get (Dict.update d builtins) "gettext".toList = some g := by
    intro d
    have : builtins = builtins.take 3 ++ ("gettext".toList, .obj 3 "gettext".toList true) :: builtins.drop 4 := rfl
    rw [this]
    unfold Dict.update
    rw [List.foldl_append, List.foldl_cons]
    exact get_update_some _ _ ⟨_, Dict.get_set_same _ _ _⟩
  exact this _

theorem rendered_bare {t : Template} {bs as : List (Str × Nat)} {root : DNode} (h : BareTemplate t bs as root)
    (load : Str → Option Nat) (aliasFor : Str → Str) (O : Oracle W)
    (n : Nat) (context : Dict Val) (w : W) (hb : Dict.get t.base "local".toList = none)
    (hc : Dict.get context "local".toList = none) (ha : O.args "__main__()".toList [] w = (.ok [], w)) (shown : Str)
    (hsay : ∀ (P : Prog Part) (call : Mode → Nat → List Val → MD W Unit) (env : Env) (els : MD W Unit),
      (∀ d l, root ≠ .cdata d l) →
      Says ⟨0, context, newGlobals 0 t.base [("__main__".toList, .fn 0)] context, [("__main__".toList, .fn 0)]⟩ env
        (node P O call t.conf env .root els [] root) shown) :
    let r := rendered (program [t] load aliasFor) O (n + 1) 0 context w
    r.out.txt = t.doctype root ++ shown ∧ r.val = .ok () ∧ r.st.world = w := by
  have hg := globals_gettext 0 t.base [("__main__".toList, .fn 0)] context
  have hl := globals_local 0 t.base [("__main__".toList, .fn 0)] context hb (by decide +kernel) hc
  obtain ⟨tag, atts, ln, ks, he⟩ := h.elem
  have hcls : (program [t] load aliasFor).classes = [classOf t.functions t.base] := rfl
  have hms : (classOf t.functions t.base).methods =
      [("__main__".toList, "__main__()".toList, Part.main t.conf (t.doctype root) root)] := by
    rw [h.functions]
    have : declName "__main__()".toList = "__main__".toList := by decide +kernel
    simp only [classOf, methodsOf, List.foldl_cons, List.foldl_nil, this]
    rfl
  generalize hP : program [t] load aliasFor = P at *
  let body := Part.main t.conf (t.doctype root) root
  let inst : Inst := ⟨0, context, newGlobals 0 t.base [("__main__".toList, .fn 0)] context, [("__main__".toList, .fn 0)]⟩
  let s0 : Store Part W := ⟨[inst], [], [⟨.code "__main__()".toList body, 0, none, true⟩], [], w,
    fun j => if j = 0 then ⟨[], []⟩ else ⟨[], []⟩⟩
  have h1 : newInst P 0 context (emptyStore _ w) = ⟨.nil, s0, .ok 0⟩ := by
    unfold newInst
    rw [hcls]
    simp only [List.getElem?_cons_zero, hms]
    rfl
  let s1 : Store Part W := { s0 with frames := [⟨[], none, none⟩] }
  let env : Env := ⟨0, 0, some 0, .stream⟩
  have h2 : callDoc P O (n + 1) .stream 0 [] s0 = part P O (callDoc P O n) env body s1 := by
    rw [callDoc]
    unfold callWith
    simp only [M.bind, M.get, s0, M.ofOption, List.getElem?_cons_zero, M.pure, ha, newFrame, getInst, inst, hl]
    rfl
  have h3 : emitMain (callDoc P O (n + 1)) .stream 0 s0 = callDoc P O (n + 1) .stream 0 [] s0 := by
    simp only [emitMain, attrFn, M.bind, getInst, s0, List.getElem?_cons_zero, inst, Dict.get_cons, if_true, M.pure, splice]
    rfl
  have hs : Says inst env (part P O (callDoc P O n) env body) (t.doctype root ++ shown) := by
    have hq : silent t.conf .root root = false := by
      have := h.bare
      subst he
      unfold silent
      rw [auto_plain this.2.2.1, if_neg Bool.false_ne_true, dirOf_plain this.1]
    have hk : speaks t.conf .root root = true := by
      have := h.bare
      subst he
      unfold speaks
      rw [auto_plain this.2.2.1, if_neg Bool.false_ne_true, dirOf_plain this.1]
    simp only [body, part, hq, hk, Bool.and_false, Bool.false_eq_true, if_false, Bool.or_true, reading_true]
    refine Says.bind ?_ (hsay _ _ _ _ (by subst he; intros; nofun))
    split
    · next hd => rw [List.isEmpty_iff.1 hd]; exact .pure
    · exact .say _
  obtain ⟨s2, any, h4, h5⟩ := hs s1 ⟨by simp [env, s1], by simp [s1], rfl, ⟨0, rfl, rfl⟩, hg⟩
  have : rendered P O (n + 1) 0 context w = ⟨⟨t.doctype root ++ shown, any⟩, s2, .ok ()⟩ := by
    unfold rendered
    simp only [M.bind, h1, h3, h2, h4]
    rfl
  rw [this]
  exact ⟨rfl, rfl, h5.world⟩

theorem rendered_lit {t : Template} {bs as : List (Str × Nat)} {root : DNode} (h : BareTemplate t bs as root)
    (hl : Lit t.conf.opts root)
    (load : Str → Option Nat) (aliasFor : Str → Str) (O : Oracle W) (tr : Str → Str) (hO : Translates O tr)
    (n : Nat) (context : Dict Val) (w : W) (hb : Dict.get t.base "local".toList = none)
    (hc : Dict.get context "local".toList = none) (ha : O.args "__main__()".toList [] w = (.ok [], w)) :
    let r := rendered (program [t] load aliasFor) O (n + 1) 0 context w
    r.out.txt = t.doctype root ++ ser tr t.conf.opts t.conf.mode [] root ∧ r.val = .ok () ∧ r.st.world = w :=
  rendered_bare h load aliasFor O n context w hb hc ha _ fun P call _ els hn =>
    says_node call P hO t.conf _ els [] root hl hn

end

end Kajiki.StaticDoc
