import Verif.Lemmas.PureSem
import Verif.Lemmas.FillRun

/-! Rendering templates with directives and without functions. -/

namespace Kajiki.PureDoc
open Kajiki.Run Kajiki.Spec.Pure Kajiki.Spec.DocSem

section
variable {W : Type} {O : Oracle W} {py : Py}

/-- The function of a block. -/
def blockFn (c : CEnv) (p : Place) (b : Str × List DNode) : Str × Part :=
  (blockDecl b.1, .block c p "py:block".toList b.1 b.2)

theorem under_defs {A : Allowed} (h : A.defs = false) (d : Option Dir) : (A.under d).defs = false := by
  cases d with
  | none => exact h
  | some d => cases d <;> first | exact h | rfl

mutual
theorem defs_ok (A : Allowed) (hA : A.defs = false) (c : CEnv) (p : Place) : ∀ x, Ok O py A c x → defs c p x = (blocks c.opts x).map (blockFn c p)
  | .text _ _ _, _ => by unfold defs blocks; rfl
  | .cdata _ _, _ => by unfold defs blocks; rfl
  | .comment _ _, _ => by unfold defs blocks; rfl
  | .pi _ _ _, _ => by unfold defs blocks; rfl
  | .elem t as ln kids, h => by
    unfold Ok at h
    obtain ⟨h1, -, h3, h4⟩ := h
    have hk := defsAll_ok _ (under_defs hA (dirOf t)) c p kids h4
    unfold defs blocks
    rw [h1, if_neg Bool.false_ne_true]
    cases hd : dirOf t with
    | none => dsimp only; rw [hk]; split <;> rfl
    | some d =>
      rw [hd] at h3
      cases d with
      | replace => rfl
      | imp => exact h3.elim
      | ext => exact h3.elim
      | incl => dsimp only; rw [h3.2]; rfl
      | block =>
        dsimp only
        rw [hk, List.map_append, dirOf_block hd]
        rfl
      | defn => rw [hA] at h3; exact nomatch h3.1
      | call => exact h3.elim
      | _ => exact hk

theorem defsAll_ok (A : Allowed) (hA : A.defs = false) (c : CEnv) (p : Place) :
    ∀ xs, OkAll O py A c xs → defsAll c p xs = (blocksAll c.opts xs).map (blockFn c p)
  | [], _ => by unfold defsAll blocksAll; rfl
  | x :: xs, h => by
    rw [OkAll] at h
    unfold defsAll blocksAll
    rw [defs_ok A hA c p x h.1, after_ok _ c p x h.1, defsAll_ok A hA c _ xs h.2, List.map_append]
end

mutual
theorem not_silent (c : CEnv) (p : Place) : ∀ x, speaks c p x = true → silent c p x = false
  | .text d _ _, h => by unfold speaks at h; unfold silent; simpa using h
  | .cdata d _, h => by unfold speaks at h; unfold silent; simpa using h
  | .comment d _, h => by unfold speaks at h; unfold silent; simpa using h
  | .pi _ _ _, h => by unfold speaks at h; cases h
  | .elem t as ln kids, h => by
    have hk := not_silentAll c p kids
    unfold speaks at h
    unfold silent
    cases ha : auto c.opts t as with
    | true => rw [ha] at h; simpa using h
    | false =>
      rw [ha, if_neg Bool.false_ne_true] at h
      rw [if_neg Bool.false_ne_true]
      cases hd : dirOf t with
      | none => rfl
      | some d =>
        rw [hd] at h
        cases d with
        | block => simpa using h
        | defn => cases h
        | nop => exact hk h
        | _ => rfl

theorem not_silentAll (c : CEnv) (p : Place) : ∀ xs, speaksAny c p xs = true → silentAll c p xs = false
  | [], h => by unfold speaksAny at h; cases h
  | x :: xs, h => by
    unfold speaksAny at h
    unfold silentAll
    rcases Bool.or_eq_true_iff.1 h with h | h
    · rw [not_silent c p x h]; rfl
    · rw [not_silentAll c _ xs h, Bool.and_false]
end

/-- Nothing but scopes changes: there are no calls. -/
def worldKept (W : Type) : Setting W where
  K _ s s' := s'.world = s.world
  J _ := True
  R _ := False
  π _ := none
  refl _ _ := rfl
  trans h1 h2 := h2.trans h1
  frames _ _ _ _ _ := rfl
  inv _ _ _ := trivial

instance : Blind (worldKept W).hid py := blind_none (fun _ => not_false) py

/-- The global variables of a template whose only function is the main one. -/
def globals (base context : Dict Val) : Look := fun k =>
  Dict.get (newGlobals 0 base [("__main__".toList, .fn 0)] context) k

theorem rendered_ok {ts : List Template} {i : Nat} {t : Template} {root : DNode} (ht : ts[i]? = some t)
    (hroot : t.root? = some root) (h : Ok O py .no t.conf root) (hnc : ∀ e, py.call e = none) (hnb : blocks t.conf.opts root = []) (hsp : speaks t.conf .root root = true)
    (hO : Translates O py) (load : Str → Option Nat) (aliasFor : Str → Str) (n : Nat) (context : Dict Val) (w : W)
    (hb : Dict.get t.base "local".toList = none) (hc : Dict.get context "local".toList = none)
    (ha : O.args "__main__()".toList [] w = (.ok [], w)) :
    let r := rendered (program ts load aliasFor) O (n + 1) i context w
    let m := shown py (globals t.base context) t root
    r.out.txt = m.text ∧ r.val = (m.res.map fun _ => ()) ∧ r.st.world = w := by
  have hg := StaticDoc.globals_gettext 0 t.base [("__main__".toList, .fn 0)] context
  have hl := StaticDoc.globals_local 0 t.base [("__main__".toList, .fn 0)] context hb (by decide +kernel) hc
  have hcls : (program ts load aliasFor).classes[i]? = some (classOf t.functions t.base) := by
    unfold program
    dsimp only
    rw [List.getElem?_map, ht]
    rfl
  have hfun : t.functions = [("__main__()".toList, Part.main t.conf (t.doctype root) root)] := by
    unfold Template.functions
    rw [hroot]
    dsimp only
    rw [defs_ok _ rfl t.conf .root root h, hnb]
    generalize "__main__()".toList = m
    simp [Dict.update, Dict.set]
  have hms : (classOf t.functions t.base).methods =
      [("__main__".toList, "__main__()".toList, Part.main t.conf (t.doctype root) root)] := by
    rw [hfun]
    have : declName "__main__()".toList = "__main__".toList := by decide +kernel
    simp only [classOf, methodsOf, List.foldl_cons, List.foldl_nil, this]
    rfl
  generalize hP : program ts load aliasFor = P at *
  let body := Part.main t.conf (t.doctype root) root
  let inst : Inst := ⟨i, context, newGlobals 0 t.base [("__main__".toList, .fn 0)] context, [("__main__".toList, .fn 0)]⟩
  let s0 : Store Part W := ⟨[inst], [], [⟨.code "__main__()".toList body, 0, none, true⟩], [], w,
    fun j => if j = 0 then ⟨[], []⟩ else ⟨[], []⟩⟩
  have h1 : newInst P i context (emptyStore _ w) = ⟨.nil, s0, .ok 0⟩ := by
    unfold newInst
    rw [hcls]
    simp only [hms]
    rfl
  let s1 : Store Part W := { s0 with frames := [⟨[], none, none⟩] }
  let env : Env := ⟨0, 0, some 0, .stream⟩
  have h2 : callDoc P O (n + 1) .stream 0 [] s0 = part P O (callDoc P O n) env body s1 := by
    rw [callDoc]
    unfold callWith
    simp only [M.bind, M.get, s0, M.ofOption, List.getElem?_cons_zero, M.pure, ha, newFrame, getInst, inst, hl]
    rfl
  have h3 : emitMain (callDoc P O (n + 1)) .stream 0 s0 = callDoc P O (n + 1) .stream 0 [] s0 := by
    simp only [emitMain, attrFn, M.bind, getInst, s0, List.getElem?_cons_zero, inst, Dict.get_cons, if_true, M.pure, splice]
    rfl
  have hs : Does (worldKept W) inst env (part P O (callDoc P O n) env body) fun ρ => (Spec.Pure.Shown.put (t.doctype root)).seq
      (Spec.Pure.node py (glob inst) (fun _ => none) t.conf (fun ρ => Spec.Pure.Shown.done ρ) [] root ρ) := by
    have hq : silent t.conf .root root = false := not_silent _ _ _ hsp
    simp only [body, part, hq, hsp, Bool.and_false, Bool.false_eq_true, if_false, Bool.or_true, reading_true]
    refine Does₀.seq ?_ (does_node _ P hO ⟨fun _ _ _ _ _ _ _ h => False.elim h, fun _ _ _ _ _ h => False.elim h⟩ (.no _ hnc) t.conf _ (fun h => nomatch h)
      (B := fun _ _ => False) (fun _ _ => nofun) (fun _ h => nomatch h) Does.done [] root h
      (fit_of _ _ _ _ (fun _ _ => not_false) fun b hb => by rw [hnb] at hb; cases hb))
    split
    · next hd => rw [List.isEmpty_iff.1 hd]; exact Does₀.done
    · exact Does₀.put _
  obtain ⟨s2, any, h4, h5, -⟩ := hs s1 [] ⟨⟨none, rfl⟩, ⟨_, rfl, fun _ _ => rfl⟩, ⟨0, rfl, _, rfl, hg⟩, trivial, fun _ h => h.elim⟩
  have : rendered P O (n + 1) i context w = ⟨⟨(shown py (globals t.base context) t root).text, any⟩, s2,
      (shown py (globals t.base context) t root).res.map fun _ => ()⟩ := by
    unfold rendered
    rw [bind_ok h1, h3, h2, h4]
    rfl
  rw [this]
  exact ⟨rfl, rfl, h5⟩

mutual
theorem steady_ok (A : Allowed) (c : CEnv) : ∀ x, Ok O py A c x → ∀ e ∈ tagConds c.opts x, Spec.Sem.Steady O e
  | .text _ _ _, _ => by unfold tagConds; nofun
  | .cdata _ _, _ => by unfold tagConds; nofun
  | .comment _ _, _ => by unfold tagConds; nofun
  | .pi _ _ _, _ => by unfold tagConds; nofun
  | .elem t as ln kids, h => by
    unfold Ok at h
    obtain ⟨-, h2, -, h4⟩ := h
    unfold tagConds
    intro e he
    rcases List.mem_append.1 he with he | he
    · unfold keepTag at he
      generalize Dict.get (plainAttrs c.opts t as) "py:strip".toList = o at h2 he
      cases o with
      | none => cases he
      | some x =>
        have he : e = if x.isEmpty then "False".toList else "not (".toList ++ x ++ ")".toList := by simpa using he
        obtain ⟨h5, -⟩ := h2 x rfl
        rw [he]
        intro v w y w' hy
        rw [h5.1] at hy
        exact (congrArg Prod.snd hy).symm
    · exact steadyAll_ok _ c kids h4 e he

theorem steadyAll_ok (A : Allowed) (c : CEnv) : ∀ xs, OkAll O py A c xs → ∀ e ∈ tagCondsAll c.opts xs, Spec.Sem.Steady O e
  | [], _ => by unfold tagCondsAll; nofun
  | x :: xs, h => by
    rw [OkAll] at h
    unfold tagCondsAll
    intro e he
    rcases List.mem_append.1 he with he | he
    · exact steady_ok A c x h.1 e he
    · exact steadyAll_ok A c xs h.2 e he
end

end

/-! ## Global variables -/

theorem globals_ok (base context : Dict Val) (hn : (context.map (·.1)).Nodup) :
    Globals base context (globals base context) := by
  refine ⟨fun k x hk h => ?_, fun k h1 h2 h3 => ?_⟩
  · refine FillDoc.shows_context 0 0 base _ [] context hn k x hk ?_ ?_ <;> rintro rfl <;> exact h (by decide +kernel)
  · have hk : ∀ k' ∈ ownNames, k' ≠ k := fun k' hk' he => h3 (he ▸ hk')
    have hb : Dict.get builtins k = none := by
      apply Dict.get_none_of_not_mem
      intro hm
      exact h3 ((by decide +kernel : ∀ x ∈ builtins.map (·.1), x ∈ ownNames) k hm)
    unfold globals newGlobals
    dsimp only
    rw [Dict.get_set_other _ _ (hk _ (by decide +kernel)), Dict.get_set_other _ _ (hk ['_'] (by decide +kernel)),
      StaticDoc.get_update_none _ h1, StaticDoc.get_update_none, StaticDoc.get_update_none _ h2,
      StaticDoc.get_update_none _ hb, Dict.get_cons, if_neg (hk _ (by decide +kernel)), Dict.get_cons,
      if_neg (hk _ (by decide +kernel))]
    · rfl
    · rw [Dict.get_cons, if_neg (hk _ (by decide +kernel))]
      rfl

end Kajiki.PureDoc
