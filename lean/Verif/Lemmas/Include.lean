import Verif.Spec.Include
import Verif.Lemmas.PureRun

/-! Rendering templates that include others. -/

namespace Kajiki.IncludeDoc
open Kajiki.Run Kajiki.Spec.Pure Kajiki.Spec.DocSem Kajiki.PureDoc
open Kajiki.Spec.Include (inherited shownIn Own Fits)
open Kajiki.Spec.Pure.Shown (done raise put)

/-! ## Dictionaries -/

section
variable {α : Type}

theorem keys_set (d : Dict α) (k : Str) (v : α) (h : (d.map (·.1)).Nodup) : ((d.set k v).map (·.1)).Nodup := by
  have hk : ∀ (d : Dict α) x, x ∈ (d.set k v).map (·.1) → x ∈ d.map (·.1) ∨ x = k := by
    intro d
    induction d with
    | nil => intro x hx; simpa [Dict.set] using hx
    | cons e d ih =>
      intro x hx
      unfold Dict.set at hx
      split at hx
      · exact .inl hx
      · rcases List.mem_cons.1 hx with rfl | hx
        · exact .inl (by simp)
        · rcases ih x hx with h | h
          · exact .inl (List.mem_cons_of_mem _ h)
          · exact .inr h
  induction d with
  | nil => simp [Dict.set]
  | cons e d ih =>
    obtain ⟨k', v'⟩ := e
    rw [List.map_cons, List.nodup_cons] at h
    unfold Dict.set
    split
    · exact List.nodup_cons.2 h
    · next hne =>
      refine List.nodup_cons.2 ⟨fun hm => ?_, ih h.2⟩
      rcases hk d _ hm with h' | h'
      · exact h.1 h'
      · exact hne h'

theorem keys_update (d e : Dict α) (h : (d.map (·.1)).Nodup) : ((d.update e).map (·.1)).Nodup := by
  unfold Dict.update
  induction e generalizing d with
  | nil => exact h
  | cons x e ih => exact ih _ (keys_set _ _ _ h)

theorem get_append (d e : Dict α) (k : Str) : Dict.get (d ++ e) k = (Dict.get d k).or (Dict.get e k) := by
  induction d with
  | nil => rfl
  | cons x d ih =>
    obtain ⟨k', v⟩ := x
    rw [List.cons_append, Dict.get_cons, Dict.get_cons, ih]
    split <;> rfl

end

/-! ## Global variables -/

theorem globals_nodup (i : Nat) (base ms context : Dict Val) : ((newGlobals i base ms context).map (·.1)).Nodup := by
  unfold newGlobals
  dsimp only
  exact keys_set _ _ _ (keys_set _ _ _ (keys_update _ _ (keys_update _ _ (keys_update _ _ (keys_update _ _ (by simp))))))

theorem globals_none {i : Nat} {base ms context : Dict Val} {k : Str} (h : Dict.get (newGlobals i base ms context) k = none) :
    k ≠ "value_of".toList ∧ k ≠ ['_'] ∧ k ≠ "local".toList ∧ k ≠ "self".toList ∧ Dict.get builtins k = none ∧
    ((ms.map (·.1)).Nodup → Dict.get ms k = none) ∧ ((base.map (·.1)).Nodup → Dict.get base k = none) := by
  have hup : ∀ (d e : Dict Val), Dict.get (Dict.update d e) k = none → Dict.get d k = none := fun d e h => by
    cases hd : Dict.get d k with
    | none => rfl
    | some x =>
      obtain ⟨g, hg⟩ := StaticDoc.get_update_some d e ⟨x, hd⟩
      rw [hg] at h
      cases h
  have hup' : ∀ (d e : Dict Val), (e.map (·.1)).Nodup → Dict.get (Dict.update d e) k = none → Dict.get e k = none :=
    fun d e hn h => by
      rw [Dict.get_update_nodup _ _ _ hn] at h
      exact (Option.or_eq_none_iff.1 h).1
  unfold newGlobals at h
  dsimp only at h
  rw [Dict.get_set] at h
  split at h
  · cases h
  next h1 =>
  rw [Dict.get_set] at h
  split at h
  · cases h
  next h2 =>
  have h3 := hup _ _ h
  have h4 := hup _ _ h3
  have h5 := hup _ _ h4
  have h6 := hup _ _ h5
  rw [Dict.get_cons] at h6
  split at h6
  · cases h6
  next h7 =>
  rw [Dict.get_cons] at h6
  split at h6
  · cases h6
  next h8 =>
  exact ⟨Ne.symm h1, Ne.symm h2, Ne.symm h7, Ne.symm h8, hup' _ _ (by decide +kernel) h5, fun hn => hup' _ _ hn h3,
    fun hn => hup' _ _ hn h4⟩

theorem globals_under (i : Nat) (base ms context : Dict Val) : Dict.get (newGlobals i base ms context) ['_'] =
    some ((Dict.get (newGlobals i base ms context) "gettext".toList).getD .none) := by
  unfold newGlobals
  dsimp only
  rw [Dict.get_set_other _ _ (by decide +kernel), Dict.get_set_same, Dict.get_set_other _ _ (by decide +kernel),
    Dict.get_set_other _ _ (by decide +kernel)]

theorem globals_other (i : Nat) (base ms context : Dict Val) (hc : (context.map (·.1)).Nodup) (hm : (ms.map (·.1)).Nodup)
    (hb : (base.map (·.1)).Nodup) {k : Str} (h1 : k ≠ "value_of".toList) (h2 : k ≠ ['_']) :
    Dict.get (newGlobals i base ms context) k = (Dict.get context k).or ((Dict.get ms k).or ((Dict.get base k).or
      ((Dict.get builtins k).or (Dict.get [("local".toList, .inst i), ("self".toList, .inst i)] k)))) := by
  unfold newGlobals
  dsimp only
  rw [Dict.get_set_other _ _ (Ne.symm h1), Dict.get_set_other _ _ (Ne.symm h2), Dict.get_update_nodup _ _ _ hc,
    Dict.get_update_nodup _ _ _ hm, Dict.get_update_nodup _ _ _ hb, Dict.get_update_nodup _ _ _ (by decide +kernel)]

/-- The global variables of an included template: `g` are those of the first one now. -/
theorem globals_included {b₀ b context g : Dict Val} {m₀ m r : Nat} {hid : Str → Prop} (hv : hid "value_of".toList)
    (hg : ¬hid "gettext".toList) (hn : (g.map (·.1)).Nodup) (hb : (b.map (·.1)).Nodup)
    (h : ∀ k, ¬hid k → Dict.get g k = Dict.get (newGlobals 0 b₀ [("__main__".toList, .fn m₀)] context) k) (k : Str) (hk : ¬hid k) :
    Dict.get (newGlobals r b [("__main__".toList, .fn m)] g) k =
      Dict.get (newGlobals 0 b₀ [("__main__".toList, .fn m₀)] context ++ b) k := by
  have hval : ∀ k, ¬hid k → k ≠ ['_'] → Dict.get (newGlobals r b [("__main__".toList, .fn m)] g) k =
      (Dict.get g k).or (Dict.get b k) := by
    intro k hk h2
    have h1 : k ≠ "value_of".toList := fun e => hk (e ▸ hv)
    rw [globals_other _ _ _ _ hn (by simp) hb h1 h2]
    cases hgk : Dict.get g k with
    | some x => rfl
    | none =>
      rw [h k hk] at hgk
      obtain ⟨-, -, n1, n2, n3, n4, -⟩ := globals_none hgk
      have n5 : Dict.get [("__main__".toList, Val.fn m)] k = none := by
        have := n4 (by simp)
        rw [Dict.get_cons] at this ⊢
        split at this
        · cases this
        · next hne => rw [if_neg hne]; rfl
      rw [n5, n3, Dict.get_cons, if_neg (Ne.symm n1), Dict.get_cons, if_neg (Ne.symm n2)]
      simp [Dict.get]
  rw [get_append]
  by_cases h2 : k = ['_']
  · subst h2
    obtain ⟨x, hx⟩ := StaticDoc.globals_gettext 0 b₀ [("__main__".toList, .fn m₀)] context
    rw [globals_under, globals_under, hval _ hg (by decide +kernel), h _ hg, hx]
    rfl
  · rw [hval k hk h2, h k hk]

/-! ## Including -/

section
variable {W : Type} {O : Oracle W} {py : Py} {aliasFor : Str → Str} {H : Str → Bool}

/-- Nothing but scopes and names that are different in each template changes. -/
def setting (hid : Str → Prop) (g₀ : Dict Val) : Setting W where
  K fr s s' := s.frames.length ≤ s'.frames.length ∧ (∀ j < s.frames.length, j ≠ fr → s'.frames[j]? = s.frames[j]?) ∧
    (∀ (j : Nat) (J : Inst), s.insts[j]? = some J → ∃ J' : Inst, s'.insts[j]? = some J' ∧
      ∀ k, ¬hid k → Dict.get J'.globals k = Dict.get J.globals k) ∧ s'.world = s.world
  J s := ∃ J : Inst, s.insts[0]? = some J ∧ (J.globals.map (·.1)).Nodup ∧ ∀ k, ¬hid k → Dict.get J.globals k = Dict.get g₀ k
  R _ := False
  π _ := none
  hid := hid
  refl _ _ := ⟨Nat.le_refl _, fun _ _ _ => rfl, fun _ J h => ⟨J, h, fun _ _ => rfl⟩, rfl⟩
  trans h1 h2 := ⟨Nat.le_trans h1.1 h2.1, fun j hj hne =>
    (h2.2.1 j (Nat.lt_of_lt_of_le hj h1.1) hne).trans (h1.2.1 j hj hne), fun j J hJ => by
      obtain ⟨J', h3, h4⟩ := h1.2.2.1 j J hJ
      obtain ⟨J'', h5, h6⟩ := h2.2.2.1 j J' h3
      exact ⟨J'', h5, fun k hk => (h6 k hk).trans (h4 k hk)⟩, h2.2.2.2.trans h1.2.2.2⟩
  frames _ _ _ h1 h2 := ⟨h1, h2, fun _ J h => ⟨J, h, fun _ _ => rfl⟩, rfl⟩
  inv _ _ h := h

mutual
theorem ok_incl (k : Str → Shown Unit) (A : Allowed) (c : CEnv) :
    ∀ x, Ok O py A c x → Ok O { py with incl := k } A c x
  | .text _ _ _, h => by unfold Ok at h ⊢; exact h
  | .cdata _ _, h => by unfold Ok at h ⊢; exact h
  | .comment _ _, h => by unfold Ok; trivial
  | .pi _ _ _, h => by unfold Ok at h ⊢; exact h
  | .elem t as ln kids, h => by
    unfold Ok at h ⊢
    exact ⟨h.1, h.2.1, h.2.2.1, okAll_incl k _ c kids h.2.2.2⟩
theorem okAll_incl (k : Str → Shown Unit) (A : Allowed) (c : CEnv) :
    ∀ xs, OkAll O py A c xs → OkAll O { py with incl := k } A c xs
  | [], _ => by unfold OkAll; trivial
  | x :: xs, h => by
    unfold OkAll at h ⊢
    exact ⟨ok_incl k A c x h.1, okAll_incl k A c xs h.2⟩
end

/-- What an included template shows. -/
def included (ts : List Template) (load : Str → Option Nat) (py : Py) (G : Look) (n : Nat) (href : Str) : Shown Unit :=
  match load href with
  | none => raise .ioError
  | some j => shownIn ts load py G n j

theorem functions_fit {t : Template} {root : DNode} (h : Fits O py H t root) :
    t.functions = [("__main__()".toList, Part.main t.conf (t.doctype root) root)] := by
  unfold Template.functions
  rw [h.isRoot]
  dsimp only
  rw [defs_ok _ rfl t.conf .root root h.ok, h.noBlocks]
  generalize "__main__()".toList = m
  simp [Dict.update, Dict.set]

theorem methods_fit {t : Template} {root : DNode} (h : Fits O py H t root) : (classOf t.functions t.base).methods =
    [("__main__".toList, "__main__()".toList, Part.main t.conf (t.doctype root) root)] := by
  rw [functions_fit h]
  have : declName "__main__()".toList = "__main__".toList := by decide +kernel
  simp only [classOf, methodsOf, List.foldl_cons, List.foldl_nil, this]
  rfl

/-- Running the main function of a template. -/
theorem does_main {P : Prog Part} {n : Nat} {hid : Str → Prop} {g₀ : Dict Val} {I : Inst} {env : Env} {t : Template}
    {root : DNode} {k : Str → Shown Unit} (hB : Blind hid py) (hO : Translates O py) (hnc : ∀ e, py.call e = none)
    (hf : Fits O py H t root)
    (hI : ∀ href, H href = true → Does₀ (setting (W := W) hid g₀) I env
      (M.bind (importM P env href none) fun i => emitMain (callDoc P O n) env.mode i) fun _ => k href) :
    Does (setting (W := W) hid g₀) I env (part P O (callDoc P O n) env (.main t.conf (t.doctype root) root)) fun ρ =>
      (put (t.doctype root)).seq
        (Spec.Pure.node { py with incl := k } (glob I) (fun _ => none) t.conf (fun ρ => done ρ) [] root ρ) := by
  have hq : silent t.conf .root root = false := not_silent _ _ _ hf.speaks
  simp only [part, hq, hf.speaks, Bool.and_false, Bool.false_eq_true, if_false, Bool.or_true, reading_true]
  have : Blind (setting (W := W) hid g₀).hid { py with incl := k } := ⟨hB.eval, hB.iter, hB.block⟩
  refine Does₀.seq ?_ (does_node (py := { py with incl := k }) _ P hO
    ⟨fun _ _ _ _ _ _ _ h => False.elim h, fun _ _ _ _ _ h => False.elim h⟩ ⟨(fun e m hm => by rw [hnc] at hm; cases hm), fun _ h => (Bool.false_ne_true h).elim⟩ t.conf _
    (fun h => (Bool.false_ne_true h).elim) (B := fun _ _ => False) (fun _ _ => nofun) hI Does.done [] root (ok_incl _ _ _ _ hf.ok)
    (fit_of _ _ _ _ (fun _ _ => not_false) fun b hb => by rw [hf.noBlocks] at hb; cases hb))
  split
  · next hd => rw [List.isEmpty_iff.1 hd]; exact Does₀.done
  · exact Does₀.put _

variable {ts : List Template} {load : Str → Option Nat} {context : Dict Val} {b₀ : Dict Val}

/-- The global variables of the first template. -/
def first (b₀ context : Dict Val) : Dict Val := newGlobals 0 b₀ [("__main__".toList, .fn 0)] context

theorem own_not (hr : Spec.Include.Runs O py load aliasFor H context ts) {k : Str}
    (hk : k ∈ ["local".toList, "self".toList, "gettext".toList]) : ¬Own aliasFor H k := by
  rintro (rfl | ⟨href, h, rfl⟩)
  · exact absurd hk (by decide +kernel)
  · exact hr.names href h hk

/-- The instance of an included template. -/
theorem import_runs (hr : Spec.Include.Runs O py load aliasFor H context ts)
    {I : Inst} {env : Env} (hself : Dict.get I.globals "self".toList = some (.inst 0)) {href : Str} (hh : H href = true)
    {ρ : Vars} {s : Store Part W} (hs : Ready (setting (Own aliasFor H) (first b₀ context)) I env ρ s) {i : Nat}
    (hload : load href = some i) {t : Template} (ht : ts[i]? = some t) {root : DNode} (hf : Fits O py H t root) :
    ∃ s' J, importM (program ts load aliasFor) env href none s = ⟨.nil, s', .ok s.insts.length⟩ ∧
      s'.insts[s.insts.length]? = some J ∧ 0 < s.insts.length ∧
      (∀ k, ¬Own aliasFor H k → Dict.get J.globals k = Dict.get (first b₀ context ++ t.base) k) ∧
      Dict.get J.attrs "__main__".toList = some (.fn s.fns.length) ∧
      s'.fns[s.fns.length]? = some ⟨.code "__main__()".toList (.main t.conf (t.doctype root) root), s.insts.length, none, true⟩ ∧
      s'.frames = s.frames ∧ s'.insts.length = s.insts.length + 1 ∧
      (setting (Own aliasFor H) (first b₀ context)).K env.frame s s' ∧
      (setting (Own aliasFor H) (first b₀ context)).J s' := by
  obtain ⟨J1, j1, j2⟩ := hs.inst
  obtain ⟨kj, hkj, -⟩ := hs.kj
  obtain ⟨J0, z1, z2, z3⟩ := hs.inv
  have hlt : 0 < s.insts.length := (List.getElem?_eq_some_iff.1 z1).1
  have hsn : ¬Own aliasFor H "self".toList := own_not hr (by simp)
  have hcls : (program ts load aliasFor).classes[i]? = some (classOf t.functions t.base) := by
    unfold program
    dsimp only
    rw [List.getElem?_map, ht]
    rfl
  have hms := methods_fit hf
  let J : Inst := ⟨i, J0.globals, newGlobals s.insts.length t.base [("__main__".toList, .fn s.fns.length)] J0.globals,
    [("__main__".toList, .fn s.fns.length)]⟩
  let f : Inst → Inst := fun x => { x with globals := Dict.set x.globals (aliasFor href) (.inst s.insts.length) }
  let s1 : Store Part W := { s with
    fns := s.fns ++ [⟨.code "__main__()".toList (.main t.conf (t.doctype root) root), s.insts.length, none, true⟩]
    insts := s.insts ++ [J]
    «stacks» := fun j => if j = s.insts.length then ⟨[], []⟩ else s.stacks j }
  have e1 : newInst (program ts load aliasFor) i J0.globals s = ⟨.nil, s1, .ok s.insts.length⟩ := by
    unfold newInst
    rw [hcls]
    simp only [hms]
    rfl
  let s2 : Store Part W := { s1 with insts := s1.insts.modify 0 f }
  have hf' : ∀ x k, ¬Own aliasFor H k → Dict.get (f x).globals k = Dict.get x.globals k := fun x k hk =>
    Dict.get_set_other _ _ fun e => hk (.inr ⟨href, hh, e.symm⟩)
  refine ⟨s2, J, ?_, ?_, hlt, ?_, ?_, ?_, rfl, ?_, ⟨Nat.le_refl _, fun _ _ _ => rfl, fun j J' hJ => ?_, rfl⟩,
    f J0, ?_, keys_set _ _ _ z2, fun k hk => (hf' _ k hk).trans (z3 k hk)⟩
  · have hl' : (program ts load aliasFor).load href = some i := hload
    unfold importM globalInst importT
    simp only [M.bind, kjInst, hkj, M.ofOption, M.pure, getInst, j1, j2 _ hsn, hself, hl', z1, e1, modInst, M.modify]
    rfl
  · change ((s.insts ++ [J]).modify 0 f)[s.insts.length]? = _
    rw [List.getElem?_modify, List.getElem?_append_right (Nat.le_refl _), Nat.sub_self]
    simp [Nat.ne_of_lt hlt]
  · exact globals_included (.inl rfl) (own_not hr (by simp)) z2 hf.base z3
  · change Dict.get [("__main__".toList, Val.fn s.fns.length)] _ = _
    rw [Dict.get_cons, if_pos rfl]
  · change (s.fns ++ _)[s.fns.length]? = _
    rw [List.getElem?_append_right (Nat.le_refl _), Nat.sub_self]
    rfl
  · change ((s.insts ++ [J]).modify 0 f).length = _
    rw [List.length_modify, List.length_append]
    rfl
  · have hj : j < s.insts.length := (List.getElem?_eq_some_iff.1 hJ).1
    change ∃ J'', ((s.insts ++ [J]).modify 0 f)[j]? = some J'' ∧ _
    rw [List.getElem?_modify, List.getElem?_append_left hj, hJ]
    by_cases h0 : 0 = j
    · simp only [h0, if_true]
      exact ⟨_, rfl, hf' J'⟩
    · simp only [h0, if_false]
      exact ⟨_, rfl, fun _ _ => rfl⟩
  · change ((s.insts ++ [J]).modify 0 f)[0]? = _
    rw [List.getElem?_modify, List.getElem?_append_left hlt, z1]
    rfl

/-- Reading the main function of an included template. -/
theorem main_runs {P : Prog Part} {n f r : Nat} {body : Part} {J : Inst} {s : Store Part W}
    (hJ : s.insts[r]? = some J) (hpos : 0 < s.insts.length) (hl : Dict.get J.globals "local".toList = some (.inst 0))
    (hm : Dict.get J.attrs "__main__".toList = some (.fn f))
    (hf : s.fns[f]? = some ⟨.code "__main__()".toList body, r, none, true⟩)
    (ha : O.args "__main__()".toList [] s.world = (.ok [], s.world)) :
    emitMain (callDoc P O (n + 1)) .stream r s = part P O (callDoc P O n) ⟨r, s.frames.length, some 0, .stream⟩ body
      { s with frames := s.frames ++ [⟨[], none, none⟩] } := by
  have h1 : emitMain (callDoc P O (n + 1)) .stream r s = callDoc P O (n + 1) .stream f [] s := by
    simp only [emitMain, attrFn, M.bind, getInst, hJ, hm, M.pure, splice]
    rfl
  rw [h1, callDoc]
  unfold callWith
  simp only [M.bind, M.get, M.ofOption, hf, M.pure, ha, newFrame, getInst, hJ, hl, localInst, hpos, if_true]
  rfl

/-- Including a template where others may be nested less than `n` deep. -/
def Includes (O : Oracle W) (py : Py) (aliasFor : Str → Str) (H : Str → Bool) (ts : List Template) (load : Str → Option Nat)
    (g₀ : Dict Val) (n : Nat) : Prop :=
  ∀ (I : Inst) (env : Env), env.mode = .stream → Dict.get I.globals "self".toList = some (.inst 0) →
    ∀ href, H href = true → Does₀ (setting (W := W) (Own aliasFor H) g₀) I env
      (M.bind (importM (program ts load aliasFor) env href none) fun i =>
        emitMain (callDoc (program ts load aliasFor) O n) env.mode i)
      fun _ => included ts load py (fun k => Dict.get g₀ k) n href

theorem does_step (hr : Spec.Include.Runs O py load aliasFor H context ts)
    (hl₀ : Dict.get (first b₀ context) "local".toList = some (.inst 0))
    (hs₀ : Dict.get (first b₀ context) "self".toList = some (.inst 0)) (n : Nat)
    (ih : ∀ m, n = m + 1 → Includes O py aliasFor H ts load (first b₀ context) m) :
    Includes O py aliasFor H ts load (first b₀ context) n := by
  intro I env hm hself href hh s ρ hs
  have hln : ¬Own aliasFor H "local".toList := own_not hr (by simp)
  have hsn : ¬Own aliasFor H "self".toList := own_not hr (by simp)
  have hgn : ¬Own aliasFor H "gettext".toList := own_not hr (by simp)
  rw [hm]
  unfold included
  dsimp only
  have early : ∀ e, importM (program ts load aliasFor) env href none s = ⟨.nil, s, .error e⟩ → ∃ s' any,
      M.bind (importM (program ts load aliasFor) env href none)
        (fun i => emitMain (callDoc (program ts load aliasFor) O n) .stream i) s =
        ⟨⟨(keeping ρ (raise e)).text, any⟩, s', (keeping ρ (raise e)).res.map fun _ => ()⟩ ∧
      (setting (Own aliasFor H) (first b₀ context)).K env.frame s s' ∧
      ∀ ρ', (keeping ρ (raise e)).res = .ok ρ' → Ready (setting (Own aliasFor H) (first b₀ context)) I env ρ' s' := by
    intro e he
    rw [bind_error he]
    exact ⟨s, false, rfl, Setting.refl _ _ _, fun _ h => nomatch h⟩
  obtain ⟨J1, j1, j2⟩ := hs.inst
  obtain ⟨kj, hkj, Jk, k1, gk, k2⟩ := hs.kj
  obtain ⟨J0, z1, -, -⟩ := hs.inv
  cases hload : load href with
  | none =>
    refine early .ioError ?_
    have hl' : (program ts load aliasFor).load href = none := hload
    unfold importM globalInst importT
    simp only [M.bind, kjInst, hkj, M.ofOption, M.pure, getInst, j1, j2 _ hsn, hself, hl', M.throw]
    rfl
  | some i =>
  dsimp only
  cases ht : ts[i]? with
  | none =>
    have := hr.loads href i hload
    rw [List.getElem?_eq_none_iff] at ht
    omega
  | some t =>
  obtain ⟨root, hf⟩ := hr.fits t (List.mem_of_getElem? ht)
  obtain ⟨s1, J, e1, hJ, hpos, hG, hma, hfn, hfr, hlen, hK, hinv⟩ := import_runs hr hself hh hs hload ht hf
  rw [bind_ok e1]
  cases n with
  | zero =>
    have e2 : emitMain (callDoc (program ts load aliasFor) O 0) .stream s.insts.length s1 = ⟨.nil, s1, .error .recursion⟩ := by
      simp only [emitMain, attrFn, M.bind, getInst, hJ, hma, M.pure, splice]
      rfl
    rw [e2]
    exact ⟨s1, false, rfl, hK, fun _ h => nomatch h⟩
  | succ n =>
  have hJl : Dict.get J.globals "local".toList = some (.inst 0) := by
    rw [hG _ hln, get_append, hl₀]
    rfl
  have e2 := main_runs (P := program ts load aliasFor) (n := n) hJ (by omega) hJl hma hfn (hr.main _)
  rw [e2]
  let I' : Inst := { J with globals := first b₀ context ++ t.base }
  let env' : Env := ⟨s.insts.length, s1.frames.length, some 0, .stream⟩
  have hd := does_main (P := program ts load aliasFor) (n := n) (g₀ := first b₀ context) (I := I') (env := env') hr.blind
    hr.messages hr.noCalls hf (k := included ts load py (fun k => Dict.get (first b₀ context) k) n)
    (ih n rfl I' env' rfl (by
      change Dict.get (first b₀ context ++ t.base) _ = _
      rw [get_append, hs₀]
      rfl))
  obtain ⟨J0', y1, y2, y3⟩ := hinv
  have hg0 : ∃ g, Dict.get J0'.globals "gettext".toList = some g := by
    rw [y3 _ hgn]
    exact StaticDoc.globals_gettext _ _ _ _
  obtain ⟨s2, any, e3, ⟨q1, q2, q3, q4⟩, q5⟩ := hd { s1 with frames := s1.frames ++ [⟨[], none, none⟩] } []
    ⟨⟨none, by simp [env']⟩, ⟨J, hJ, hG⟩, ⟨0, rfl, J0', y1, hg0⟩, ⟨J0', y1, y2, y3⟩, fun _ h => False.elim h⟩
  rw [e3]
  dsimp only at q5 ⊢
  have hshown : shownIn ts load py (fun k => Dict.get (first b₀ context) k) (n + 1) i =
      ((put (t.doctype root)).seq (Spec.Pure.node
        { py with incl := included ts load py (fun k => Dict.get (first b₀ context) k) n } (glob I') (fun _ => none) t.conf
        (fun ρ => done ρ) [] root [])).next fun _ => done () := by
    have hGl : inherited (fun k => Dict.get (first b₀ context) k) t.base = glob I' := by
      funext k
      exact (get_append _ _ k).symm
    rw [shownIn, ht]
    dsimp only
    rw [hf.isRoot, hGl]
    rfl
  rw [hshown]
  generalize (put (t.doctype root)).seq (Spec.Pure.node
        { py with incl := included ts load py (fun k => Dict.get (first b₀ context) k) n } (glob I') (fun _ => none) t.conf
        (fun ρ => done ρ) [] root []) = d at q5 ⊢
  have hKs : (setting (W := W) (Own aliasFor H) (first b₀ context)).K env.frame s s2 := by
    obtain ⟨h1, h2, h3, h4⟩ := hK
    simp only [List.length_append, List.length_singleton] at q1 q2
    rw [hfr] at q1 q2
    refine ⟨by omega, fun j hj _ => ?_, fun j J hJ => ?_, q4.trans h4⟩
    · rw [q2 j (by omega) (by change j ≠ s1.frames.length; rw [hfr]; omega), List.getElem?_append_left hj]
    · obtain ⟨J', a1, a2⟩ := h3 j J hJ
      obtain ⟨J'', a3, a4⟩ := q3 j J' a1
      exact ⟨J'', a3, fun k hk => (a4 k hk).trans (a2 k hk)⟩
  refine ⟨s2, any, ?_, hKs, fun ρ' hρ => ?_⟩
  · obtain ⟨tx, r⟩ := d
    cases r with
    | error e => rfl
    | ok σ => simp [keeping, Spec.Pure.Shown.next, done, Except.map, Out.nil]; rfl
  · have hσ : (∃ σ, d.res = .ok σ) ∧ ρ' = ρ := by
      unfold keeping Spec.Pure.Shown.next at hρ
      cases hd : d.res with
      | error e => rw [hd] at hρ; cases hρ
      | ok σ => rw [hd] at hρ; cases hρ; exact ⟨⟨σ, rfl⟩, rfl⟩
    obtain ⟨⟨σ, hσ⟩, rfl⟩ := hσ
    have hr' := q5 σ hσ
    obtain ⟨co, hfr'⟩ := hs.frame
    obtain ⟨J1', b1, b2⟩ := hKs.2.2.1 _ _ j1
    obtain ⟨Jk', c1, c2⟩ := hKs.2.2.1 _ _ k1
    refine ⟨⟨co, ?_⟩, ⟨J1', b1, fun k hk => (b2 k hk).trans (j2 k hk)⟩, ⟨kj, hkj, Jk', c1, gk, (c2 _ hgn).trans k2⟩, hr'.inv,
      hs.clean⟩
    have hl := hs.lt
    simp only [List.length_append, List.length_singleton] at q2
    rw [hfr] at q2
    rw [q2 env.frame (by omega) (by change env.frame ≠ s1.frames.length; rw [hfr]; omega), List.getElem?_append_left hl, hfr']

theorem does_incl (hr : Spec.Include.Runs O py load aliasFor H context ts)
    (hl₀ : Dict.get (first b₀ context) "local".toList = some (.inst 0))
    (hs₀ : Dict.get (first b₀ context) "self".toList = some (.inst 0)) (n : Nat) :
    Includes O py aliasFor H ts load (first b₀ context) n := by
  induction n with
  | zero => exact does_step hr hl₀ hs₀ 0 fun m h => nomatch h
  | succ n ih => exact does_step hr hl₀ hs₀ (n + 1) fun m h => by cases h; exact ih

theorem first_names (hb : ∀ k ∈ ["local".toList, "self".toList], Dict.get b₀ k = none)
    (hc : ∀ k ∈ ["local".toList, "self".toList], Dict.get context k = none) :
    Dict.get (first b₀ context) "local".toList = some (.inst 0) ∧
    Dict.get (first b₀ context) "self".toList = some (.inst 0) := by
  refine ⟨StaticDoc.globals_local 0 _ _ _ (hb _ (by simp)) (by decide +kernel) (hc _ (by simp)), ?_⟩
  unfold first newGlobals
  dsimp only
  rw [Dict.get_set_other _ _ (by decide +kernel), Dict.get_set_other _ _ (by decide +kernel),
    StaticDoc.get_update_none _ (hc _ (by simp)), StaticDoc.get_update_none _ (by decide +kernel),
    StaticDoc.get_update_none _ (hb _ (by simp)), StaticDoc.get_update_none _ (by decide +kernel), Dict.get_cons,
    if_neg (by decide +kernel), Dict.get_cons, if_pos rfl]

theorem rendered_incl (hr : Spec.Include.Runs O py load aliasFor H context ts) {i : Nat} {t : Template} (ht : ts[i]? = some t)
    (n : Nat) (w : W) :
    let r := rendered (program ts load aliasFor) O n i context w
    let m := shownIn ts load py (globals t.base context) n i
    r.out.txt = m.text ∧ r.val = m.res ∧ r.st.world = w := by
  obtain ⟨root, hf⟩ := hr.fits t (List.mem_of_getElem? ht)
  obtain ⟨hl₀, hs₀⟩ := first_names (b₀ := t.base) hf.free hr.free
  have hcls : (program ts load aliasFor).classes[i]? = some (classOf t.functions t.base) := by
    unfold program
    dsimp only
    rw [List.getElem?_map, ht]
    rfl
  have hms := methods_fit hf
  let inst : Inst := ⟨i, context, first t.base context, [("__main__".toList, .fn 0)]⟩
  let s0 : Store Part W := ⟨[inst], [], [⟨.code "__main__()".toList (.main t.conf (t.doctype root) root), 0, none, true⟩], [],
    w, fun j => if j = 0 then ⟨[], []⟩ else ⟨[], []⟩⟩
  have h1 : newInst (program ts load aliasFor) i context (emptyStore _ w) = ⟨.nil, s0, .ok 0⟩ := by
    unfold newInst
    rw [hcls]
    simp only [hms]
    rfl
  have hma : Dict.get inst.attrs "__main__".toList = some (.fn 0) := by
    change Dict.get [("__main__".toList, Val.fn 0)] _ = _
    rw [Dict.get_cons, if_pos rfl]
  dsimp only
  unfold rendered
  rw [bind_ok h1]
  cases n with
  | zero =>
    have e2 : emitMain (callDoc (program ts load aliasFor) O 0) .stream 0 s0 = ⟨.nil, s0, .error .recursion⟩ := by
      simp only [emitMain, attrFn, M.bind, getInst, s0, List.getElem?_cons_zero, hma, M.pure, splice]
      rfl
    rw [e2]
    exact ⟨rfl, rfl, rfl⟩
  | succ n =>
  have e2 := main_runs (P := program ts load aliasFor) (n := n) (s := s0) (r := 0) (J := inst) rfl (Nat.zero_lt_one) hl₀ hma rfl
    (hr.main w)
  rw [e2]
  have hd := does_main (P := program ts load aliasFor) (n := n) (g₀ := first t.base context) (I := inst)
    (env := ⟨0, 0, some 0, .stream⟩) hr.blind
    hr.messages hr.noCalls hf (k := included ts load py (fun k => Dict.get (first t.base context) k) n)
    (does_incl hr hl₀ hs₀ n inst ⟨0, 0, some 0, .stream⟩ rfl hs₀)
  obtain ⟨s2, any, e3, ⟨-, -, -, q4⟩, -⟩ := hd { s0 with frames := s0.frames ++ [⟨[], none, none⟩] } []
    ⟨⟨none, rfl⟩, ⟨inst, rfl, fun _ _ => rfl⟩, ⟨0, rfl, inst, rfl, StaticDoc.globals_gettext _ _ _ _⟩,
      ⟨inst, rfl, globals_nodup _ _ _ _, fun _ _ => rfl⟩, fun _ h => False.elim h⟩
  have e4 : part (program ts load aliasFor) O (callDoc (program ts load aliasFor) O n) ⟨0, s0.frames.length, some 0, .stream⟩
    (.main t.conf (t.doctype root) root) { s0 with frames := s0.frames ++ [⟨[], none, none⟩] } = _ := e3
  rw [e4]
  dsimp only
  have hshown : shownIn ts load py (globals t.base context) (n + 1) i =
      ((put (t.doctype root)).seq (Spec.Pure.node
        { py with incl := included ts load py (fun k => Dict.get (first t.base context) k) n } (glob inst) (fun _ => none) t.conf
        (fun ρ => done ρ) [] root [])).next fun _ => done () := by
    have hGl : inherited (globals t.base context) t.base = glob inst := by
      funext k
      change (Dict.get (first t.base context) k).or _ = Dict.get (first t.base context) k
      cases hk : Dict.get (first t.base context) k with
      | some x => rfl
      | none => exact (globals_none hk).2.2.2.2.2.2 hf.base
    rw [shownIn, ht]
    dsimp only
    rw [hf.isRoot, hGl]
    rfl
  rw [hshown]
  generalize (put (t.doctype root)).seq (Spec.Pure.node
        { py with incl := included ts load py (fun k => Dict.get (first t.base context) k) n } (glob inst) (fun _ => none) t.conf
        (fun ρ => done ρ) [] root []) = d
  refine ⟨?_, ?_, q4⟩ <;> obtain ⟨tx, r⟩ := d <;> cases r <;> simp [Spec.Pure.Shown.next, done, Except.map]

end

end Kajiki.IncludeDoc
