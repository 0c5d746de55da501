import Verif.Spec.IncludeText
import Verif.Lemmas.Include
import Verif.Lemmas.PureText

/-! Rendering text templates that include others. -/

namespace Kajiki.IncludeTexts
open Kajiki.Run Kajiki.Spec.TextTree Kajiki.Spec.TextSem Kajiki.PureDoc
open Kajiki.Spec.Pure (Look Shown Py Vars look keeping visible Evals Blind Tidy)
open Kajiki.Spec.Pure.Shown (done raise put get)
open Kajiki.Spec.Fill (isNone)
open Kajiki.Spec.Include (inherited Own)
open Kajiki.Spec.IncludeText (shownIn Fits Ok OkAll Runs)
open Kajiki.IncludeDoc (keys_set keys_update get_append globals_nodup globals_none globals_included first first_names)
open Kajiki.PureTexts (spot does_test emit_shown)

section
variable {W : Type} {O : Oracle W} {py : Py} {aliasFor : Str → Str} {H : Str → Bool}

/-! ## Directives -/

mutual
theorem after_ok : ∀ d, Ok O py H d → after (spot false) d = spot false
  | .text _ _, _ => by unfold after; rfl
  | .expr _ _, _ => by unfold after; rfl
  | .ifD _ b, h => by unfold Ok at h; unfold after; exact afterAll_ok b h.2
  | .ifElse _ b b', h => by
    unfold Ok at h; unfold after; rw [afterAll_ok b h.2.1]; exact afterAll_ok b' h.2.2
  | .forD _ b, h => by unfold Ok at h; unfold after; exact afterAll_ok b h.2
  | .switchD _ b, h => by unfold Ok at h; unfold after; exact afterAll_ok b h.2
  | .caseD _ b, h => by unfold Ok at h; unfold after; exact afterAll_ok b h.2
  | .elseD b, h => by unfold Ok at h; unfold after; exact afterAll_ok b h
  | .py _ _, _ => by unfold after; rfl
  | .includeD _, _ => by unfold after; rfl
  | .blockD _ _, h => by unfold Ok at h; exact h.elim
  | .defD _ _, h => by unfold Ok at h; exact h.elim
  | .callD _ _ _, h => by unfold Ok at h; exact h.elim
  | .extendsD _, h => by unfold Ok at h; exact h.elim
  | .importD _ _, h => by unfold Ok at h; exact h.elim

theorem afterAll_ok : ∀ ds, OkAll O py H ds → afterAll (spot false) ds = spot false
  | [], _ => by unfold afterAll; rfl
  | d :: ds, h => by
    unfold OkAll at h
    unfold afterAll
    rw [after_ok d h.1]
    exact afterAll_ok ds h.2
end

mutual
theorem defs_ok (c : Conf) : ∀ d, Ok O py H d → defs c (spot false) d = []
  | .text _ _, _ => by unfold defs; rfl
  | .expr _ _, _ => by unfold defs; rfl
  | .ifD _ b, h => by unfold Ok at h; unfold defs; exact defsAll_ok c b h.2
  | .ifElse _ b b', h => by
    unfold Ok at h; unfold defs; rw [afterAll_ok b h.2.1, defsAll_ok c b h.2.1, defsAll_ok c b' h.2.2]; rfl
  | .forD _ b, h => by unfold Ok at h; unfold defs; exact defsAll_ok c b h.2
  | .switchD _ b, h => by unfold Ok at h; unfold defs; exact defsAll_ok c b h.2
  | .caseD _ b, h => by unfold Ok at h; unfold defs; exact defsAll_ok c b h.2
  | .elseD b, h => by unfold Ok at h; unfold defs; exact defsAll_ok c b h
  | .py _ _, _ => by unfold defs; rfl
  | .includeD _, _ => by unfold defs; rfl
  | .blockD _ _, h => by unfold Ok at h; exact h.elim
  | .defD _ _, h => by unfold Ok at h; exact h.elim
  | .callD _ _ _, h => by unfold Ok at h; exact h.elim
  | .extendsD _, h => by unfold Ok at h; exact h.elim
  | .importD _ _, h => by unfold Ok at h; exact h.elim

theorem defsAll_ok (c : Conf) : ∀ ds, OkAll O py H ds → defsAll c (spot false) ds = []
  | [], _ => by unfold defsAll; rfl
  | d :: ds, h => by
    unfold OkAll at h
    unfold defsAll
    rw [after_ok d h.1, defs_ok c d h.1, defsAll_ok c ds h.2]
    rfl
end

section
variable {S : Setting W Part} [Blind S.hid py] {I : Inst} {env : Env} (P : Prog Part)
  (call : Mode → Nat → List Val → MD W Unit) (c : Conf) (k : Str → Shown Unit) (hT : Tidy S.R py)
  (hm : env.mode = .stream)
  (hI : ∀ file, H file = true →
    Does₀ S I env (M.bind (importM P env file none) fun i => emitMain call env.mode i) fun _ => k file)

include hm in
theorem does_value {e : Str} (he : Evals O py e) : Does₀ S I env (shown O call env c.autoescape e)
    fun ρ => Spec.IncludeText.value { py with incl := k } c.autoescape (look (glob I) ρ) e := by
  unfold Spec.IncludeText.value
  refine Does₀.eval he fun v hv => ?_
  intro s ρ hs
  refine ⟨s, !isNone v, ?_, Setting.refl _ _ _, fun ρ' h => by cases h; exact hs⟩
  rw [hm, emit_shown call c.autoescape hv]
  simp [keeping, Spec.Pure.Shown.next, Spec.Pure.Shown.put, Spec.Pure.Shown.done, Except.map]

include hT hm hI

set_option linter.unusedSectionVars false in
mutual
theorem does_dir : ∀ d, Ok O py H d →
    Does S I env (dir P O call c env (spot false) d)
      (Spec.IncludeText.dir { py with incl := k } (glob I) c.autoescape d)
  | .text t _, _ => by unfold dir Spec.IncludeText.dir; exact Does₀.put t
  | .expr e _, h => by unfold Ok at h; unfold dir Spec.IncludeText.dir; exact does_value call c k hm h
  | .ifD e b, h => by
    unfold Ok at h
    unfold dir Spec.IncludeText.dir
    exact does_test h.1 (does_dirs b h.2) Does.done
  | .ifElse e b b', h => by
    unfold Ok at h
    unfold dir Spec.IncludeText.dir
    rw [afterAll_ok b h.2.1]
    exact does_test h.1 (does_dirs b h.2.1) (does_dirs b' h.2.2)
  | .forD e b, h => by
    unfold Ok at h
    unfold dir Spec.IncludeText.dir
    exact Does.iter h.1 hT fun bs hbs => Does.loop fun b' hb => Does.bind (Does.setVars (hbs b' hb)) (does_dirs b h.2)
  | .switchD e b, h => by
    unfold Ok at h
    unfold dir Spec.IncludeText.dir
    exact Does.kj (Does.eval h.1 fun v _ => Does.bind (does_choice v b h.2) (does_dirs b h.2))
  | .caseD _ _, _ => by unfold dir Spec.IncludeText.dir; exact Does.done
  | .elseD _, _ => by unfold dir Spec.IncludeText.dir; exact Does.done
  | .py ml ls, h => by
    unfold Ok at h
    unfold dir Spec.IncludeText.dir python
    cases ml with
    | true => exact Does.done
    | false => exact Does.pyBlock (py := py) h hT
  | .includeD f, h => by
    unfold Ok at h
    unfold dir Spec.IncludeText.dir
    exact hI f h
  | .blockD _ _, h => by unfold Ok at h; exact h.elim
  | .defD _ _, h => by unfold Ok at h; exact h.elim
  | .callD _ _ _, h => by unfold Ok at h; exact h.elim
  | .extendsD _, h => by unfold Ok at h; exact h.elim
  | .importD _ _, h => by unfold Ok at h; exact h.elim

theorem does_dirs : ∀ ds, OkAll O py H ds →
    Does S I env (dirs P O call c env (spot false) ds)
      (Spec.IncludeText.dirs { py with incl := k } (glob I) c.autoescape ds)
  | [], _ => by unfold dirs Spec.IncludeText.dirs; exact Does.done
  | d :: ds, h => by
    unfold OkAll at h
    unfold dirs Spec.IncludeText.dirs
    rw [after_ok d h.1]
    exact Does.bind (does_dir d h.1) (does_dirs ds h.2)

theorem does_choice (v : Val) : ∀ ds, OkAll O py H ds →
    Does S I env (choice P O call c env (spot false) v ds)
      (Spec.IncludeText.choice { py with incl := k } (glob I) c.autoescape v ds)
  | .caseD e b :: ds, h => by
    unfold OkAll Ok at h
    unfold choice Spec.IncludeText.choice
    rw [afterAll_ok b h.1.2]
    refine Does.eval h.1.1 fun u _ => ?_
    split
    · exact does_dirs b h.1.2
    · exact does_choice v ds h.2
  | .elseD b :: ds, h => by
    unfold OkAll Ok at h
    unfold choice Spec.IncludeText.choice
    exact does_dirs b h.1
  | [], _ => by unfold choice Spec.IncludeText.choice; exact Does.done
  | .text _ _ :: _, _ => by unfold choice Spec.IncludeText.choice; exact Does.done
  | .expr _ _ :: _, _ => by unfold choice Spec.IncludeText.choice; exact Does.done
  | .ifD _ _ :: _, _ => by unfold choice Spec.IncludeText.choice; exact Does.done
  | .ifElse _ _ _ :: _, _ => by unfold choice Spec.IncludeText.choice; exact Does.done
  | .forD _ _ :: _, _ => by unfold choice Spec.IncludeText.choice; exact Does.done
  | .switchD _ _ :: _, _ => by unfold choice Spec.IncludeText.choice; exact Does.done
  | .defD _ _ :: _, _ => by unfold choice Spec.IncludeText.choice; exact Does.done
  | .callD _ _ _ :: _, _ => by unfold choice Spec.IncludeText.choice; exact Does.done
  | .blockD _ _ :: _, _ => by unfold choice Spec.IncludeText.choice; exact Does.done
  | .py _ _ :: _, _ => by unfold choice Spec.IncludeText.choice; exact Does.done
  | .extendsD _ :: _, _ => by unfold choice Spec.IncludeText.choice; exact Does.done
  | .importD _ _ :: _, _ => by unfold choice Spec.IncludeText.choice; exact Does.done
  | .includeD _ :: _, _ => by unfold choice Spec.IncludeText.choice; exact Does.done
end

end

/-- Directives that only declare something show nothing. -/
theorem silent_dirs {py' : Py} {G : Look} {esc : Bool} :
    ∀ ds, OkAll O py H ds → silentAll (spot false) ds = true → ∀ ρ, Spec.IncludeText.dirs py' G esc ds ρ = done ρ
  | [], _, _, _ => by unfold Spec.IncludeText.dirs; rfl
  | d :: ds, h, hs, ρ => by
    unfold OkAll at h
    unfold silentAll at hs
    rw [Bool.and_eq_true, after_ok d h.1] at hs
    have ih := silent_dirs (py' := py') (G := G) (esc := esc) ds h.2 hs.2
    have hd : Spec.IncludeText.dir py' G esc d ρ = done ρ := by
      have h1 := h.1
      have h2 := hs.1
      unfold silent at h2
      cases d with
      | defD _ _ => unfold Ok at h1; exact h1.elim
      | blockD _ b => unfold Ok at h1; exact h1.elim
      | py ml ls =>
        dsimp only at h2
        unfold Spec.IncludeText.dir
        rw [h2]
        rfl
      | _ => cases h2
    unfold Spec.IncludeText.dirs
    rw [hd]
    exact ih ρ

theorem does_content {S : Setting W Part} {I : Inst} {env : Env} {m : MD W Unit} {py' : Py} {esc : Bool}
    {ds : List Dir} (h : OkAll O py H ds)
    (hr : silentAll (spot false) ds = true ∨ speaksAny (spot false) ds = true)
    (hd : Does S I env m (Spec.IncludeText.dirs py' (glob I) esc ds)) :
    Does S I env (if silentAll (spot false) ds then say [] else reading (speaksAny (spot false) ds) m)
      (Spec.IncludeText.dirs py' (glob I) esc ds) := by
  cases hs : silentAll (spot false) ds with
  | true =>
    rw [if_pos rfl]
    have : Spec.IncludeText.dirs py' (glob I) esc ds = fun ρ => done ρ := funext (silent_dirs ds h hs)
    rw [this]
    exact Does.congr (Does₀.put []) fun ρ => rfl
  | false =>
    rw [hs] at hr
    rw [if_neg Bool.false_ne_true, hr.resolve_left Bool.false_ne_true, reading_true]
    exact hd

/-! ## Including -/

/-- Nothing but scopes and names that are different in each template changes. -/
def setting (hid : Str → Prop) (g₀ : Dict Val) : Setting W Part where
  K fr s s' := s.frames.length ≤ s'.frames.length ∧ (∀ j < s.frames.length, j ≠ fr → s'.frames[j]? = s.frames[j]?) ∧
    (∀ (j : Nat) (J : Inst), s.insts[j]? = some J → ∃ J' : Inst, s'.insts[j]? = some J' ∧
      ∀ k, ¬hid k → Dict.get J'.globals k = Dict.get J.globals k) ∧ s'.world = s.world
  J s := ∃ J : Inst, s.insts[0]? = some J ∧ (J.globals.map (·.1)).Nodup ∧ ∀ k, ¬hid k → Dict.get J.globals k = Dict.get g₀ k
  R _ := False
  π _ := none
  hid := hid
  refl _ _ := ⟨Nat.le_refl _, fun _ _ _ => rfl, fun _ J h => ⟨J, h, fun _ _ => rfl⟩, rfl⟩
  trans h1 h2 := ⟨Nat.le_trans h1.1 h2.1, fun j hj hne =>
    (h2.2.1 j (Nat.lt_of_lt_of_le hj h1.1) hne).trans (h1.2.1 j hj hne), fun j J hJ => by
      obtain ⟨J', h3, h4⟩ := h1.2.2.1 j J hJ
      obtain ⟨J'', h5, h6⟩ := h2.2.2.1 j J' h3
      exact ⟨J'', h5, fun k hk => (h6 k hk).trans (h4 k hk)⟩, h2.2.2.2.trans h1.2.2.2⟩
  frames _ _ _ h1 h2 := ⟨h1, h2, fun _ J h => ⟨J, h, fun _ _ => rfl⟩, rfl⟩
  inv _ _ h := h

/-- What an included template shows. -/
def included (ts : List Template) (load : Str → Option Nat) (py : Py) (G : Look) (n : Nat) (file : Str) : Shown Unit :=
  match load file with
  | none => raise .ioError
  | some j => shownIn ts load py G n j

theorem functions_fit {t : Template} (h : Fits O py H t) :
    t.functions = [("__main__()".toList, Part.body t.conf .start t.tree)] := by
  unfold Template.functions
  dsimp only
  rw [show defsAll t.conf .start t.tree = _ from defsAll_ok t.conf t.tree h.ok]
  generalize "__main__()".toList = m
  simp [Dict.update, Dict.set]

theorem methods_fit {t : Template} (h : Fits O py H t) : (classOf t.functions t.base).methods =
    [("__main__".toList, "__main__()".toList, Part.body t.conf .start t.tree)] := by
  rw [functions_fit h]
  have : declName "__main__()".toList = "__main__".toList := by decide +kernel
  simp only [classOf, methodsOf, List.foldl_cons, List.foldl_nil, this]
  rfl

/-- Running the main function of a template. -/
theorem does_main {P : Prog Part} {n : Nat} {hid : Str → Prop} {g₀ : Dict Val} {I : Inst} {env : Env} {t : Template}
    {k : Str → Shown Unit} (hB : Blind hid py) (hm : env.mode = .stream) (hf : Fits O py H t)
    (hI : ∀ file, H file = true → Does₀ (setting (W := W) hid g₀) I env
      (M.bind (importM P env file none) fun i => emitMain (callText P O n) env.mode i) fun _ => k file) :
    Does (setting (W := W) hid g₀) I env (part P O (callText P O n) env (.body t.conf .start t.tree))
      (Spec.IncludeText.dirs { py with incl := k } (glob I) t.conf.autoescape t.tree) := by
  have : Blind (setting (W := W) hid g₀).hid py := hB
  exact does_content hf.ok hf.reads (does_dirs (py := py) P _ t.conf k
    ⟨fun _ _ _ _ _ _ _ h => False.elim h, fun _ _ _ _ _ h => False.elim h⟩ hm hI t.tree hf.ok)

variable {ts : List Template} {load : Str → Option Nat} {context : Dict Val} {b₀ : Dict Val}

theorem own_not (hr : Runs O py H load aliasFor context ts) {k : Str}
    (hk : k ∈ ["local".toList, "self".toList, "gettext".toList]) : ¬Own aliasFor H k := by
  rintro (rfl | ⟨href, h, rfl⟩)
  · exact absurd hk (by decide +kernel)
  · exact hr.names href h hk

/-- The instance of an included template. -/
theorem import_runs (hr : Runs O py H load aliasFor context ts)
    {I : Inst} {env : Env} (hself : Dict.get I.globals "self".toList = some (.inst 0)) {href : Str} (hh : H href = true)
    {ρ : Vars} {s : Store Part W} (hs : Ready (setting (Own aliasFor H) (first b₀ context)) I env ρ s) {i : Nat}
    (hload : load href = some i) {t : Template} (ht : ts[i]? = some t) (hf : Fits O py H t) :
    ∃ s' J, importM (program ts load aliasFor) env href none s = ⟨.nil, s', .ok s.insts.length⟩ ∧
      s'.insts[s.insts.length]? = some J ∧ 0 < s.insts.length ∧
      (∀ k, ¬Own aliasFor H k → Dict.get J.globals k = Dict.get (first b₀ context ++ t.base) k) ∧
      Dict.get J.attrs "__main__".toList = some (.fn s.fns.length) ∧
      s'.fns[s.fns.length]? = some ⟨.code "__main__()".toList (.body t.conf .start t.tree), s.insts.length, none, true⟩ ∧
      s'.frames = s.frames ∧ s'.insts.length = s.insts.length + 1 ∧
      (setting (Own aliasFor H) (first b₀ context)).K env.frame s s' ∧
      (setting (Own aliasFor H) (first b₀ context)).J s' := by
  obtain ⟨J1, j1, j2⟩ := hs.inst
  obtain ⟨kj, hkj, -⟩ := hs.kj
  obtain ⟨J0, z1, z2, z3⟩ := hs.inv
  have hlt : 0 < s.insts.length := (List.getElem?_eq_some_iff.1 z1).1
  have hsn : ¬Own aliasFor H "self".toList := own_not hr (by simp)
  have hcls : (program ts load aliasFor).classes[i]? = some (classOf t.functions t.base) := by
    unfold program
    dsimp only
    rw [List.getElem?_map, ht]
    rfl
  have hms := methods_fit hf
  let J : Inst := ⟨i, J0.globals, newGlobals s.insts.length t.base [("__main__".toList, .fn s.fns.length)] J0.globals,
    [("__main__".toList, .fn s.fns.length)]⟩
  let f : Inst → Inst := fun x => { x with globals := Dict.set x.globals (aliasFor href) (.inst s.insts.length) }
  let s1 : Store Part W := { s with
    fns := s.fns ++ [⟨.code "__main__()".toList (.body t.conf .start t.tree), s.insts.length, none, true⟩]
    insts := s.insts ++ [J]
    «stacks» := fun j => if j = s.insts.length then ⟨[], []⟩ else s.stacks j }
  have e1 : newInst (program ts load aliasFor) i J0.globals s = ⟨.nil, s1, .ok s.insts.length⟩ := by
    unfold newInst
    rw [hcls]
    simp only [hms]
    rfl
  let s2 : Store Part W := { s1 with insts := s1.insts.modify 0 f }
  have hf' : ∀ x k, ¬Own aliasFor H k → Dict.get (f x).globals k = Dict.get x.globals k := fun x k hk =>
    Dict.get_set_other _ _ fun e => hk (.inr ⟨href, hh, e.symm⟩)
  refine ⟨s2, J, ?_, ?_, hlt, ?_, ?_, ?_, rfl, ?_, ⟨Nat.le_refl _, fun _ _ _ => rfl, fun j J' hJ => ?_, rfl⟩,
    f J0, ?_, keys_set _ _ _ z2, fun k hk => (hf' _ k hk).trans (z3 k hk)⟩
  · have hl' : (program ts load aliasFor).load href = some i := hload
    unfold importM globalInst importT
    simp only [M.bind, kjInst, hkj, M.ofOption, M.pure, getInst, j1, j2 _ hsn, hself, hl', z1, e1, modInst, M.modify]
    rfl
  · change ((s.insts ++ [J]).modify 0 f)[s.insts.length]? = _
    rw [List.getElem?_modify, List.getElem?_append_right (Nat.le_refl _), Nat.sub_self]
    simp [Nat.ne_of_lt hlt]
  · exact globals_included (.inl rfl) (own_not hr (by simp)) z2 hf.base z3
  · change Dict.get [("__main__".toList, Val.fn s.fns.length)] _ = _
    rw [Dict.get_cons, if_pos rfl]
  · change (s.fns ++ _)[s.fns.length]? = _
    rw [List.getElem?_append_right (Nat.le_refl _), Nat.sub_self]
    rfl
  · change ((s.insts ++ [J]).modify 0 f).length = _
    rw [List.length_modify, List.length_append]
    rfl
  · have hj : j < s.insts.length := (List.getElem?_eq_some_iff.1 hJ).1
    change ∃ J'', ((s.insts ++ [J]).modify 0 f)[j]? = some J'' ∧ _
    rw [List.getElem?_modify, List.getElem?_append_left hj, hJ]
    by_cases h0 : 0 = j
    · simp only [h0, if_true]
      exact ⟨_, rfl, hf' J'⟩
    · simp only [h0, if_false]
      exact ⟨_, rfl, fun _ _ => rfl⟩
  · change ((s.insts ++ [J]).modify 0 f)[0]? = _
    rw [List.getElem?_modify, List.getElem?_append_left hlt, z1]
    rfl

/-- Reading the main function of an included template. -/
theorem main_runs {P : Prog Part} {n f r : Nat} {body : Part} {J : Inst} {s : Store Part W}
    (hJ : s.insts[r]? = some J) (hpos : 0 < s.insts.length) (hl : Dict.get J.globals "local".toList = some (.inst 0))
    (hm : Dict.get J.attrs "__main__".toList = some (.fn f))
    (hf : s.fns[f]? = some ⟨.code "__main__()".toList body, r, none, true⟩)
    (ha : O.args "__main__()".toList [] s.world = (.ok [], s.world)) :
    emitMain (callText P O (n + 1)) .stream r s = part P O (callText P O n) ⟨r, s.frames.length, some 0, .stream⟩ body
      { s with frames := s.frames ++ [⟨[], none, none⟩] } := by
  have h1 : emitMain (callText P O (n + 1)) .stream r s = callText P O (n + 1) .stream f [] s := by
    simp only [emitMain, attrFn, M.bind, getInst, hJ, hm, M.pure, splice]
    rfl
  rw [h1, callText]
  unfold callWith
  simp only [M.bind, M.get, M.ofOption, hf, M.pure, ha, newFrame, getInst, hJ, hl, localInst, hpos, if_true]
  rfl

/-- Including a template where others may be nested less than `n` deep. -/
def Includes (O : Oracle W) (py : Py) (aliasFor : Str → Str) (H : Str → Bool) (ts : List Template) (load : Str → Option Nat)
    (g₀ : Dict Val) (n : Nat) : Prop :=
  ∀ (I : Inst) (env : Env), env.mode = .stream → Dict.get I.globals "self".toList = some (.inst 0) →
    ∀ href, H href = true → Does₀ (setting (W := W) (Own aliasFor H) g₀) I env
      (M.bind (importM (program ts load aliasFor) env href none) fun i =>
        emitMain (callText (program ts load aliasFor) O n) env.mode i)
      fun _ => included ts load py (fun k => Dict.get g₀ k) n href

theorem does_step (hr : Runs O py H load aliasFor context ts)
    (hl₀ : Dict.get (first b₀ context) "local".toList = some (.inst 0))
    (hs₀ : Dict.get (first b₀ context) "self".toList = some (.inst 0)) (n : Nat)
    (ih : ∀ m, n = m + 1 → Includes O py aliasFor H ts load (first b₀ context) m) :
    Includes O py aliasFor H ts load (first b₀ context) n := by
  intro I env hm hself href hh s ρ hs
  have hln : ¬Own aliasFor H "local".toList := own_not hr (by simp)
  have hsn : ¬Own aliasFor H "self".toList := own_not hr (by simp)
  have hgn : ¬Own aliasFor H "gettext".toList := own_not hr (by simp)
  rw [hm]
  unfold included
  dsimp only
  have early : ∀ e, importM (program ts load aliasFor) env href none s = ⟨.nil, s, .error e⟩ → ∃ s' any,
      M.bind (importM (program ts load aliasFor) env href none)
        (fun i => emitMain (callText (program ts load aliasFor) O n) .stream i) s =
        ⟨⟨(keeping ρ (raise e)).text, any⟩, s', (keeping ρ (raise e)).res.map fun _ => ()⟩ ∧
      (setting (Own aliasFor H) (first b₀ context)).K env.frame s s' ∧
      ∀ ρ', (keeping ρ (raise e)).res = .ok ρ' → Ready (setting (Own aliasFor H) (first b₀ context)) I env ρ' s' := by
    intro e he
    rw [bind_error he]
    exact ⟨s, false, rfl, Setting.refl _ _ _, fun _ h => nomatch h⟩
  obtain ⟨J1, j1, j2⟩ := hs.inst
  obtain ⟨kj, hkj, Jk, k1, gk, k2⟩ := hs.kj
  obtain ⟨J0, z1, -, -⟩ := hs.inv
  cases hload : load href with
  | none =>
    refine early .ioError ?_
    have hl' : (program ts load aliasFor).load href = none := hload
    unfold importM globalInst importT
    simp only [M.bind, kjInst, hkj, M.ofOption, M.pure, getInst, j1, j2 _ hsn, hself, hl', M.throw]
    rfl
  | some i =>
  dsimp only
  cases ht : ts[i]? with
  | none =>
    have := hr.loads href i hload
    rw [List.getElem?_eq_none_iff] at ht
    omega
  | some t =>
  have hf := hr.fits t (List.mem_of_getElem? ht)
  obtain ⟨s1, J, e1, hJ, hpos, hG, hma, hfn, hfr, hlen, hK, hinv⟩ := import_runs hr hself hh hs hload ht hf
  rw [bind_ok e1]
  cases n with
  | zero =>
    have e2 : emitMain (callText (program ts load aliasFor) O 0) .stream s.insts.length s1 = ⟨.nil, s1, .error .recursion⟩ := by
      simp only [emitMain, attrFn, M.bind, getInst, hJ, hma, M.pure, splice]
      rfl
    rw [e2]
    exact ⟨s1, false, rfl, hK, fun _ h => nomatch h⟩
  | succ n =>
  have hJl : Dict.get J.globals "local".toList = some (.inst 0) := by
    rw [hG _ hln, get_append, hl₀]
    rfl
  have e2 := main_runs (P := program ts load aliasFor) (n := n) hJ (by omega) hJl hma hfn (hr.main _)
  rw [e2]
  let I' : Inst := { J with globals := first b₀ context ++ t.base }
  let env' : Env := ⟨s.insts.length, s1.frames.length, some 0, .stream⟩
  have hd := does_main (P := program ts load aliasFor) (n := n) (g₀ := first b₀ context) (I := I') (env := env') hr.blind
    rfl hf (k := included ts load py (fun k => Dict.get (first b₀ context) k) n)
    (ih n rfl I' env' rfl (by
      change Dict.get (first b₀ context ++ t.base) _ = _
      rw [get_append, hs₀]
      rfl))
  obtain ⟨J0', y1, y2, y3⟩ := hinv
  have hg0 : ∃ g, Dict.get J0'.globals "gettext".toList = some g := by
    rw [y3 _ hgn]
    exact StaticDoc.globals_gettext _ _ _ _
  obtain ⟨s2, any, e3, ⟨q1, q2, q3, q4⟩, q5⟩ := hd { s1 with frames := s1.frames ++ [⟨[], none, none⟩] } []
    ⟨⟨none, by simp [env']⟩, ⟨J, hJ, hG⟩, ⟨0, rfl, J0', y1, hg0⟩, ⟨J0', y1, y2, y3⟩, fun _ h => False.elim h⟩
  rw [e3]
  dsimp only at q5 ⊢
  have hshown : shownIn ts load py (fun k => Dict.get (first b₀ context) k) (n + 1) i =
      (Spec.IncludeText.dirs { py with incl := included ts load py (fun k => Dict.get (first b₀ context) k) n }
        (glob I') t.conf.autoescape t.tree []).next fun _ => done () := by
    have hGl : inherited (fun k => Dict.get (first b₀ context) k) t.base = glob I' := by
      funext k
      exact (get_append _ _ k).symm
    rw [shownIn, ht]
    dsimp only
    rw [hGl]
    rfl
  rw [hshown]
  generalize Spec.IncludeText.dirs { py with incl := included ts load py (fun k => Dict.get (first b₀ context) k) n }
        (glob I') t.conf.autoescape t.tree [] = d at q5 ⊢
  have hKs : (setting (W := W) (Own aliasFor H) (first b₀ context)).K env.frame s s2 := by
    obtain ⟨h1, h2, h3, h4⟩ := hK
    simp only [List.length_append, List.length_singleton] at q1 q2
    rw [hfr] at q1 q2
    refine ⟨by omega, fun j hj _ => ?_, fun j J hJ => ?_, q4.trans h4⟩
    · rw [q2 j (by omega) (by change j ≠ s1.frames.length; rw [hfr]; omega), List.getElem?_append_left hj]
    · obtain ⟨J', a1, a2⟩ := h3 j J hJ
      obtain ⟨J'', a3, a4⟩ := q3 j J' a1
      exact ⟨J'', a3, fun k hk => (a4 k hk).trans (a2 k hk)⟩
  refine ⟨s2, any, ?_, hKs, fun ρ' hρ => ?_⟩
  · obtain ⟨tx, r⟩ := d
    cases r with
    | error e => rfl
    | ok σ => simp [keeping, Spec.Pure.Shown.next, done, Except.map, Out.nil]; rfl
  · have hσ : (∃ σ, d.res = .ok σ) ∧ ρ' = ρ := by
      unfold keeping Spec.Pure.Shown.next at hρ
      cases hd : d.res with
      | error e => rw [hd] at hρ; cases hρ
      | ok σ => rw [hd] at hρ; cases hρ; exact ⟨⟨σ, rfl⟩, rfl⟩
    obtain ⟨⟨σ, hσ⟩, rfl⟩ := hσ
    have hr' := q5 σ hσ
    obtain ⟨co, hfr'⟩ := hs.frame
    obtain ⟨J1', b1, b2⟩ := hKs.2.2.1 _ _ j1
    obtain ⟨Jk', c1, c2⟩ := hKs.2.2.1 _ _ k1
    refine ⟨⟨co, ?_⟩, ⟨J1', b1, fun k hk => (b2 k hk).trans (j2 k hk)⟩, ⟨kj, hkj, Jk', c1, gk, (c2 _ hgn).trans k2⟩, hr'.inv,
      hs.clean⟩
    have hl := hs.lt
    simp only [List.length_append, List.length_singleton] at q2
    rw [hfr] at q2
    rw [q2 env.frame (by omega) (by change env.frame ≠ s1.frames.length; rw [hfr]; omega), List.getElem?_append_left hl, hfr']

theorem does_incl (hr : Runs O py H load aliasFor context ts)
    (hl₀ : Dict.get (first b₀ context) "local".toList = some (.inst 0))
    (hs₀ : Dict.get (first b₀ context) "self".toList = some (.inst 0)) (n : Nat) :
    Includes O py aliasFor H ts load (first b₀ context) n := by
  induction n with
  | zero => exact does_step hr hl₀ hs₀ 0 fun m h => nomatch h
  | succ n ih => exact does_step hr hl₀ hs₀ (n + 1) fun m h => by cases h; exact ih

theorem rendered_incl (hr : Runs O py H load aliasFor context ts) {i : Nat} {t : Template} (ht : ts[i]? = some t)
    (n : Nat) (w : W) :
    let r := rendered (program ts load aliasFor) O n i context w
    let m := shownIn ts load py (globals t.base context) n i
    r.out.txt = m.text ∧ r.val = m.res ∧ r.st.world = w := by
  have hf := hr.fits t (List.mem_of_getElem? ht)
  obtain ⟨hl₀, hs₀⟩ := first_names (b₀ := t.base) hf.free hr.free
  have hcls : (program ts load aliasFor).classes[i]? = some (classOf t.functions t.base) := by
    unfold program
    dsimp only
    rw [List.getElem?_map, ht]
    rfl
  have hms := methods_fit hf
  let inst : Inst := ⟨i, context, first t.base context, [("__main__".toList, .fn 0)]⟩
  let s0 : Store Part W := ⟨[inst], [], [⟨.code "__main__()".toList (.body t.conf .start t.tree), 0, none, true⟩], [],
    w, fun j => if j = 0 then ⟨[], []⟩ else ⟨[], []⟩⟩
  have h1 : newInst (program ts load aliasFor) i context (emptyStore _ w) = ⟨.nil, s0, .ok 0⟩ := by
    unfold newInst
    rw [hcls]
    simp only [hms]
    rfl
  have hma : Dict.get inst.attrs "__main__".toList = some (.fn 0) := by
    change Dict.get [("__main__".toList, Val.fn 0)] _ = _
    rw [Dict.get_cons, if_pos rfl]
  dsimp only
  unfold rendered
  rw [bind_ok h1]
  cases n with
  | zero =>
    have e2 : emitMain (callText (program ts load aliasFor) O 0) .stream 0 s0 = ⟨.nil, s0, .error .recursion⟩ := by
      simp only [emitMain, attrFn, M.bind, getInst, s0, List.getElem?_cons_zero, hma, M.pure, splice]
      rfl
    rw [e2]
    exact ⟨rfl, rfl, rfl⟩
  | succ n =>
  have e2 := main_runs (P := program ts load aliasFor) (n := n) (s := s0) (r := 0) (J := inst) rfl (Nat.zero_lt_one) hl₀ hma rfl
    (hr.main w)
  rw [e2]
  have hd := does_main (P := program ts load aliasFor) (n := n) (g₀ := first t.base context) (I := inst)
    (env := ⟨0, 0, some 0, .stream⟩) hr.blind
    rfl hf (k := included ts load py (fun k => Dict.get (first t.base context) k) n)
    (does_incl hr hl₀ hs₀ n inst ⟨0, 0, some 0, .stream⟩ rfl hs₀)
  obtain ⟨s2, any, e3, ⟨-, -, -, q4⟩, -⟩ := hd { s0 with frames := s0.frames ++ [⟨[], none, none⟩] } []
    ⟨⟨none, rfl⟩, ⟨inst, rfl, fun _ _ => rfl⟩, ⟨0, rfl, inst, rfl, StaticDoc.globals_gettext _ _ _ _⟩,
      ⟨inst, rfl, globals_nodup _ _ _ _, fun _ _ => rfl⟩, fun _ h => False.elim h⟩
  have e4 : part (program ts load aliasFor) O (callText (program ts load aliasFor) O n) ⟨0, s0.frames.length, some 0, .stream⟩
    (.body t.conf .start t.tree) { s0 with frames := s0.frames ++ [⟨[], none, none⟩] } = _ := e3
  rw [e4]
  dsimp only
  have hshown : shownIn ts load py (globals t.base context) (n + 1) i =
      (Spec.IncludeText.dirs { py with incl := included ts load py (fun k => Dict.get (first t.base context) k) n }
        (glob inst) t.conf.autoescape t.tree []).next fun _ => done () := by
    have hGl : inherited (globals t.base context) t.base = glob inst := by
      funext k
      change (Dict.get (first t.base context) k).or _ = Dict.get (first t.base context) k
      cases hk : Dict.get (first t.base context) k with
      | some x => rfl
      | none => exact (globals_none hk).2.2.2.2.2.2 hf.base
    rw [shownIn, ht]
    dsimp only
    rw [hGl]
    rfl
  rw [hshown]
  generalize Spec.IncludeText.dirs { py with incl := included ts load py (fun k => Dict.get (first t.base context) k) n }
        (glob inst) t.conf.autoescape t.tree [] = d
  refine ⟨?_, ?_, q4⟩ <;> obtain ⟨tx, r⟩ := d <;> cases r <;> simp [Spec.Pure.Shown.next, done, Except.map]

end

end Kajiki.IncludeTexts
