import Verif.Spec.PureText
import Verif.Lemmas.FunsCore
import Verif.Lemmas.Methods

/-! What text templates show. -/

namespace Kajiki.PureTexts
open Kajiki.Run Kajiki.Spec.TextTree Kajiki.Spec.TextSem Kajiki.PureDoc Kajiki.FunsDoc
open Kajiki.LayoutDoc (callEnv)
open Kajiki.Spec.Pure (Look Shown Py Vars look keeping visible Evals Clean Tidy ownNames)
open Kajiki.Spec.Pure.Shown (done raise put get)
open Kajiki.Spec.Fill (escapedValue plainValue isNone settled)
open Kajiki.Spec.Funs (Calls CallsFunctions)
open Kajiki.Spec.PureText (fnsAll fns Ok OkAll mayCall pyWith meaning readable Reserved Runs)

/-- A place, in a `%def` or not. -/
abbrev spot (q : Bool) : Spot := ⟨q, false, 0⟩

/-- The function of the compiled template. -/
def fnPart (c : Conf) : Spec.PureText.Fn → Str × Part
  | .block q name b => (blockDecl name, .block c (spot q) name b)
  | .defn decl b => (strip decl, .body c (spot true) b)

theorem fnPart_decl (c : Conf) (d : Spec.PureText.Fn) : (fnPart c d).1 = d.decl := by cases d <;> rfl

section
variable {W : Type} {O : Oracle W} {py : Py} {calls : Str → Bool}

mutual
theorem after_ok (q : Bool) : ∀ d, Ok O py calls q d → after (spot q) d = spot q
  | .text _ _, _ => by unfold after; rfl
  | .expr _ _, _ => by unfold after; rfl
  | .ifD _ b, h => by unfold Ok at h; unfold after; exact afterAll_ok q b h.2
  | .ifElse _ b b', h => by
    unfold Ok at h; unfold after; rw [afterAll_ok q b h.2.1]; exact afterAll_ok q b' h.2.2
  | .forD _ b, h => by unfold Ok at h; unfold after; exact afterAll_ok q b h.2
  | .switchD _ b, h => by unfold Ok at h; unfold after; exact afterAll_ok q b h.2
  | .caseD _ b, h => by unfold Ok at h; unfold after; exact afterAll_ok q b h.2
  | .elseD b, h => by unfold Ok at h; unfold after; exact afterAll_ok q b h
  | .blockD _ b, h => by unfold Ok at h; unfold after; exact afterAll_ok q b h
  | .defD _ b, h => by
    unfold Ok at h
    unfold after
    have := afterAll_ok true b h.2
    change ({ afterAll (spot true) b with inDef := q } : Spot) = _
    rw [this]
  | .py _ _, _ => by unfold after; rfl
  | .callD _ _ _, h => by unfold Ok at h; exact h.elim
  | .extendsD _, h => by unfold Ok at h; exact h.elim
  | .importD _ _, h => by unfold Ok at h; exact h.elim
  | .includeD _, h => by unfold Ok at h; exact h.elim

theorem afterAll_ok (q : Bool) : ∀ ds, OkAll O py calls q ds → afterAll (spot q) ds = spot q
  | [], _ => by unfold afterAll; rfl
  | d :: ds, h => by
    unfold OkAll at h
    unfold afterAll
    rw [after_ok q d h.1]
    exact afterAll_ok q ds h.2
end

mutual
theorem defs_fns (c : Conf) (q : Bool) : ∀ d, Ok O py calls q d → defs c (spot q) d = (fns q d).map (fnPart c)
  | .text _ _, _ => by unfold defs fns; rfl
  | .expr _ _, _ => by unfold defs fns; rfl
  | .ifD _ b, h => by unfold Ok at h; unfold defs fns; exact defsAll_fns c q b h.2
  | .ifElse _ b b', h => by
    unfold Ok at h
    unfold defs fns
    rw [afterAll_ok q b h.2.1, defsAll_fns c q b h.2.1, defsAll_fns c q b' h.2.2, List.map_append]
  | .forD _ b, h => by unfold Ok at h; unfold defs fns; exact defsAll_fns c q b h.2
  | .switchD _ b, h => by unfold Ok at h; unfold defs fns; exact defsAll_fns c q b h.2
  | .caseD _ b, h => by unfold Ok at h; unfold defs fns; exact defsAll_fns c q b h.2
  | .elseD b, h => by unfold Ok at h; unfold defs fns; exact defsAll_fns c q b h
  | .blockD _ b, h => by
    unfold Ok at h; unfold defs fns; rw [defsAll_fns c q b h, List.map_append]; rfl
  | .defD _ b, h => by
    unfold Ok at h
    obtain ⟨rfl, h⟩ := h
    unfold defs fns
    change defsAll c (spot true) b ++ _ = _
    rw [defsAll_fns c true b h, List.map_append]
    rfl
  | .py _ _, _ => by unfold defs fns; rfl
  | .callD _ _ _, h => by unfold Ok at h; exact h.elim
  | .extendsD _, h => by unfold Ok at h; exact h.elim
  | .importD _ _, h => by unfold Ok at h; exact h.elim
  | .includeD _, h => by unfold Ok at h; exact h.elim

theorem defsAll_fns (c : Conf) (q : Bool) : ∀ ds, OkAll O py calls q ds →
    defsAll c (spot q) ds = (fnsAll q ds).map (fnPart c)
  | [], _ => by unfold defsAll fnsAll; rfl
  | d :: ds, h => by
    unfold OkAll at h
    unfold defsAll fnsAll
    rw [after_ok q d h.1, defs_fns c q d h.1, defsAll_fns c q ds h.2, List.map_append]
end

/-- What is known about a function. -/
def Known (O : Oracle W) (py : Py) (calls : Str → Bool) (fs : List Spec.PureText.Fn) (d : Spec.PureText.Fn) : Prop :=
  OkAll O py calls d.inDef d.body ∧ ∀ x ∈ fnsAll d.inDef d.body, x ∈ fs

theorem Known.mono {fs fs' : List Spec.PureText.Fn} {d : Spec.PureText.Fn} (h : Known O py calls fs d)
    (hs : ∀ x ∈ fs, x ∈ fs') : Known O py calls fs' d := ⟨h.1, fun x hx => hs x (h.2 x hx)⟩

mutual
theorem known (q : Bool) : ∀ d, Ok O py calls q d → ∀ f ∈ fns q d, Known O py calls (fns q d) f
  | .text _ _, _ => by unfold fns; nofun
  | .expr _ _, _ => by unfold fns; nofun
  | .ifD _ b, h => by unfold Ok at h; unfold fns; exact knownAll q b h.2
  | .ifElse _ b b', h => by
    unfold Ok at h
    unfold fns
    intro f hf
    rcases List.mem_append.1 hf with hf | hf
    · exact (knownAll q b h.2.1 f hf).mono fun x hx => List.mem_append_left _ hx
    · exact (knownAll q b' h.2.2 f hf).mono fun x hx => List.mem_append_right _ hx
  | .forD _ b, h => by unfold Ok at h; unfold fns; exact knownAll q b h.2
  | .switchD _ b, h => by unfold Ok at h; unfold fns; exact knownAll q b h.2
  | .caseD _ b, h => by unfold Ok at h; unfold fns; exact knownAll q b h.2
  | .elseD b, h => by unfold Ok at h; unfold fns; exact knownAll q b h
  | .blockD _ b, h => by
    unfold Ok at h
    unfold fns
    intro f hf
    rcases List.mem_append.1 hf with hf | hf
    · exact (knownAll q b h f hf).mono fun x hx => List.mem_append_left _ hx
    · cases List.mem_singleton.1 hf
      exact ⟨h, fun x hx => List.mem_append_left _ hx⟩
  | .defD _ b, h => by
    unfold Ok at h
    unfold fns
    intro f hf
    rcases List.mem_append.1 hf with hf | hf
    · exact (knownAll true b h.2 f hf).mono fun x hx => List.mem_append_left _ hx
    · cases List.mem_singleton.1 hf
      exact ⟨h.2, fun x hx => List.mem_append_left _ hx⟩
  | .py _ _, _ => by unfold fns; nofun
  | .callD _ _ _, h => by unfold Ok at h; exact h.elim
  | .extendsD _, h => by unfold Ok at h; exact h.elim
  | .importD _ _, h => by unfold Ok at h; exact h.elim
  | .includeD _, h => by unfold Ok at h; exact h.elim

theorem knownAll (q : Bool) : ∀ ds, OkAll O py calls q ds → ∀ f ∈ fnsAll q ds, Known O py calls (fnsAll q ds) f
  | [], _ => by unfold fnsAll; nofun
  | d :: ds, h => by
    unfold OkAll at h
    unfold fnsAll
    intro f hf
    rcases List.mem_append.1 hf with hf | hf
    · exact (known q d h.1 f hf).mono fun x hx => List.mem_append_left _ hx
    · exact (knownAll q ds h.2 f hf).mono fun x hx => List.mem_append_right _ hx
end

/-! ## Directives -/

section
variable {S : Setting W Part} [Spec.Pure.Blind S.hid py] {I : Inst} {env : Env} (P : Prog Part) (call : Mode → Nat → List Val → MD W Unit)
  {fs : List Spec.PureText.Fn} {m : Str → List Val → Shown Unit} (c : Conf) (k : Str → Option (Look → Shown Unit))
  (hT : Tidy S.R py)
  (hE : ∀ e, (calls e = false → Evals O py e) → Does₀ S I env (shown O call env c.autoescape e)
    fun ρ => Spec.PureText.value { py with call := k } c.autoescape (look (glob I) ρ) e)
  (hB : ∀ q name b, Spec.PureText.Fn.block q name b ∈ fs →
    Does₀ S I env (shown O call env true (blockDecl name)) fun _ => m (blockName name) [])

theorem does_test {e : Str} (he : Evals O py e) {m₁ m₂ : MD W Unit} {d₁ d₂ : Vars → Shown Vars}
    (h₁ : Does S I env m₁ d₁) (h₂ : Does S I env m₂ d₂) :
    Does S I env (M.bind (test O env e) fun v => if v then m₁ else m₂) fun ρ =>
      (get (py.eval e (look (glob I) ρ))).next fun v => if truthy v then d₁ ρ else d₂ ρ := by
  unfold test
  rw [M.bind_assoc]
  refine Does.eval he fun v _ => ?_
  rw [M.pure_bind]
  split
  · exact h₁
  · exact h₂

include hT hE hB

set_option linter.unusedSectionVars false in
mutual
theorem does_dir (q : Bool) : ∀ d, Ok O py calls q d → (∀ x ∈ fns q d, x ∈ fs) →
    Does S I env (dir P O call c env (spot q) d)
      (Spec.PureText.dir { py with call := k } (glob I) c.autoescape m d)
  | .text t _, _, _ => by unfold dir Spec.PureText.dir; exact Does₀.put t
  | .expr e _, h, _ => by unfold Ok at h; unfold dir Spec.PureText.dir; exact hE e h
  | .ifD e b, h, hf => by
    unfold Ok at h
    unfold fns at hf
    unfold dir Spec.PureText.dir
    exact does_test h.1 (does_dirs q b h.2 hf) Does.done
  | .ifElse e b b', h, hf => by
    unfold Ok at h
    unfold fns at hf
    unfold dir Spec.PureText.dir
    rw [afterAll_ok q b h.2.1]
    exact does_test h.1 (does_dirs q b h.2.1 fun x hx => hf x (List.mem_append_left _ hx))
      (does_dirs q b' h.2.2 fun x hx => hf x (List.mem_append_right _ hx))
  | .forD e b, h, hf => by
    unfold Ok at h
    unfold fns at hf
    unfold dir Spec.PureText.dir
    exact Does.iter h.1 hT fun bs hbs => Does.loop fun b' hb => Does.bind (Does.setVars (hbs b' hb)) (does_dirs q b h.2 hf)
  | .switchD e b, h, hf => by
    unfold Ok at h
    unfold fns at hf
    unfold dir Spec.PureText.dir
    exact Does.kj (Does.eval h.1 fun v _ => Does.bind (does_choice v q b h.2 hf) (does_dirs q b h.2 hf))
  | .caseD _ _, _, _ => by unfold dir Spec.PureText.dir; exact Does.done
  | .elseD _, _, _ => by unfold dir Spec.PureText.dir; exact Does.done
  | .blockD name b, h, hf => by
    unfold Ok at h
    unfold fns at hf
    unfold dir Spec.PureText.dir
    rw [afterAll_ok q b h, if_neg Bool.false_ne_true]
    exact hB q name b (hf _ (List.mem_append_right _ List.mem_cons_self))
  | .defD _ b, h, _ => by
    unfold Ok at h
    obtain ⟨rfl, -⟩ := h
    unfold dir Spec.PureText.dir
    exact Does.done
  | .py ml ls, h, _ => by
    unfold Ok at h
    unfold dir Spec.PureText.dir python
    cases ml with
    | true => exact Does.done
    | false => exact Does.pyBlock (py := py) h hT
  | .callD _ _ _, h, _ => by unfold Ok at h; exact h.elim
  | .extendsD _, h, _ => by unfold Ok at h; exact h.elim
  | .importD _ _, h, _ => by unfold Ok at h; exact h.elim
  | .includeD _, h, _ => by unfold Ok at h; exact h.elim

theorem does_dirs (q : Bool) : ∀ ds, OkAll O py calls q ds → (∀ x ∈ fnsAll q ds, x ∈ fs) →
    Does S I env (dirs P O call c env (spot q) ds)
      (Spec.PureText.dirs { py with call := k } (glob I) c.autoescape m ds)
  | [], _, _ => by unfold dirs Spec.PureText.dirs; exact Does.done
  | d :: ds, h, hf => by
    unfold OkAll at h
    unfold fnsAll at hf
    unfold dirs Spec.PureText.dirs
    rw [after_ok q d h.1]
    exact Does.bind (does_dir q d h.1 fun x hx => hf x (List.mem_append_left _ hx))
      (does_dirs q ds h.2 fun x hx => hf x (List.mem_append_right _ hx))

theorem does_choice (v : Val) (q : Bool) : ∀ ds, OkAll O py calls q ds → (∀ x ∈ fnsAll q ds, x ∈ fs) →
    Does S I env (choice P O call c env (spot q) v ds)
      (Spec.PureText.choice { py with call := k } (glob I) c.autoescape m v ds)
  | .caseD e b :: ds, h, hf => by
    unfold OkAll Ok at h
    unfold fnsAll fns at hf
    unfold choice Spec.PureText.choice
    rw [afterAll_ok q b h.1.2]
    refine Does.eval h.1.1 fun u _ => ?_
    split
    · exact does_dirs q b h.1.2 fun x hx => hf x (List.mem_append_left _ hx)
    · exact does_choice v q ds h.2 fun x hx => hf x (List.mem_append_right _ hx)
  | .elseD b :: ds, h, hf => by
    unfold OkAll Ok at h
    unfold fnsAll fns at hf
    unfold choice Spec.PureText.choice
    exact does_dirs q b h.1 fun x hx => hf x (List.mem_append_left _ hx)
  | [], _, _ => by unfold choice Spec.PureText.choice; exact Does.done
  | .text _ _ :: _, _, _ => by unfold choice Spec.PureText.choice; exact Does.done
  | .expr _ _ :: _, _, _ => by unfold choice Spec.PureText.choice; exact Does.done
  | .ifD _ _ :: _, _, _ => by unfold choice Spec.PureText.choice; exact Does.done
  | .ifElse _ _ _ :: _, _, _ => by unfold choice Spec.PureText.choice; exact Does.done
  | .forD _ _ :: _, _, _ => by unfold choice Spec.PureText.choice; exact Does.done
  | .switchD _ _ :: _, _, _ => by unfold choice Spec.PureText.choice; exact Does.done
  | .defD _ _ :: _, _, _ => by unfold choice Spec.PureText.choice; exact Does.done
  | .callD _ _ _ :: _, _, _ => by unfold choice Spec.PureText.choice; exact Does.done
  | .blockD _ _ :: _, _, _ => by unfold choice Spec.PureText.choice; exact Does.done
  | .py _ _ :: _, _, _ => by unfold choice Spec.PureText.choice; exact Does.done
  | .extendsD _ :: _, _, _ => by unfold choice Spec.PureText.choice; exact Does.done
  | .importD _ _ :: _, _, _ => by unfold choice Spec.PureText.choice; exact Does.done
  | .includeD _ :: _, _, _ => by unfold choice Spec.PureText.choice; exact Does.done
end

end

/-- Directives that only declare something show nothing. -/
theorem silent_dirs {py' : Py} {G : Look} {esc : Bool} {m : Str → List Val → Shown Unit} (q : Bool) :
    ∀ ds, OkAll O py calls q ds → silentAll (spot q) ds = true → ∀ ρ, Spec.PureText.dirs py' G esc m ds ρ = done ρ
  | [], _, _, _ => by unfold Spec.PureText.dirs; rfl
  | d :: ds, h, hs, ρ => by
    unfold OkAll at h
    unfold silentAll at hs
    rw [Bool.and_eq_true, after_ok q d h.1] at hs
    have ih := silent_dirs (py' := py') (G := G) (esc := esc) (m := m) q ds h.2 hs.2
    have hd : Spec.PureText.dir py' G esc m d ρ = done ρ := by
      have h1 := h.1
      have h2 := hs.1
      unfold silent at h2
      cases d with
      | defD _ _ => unfold Spec.PureText.dir; rfl
      | blockD _ b =>
        dsimp only at h2
        unfold Ok at h1
        rw [afterAll_ok q b h1] at h2
        cases h2
      | py ml ls =>
        dsimp only at h2
        unfold Spec.PureText.dir
        rw [h2]
        rfl
      | _ => cases h2
    unfold Spec.PureText.dirs
    rw [hd]
    exact ih ρ

theorem does_content {S : Setting W Part} {I : Inst} {env : Env} {m : MD W Unit} {py' : Py} {esc : Bool}
    {k : Str → List Val → Shown Unit} {q : Bool} {ds : List Dir} (h : OkAll O py calls q ds) (hr : readable q ds = true)
    (hd : Does S I env m (Spec.PureText.dirs py' (glob I) esc k ds)) :
    Does S I env (if silentAll (spot q) ds then say [] else reading (speaksAny (spot q) ds) m)
      (Spec.PureText.dirs py' (glob I) esc k ds) := by
  unfold readable at hr
  cases hs : silentAll (spot q) ds with
  | true =>
    rw [if_pos rfl]
    have : Spec.PureText.dirs py' (glob I) esc k ds = fun ρ => done ρ := funext (silent_dirs q ds h hs)
    rw [this]
    exact Does.congr (Does₀.put []) fun ρ => rfl
  | false =>
    change (silentAll (spot q) ds || _) = true at hr
    rw [hs, Bool.false_or] at hr
    rw [if_neg Bool.false_ne_true, hr, reading_true]
    exact hd

end

/-! ## Expressions -/

section
variable {W : Type} {O : Oracle W} {py : Py}

theorem emit_shown (call : Mode → Nat → List Val → MD W Unit) (esc : Bool) {v : Val} (h : settled v = true)
    (s : Store Part W) : emit call .stream (if esc then escape v else v) s =
      ⟨⟨if esc then escapedValue v else plainValue v, !isNone v⟩, s, .ok ()⟩ := by
  cases esc with
  | false =>
    cases v with
    | none => rfl
    | flatItems => cases h
    | flatCall => cases h
    | _ => rfl
  | true =>
    rw [if_pos rfl, if_pos rfl]
    have : ∀ v : Val, escape v = .str (escapeStr (toStr v)) → escapedValue v = Spec.Static.quoted (toStr v) → isNone v = false →
        emit call .stream (escape v) s = ⟨⟨escapedValue v, !isNone v⟩, s, .ok ()⟩ := by
      intro v h1 h2 h3
      rw [h1, h2, h3, StaticDoc.quoted_eq]
      rfl
    cases v with
    | none => rfl
    | flatItems => cases h
    | flatCall => cases h
    | html a b c => rfl
    | bool b => exact this (.bool b) rfl rfl rfl
    | int i => exact this (.int i) rfl rfl rfl
    | str t => exact this (.str t) rfl rfl rfl
    | obj a b c => exact this (.obj a b c) rfl rfl rfl
    | unit => exact this .unit rfl rfl rfl
    | pairs a b => exact this (.pairs a b) rfl rfl rfl
    | inst i => exact this (.inst i) rfl rfl rfl
    | meth a b => exact this (.meth a b) rfl rfl rfl
    | fn i => exact this (.fn i) rfl rfl rfl

variable {C : Calls} {P : Prog Part} {context : Dict Val} {insts : List Inst} {fns : List (Run.Fn Part)} {next : W → Nat}
  {fs : List Spec.PureText.Fn}

/-- How Python calls functions. -/
abbrev Next (O : Oracle W) (C : Calls) (next : W → Nat) : Prop :=
  ∀ e f args v w g, C.callee e = some (f, args) → visible v f = some (.fn g) →
    match args (visible v) with
    | .error x => O.eval e v w = (.error x, w)
    | .ok vs => ∃ w', O.eval e v w = (.ok (.flatCall (next w) g vs), w') ∧ next w < next w'

theorem fn_mem {f : Str} {d : Spec.PureText.Fn} (h : Spec.PureText.fn fs f = some d) : d ∈ fs ∧ d.name = f := by
  unfold Spec.PureText.fn at h
  exact ⟨List.mem_of_find?_eq_some h, by simpa using List.find?_some h⟩

theorem fn_some (hn : (fs.map (·.name)).Nodup) {d : Spec.PureText.Fn} (h : d ∈ fs) :
    Spec.PureText.fn fs d.name = some d := by
  unfold Spec.PureText.fn
  induction fs with
  | nil => cases h
  | cons x ds ih =>
    rw [List.map_cons, List.nodup_cons] at hn
    rcases List.mem_cons.1 h with rfl | h
    · simp
    · have : x.name ≠ d.name := fun he => hn.1 (by rw [he]; exact List.mem_map_of_mem h)
      rw [List.find?_cons_of_neg (by simpa using this)]
      exact ih hn.2 h

/-- The instance of the template. -/
structure At (c : Conf) (fs : List Spec.PureText.Fn) (insts : List Inst) (fns : List (Run.Fn Part)) (I : Inst) : Prop where
  inst : insts[0]? = some I
  loc : Dict.get I.globals "local".toList = some (.inst 0)
  gt : ∃ g, Dict.get I.globals "gettext".toList = some g
  named : ∀ d ∈ fs, ∃ g, Dict.get I.globals d.name = some (.fn g) ∧
    fns[g]? = some ⟨.code d.decl (fnPart c d).2, 0, none, true⟩

/-- What functions do. -/
def Done (c : Conf) (call : Mode → Nat → List Val → MD W Unit) (fs : List Spec.PureText.Fn) (insts : List Inst)
    (fns : List (Run.Fn Part)) (next : W → Nat) (m : Str → List Val → Shown Unit) : Prop :=
  ∀ d ∈ fs, ∀ g, fns[g]? = some ⟨.code d.decl (fnPart c d).2, 0, none, true⟩ → PerformsBy call insts fns next g (m d.name)

variable {c : Conf} {I : Inst} {env : Env} {call : Mode → Nat → List Val → MD W Unit} {m : Str → List Val → Shown Unit}

theorem does_called (hnext : Next O C next) (hI : At c fs insts fns I) (hd : Done c call fs insts fns next m)
    (hm : env.mode = .stream) (esc : Bool) {e f : Str} {args : Look → Except Err (List Val)}
    (hc : C.callee e = some (f, args)) {d : Spec.PureText.Fn} (hf : d ∈ fs) (hn : d.name = f) :
    Does₀ (setting insts fns next (Reserved fs) fun _ => none) I env (shown O call env esc e)
      fun ρ => (get (args (look (glob I) ρ))).next (m f) := by
  subst hn
  obtain ⟨g, h1, h2⟩ := hI.named d hf
  exact does_expr_by (fun v => if esc then escape v else v) (fun _ _ _ => by cases esc <;> rfl) hnext hc hm ⟨d, hf, rfl⟩ h1
    (hd d hf g h2)

theorem does_value (hnext : Next O C next) (hI : At c fs insts fns I) (hd : Done c call fs insts fns next m)
    (hm : env.mode = .stream) (esc : Bool) (e : Str) (he : mayCall fs C e = false → Evals O py e) :
    Does₀ (setting insts fns next (Reserved fs) fun _ => none) I env (shown O call env esc e)
      fun ρ => Spec.PureText.value (pyWith fs C py m) esc (look (glob I) ρ) e := by
  unfold Spec.PureText.value
  cases hp : (pyWith fs C py m).call e with
  | some q =>
    unfold pyWith at hp
    dsimp only at hp
    cases hc : C.callee e with
    | none => rw [hc] at hp; cases hp
    | some fa =>
      obtain ⟨f, args⟩ := fa
      rw [hc, Option.bind_some] at hp
      cases hf : Spec.PureText.fn fs f with
      | none => rw [hf] at hp; cases hp
      | some d =>
        rw [hf] at hp
        cases hp
        obtain ⟨h1, h2⟩ := fn_mem hf
        exact does_called hnext hI hd hm esc hc h1 h2
  | none =>
    have he : Evals O py e := by
      refine he ?_
      unfold mayCall
      unfold pyWith at hp
      dsimp only at hp
      cases hc : C.callee e with
      | none => rfl
      | some fa =>
        obtain ⟨f, args⟩ := fa
        rw [hc, Option.bind_some] at hp
        dsimp only
        cases hf : Spec.PureText.fn fs f with
        | none => rfl
        | some d => rw [hf] at hp; cases hp
    refine Does₀.eval he fun v hv => ?_
    intro s ρ hs
    refine ⟨s, !isNone v, ?_, Setting.refl _ _ _, fun ρ' h => by cases h; exact hs⟩
    rw [hm, emit_shown call esc hv]
    simp [keeping, Spec.Pure.Shown.next, Spec.Pure.Shown.put, Spec.Pure.Shown.done, Except.map]

/-! ## Functions -/

variable {t : Template}

/-- Directives of a template. -/
theorem does_all (hr : Runs O py C context t) (hnext : Next O C next)
    (hI : At t.conf (fnsAll false t.tree) insts fns I) (hd : Done t.conf call (fnsAll false t.tree) insts fns next m)
    (hm : env.mode = .stream) {q : Bool} {ds : List Dir}
    (hok : OkAll O py (mayCall (fnsAll false t.tree) C) q ds) (hf : ∀ x ∈ fnsAll q ds, x ∈ fnsAll false t.tree) :
    Does (setting insts fns next (Reserved (fnsAll false t.tree)) fun _ => none) I env
      (dirs P O call t.conf env (spot q) ds)
      (Spec.PureText.dirs (pyWith (fnsAll false t.tree) C py m) (glob I) t.conf.autoescape m ds) := by
  refine does_dirs (py := py) (calls := mayCall (fnsAll false t.tree) C) (fs := fnsAll false t.tree) P call t.conf _ hr.tidy
    (fun e he => does_value hnext hI hd hm _ e he) (fun q name b hb => ?_) q ds hok hf
  obtain ⟨h1, h2⟩ := hr.blockCalls q name b hb
  exact does_called hnext hI hd hm true h2 hb h1

theorem part_fn (call : Mode → Nat → List Val → MD W Unit) (env : Env) {d : Spec.PureText.Fn}
    (hok : OkAll O py (mayCall fs C) d.inDef d.body) :
    part P O call env (fnPart c d).2 = if silentAll (spot d.inDef) d.body then say []
      else reading (speaksAny (spot d.inDef) d.body) (dirs P O call c env (spot d.inDef) d.body) := by
  cases d with
  | defn decl b => rfl
  | block q name b =>
    unfold fnPart part
    dsimp only
    have : afterAll (spot q) b = spot q := afterAll_ok q b hok
    rw [this, if_neg Bool.false_ne_true]
    rfl

/-- All functions. -/
theorem all_perform (hr : Runs O py C context t) (hnext : Next O C next) (hI : At t.conf (fnsAll false t.tree) insts fns I) :
    ∀ n, Done t.conf (callText P O n) (fnsAll false t.tree) insts fns next
      (meaning (fnsAll false t.tree) C py (glob I) t.conf.autoescape n)
  | 0 => fun _ _ _ _ => fun _ s _ => ⟨s, false, rfl, Nat.le_refl _, fun _ _ => rfl, fun h => nomatch h⟩
  | n + 1 => by
    have ih := all_perform hr hnext hI n
    intro d hd g hg
    obtain ⟨h1, h2⟩ := knownAll false t.tree hr.ok d hd
    have e1 : meaning (fnsAll false t.tree) C py (glob I) t.conf.autoescape (n + 1) d.name = fun args =>
        (get (C.bind d.decl args)).next fun ρ =>
          (Spec.PureText.dirs (pyWith (fnsAll false t.tree) C py (meaning (fnsAll false t.tree) C py (glob I) t.conf.autoescape n))
            (glob I) t.conf.autoescape (meaning (fnsAll false t.tree) C py (glob I) t.conf.autoescape n) d.body ρ).next
            fun _ => done () := by
      funext args
      rw [meaning, fn_some hr.distinct hd]
    rw [e1]
    refine performs_code_by (R := Reserved (fnsAll false t.tree)) (run := fun env b => part P O (callText P O n) env b)
      hg hI.inst hI.loc hI.gt (hr.args d hd) (hr.params d hd) fun vs ρ _ => ?_
    refine enacts_of_does (d := Spec.PureText.dirs _ (glob I) t.conf.autoescape _ d.body) (fun fr => ?_) ρ
    rw [part_fn (fs := fnsAll false t.tree) (C := C) (py := py) (callText P O n) (callEnv 0 fr) h1]
    exact does_content h1 (hr.names d hd).2 (does_all hr hnext hI ih rfl h1 h2)

/-! ## Rendering -/

theorem decls_nodup (hr : Runs O py C context t) :
    (("__main__()".toList :: (fnsAll false t.tree).map (·.decl)).map declName).Nodup := by
  rw [List.map_cons, List.nodup_cons, LayoutDoc.declName_main, List.map_map]
  refine ⟨fun hx => ?_, hr.distinct⟩
  obtain ⟨d, hd, he⟩ := List.mem_map.1 hx
  have he : d.name = "__main__".toList := he
  exact (hr.names d hd).1 (by rw [he]; decide +kernel)

theorem functions_eq (hr : Runs O py C context t) : t.functions =
    ("__main__()".toList, .body t.conf .start t.tree) :: (fnsAll false t.tree).map (fnPart t.conf) := by
  have hn := decls_nodup hr
  unfold Template.functions
  dsimp only
  rw [show defsAll t.conf .start t.tree = _ from defsAll_fns t.conf false t.tree hr.ok]
  generalize "__main__()".toList = m at hn
  rw [LayoutDoc.update_append]
  · simp [Dict.set]
  · have : (m :: (fnsAll false t.tree).map (·.decl)).Nodup := List.Nodup.of_map _ hn
    simpa [fnPart_decl, Function.comp_def] using this

theorem functions_nodup (hr : Runs O py C context t) : (t.functions.map fun d => declName d.1).Nodup := by
  have hn := decls_nodup hr
  rw [functions_eq hr]
  simpa [fnPart_decl, Function.comp_def] using hn

/-- No function has the name. -/
theorem method_none (hr : Runs O py C context t) (N : Nat) {k : Str} (h1 : k ≠ "__main__".toList)
    (h2 : ¬Reserved (fnsAll false t.tree) k) : Dict.get (methodDict N (classOf t.functions t.base).methods) k = none := by
  refine methodDict_absent (fun d b hm => ?_) N
  obtain ⟨x, hx, he⟩ := methodsOf_from hm
  rw [functions_eq hr] at hx
  have hk : k = declName x.1 := congrArg Prod.fst he
  rcases List.mem_cons.1 hx with rfl | hx
  · rw [LayoutDoc.declName_main] at hk
    exact h1 hk
  · obtain ⟨d, hd, rfl⟩ := List.mem_map.1 hx
    rw [fnPart_decl] at hk
    exact h2 ⟨d, hd, hk.symm⟩

theorem methods_distinct (N : Nat) : Dict.Distinct (methodDict N (classOf t.functions t.base).methods) := by
  unfold Dict.Distinct
  rw [methodDict_keys]
  exact methods_nodup _

/-- The global variables of the instance of a template. -/
def globals (t : Template) (context : Dict Val) : Dict Val :=
  newGlobals 0 t.base (methodDict 0 (classOf t.functions t.base).methods) context

theorem globals_ok (hr : Runs O py C context t) (hn : (context.map (·.1)).Nodup) :
    Spec.PureText.Globals t context fun k => Dict.get (globals t context) k := by
  refine ⟨fun k x hk h => ?_, fun k h1 h2 h3 h4 => ?_⟩
  · refine FillDoc.shows_context 0 0 t.base _ [] context hn k x hk ?_ ?_ <;> rintro rfl <;> exact h (by decide +kernel)
  · have hk : ∀ k' ∈ ownNames, k' ≠ k := fun k' hk' he => h3 (he ▸ hk')
    have hb : Dict.get builtins k = none := by
      apply Dict.get_none_of_not_mem
      intro hm
      exact h3 ((by decide +kernel : ∀ x ∈ builtins.map (·.1), x ∈ ownNames) k hm)
    dsimp only
    unfold globals newGlobals
    dsimp only
    rw [Dict.get_set_other _ _ (hk _ (by decide +kernel)), Dict.get_set_other _ _ (hk ['_'] (by decide +kernel)),
      StaticDoc.get_update_none _ h1, StaticDoc.get_update_none, StaticDoc.get_update_none _ h2,
      StaticDoc.get_update_none _ hb, Dict.get_cons, if_neg (hk _ (by decide +kernel)), Dict.get_cons,
      if_neg (hk _ (by decide +kernel))]
    · rfl
    · exact method_none hr 0 (Ne.symm (hk _ (by decide +kernel))) h4

theorem reserved_local (hr : Runs O py C context t) {k : Str} (hk : k ∈ ownNames) : ¬Reserved (fnsAll false t.tree) k := by
  rintro ⟨d, hd, rfl⟩
  exact (hr.names d hd).1 hk

theorem globals_fn (hr : Runs O py C context t) {d : Spec.PureText.Fn} (hd : d ∈ fnsAll false t.tree) :
    Dict.get (globals t context) d.name = Dict.get (methodDict 0 (classOf t.functions t.base).methods) d.name := by
  have hne : ∀ k ∈ ownNames, k ≠ d.name := fun k hk he => (hr.names d hd).1 (he ▸ hk)
  unfold globals newGlobals
  dsimp only
  rw [Dict.get_set_other _ _ (hne _ (by decide +kernel)), Dict.get_set_other _ _ (hne ['_'] (by decide +kernel)),
    StaticDoc.get_update_none _ (hr.free _ (.inr ⟨d, hd, rfl⟩)), Dict.get_update_nodup _ _ _ (methods_distinct 0)]
  obtain ⟨j, h1, -⟩ := methodDict_found (methods_nodup t.functions)
    (methodsOf_mem (functions_nodup hr) (fnPart t.conf d) (by
      rw [functions_eq hr]; exact List.mem_cons_of_mem _ (List.mem_map_of_mem hd))) 0
  rw [fnPart_decl] at h1
  have h1 : Dict.get (methodDict 0 (classOf t.functions t.base).methods) d.name = some (.fn (0 + j)) := h1
  rw [h1]
  rfl

theorem rendered_ok {ts : List Template} {i : Nat} (ht : ts[i]? = some t) (hr : Runs O py C context t)
    (load : Str → Option Nat) (aliasFor : Str → Str) (n : Nat) (w : W) :
    let r := rendered (program ts load aliasFor) O n i context w
    let m := Spec.PureText.shown C py (fun k => Dict.get (globals t context) k) t n
    r.out.txt = m.text ∧ r.val = m.res := by
  obtain ⟨next, hnext⟩ := hr.calls
  have hnext : Next O C next := hnext
  have hcls : (program ts load aliasFor).classes[i]? = some (classOf t.functions t.base) := by
    unfold program
    dsimp only
    rw [List.getElem?_map, ht]
    rfl
  generalize hP : program ts load aliasFor = P at *
  let ms := (classOf t.functions t.base).methods
  let inst : Inst := ⟨i, context, globals t context, methodDict 0 ms⟩
  let s0 : Store Part W := ⟨[inst], [], methodFns 0 ms, [], w, fun j => if j = 0 then ⟨[], []⟩ else ⟨[], []⟩⟩
  have h1 : newInst P i context (emptyStore _ w) = ⟨.nil, s0, .ok 0⟩ := by
    unfold newInst
    rw [hcls]
    rfl
  have hloc : Dict.get inst.globals "local".toList = some (.inst 0) :=
    StaticDoc.globals_local _ _ _ _ hr.base (method_none hr 0 (by decide +kernel) (reserved_local hr (by decide +kernel)))
      (hr.free _ (.inl rfl))
  have hgt : ∃ g, Dict.get inst.globals "gettext".toList = some g := StaticDoc.globals_gettext _ _ _ _
  have hat : ∀ {j : Nat} {f d : Str} {b : Part}, ms[j]? = some (f, d, b) →
      s0.fns[j]? = some ⟨.code d b, 0, none, true⟩ := fun hm => by
    change (methodFns 0 ms)[_]? = _
    unfold methodFns
    rw [List.getElem?_map, hm]
    rfl
  have hI : At t.conf (fnsAll false t.tree) [inst] s0.fns inst := by
    refine ⟨rfl, hloc, hgt, fun d hd => ?_⟩
    obtain ⟨j, h2, h3⟩ := methodDict_found (methods_nodup t.functions)
      (methodsOf_mem (functions_nodup hr) (fnPart t.conf d) (by
        rw [functions_eq hr]; exact List.mem_cons_of_mem _ (List.mem_map_of_mem hd))) 0
    rw [Nat.zero_add] at h2
    refine ⟨j, (globals_fn hr hd).trans ?_, (hat h3).trans (by rw [← fnPart_decl t.conf d]; rfl)⟩
    rw [fnPart_decl] at h2
    exact h2
  obtain ⟨f, h2, h3⟩ := methodDict_found (methods_nodup t.functions)
    (methodsOf_mem (functions_nodup hr) ("__main__()".toList, .body t.conf .start t.tree) (by
      rw [functions_eq hr]; exact List.mem_cons_self)) 0
  rw [LayoutDoc.declName_main, Nat.zero_add] at h2
  have hmain : s0.fns[f]? = some ⟨.code "__main__()".toList (.body t.conf .start t.tree), 0, none, true⟩ := hat h3
  have hattr : Dict.get inst.attrs "__main__".toList = some (.fn f) := h2
  have e1 : ∀ call : Mode → Nat → List Val → MD W Unit, emitMain call .stream 0 s0 = call .stream f [] s0 := by
    intro call
    simp only [emitMain, attrFn, M.bind, getInst, s0, List.getElem?_cons_zero, hattr, M.pure, splice]
    rfl
  unfold rendered
  rw [bind_ok h1, e1]
  cases n with
  | zero => exact ⟨rfl, rfl⟩
  | succ n =>
    have ih := all_perform (P := P) hr hnext hI n
    obtain ⟨s', any, h4, -⟩ := performs_code_at (O := O) (next := next) (R := Reserved (fnsAll false t.tree))
      (run := fun env b => part P O (callText P O n) env b) (call := callText P O n) (bound := .ok [])
      (q := fun ρ => (Spec.PureText.dirs (pyWith (fnsAll false t.tree) C py
          (meaning (fnsAll false t.tree) C py (glob inst) t.conf.autoescape n)) (glob inst) t.conf.autoescape
          (meaning (fnsAll false t.tree) C py (glob inst) t.conf.autoescape n) t.tree ρ).next fun _ => done ())
      hmain rfl hloc hgt hr.main (fun ρ h => by cases h; exact fun _ _ => rfl) (fun ρ _ => by
        refine enacts_of_does (d := Spec.PureText.dirs _ (glob inst) t.conf.autoescape _ t.tree) (fun fr => ?_) ρ
        have e2 : part P O (callText P O n) (callEnv 0 fr) (.body t.conf .start t.tree) =
            if silentAll (spot false) t.tree then say []
              else reading (speaksAny (spot false) t.tree) (dirs P O (callText P O n) t.conf (callEnv 0 fr) (spot false) t.tree) := rfl
        rw [e2]
        exact does_content hr.ok hr.reads (does_all hr hnext hI ih rfl hr.ok fun _ h => h)) s0 ⟨rfl, rfl, nofun⟩
    have h5 : callText P O (n + 1) .stream f [] s0 = _ := h4
    rw [h5]
    exact ⟨rfl, rfl⟩

end

end Kajiki.PureTexts
