import Verif.Spec.Funs
import Verif.Lemmas.LayoutChain

/-! Calling functions of templates. -/

namespace Kajiki.FunsDoc
open Kajiki.Run Kajiki.Spec.Pure Kajiki.Spec.DocSem Kajiki.PureDoc Kajiki.LayoutDoc
open Kajiki.Spec.Funs (Calls)
open Kajiki.Spec.Pure.Shown (done raise put get)

section
variable {W : Type} {O : Oracle W} {C : Type}

/-- The instances and functions stay, and generators are new. -/
def Inv (insts : List Inst) (fns : List (Run.Fn C)) (next : W → Nat) (s : Store C W) : Prop :=
  s.insts = insts ∧ s.fns = fns ∧ ∀ i ∈ s.used, i < next s.world

/-- The setting of functions: names `R` keep their meaning. -/
def setting (insts : List Inst) (fns : List (Run.Fn C)) (next : W → Nat) (R : Str → Prop) (π : Str → Option Val) :
    Setting W C where
  K fr s s' := s.frames.length ≤ s'.frames.length ∧ ∀ j < s.frames.length, j ≠ fr → s'.frames[j]? = s.frames[j]?
  J := Inv insts fns next
  R := R
  π := π
  refl _ _ := ⟨Nat.le_refl _, fun _ _ _ => rfl⟩
  trans h1 h2 := ⟨Nat.le_trans h1.1 h2.1, fun j hj hne =>
    (h2.2 j (Nat.lt_of_lt_of_le hj h1.1) hne).trans (h1.2 j hj hne)⟩
  frames _ _ _ h1 h2 := ⟨h1, h2⟩
  inv _ _ h := h

variable {insts : List Inst} {fns : List (Run.Fn C)} {next : W → Nat} {R : Str → Prop}

instance {π : Str → Option Val} {py : Py} : Blind (setting insts fns next R π).hid py := blind_none (fun _ => not_false) py

/-- Reading what function `g` returns shows `q`. -/
def PerformsBy (call : Mode → Nat → List Val → MS C W Unit) (insts : List Inst) (fns : List (Run.Fn C)) (next : W → Nat)
    (g : Nat) (q : List Val → Shown Unit) : Prop :=
  ∀ vs s, Inv insts fns next s → ∃ s' any, call .stream g vs s = ⟨⟨(q vs).text, any⟩, s', (q vs).res⟩ ∧
    s.frames.length ≤ s'.frames.length ∧ (∀ j < s.frames.length, s'.frames[j]? = s.frames[j]?) ∧
    ((q vs).res = .ok () → Inv insts fns next s')

/-- Running the body of a function of instance `a` with the given parameters shows `d`. -/
def Enacts (insts : List Inst) (fns : List (Run.Fn C)) (next : W → Nat) (R : Str → Prop) (I : Inst) (a : Nat)
    (m : Env → MS C W Unit) (ρ : Vars) (d : Shown Unit) : Prop :=
  ∀ fr s, Ready (setting insts fns next R fun _ => none) I (callEnv a fr) ρ s → ∃ s' any,
    m (callEnv a fr) s = ⟨⟨d.text, any⟩, s', d.res⟩ ∧ s.frames.length ≤ s'.frames.length ∧
    (∀ j < s.frames.length, j ≠ fr → s'.frames[j]? = s.frames[j]?) ∧ (d.res = .ok () → Inv insts fns next s')

theorem enacts_of_does {I : Inst} {a : Nat} {m : Env → MS C W Unit} {d : Vars → Shown Vars}
    (h : ∀ fr, Does (setting insts fns next R fun _ => none) I (callEnv a fr) (m (callEnv a fr)) d) (ρ : Vars) :
    Enacts insts fns next R I a m ρ ((d ρ).next fun _ => done ()) := by
  intro fr s hs
  obtain ⟨s', any, h1, ⟨h2, h3⟩, h4⟩ := h fr s ρ hs
  refine ⟨s', any, ?_, h2, h3, fun hok => ?_⟩
  · rw [h1]
    obtain ⟨t, r⟩ := d ρ
    cases r with
    | error e => rfl
    | ok σ => simp [Spec.Pure.Shown.next, done, Except.map]
  · unfold Spec.Pure.Shown.next at hok
    cases hd : (d ρ).res with
    | error e => rw [hd] at hok; cases hok
    | ok σ => exact (h4 σ hd).inv

/-- A function of a template, called with given arguments. -/
theorem performs_code_at {run : Env → C → MS C W Unit} {call : Mode → Nat → List Val → MS C W Unit} {g a : Nat}
    {decl : Str} {body : C} {I : Inst} {vs : List Val} {bound : Except Err Vars} {q : Vars → Shown Unit}
    (hf : fns[g]? = some ⟨.code decl body, a, none, true⟩) (ha : insts[a]? = some I)
    (hl : Dict.get I.globals "local".toList = some (.inst a)) (hg : ∃ g, Dict.get I.globals "gettext".toList = some g)
    (hargs : ∀ w, O.args decl vs w = (bound, w)) (hclean : ∀ ρ, bound = .ok ρ → Clean R ρ)
    (hbody : ∀ ρ, bound = .ok ρ → Enacts insts fns next R I a (fun env => run env body) ρ (q ρ)) (s : Store C W)
    (hs : Inv insts fns next s) : ∃ s' any,
    callWith O run call .stream g vs s = ⟨⟨((get bound).next q).text, any⟩, s', ((get bound).next q).res⟩ ∧
    s.frames.length ≤ s'.frames.length ∧ (∀ j < s.frames.length, s'.frames[j]? = s.frames[j]?) ∧
    (((get bound).next q).res = .ok () → Inv insts fns next s') := by
  obtain ⟨j1, j2, j3⟩ := hs
  have hlt : a < s.insts.length := by rw [j1]; exact (List.getElem?_eq_some_iff.1 ha).1
  have hf' : s.fns[g]? = some ⟨.code decl body, a, none, true⟩ := by rw [j2]; exact hf
  have ha' : s.insts[a]? = some I := by rw [j1]; exact ha
  cases hb : bound with
  | error e =>
    refine ⟨s, false, ?_, Nat.le_refl _, fun _ _ => rfl, fun h => nomatch h⟩
    unfold callWith
    simp only [M.bind, M.get, M.ofOption, hf', M.pure, hargs, hb]
    rfl
  | ok ρ =>
    let s1 : Store C W := { s with frames := s.frames ++ [⟨ρ, none, none⟩] }
    have e1 : callWith O run call .stream g vs s =
        run (callEnv a s.frames.length) body s1 := by
      unfold callWith
      simp only [M.bind, M.get, M.ofOption, hf', M.pure, hargs, hb, newFrame, getInst, ha', hl, localInst, hlt, if_true]
      rfl
    have hia : s1.insts[a]? = some I := by rw [show s1.insts = s.insts from rfl, j1]; exact ha
    obtain ⟨s', any, h1, h2, h3, h4⟩ := hbody ρ hb s.frames.length s1
      ⟨⟨none, by simp [s1, callEnv]⟩, ⟨_, hia, fun _ _ => rfl⟩, ⟨a, rfl, _, hia, hg⟩, ⟨j1, j2, j3⟩, hclean ρ hb⟩
    have hlen : s1.frames.length = s.frames.length + 1 := by simp [s1]
    refine ⟨s', any, ?_, by omega, fun j hj => ?_, h4⟩
    · exact e1.trans h1
    · rw [h3 j (by omega) (Nat.ne_of_lt hj)]
      exact List.getElem?_append_left hj

/-- A function of a template. -/
theorem performs_code_by {run : Env → C → MS C W Unit} {call : Mode → Nat → List Val → MS C W Unit} {g a : Nat}
    {decl : Str} {body : C} {I : Inst} {bind : List Val → Except Err Vars}
    {q : Vars → Shown Unit} (hf : fns[g]? = some ⟨.code decl body, a, none, true⟩) (ha : insts[a]? = some I)
    (hl : Dict.get I.globals "local".toList = some (.inst a)) (hg : ∃ g, Dict.get I.globals "gettext".toList = some g)
    (hargs : ∀ vs w, O.args decl vs w = (bind vs, w)) (hclean : ∀ vs ρ, bind vs = .ok ρ → Clean R ρ)
    (hbody : ∀ vs ρ, bind vs = .ok ρ →
      Enacts insts fns next R I a (fun env => run env body) ρ (q ρ)) :
    PerformsBy (callWith O run call) insts fns next g fun vs => (get (bind vs)).next q :=
  fun vs s hs => performs_code_at hf ha hl hg (hargs vs) (hclean vs) (hbody vs) s hs

/-- An expression that calls a function. -/
theorem does_expr_by {call : Mode → Nat → List Val → MS C W Unit} {Cs : Calls} {π : Str → Option Val} {env : Env} {I : Inst}
    {g : Nat} {e f : Str} (show' : Val → Val) (hshow : ∀ i g vs, show' (.flatCall i g vs) = .flatCall i g vs)
    {args : Look → Except Err (List Val)} {q : List Val → Shown Unit}
    (hnext : ∀ e f args v w g, Cs.callee e = some (f, args) → visible v f = some (.fn g) →
      match args (visible v) with
      | .error x => O.eval e v w = (.error x, w)
      | .ok vs => ∃ w', O.eval e v w = (.ok (.flatCall (next w) g vs), w') ∧ next w < next w')
    (he : Cs.callee e = some (f, args)) (hm : env.mode = .stream) (hR : R f)
    (hv : (π f).or (glob I f) = some (.fn g)) (h : PerformsBy call insts fns next g q) :
    Does₀ (setting insts fns next R π) I env (M.bind (evalM O env e) fun v => emit call env.mode (show' v))
      fun ρ => (get (args (look (glob I) ρ))).next q := by
  intro s ρ hs
  obtain ⟨j1, j2, j3⟩ := hs.inv
  have hvis : visible (view env s) f = some (.fn g) := by
    rw [hs.visible fun _ => not_false]
    unfold look
    rw [hs.clean _ hR]
    exact hv
  have hn := hnext e f args (view env s) s.world g he hvis
  rw [hs.visible fun _ => not_false] at hn
  dsimp only
  cases hargs : args (look (glob I) ρ) with
  | error x =>
    rw [hargs] at hn
    have e1 : evalM O env e s = ⟨.nil, s, .error x⟩ := by
      unfold evalM ask
      rw [hn]
    rw [bind_error e1]
    exact ⟨s, false, rfl, (setting insts fns next R π).refl _ _, fun _ h => nomatch h⟩
  | ok vs =>
    rw [hargs] at hn
    obtain ⟨w', he, hw⟩ := hn
    let s1 : Store C W := { s with world := w' }
    have e1 : evalM O env e s = ⟨.nil, s1, .ok (.flatCall (next s.world) g vs)⟩ := by
      unfold evalM ask
      rw [he]
    let s2 : Store C W := { s1 with used := next s.world :: s.used }
    have hfresh : s.used.contains (next s.world) = false := by
      rw [Bool.eq_false_iff]
      intro hc
      exact Nat.lt_irrefl _ (j3 _ (List.contains_iff_mem.1 hc))
    have e2 : emit call env.mode (show' (.flatCall (next s.world) g vs)) s1 =
        call .stream g vs s2 := by
      have hst : start (C := C) (W := W) (next s.world) s1 = ⟨.nil, s2, .ok true⟩ := by
        unfold start
        change (if s.used.contains (next s.world) then _ else _) = _
        rw [hfresh]
        rfl
      rw [hm, hshow]
      unfold emit splice
      dsimp only
      rw [bind_ok hst]
      rfl
    obtain ⟨s', any, h1, h2, h3, h4⟩ := h vs s2 ⟨j1, j2, fun i hi => by
      change i < next w'
      rcases List.mem_cons.1 hi with rfl | hi
      · exact hw
      · exact Nat.lt_trans (j3 i hi) hw⟩
    refine ⟨s', any, ?_, ⟨h2, fun j hj _ => h3 j hj⟩, fun ρ' hρ => ?_⟩
    · rw [bind_ok e1, e2, h1]
      unfold keeping Spec.Pure.Shown.get
      rw [Shown.done_next]
      obtain ⟨t, r⟩ := q vs
      cases r with
      | error e => rfl
      | ok σ => simp [Spec.Pure.Shown.next, done, Except.map, Out.nil]; rfl
    · have hσ : (q vs).res = .ok () ∧ ρ' = ρ := by
        unfold keeping Spec.Pure.Shown.get at hρ
        rw [Shown.done_next] at hρ
        unfold Spec.Pure.Shown.next at hρ
        cases hd : (q vs).res with
        | error e => rw [hd] at hρ; cases hρ
        | ok σ => rw [hd] at hρ; cases hρ; exact ⟨rfl, rfl⟩
      obtain ⟨hσ, rfl⟩ := hσ
      have hi := h4 hσ
      obtain ⟨co, hfr⟩ := hs.frame
      refine ⟨⟨co, ?_⟩, ?_, ?_, hi, hs.clean⟩
      · rw [h3 env.frame hs.lt]
        exact hfr
      · rw [hi.1, ← j1]; exact hs.inst
      · obtain ⟨j, hj, hj'⟩ := hs.kj
        exact ⟨j, hj, by rw [hi.1, ← j1]; exact hj'⟩

end

end Kajiki.FunsDoc
