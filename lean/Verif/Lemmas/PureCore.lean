import Verif.Spec.Pure
import Verif.Lemmas.FillSem
import Verif.Lemmas.StaticRun

/-! Computations that show something and change local variables. -/

namespace Kajiki.PureDoc
open Kajiki.Run Kajiki.Spec.Pure Kajiki.Spec.DocSem
open Kajiki.Spec.Pure.Shown (done raise put get)
open Kajiki.Spec.Fill (settled)

/-! ## Showing -/

namespace Shown
variable {α β γ : Type}

theorem done_next (a : α) (f : α → Shown β) : (done a).next f = f a := rfl

theorem raise_next (e : Err) (f : α → Shown β) : (raise e).next f = raise e := rfl

theorem next_done (m : Shown α) : (m.next fun a => done a) = m := by
  obtain ⟨t, r⟩ := m
  cases r <;> simp [Spec.Pure.Shown.next, done]

theorem next_assoc (m : Shown α) (f : α → Shown β) (g : β → Shown γ) :
    (m.next f).next g = m.next fun a => (f a).next g := by
  obtain ⟨t, r⟩ := m
  cases r with
  | error e => rfl
  | ok a =>
    unfold Spec.Pure.Shown.next
    dsimp only
    cases (f a).res <;> simp

end Shown

/-! ## Computations -/

/-- What a computation in the scope `fr` leaves as it was (`K`), what holds all the time (`J`), names (`R`) local variables
of which stay as they are (`π`), and names of global variables that may change (`hid`). -/
structure Setting (W : Type) (C : Type := Part) where
  K : Nat → Store C W → Store C W → Prop
  J : Store C W → Prop
  R : Str → Prop
  π : Str → Option Val
  hid : Str → Prop := fun _ => False
  refl : ∀ fr s, K fr s s
  trans : ∀ {fr a b c}, K fr a b → K fr b c → K fr a c
  frames : ∀ fr (s : Store C W) fs, s.frames.length ≤ fs.length →
    (∀ j < s.frames.length, j ≠ fr → fs[j]? = s.frames[j]?) → K fr s { s with frames := fs }
  inv : ∀ (s : Store C W) fs, J s → J { s with frames := fs }

theorem blind_none {hid : Str → Prop} (h : ∀ k, ¬hid k) (py : Py) : Blind hid py :=
  have eq : ∀ {L L' : Look}, (∀ k, ¬hid k → L k = L' k) → L = L' := fun hL => funext fun k => hL k (h k)
  ⟨fun _ _ _ hL => by rw [eq hL], fun _ _ _ hL => by rw [eq hL], fun _ _ _ hL => by rw [eq hL]⟩

theorem clean_update {R : Str → Prop} {π : Str → Option Val} {ρ b : Vars} (h : ∀ k, R k → Dict.get ρ k = π k)
    (hb : Clean R b) : ∀ k, R k → Dict.get (ρ.update b) k = π k :=
  fun k hk => (StaticDoc.get_update_none ρ (hb k hk)).trans (h k hk)

section
variable {W : Type} {C : Type} {S : Setting W C} {I : Inst} {env : Env} {O : Oracle W} {py : Py}

/-- The global variables. -/
abbrev glob (I : Inst) : Look := fun k => Dict.get I.globals k

/-- A scope with the given local variables and an instance to run in. -/
structure Ready (S : Setting W C) (I : Inst) (env : Env) (ρ : Vars) (s : Store C W) : Prop where
  frame : ∃ co, s.frames[env.frame]? = some ⟨ρ, none, co⟩
  inst : ∃ J, s.insts[env.inst]? = some J ∧ ∀ k, ¬S.hid k → Dict.get J.globals k = Dict.get I.globals k
  kj : ∃ j, env.kj = some j ∧ ∃ J, s.insts[j]? = some J ∧ ∃ g, Dict.get J.globals "gettext".toList = some g
  inv : S.J s
  clean : ∀ k, S.R k → Dict.get ρ k = S.π k

theorem Ready.lt {ρ : Vars} {s : Store C W} (h : Ready S I env ρ s) : env.frame < s.frames.length := by
  obtain ⟨co, h⟩ := h.frame
  exact (List.getElem?_eq_some_iff.1 h).1

theorem Ready.sees {ρ : Vars} {s : Store C W} (h : Ready S I env ρ s) (k : Str) (hk : ¬S.hid k) :
    visible (view env s) k = look (glob I) ρ k := by
  obtain ⟨co, hf⟩ := h.frame
  obtain ⟨J, hJ, hG⟩ := h.inst
  have hl := h.lt
  unfold Spec.Pure.visible view look
  dsimp only
  rw [hJ]
  cases hn : s.frames.length with
  | zero => rw [hn] at hl; cases hl
  | succ n =>
    rw [scopes, hf]
    dsimp only
    have : scopes s.frames n none = [] := by cases n <;> rfl
    rw [this, show glob I k = Dict.get I.globals k from rfl, ← hG k hk]
    simp

theorem Ready.visible {ρ : Vars} {s : Store C W} (h : Ready S I env ρ s) (hh : ∀ k, ¬S.hid k) :
    visible (view env s) = look (glob I) ρ := funext fun k => h.sees k (hh k)

/-- The computation shows something and changes local variables. -/
def Does (S : Setting W C) (I : Inst) (env : Env) (m : MS C W Unit) (d : Vars → Shown Vars) : Prop :=
  ∀ s ρ, Ready S I env ρ s → ∃ s' any,
    m s = ⟨⟨(d ρ).text, any⟩, s', (d ρ).res.map fun _ => ()⟩ ∧ S.K env.frame s s' ∧
    ∀ ρ', (d ρ).res = .ok ρ' → Ready S I env ρ' s'

/-- The computation shows something. -/
def Does₀ (S : Setting W C) (I : Inst) (env : Env) (m : MS C W Unit) (q : Vars → Shown Unit) : Prop :=
  Does S I env m fun ρ => keeping ρ (q ρ)

theorem next_ok {α β : Type} {m : Shown α} {a : α} (h : m.res = .ok a) (f : α → Shown β) :
    m.next f = ⟨m.text ++ (f a).text, (f a).res⟩ := by
  unfold Spec.Pure.Shown.next
  rw [h]

theorem next_error {α β : Type} {m : Shown α} {e : Err} (h : m.res = .error e) (f : α → Shown β) :
    m.next f = ⟨m.text, .error e⟩ := by
  unfold Spec.Pure.Shown.next
  rw [h]

theorem bind_ok {α β S : Type} {m : M S α} {s s' : S} {a : α} {o : Out} (h : m s = ⟨o, s', .ok a⟩) (f : α → M S β) :
    M.bind m f s = ⟨o ++ (f a s').out, (f a s').st, (f a s').val⟩ := by
  unfold M.bind
  rw [h]

theorem bind_error {α β S : Type} {m : M S α} {s s' : S} {e : Err} {o : Out} (h : m s = ⟨o, s', .error e⟩)
    (f : α → M S β) : M.bind m f s = ⟨o, s', .error e⟩ := by
  unfold M.bind
  rw [h]

theorem Does.bind {m m' : MS C W Unit} {d d' : Vars → Shown Vars} (h : Does S I env m d) (h' : Does S I env m' d') :
    Does S I env (M.bind m fun _ => m') fun ρ => (d ρ).next d' := by
  intro s ρ hs
  obtain ⟨s1, a1, e1, w1, k1⟩ := h s ρ hs
  dsimp only
  cases hr : (d ρ).res with
  | error e =>
    rw [hr] at e1
    rw [bind_error e1, next_error hr]
    exact ⟨s1, a1, rfl, w1, fun _ h => nomatch h⟩
  | ok ρ1 =>
    obtain ⟨s2, a2, e2, w2, k2⟩ := h' s1 ρ1 (k1 ρ1 hr)
    rw [hr] at e1
    rw [bind_ok e1, next_ok hr, e2]
    exact ⟨s2, a1 || a2, rfl, S.trans w1 w2, k2⟩

theorem Does.done : Does S I env (M.pure ()) done := fun s ρ hs =>
  ⟨s, false, rfl, S.refl _ _, fun ρ' h => by cases h; exact hs⟩

theorem Does.congr {m : MS C W Unit} {d d' : Vars → Shown Vars} (h : Does S I env m d) (e : ∀ ρ, d ρ = d' ρ) :
    Does S I env m d' := by
  have : d = d' := funext e
  rwa [← this]

theorem Does₀.put (t : Str) : Does₀ S I env (M.tell (.chunk t)) fun _ => put t := fun s ρ hs =>
  ⟨s, true, by simp [keeping, Spec.Pure.Shown.next, Spec.Pure.Shown.put, Spec.Pure.Shown.done, M.tell, Out.chunk,
    Except.map], S.refl _ _, fun ρ' h => by cases h; exact hs⟩

theorem Does₀.done : Does₀ S I env (M.pure ()) fun _ => Spec.Pure.Shown.done () :=
  Does.done.congr fun _ => rfl

theorem Does₀.seq {m m' : MS C W Unit} {q : Vars → Shown Unit} {d : Vars → Shown Vars} (h : Does₀ S I env m q)
    (h' : Does S I env m' d) : Does S I env (M.bind m fun _ => m') fun ρ => (q ρ).seq (d ρ) := by
  refine (Does.bind h h').congr fun ρ => ?_
  unfold keeping
  rw [Shown.next_assoc]
  rfl

theorem Does₀.bind {m m' : MS C W Unit} {q q' : Vars → Shown Unit} (h : Does₀ S I env m q) (h' : Does₀ S I env m' q') :
    Does₀ S I env (M.bind m fun _ => m') fun ρ => (q ρ).seq (q' ρ) := by
  refine (Does₀.seq h h').congr fun ρ => ?_
  unfold keeping Spec.Pure.Shown.seq
  rw [Shown.next_assoc]

theorem Does₀.each {α : Type} {f : α → MS C W Unit} {g : α → Vars → Shown Unit} {l : List α}
    (h : ∀ a ∈ l, Does₀ S I env (f a) (g a)) :
    Does₀ S I env (M.each f l) fun ρ => Spec.Pure.Shown.each (fun a => g a ρ) l := by
  induction l with
  | nil => exact .done
  | cons a l ih => exact (h a (by simp)).bind (ih fun b hb => h b (by simp [hb]))

theorem eval_ready [hB : Blind S.hid py] {e : Str} (he : Evals O py e) {ρ : Vars} {s : Store C W} (hs : Ready S I env ρ s) :
    evalM O env e s = ⟨.nil, s, py.eval e (look (glob I) ρ)⟩ := by
  unfold evalM ask
  rw [he.1, hB.eval _ _ _ hs.sees]

/-- Something that depends on the value of an expression. -/
theorem Does.eval [Blind S.hid py] {e : Str} (he : Evals O py e) {f : Val → MS C W Unit} {d : Val → Vars → Shown Vars}
    (h : ∀ v, settled v = true → Does S I env (f v) (d v)) :
    Does S I env (M.bind (evalM O env e) f) fun ρ => (get (py.eval e (look (glob I) ρ))).next fun v => d v ρ := by
  intro s ρ hs
  dsimp only
  have hv := eval_ready he hs
  cases he' : py.eval e (look (glob I) ρ) with
  | error x =>
    rw [he'] at hv
    rw [bind_error hv]
    exact ⟨s, false, rfl, S.refl _ _, fun _ h => nomatch h⟩
  | ok v =>
    rw [he'] at hv
    obtain ⟨s', a, h1, h2, h3⟩ := h v (he.2 _ _ he') s ρ hs
    rw [bind_ok hv, h1]
    exact ⟨s', a, rfl, h2, h3⟩

theorem Does₀.eval [Blind S.hid py] {e : Str} (he : Evals O py e) {f : Val → MS C W Unit} {q : Val → Vars → Shown Unit}
    (h : ∀ v, settled v = true → Does₀ S I env (f v) (q v)) :
    Does₀ S I env (M.bind (evalM O env e) f) fun ρ => (get (py.eval e (look (glob I) ρ))).next fun v => q v ρ := by
  refine (Does.eval he h).congr fun ρ => ?_
  unfold keeping
  rw [Shown.next_assoc]

theorem Does.setVars {b : Dict Val} (hb : Clean S.R b) :
    Does S I env (setVars env b) fun ρ => Spec.Pure.Shown.done (ρ.update b) := by
  intro s ρ hs
  refine ⟨_, false, rfl, S.frames _ _ _ (by rw [List.length_modify]) fun j hj hne => ?_, fun ρ' hρ => ?_⟩
  · rw [List.getElem?_modify]
    simp only [if_neg (Ne.symm hne), id_map']
  cases hρ
  obtain ⟨co, hf⟩ := hs.frame
  refine ⟨⟨co, ?_⟩, hs.inst, hs.kj, S.inv _ _ hs.inv, clean_update hs.clean hb⟩
  dsimp only
  rw [List.getElem?_modify, hf]
  simp

theorem Does.kj {m : MS C W Unit} {d : Vars → Shown Vars} (h : Does S I env m d) :
    Does S I env (M.bind (kjInst env) fun _ => m) d := by
  intro s ρ hs
  obtain ⟨j, hj, -⟩ := hs.kj
  have : kjInst (C := C) (W := W) env s = ⟨.nil, s, .ok j⟩ := by
    unfold kjInst
    rw [hj]
    rfl
  rw [bind_ok this]
  obtain ⟨s', a, h1, h2, h3⟩ := h s ρ hs
  rw [h1]
  exact ⟨s', a, rfl, h2, h3⟩

theorem Does.loop {f : Dict Val → MS C W Unit} {d : Vars → Shown Vars}
    {bs : List (Dict Val)} (h : ∀ b ∈ bs, Does S I env (f b) fun ρ => d (ρ.update b)) :
    Does S I env (M.each f bs) (Spec.Pure.loop d bs) := by
  induction bs with
  | nil => exact Does.done
  | cons b bs ih => exact (h b (by simp)).bind (ih fun b hb => h b (by simp [hb]))

theorem Does.iter [hB : Blind S.hid py] {e : Str} (he : ∀ v w, O.iter e v w = (py.iter e (visible v), w)) {f : List (Dict Val) → MS C W Unit}
    {d : List (Dict Val) → Vars → Shown Vars} (hT : Tidy S.R py)
    (h : ∀ bs, (∀ b ∈ bs, Clean S.R b) → Does S I env (f bs) (d bs)) :
    Does S I env (M.bind (ask env (O.iter e)) f) fun ρ => (get (py.iter e (look (glob I) ρ))).next fun bs => d bs ρ := by
  intro s ρ hs
  have hv : ask (C := C) env (O.iter e) s = ⟨.nil, s, py.iter e (look (glob I) ρ)⟩ := by
    unfold ask
    rw [he, hB.iter _ _ _ hs.sees]
  dsimp only
  cases he' : py.iter e (look (glob I) ρ) with
  | error x =>
    rw [he'] at hv
    rw [bind_error hv]
    exact ⟨s, false, rfl, S.refl _ _, fun _ h => nomatch h⟩
  | ok v =>
    rw [he'] at hv
    obtain ⟨s', a, h1, h2, h3⟩ := h v (hT.iter _ _ _ he') s ρ hs
    rw [bind_ok hv, h1]
    exact ⟨s', a, rfl, h2, h3⟩

/-- A Python block. -/
theorem Does.pyBlock [hB : Blind S.hid py] {ls : List Str} (he : ∀ v w, O.py ls v w = (py.block ls (visible v), w)) (hT : Tidy S.R py) :
    Does S I env (if ls.isEmpty then M.pure () else M.bind (ask env (O.py ls)) fun b => Run.setVars env b)
      fun ρ => if ls.isEmpty then Spec.Pure.Shown.done ρ
        else (get (py.block ls (look (glob I) ρ))).next fun b => Spec.Pure.Shown.done (ρ.update b) := by
  split
  · exact Does.done
  · intro s ρ hs
    have hv : ask (C := C) env (O.py ls) s = ⟨.nil, s, py.block ls (look (glob I) ρ)⟩ := by
      unfold ask
      rw [he, hB.block _ _ _ hs.sees]
    dsimp only
    cases he' : py.block ls (look (glob I) ρ) with
    | error x =>
      rw [he'] at hv
      rw [bind_error hv]
      exact ⟨s, false, rfl, S.refl _ _, fun _ h => nomatch h⟩
    | ok b =>
      rw [he'] at hv
      obtain ⟨s', a, h1, h2, h3⟩ := Does.setVars (S := S) (I := I) (env := env) (hT.block _ _ _ he') s ρ hs
      rw [bind_ok hv, h1]
      exact ⟨s', a, rfl, h2, h3⟩

end

end Kajiki.PureDoc
