import Verif.Spec.Sem
import Verif.Spec.Code
import Mathlib.Data.List.Forall2

/-!
# Relating two executions

`RelAt R pre m n` says that two computations, on stores whose function bodies are related by `R`,
produce the same output, value and final store (up to `R`), and that the first one leaves the runtime
stacks of existing instances as they were when it succeeds, and only adds to them when it fails.
-/

namespace Kajiki.Run

variable {C D W α β : Type}

/-! ## Output -/

theorem Out.ext' {a b : Out} (h : a.txt = b.txt) (h2 : a.any = b.any) : a = b := by
  cases a; cases b; simp_all

@[simp] theorem Out.append_txt (a b : Out) : (a ++ b).txt = a.txt ++ b.txt := rfl
@[simp] theorem Out.append_any (a b : Out) : (a ++ b).any = (a.any || b.any) := rfl
@[simp] theorem Out.nil_txt : Out.nil.txt = [] := rfl
@[simp] theorem Out.nil_any : Out.nil.any = false := rfl
@[simp] theorem Out.nil_append (a : Out) : Out.nil ++ a = a := Out.ext' rfl rfl
@[simp] theorem Out.append_nil (a : Out) : a ++ Out.nil = a :=
  Out.ext' (by simp) (by simp)
theorem Out.append_assoc (a b c : Out) : a ++ b ++ c = a ++ (b ++ c) :=
  Out.ext' (by simp) (by simp [Bool.or_assoc])

/-! ## Monad laws -/

theorem M.pure_bind {S : Type} (a : α) (f : α → M S β) : M.bind (M.pure a) f = f a := by
  funext s; simp [M.bind, M.pure]

theorem M.bind_pure {S : Type} (m : M S Unit) : M.bind m (fun _ => M.pure ()) = m := by
  funext s
  cases h : m s with
  | mk o st v => cases v <;> simp [M.bind, M.pure, h]

theorem M.bind_assoc {S γ : Type} (m : M S α) (f : α → M S β) (g : β → M S γ) :
    M.bind (M.bind m f) g = M.bind m fun a => M.bind (f a) g := by
  funext s
  cases h : m s with
  | mk o st v =>
    cases v with
    | error e => simp [M.bind, h]
    | ok a =>
      cases h2 : f a st with
      | mk o2 st2 v2 => cases v2 <;> simp [M.bind, h, h2, Out.append_assoc]

/-! ## Relations -/

/-- Related code. -/
def BodyRel (R : C → D → Prop) : FnBody C → FnBody D → Prop
  | .code d c, .code d' c' => d = d' ∧ R c c'
  | .tramp a, .tramp b => a = b
  | _, _ => False

/-- Related function objects. -/
structure FnRel (R : C → D → Prop) (f : Fn C) (g : Fn D) : Prop where
  body : BodyRel R f.body g.body
  inst : f.inst = g.inst
  up : f.up = g.up
  tpl : f.tpl = g.tpl

/-- Related stores; the runtime stacks are not compared. -/
structure StoreRel (R : C → D → Prop) (s : Store C W) (t : Store D W) : Prop where
  insts : s.insts = t.insts
  frames : s.frames = t.frames
  used : s.used = t.used
  world : s.world = t.world
  fns : List.Forall₂ (FnRel R) s.fns t.fns
  ups : ∀ f ∈ t.frames, ∀ j, f.up = some j → j < t.frames.length
  fnUps : ∀ f ∈ t.fns, ∀ j, f.up = some j → j < t.frames.length

/-- Stacks after a run: unchanged on success; on failure entries may have been added on top. -/
def StackOk (ok : Bool) (a b : Stacks) : Prop :=
  if ok then b = a else ∃ x y, b.sw = x ++ a.sw ∧ b.wi = y ++ a.wi

/-- Did it succeed? -/
def isOk : Except Err α → Bool
  | .ok _ => true
  | .error _ => false

/-- Instances and scopes are never removed. -/
structure Grows (s s' : Store C W) : Prop where
  insts : s.insts.length ≤ s'.insts.length
  frames : s.frames.length ≤ s'.frames.length
  keep : ∀ (i : Nat) (x : Inst), s.insts[i]? = some x →
    ∃ y, s'.insts[i]? = some y ∧ y.cls = x.cls ∧ y.context = x.context

theorem Grows.same {s s' : Store C W} (h : s'.insts = s.insts)
    (h2 : s'.frames.length = s.frames.length) : Grows s s' :=
  ⟨h ▸ Nat.le_refl _, h2 ▸ Nat.le_refl _, fun _ x hx => ⟨x, h ▸ hx, rfl, rfl⟩⟩

theorem Grows.trans {a b c : Store C W} (h : Grows a b) (h2 : Grows b c) : Grows a c :=
  ⟨Nat.le_trans h.1 h2.1, Nat.le_trans h.2 h2.2, fun i x hx => by
    obtain ⟨y, hy, h3, h4⟩ := h.keep i x hx
    obtain ⟨z, hz, h5, h6⟩ := h2.keep i y hy
    exact ⟨z, hz, h5.trans h3, h6.trans h4⟩⟩

/-- Related results of runs started in a store `s`. -/
structure ResRel (R : C → D → Prop) (s : Store C W) (r : Res (Store C W) α) (r' : Res (Store D W) α) :
    Prop where
  out : r.out = r'.out
  val : r.val = r'.val
  st : StoreRel R r.st r'.st
  mono : Grows s r.st
  stacks : ∀ i, i < s.insts.length → StackOk (isOk r.val) (s.stacks i) (r.st.stacks i)

/-- Related computations, from stores satisfying `pre`. -/
def RelAt (R : C → D → Prop) (pre : Store C W → Prop) (m : MS C W α) (n : MS D W α) : Prop :=
  ∀ s t, StoreRel R s t → pre s → ResRel R s (m s) (n t)

/-- Related computations. -/
abbrev Rel (R : C → D → Prop) (m : MS C W α) (n : MS D W α) : Prop := RelAt R (fun _ => True) m n

/-- A precondition that survives a successful run. -/
def Stable (pre : Store C W → Prop) : Prop :=
  ∀ s s' : Store C W, pre s → Grows s s' →
    (∀ i, i < s.insts.length → s'.stacks i = s.stacks i) → pre s'

theorem StackOk.refl (ok : Bool) (a : Stacks) : StackOk ok a a := by
  cases ok
  · exact ⟨[], [], rfl, rfl⟩
  · rfl

variable {R : C → D → Prop} {pre : Store C W → Prop}

theorem Rel.at {m : MS C W α} {n : MS D W α} (h : Rel R m n) : RelAt R pre m n :=
  fun s t hs _ => h s t hs trivial

theorem RelAt.weaken {pre' : Store C W → Prop} {m : MS C W α} {n : MS D W α} (h : RelAt R pre m n)
    (hp : ∀ s, pre' s → pre s) : RelAt R pre' m n := fun s t hs h' => h s t hs (hp s h')

theorem RelAt.bind {m : MS C W α} {n : MS D W α} {f : α → MS C W β} {g : α → MS D W β}
    (hpre : Stable pre) (h : RelAt R pre m n) (hf : ∀ a, RelAt R pre (f a) (g a)) :
    RelAt R pre (M.bind m f) (M.bind n g) := by
  intro s t hst hp
  have h1 := h s t hst hp
  unfold M.bind
  cases hm : m s with
  | mk o st v =>
    cases hn : n t with
    | mk o' st' v' =>
      rw [hm, hn] at h1
      obtain ⟨ho, hv, hs, hmono, hstk⟩ := h1
      dsimp only at ho hv hs hmono hstk
      subst ho hv
      cases v with
      | error e => exact ⟨rfl, rfl, hs, hmono, hstk⟩
      | ok a =>
        have heq : ∀ i, i < s.insts.length → st.stacks i = s.stacks i := by
          intro i hi; have := hstk i hi; simpa [StackOk, isOk] using this
        have h2 := hf a st st' hs (hpre s st hp hmono heq)
        dsimp only
        obtain ⟨ho2, hv2, hs2, hm2, hk2⟩ := h2
        refine ⟨by simp [ho2], hv2, hs2, hmono.trans hm2, fun i hi => ?_⟩
        have := hk2 i (Nat.lt_of_lt_of_le hi hmono.1)
        rw [heq i hi] at this
        exact this

theorem stable_true : Stable (fun _ : Store C W => True) := fun _ _ _ _ _ => trivial

theorem Rel.bind {m : MS C W α} {n : MS D W α} {f : α → MS C W β} {g : α → MS D W β}
    (h : Rel R m n) (hf : ∀ a, Rel R (f a) (g a)) : Rel R (M.bind m f) (M.bind n g) :=
  RelAt.bind stable_true h hf

theorem Rel.pure (a : α) : Rel R (M.pure a : MS C W α) (M.pure a) := fun _ _ hs _ =>
  ⟨rfl, rfl, hs, Grows.same rfl rfl, fun _ _ => StackOk.refl _ _⟩

theorem Rel.throw (e : Err) : Rel R (M.throw e : MS C W α) (M.throw e) := fun _ _ hs _ =>
  ⟨rfl, rfl, hs, Grows.same rfl rfl, fun _ _ => StackOk.refl _ _⟩

theorem Rel.tell (o : Out) : Rel R (M.tell o : MS C W Unit) (M.tell o) := fun _ _ hs _ =>
  ⟨rfl, rfl, hs, Grows.same rfl rfl, fun _ _ => StackOk.refl _ _⟩

theorem Rel.ofOption (e : Err) (x : Option α) : Rel R (M.ofOption e x : MS C W α) (M.ofOption e x) := by
  cases x
  · exact Rel.throw _
  · exact Rel.pure _

theorem Rel.each {γ : Type} {f : γ → MS C W Unit} {g : γ → MS D W Unit} (hpre : Stable pre)
    (h : ∀ a, RelAt R pre (f a) (g a)) (l : List γ) :
    RelAt R pre (M.each f l) (M.each g l) := by
  induction l with
  | nil => exact (Rel.pure ()).at
  | cons a l ih => exact RelAt.bind hpre (h a) fun _ => ih

theorem Rel.capture {m : MS C W Unit} {n : MS D W Unit} (h : RelAt R pre m n) :
    RelAt R pre (M.capture m) (M.capture n) := by
  intro s t hst hp
  have h1 := h s t hst hp
  unfold M.capture
  cases hm : m s with
  | mk o st v =>
    cases hn : n t with
    | mk o' st' v' =>
      rw [hm, hn] at h1
      obtain ⟨ho, hv, hs, hmono, hstk⟩ := h1
      dsimp only at ho hv hs hmono hstk
      subst ho hv
      cases v <;> exact ⟨rfl, rfl, hs, hmono, hstk⟩

theorem view_eq {s : Store C W} {t : Store D W} (h : StoreRel R s t) (env : Env) :
    view env s = view env t := by
  simp [view, h.frames, h.insts]

theorem Rel.ask (env : Env) (f : View → W → Except Err α × W) :
    Rel R (ask env f : MS C W α) (ask env f) := by
  intro s t hs _
  simp only [Kajiki.Run.ask, view_eq hs, hs.world]
  exact ⟨rfl, rfl, ⟨hs.insts, hs.frames, hs.used, rfl, hs.fns, hs.ups, hs.fnUps⟩, Grows.same rfl rfl, fun _ _ => StackOk.refl _ _⟩

theorem mem_modify {α : Type} {l : List α} {i : Nat} {f : α → α} {x : α} (h : x ∈ l.modify i f) :
    x ∈ l ∨ ∃ y ∈ l, x = f y := by
  rw [List.mem_iff_getElem?] at h
  obtain ⟨k, hk⟩ := h
  rw [List.getElem?_modify] at hk
  cases hl : l[k]? with
  | none => rw [hl] at hk; simp at hk
  | some y =>
    rw [hl] at hk
    have hy := List.mem_of_getElem? hl
    by_cases hi : i = k
    · simp only [hi, if_true] at hk
      exact Or.inr ⟨y, hy, by simpa using hk.symm⟩
    · simp only [hi, if_false] at hk
      have : y = x := by simpa using hk
      exact Or.inl (this ▸ hy)

theorem Rel.modFrame (env : Env) (f : Frame → Frame) (hf : ∀ x, (f x).up = x.up) :
    Rel R (modFrame env f : MS C W Unit) (modFrame env f) := by
  intro s t hs _
  refine ⟨rfl, rfl, ⟨hs.insts, ?_, hs.used, hs.world, hs.fns, ?_, ?_⟩,
    Grows.same rfl (by simp [Kajiki.Run.modFrame, M.modify]), fun _ _ => StackOk.refl _ _⟩
  · simp [Kajiki.Run.modFrame, M.modify, hs.frames]
  · intro x hx j hj
    simp only [Kajiki.Run.modFrame, M.modify, List.length_modify] at hx ⊢
    rcases mem_modify hx with h | ⟨y, hy, rfl⟩
    · exact hs.ups x h j hj
    · rw [hf] at hj; exact hs.ups y hy j hj
  · intro x hx j hj
    simp only [Kajiki.Run.modFrame, M.modify, List.length_modify] at hx ⊢
    exact hs.fnUps x hx j hj

theorem Rel.setVars (env : Env) (b : Dict Val) :
    Rel R (setVars env b : MS C W Unit) (setVars env b) :=
  Rel.modFrame env (fun f => { f with vars := f.vars.update b }) fun _ => rfl

theorem liveScope_lt {fs : List Frame} {up : Option Nat} {j : Nat} (h : liveScope fs up = some j) :
    j < fs.length := by
  simp only [liveScope, Option.filter_eq_some_iff, decide_eq_true_eq] at h
  exact h.2

theorem Rel.newFrame (b : Dict Val) (up : Option Nat) :
    Rel R (newFrame b up : MS C W Nat) (newFrame b up) := by
  intro s t hs _
  refine ⟨rfl, ?_, ⟨hs.insts, ?_, hs.used, hs.world, hs.fns, ?_, ?_⟩,
    ⟨Nat.le_refl _, by simp [Kajiki.Run.newFrame], fun i x hx => ⟨x, hx, rfl, rfl⟩⟩, fun _ _ => StackOk.refl _ _⟩
  · simp [Kajiki.Run.newFrame, hs.frames]
  · simp [Kajiki.Run.newFrame, hs.frames]
  · intro x hx j hj
    simp only [Kajiki.Run.newFrame, List.mem_append, List.mem_singleton, List.length_append,
      List.length_cons, List.length_nil] at hx ⊢
    rcases hx with hx | rfl
    · exact Nat.lt_succ_of_lt (hs.ups x hx j hj)
    · exact Nat.lt_succ_of_lt (liveScope_lt hj)
  · intro x hx j hj
    simp only [Kajiki.Run.newFrame, List.length_append, List.length_cons, List.length_nil] at hx ⊢
    exact Nat.lt_succ_of_lt (hs.fnUps x hx j hj)

theorem Rel.newFn {f : Fn C} {g : Fn D} (h : FnRel R f g) :
    Rel R (newFn f : MS C W Nat) (newFn g) := by
  intro s t hs _
  refine ⟨rfl, ?_, ⟨hs.insts, hs.frames, hs.used, hs.world, ?_, hs.ups, ?_⟩, Grows.same rfl rfl,
    fun _ _ => StackOk.refl _ _⟩
  · simp [Kajiki.Run.newFn, hs.fns.length_eq]
  · refine List.rel_append hs.fns (List.Forall₂.cons ⟨h.body, h.inst, ?_, h.tpl⟩ List.Forall₂.nil)
    simp only [hs.frames, h.up]
  · intro x hx j hj
    simp only [Kajiki.Run.newFn, List.mem_append, List.mem_singleton] at hx ⊢
    rcases hx with hx | rfl
    · exact hs.fnUps x hx j hj
    · exact liveScope_lt hj

theorem Rel.start (id : Nat) : Rel R (start id : MS C W Bool) (start id) := by
  intro s t hs _
  simp only [Kajiki.Run.start, hs.used]
  split
  · exact ⟨rfl, rfl, hs, Grows.same rfl rfl, fun _ _ => StackOk.refl _ _⟩
  · exact ⟨rfl, rfl, ⟨hs.insts, hs.frames, rfl, hs.world, hs.fns, hs.ups, hs.fnUps⟩, Grows.same rfl rfl,
      fun _ _ => StackOk.refl _ _⟩

theorem Rel.chunk (mode : Mode) (v : Val) : Rel R (chunk mode v : MS C W Unit) (chunk mode v) := by
  unfold Kajiki.Run.chunk
  split
  · exact Rel.tell _
  · exact Rel.throw _
  · exact Rel.tell _

theorem Rel.splice {m : Mode → MS C W Unit} {n : Mode → MS D W Unit} (h : ∀ mode, Rel R (m mode) (n mode))
    (mode : Mode) : Rel R (splice mode m) (splice mode n) := by
  cases mode
  · exact h _
  · exact (h _).bind fun _ => Rel.tell _
  · exact h _

mutual
theorem Rel.emit {c : Mode → Nat → List Val → MS C W Unit} {d : Mode → Nat → List Val → MS D W Unit}
    (h : ∀ mode f as, Rel R (c mode f as) (d mode f as)) (mode : Mode) (v : Val) :
    Rel R (emit c mode v) (emit d mode v) := by
  cases v with
  | none => simp only [Kajiki.Run.emit]; exact Rel.pure _
  | flatItems id items =>
    simp only [Kajiki.Run.emit]
    refine Rel.splice (fun mode => (Rel.start id).bind fun b => ?_) mode
    cases b
    · exact Rel.pure _
    · exact Rel.emitList h mode items
  | flatCall id f as =>
    simp only [Kajiki.Run.emit]
    refine Rel.splice (fun mode => (Rel.start id).bind fun b => ?_) mode
    cases b
    · exact Rel.pure _
    · exact h mode f as
  | _ => simp only [Kajiki.Run.emit]; exact Rel.chunk _ _

theorem Rel.emitList {c : Mode → Nat → List Val → MS C W Unit} {d : Mode → Nat → List Val → MS D W Unit}
    (h : ∀ mode f as, Rel R (c mode f as) (d mode f as)) (mode : Mode) (vs : List Val) :
    Rel R (emitList c mode vs) (emitList d mode vs) := by
  cases vs with
  | nil => simp only [Kajiki.Run.emitList]; exact Rel.pure _
  | cons v vs =>
    simp only [Kajiki.Run.emitList]
    exact (Rel.emit h mode v).bind fun _ => Rel.emitList h mode vs
end

theorem Rel.getInst (i : Nat) : Rel R (getInst i : MS C W Inst) (getInst i) := by
  intro s t hs _
  simp only [Kajiki.Run.getInst, hs.insts]
  split <;> exact ⟨rfl, rfl, hs, Grows.same rfl rfl, fun _ _ => StackOk.refl _ _⟩

theorem Rel.modInst (i : Nat) (f : Inst → Inst) (hf : ∀ x, (f x).cls = x.cls ∧ (f x).context = x.context) :
    Rel R (modInst i f : MS C W Unit) (modInst i f) := by
  intro s t hs _
  refine ⟨rfl, rfl, ⟨?_, hs.frames, hs.used, hs.world, hs.fns, hs.ups, hs.fnUps⟩, ?_, fun _ _ => StackOk.refl _ _⟩
  · simp [Kajiki.Run.modInst, M.modify, hs.insts]
  · refine ⟨by simp [Kajiki.Run.modInst, M.modify], Nat.le_refl _, fun k x hx => ?_⟩
    simp only [Kajiki.Run.modInst, M.modify, List.getElem?_modify, hx]
    by_cases h : i = k
    · exact ⟨f x, by simp [h], hf x⟩
    · exact ⟨x, by simp [h], rfl, rfl⟩

/-- Related classes. -/
structure ProgRel (R : C → D → Prop) (P : Prog C) (Q : Prog D) : Prop where
  load : P.load = Q.load
  aliasFor : P.aliasFor = Q.aliasFor
  classes : List.Forall₂ (fun (c : Cls C) (d : Cls D) => c.baseGlobals = d.baseGlobals ∧
    List.Forall₂ (fun (a : Str × Str × C) (b : Str × Str × D) =>
      a.1 = b.1 ∧ a.2.1 = b.2.1 ∧ R a.2.2 b.2.2) c.methods d.methods) P.classes Q.classes

theorem methodDict_rel {ms : List (Str × Str × C)} {ns : List (Str × Str × D)}
    (h : List.Forall₂ (fun (a : Str × Str × C) (b : Str × Str × D) =>
      a.1 = b.1 ∧ a.2.1 = b.2.1 ∧ R a.2.2 b.2.2) ms ns) (k : Nat) :
    methodDict k ms = methodDict k ns := by
  induction h generalizing k with
  | nil => rfl
  | cons h _ ih => simp [methodDict, h.1, ih]

theorem methodFns_rel (i : Nat) {ms : List (Str × Str × C)} {ns : List (Str × Str × D)}
    (h : List.Forall₂ (fun (a : Str × Str × C) (b : Str × Str × D) =>
      a.1 = b.1 ∧ a.2.1 = b.2.1 ∧ R a.2.2 b.2.2) ms ns) :
    List.Forall₂ (FnRel R) (methodFns i ms) (methodFns i ns) := by
  induction h with
  | nil => exact List.Forall₂.nil
  | cons h _ ih => exact List.Forall₂.cons ⟨⟨h.2.1, h.2.2⟩, rfl, rfl, rfl⟩ ih

theorem Rel.newInst {P : Prog C} {Q : Prog D} (hP : ProgRel R P Q) (c : Nat) (ctx : Dict Val) :
    Rel R (newInst P c ctx : MS C W Nat) (newInst Q c ctx) := by
  intro s t hs _
  have hc := hP.classes
  unfold Kajiki.Run.newInst
  rcases hpc : P.classes[c]? with _ | pc
  · have : Q.classes[c]? = none := by
      rw [List.getElem?_eq_none_iff] at hpc ⊢; rw [← hc.length_eq]; exact hpc
    rw [this]
    exact ⟨rfl, rfl, hs, Grows.same rfl rfl, fun _ _ => StackOk.refl _ _⟩
  · obtain ⟨hlt, hpe⟩ := List.getElem?_eq_some_iff.1 hpc
    have hlt' : c < Q.classes.length := by rw [← hc.length_eq]; exact hlt
    have hq : Q.classes[c]? = some Q.classes[c] := List.getElem?_eq_getElem hlt'
    have hr := List.forall₂_iff_get.1 hc |>.2 c hlt hlt'
    simp only [List.get_eq_getElem, hpe] at hr
    rw [hq]
    dsimp only
    obtain ⟨hb, hm⟩ := hr
    refine ⟨rfl, by simp [hs.insts], ⟨?_, hs.frames, hs.used, hs.world, ?_, hs.ups, ?_⟩,
      ⟨by simp, Nat.le_refl _, fun k x hx => ⟨x, by
        have := (List.getElem?_eq_some_iff.1 hx).1
        rw [List.getElem?_append_left this]; exact hx, rfl, rfl⟩⟩, ?_⟩
    · simp only [hs.insts, hs.fns.length_eq, methodDict_rel hm, hb]
    · simp only [hs.insts]
      exact List.rel_append hs.fns (methodFns_rel _ hm)
    · intro x hx j hj
      simp only [List.mem_append] at hx
      rcases hx with hx | hx
      · exact hs.fnUps x hx j hj
      · simp only [methodFns, List.mem_map] at hx
        obtain ⟨_, _, rfl⟩ := hx
        simp at hj
    · intro i hi
      have : i ≠ s.insts.length := by omega
      simp only [this, if_false]
      exact StackOk.refl _ _

theorem tplFlags_eq {s : Store C W} {t : Store D W} (h : StoreRel R s t) :
    s.fns.map (·.tpl) = t.fns.map (·.tpl) := by
  have := h.fns
  generalize s.fns = a, t.fns = b at this
  induction this with
  | nil => rfl
  | cons h _ ih => simp [h.tpl, ih]

/-- Reading the store first. -/
theorem RelAt.getBind {f : Store C W → MS C W β} {g : Store D W → MS D W β}
    (h : ∀ s t, StoreRel R s t → pre s → ResRel R s (f s s) (g t t)) :
    RelAt R pre (M.bind M.get f) (M.bind M.get g) := by
  intro s t hs hp
  have := h s t hs hp
  simp only [M.bind, M.get]
  exact ⟨by simpa using this.out, this.val, this.st, this.mono, this.stacks⟩

theorem Rel.extend {P : Prog C} {Q : Prog D} (hP : ProgRel R P Q) (j : Nat) (name : Str) :
    Rel R (extend P j name : MS C W Nat) (extend Q j name) := by
  unfold Kajiki.Run.extend
  rw [hP.load]
  refine (Rel.ofOption _ _).bind fun c => (Rel.getInst j).bind fun me =>
    (Rel.newInst hP c _).bind fun p => (Rel.getInst p).bind fun pi => RelAt.getBind ?_
  intro s t hs _
  rw [tplFlags_eq hs, hs.fns.length_eq]
  refine Rel.bind (R := R) ?_ (fun _ => Rel.bind (Rel.modInst _ _ ?_) fun _ =>
    Rel.bind (Rel.modInst _ _ ?_) fun _ => Rel.pure _) s t hs trivial
  · intro s t hs _
    refine ⟨rfl, rfl, ⟨hs.insts, hs.frames, hs.used, hs.world, ?_, hs.ups, ?_⟩, Grows.same rfl rfl,
      fun _ _ => StackOk.refl _ _⟩
    · refine List.rel_append hs.fns ?_
      rw [List.forall₂_map_left_iff, List.forall₂_map_right_iff, List.forall₂_same]
      intro k _
      exact ⟨rfl, rfl, rfl, rfl⟩
    · intro x hx j hj
      simp only [M.modify, List.mem_append, List.mem_map] at hx
      rcases hx with hx | ⟨_, _, rfl⟩
      · exact hs.fnUps x hx j hj
      · simp at hj
  · exact fun _ => ⟨rfl, rfl⟩
  · exact fun _ => ⟨rfl, rfl⟩

theorem Rel.importT {P : Prog C} {Q : Prog D} (hP : ProgRel R P Q) (j : Nat) (name : Str)
    (al : Option Str) : Rel R (importT P j name al : MS C W Nat) (importT Q j name al) := by
  unfold Kajiki.Run.importT
  rw [hP.load, hP.aliasFor]
  exact (Rel.ofOption _ _).bind fun c => (Rel.getInst j).bind fun me =>
    (Rel.newInst hP c _).bind fun r => Rel.bind (Rel.modInst _
      (fun x => { x with globals := Dict.set x.globals (al.getD (Q.aliasFor name)) (.inst r) })
      fun _ => ⟨rfl, rfl⟩) fun _ => Rel.pure _

theorem Rel.globalInst (env : Env) (k : Str) :
    Rel R (globalInst env k : MS C W Nat) (globalInst env k) := by
  unfold Kajiki.Run.globalInst
  refine (Rel.getInst _).bind fun i => ?_
  split
  · exact Rel.pure _
  · exact Rel.throw _
  · exact Rel.throw _

theorem Rel.kjInst (env : Env) : Rel R (kjInst env : MS C W Nat) (kjInst env) := Rel.ofOption _ _

theorem Rel.importM {P : Prog C} {Q : Prog D} (hP : ProgRel R P Q) (env : Env) (name : Str)
    (al : Option Str) : Rel R (importM P env name al : MS C W Nat) (importM Q env name al) :=
  (Rel.kjInst env).bind fun _ => (Rel.globalInst env _).bind fun j => Rel.importT hP j name al

theorem Rel.extendM {P : Prog C} {Q : Prog D} (hP : ProgRel R P Q) (env : Env) (name : Str) :
    Rel R (extendM P env name : MS C W Nat) (extendM Q env name) :=
  (Rel.kjInst env).bind fun j => Rel.extend hP j name

theorem Rel.attrFn (i : Nat) (k : Str) : Rel R (attrFn i k : MS C W Nat) (attrFn i k) := by
  unfold Kajiki.Run.attrFn
  refine (Rel.getInst _).bind fun i => ?_
  split
  · exact Rel.pure _
  · exact Rel.throw _

theorem Rel.emitMain {c : Mode → Nat → List Val → MS C W Unit} {d : Mode → Nat → List Val → MS D W Unit}
    (h : ∀ mode f as, Rel R (c mode f as) (d mode f as)) (mode : Mode) (i : Nat) :
    Rel R (emitMain c mode i) (emitMain d mode i) :=
  (Rel.attrFn i _).bind fun f => Rel.splice (fun mode => h mode f []) mode

theorem Rel.gettextM (O : Oracle W) (env : Env) (x : Str) :
    Rel R (gettextM O env x : MS C W Val) (gettextM O env x) :=
  (Rel.kjInst env).bind fun j => (Rel.getInst j).bind fun _ => (Rel.ofOption _ _).bind fun _ =>
    Rel.ask _ _

theorem Rel.evalM (O : Oracle W) (env : Env) (e : Str) :
    Rel R (evalM O env e : MS C W Val) (evalM O env e) := Rel.ask _ _

theorem Rel.emitStrs (ss : List Str) : Rel R (emitStrs ss : MS C W Unit) (emitStrs ss) :=
  Rel.each stable_true (fun _ => Rel.tell _) ss

theorem Rel.attrsM (O : Oracle W) (env : Env) (c m : Str) :
    Rel R (attrsM O env c m : MS C W Unit) (attrsM O env c m) := by
  refine (Rel.evalM O env c).bind fun v => ?_
  cases renderAttrs v m
  · exact Rel.throw _
  · exact Rel.emitStrs _

theorem Rel.attrM (env : Env) (n m : Str) : Rel R (attrM env n m : MS C W Unit) (attrM env n m) := by
  refine RelAt.getBind fun s t hs _ => ?_
  rw [hs.frames]
  exact Rel.emitStrs _ s t hs trivial

theorem Rel.fdefM (env : Env) (decl : Str) {b : C} {b' : D} (h : R b b') :
    Rel R (fdefM env decl b : MS C W Unit) (fdefM env decl b') :=
  (Rel.newFn (f := ⟨.code decl b, _, _, _⟩) (g := ⟨.code decl b', _, _, _⟩) ⟨⟨rfl, h⟩, rfl, rfl, rfl⟩).bind fun _ => Rel.setVars _ _

theorem RelAt.collectM {env : Env} {m : Env → MS C W Unit} {n : Env → MS D W Unit} (hpre : Stable pre)
    (h : ∀ fr, RelAt R pre (m { env with frame := fr, mode := .collect })
      (n { env with frame := fr, mode := .collect })) :
    RelAt R pre (collectM env m) (collectM env n) :=
  RelAt.bind hpre (Rel.newFrame _ _).at fun fr =>
    RelAt.bind hpre (Rel.capture (h fr)) fun o =>
      (Rel.modFrame env (fun f => { f with coll := if o.any then some o.txt else none }) fun _ => rfl).at

theorem localVars_eq {s : Store C W} {t : Store D W} (h : StoreRel R s t) (env : Env) :
    localVars env s = localVars env t := by simp [localVars, h.frames]

theorem reading_true {C W : Type} (m : MS C W Unit) : reading true m = m := M.bind_pure m

theorem reading_ok {C W : Type} {y : Bool} {m : MS C W Unit} {s : Store C W} {a : Unit}
    (h : (reading y m s).val = .ok a) : reading y m s = m s := by
  cases y
  · exfalso
    unfold reading M.bind at h
    cases hv : (m s).val <;> simp [hv, M.throw] at h
  · rw [reading_true]

end Kajiki.Run
