import Verif.Lemmas.ShareVal

/-!
# A rendering's objects among those of the process
-/

namespace Kajiki.Spec.Share
open Kajiki Kajiki.Run

variable {C W α β γ δ : Type} {fl : Nat → Nat} {k : Nat} {ρ σ τ : Ren}

/-- Optional numbers. -/
def OptR (l : List Nat) : Option Nat → Option Nat → Prop
  | none, none => True
  | some i, some j => l[i]? = some j
  | _, _ => False

theorem OptR.mono {l m : List Nat} (h : l <+: m) {a b : Option Nat} (hab : OptR l a b) : OptR m a b := by
  cases a <;> cases b <;> simp only [OptR] at *
  exact prefix_get h hab

/-- The same scope. -/
structure FrameR (fl : Nat → Nat) (ρ : Ren) (i j : Nat) (f f' : Frame) : Prop where
  vars : DictR fl ρ f.vars f'.vars
  up : OptR ρ.frame f.up f'.up
  coll : f.coll = f'.coll
  old : ∀ n, f.up = some n → n < i
  old' : ∀ n, f'.up = some n → n < j

/-- The same function. -/
structure FnR (ρ : Ren) (f f' : Fn C) : Prop where
  body : f.body = f'.body
  inst : ρ.inst[f.inst]? = some f'.inst
  up : OptR ρ.frame f.up f'.up
  tpl : f.tpl = f'.tpl

/-- The same stacks. -/
structure StacksR (fl : Nat → Nat) (ρ : Ren) (x y : Stacks) : Prop where
  sw : ValsR fl ρ x.sw y.sw
  wi : List.Forall₂ (ValsR fl ρ) x.wi y.wi

/-- The state of one rendering alone, and the state of the process. -/
structure StoreR (fl : Nat → Nat) (k : Nat) (ρ : Ren) (a : Store C W) (s : Store C (Nat → W)) : Prop where
  flInj : Function.Injective fl
  inj : ρ.Inj
  insts : InstsR fl ρ a.insts s.insts
  frameLen : ρ.frame.length = a.frames.length
  frames : ∀ i j, ρ.frame[i]? = some j → ∃ f f', a.frames[i]? = some f ∧ s.frames[j]? = some f' ∧ FrameR fl ρ i j f f'
  fns : List.Forall₂ (fun f j => ∃ f', s.fns[j]? = some f' ∧ FnR ρ f f') a.fns ρ.fn
  stacks : ∀ i j, ρ.inst[i]? = some j → StacksR fl ρ (a.stacks i) (s.stacks j)
  used : ∀ id, fl id ∈ s.used ↔ id ∈ a.used
  world : s.world k = a.world

/-- What a step of rendering `k` may change in the process. -/
structure Moves (fl : Nat → Nat) (k : Nat) (ρ σ : Ren) (s t : Store C (Nat → W)) : Prop where
  instLen : s.insts.length ≤ t.insts.length
  frameLen : s.frames.length ≤ t.frames.length
  fns : s.fns <+: t.fns
  inst : ∀ j, j ∉ ρ.inst → j < s.insts.length → t.insts[j]? = s.insts[j]? ∧ t.stacks j = s.stacks j
  frame : ∀ j, j ∉ ρ.frame → j < s.frames.length → t.frames[j]? = s.frames[j]?
  newInst : ∀ j ∈ σ.inst, j ∈ ρ.inst ∨ s.insts.length ≤ j
  newFrame : ∀ j ∈ σ.frame, j ∈ ρ.frame ∨ s.frames.length ≤ j
  used : ∀ id, (∀ n, fl n ≠ id) → (id ∈ t.used ↔ id ∈ s.used)
  world : ∀ i, i ≠ k → t.world i = s.world i

theorem Moves.refl (s : Store C (Nat → W)) : Moves fl k ρ ρ s s :=
  ⟨Nat.le_refl _, Nat.le_refl _, List.prefix_rfl, fun _ _ _ => ⟨rfl, rfl⟩, fun _ _ _ => rfl, fun _ h => .inl h,
    fun _ h => .inl h, fun _ _ => Iff.rfl, fun _ _ => rfl⟩

theorem StacksR.mono (hle : Le ρ σ) {x y : Stacks} (h : StacksR fl ρ x y) : StacksR fl σ x y :=
  ⟨h.sw.mono hle, List.Forall₂.imp (fun _ _ h => ValsR.mono hle h) h.wi⟩

theorem FnR.mono (hle : Le ρ σ) {x y : Fn C} (h : FnR ρ x y) : FnR σ x y :=
  ⟨h.body, prefix_get hle.inst h.inst, h.up.mono hle.frame, h.tpl⟩

theorem FrameR.mono (hle : Le ρ σ) {i j : Nat} {x y : Frame} (h : FrameR fl ρ i j x y) : FrameR fl σ i j x y :=
  ⟨h.vars.mono hle, h.up.mono hle.frame, h.coll, h.old, h.old'⟩

theorem StoreR.inst_get {a : Store C W} {s : Store C (Nat → W)} (h : StoreR fl k ρ a s) {i j : Nat}
    (hij : ρ.inst[i]? = some j) : ∃ x y, a.insts[i]? = some x ∧ s.insts[j]? = some y ∧ InstR fl ρ x y := by
  obtain ⟨x, hx, y, hy, hr⟩ := get_some_of_forall₂' h.insts hij
  exact ⟨x, y, hx, hy, hr⟩

theorem StoreR.fn_get {a : Store C W} {s : Store C (Nat → W)} (h : StoreR fl k ρ a s) {i j : Nat}
    (hij : ρ.fn[i]? = some j) : ∃ x y, a.fns[i]? = some x ∧ s.fns[j]? = some y ∧ FnR ρ x y := by
  obtain ⟨x, hx, y, hy, hr⟩ := get_some_of_forall₂' h.fns hij
  exact ⟨x, y, hx, hy, hr⟩

theorem StoreR.inst_lt {a : Store C W} {s : Store C (Nat → W)} (h : StoreR fl k ρ a s) {j : Nat}
    (hj : j ∈ ρ.inst) : j < s.insts.length := by
  obtain ⟨i, hi⟩ := List.getElem?_of_mem hj
  obtain ⟨x, y, _, hy, _⟩ := h.inst_get hi
  exact (List.getElem?_eq_some_iff.1 hy).1

theorem StoreR.fn_lt {a : Store C W} {s : Store C (Nat → W)} (h : StoreR fl k ρ a s) {j : Nat}
    (hj : j ∈ ρ.fn) : j < s.fns.length := by
  obtain ⟨i, hi⟩ := List.getElem?_of_mem hj
  obtain ⟨x, y, _, hy, _⟩ := h.fn_get hi
  exact (List.getElem?_eq_some_iff.1 hy).1

theorem StoreR.frame_lt {a : Store C W} {s : Store C (Nat → W)} (h : StoreR fl k ρ a s) {j : Nat}
    (hj : j ∈ ρ.frame) : j < s.frames.length := by
  obtain ⟨i, hi⟩ := List.getElem?_of_mem hj
  obtain ⟨x, y, _, hy, _⟩ := h.frames i j hi
  exact (List.getElem?_eq_some_iff.1 hy).1

theorem StoreR.instLen {a : Store C W} {s : Store C (Nat → W)} (h : StoreR fl k ρ a s) :
    ρ.inst.length = a.insts.length := h.insts.length_eq.symm

theorem StoreR.fnLen {a : Store C W} {s : Store C (Nat → W)} (h : StoreR fl k ρ a s) :
    ρ.fn.length = a.fns.length := h.fns.length_eq.symm

theorem Moves.trans {s t u : Store C (Nat → W)} (h : Moves fl k ρ σ s t) (h2 : Moves fl k σ τ t u) :
    Moves fl k ρ τ s u where
  instLen := Nat.le_trans h.instLen h2.instLen
  frameLen := Nat.le_trans h.frameLen h2.frameLen
  fns := h.fns.trans h2.fns
  inst j hj hl := by
    have hn : j ∉ σ.inst := fun hm => (h.newInst j hm).elim hj (by omega)
    obtain ⟨a, b⟩ := h.inst j hj hl
    obtain ⟨c, d⟩ := h2.inst j hn (by have := h.instLen; omega)
    exact ⟨c.trans a, d.trans b⟩
  frame j hj hl := by
    have hn : j ∉ σ.frame := fun hm => (h.newFrame j hm).elim hj (by omega)
    exact (h2.frame j hn (by have := h.frameLen; omega)).trans (h.frame j hj hl)
  newInst j hj := by
    rcases h2.newInst j hj with hm | hm
    · exact h.newInst j hm
    · exact .inr (Nat.le_trans h.instLen hm)
  newFrame j hj := by
    rcases h2.newFrame j hj with hm | hm
    · exact h.newFrame j hm
    · exact .inr (Nat.le_trans h.frameLen hm)
  used id hid := (h2.used id hid).trans (h.used id hid)
  world i hi := (h2.world i hi).trans (h.world i hi)

/-! ## Other renderings do not notice -/

/-- No instance and no scope in common. -/
structure Apart (ρ σ : Ren) : Prop where
  inst : ∀ j ∈ ρ.inst, j ∉ σ.inst
  frame : ∀ j ∈ ρ.frame, j ∉ σ.frame

theorem Apart.symm (h : Apart ρ σ) : Apart σ ρ := ⟨fun j a b => h.inst j b a, fun j a b => h.frame j b a⟩

theorem StoreR.moved {fl' : Nat → Nat} {k' : Nat} {ρ' : Ren} {b : Store C W} {s t : Store C (Nat → W)}
    (h : StoreR fl' k' ρ' b s) (hm : Moves fl k ρ σ s t) (ha : Apart ρ' ρ) (hk : k' ≠ k) (hfl : ∀ i j, fl' i ≠ fl j) :
    StoreR fl' k' ρ' b t ∧ Apart ρ' σ := by
  refine ⟨⟨h.flInj, h.inj, ?_, h.frameLen, ?_, ?_, ?_, ?_, ?_⟩, ?_, ?_⟩
  · refine forall₂_of_get h.insts.length_eq fun n x j hx hj => ?_
    obtain ⟨y, hy, hr⟩ := get_of_forall₂ h.insts n x j hx hj
    have hmem := List.mem_of_getElem? hj
    exact ⟨y, (hm.inst j (ha.inst j hmem) (h.inst_lt hmem)).1.trans hy, hr⟩
  · intro i j hij
    obtain ⟨f, f', h1, h2, h3⟩ := h.frames i j hij
    have hmem := List.mem_of_getElem? hij
    exact ⟨f, f', h1, (hm.frame j (ha.frame j hmem) (h.frame_lt hmem)).trans h2, h3⟩
  · refine List.Forall₂.imp ?_ h.fns
    rintro f j ⟨f', hf, hr⟩
    refine ⟨f', ?_, hr⟩
    obtain ⟨u, hu⟩ := hm.fns
    rw [← hu, List.getElem?_append_left (List.getElem?_eq_some_iff.1 hf).1]
    exact hf
  · intro i j hij
    have hmem := List.mem_of_getElem? hij
    rw [(hm.inst j (ha.inst j hmem) (h.inst_lt hmem)).2]
    exact h.stacks i j hij
  · intro id
    rw [hm.used (fl' id) fun n e => hfl id n e.symm]
    exact h.used id
  · rw [hm.world k' hk, h.world]
  · intro j hj hj'
    rcases hm.newInst j hj' with hj' | hj'
    · exact ha.inst j hj hj'
    · have := h.inst_lt hj; omega
  · intro j hj hj'
    rcases hm.newFrame j hj' with hj' | hj'
    · exact ha.frame j hj hj'
    · have := h.frame_lt hj; omega

/-! ## Related computations -/

/-- Two computations, one alone and one in the process, that do the same from these states. -/
def MAt (fl : Nat → Nat) (k : Nat) (ρ : Ren) (R : Ren → α → β → Prop) (a : Store C W) (s : Store C (Nat → W))
    (m : MS C W α) (m' : MS C (Nat → W) β) : Prop :=
  (m a).out = (m' s).out ∧ ∃ σ, Le ρ σ ∧ StoreR fl k σ (m a).st (m' s).st ∧ Moves fl k ρ σ s (m' s).st ∧
    ExceptR (R σ) (m a).val (m' s).val

/-- From all states where at least the objects of `ρ` exist. -/
def MRel (fl : Nat → Nat) (k : Nat) (ρ : Ren) (R : Ren → α → β → Prop) (m : MS C W α) (m' : MS C (Nat → W) β) : Prop :=
  ∀ σ a s, Le ρ σ → StoreR fl k σ a s → MAt fl k σ R a s m m'

theorem MRel.mono {R : Ren → α → β → Prop} {m : MS C W α} {m' : MS C (Nat → W) β} (h : MRel fl k ρ R m m')
    (hle : Le ρ σ) : MRel fl k σ R m m' := fun τ a s ht hs => h τ a s (hle.trans ht) hs

theorem MAt.pure {R : Ren → α → β → Prop} {a : Store C W} {s : Store C (Nat → W)} (hs : StoreR fl k ρ a s) {x : α}
    {y : β} (h : R ρ x y) : MAt fl k ρ R a s (M.pure x) (M.pure y) :=
  ⟨rfl, ρ, Le.refl _, hs, Moves.refl _, h⟩

theorem MRel.pure {R : Ren → α → β → Prop} {x : α} {y : β} (h : ∀ σ, Le ρ σ → R σ x y) :
    MRel (C := C) (W := W) fl k ρ R (M.pure x) (M.pure y) := fun σ _ _ hle hs => MAt.pure hs (h σ hle)

theorem MRel.throw {R : Ren → α → β → Prop} (e : Err) :
    MRel (C := C) (W := W) fl k ρ R (M.throw e) (M.throw e) := fun σ _ _ _ hs =>
  ⟨rfl, σ, Le.refl _, hs, Moves.refl _, rfl⟩

theorem MRel.tell {R : Ren → Unit → Unit → Prop} (o : Out) (h : ∀ σ, Le ρ σ → R σ () ()) :
    MRel (C := C) (W := W) fl k ρ R (M.tell o) (M.tell o) := fun σ _ _ hle hs =>
  ⟨rfl, σ, Le.refl _, hs, Moves.refl _, h σ hle⟩

theorem MAt.bind {R : Ren → α → β → Prop} {R2 : Ren → γ → δ → Prop} {a : Store C W} {s : Store C (Nat → W)}
    {m : MS C W α} {m' : MS C (Nat → W) β} {f : α → MS C W γ} {f' : β → MS C (Nat → W) δ}
    (h : MAt fl k ρ R a s m m') (h2 : ∀ σ x y, Le ρ σ → R σ x y → MRel fl k σ R2 (f x) (f' y)) :
    MAt fl k ρ R2 a s (M.bind m f) (M.bind m' f') := by
  obtain ⟨ho, σ, hle, hs, hm, hv⟩ := h
  unfold MAt M.bind
  simp only
  cases hx : (m a).val with
  | error e =>
    cases hy : (m' s).val with
    | ok y => rw [hx, hy] at hv; exact hv.elim
    | error e' =>
      rw [hx, hy] at hv
      exact ⟨ho, σ, hle, hs, hm, hv⟩
  | ok x =>
    cases hy : (m' s).val with
    | error e => rw [hx, hy] at hv; exact hv.elim
    | ok y =>
      rw [hx, hy] at hv
      obtain ⟨ho2, τ, hle2, hs2, hm2, hv2⟩ := h2 σ x y hle hv σ _ _ (Le.refl _) hs
      exact ⟨by simp only [ho, ho2], τ, hle.trans hle2, hs2, hm.trans hm2, hv2⟩

theorem MRel.bind {R : Ren → α → β → Prop} {R2 : Ren → γ → δ → Prop}
    {m : MS C W α} {m' : MS C (Nat → W) β} {f : α → MS C W γ} {f' : β → MS C (Nat → W) δ}
    (h : MRel fl k ρ R m m') (h2 : ∀ σ x y, Le ρ σ → R σ x y → MRel fl k σ R2 (f x) (f' y)) :
    MRel fl k ρ R2 (M.bind m f) (M.bind m' f') := fun σ a s hle hs =>
  MAt.bind (h σ a s hle hs) fun τ x y ht hxy => h2 τ x y (hle.trans ht) hxy

theorem MRel.get {R2 : Ren → γ → δ → Prop} {f : Store C W → MS C W γ} {f' : Store C (Nat → W) → MS C (Nat → W) δ}
    (h : ∀ σ a s, Le ρ σ → StoreR fl k σ a s → MAt fl k σ R2 a s (f a) (f' s)) :
    MRel fl k ρ R2 (M.bind M.get f) (M.bind M.get f') := fun σ a s hle hs => by
  obtain ⟨ho, h⟩ := h σ a s hle hs
  refine ⟨?_, h⟩
  show Out.nil ++ (f a a).out = Out.nil ++ (f' s s).out
  rw [ho]

theorem MRel.each {R : Ren → α → β → Prop} {f : α → MS C W Unit} {f' : β → MS C (Nat → W) Unit} {xs : List α}
    {ys : List β} {T : Ren → Unit → Unit → Prop} (hT : ∀ σ, T σ () ()) (hmono : ∀ σ τ x y, Le σ τ → R σ x y → R τ x y)
    (h2 : ∀ σ x y, Le ρ σ → R σ x y → MRel fl k σ T (f x) (f' y)) (h : List.Forall₂ (R ρ) xs ys) :
    MRel fl k ρ T (M.each f xs) (M.each f' ys) := by
  suffices h3 : ∀ σ, Le ρ σ → List.Forall₂ (R σ) xs ys → MRel fl k σ T (M.each f xs) (M.each f' ys) from
    h3 ρ (Le.refl _) h
  induction h with
  | nil => exact fun σ _ _ => .pure fun τ _ => hT τ
  | cons a h ih =>
    intro σ hle hf
    cases hf with
    | cons a h =>
      refine MRel.bind (h2 σ _ _ hle a) fun τ _ _ ht _ => ih τ (hle.trans ht) ?_
      exact List.Forall₂.imp (fun x y => hmono σ τ x y ht) h

end Kajiki.Spec.Share
