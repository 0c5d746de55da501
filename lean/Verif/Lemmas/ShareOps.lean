import Verif.Lemmas.ShareStore

/-!
# Every operation on the state does the same alone and in company
-/

namespace Kajiki.Spec.Share
open Kajiki Kajiki.Run

variable {C W α β : Type} {fl : Nat → Nat} {k : Nat} {ρ σ τ : Ren}

/-- Nothing to compare. -/
abbrev UnitR : Ren → Unit → Unit → Prop := fun _ _ _ => True
/-- Instance numbers. -/
abbrev INum : Ren → Nat → Nat → Prop := fun ρ i j => ρ.inst[i]? = some j
/-- Function numbers. -/
abbrev FNum : Ren → Nat → Nat → Prop := fun ρ i j => ρ.fn[i]? = some j
/-- Scope numbers. -/
abbrev ScNum : Ren → Nat → Nat → Prop := fun ρ i j => ρ.frame[i]? = some j

/-- The same place in the program. -/
structure EnvR (ρ : Ren) (e e' : Env) : Prop where
  inst : ρ.inst[e.inst]? = some e'.inst
  frame : ρ.frame[e.frame]? = some e'.frame
  kj : OptR ρ.inst e.kj e'.kj
  mode : e.mode = e'.mode

theorem EnvR.mono (hle : Le ρ σ) {e e' : Env} (h : EnvR ρ e e') : EnvR σ e e' :=
  ⟨prefix_get hle.inst h.inst, prefix_get hle.frame h.frame, h.kj.mono hle.inst, h.mode⟩

/-! ## Asking Python -/

theorem scopes_rel {a : Store C W} {s : Store C (Nat → W)} (h : StoreR fl k ρ a s) :
    ∀ (n n' i j : Nat), ρ.frame[i]? = some j → i < n → j < n' →
      List.Forall₂ (DictR fl ρ) (scopes a.frames n (some i)) (scopes s.frames n' (some j)) := by
  intro n
  induction n with
  | zero => intro n' i j _ h; omega
  | succ n ih =>
    intro n' i j hij hi hj
    cases n' with
    | zero => omega
    | succ n' =>
      obtain ⟨f, f', hf, hf', hr⟩ := h.frames i j hij
      rw [scopes, scopes, hf, hf']
      refine .cons hr.vars ?_
      have hu := hr.up
      cases h1 : f.up with
      | none =>
        cases h2 : f'.up with
        | none => cases n <;> cases n' <;> exact .nil
        | some j2 => rw [h1, h2] at hu; exact hu.elim
      | some i2 =>
        cases h2 : f'.up with
        | none => rw [h1, h2] at hu; exact hu.elim
        | some j2 =>
          rw [h1, h2] at hu
          have := hr.old i2 h1
          have := hr.old' j2 h2
          exact ih n' i2 j2 hu (by omega) (by omega)

theorem view_rel {a : Store C W} {s : Store C (Nat → W)} (h : StoreR fl k ρ a s) {e e' : Env} (he : EnvR ρ e e') :
    ViewR fl ρ (view e a) (view e' s) := by
  refine ⟨h.inj, ?_, he.inst, h.insts⟩
  refine scopes_rel h _ _ _ _ he.frame ?_ (h.frame_lt (List.mem_of_getElem? he.frame))
  rw [← h.frameLen]
  exact (List.getElem?_eq_some_iff.1 he.frame).1

theorem StoreR.setWorld {a : Store C W} {s : Store C (Nat → W)} (h : StoreR fl k ρ a s) {w : W} {w' : Nat → W}
    (hw : w' k = w) : StoreR fl k ρ { a with world := w } { s with world := w' } :=
  ⟨h.flInj, h.inj, h.insts, h.frameLen, h.frames, h.fns, h.stacks, h.used, hw⟩

theorem Moves.setWorld {s : Store C (Nat → W)} {w' : Nat → W} (hw : ∀ i, i ≠ k → w' i = s.world i) :
    Moves fl k ρ ρ s { s with world := w' } :=
  ⟨Nat.le_refl _, Nat.le_refl _, List.prefix_rfl, fun _ _ _ => ⟨rfl, rfl⟩, fun _ _ _ => rfl, fun _ h => .inl h,
    fun _ h => .inl h, fun _ _ => Iff.rfl, hw⟩

theorem answer_rel {R : Ren → α → β → Prop} {a : Store C W} {s : Store C (Nat → W)} (h : StoreR fl k ρ a s)
    {r : Except Err α × W} {r' : Except Err β × (Nat → W)} (hr : AnsR k (R ρ) s.world r r')
    (m : MS C W α) (m' : MS C (Nat → W) β) (hm : m a = ⟨.nil, { a with world := r.2 }, r.1⟩)
    (hm' : m' s = ⟨.nil, { s with world := r'.2 }, r'.1⟩) : MAt fl k ρ R a s m m' := by
  unfold MAt
  rw [hm, hm']
  exact ⟨rfl, ρ, Le.refl _, h.setWorld hr.own, Moves.setWorld hr.other, hr.val⟩

theorem ask_rel {R : Ren → α → β → Prop} {e e' : Env} (he : EnvR ρ e e')
    {f : View → W → Except Err α × W} {f' : View → (Nat → W) → Except Err β × (Nat → W)}
    (hf : ∀ σ V V' w, Le ρ σ → ViewR fl σ V V' → AnsR k (R σ) w (f V (w k)) (f' V' w)) :
    MRel (C := C) fl k ρ R (ask e f) (ask e' f') := by
  intro σ a s hle hs
  have := hf σ _ _ s.world hle (view_rel hs (he.mono hle))
  rw [hs.world] at this
  exact answer_rel hs this _ _ rfl rfl

section
variable {O : Oracle W} {O' : Oracle (Nat → W)} (hO : OracleR fl k O O')
include hO

theorem evalM_rel {e e' : Env} (he : EnvR ρ e e') (x : Str) :
    MRel (C := C) fl k ρ (ValR fl) (evalM O e x) (evalM O' e' x) :=
  ask_rel he fun σ V V' w _ hV => hO.eval σ x V V' w hV

theorem iter_rel {e e' : Env} (he : EnvR ρ e e') (x : Str) :
    MRel (C := C) fl k ρ (fun ρ => List.Forall₂ (DictR fl ρ)) (ask e (O.iter x)) (ask e' (O'.iter x)) :=
  ask_rel he fun σ V V' w _ hV => hO.iter σ x V V' w hV

theorem py_rel {e e' : Env} (he : EnvR ρ e e') (x : List Str) :
    MRel (C := C) fl k ρ (DictR fl) (ask e (O.py x)) (ask e' (O'.py x)) :=
  ask_rel he fun σ V V' w _ hV => hO.py σ x V V' w hV

theorem bindArgs_rel (d : Str) {as as' : List Val} (h : ValsR fl ρ as as') :
    MRel (C := C) fl k ρ (DictR fl) (bindArgs O d as) (bindArgs O' d as') := by
  intro σ a s hle hs
  have := hO.args σ d as as' s.world hs.inj (h.mono hle)
  rw [hs.world] at this
  exact answer_rel hs this _ _ rfl rfl

end

/-! ## Scopes -/

theorem StoreR.modFrame {a : Store C W} {s : Store C (Nat → W)} (h : StoreR fl k ρ a s) {i j : Nat}
    (hij : ρ.frame[i]? = some j) {f f' : Frame → Frame}
    (hf : ∀ x y, FrameR fl ρ i j x y → FrameR fl ρ i j (f x) (f' y)) :
    StoreR fl k ρ { a with frames := a.frames.modify i f } { s with frames := s.frames.modify j f' } := by
  refine ⟨h.flInj, h.inj, h.insts, by simpa using h.frameLen, ?_, h.fns, h.stacks, h.used, h.world⟩
  intro i2 j2 h2
  obtain ⟨x, y, hx, hy, hr⟩ := h.frames i2 j2 h2
  simp only [List.getElem?_modify, hx, hy, Option.map_eq_map, Option.map_some]
  by_cases e : i = i2
  · subst e
    rw [hij] at h2
    cases h2
    exact ⟨_, _, rfl, rfl, by simpa using hf x y hr⟩
  · have e2 : j ≠ j2 := fun e2 => e (get_inj h.inj.2.2 hij (e2 ▸ h2))
    exact ⟨_, _, rfl, rfl, by simpa [e, e2] using hr⟩

theorem Moves.modFrame {s : Store C (Nat → W)} {j : Nat} (hj : j ∈ ρ.frame) (f : Frame → Frame) :
    Moves fl k ρ ρ s { s with frames := s.frames.modify j f } := by
  refine ⟨Nat.le_refl _, by simp, List.prefix_rfl, fun _ _ _ => ⟨rfl, rfl⟩, ?_, fun _ h => .inl h,
    fun _ h => .inl h, fun _ _ => Iff.rfl, fun _ _ => rfl⟩
  intro j2 h2 _
  have : j ≠ j2 := fun e => h2 (e ▸ hj)
  simp only [List.getElem?_modify, this]
  simp

theorem modFrame_rel {e e' : Env} (he : EnvR ρ e e') {f f' : Frame → Frame}
    (hf : ∀ σ x y, Le ρ σ → FrameR fl σ e.frame e'.frame x y → FrameR fl σ e.frame e'.frame (f x) (f' y)) :
    MRel (C := C) (W := W) fl k ρ UnitR (modFrame e f) (modFrame e' f') := by
  intro σ a s hle hs
  have h := prefix_get hle.frame he.frame
  exact ⟨rfl, σ, Le.refl _, hs.modFrame h fun x y => hf σ x y hle, Moves.modFrame (List.mem_of_getElem? h) _, trivial⟩

theorem setVars_rel {e e' : Env} (he : EnvR ρ e e') {d d' : Dict Val} (hd : DictR fl ρ d d') :
    MRel (C := C) (W := W) fl k ρ UnitR (setVars e d) (setVars e' d') :=
  modFrame_rel he fun _ _ _ hle h => ⟨h.vars.update (hd.mono hle), h.up, h.coll, h.old, h.old'⟩

theorem localVars_rel {a : Store C W} {s : Store C (Nat → W)} (h : StoreR fl k ρ a s) {e e' : Env} (he : EnvR ρ e e') :
    DictR fl ρ (localVars e a) (localVars e' s) := by
  obtain ⟨x, y, hx, hy, hr⟩ := h.frames _ _ he.frame
  unfold localVars
  rw [hx, hy]
  exact hr.vars

theorem OptR.live {a : Store C W} {s : Store C (Nat → W)} (h : StoreR fl k ρ a s) {u u' : Option Nat}
    (hu : OptR ρ.frame u u') : liveScope a.frames u = u ∧ liveScope s.frames u' = u' := by
  cases u with
  | none =>
    cases u' with
    | none => exact ⟨rfl, rfl⟩
    | some j => exact hu.elim
  | some i =>
    cases u' with
    | none => exact hu.elim
    | some j =>
      have hu : ρ.frame[i]? = some j := hu
      have h1 : i < a.frames.length := h.frameLen ▸ (List.getElem?_eq_some_iff.1 hu).1
      have h2 : j < s.frames.length := h.frame_lt (List.mem_of_getElem? hu)
      simp [liveScope, h1, h2]

theorem nodup_snoc {l : List Nat} (h : l.Nodup) {n : Nat} (hn : n ∉ l) : (l ++ [n]).Nodup := by
  rw [List.nodup_append]
  refine ⟨h, by simp, ?_⟩
  intro a ha b hb
  simp only [List.mem_singleton] at hb
  subst hb
  exact fun e => hn (e ▸ ha)

theorem newFrame_rel {d d' : Dict Val} (hd : DictR fl ρ d d') {u u' : Option Nat} (hu : OptR ρ.frame u u') :
    MRel (C := C) (W := W) fl k ρ ScNum (newFrame d u) (newFrame d' u') := by
  intro σ a s hle hs
  have hu := hu.mono hle.frame
  have hd := hd.mono hle
  obtain ⟨l1, l2⟩ := hu.live hs
  let τ : Ren := ⟨σ.inst, σ.fn, σ.frame ++ [s.frames.length]⟩
  have ht : Le σ τ := ⟨List.prefix_rfl, List.prefix_rfl, List.prefix_append _ _⟩
  have hnew : τ.frame[a.frames.length]? = some s.frames.length := by
    rw [List.getElem?_append_right (Nat.le_of_eq hs.frameLen), hs.frameLen]
    simp
  refine ⟨rfl, τ, ht, ?_, ?_, hnew⟩
  · simp only [newFrame, l1, l2]
    refine ⟨hs.flInj, ⟨hs.inj.1, hs.inj.2.1, nodup_snoc hs.inj.2.2 fun h => Nat.lt_irrefl _ (hs.frame_lt h)⟩, ?_, ?_, ?_, ?_,
      ?_, hs.used, hs.world⟩
    · exact List.Forall₂.imp (fun x j ⟨y, hy, hr⟩ => ⟨y, hy, hr.mono ht⟩) hs.insts
    · show (σ.frame ++ [s.frames.length]).length = (a.frames ++ _).length
      simp [hs.frameLen]
    · intro i j hij
      rcases Nat.lt_or_ge i σ.frame.length with hi | hi
      · have hij' : σ.frame[i]? = some j := by rwa [List.getElem?_append_left hi] at hij
        obtain ⟨x, y, hx, hy, hr⟩ := hs.frames i j hij'
        refine ⟨x, y, ?_, ?_, hr.mono ht⟩
        · rw [List.getElem?_append_left (List.getElem?_eq_some_iff.1 hx).1]; exact hx
        · rw [List.getElem?_append_left (List.getElem?_eq_some_iff.1 hy).1]; exact hy
      · have hlt := (List.getElem?_eq_some_iff.1 hij).1
        have : i = a.frames.length := by
          rw [← hs.frameLen]
          simp only [τ, List.length_append, List.length_singleton] at hlt
          omega
        subst this
        rw [hnew] at hij
        cases hij
        refine ⟨⟨d, u, none⟩, ⟨d', u', none⟩, by simp, by simp, hd.mono ht, hu.mono ht.frame, rfl, ?_, ?_⟩
        · intro n hn
          simp only at hn
          subst hn
          cases u' with
          | none => exact hu.elim
          | some j => exact hs.frameLen ▸ (List.getElem?_eq_some_iff.1 (show σ.frame[n]? = some j from hu)).1
        · intro n hn
          simp only at hn
          subst hn
          cases u with
          | none => exact hu.elim
          | some i => exact hs.frame_lt (List.mem_of_getElem? (show σ.frame[i]? = some n from hu))
    · exact List.Forall₂.imp (fun x j ⟨y, hy, hr⟩ => ⟨y, hy, hr.mono ht⟩) hs.fns
    · exact fun i j h => (hs.stacks i j h).mono ht
  · refine ⟨Nat.le_refl _, by simp [newFrame], List.prefix_rfl, fun _ _ _ => ⟨rfl, rfl⟩, ?_, fun _ h => .inl h, ?_,
      fun _ _ => Iff.rfl, fun _ _ => rfl⟩
    · intro j _ hj
      simp only [newFrame]
      rw [List.getElem?_append_left hj]
    · intro j hj
      simp only [τ, List.mem_append, List.mem_singleton] at hj
      rcases hj with hj | hj
      · exact .inl hj
      · exact .inr (by omega)

/-! ## Functions -/

/-- The numbering after making `n` functions. -/
def addFns (ρ : Ren) (s : Store C (Nat → W)) (n : Nat) : Ren := ⟨ρ.inst, ρ.fn ++ List.range' s.fns.length n, ρ.frame⟩

theorem addFns_le (s : Store C (Nat → W)) (n : Nat) : Le ρ (addFns ρ s n) :=
  ⟨List.prefix_rfl, List.prefix_append _ _, List.prefix_rfl⟩

theorem addFns_get {a : Store C W} {s : Store C (Nat → W)} (hs : StoreR fl k ρ a s) {n i : Nat} (hi : i < n) :
    (addFns ρ s n).fn[a.fns.length + i]? = some (s.fns.length + i) := by
  show (ρ.fn ++ _)[_]? = _
  rw [List.getElem?_append_right (by rw [hs.fnLen]; omega), hs.fnLen]
  simp [hi]

theorem StoreR.addFns {a : Store C W} {s : Store C (Nat → W)} (hs : StoreR fl k ρ a s) {fs fs' : List (Fn C)}
    (hf : List.Forall₂ (FnR ρ) fs fs') :
    StoreR fl k (addFns ρ s fs.length) { a with fns := a.fns ++ fs } { s with fns := s.fns ++ fs' } := by
  have ht := addFns_le (ρ := ρ) s fs.length
  refine ⟨hs.flInj, ⟨hs.inj.1, ?_, hs.inj.2.2⟩, ?_, hs.frameLen, ?_, ?_, ?_, hs.used, hs.world⟩
  · show (ρ.fn ++ _).Nodup
    rw [List.nodup_append]
    refine ⟨hs.inj.2.1, List.nodup_range', ?_⟩
    intro x hx y hy e
    have := hs.fn_lt hx
    simp at hy
    omega
  · exact List.Forall₂.imp (fun x j ⟨y, hy, hr⟩ => ⟨y, hy, hr.mono ht⟩) hs.insts
  · intro i j hij
    obtain ⟨x, y, hx, hy, hr⟩ := hs.frames i j hij
    exact ⟨x, y, hx, hy, hr.mono ht⟩
  · refine List.rel_append (R := fun f j => ∃ f', (s.fns ++ fs')[j]? = some f' ∧ FnR (Share.addFns ρ s fs.length) f f') ?_ ?_
    · refine List.Forall₂.imp ?_ hs.fns
      rintro x j ⟨y, hy, hr⟩
      refine ⟨y, ?_, hr.mono ht⟩
      rw [List.getElem?_append_left (List.getElem?_eq_some_iff.1 hy).1]
      exact hy
    · refine forall₂_of_get (by simp) fun n x j hx hj => ?_
      obtain ⟨y, hy, hr⟩ := get_some_of_forall₂ hf hx
      have hn := (List.getElem?_eq_some_iff.1 hx).1
      simp only [List.getElem?_range', hn, Option.some.injEq] at hj
      subst hj
      refine ⟨y, ?_, hr.mono ht⟩
      rw [List.getElem?_append_right (by omega)]
      simpa using hy
  · exact fun i j h => (hs.stacks i j h).mono ht

theorem Moves.addFns {s : Store C (Nat → W)} (n : Nat) (fs' : List (Fn C)) :
    Moves fl k ρ (addFns ρ s n) s { s with fns := s.fns ++ fs' } :=
  ⟨Nat.le_refl _, Nat.le_refl _, List.prefix_append _ _, fun _ _ _ => ⟨rfl, rfl⟩, fun _ _ _ => rfl, fun _ h => .inl h,
    fun _ h => .inl h, fun _ _ => Iff.rfl, fun _ _ => rfl⟩

theorem newFn_rel {f f' : Fn C} (hf : FnR ρ f f') : MRel (W := W) fl k ρ FNum (newFn f) (newFn f') := by
  intro σ a s hle hs
  have hf := hf.mono hle
  obtain ⟨l1, l2⟩ := hf.up.live hs
  refine ⟨rfl, addFns σ s 1, addFns_le _ _, ?_, Moves.addFns 1 _, ?_⟩
  · simp only [newFn, l1, l2]
    exact hs.addFns (.cons hf .nil)
  · exact addFns_get (i := 0) hs (by omega)

theorem getFn_rel {i j : Nat} (h : ρ.fn[i]? = some j) : MRel (C := C) (W := W) fl k ρ FnR (getFn i) (getFn j) := by
  refine MRel.get fun σ a s hle hs => ?_
  obtain ⟨x, y, hx, hy, hr⟩ := hs.fn_get (prefix_get hle.fn h)
  rw [hx, hy]
  exact MAt.pure hs hr

/-! ## Output -/

theorem start_rel (id : Nat) : MRel (C := C) (W := W) fl k ρ (fun _ => Eq) (start id) (start (fl id)) := by
  intro σ a s hle hs
  unfold MAt start
  have hc : s.used.contains (fl id) = a.used.contains id := by
    rw [Bool.eq_iff_iff]
    simpa using hs.used id
  rw [hc]
  split
  · exact ⟨rfl, σ, Le.refl _, hs, Moves.refl _, rfl⟩
  · refine ⟨rfl, σ, Le.refl _, ?_, ?_, rfl⟩
    · refine ⟨hs.flInj, hs.inj, hs.insts, hs.frameLen, hs.frames, hs.fns, hs.stacks, ?_, hs.world⟩
      intro id2
      simp only [List.mem_cons, hs.used id2, hs.flInj.eq_iff]
    · refine ⟨Nat.le_refl _, Nat.le_refl _, List.prefix_rfl, fun _ _ _ => ⟨rfl, rfl⟩, fun _ _ _ => rfl,
        fun _ h => .inl h, fun _ h => .inl h, ?_, fun _ _ => rfl⟩
      intro id2 h2
      have : id2 ≠ fl id := fun e => h2 id e.symm
      simp [this]

theorem chunk_rel (mode : Mode) {v v' : Val} (h : ValR fl ρ v v') :
    MRel (C := C) (W := W) fl k ρ UnitR (chunk mode v) (chunk mode v') := by
  have e := h.toStr
  cases mode with
  | strict =>
    cases h <;> first | exact MRel.throw _ | exact MRel.tell _ fun _ _ => trivial
  | _ =>
    simp only [chunk, e]
    exact MRel.tell _ fun _ _ => trivial

theorem emitStrs_rel (ss : List Str) : MRel (C := C) (W := W) fl k ρ UnitR (emitStrs ss) (emitStrs ss) := by
  refine MRel.each (R := fun _ => Eq) (fun _ => trivial) (fun _ _ _ _ _ h => h) ?_ (List.forall₂_same.2 fun _ _ => rfl)
  rintro σ x y _ rfl
  exact MRel.tell _ fun _ _ => trivial

/-! ## Instances -/

theorem getInst_rel {i j : Nat} (h : ρ.inst[i]? = some j) :
    MRel (C := C) (W := W) fl k ρ (InstR fl) (getInst i) (getInst j) := by
  intro σ a s hle hs
  obtain ⟨x, y, hx, hy, hr⟩ := hs.inst_get (prefix_get hle.inst h)
  unfold MAt getInst
  rw [hx, hy]
  exact ⟨rfl, σ, Le.refl _, hs, Moves.refl _, hr⟩

theorem kjInst_rel {e e' : Env} (he : EnvR ρ e e') : MRel (C := C) (W := W) fl k ρ INum (kjInst e) (kjInst e') := by
  unfold kjInst
  have := he.kj
  cases h1 : e.kj with
  | none =>
    cases h2 : e'.kj with
    | none => exact MRel.throw _
    | some j => rw [h1, h2] at this; exact this.elim
  | some i =>
    cases h2 : e'.kj with
    | none => rw [h1, h2] at this; exact this.elim
    | some j =>
      rw [h1, h2] at this
      exact MRel.pure fun σ hle => prefix_get hle.inst this

theorem localInst_rel {a : Store C W} {s : Store C (Nat → W)} (hs : StoreR fl k ρ a s) {v v' : Option Val}
    (h : Option.Rel (ValR fl ρ) v v') : OptR ρ.inst (localInst a.insts.length v) (localInst s.insts.length v') := by
  cases h with
  | none => trivial
  | some h =>
    cases h with
    | inst i j h =>
      have h1 : i < a.insts.length := hs.instLen ▸ (List.getElem?_eq_some_iff.1 h).1
      have h2 := hs.inst_lt (List.mem_of_getElem? h)
      simp only [localInst, h1, h2, ↓reduceIte]
      exact h
    | _ => trivial

theorem getLocal_rel {i j : Nat} (h : ρ.inst[i]? = some j) :
    MRel (C := C) (W := W) fl k ρ (fun ρ => OptR ρ.inst) (getLocal i) (getLocal j) := by
  refine MRel.bind (getInst_rel h) fun σ x y hle hr => MRel.get fun τ a s hle2 hs => ?_
  exact MAt.pure hs (localInst_rel hs ((hr.globals.mono hle2).get _))

theorem globalInst_rel {e e' : Env} (he : ρ.inst[e.inst]? = some e'.inst) (n : Str) :
    MRel (C := C) (W := W) fl k ρ INum (globalInst e n) (globalInst e' n) := by
  refine MRel.bind (getInst_rel he) fun σ x y hle hr => ?_
  have := hr.globals.get n
  revert this
  generalize Dict.get x.globals n = a
  generalize Dict.get y.globals n = b
  intro h
  cases h with
  | none => exact MRel.throw _
  | some h =>
    cases h with
    | inst i j h => exact MRel.pure fun τ ht => prefix_get ht.inst h
    | _ => exact MRel.throw _

theorem attrFn_rel {i j : Nat} (h : ρ.inst[i]? = some j) (n : Str) :
    MRel (C := C) (W := W) fl k ρ FNum (attrFn i n) (attrFn j n) := by
  refine MRel.bind (getInst_rel h) fun σ x y hle hr => ?_
  have := hr.attrs.get n
  revert this
  generalize Dict.get x.attrs n = a
  generalize Dict.get y.attrs n = b
  intro h
  cases h with
  | none => exact MRel.throw _
  | some h =>
    cases h with
    | fn i j h => exact MRel.pure fun τ ht => prefix_get ht.fn h
    | _ => exact MRel.throw _

theorem ofOption_rel {R : Ren → α → β → Prop} (e : Err) {x : Option α} {y : Option β}
    (h : Option.Rel (fun a b => ∀ σ, Le ρ σ → R σ a b) x y) :
    MRel (C := C) (W := W) fl k ρ R (M.ofOption e x) (M.ofOption e y) := by
  cases h with
  | none => exact MRel.throw _
  | some h => exact MRel.pure h

theorem gettextM_rel {O : Oracle W} {O' : Oracle (Nat → W)} (hO : OracleR fl k O O') {e e' : Env} (he : EnvR ρ e e')
    (t : Str) : MRel (C := C) fl k ρ (ValR fl) (gettextM O e t) (gettextM O' e' t) := by
  refine MRel.bind (kjInst_rel he) fun σ i j hle hij => ?_
  refine MRel.bind (getInst_rel hij) fun τ x y hle2 hr => ?_
  refine MRel.bind (R := ValR fl) (ofOption_rel _ ?_) fun υ g g' hle3 hg => ?_
  · have := hr.globals.get "gettext".toList
    revert this
    generalize Dict.get x.globals "gettext".toList = a
    generalize Dict.get y.globals "gettext".toList = b
    intro h
    cases h with
    | none => exact .none
    | some h => exact .some fun _ hle => h.mono hle
  · exact ask_rel (he.mono (hle.trans (hle2.trans hle3))) fun φ V V' w hle4 hV =>
      hO.gettext φ g g' t w hV.inj (hg.mono hle4)

theorem StoreR.modInst {a : Store C W} {s : Store C (Nat → W)} (h : StoreR fl k ρ a s) {i j : Nat}
    (hij : ρ.inst[i]? = some j) {f f' : Inst → Inst} (hf : ∀ x y, InstR fl ρ x y → InstR fl ρ (f x) (f' y)) :
    StoreR fl k ρ { a with insts := a.insts.modify i f } { s with insts := s.insts.modify j f' } := by
  refine ⟨h.flInj, h.inj, ?_, h.frameLen, h.frames, h.fns, h.stacks, h.used, h.world⟩
  refine forall₂_of_get (by simpa using h.insts.length_eq) fun n x j2 hx hj2 => ?_
  obtain ⟨x0, y, hx0, hy, hr⟩ := h.inst_get hj2
  simp only [List.getElem?_modify, hx0, hy, Option.map_eq_map, Option.map_some, Option.some.injEq] at hx ⊢
  by_cases e : i = n
  · subst e
    rw [hij] at hj2
    cases hj2
    refine ⟨_, rfl, ?_⟩
    rw [← hx]
    simpa using hf x0 y hr
  · have e2 : j ≠ j2 := fun e2 => e (get_inj h.inj.1 hij (e2 ▸ hj2))
    refine ⟨_, rfl, ?_⟩
    rw [← hx]
    simpa [e, e2] using hr

theorem Moves.modInst {s : Store C (Nat → W)} {j : Nat} (hj : j ∈ ρ.inst) (f : Inst → Inst) :
    Moves fl k ρ ρ s { s with insts := s.insts.modify j f } := by
  refine ⟨by simp, Nat.le_refl _, List.prefix_rfl, ?_, fun _ _ _ => rfl, fun _ h => .inl h,
    fun _ h => .inl h, fun _ _ => Iff.rfl, fun _ _ => rfl⟩
  intro j2 h2 _
  have : j ≠ j2 := fun e => h2 (e ▸ hj)
  refine ⟨?_, rfl⟩
  simp only [List.getElem?_modify, this]
  simp

theorem modInst_rel {i j : Nat} (hij : ρ.inst[i]? = some j) {f f' : Inst → Inst}
    (hf : ∀ σ x y, Le ρ σ → InstR fl σ x y → InstR fl σ (f x) (f' y)) :
    MRel (C := C) (W := W) fl k ρ UnitR (modInst i f) (modInst j f') := by
  intro σ a s hle hs
  have h := prefix_get hle.inst hij
  exact ⟨rfl, σ, Le.refl _, hs.modInst h fun x y => hf σ x y hle, Moves.modInst (List.mem_of_getElem? h) _, trivial⟩

theorem builtins_rel : DictR fl ρ builtins builtins := by
  refine DictR.plain ?_
  intro x hx
  simp only [builtins, List.mem_cons, List.not_mem_nil, or_false] at hx
  rcases hx with rfl | rfl | rfl | rfl | rfl | rfl <;> exact .obj _ _ _

theorem newGlobals_rel {i j : Nat} (hij : ρ.inst[i]? = some j) {b b' m m' c c' : Dict Val} (hb : DictR fl ρ b b')
    (hm : DictR fl ρ m m') (hc : DictR fl ρ c c') : DictR fl ρ (newGlobals i b m c) (newGlobals j b' m' c') := by
  have h : DictR fl ρ [("local".toList, .inst i), ("self".toList, .inst i)]
      [("local".toList, .inst j), ("self".toList, .inst j)] :=
    .cons ⟨rfl, .inst _ _ hij⟩ (.cons ⟨rfl, .inst _ _ hij⟩ .nil)
  have h := (((h.update builtins_rel).update hb).update hm).update hc
  exact (h.set _ (h.getD _ .none)).set _ (.meth _ _ _ hij)

theorem methodDict_rel {n n' : Nat} (ms : List (Str × Str × C))
    (h : ∀ i, i < ms.length → ρ.fn[n + i]? = some (n' + i)) : DictR fl ρ (methodDict n ms) (methodDict n' ms) := by
  induction ms generalizing n n' with
  | nil => exact .nil
  | cons m ms ih =>
    refine .cons ⟨rfl, .fn _ _ (by simpa using h 0 (by simp))⟩ (ih fun i hi => ?_)
    have := h (i + 1) (by simpa using hi)
    rwa [show n + 1 + i = n + (i + 1) by omega, show n' + 1 + i = n' + (i + 1) by omega]

theorem newInst_rel {P : Prog C} (hP : PlainProg P) (c : Nat) {d d' : Dict Val} (hd : DictR fl ρ d d') :
    MRel (W := W) fl k ρ INum (newInst P c d) (newInst P c d') := by
  intro σ a s hle hs
  have hd := hd.mono hle
  cases hc : P.classes[c]? with
  | none =>
    have e1 : newInst P c d a = ⟨.nil, a, .error .name⟩ := by simp [newInst, hc]
    have e2 : newInst P c d' s = ⟨.nil, s, .error .name⟩ := by simp [newInst, hc]
    unfold MAt
    rw [e1, e2]
    exact ⟨rfl, σ, Le.refl _, hs, Moves.refl _, rfl⟩
  | some cls =>
    have hcls := hP cls (List.mem_of_getElem? hc)
    let τ : Ren := ⟨σ.inst ++ [s.insts.length], σ.fn ++ List.range' s.fns.length cls.methods.length, σ.frame⟩
    have ht : Le σ τ := ⟨List.prefix_append _ _, List.prefix_append _ _, List.prefix_rfl⟩
    have hi : τ.inst[a.insts.length]? = some s.insts.length := by
      rw [List.getElem?_append_right (Nat.le_of_eq hs.instLen), hs.instLen]
      simp
    have hm : DictR fl τ (methodDict a.fns.length cls.methods) (methodDict s.fns.length cls.methods) := by
      refine methodDict_rel _ fun i h => ?_
      exact addFns_get hs h
    unfold MAt newInst
    rw [hc]
    refine ⟨rfl, τ, ht, ?_, ?_, hi⟩
    · refine ⟨hs.flInj, ⟨nodup_snoc hs.inj.1 fun h => Nat.lt_irrefl _ (hs.inst_lt h), ?_, hs.inj.2.2⟩, ?_, hs.frameLen, ?_, ?_,
        ?_, hs.used, hs.world⟩
      · show (σ.fn ++ _).Nodup
        rw [List.nodup_append]
        refine ⟨hs.inj.2.1, List.nodup_range', ?_⟩
        intro x hx y hy e
        have := hs.fn_lt hx
        simp at hy
        omega
      · refine List.rel_append (R := fun x j => ∃ y, (s.insts ++ _)[j]? = some y ∧ InstR fl τ x y) ?_ (.cons ?_ .nil)
        · refine List.Forall₂.imp ?_ hs.insts
          rintro x j ⟨y, hy, hr⟩
          refine ⟨y, ?_, hr.mono ht⟩
          rw [List.getElem?_append_left (List.getElem?_eq_some_iff.1 hy).1]
          exact hy
        · refine ⟨⟨c, d', newGlobals s.insts.length cls.baseGlobals (methodDict s.fns.length cls.methods) d',
            methodDict s.fns.length cls.methods⟩, by simp, rfl, hd.mono ht,
            newGlobals_rel hi (DictR.plain hcls) hm (hd.mono ht), hm⟩
      · intro i j hij
        obtain ⟨x, y, hx, hy, hr⟩ := hs.frames i j hij
        exact ⟨x, y, hx, hy, hr.mono ht⟩
      · refine List.rel_append (R := fun f j => ∃ f', (s.fns ++ _)[j]? = some f' ∧ FnR τ f f') ?_ ?_
        · refine List.Forall₂.imp ?_ hs.fns
          rintro x j ⟨y, hy, hr⟩
          refine ⟨y, ?_, hr.mono ht⟩
          rw [List.getElem?_append_left (List.getElem?_eq_some_iff.1 hy).1]
          exact hy
        · refine forall₂_of_get (by simp [methodFns]) fun n x j hx hj => ?_
          have hn : n < cls.methods.length := by simpa [methodFns] using (List.getElem?_eq_some_iff.1 hx).1
          simp only [List.getElem?_range', hn, Option.some.injEq] at hj
          subst hj
          simp only [methodFns, List.getElem?_map, List.getElem?_eq_getElem hn, Option.map_some, Option.some.injEq] at hx
          subst hx
          refine ⟨⟨.code cls.methods[n].2.1 cls.methods[n].2.2, s.insts.length, none, true⟩, ?_, rfl, hi, trivial, rfl⟩
          rw [List.getElem?_append_right (by omega)]
          simp [methodFns, hn]
      · intro i j hij
        simp only
        rcases Nat.lt_or_ge i σ.inst.length with hlt | hge
        · have hij' : σ.inst[i]? = some j := by rwa [List.getElem?_append_left hlt] at hij
          have h1 : i ≠ a.insts.length := by rw [← hs.instLen]; omega
          have h2 : j ≠ s.insts.length := by have := hs.inst_lt (List.mem_of_getElem? hij'); omega
          rw [if_neg h1, if_neg h2]
          exact (hs.stacks i j hij').mono ht
        · have hlt := (List.getElem?_eq_some_iff.1 hij).1
          have : i = a.insts.length := by
            rw [← hs.instLen]
            simp only [τ, List.length_append, List.length_singleton] at hlt
            omega
          subst this
          rw [hi] at hij
          cases hij
          rw [if_pos rfl, if_pos rfl]
          exact ⟨.nil, .nil⟩
    · refine ⟨by simp, Nat.le_refl _, List.prefix_append _ _, ?_, fun _ _ _ => rfl, ?_, fun _ h => .inl h, fun _ _ => Iff.rfl,
        fun _ _ => rfl⟩
      · intro j _ hj
        refine ⟨by rw [List.getElem?_append_left hj], ?_⟩
        simp only
        rw [if_neg (by omega)]
      · intro j hj
        simp only [τ, List.mem_append, List.mem_singleton] at hj
        rcases hj with hj | hj
        · exact .inl hj
        · exact .inr (by omega)

theorem isTpl_eq {a : Store C W} {s : Store C (Nat → W)} (hs : StoreR fl k ρ a s) {v v' : Val} (h : ValR fl ρ v v') :
    isTpl (a.fns.map (·.tpl)) v = isTpl (s.fns.map (·.tpl)) v' := by
  cases h with
  | fn i j h =>
    obtain ⟨x, y, hx, hy, hr⟩ := hs.fn_get h
    simp [isTpl, hx, hy, hr.tpl]
  | _ => rfl

theorem trampDict_rel {n n' : Nat} (ks : List Str)
    (h : ∀ i, i < ks.length → ρ.fn[n + i]? = some (n' + i)) : DictR fl ρ (trampDict n ks) (trampDict n' ks) := by
  induction ks generalizing n n' with
  | nil => exact .nil
  | cons m ms ih =>
    refine .cons ⟨rfl, .fn _ _ (by simpa using h 0 (by simp))⟩ (ih fun i hi => ?_)
    have := h (i + 1) (by simpa using hi)
    rwa [show n + 1 + i = n + (i + 1) by omega, show n' + 1 + i = n' + (i + 1) by omega]

theorem modifyFns_at {R : Ren → α → β → Prop} {a : Store C W} {s : Store C (Nat → W)} (hs : StoreR fl k ρ a s)
    {fs fs' : List (Fn C)} (hf : List.Forall₂ (FnR ρ) fs fs') {f : Unit → MS C W α} {f' : Unit → MS C (Nat → W) β}
    (h : MRel fl k (addFns ρ s fs.length) R (f ()) (f' ())) :
    MAt fl k ρ R a s (M.bind (M.modify fun s => { s with fns := s.fns ++ fs }) f)
      (M.bind (M.modify fun s => { s with fns := s.fns ++ fs' }) f') := by
  obtain ⟨ho, τ, hle, h2, h3, h4⟩ := h _ _ _ (Le.refl _) (hs.addFns hf)
  refine ⟨?_, τ, (addFns_le _ _).trans hle, h2, (Moves.addFns _ _).trans h3, h4⟩
  show Out.nil ++ _ = Out.nil ++ _
  exact congrArg _ ho

theorem extend_rel {P : Prog C} (hP : PlainProg P) {i j : Nat} (hij : ρ.inst[i]? = some j) (name : Str) :
    MRel (W := W) fl k ρ INum (extend P i name) (extend P j name) := by
  unfold extend
  refine MRel.bind (R := fun _ => Eq) (ofOption_rel _ ?_) ?_
  · cases P.load name with
    | none => exact .none
    | some c => exact .some fun _ _ => rfl
  rintro ρ1 c _ hle1 rfl
  refine MRel.bind (getInst_rel (prefix_get hle1.inst hij)) fun ρ2 me me' hle2 hme => ?_
  refine MRel.bind (newInst_rel hP c hme.context) fun ρ3 p p' hle3 hp => ?_
  refine MRel.bind (getInst_rel hp) fun ρ4 pi pi' hle4 hpi => ?_
  refine MRel.get fun ρ5 a s hle5 hs => ?_
  have hij5 : ρ5.inst[i]? = some j := prefix_get (hle1.trans (hle2.trans (hle3.trans (hle4.trans hle5)))).inst hij
  have hp5 : ρ5.inst[p]? = some p' := prefix_get (hle4.trans hle5).inst hp
  have hme5 := hme.mono (hle3.trans (hle4.trans hle5))
  have hpi5 := hpi.mono hle5
  have hpg : DictR fl ρ5 (overrides (a.fns.map (·.tpl)) me.globals pi.globals)
      (overrides (s.fns.map (·.tpl)) me'.globals pi'.globals) := by
    refine hpi5.globals.update (hme5.globals.filter fun x y h => ?_)
    rw [h.1, isTpl_eq hs h.2]
  have hks : trampNames (a.fns.map (·.tpl)) (overrides (a.fns.map (·.tpl)) me.globals pi.globals) me.attrs =
      trampNames (s.fns.map (·.tpl)) (overrides (s.fns.map (·.tpl)) me'.globals pi'.globals) me'.attrs := by
    refine DictR.keys (hpg.filter fun x y h => ?_)
    rw [h.1, isTpl_eq hs h.2, hme5.attrs.has]
  have hmy : DictR fl ρ5 (inherited (a.fns.map (·.tpl)) (overrides (a.fns.map (·.tpl)) me.globals pi.globals) me.globals)
      (inherited (s.fns.map (·.tpl)) (overrides (s.fns.map (·.tpl)) me'.globals pi'.globals) me'.globals) := by
    refine hme5.globals.update (hpg.filter fun x y h => ?_)
    rw [h.1, isTpl_eq hs h.2, hme5.globals.has]
  simp only
  rw [hks]
  clear hks
  revert hmy hpg
  generalize inherited (a.fns.map (·.tpl)) _ _ = my
  generalize inherited (s.fns.map (·.tpl)) _ _ = my'
  generalize overrides (a.fns.map (·.tpl)) _ _ = pg
  generalize overrides (s.fns.map (·.tpl)) _ _ = pg'
  generalize trampNames (s.fns.map (·.tpl)) _ _ = ks
  intro hpg hmy
  refine modifyFns_at hs ?_ ?_
  · induction ks with
    | nil => exact .nil
    | cons x ks ih => exact .cons ⟨rfl, hij5, trivial, rfl⟩ ih
  · have hle6 := addFns_le (ρ := ρ5) s (ks.map fun x => (⟨.tramp x, i, none, true⟩ : Fn C)).length
    have hts : DictR fl (addFns ρ5 s (ks.map fun x => (⟨.tramp x, i, none, true⟩ : Fn C)).length)
        (trampDict a.fns.length ks) (trampDict s.fns.length ks) := by
      refine trampDict_rel ks fun i h => addFns_get hs (by simpa using h)
    refine MRel.bind (modInst_rel (prefix_get hle6.inst hp5) ?_) fun ρ7 _ _ hle7 _ => ?_
    · intro σ x y hle hxy
      have h6 := hle6.trans hle
      refine ⟨hxy.cls, hxy.context, ?_, hxy.attrs⟩
      exact (((hpg.mono h6).set _ (.inst _ _ (prefix_get h6.inst hij5))).set _ (.inst _ _ (prefix_get h6.inst hp5))).set _
        ((hmy.mono h6).getD _ .none)
    refine MRel.bind (modInst_rel (prefix_get (hle6.trans hle7).inst hij5) ?_) fun ρ8 _ _ hle8 _ => ?_
    · intro σ x y hle hxy
      have h6 := hle6.trans (hle7.trans hle)
      refine ⟨hxy.cls, hxy.context, ?_, (hme5.attrs.mono h6).update (hts.mono (hle7.trans hle))⟩
      exact ((hmy.mono h6).set _ (.inst _ _ (prefix_get h6.inst hp5))).set _ (.inst _ _ (prefix_get h6.inst hij5))
    exact MRel.pure fun σ hle => prefix_get (hle6.trans (hle7.trans (hle8.trans hle))).inst hp5

theorem importT_rel {P : Prog C} (hP : PlainProg P) {i j : Nat} (hij : ρ.inst[i]? = some j) (name : Str) (al : Option Str) :
    MRel (W := W) fl k ρ INum (importT P i name al) (importT P j name al) := by
  unfold importT
  refine MRel.bind (R := fun _ => Eq) (ofOption_rel _ ?_) ?_
  · cases P.load name with
    | none => exact .none
    | some c => exact .some fun _ _ => rfl
  rintro ρ1 c _ hle1 rfl
  refine MRel.bind (getInst_rel (prefix_get hle1.inst hij)) fun ρ2 me me' hle2 hme => ?_
  refine MRel.bind (newInst_rel hP c hme.globals) fun ρ3 p p' hle3 hp => ?_
  refine MRel.bind (modInst_rel (prefix_get (hle1.trans (hle2.trans hle3)).inst hij) ?_) fun ρ4 _ _ hle4 _ => ?_
  · intro σ x y hle hxy
    exact ⟨hxy.cls, hxy.context, hxy.globals.set _ (.inst _ _ (prefix_get hle.inst hp)), hxy.attrs⟩
  exact MRel.pure fun σ hle => prefix_get (hle4.trans hle).inst hp

theorem importM_rel {P : Prog C} (hP : PlainProg P) {e e' : Env} (he : EnvR ρ e e') (name : Str) (al : Option Str) :
    MRel (W := W) fl k ρ INum (importM P e name al) (importM P e' name al) := by
  refine MRel.bind (kjInst_rel he) fun ρ1 _ _ hle1 _ => ?_
  refine MRel.bind (globalInst_rel (he.mono hle1).inst _) fun ρ2 i j hle2 hij => ?_
  exact importT_rel hP hij name al

theorem extendM_rel {P : Prog C} (hP : PlainProg P) {e e' : Env} (he : EnvR ρ e e') (name : Str) :
    MRel (W := W) fl k ρ INum (extendM P e name) (extendM P e' name) :=
  MRel.bind (kjInst_rel he) fun _ _ _ _ hij => extend_rel hP hij name

/-! ## The stacks -/

theorem StoreR.modStacks {a : Store C W} {s : Store C (Nat → W)} (h : StoreR fl k ρ a s) {i j : Nat}
    (hij : ρ.inst[i]? = some j) {f f' : Stacks → Stacks} (hf : StacksR fl ρ (f (a.stacks i)) (f' (s.stacks j))) :
    StoreR fl k ρ { a with stacks := fun n => if n = i then f (a.stacks n) else a.stacks n }
      { s with stacks := fun n => if n = j then f' (s.stacks n) else s.stacks n } := by
  refine ⟨h.flInj, h.inj, h.insts, h.frameLen, h.frames, h.fns, ?_, h.used, h.world⟩
  intro i2 j2 h2
  simp only
  by_cases e : i2 = i
  · subst e
    rw [hij] at h2
    cases h2
    simpa using hf
  · have e2 : j2 ≠ j := fun e2 => e (get_inj h.inj.1 h2 (e2 ▸ hij))
    rw [if_neg e, if_neg e2]
    exact h.stacks i2 j2 h2

theorem Moves.modStacks {s : Store C (Nat → W)} {j : Nat} (hj : j ∈ ρ.inst) (f : Stacks → Stacks) :
    Moves fl k ρ ρ s { s with stacks := fun n => if n = j then f (s.stacks n) else s.stacks n } := by
  refine ⟨Nat.le_refl _, Nat.le_refl _, List.prefix_rfl, ?_, fun _ _ _ => rfl, fun _ h => .inl h,
    fun _ h => .inl h, fun _ _ => Iff.rfl, fun _ _ => rfl⟩
  intro j2 h2 _
  have : j2 ≠ j := fun e => h2 (e ▸ hj)
  exact ⟨rfl, if_neg this⟩

theorem modStacks_at {a : Store C W} {s : Store C (Nat → W)} (h : StoreR fl k ρ a s) {i j : Nat}
    (hij : ρ.inst[i]? = some j) {f f' : Stacks → Stacks} (hf : StacksR fl ρ (f (a.stacks i)) (f' (s.stacks j))) :
    MAt fl k ρ UnitR a s (modStacks i f) (modStacks j f') :=
  ⟨rfl, ρ, Le.refl _, h.modStacks hij hf, Moves.modStacks (List.mem_of_getElem? hij) f', trivial⟩

theorem pushSwitchM_rel {i j : Nat} (hij : ρ.inst[i]? = some j) {v v' : Val} (hv : ValR fl ρ v v') :
    MRel (C := C) (W := W) fl k ρ UnitR (pushSwitchM i v) (pushSwitchM j v') := by
  intro σ a s hle hs
  have hij := prefix_get hle.inst hij
  have := hs.stacks i j hij
  exact modStacks_at hs hij ⟨.cons (hv.mono hle) this.sw, this.wi⟩

theorem popSwitchM_rel {i j : Nat} (hij : ρ.inst[i]? = some j) :
    MRel (C := C) (W := W) fl k ρ UnitR (popSwitchM i) (popSwitchM j) := by
  refine MRel.get fun σ a s hle hs => ?_
  have hij := prefix_get hle.inst hij
  have hst := hs.stacks i j hij
  have h2 := hst.sw
  revert h2
  generalize (a.stacks i).sw = x
  generalize (s.stacks j).sw = y
  intro h2
  cases h2 with
  | nil => exact MRel.throw _ σ a s (Le.refl _) hs
  | cons h h2 => exact modStacks_at hs hij ⟨h2, hst.wi⟩

theorem caseM_rel {i j : Nat} (hij : ρ.inst[i]? = some j) {v v' : Val} (hv : ValR fl ρ v v') :
    MRel (C := C) (W := W) fl k ρ (fun _ => Eq) (caseM i v) (caseM j v') := by
  refine MRel.get fun σ a s hle hs => ?_
  have hij := prefix_get hle.inst hij
  have h2 := (hs.stacks i j hij).sw
  revert h2
  generalize (a.stacks i).sw = x
  generalize (s.stacks j).sw = y
  intro h2
  cases h2 with
  | nil => exact MRel.throw _ σ a s (Le.refl _) hs
  | cons h h2 => exact MAt.pure hs ((hv.mono hle).pyEq hs.inj hs.flInj h)

theorem pushWithM_rel {i j : Nat} (hij : ρ.inst[i]? = some j) {v v' : List Val} (hv : ValsR fl ρ v v') :
    MRel (C := C) (W := W) fl k ρ UnitR (pushWithM i v) (pushWithM j v') := by
  intro σ a s hle hs
  have hij := prefix_get hle.inst hij
  have := hs.stacks i j hij
  exact modStacks_at hs hij ⟨this.sw, .cons (hv.mono hle) this.wi⟩

theorem popWithM_rel {i j : Nat} (hij : ρ.inst[i]? = some j) :
    MRel (C := C) (W := W) fl k ρ (ValsR fl) (popWithM i) (popWithM j) := by
  refine MRel.get fun σ a s hle hs => ?_
  have hij := prefix_get hle.inst hij
  have hst := hs.stacks i j hij
  have h2 := hst.wi
  revert h2
  generalize (a.stacks i).wi = x
  generalize (s.stacks j).wi = y
  intro h2
  cases h2 with
  | nil => exact MRel.throw _ σ a s (Le.refl _) hs
  | cons h h2 =>
    exact MAt.bind (modStacks_at hs hij ⟨hst.sw, h2⟩) fun τ _ _ hle2 _ => MRel.pure fun υ hle3 =>
      h.mono (hle2.trans hle3)

theorem pushNames_rel {e e' : Env} (he : EnvR ρ e e') {i j : Nat} (hij : ρ.inst[i]? = some j) (ns : List Str) :
    MRel (C := C) (W := W) fl k ρ UnitR
      (M.bind M.get fun s => pushWithM i (ns.map fun k => ((localVars e s).get k).getD .unit))
      (M.bind M.get fun s => pushWithM j (ns.map fun k => ((localVars e' s).get k).getD .unit)) := by
  refine MRel.get fun σ a s hle hs => ?_
  refine pushWithM_rel (prefix_get hle.inst hij) ?_ σ a s (Le.refl _) hs
  have hl := localVars_rel hs (he.mono hle)
  induction ns with
  | nil => exact .nil
  | cons n ns ih => exact .cons (hl.getD n .unit) ih

theorem unpack_rel {e e' : Env} (he : EnvR ρ e e') (ns : List Str) {v v' : List Val} (hv : ValsR fl ρ v v') :
    MRel (C := C) (W := W) fl k ρ UnitR (unpack e ns v) (unpack e' ns v') := by
  unfold unpack
  rw [hv.length_eq]
  split
  · exact setVars_rel he (DictR.zip ns hv)
  · exact MRel.throw _

/-! ## Attributes -/

theorem attrsM_rel {O : Oracle W} {O' : Oracle (Nat → W)} (hO : OracleR fl k O O') {e e' : Env} (he : EnvR ρ e e')
    (c m : Str) : MRel (C := C) fl k ρ UnitR (attrsM O e c m) (attrsM O' e' c m) := by
  refine MRel.bind (evalM_rel hO he c) fun σ v v' hle hv => ?_
  intro τ a s hle2 hs
  rw [renderAttrs_eq hs.inj hs.flInj m (hv.mono hle2)]
  cases renderAttrs v' m with
  | error e => exact MRel.throw e τ a s (Le.refl _) hs
  | ok ss => exact emitStrs_rel ss τ a s (Le.refl _) hs

theorem attrM_rel {e e' : Env} (he : EnvR ρ e e') (n m : Str) :
    MRel (C := C) (W := W) fl k ρ UnitR (attrM e n m) (attrM e' n m) := by
  refine MRel.get fun σ a s hle hs => ?_
  obtain ⟨x, y, hx, hy, hr⟩ := hs.frames _ _ (he.mono hle).frame
  have : (a.frames[e.frame]?).bind (·.coll) = (s.frames[e'.frame]?).bind (·.coll) := by
    rw [hx, hy]
    exact hr.coll
  rw [this]
  exact emitStrs_rel _ σ a s (Le.refl _) hs

end Kajiki.Spec.Share
