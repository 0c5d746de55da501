import Verif.Spec.Scope
import Verif.Lemmas.Rel
import Verif.Lemmas.Chain

/-!
# What computations keep

Frames other than the current one, and global names that are not reserved, never change.
-/

namespace Kajiki.Scope
open Kajiki.Run Kajiki.Spec.Scope Kajiki.Spec.Sem

variable {C W α β : Type}

/-- Template functions are found under reserved names only. -/
def FnNames (R : Str → Prop) (d : Dict Val) : Prop := ∀ k f, (k, Val.fn f) ∈ d → R k

/-- Scopes refer to older scopes; `A` holds of every function body. -/
structure Safe (R : Str → Prop) (A : C → Prop) (s : Store C W) : Prop where
  ups : ∀ (i : Nat) (f : Frame) (j : Nat), s.frames[i]? = some f → f.up = some j → j < i
  fns : ∀ f ∈ s.fns, ∀ d b, f.body = .code d b → A b
  insts : ∀ x ∈ s.insts, FnNames R x.context ∧ FnNames R x.globals

/-- What is still the same: variables for which `loc` does not hold, and globals not in `R`. -/
structure Keep (R : Str → Prop) (loc : Nat → Str → Prop) (s t : Store C W) : Prop where
  frames : ∀ (i : Nat) (f : Frame), s.frames[i]? = some f → ∃ g : Frame, t.frames[i]? = some g ∧ g.up = f.up ∧
    ∀ n, ¬ loc i n → g.vars.get n = f.vars.get n
  insts : ∀ (i : Nat) (x : Inst), s.insts[i]? = some x → ∃ y : Inst, t.insts[i]? = some y ∧
    ∀ n, ¬ R n → y.globals.get n = x.globals.get n

/-- A computation that keeps everything else. -/
def Keeps (R : Str → Prop) (A : C → Prop) (loc : Nat → Str → Prop) (Q : α → Prop) (m : MS C W α) : Prop :=
  ∀ s, Safe R A s → Safe R A (m s).st ∧ Keep R loc s (m s).st ∧ ∀ a, (m s).val = .ok a → Q a

/-- No variable. -/
def noVar : Nat → Str → Prop := fun _ _ => False

variable {R : Str → Prop} {A : C → Prop} {loc : Nat → Str → Prop}

theorem Keep.refl (s : Store C W) : Keep R loc s s :=
  ⟨fun _ f h => ⟨f, h, rfl, fun _ _ => rfl⟩, fun _ x h => ⟨x, h, fun _ _ => rfl⟩⟩

theorem Keep.trans {s t u : Store C W} (h : Keep R loc s t) (h2 : Keep R loc t u) : Keep R loc s u := by
  refine ⟨fun i f hf => ?_, fun i x hx => ?_⟩
  · obtain ⟨g, hg, e1, e2⟩ := h.frames i f hf
    obtain ⟨k, hk, e3, e4⟩ := h2.frames i g hg
    exact ⟨k, hk, e3.trans e1, fun n hn => (e4 n hn).trans (e2 n hn)⟩
  · obtain ⟨y, hy, e1⟩ := h.insts i x hx
    obtain ⟨z, hz, e2⟩ := h2.insts i y hy
    exact ⟨z, hz, fun n hn => (e2 n hn).trans (e1 n hn)⟩

theorem Keep.mono {loc' : Nat → Str → Prop} {s t : Store C W} (h : Keep R loc s t)
    (hl : ∀ (i : Nat) (f : Frame) (n : Str), s.frames[i]? = some f → loc i n → loc' i n) : Keep R loc' s t := by
  refine ⟨fun i f hf => ?_, h.insts⟩
  obtain ⟨g, hg, e1, e2⟩ := h.frames i f hf
  exact ⟨g, hg, e1, fun n hn => e2 n fun h => hn (hl i f n hf h)⟩

theorem Keep.same {s t : Store C W} (hf : t.frames = s.frames) (hi : t.insts = s.insts) : Keep R loc s t :=
  ⟨fun _ f h => ⟨f, by rw [hf]; exact h, rfl, fun _ _ => rfl⟩,
    fun _ x h => ⟨x, by rw [hi]; exact h, fun _ _ => rfl⟩⟩

theorem Safe.same {s t : Store C W} (h : Safe R A s) (hf : t.frames = s.frames) (hi : t.insts = s.insts)
    (hn : t.fns = s.fns) : Safe R A t :=
  ⟨by rw [hf]; exact h.ups, by rw [hn]; exact h.fns, by rw [hi]; exact h.insts⟩

theorem Keeps.mono {Q Q' : α → Prop} {m : MS C W α} {loc' : Nat → Str → Prop} (h : Keeps R A loc Q m)
    (hl : ∀ i n, loc i n → loc' i n) (hq : ∀ a, Q a → Q' a) : Keeps R A loc' Q' m := fun s hs =>
  ⟨(h s hs).1, (h s hs).2.1.mono fun i _ n _ => hl i n, fun a ha => hq a ((h s hs).2.2 a ha)⟩

theorem Keeps.any {Q : α → Prop} {m : MS C W α} (h : Keeps R A noVar Q m) : Keeps R A loc Q m :=
  h.mono (fun _ _ h => h.elim) fun _ h => h

theorem Keeps.bind {Q : α → Prop} {Q' : β → Prop} {m : MS C W α} {f : α → MS C W β} (h : Keeps R A loc Q m)
    (hf : ∀ a, Q a → Keeps R A loc Q' (f a)) : Keeps R A loc Q' (M.bind m f) := by
  intro s hs
  have h1 := h s hs
  unfold M.bind
  cases hm : m s with
  | mk o st v =>
    rw [hm] at h1
    cases v with
    | error e => exact ⟨h1.1, h1.2.1, fun a ha => by cases ha⟩
    | ok a =>
      have h2 := hf a (h1.2.2 a rfl) st h1.1
      exact ⟨h2.1, h1.2.1.trans h2.2.1, h2.2.2⟩

theorem Keeps.pure {Q : α → Prop} {a : α} (h : Q a) : Keeps R A loc Q (M.pure a : MS C W α) :=
  fun s hs => ⟨hs, .refl _, fun b hb => by cases hb; exact h⟩

theorem Keeps.throw {Q : α → Prop} (e : Err) : Keeps R A loc Q (M.throw e : MS C W α) :=
  fun s hs => ⟨hs, .refl _, fun b hb => by cases hb⟩

theorem Keeps.tell {Q : Unit → Prop} {o : Out} (h : Q ()) : Keeps R A loc Q (M.tell o : MS C W Unit) :=
  fun s hs => ⟨hs, .refl _, fun b hb => by cases hb; exact h⟩

theorem Keeps.get {Q : β → Prop} {f : Store C W → MS C W β}
    (h : ∀ s, Safe R A s → Keeps R A loc Q (f s)) : Keeps R A loc Q (M.bind M.get f) := by
  intro s hs
  have := h s hs s hs
  exact this

theorem Keeps.ofOption {Q : α → Prop} {e : Err} {x : Option α} (h : ∀ a, x = some a → Q a) :
    Keeps R A loc Q (M.ofOption e x : MS C W α) := by
  cases x with
  | none => exact .throw _
  | some a => exact .pure (h a rfl)

theorem Keeps.each {γ : Type} {f : γ → MS C W Unit} {l : List γ}
    (h : ∀ a ∈ l, Keeps R A loc (fun _ => True) (f a)) : Keeps R A loc (fun _ => True) (M.each f l) := by
  induction l with
  | nil => exact .pure trivial
  | cons a l ih =>
    exact (h a List.mem_cons_self).bind fun _ _ => ih fun x hx => h x (List.mem_cons_of_mem _ hx)

theorem Keeps.capture {m : MS C W Unit} {Q : Unit → Prop} (h : Keeps R A loc Q m) :
    Keeps R A loc (fun _ => True) (M.capture m) := by
  intro s hs
  have h1 := h s hs
  unfold M.capture
  cases hm : m s with
  | mk o st v =>
    rw [hm] at h1
    cases v with
    | error e => exact ⟨h1.1, h1.2.1, fun a ha => trivial⟩
    | ok a => exact ⟨h1.1, h1.2.1, fun a ha => trivial⟩

/-! ## Mappings -/

theorem fnNames_set {d : Dict Val} (h : FnNames R d) {k : Str} {v : Val} (hv : ∀ f, v = .fn f → R k) :
    FnNames R (d.set k v) := by
  intro k' f hm
  rcases Dict.mem_set hm with he | h1
  · cases he; exact hv f rfl
  · exact h k' f h1

theorem fnNames_update {d e : Dict Val} (h : FnNames R d) (h2 : FnNames R e) : FnNames R (d.update e) := by
  unfold Dict.update
  induction e generalizing d with
  | nil => exact h
  | cons kv e ih =>
    rw [List.foldl_cons]
    refine ih (fnNames_set h fun f hf => h2 kv.1 f ?_) fun k f hm => h2 k f (List.mem_cons_of_mem _ hm)
    rw [← hf]
    exact List.mem_cons_self

theorem fnNames_filter {d : Dict Val} (h : FnNames R d) (p : Str × Val → Bool) : FnNames R (d.filter p) :=
  fun k f hm => h k f (List.mem_filter.1 hm).1

theorem get_update_other {d e : Dict Val} {n : Str} (h : ∀ kv ∈ e, kv.1 ≠ n) : (d.update e).get n = d.get n := by
  unfold Dict.update
  induction e generalizing d with
  | nil => rfl
  | cons kv e ih =>
    rw [List.foldl_cons, ih fun x hx => h x (List.mem_cons_of_mem _ hx),
      Dict.get_set_other _ _ (h kv List.mem_cons_self)]

theorem isTpl_fn {tpl : List Bool} {v : Val} (h : isTpl tpl v = true) : ∃ f, v = .fn f := by
  cases v with
  | fn f => exact ⟨f, rfl⟩
  | _ => cases h

/-! ## Primitives -/

theorem ask_keeps (env : Env) (f : View → W → Except Err α × W) :
    Keeps R A loc (fun a => ∃ v w u, f v w = (.ok a, u)) (ask env f : MS C W α) := by
  intro s hs
  refine ⟨hs.same rfl rfl rfl, .same rfl rfl, fun a ha => ?_⟩
  simp only [ask] at ha
  exact ⟨_, _, _, Prod.ext ha rfl⟩

theorem evalM_keeps (O : Oracle W) (env : Env) (e : Str) :
    Keeps R A loc (fun _ => True) (evalM O env e : MS C W Val) :=
  (ask_keeps env _).mono (fun _ _ h => h) fun _ _ => trivial

theorem modFrame_keeps (env : Env) {f : Frame → Frame} (hu : ∀ x, (f x).up = x.up)
    (h : ∀ x n, ¬ loc env.frame n → (f x).vars.get n = x.vars.get n) :
    Keeps R A loc (fun _ => True) (modFrame env f : MS C W Unit) := by
  intro s hs
  have hget : ∀ i, (s.frames.modify env.frame f)[i]? = if env.frame = i then s.frames[i]?.map f else s.frames[i]? := by
    intro i
    rw [List.getElem?_modify]
    split
    · rfl
    · cases s.frames[i]? <;> rfl
  refine ⟨⟨fun i g j hg hj => ?_, hs.fns, hs.insts⟩, ⟨fun i g hg => ?_, fun _ x hx => ⟨x, hx, fun _ _ => rfl⟩⟩,
    fun _ _ => trivial⟩
  · simp only [modFrame, M.modify] at hg
    rw [hget] at hg
    split at hg
    · cases hx : s.frames[i]? with
      | none => rw [hx] at hg; cases hg
      | some x =>
        rw [hx] at hg
        cases hg
        rw [hu] at hj
        exact hs.ups i x j hx hj
    · exact hs.ups i g j hg hj
  · simp only [modFrame, M.modify]
    rw [hget]
    by_cases hi : env.frame = i
    · rw [if_pos hi, hg]
      exact ⟨f g, rfl, hu g, fun n hn => h g n (hi ▸ hn)⟩
    · rw [if_neg hi]
      exact ⟨g, hg, rfl, fun _ _ => rfl⟩

/-- The current scope, except for some names. -/
def here (env : Env) (ns : List Str) : Nat → Str → Prop := fun i n => i = env.frame ∧ n ∉ ns

theorem setVars_keeps (env : Env) {ns : List Str} {b : Dict Val} (h : ∀ kv ∈ b, kv.1 ∉ ns) :
    Keeps R A (here env ns) (fun _ => True) (setVars env b : MS C W Unit) := by
  refine modFrame_keeps env (fun _ => rfl) fun x n hn => get_update_other fun kv hkv he => ?_
  exact hn ⟨rfl, he ▸ h kv hkv⟩

theorem liveScope_lt {fs : List Frame} {up : Option Nat} {j : Nat} (h : liveScope fs up = some j) :
    j < fs.length := by
  unfold liveScope at h
  rw [Option.filter_eq_some_iff] at h
  simpa using h.2

theorem newFrame_keeps (b : Dict Val) (up : Option Nat) : Keeps R A loc (fun _ => True) (newFrame b up : MS C W Nat) := by
  intro s hs
  refine ⟨⟨fun i f j hf hj => ?_, hs.fns, hs.insts⟩, ⟨fun i f hf => ?_, fun _ x hx => ⟨x, hx, fun _ _ => rfl⟩⟩,
    fun _ _ => trivial⟩
  · simp only [newFrame] at hf
    rw [List.getElem?_append] at hf
    split at hf
    · exact hs.ups i f j hf hj
    · next hi =>
      rw [List.getElem?_singleton] at hf
      split at hf
      · cases hf
        have := liveScope_lt hj
        omega
      · cases hf
  · simp only [newFrame]
    rw [List.getElem?_append_left (List.getElem?_eq_some_iff.1 hf).1]
    exact ⟨f, hf, rfl, fun _ _ => rfl⟩

theorem newFn_keeps {f : Fn C} (h : ∀ d b, f.body = .code d b → A b) :
    Keeps R A loc (fun _ => True) (newFn f : MS C W Nat) := by
  intro s hs
  refine ⟨⟨hs.ups, fun x hx => ?_, hs.insts⟩, .same rfl rfl, fun _ _ => trivial⟩
  simp only [newFn, List.mem_append, List.mem_singleton] at hx
  rcases hx with hx | rfl
  · exact hs.fns x hx
  · exact h

theorem start_keeps (id : Nat) : Keeps R A loc (fun _ => True) (start id : MS C W Bool) := by
  intro s hs
  unfold start
  split
  · exact ⟨hs, .refl _, fun _ _ => trivial⟩
  · exact ⟨hs.same rfl rfl rfl, .same rfl rfl, fun _ _ => trivial⟩

theorem getInst_keeps (i : Nat) : Keeps R A loc (fun x => FnNames R x.context ∧ FnNames R x.globals)
    (getInst i : MS C W Inst) := by
  intro s hs
  unfold getInst
  split
  · next x hx => exact ⟨hs, .refl _, fun a ha => by cases ha; exact hs.insts _ (List.mem_of_getElem? hx)⟩
  · exact ⟨hs, .refl _, fun a ha => by cases ha⟩

/-- Classes whose functions have reserved names. -/
structure ProgSafe (R : Str → Prop) (A : C → Prop) (P : Prog C) : Prop where
  methods : ∀ c ∈ P.classes, ∀ m ∈ c.methods, R m.1 ∧ A m.2.2
  base : ∀ c ∈ P.classes, FnNames R c.baseGlobals
  special : ∀ n ∈ ["local", "self", "parent", "child", "_"].map String.toList, R n

theorem methodDict_fnNames {ms : List (Str × Str × C)} (h : ∀ m ∈ ms, R m.1) (n : Nat) :
    FnNames R (methodDict n ms) := by
  induction ms generalizing n with
  | nil => intro k f hm; cases hm
  | cons m ms ih =>
    obtain ⟨k, m⟩ := m
    intro k' f hm
    rcases List.mem_cons.1 hm with he | hm
    · cases he; exact h (k, m) List.mem_cons_self
    · exact ih (fun x hx => h x (List.mem_cons_of_mem _ hx)) _ k' f hm

theorem builtins_fnNames : FnNames R builtins := by
  intro k f hm
  simp [builtins] at hm

theorem newGlobals_fnNames (i : Nat) {base ms ctx : Dict Val} (hb : FnNames R base) (hm : FnNames R ms)
    (hc : FnNames R ctx) (hu : R ['_']) : FnNames R (newGlobals i base ms ctx) := by
  have h0 : FnNames R [("local".toList, Val.inst i), ("self".toList, .inst i)] := by
    intro k f hm; simp at hm
  have h1 := fnNames_update (fnNames_update (fnNames_update (fnNames_update h0 builtins_fnNames) hb) hm) hc
  exact fnNames_set (fnNames_set h1 fun _ _ => hu) fun f hf => by cases hf

variable {P : Prog C}

theorem newInst_keeps (hP : ProgSafe R A P) (c : Nat) {ctx : Dict Val} (hc : FnNames R ctx) :
    Keeps R A loc (fun _ => True) (newInst P c ctx : MS C W Nat) := by
  intro s hs
  unfold newInst
  split
  · exact ⟨hs, .refl _, fun _ _ => trivial⟩
  · next cls hcls =>
    have hmem := List.mem_of_getElem? hcls
    have hm : ∀ m ∈ cls.methods, R m.1 := fun m h => (hP.methods cls hmem m h).1
    refine ⟨⟨hs.ups, fun x hx => ?_, fun x hx => ?_⟩,
      ⟨fun _ f hf => ⟨f, hf, rfl, fun _ _ => rfl⟩, fun i x hx => ⟨x, ?_, fun _ _ => rfl⟩⟩, fun _ _ => trivial⟩
    · simp only [List.mem_append, methodFns, List.mem_map] at hx
      rcases hx with hx | ⟨m, hm, rfl⟩
      · exact hs.fns x hx
      · intro d b hb
        cases hb
        exact (hP.methods cls hmem m hm).2
    · simp only [List.mem_append, List.mem_singleton] at hx
      rcases hx with hx | rfl
      · exact hs.insts x hx
      · exact ⟨hc, newGlobals_fnNames _ (hP.base cls hmem) (methodDict_fnNames hm _) hc (hP.special _ (by simp))⟩
    · show (s.insts ++ _)[i]? = some x
      rw [List.getElem?_append_left (List.getElem?_eq_some_iff.1 hx).1]
      exact hx

theorem modInst_keeps (i : Nat) {f : Inst → Inst}
    (h : ∀ s : Store C W, ∀ x, Safe R A s → s.insts[i]? = some x →
      FnNames R (f x).context ∧ FnNames R (f x).globals ∧ ∀ n, ¬ R n → (f x).globals.get n = x.globals.get n) :
    ∀ s : Store C W, Safe R A s → Safe R A (modInst i f s).st ∧ Keep R loc s (modInst i f s).st := by
  intro s hs
  have hget : ∀ k, (s.insts.modify i f)[k]? = if i = k then s.insts[k]?.map f else s.insts[k]? := by
    intro k
    rw [List.getElem?_modify]
    split
    · rfl
    · cases s.insts[k]? <;> rfl
  refine ⟨⟨hs.ups, hs.fns, fun x hx => ?_⟩, ⟨fun _ f hf => ⟨f, hf, rfl, fun _ _ => rfl⟩, fun k x hx => ?_⟩⟩
  · simp only [modInst, M.modify] at hx
    obtain ⟨k, hk⟩ := List.mem_iff_getElem?.1 hx
    rw [hget] at hk
    split at hk
    · next hik =>
      cases hy : s.insts[k]? with
      | none => rw [hy] at hk; cases hk
      | some y =>
        rw [hy] at hk
        cases hk
        have := h s y hs (hik ▸ hy)
        exact ⟨this.1, this.2.1⟩
    · exact hs.insts x (List.mem_of_getElem? hk)
  · simp only [modInst, M.modify]
    rw [hget]
    by_cases hi : i = k
    · rw [if_pos hi, hx]
      exact ⟨f x, rfl, (h s x hs (hi ▸ hx)).2.2⟩
    · rw [if_neg hi]
      exact ⟨x, hx, fun _ _ => rfl⟩

theorem importT_keeps (hP : ProgSafe R A P) (j : Nat) (n : Str) (a : Option Str) (ha : R (a.getD (P.aliasFor n))) :
    Keeps R A loc (fun _ => True) (importT P j n a : MS C W Nat) := by
  unfold importT
  refine Keeps.bind (Q := fun _ => True) (.ofOption fun _ _ => trivial) fun c _ => ?_
  refine Keeps.bind (getInst_keeps j) fun me hme => ?_
  refine Keeps.bind (newInst_keeps hP c hme.2) fun r _ => ?_
  refine Keeps.bind (Q := fun _ => True) ?_ fun _ _ => .pure trivial
  intro s hs
  have := modInst_keeps (R := R) (A := A) (loc := loc) j
    (f := fun x => { x with globals := Dict.set x.globals (a.getD (P.aliasFor n)) (.inst r) }) ?_ s hs
  · exact ⟨this.1, this.2, fun _ _ => trivial⟩
  · intro s x hs hx
    have := hs.insts x (List.mem_of_getElem? hx)
    exact ⟨this.1, fnNames_set this.2 (fun f hf => by cases hf),
      fun k hk => Dict.get_set_other _ _ fun he => hk (he ▸ ha)⟩

theorem extend_keeps (hP : ProgSafe R A P) (j : Nat) (n : Str) :
    Keeps R A loc (fun _ => True) (extend P j n : MS C W Nat) := by
  intro s hs
  cases hl : P.load n with
  | none =>
    have : extend P j n s = ⟨.nil, s, .error .ioError⟩ := by simp only [extend, hl, M.ofOption]; rfl
    rw [this]
    exact ⟨hs, .refl _, fun _ _ => trivial⟩
  | some c =>
    cases hj : s.insts[j]? with
    | none =>
      have : extend P j n s = ⟨.nil, s, .error .attr⟩ := by
        simp only [extend, hl, M.ofOption]
        simp only [M.bind, M.pure, getInst, hj]
        rfl
      rw [this]
      exact ⟨hs, .refl _, fun _ _ => trivial⟩
    | some me =>
      cases hc : P.classes[c]? with
      | none =>
        have : extend P j n s = ⟨.nil, s, .error .name⟩ := by
          simp only [extend, hl, M.ofOption]
          simp only [M.bind, M.pure, getInst, hj, newInst, hc]
          rfl
        rw [this]
        exact ⟨hs, .refl _, fun _ _ => trivial⟩
      | some cl =>
        obtain ⟨s', he, hx⟩ := Kajiki.Run.extend_run P j n s hl hc hj
        rw [he]
        have hmem := List.mem_of_getElem? hc
        have hme := hs.insts me (List.mem_of_getElem? hj)
        have hjlt : j < s.insts.length := (List.getElem?_eq_some_iff.1 hj).1
        have hm : ∀ m ∈ cl.methods, R m.1 := fun m h => (hP.methods cl hmem m h).1
        have hnew : FnNames R (Kajiki.Run.extNew s cl me) :=
          newGlobals_fnNames _ (hP.base cl hmem) (methodDict_fnNames hm _) hme.1 (hP.special _ (by simp))
        have hover : FnNames R (Kajiki.Run.extOver s cl me) := fnNames_update hnew (fnNames_filter hme.2 _)
        have hmine : FnNames R (Kajiki.Run.extMine s cl me) := fnNames_update hme.2 (fnNames_filter hover _)
        have hself := hP.special "self".toList (by simp)
        have hpar := hP.special "parent".toList (by simp)
        have hloc := hP.special "local".toList (by simp)
        have hP' : FnNames R (Kajiki.Run.extParent s cl me j c).globals :=
          fnNames_set (fnNames_set (fnNames_set hover fun f hf => by cases hf) fun f hf => by cases hf)
            fun _ _ => hself
        have hC' : FnNames R (Kajiki.Run.extChild s cl me j).globals :=
          fnNames_set (fnNames_set hmine fun f hf => by cases hf) fun f hf => by cases hf
        refine ⟨⟨by rw [hx.frames]; exact hs.ups, ?_, ?_⟩, ⟨?_, ?_⟩, fun _ _ => trivial⟩
        · rw [hx.fns]
          intro f hf
          simp only [List.mem_append, methodFns, List.mem_map] at hf
          rcases hf with (hf | ⟨m, hm, rfl⟩) | ⟨k, _, rfl⟩
          · exact hs.fns f hf
          · intro d b hb
            cases hb
            exact (hP.methods cl hmem m hm).2
          · intro d b hb; cases hb
        · intro x hx'
          obtain ⟨k, hk⟩ := List.mem_iff_getElem?.1 hx'
          have hklt := (List.getElem?_eq_some_iff.1 hk).1
          rw [hx.len] at hklt
          by_cases h1 : k = j
          · subst h1
            rw [hx.old] at hk
            cases hk
            exact ⟨hme.1, hC'⟩
          · by_cases h2 : k = s.insts.length
            · subst h2
              rw [hx.newI] at hk
              cases hk
              exact ⟨hme.1, hP'⟩
            · rw [hx.others k h1 (by omega)] at hk
              exact hs.insts x (List.mem_of_getElem? hk)
        · rw [hx.frames]
          exact fun _ f hf => ⟨f, hf, rfl, fun _ _ => rfl⟩
        · intro k x hk
          have hklt := (List.getElem?_eq_some_iff.1 hk).1
          by_cases h1 : k = j
          · subst h1
            rw [hj] at hk
            cases hk
            refine ⟨_, hx.old, fun n hn => ?_⟩
            unfold Kajiki.Run.extChild
            dsimp only
            have n1 : "local".toList ≠ n := fun h => hn (h ▸ hloc)
            have n2 : "parent".toList ≠ n := fun h => hn (h ▸ hpar)
            rw [Dict.get_set_other _ _ n1, Dict.get_set_other _ _ n2]
            refine get_update_other fun kv hkv hke => ?_
            have := (List.mem_filter.1 hkv).2
            simp only [Bool.and_eq_true] at this
            obtain ⟨f, hf⟩ := isTpl_fn this.1.2
            refine hn (hke ▸ hover kv.1 f ?_)
            rw [← hf]
            exact (List.mem_filter.1 hkv).1
          · exact ⟨x, by rw [hx.others k h1 hklt]; exact hk, fun _ _ => rfl⟩

theorem kjInst_keeps (env : Env) : Keeps R A loc (fun _ => True) (kjInst env : MS C W Nat) :=
  .ofOption fun _ _ => trivial

theorem globalInst_keeps (env : Env) (k : Str) : Keeps R A loc (fun _ => True) (globalInst env k : MS C W Nat) := by
  unfold globalInst
  refine Keeps.bind (getInst_keeps _) fun i _ => ?_
  split
  · exact .pure trivial
  · exact .throw _
  · exact .throw _

theorem importM_keeps (hP : ProgSafe R A P) (env : Env) (n : Str) (a : Option Str)
    (ha : R (a.getD (P.aliasFor n))) : Keeps R A loc (fun _ => True) (importM P env n a : MS C W Nat) := by
  unfold importM
  refine Keeps.bind (kjInst_keeps env) fun _ _ => ?_
  exact Keeps.bind (globalInst_keeps env _) fun j _ => importT_keeps hP j n a ha

theorem extendM_keeps (hP : ProgSafe R A P) (env : Env) (n : Str) :
    Keeps R A loc (fun _ => True) (extendM P env n : MS C W Nat) := by
  unfold extendM
  exact Keeps.bind (kjInst_keeps env) fun j _ => extend_keeps hP j n

theorem attrFn_keeps (i : Nat) (k : Str) : Keeps R A loc (fun _ => True) (attrFn i k : MS C W Nat) := by
  unfold attrFn
  refine Keeps.bind (getInst_keeps _) fun i _ => ?_
  split
  · exact .pure trivial
  · exact .throw _

theorem gettextM_keeps (O : Oracle W) (env : Env) (t : Str) :
    Keeps R A loc (fun _ => True) (gettextM O env t : MS C W Val) := by
  unfold gettextM
  refine Keeps.bind (kjInst_keeps env) fun _ _ => ?_
  refine Keeps.bind (getInst_keeps _) fun i _ => ?_
  refine Keeps.bind (Q := fun _ => True) (.ofOption fun _ _ => trivial) fun g _ => ?_
  exact (ask_keeps env _).mono (fun _ _ h => h) fun _ _ => trivial

theorem modStacks_keeps (j : Nat) (f : Stacks → Stacks) :
    Keeps R A loc (fun _ => True) (modStacks j f : MS C W Unit) :=
  fun _ hs => ⟨hs.same rfl rfl rfl, .same rfl rfl, fun _ _ => trivial⟩

theorem fdefM_keeps (env : Env) {ns : List Str} {d : Str} {b : C} (hb : A b) (hd : declName d ∉ ns) :
    Keeps R A (here env ns) (fun _ => True) (fdefM env d b : MS C W Unit) := by
  unfold fdefM
  refine Keeps.bind (newFn_keeps ?_) fun f _ => setVars_keeps env ?_
  · intro d' b' h; cases h; exact hb
  · intro kv hkv
    simp only [List.mem_singleton] at hkv
    subst hkv
    exact hd

theorem emitStrs_keeps (ss : List Str) : Keeps R A loc (fun _ => True) (emitStrs ss : MS C W Unit) :=
  .each fun _ _ => .tell trivial

theorem attrsM_keeps (O : Oracle W) (env : Env) (c m : Str) :
    Keeps R A loc (fun _ => True) (attrsM O env c m : MS C W Unit) := by
  unfold attrsM
  refine Keeps.bind (evalM_keeps O env c) fun v _ => ?_
  split
  · exact .throw _
  · exact emitStrs_keeps _

theorem attrM_keeps (env : Env) (n m : Str) : Keeps R A loc (fun _ => True) (attrM env n m : MS C W Unit) := by
  unfold attrM
  exact .get fun s _ => emitStrs_keeps _

/-- The new scope of a function may be changed. -/
theorem fresh_keeps {b : Dict Val} {up : Option Nat} {k : Nat → MS C W β} {Q : β → Prop}
    (h : ∀ fr, Keeps R A (fun i _ => i = fr) Q (k fr)) : Keeps R A noVar Q (M.bind (newFrame b up) k) := by
  intro s hs
  have h1 := newFrame_keeps (R := R) (A := A) (loc := noVar) b up s hs
  have h3 := h s.frames.length _ h1.1
  have : M.bind (newFrame b up) k s =
      ⟨(k s.frames.length (newFrame b up s).st).out, (k s.frames.length (newFrame b up s).st).st,
        (k s.frames.length (newFrame b up s).st).val⟩ := by
    simp only [M.bind, newFrame]
    congr 1
  rw [this]
  refine ⟨h3.1, ⟨fun i f hf => ?_, fun i x hx => ?_⟩, h3.2.2⟩
  · obtain ⟨g, hg, e1, e2⟩ := h1.2.1.frames i f hf
    obtain ⟨k, hk, e3, e4⟩ := h3.2.1.frames i g hg
    have hi : i < s.frames.length := (List.getElem?_eq_some_iff.1 hf).1
    refine ⟨k, hk, e3.trans e1, fun n hn => (e4 n ?_).trans (e2 n hn)⟩
    intro h
    omega
  · obtain ⟨y, hy, e1⟩ := h1.2.1.insts i x hx
    obtain ⟨z, hz, e2⟩ := h3.2.1.insts i y hy
    exact ⟨z, hz, fun n hn => (e2 n hn).trans (e1 n hn)⟩

theorem collectM_keeps (env : Env) {body : Env → MS C W Unit}
    (h : ∀ env, Keeps R A (here env []) (fun _ => True) (body env)) :
    Keeps R A noVar (fun _ => True) (collectM env body) := by
  unfold collectM
  refine fresh_keeps fun fr => ?_
  refine Keeps.bind (Q := fun _ => True) ?_ fun o _ => modFrame_keeps env (fun _ => rfl) fun _ _ _ => rfl
  exact ((h _).mono (fun i n h => h.1) fun _ h => h).capture

theorem Keeps.reading {m : MS C W Unit} (h : Keeps R A loc (fun _ => True) m) (y : Bool) :
    Keeps R A loc (fun _ => True) (reading y m) := by
  refine h.bind fun _ _ => ?_
  cases y
  · exact .throw _
  · exact .pure trivial

/-- A way to call functions that keeps all variables. -/
def CallKeeps (R : Str → Prop) (A : C → Prop) (call : Mode → Nat → List Val → MS C W Unit) : Prop :=
  ∀ mode f as, Keeps R A noVar (fun _ => True) (call mode f as)

variable {call : Mode → Nat → List Val → MS C W Unit}

theorem splice_keeps {m : Mode → MS C W Unit} (h : ∀ mode, Keeps R A loc (fun _ => True) (m mode)) (mode : Mode) :
    Keeps R A loc (fun _ => True) (splice mode m) := by
  cases mode
  · exact h _
  · exact (h _).bind fun _ _ => .tell trivial
  · exact h _

theorem chunk_keeps (mode : Mode) (v : Val) : Keeps R A loc (fun _ => True) (chunk mode v : MS C W Unit) := by
  unfold chunk
  split
  · exact .tell trivial
  · exact .throw _
  · exact .tell trivial

mutual
theorem emit_keeps (hc : CallKeeps R A call) (mode : Mode) (v : Val) :
    Keeps R A loc (fun _ => True) (emit call mode v) := by
  cases v with
  | none => simp only [emit]; exact .pure trivial
  | flatItems id items =>
    simp only [emit]
    refine splice_keeps (fun mode => Keeps.bind (start_keeps id) fun b _ => ?_) mode
    cases b
    · exact .pure trivial
    · exact emitList_keeps hc mode items
  | flatCall id f as =>
    simp only [emit]
    refine splice_keeps (fun mode => Keeps.bind (start_keeps id) fun b _ => ?_) mode
    cases b
    · exact .pure trivial
    · exact (hc mode f as).any
  | _ => simp only [emit]; exact chunk_keeps _ _

theorem emitList_keeps (hc : CallKeeps R A call) (mode : Mode) (vs : List Val) :
    Keeps R A loc (fun _ => True) (emitList call mode vs) := by
  cases vs with
  | nil => simp only [emitList]; exact .pure trivial
  | cons v vs =>
    simp only [emitList]
    exact (emit_keeps hc mode v).bind fun _ _ => emitList_keeps hc mode vs
end

theorem emitMain_keeps (hc : CallKeeps R A call) (mode : Mode) (i : Nat) :
    Keeps R A loc (fun _ => True) (emitMain call mode i) := by
  unfold emitMain
  exact Keeps.bind (attrFn_keeps i _) fun f _ => splice_keeps (fun mode => (hc mode f []).any) mode

theorem callWith_keeps {O : Oracle W} {run : Env → C → MS C W Unit}
    (hr : ∀ env b, A b → Keeps R A (here env []) (fun _ => True) (run env b)) (hc : CallKeeps R A call) :
    CallKeeps R A (callWith O run call) := by
  intro mode f as
  unfold callWith
  refine .get fun s hs => ?_
  refine Keeps.bind (Q := fun fn => fn ∈ s.fns) (.ofOption fun fn h => List.mem_of_getElem? h) fun fn hfn => ?_
  split
  · next decl body hb =>
    refine Keeps.bind (Q := fun _ => True) ?_ fun vars _ => ?_
    · exact fun s hs => ⟨hs.same rfl rfl rfl, .same rfl rfl, fun _ _ => trivial⟩
    refine fresh_keeps fun fr => ?_
    refine Keeps.bind (getInst_keeps _) fun i _ => ?_
    exact (hr _ body (hs.fns fn hfn decl body hb)).mono (fun i n h => h.1) fun _ h => h
  · refine Keeps.bind (globalInst_keeps _ _) fun p _ => ?_
    exact Keeps.bind (attrFn_keeps _ _) fun g _ => hc mode g as

/-! ## Statements -/

section
variable {O : Oracle W} {P : Prog (List Stmt)} {call : Mode → Nat → List Val → MS (List Stmt) W Unit}

/-- No restriction. -/
abbrev anything : List Stmt → Prop := fun _ => True

theorem condM_keeps (env : Env) (c : Cond) : Keeps R A loc (fun _ => True) (condM O env c : MS C W Bool) := by
  cases c with
  | code e => exact Keeps.bind (evalM_keeps O env e) fun _ _ => .pure trivial
  | case e =>
    refine Keeps.bind (kjInst_keeps env) fun j _ => ?_
    refine Keeps.bind (evalM_keeps O env e) fun v _ => ?_
    unfold caseM
    refine .get fun s _ => ?_
    split
    · exact .throw _
    · exact .pure trivial
  | never => exact .pure trivial

theorem setVars_all (env : Env) (b : Dict Val) :
    Keeps R A (here env []) (fun _ => True) (setVars env b : MS C W Unit) := setVars_keeps env (by simp)

mutual
theorem exec_keeps (hR : ∀ n, R n) (hc : CallKeeps R anything call) (env : Env) (x : Stmt) :
    Keeps R anything (here env []) (fun _ => True) (exec P O call env x) := by
  have hP : ProgSafe R anything P := ⟨fun _ _ _ _ => ⟨hR _, trivial⟩, fun _ _ _ _ _ => hR _, fun _ _ => hR _⟩
  cases x with
  | yieldLit s => simp only [exec]; exact .tell trivial
  | yieldGettext s => simp only [exec]; exact Keeps.bind (gettextM_keeps O env s) fun v _ => emit_keeps hc _ v
  | yieldCode c => simp only [exec]; exact Keeps.bind (evalM_keeps O env c) fun v _ => emit_keeps hc _ v
  | yieldEscape c => simp only [exec]; exact Keeps.bind (evalM_keeps O env c) fun v _ => emit_keeps hc _ _
  | py ls => simp only [exec]; exact Keeps.bind (ask_keeps env _) fun b _ => setVars_all env b
  | importS n a =>
    simp only [exec]; exact Keeps.bind (importM_keeps hP env n a (hR _)) fun _ _ => .pure trivial
  | includeS n =>
    simp only [exec]; exact Keeps.bind (importM_keeps hP env n none (hR _)) fun i _ => emitMain_keeps hc _ i
  | extendS n => simp only [exec]; exact Keeps.bind (extendM_keeps hP env n) fun i _ => emitMain_keeps hc _ i
  | pushWith ns =>
    simp only [exec]
    exact Keeps.bind (kjInst_keeps env) fun j _ => .get fun s _ => modStacks_keeps _ _
  | assign k v => simp only [exec]; exact Keeps.bind (evalM_keeps O env v) fun v _ => setVars_all env _
  | popWith ns =>
    simp only [exec]
    refine Keeps.bind (kjInst_keeps env) fun j _ => Keeps.bind (Q := fun _ => True) ?_ fun vs _ => ?_
    · unfold popWithM
      refine .get fun s _ => ?_
      split
      · exact .throw _
      · exact Keeps.bind (modStacks_keeps _ _) fun _ _ => .pure trivial
    · unfold unpack
      split
      · exact setVars_all env _
      · exact .throw _
  | pushSwitch e =>
    simp only [exec]
    exact Keeps.bind (kjInst_keeps env) fun j _ => Keeps.bind (evalM_keeps O env e) fun v _ => modStacks_keeps _ _
  | popSwitch =>
    simp only [exec]
    refine Keeps.bind (kjInst_keeps env) fun j _ => ?_
    unfold popSwitchM
    refine .get fun s _ => ?_
    split
    · exact .throw _
    · exact modStacks_keeps _ _
  | fdef decl body => simp only [exec]; exact fdefM_keeps env trivial (by simp)
  | collect body =>
    simp only [exec]; exact (collectM_keeps env fun env => (execList_keeps hR hc env body).reading _).any
  | attrS n m els =>
    simp only [exec]; exact Keeps.bind (attrM_keeps env n m) fun _ _ => execList_keeps hR hc env els
  | attrsS c m els =>
    simp only [exec]; exact Keeps.bind (attrsM_keeps O env c m) fun _ _ => execList_keeps hR hc env els
  | forS d body els =>
    simp only [exec]
    refine Keeps.bind (ask_keeps env _) fun bs _ => Keeps.bind (Q := fun _ => True) (.each fun b _ => ?_)
      fun _ _ => execList_keeps hR hc env els
    exact Keeps.bind (setVars_all env b) fun _ _ => execList_keeps hR hc env body
  | ifS c body els =>
    simp only [exec]
    refine Keeps.bind (condM_keeps env c) fun t _ => ?_
    split
    · exact execList_keeps hR hc env body
    · exact execList_keeps hR hc env els

theorem execList_keeps (hR : ∀ n, R n) (hc : CallKeeps R anything call) (env : Env) (xs : List Stmt) :
    Keeps R anything (here env []) (fun _ => True) (execList P O call env xs) := by
  cases xs with
  | nil => simp only [execList]; exact .pure trivial
  | cons x xs =>
    simp only [execList]
    exact Keeps.bind (exec_keeps hR hc env x) fun _ _ => execList_keeps hR hc env xs
end

theorem callN_keeps (hR : ∀ n, R n) (n : Nat) : CallKeeps R anything (callN P O n) := by
  induction n with
  | zero => intro mode f as; unfold callN; exact .throw _
  | succ n ih =>
    intro mode f as
    unfold callN
    exact callWith_keeps (fun env b _ => (execList_keeps hR ih env b).reading _) ih mode f as

end

/-! ## Trees -/

section
variable {O : Oracle W} {P : Prog (List Ir)} {call : Mode → Nat → List Val → MT W Unit}

/-- Imports below the nodes have reserved names. -/
def AliasesIn (R : Str → Prop) (f : Str → Str) (b : List Ir) : Prop := ∀ n ∈ aliasesList f b, R n

theorem test_keeps (env : Env) (e : Str) : Keeps R A loc (fun _ => True) (M.bind (evalM O env e) fun v => M.pure (truthy v) : MS C W Bool) :=
  Keeps.bind (evalM_keeps O env e) fun _ _ => .pure trivial

theorem guarded_keeps (env : Env) (g : Option Str) {m els : MT W Unit} {m' : MT W Unit} {A : List Ir → Prop}
    (h : Keeps R A loc (fun _ => True) m) (h' : Keeps R A loc (fun _ => True) m')
    (he : Keeps R A loc (fun _ => True) els) :
    Keeps R A loc (fun _ => True)
      (match activeGuard g with
        | some g => M.bind (test O env g) fun c => if c then m else els
        | none => m') := by
  split
  · refine Keeps.bind (test_keeps env _) fun c _ => ?_
    split
    · exact h
    · exact he
  · exact h'

mutual
theorem noBind_nil (x : Ir) : NoBind O [] x := by
  cases x with
  | forN d b l => simp only [NoBind]; exact ⟨fun _ _ _ _ _ _ _ _ _ => by simp, noBinds_nil b⟩
  | withN vs b l => simp only [NoBind]; exact ⟨fun _ _ => by simp, noBinds_nil b⟩
  | switchN _ b _ => simp only [NoBind]; exact noBinds_nil b
  | caseN _ b _ => simp only [NoBind]; exact noBinds_nil b
  | ifN _ b _ => simp only [NoBind]; exact noBinds_nil b
  | elseN b _ => simp only [NoBind]; exact noBinds_nil b
  | _ => simp [NoBind]

/-- Nothing binds nothing. -/
theorem noBinds_nil (xs : List Ir) : NoBinds O [] xs := by
  cases xs with
  | nil => simp only [NoBinds]
  | cons x xs => simp only [NoBinds]; exact ⟨noBind_nil x, noBinds_nil xs⟩
end

theorem noBinds_append {ns : List Str} {xs ys : List Ir} :
    NoBinds O ns (xs ++ ys) ↔ NoBinds O ns xs ∧ NoBinds O ns ys := by
  induction xs with
  | nil => simp [NoBinds]
  | cons x xs ih => simp only [List.cons_append, NoBinds, ih, and_assoc]

theorem aliasesList_append {f : Str → Str} {xs ys : List Ir} :
    aliasesList f (xs ++ ys) = aliasesList f xs ++ aliasesList f ys := by
  induction xs with
  | nil => simp [aliasesList]
  | cons x xs ih => simp only [List.cons_append, aliasesList, ih, List.append_assoc]

mutual
theorem sem_keeps (hP : ProgSafe R (AliasesIn R P.aliasFor) P) (hc : CallKeeps R (AliasesIn R P.aliasFor) call)
    (env : Env) (ns : List Str) {els : MT W Unit}
    (he : Keeps R (AliasesIn R P.aliasFor) (here env ns) (fun _ => True) els) (x : Ir)
    (hx : NoBind O ns x) (ha : ∀ n ∈ aliases P.aliasFor x, R n) :
    Keeps R (AliasesIn R P.aliasFor) (here env ns) (fun _ => True) (sem P O call env els x) := by
  cases x with
  | text t g l => simp only [sem]; exact guarded_keeps env g (.tell trivial) (.tell trivial) he
  | trans t l =>
    simp only [sem]
    split
    · exact .tell trivial
    · exact Keeps.bind (gettextM_keeps O env t) fun v _ => emit_keeps hc _ v
  | expr c s l => simp only [sem]; exact Keeps.bind (evalM_keeps O env c) fun v _ => emit_keeps hc _ _
  | attr n m g v l =>
    have h1 : Keeps R (AliasesIn R P.aliasFor) (here env ns) (fun _ => True)
        (collectM env fun env =>
          if v.isEmpty then M.tell (.chunk []) else reading (showsAny v) (semList P O call env v)) := by
      refine (collectM_keeps env fun env => ?_).any
      split
      · exact .tell trivial
      · exact (semList_keeps hP hc env [] v (noBinds_nil v) (by simpa [aliases, AliasesIn] using ha)).reading _
    simp only [sem]
    exact guarded_keeps env g (h1.bind fun _ _ => attrM_keeps env n m)
      (h1.bind fun _ _ => (attrM_keeps env n m).bind fun _ _ => he) he
  | attrs c m g l =>
    simp only [sem]
    exact guarded_keeps env g (attrsM_keeps O env c m) ((attrsM_keeps O env c m).bind fun _ _ => he) he
  | python ls l =>
    simp only [sem]
    split
    · exact .pure trivial
    · refine Keeps.bind (ask_keeps env _) fun b hb => setVars_keeps env ?_
      obtain ⟨v, w, u, hb⟩ := hb
      simp only [NoBind] at hx
      exact hx v w b u hb
  | imp n a l =>
    simp only [sem]
    exact Keeps.bind (importM_keeps hP env n a (ha _ (by simp [aliases]))) fun _ _ => .pure trivial
  | incl n l =>
    simp only [sem]
    exact Keeps.bind (importM_keeps hP env n none (ha _ (by simp [aliases]))) fun i _ => emitMain_keeps hc _ i
  | ext n l => simp only [sem]; exact Keeps.bind (extendM_keeps hP env n) fun i _ => emitMain_keeps hc _ i
  | innerDef d b l =>
    simp only [sem]
    simp only [NoBind] at hx
    exact fdefM_keeps env (by simpa [aliases, AliasesIn] using ha) hx
  | call d c b l =>
    simp only [sem]
    simp only [NoBind] at hx
    exact Keeps.bind (fdefM_keeps env (by simpa [aliases, AliasesIn] using ha) hx) fun _ _ =>
      Keeps.bind (evalM_keeps O env c) fun v _ => emit_keeps hc _ v
  | forN d b l =>
    simp only [sem]
    simp only [NoBind] at hx
    refine Keeps.bind (ask_keeps env _) fun bs hbs => Keeps.bind (Q := fun _ => True) (.each fun x hm => ?_)
      fun _ _ => he
    obtain ⟨v, w, u, hbs⟩ := hbs
    exact Keeps.bind (setVars_keeps env (hx.1 v w bs u hbs x hm)) fun _ _ =>
      semList_keeps hP hc env ns b hx.2 (by simpa [aliases, AliasesIn] using ha)
  | withN vs b l =>
    simp only [sem]
    simp only [NoBind] at hx
    refine Keeps.bind (kjInst_keeps env) fun _ _ => .get fun s _ => ?_
    refine Keeps.bind (Q := fun _ => True) (.each fun kv hkv => ?_) fun _ _ => ?_
    · refine Keeps.bind (evalM_keeps O env _) fun v _ => setVars_keeps env ?_
      intro e he
      simp only [List.mem_singleton] at he
      subst he
      exact hx.1 kv hkv
    refine Keeps.bind (semList_keeps hP hc env ns b hx.2 (by simpa [aliases, AliasesIn] using ha)) fun _ _ =>
      setVars_keeps env fun kv hkv => ?_
    have := (List.of_mem_zip hkv).1
    obtain ⟨e, he, h2⟩ := List.mem_map.1 this
    rw [← h2]
    exact hx.1 e he
  | switchN e b l =>
    simp only [sem]
    simp only [NoBind] at hx
    refine Keeps.bind (kjInst_keeps env) fun _ _ => Keeps.bind (evalM_keeps O env e) fun v _ => ?_
    exact Keeps.bind (semCases_keeps hP hc env ns v b hx (by simpa [aliases, AliasesIn] using ha)) fun _ _ =>
      semList_keeps hP hc env ns b hx (by simpa [aliases, AliasesIn] using ha)
  | caseN e b l => simp only [sem]; exact .pure trivial
  | ifN e b l =>
    simp only [sem]
    simp only [NoBind] at hx
    refine Keeps.bind (test_keeps env e) fun c _ => ?_
    split
    · exact semList_keeps hP hc env ns b hx (by simpa [aliases, AliasesIn] using ha)
    · exact he
  | elseN b l => simp only [sem]; exact .pure trivial
  | pass l => simp only [sem]; exact .tell trivial

theorem semList_keeps (hP : ProgSafe R (AliasesIn R P.aliasFor) P)
    (hc : CallKeeps R (AliasesIn R P.aliasFor) call) (env : Env) (ns : List Str) (xs : List Ir)
    (hx : NoBinds O ns xs) (ha : AliasesIn R P.aliasFor xs) :
    Keeps R (AliasesIn R P.aliasFor) (here env ns) (fun _ => True) (semList P O call env xs) := by
  cases xs with
  | nil => simp only [semList]; exact .pure trivial
  | cons x xs =>
    simp only [NoBinds] at hx
    have h1 : AliasesIn R P.aliasFor xs := fun n hn => ha n (by simp [aliasesList, hn])
    simp only [semList]
    exact Keeps.bind (sem_keeps hP hc env ns (semElse_keeps hP hc env ns xs hx.2 h1) x hx.1
      fun n hn => ha n (by simp [aliasesList, hn])) fun _ _ => semList_keeps hP hc env ns xs hx.2 h1

theorem semElse_keeps (hP : ProgSafe R (AliasesIn R P.aliasFor) P)
    (hc : CallKeeps R (AliasesIn R P.aliasFor) call) (env : Env) (ns : List Str) (xs : List Ir)
    (hx : NoBinds O ns xs) (ha : AliasesIn R P.aliasFor xs) :
    Keeps R (AliasesIn R P.aliasFor) (here env ns) (fun _ => True) (semElse P O call env xs) := by
  cases xs with
  | nil => simp only [semElse]; exact .pure trivial
  | cons x xs =>
    simp only [NoBinds] at hx
    have h1 : AliasesIn R P.aliasFor xs := fun n hn => ha n (by simp [aliasesList, hn])
    cases x with
    | elseN b l =>
      simp only [semElse]
      simp only [NoBind] at hx
      exact semList_keeps hP hc env ns b hx.1 fun n hn => ha n (by simp [aliasesList, aliases, hn])
    | python ls l =>
      cases ls with
      | nil => simp only [semElse]; exact semElse_keeps hP hc env ns xs hx.2 h1
      | cons a as => simp only [semElse]; exact .pure trivial
    | _ => simp only [semElse]; exact .pure trivial

theorem semCases_keeps (hP : ProgSafe R (AliasesIn R P.aliasFor) P)
    (hc : CallKeeps R (AliasesIn R P.aliasFor) call) (env : Env) (ns : List Str) (v : Val) (xs : List Ir)
    (hx : NoBinds O ns xs) (ha : AliasesIn R P.aliasFor xs) :
    Keeps R (AliasesIn R P.aliasFor) (here env ns) (fun _ => True) (semCases P O call env v xs) := by
  cases xs with
  | nil => simp only [semCases]; exact .pure trivial
  | cons x xs =>
    simp only [NoBinds] at hx
    have h1 : AliasesIn R P.aliasFor xs := fun n hn => ha n (by simp [aliasesList, hn])
    cases x with
    | elseN b l =>
      simp only [semCases]
      simp only [NoBind] at hx
      exact semList_keeps hP hc env ns b hx.1 fun n hn => ha n (by simp [aliasesList, aliases, hn])
    | caseN e b l =>
      simp only [semCases]
      simp only [NoBind] at hx
      refine Keeps.bind (evalM_keeps O env e) fun u _ => ?_
      split
      · exact semList_keeps hP hc env ns b hx.1 fun n hn => ha n (by simp [aliasesList, aliases, hn])
      · exact semCases_keeps hP hc env ns v xs hx.2 h1
    | python ls l =>
      cases ls with
      | nil => simp only [semCases]; exact semCases_keeps hP hc env ns v xs hx.2 h1
      | cons a as => simp only [semCases]; exact .pure trivial
    | _ => simp only [semCases]; exact .pure trivial
end

theorem semCall_keeps (hP : ProgSafe R (AliasesIn R P.aliasFor) P) (n : Nat) :
    CallKeeps R (AliasesIn R P.aliasFor) (semCall P O n) := by
  induction n with
  | zero => intro mode f as; unfold semCall; exact .throw _
  | succ n ih =>
    intro mode f as
    unfold semCall
    refine callWith_keeps (fun env b hb => ?_) ih mode f as
    unfold semBody
    split
    · exact .tell trivial
    · exact (semList_keeps hP ih env [] b (noBinds_nil b) hb).reading _

end

/-! ## Looking up names -/

theorem scopes_fuel {fs : List Frame}
    (h : ∀ (i : Nat) (f : Frame) (j : Nat), fs[i]? = some f → f.up = some j → j < i) :
    ∀ (i n m : Nat), i < n → i < m → scopes fs n (some i) = scopes fs m (some i) := by
  intro i
  induction i using Nat.strongRecOn with
  | ind i ih =>
    intro n m hn hm
    obtain ⟨n, rfl⟩ : ∃ k, n = k + 1 := ⟨n - 1, by omega⟩
    obtain ⟨m, rfl⟩ : ∃ k, m = k + 1 := ⟨m - 1, by omega⟩
    simp only [scopes]
    cases hf : fs[i]? with
    | none => rfl
    | some f =>
      dsimp only
      congr 1
      cases hu : f.up with
      | none =>
        have : ∀ n, scopes fs n none = [] := by intro n; cases n <;> rfl
        rw [this, this]
      | some j =>
        have hj := h i f j hf hu
        exact ih j hj n m (by omega) (by omega)

/-- The innermost value of a name is the same if every scope has the same value. -/
theorem scopes_lookup {fs gs : List Frame} {n : Str}
    (hu : ∀ (i : Nat) (f : Frame) (j : Nat), fs[i]? = some f → f.up = some j → j < i)
    (h : ∀ (i : Nat) (f : Frame), fs[i]? = some f → ∃ g : Frame, gs[i]? = some g ∧ g.up = f.up ∧
      g.vars.get n = f.vars.get n) :
    ∀ (k i : Nat), i < fs.length →
      ((scopes gs k (some i)).findSome? fun d => d.get n) = (scopes fs k (some i)).findSome? fun d => d.get n := by
  intro k
  induction k with
  | zero => intro i _; rfl
  | succ k ih =>
    intro i hi
    obtain ⟨f, hf⟩ : ∃ f, fs[i]? = some f := ⟨fs[i], List.getElem?_eq_getElem hi⟩
    obtain ⟨g, hg, e1, e2⟩ := h i f hf
    simp only [scopes, hf, hg, List.findSome?_cons, e2, e1]
    split
    · rfl
    · cases hj : f.up with
      | none =>
        have : ∀ fs n, scopes fs n none = [] := by intro fs n; cases n <;> rfl
        rw [this, this]
      | some j => exact ih j (by have := hu i f j hf hj; omega)

/-- The scope and instance of an environment exist. -/
def EnvOk (env : Env) (s : Store C W) : Prop := env.frame < s.frames.length ∧ env.inst < s.insts.length

theorem EnvOk.keep {env : Env} {s t : Store C W} (h : EnvOk env s) (hk : Keep R loc s t) : EnvOk env t := by
  obtain ⟨g, hg, _⟩ := hk.frames _ _ (List.getElem?_eq_getElem h.1)
  obtain ⟨y, hy, _⟩ := hk.insts _ _ (List.getElem?_eq_getElem h.2)
  exact ⟨(List.getElem?_eq_some_iff.1 hg).1, (List.getElem?_eq_some_iff.1 hy).1⟩

theorem Keep.frames_le {s t : Store C W} (h : Keep R loc s t) : s.frames.length ≤ t.frames.length := by
  by_contra hlt
  have : t.frames.length < s.frames.length := by omega
  obtain ⟨g, hg, _⟩ := h.frames _ _ (List.getElem?_eq_getElem this)
  have := (List.getElem?_eq_some_iff.1 hg).1
  omega

/-- Names that are kept have the same value. -/
theorem Keep.lookup {env : Env} {ns : List Str} {s t : Store C W} (h : Keep R (here env ns) s t)
    (hs : Safe R A s) (ht : Safe R A t) (he : EnvOk env s) {n : Str} (hn : n ∈ ns) (hr : ¬ R n) :
    lookup (view env t) n = lookup (view env s) n := by
  unfold Kajiki.Spec.Scope.lookup view
  dsimp only
  have hle := h.frames_le
  rw [scopes_fuel ht.ups env.frame t.frames.length s.frames.length (by have := he.1; omega) he.1]
  rw [scopes_lookup (n := n) hs.ups (fun i f hf => ?_) s.frames.length env.frame he.1]
  · split
    · rfl
    · obtain ⟨y, hy, e⟩ := h.insts _ _ (List.getElem?_eq_getElem he.2)
      rw [hy, List.getElem?_eq_getElem he.2]
      exact e n hr
  · obtain ⟨g, hg, e1, e2⟩ := h.frames i f hf
    exact ⟨g, hg, e1, e2 n fun h => h.2 hn⟩

end Kajiki.Scope
