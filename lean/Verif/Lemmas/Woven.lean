import Verif.Spec.Woven
import Verif.Lemmas.Dict

/-!
# Where what is shown comes from: proof of C78
-/

namespace Kajiki.Woven
open Kajiki.Run Kajiki.Spec Kajiki.Spec.Woven

/-! ## Pieces -/

section
variable {own : Str → Prop}

theorem woven_nil : Woven own [] := ⟨[], rfl, fun _ h => nomatch h⟩

theorem woven_append {a b : Str} (ha : Woven own a) (hb : Woven own b) : Woven own (a ++ b) := by
  obtain ⟨ps, rfl, hp⟩ := ha
  obtain ⟨qs, rfl, hq⟩ := hb
  exact ⟨ps ++ qs, by simp, fun p h => (List.mem_append.1 h).elim (hp p) (hq p)⟩

theorem woven_own {a : Str} (h : own a) : Woven own a := ⟨[a], by simp, fun p hp => .inl (by rw [List.mem_singleton.1 hp]; exact h)⟩

theorem woven_inert {a : Str} (h : Inert a) : Woven own a := ⟨[a], by simp, fun p hp => .inr (by rw [List.mem_singleton.1 hp]; exact h)⟩

theorem woven_flatten : ∀ {l : List Str}, (∀ a ∈ l, Woven own a) → Woven own l.flatten
  | [], _ => woven_nil
  | _ :: _, h => woven_append (h _ (.head _)) (woven_flatten fun a ha => h a (.tail _ ha))

end

/-! ## Programs -/

/-- The statements consist of parts that are `K`. -/
def Within (K : Item → Prop) (inAttr : Bool) (b : List Stmt) : Prop := ∀ i ∈ itemsAll inAttr b, K i

/-- Of one statement. -/
def Within₁ (K : Item → Prop) (inAttr : Bool) (x : Stmt) : Prop := ∀ i ∈ items inAttr x, K i

variable {K : Item → Prop} {a : Bool}

theorem Within.head {x : Stmt} {xs : List Stmt} (h : Within K a (x :: xs)) : Within₁ K a x := fun i hi =>
  h i (by unfold itemsAll; exact List.mem_append_left _ hi)

theorem Within.tail {x : Stmt} {xs : List Stmt} (h : Within K a (x :: xs)) : Within K a xs := fun i hi =>
  h i (by unfold itemsAll; exact List.mem_append_right _ hi)

theorem Within₁.fdef {d : Str} {b : List Stmt} (h : Within₁ K a (.fdef d b)) : K (.decl d) ∧ Within K false b :=
  ⟨h _ (by unfold items; exact .head _), fun i hi => h i (by unfold items; exact .tail _ hi)⟩

theorem Within₁.collect {b : List Stmt} (h : Within₁ K a (.collect b)) : Within K true b := fun i hi =>
  h i (by unfold items; exact hi)

theorem Within₁.attrS {n m : Str} {b : List Stmt} (h : Within₁ K a (.attrS n m b)) : K (.text n) ∧ Within K a b :=
  ⟨h _ (by unfold items; exact .head _), fun i hi => h i (by unfold items; exact .tail _ hi)⟩

theorem Within₁.attrsS {n m : Str} {b : List Stmt} (h : Within₁ K a (.attrsS n m b)) : K (.mapping n) ∧ Within K a b :=
  ⟨h _ (by unfold items; exact .head _), fun i hi => h i (by unfold items; exact .tail _ hi)⟩

theorem Within₁.forS {d : Str} {b e : List Stmt} (h : Within₁ K a (.forS d b e)) : K (.loop d) ∧ Within K a b ∧ Within K a e :=
  ⟨h _ (by unfold items; exact .head _), fun i hi => h i (by unfold items; exact .tail _ (List.mem_append_left _ hi)),
    fun i hi => h i (by unfold items; exact .tail _ (List.mem_append_right _ hi))⟩

theorem Within₁.ifS {d : Cond} {b e : List Stmt} (h : Within₁ K a (.ifS d b e)) : Within K a b ∧ Within K a e :=
  ⟨fun i hi => h i (by unfold items; exact List.mem_append_left _ hi),
    fun i hi => h i (by unfold items; exact List.mem_append_right _ hi)⟩

/-! ## Dictionaries -/

theorem _root_.Kajiki.Spec.Woven.CleanDict.nil : CleanDict [] := nofun

theorem _root_.Kajiki.Spec.Woven.CleanDict.set {d : Dict Val} (h : CleanDict d) (k : Str) {v : Val} (hv : Clean v) : CleanDict (d.set k v) := by
  intro kv hkv
  rcases Dict.mem_set hkv with rfl | hkv
  · exact hv
  · exact h kv hkv

theorem _root_.Kajiki.Spec.Woven.CleanDict.update {d e : Dict Val} (h : CleanDict d) (he : CleanDict e) : CleanDict (Dict.update d e) := by
  unfold Dict.update
  induction e generalizing d with
  | nil => exact h
  | cons x e ih => exact ih (h.set _ (he x (.head _))) fun kv hkv => he kv (.tail _ hkv)

theorem _root_.Kajiki.Spec.Woven.CleanDict.filter {d : Dict Val} (h : CleanDict d) (p : Str × Val → Bool) : CleanDict (d.filter p) := fun kv hkv =>
  h kv ((List.mem_filter.1 hkv).1)

theorem _root_.Kajiki.Spec.Woven.CleanDict.get {d : Dict Val} (h : CleanDict d) {k : Str} {v : Val} (hv : d.get k = some v) : Clean v :=
  h _ (Dict.get_eq_some_mem hv)

theorem _root_.Kajiki.Spec.Woven.CleanDict.getD {d : Dict Val} (h : CleanDict d) (k : Str) {v : Val} (hv : Clean v) : Clean ((d.get k).getD v) := by
  cases hg : d.get k with
  | none => exact hv
  | some x => exact h.get hg

theorem clean_methods : ∀ {C : Type} (n : Nat) (ms : List (Str × Str × C)), CleanDict (methodDict n ms)
  | _, _, [] => .nil
  | _, n, m :: ms => by
    intro kv hkv
    unfold methodDict at hkv
    rcases List.mem_cons.1 hkv with rfl | hkv
    · exact .fn _
    · exact clean_methods (n + 1) ms kv hkv

theorem clean_tramps : ∀ (n : Nat) (ks : List Str), CleanDict (trampDict n ks)
  | _, [] => .nil
  | n, k :: ks => by
    intro kv hkv
    unfold trampDict at hkv
    rcases List.mem_cons.1 hkv with rfl | hkv
    · exact .fn _
    · exact clean_tramps (n + 1) ks kv hkv

theorem clean_builtins : CleanDict builtins := by
  intro kv hkv
  simp only [builtins, List.mem_cons, List.not_mem_nil, or_false] at hkv
  rcases hkv with rfl | rfl | rfl | rfl | rfl | rfl <;> exact .obj _ _ _

theorem clean_globals (i : Nat) {base ms context : Dict Val} (hb : CleanDict base) (hm : CleanDict ms)
    (hc : CleanDict context) : CleanDict (newGlobals i base ms context) := by
  have h0 : CleanDict [("local".toList, .inst i), ("self".toList, .inst i)] := by
    intro kv hkv
    simp only [List.mem_cons, List.not_mem_nil, or_false] at hkv
    rcases hkv with rfl | rfl <;> exact .inst _
  have h1 := (((h0.update clean_builtins).update hb).update hm).update hc
  exact (h1.set _ (h1.getD _ .none)).set _ (.meth _ _)

/-! ## Computations -/

section
variable {W α β : Type} {own : Str → Prop}

/-- The code of all functions is from the templates, and nothing in the store is markup. -/
structure Good (K : Item → Prop) (s : Store (List Stmt) W) : Prop where
  fns : ∀ f ∈ s.fns, ∀ d b, f.body = .code d b → K (.decl d) ∧ Within K false b
  frames : ∀ f ∈ s.frames, CleanDict f.vars
  insts : ∀ i ∈ s.insts, CleanDict i.context ∧ CleanDict i.globals ∧ CleanDict i.attrs
  stacks : ∀ j, ∀ vs ∈ (s.stacks j).wi, ∀ v ∈ vs, Clean v

/-- A computation keeps it so; and if it is not in an attribute, what it shows is woven. -/
def Fine (K : Item → Prop) (own : Str → Prop) (a : Bool) (m : MS (List Stmt) W α) : Prop :=
  ∀ s, Good K s → Good K (m s).st ∧ (a = false → Woven own (m s).out.txt)

/-- It keeps it so and shows nothing. -/
def Silent (K : Item → Prop) (m : MS (List Stmt) W α) : Prop := ∀ s, Good K s → Good K (m s).st ∧ (m s).out.txt = []

theorem Silent.fine {m : MS (List Stmt) W α} (h : Silent K m) : Fine K own a m := fun s hs =>
  ⟨(h s hs).1, fun _ => by rw [(h s hs).2]; exact woven_nil⟩

/-- What is known of the value. -/
def Gives (K : Item → Prop) (m : MS (List Stmt) W α) (p : α → Prop) : Prop := ∀ s, Good K s → ∀ v, (m s).val = .ok v → p v

theorem Fine.bindWith {m : MS (List Stmt) W α} {p : α → Prop} (h : Fine K own a m) (hp : Gives K m p) {f : α → MS (List Stmt) W β}
    (hf : ∀ x, p x → Fine K own a (f x)) : Fine K own a (M.bind m f) := by
  intro s hs
  obtain ⟨h1, h2⟩ := h s hs
  unfold M.bind
  dsimp only
  cases hv : (m s).val with
  | error e => exact ⟨h1, h2⟩
  | ok x =>
    obtain ⟨h3, h4⟩ := hf x (hp s hs x hv) _ h1
    exact ⟨h3, fun h => woven_append (h2 h) (h4 h)⟩

theorem Fine.bind {m : MS (List Stmt) W α} (h : Fine K own a m) {f : α → MS (List Stmt) W β} (hf : ∀ x, Fine K own a (f x)) :
    Fine K own a (M.bind m f) :=
  h.bindWith (p := fun _ => True) (fun _ _ _ _ => trivial) fun x _ => hf x

theorem Silent.then {m : MS (List Stmt) W α} (h : Silent K m) {f : α → MS (List Stmt) W β} (hf : ∀ x, Fine K own a (f x)) :
    Fine K own a (M.bind m f) := h.fine.bind hf

theorem Silent.thenWith {m : MS (List Stmt) W α} {p : α → Prop} (h : Silent K m) (hp : Gives K m p) {f : α → MS (List Stmt) W β}
    (hf : ∀ x, p x → Fine K own a (f x)) : Fine K own a (M.bind m f) := h.fine.bindWith hp hf

theorem Silent.bindWith {m : MS (List Stmt) W α} {p : α → Prop} (h : Silent K m) (hp : Gives K m p) {f : α → MS (List Stmt) W β}
    (hf : ∀ x, p x → Silent K (f x)) : Silent K (M.bind m f) := by
  intro s hs
  obtain ⟨h1, h2⟩ := h s hs
  unfold M.bind
  dsimp only
  cases hv : (m s).val with
  | error e => exact ⟨h1, h2⟩
  | ok x =>
    obtain ⟨h3, h4⟩ := hf x (hp s hs x hv) _ h1
    exact ⟨h3, by change (m s).out.txt ++ _ = []; rw [h2, h4]; rfl⟩

theorem Silent.bind {m : MS (List Stmt) W α} (h : Silent K m) {f : α → MS (List Stmt) W β} (hf : ∀ x, Silent K (f x)) :
    Silent K (M.bind m f) :=
  h.bindWith (p := fun _ => True) (fun _ _ _ _ => trivial) fun x _ => hf x

theorem Gives.bind {m : MS (List Stmt) W α} {f : α → MS (List Stmt) W β} {p : α → Prop} {q : β → Prop} (h : Silent K m)
    (hp : Gives K m p) (hf : ∀ x, p x → Gives K (f x) q) : Gives K (M.bind m f) q := by
  intro s hs v hv
  unfold M.bind at hv
  dsimp only at hv
  cases hm : (m s).val with
  | error e => rw [hm] at hv; cases hv
  | ok x =>
    rw [hm] at hv
    exact hf x (hp s hs x hm) _ (h s hs).1 v hv

theorem Gives.any {m : MS (List Stmt) W α} : Gives K m fun _ => True := fun _ _ _ _ => trivial

theorem Fine.each {γ : Type} {f : γ → MS (List Stmt) W Unit} : ∀ {l : List γ} (_ : ∀ x ∈ l, Fine K own a (f x)),
    Fine K own a (M.each f l)
  | [], _ => Silent.fine fun _ hs => ⟨hs, rfl⟩
  | x :: _, h => (h x (.head _)).bind fun _ => Fine.each fun y hy => h y (.tail _ hy)

theorem Fine.loosen {m : MS (List Stmt) W α} (h : Fine K own false m) : Fine K own a m := fun s hs =>
  ⟨(h s hs).1, fun _ => (h s hs).2 rfl⟩

theorem fine_tell {o : Out} (h : Woven own o.txt) : Fine K own a (M.tell o : MS (List Stmt) W Unit) := fun _ hs => ⟨hs, fun _ => h⟩

theorem Fine.capture {m : MS (List Stmt) W Unit} (h : Fine K own true m) : Fine K own a (M.capture m) := by
  intro s hs
  have h1 := (h s hs).1
  unfold M.capture
  dsimp only
  cases (m s).val with
  | error e => exact ⟨h1, fun _ => woven_nil⟩
  | ok x => exact ⟨h1, fun _ => woven_nil⟩

theorem silent_pure (x : α) : Silent K (M.pure x : MS (List Stmt) W α) := fun _ hs => ⟨hs, rfl⟩

theorem silent_throw (e : Err) : Silent K (M.throw e : MS (List Stmt) W α) := fun _ hs => ⟨hs, rfl⟩

theorem silent_get : Silent K (M.get : MS (List Stmt) W (Store (List Stmt) W)) := fun _ hs => ⟨hs, rfl⟩

theorem gives_get : Gives K (M.get : MS (List Stmt) W (Store (List Stmt) W)) (Good K) := fun s hs v hv => by
  cases hv; exact hs

theorem silent_ofOption (e : Err) (o : Option α) : Silent K (M.ofOption e o : MS (List Stmt) W α) := by
  cases o <;> exact fun _ hs => ⟨hs, rfl⟩

theorem silent_kj (env : Env) : Silent K (kjInst env : MS (List Stmt) W Nat) := silent_ofOption _ _

theorem mem_modify {γ : Type} {l : List γ} {i : Nat} {f : γ → γ} {x : γ} (h : x ∈ l.modify i f) : x ∈ l ∨ ∃ y ∈ l, x = f y := by
  induction l generalizing i with
  | nil => simp at h
  | cons y l ih =>
    cases i with
    | zero =>
      simp only [List.modify_zero_cons] at h
      rcases List.mem_cons.1 h with rfl | h
      · exact .inr ⟨y, .head _, rfl⟩
      · exact .inl (.tail _ h)
    | succ i =>
      simp only [List.modify_succ_cons] at h
      rcases List.mem_cons.1 h with rfl | h
      · exact .inl (.head _)
      · rcases ih h with h | ⟨z, hz, h⟩
        · exact .inl (.tail _ h)
        · exact .inr ⟨z, .tail _ hz, h⟩

theorem silent_modFrame (env : Env) {f : Frame → Frame} (hf : ∀ x, CleanDict x.vars → CleanDict (f x).vars) :
    Silent K (modFrame env f : MS (List Stmt) W Unit) := fun s hs =>
  ⟨⟨hs.fns, fun x hx => by
      rcases mem_modify hx with hx | ⟨y, hy, rfl⟩
      · exact hs.frames x hx
      · exact hf y (hs.frames y hy), hs.insts, hs.stacks⟩, rfl⟩

theorem silent_setVars (env : Env) {b : Dict Val} (hb : CleanDict b) : Silent K (setVars env b : MS (List Stmt) W Unit) :=
  silent_modFrame env fun _ hx => CleanDict.update hx hb

theorem silent_modInst (i : Nat) {f : Inst → Inst}
    (hf : ∀ x : Inst, CleanDict x.context ∧ CleanDict x.globals ∧ CleanDict x.attrs →
      CleanDict (f x).context ∧ CleanDict (f x).globals ∧ CleanDict (f x).attrs) :
    Silent K (modInst i f : MS (List Stmt) W Unit) := fun s hs =>
  ⟨⟨hs.fns, hs.frames, fun x hx => by
      rcases mem_modify hx with hx | ⟨y, hy, rfl⟩
      · exact hs.insts x hx
      · exact hf y (hs.insts y hy), hs.stacks⟩, rfl⟩

theorem silent_modStacks (j : Nat) {f : Stacks → Stacks}
    (hf : ∀ k : Stacks, (∀ vs ∈ k.wi, ∀ v ∈ vs, Clean v) → ∀ vs ∈ (f k).wi, ∀ v ∈ vs, Clean v) :
    Silent K (modStacks j f : MS (List Stmt) W Unit) := fun s hs =>
  ⟨⟨hs.fns, hs.frames, hs.insts, fun i => by
      change ∀ vs ∈ (if i = j then f (s.stacks i) else s.stacks i).wi, _
      split
      · exact hf _ (hs.stacks i)
      · exact hs.stacks i⟩, rfl⟩

theorem silent_newFrame {b : Dict Val} (hb : CleanDict b) (u : Option Nat) : Silent K (newFrame b u : MS (List Stmt) W Nat) :=
  fun s hs => ⟨⟨hs.fns, fun x hx => by
      rcases List.mem_append.1 hx with hx | hx
      · exact hs.frames x hx
      · rw [List.mem_singleton.1 hx]; exact hb, hs.insts, hs.stacks⟩, rfl⟩

theorem silent_newFn {f : Fn (List Stmt)} (hf : ∀ d b, f.body = .code d b → K (.decl d) ∧ Within K false b) :
    Silent K (newFn f : MS (List Stmt) W Nat) := fun s hs =>
  ⟨⟨fun x hx => by
      rcases List.mem_append.1 hx with hx | hx
      · exact hs.fns x hx
      · rw [List.mem_singleton.1 hx]; exact hf, hs.frames, hs.insts, hs.stacks⟩, rfl⟩

theorem silent_start (id : Nat) : Silent K (start id : MS (List Stmt) W Bool) := by
  intro s hs
  unfold start
  split
  · exact ⟨hs, rfl⟩
  · exact ⟨⟨hs.fns, hs.frames, hs.insts, hs.stacks⟩, rfl⟩

theorem silent_getInst (i : Nat) : Silent K (getInst i : MS (List Stmt) W Inst) := by
  intro s hs
  unfold getInst
  split <;> exact ⟨hs, rfl⟩

theorem gives_getInst (i : Nat) : Gives K (getInst i : MS (List Stmt) W Inst) fun x =>
    CleanDict x.context ∧ CleanDict x.globals ∧ CleanDict x.attrs := by
  intro s hs v hv
  unfold getInst at hv
  cases hi : s.insts[i]? with
  | none => simp [hi] at hv
  | some x =>
    simp only [hi, Except.ok.injEq] at hv
    subst hv
    exact hs.insts x (List.mem_of_getElem? hi)

theorem silent_ask {env : Env} (f : View → W → Except Err α × W) : Silent K (ask env f : MS (List Stmt) W α) := fun _ hs =>
  ⟨⟨hs.fns, hs.frames, hs.insts, hs.stacks⟩, rfl⟩

theorem clean_scopes {fs : List Frame} (h : ∀ f ∈ fs, CleanDict f.vars) : ∀ (n : Nat) (i : Option Nat), ∀ d ∈ scopes fs n i, CleanDict d
  | 0, _, d, hd => by unfold scopes at hd; cases hd
  | _ + 1, none, d, hd => by unfold scopes at hd; cases hd
  | n + 1, some i, d, hd => by
    unfold scopes at hd
    cases hi : fs[i]? with
    | none => rw [hi] at hd; cases hd
    | some f =>
      rw [hi] at hd
      rcases List.mem_cons.1 hd with rfl | hd
      · exact h f (List.mem_of_getElem? hi)
      · exact clean_scopes h n _ d hd

theorem Good.view {s : Store (List Stmt) W} (h : Good K s) (env : Env) : CleanView (Run.view env s) :=
  ⟨clean_scopes h.frames _ _, h.insts⟩

theorem gives_ask {env : Env} {f : View → W → Except Err α × W} {p : α → Prop}
    (h : ∀ v w x, CleanView v → (f v w).1 = .ok x → p x) : Gives K (ask env f : MS (List Stmt) W α) p := fun s hs v hv =>
  h (Run.view env s) s.world v (hs.view env) hv

theorem silent_globalInst (env : Env) (k : Str) : Silent K (globalInst env k : MS (List Stmt) W Nat) :=
  (silent_getInst _).bind fun i => by split <;> exact fun _ hs => ⟨hs, rfl⟩

theorem silent_attrFn (i : Nat) (k : Str) : Silent K (attrFn i k : MS (List Stmt) W Nat) :=
  (silent_getInst _).bind fun i => by split <;> exact fun _ hs => ⟨hs, rfl⟩

theorem silent_popSwitch (j : Nat) : Silent K (popSwitchM j : MS (List Stmt) W Unit) :=
  silent_get.bind fun s => by
    split
    · exact silent_throw _
    · exact silent_modStacks _ fun _ h => h

theorem silent_case (j : Nat) (v : Val) : Silent K (caseM j v : MS (List Stmt) W Bool) :=
  silent_get.bind fun s => by split <;> exact fun _ hs => ⟨hs, rfl⟩

theorem silent_popWith (j : Nat) : Silent K (popWithM j : MS (List Stmt) W (List Val)) :=
  silent_get.bindWith gives_get fun s hs => by
    split
    · exact silent_throw _
    · next top wi hw =>
      have := hs.stacks j
      rw [hw] at this
      exact (silent_modStacks _ fun _ _ vs hvs => this vs (.tail _ hvs)).bind fun _ => silent_pure _

theorem gives_popWith (j : Nat) : Gives K (popWithM j : MS (List Stmt) W (List Val)) fun vs => ∀ v ∈ vs, Clean v := by
  refine Gives.bind silent_get gives_get fun s hs => ?_
  split
  · intro s hs v hv; cases hv
  · next top wi hw =>
    have := hs.stacks j
    rw [hw] at this
    refine Gives.bind (silent_modStacks _ fun _ _ vs hvs => this vs (.tail _ hvs)) Gives.any fun _ _ s hs v hv => ?_
    cases hv
    exact this _ (.head _)

theorem silent_unpack (env : Env) (ns : List Str) {vs : List Val} (hv : ∀ v ∈ vs, Clean v) :
    Silent K (unpack env ns vs : MS (List Stmt) W Unit) := by
  unfold unpack
  split
  · refine silent_setVars _ fun kv hkv => hv _ ?_
    exact (List.of_mem_zip hkv).2
  · exact silent_throw _

theorem silent_gettext (O : Oracle W) (env : Env) (t : Str) : Silent K (gettextM O env t : MS (List Stmt) W Val) :=
  (silent_kj _).bind fun _ => (silent_getInst _).bind fun _ => (silent_ofOption _ _).bind fun _ => silent_ask _

theorem silent_cond (O : Oracle W) (env : Env) (c : Cond) : Silent K (condM O env c : MS (List Stmt) W Bool) := by
  cases c with
  | code e => exact (silent_ask _).bind fun _ => silent_pure _
  | case e => exact (silent_kj _).bind fun _ => (silent_ask _).bind fun _ => silent_case _ _
  | never => exact silent_pure _

theorem gives_gettext {O : Oracle W} {env : Env} {t : Str} {p : Val → Prop} (h : ∀ g w x, (O.gettext g t w).1 = .ok x → p x) :
    Gives K (gettextM O env t : MS (List Stmt) W Val) p :=
  Gives.bind (silent_kj _) Gives.any fun _ _ => Gives.bind (silent_getInst _) Gives.any fun _ _ =>
    Gives.bind (silent_ofOption _ _) Gives.any fun g _ => gives_ask fun _ w x _ hx => h g w x hx

theorem Fine.splice {m : Mode → MS (List Stmt) W Unit} (h : ∀ mode, Fine K own a (m mode)) (mode : Mode) :
    Fine K own a (Run.splice mode m) := by
  cases mode with
  | stream => exact h _
  | strict => exact h _
  | collect => exact (h _).bind fun _ => fine_tell woven_nil

theorem Fine.reading {m : MS (List Stmt) W Unit} (h : Fine K own a m) (y : Bool) : Fine K own a (Run.reading y m) :=
  h.bind fun _ => by split <;> exact Silent.fine fun _ hs => ⟨hs, rfl⟩

variable {call : Mode → Nat → List Val → MS (List Stmt) W Unit}
  (h : ∀ mode f as, (∀ v ∈ as, Clean v) → Fine K own false (call mode f as))
include h

omit h in
theorem keeps_chunk (mode : Mode) (v : Val) : Fine K own true (chunk mode v : MS (List Stmt) W Unit) := by
  unfold chunk
  split <;> exact fun _ hs => ⟨hs, fun e => nomatch e⟩

theorem emit_calls (mode : Mode) {v : Val} (hc : Clean v) (hv : calls v = true) : Fine K own a (emit call mode v) := by
  cases v with
  | none => unfold emit; exact (silent_pure _).fine
  | flatCall id f as =>
    unfold emit
    refine Fine.splice (fun mode => (silent_start _).then fun fresh => ?_) mode
    split
    · cases hc with
      | flatCall _ _ _ ha => exact (h mode f as ha).loosen
    · exact (silent_pure _).fine
  | _ => cases hv

theorem keeps_emit (mode : Mode) {v : Val} (hc : Clean v) : Fine K own true (emit call mode v) := by
  by_cases hv : calls v = true
  · exact emit_calls h mode hc hv
  · cases hc <;> first | exact absurd rfl hv | (unfold emit; exact keeps_chunk _ _)

omit h in
theorem emit_str (mode : Mode) {t : Str} (ht : Woven own t) : Fine K own a (emit call mode (.str t)) := by
  unfold emit
  cases mode <;> exact fine_tell ht

theorem emit_escape (mode : Mode) {v : Val} (hc : Clean v) : Fine K own a (emit call mode (escape v)) := by
  by_cases hv : calls v = true
  · have : escape v = v := by cases v <;> first | rfl | cases hv
    rw [this]
    exact emit_calls h mode hc hv
  · have : escape v = .str (escapeStr (toStr v)) := by
      cases hc <;> first | rfl | exact absurd rfl hv
    rw [this]
    exact emit_str mode (woven_inert (Props.inert_escapeStr _))

theorem emitMain_fine (mode : Mode) (i : Nat) : Fine K own a (emitMain call mode i) :=
  (silent_attrFn _ _).then fun f => Fine.splice (fun mode => (h mode f [] nofun).loosen) mode

end

/-! ## Attributes -/

/-- What is the templates' own. -/
structure Owns (K : Item → Prop) (tr : Str → Str) (own : Str → Prop) : Prop where
  texts : ∀ t, K (.text t) → own t
  msgs : ∀ m, K (.message m) → own (tr m)
  quotes : ∀ t ∈ [" ".toList, "=\"".toList, "\"".toList], own t

section
variable {own : Str → Prop} {tr : Str → Str} (hown : Owns K tr own)
include hown

theorem renderAttr_woven (mode : Str) (k : Str) (v : Val) (hk : Woven own k) (hv : v = .none ∨ ¬Exempt v) :
    ∀ t ∈ renderAttr mode (k, v), Woven own t := by
  have hs : Woven own [' '] := woven_own (hown.quotes _ (.head _))
  have key : ∀ u : Val, u = .none ∨ ¬Exempt u → ∀ t ∈ (match u with
      | .none => []
      | v => if isHtmlMode mode && emptyAttrs.contains k then [' ' :: lowerAscii k]
        else [' ' :: k ++ "=\"".toList ++ toStr (escape v) ++ ['"']] : List Str), Woven own t := by
    intro u hu t ht
    by_cases hn : u = .none
    · subst hn
      cases ht
    · have hu := hu.resolve_left hn
      have h1 : t ∈ (if isHtmlMode mode && emptyAttrs.contains k then [' ' :: lowerAscii k]
          else [' ' :: k ++ "=\"".toList ++ toStr (escape u) ++ ['"']]) := by
        cases u <;> first | exact absurd rfl hn | exact ht
      split at h1
      · next hb =>
        have h2 : lowerAscii k = k := by
          have : ∀ k ∈ emptyAttrs, lowerAscii k = k := by decide +kernel
          rw [Bool.and_eq_true] at hb
          exact this k (List.contains_iff_mem.1 hb.2)
        rw [List.mem_singleton.1 h1, h2]
        exact woven_append hs hk
      · rw [List.mem_singleton.1 h1, Props.escape_plain u hu]
        exact woven_append (woven_append (woven_append (woven_append hs hk)
          (woven_own (hown.quotes _ (.tail _ (.head _))))) (woven_inert (Props.inert_escapeStr _)))
          (woven_own (hown.quotes _ (.tail _ (.tail _ (.head _)))))
  unfold renderAttr
  dsimp only
  refine key _ ?_
  split
  · split
    · refine .inr ?_
      rintro (h | h | h) <;> cases h
    · exact .inl rfl
  · exact hv

theorem renderCollected_woven (name mode : Str) (v : Option Str) (hk : K (.text name)) :
    ∀ t ∈ renderCollected name mode v, Woven own t := by
  refine renderAttr_woven hown mode name _ (woven_own (hown.texts _ hk)) ?_
  cases v with
  | none => exact .inl rfl
  | some s =>
    refine .inr ?_
    rintro (h | h | h) <;> cases h

theorem renderAttrs_woven (mode : Str) {v : Val} (hv : Writable v) {ss : List Str} (h : renderAttrs v mode = .ok ss) :
    ∀ t ∈ ss, Woven own t := by
  unfold renderAttrs at h
  split at h
  · next i l =>
    split at h
    · cases h
    · next l' hl =>
      cases h
      intro t ht
      obtain ⟨kv, h1, h2⟩ := List.mem_flatMap.1 ht
      have h3 : kv ∈ l := by
        unfold sortAttrs at hl
        split at hl
        · cases hl
        · cases hl
          have hi : ∀ x (ys : List (Str × Val)) z, z ∈ insertPair x ys → z = x ∨ z ∈ ys := by
            intro x ys
            induction ys with
            | nil => intro z hz; exact .inl (List.mem_singleton.1 hz)
            | cons y ys ih =>
              intro z hz
              unfold insertPair at hz
              split at hz
              · rcases List.mem_cons.1 hz with h | h
                · exact .inl h
                · exact .inr h
              · rcases List.mem_cons.1 hz with h | h
                · exact .inr (h ▸ .head _)
                · exact (ih z h).imp id (.tail _)
          have hs : ∀ (ys : List (Str × Val)) z, z ∈ insertionSort ys → z ∈ ys := by
            intro ys
            induction ys with
            | nil => exact fun _ h => h
            | cons y ys ih =>
              intro z hz
              unfold insertionSort at hz
              rcases hi _ _ _ hz with h | h
              · exact h ▸ .head _
              · exact .tail _ (ih z h)
          exact hs _ _ h1
      obtain ⟨h4, h5⟩ := hv i l rfl kv h3
      exact renderAttr_woven hown mode kv.1 kv.2 (woven_inert h4) h5 t h2
  · cases h
    exact fun _ h => nomatch h
  · cases h

end

theorem emitStrs_fine {W : Type} {own : Str → Prop} : ∀ {ss : List Str} (_ : ∀ t ∈ ss, Woven own t),
    Fine K own a (emitStrs ss : MS (List Stmt) W Unit)
  | [], _ => (silent_pure _).fine
  | _ :: _, h => (fine_tell (h _ (.head _))).bind fun _ => emitStrs_fine fun t ht => h t (.tail _ ht)

/-! ## Statements -/

/-- Python that makes no markup. -/
structure Tame {W : Type} (O : Oracle W) (K : Item → Prop) (tr : Str → Str) : Prop where
  exprs : ∀ e, K (.expr e) → ∀ v w x, CleanView v → (O.eval e v w).1 = .ok x → Clean x
  loops : ∀ d, K (.loop d) → ∀ v w bs, CleanView v → (O.iter d v w).1 = .ok bs → ∀ b ∈ bs, CleanDict b
  blocks : ∀ ls, K (.block ls) → ∀ v w b, CleanView v → (O.py ls v w).1 = .ok b → CleanDict b
  args : ∀ d, K (.decl d) → ∀ as w b, (∀ a ∈ as, Clean a) → (O.args d as w).1 = .ok b → CleanDict b
  messages : ∀ m, K (.message m) → ∀ g w x, (O.gettext g m w).1 = .ok x → x = .str (tr m)
  calls : ∀ e, K (.raw e) → Calls O e
  attrs : ∀ e, K (.mapping e) → Attributes O e

/-- The code of the templates. -/
structure Code (K : Item → Prop) (P : Prog (List Stmt)) : Prop where
  bodies : ∀ c ∈ P.classes, ∀ m ∈ c.methods, K (.decl m.2.1) ∧ Within K false m.2.2
  names : ∀ c ∈ P.classes, CleanDict c.baseGlobals

section
variable {W : Type} {own : Str → Prop} {tr : Str → Str} (hown : Owns K tr own) {P : Prog (List Stmt)} (hP : Code K P)

include hP in
theorem newInst_silent (c : Nat) {g : Dict Val} (hg : CleanDict g) : Silent K (newInst P c g : MS (List Stmt) W Nat) := by
  intro s hs
  unfold newInst
  split
  · exact ⟨hs, rfl⟩
  · next cls hc =>
    have hc := List.mem_of_getElem? hc
    refine ⟨⟨fun f hf d b hb => ?_, hs.frames, fun i hi => ?_, fun j => ?_⟩, rfl⟩
    · rcases List.mem_append.1 hf with hf | hf
      · exact hs.fns f hf d b hb
      · obtain ⟨m, hm, rfl⟩ := List.mem_map.1 hf
        cases hb
        exact hP.bodies cls hc m hm
    · rcases List.mem_append.1 hi with hi | hi
      · exact hs.insts i hi
      · rw [List.mem_singleton.1 hi]
        exact ⟨hg, clean_globals _ (hP.names cls hc) (clean_methods _ _) hg, clean_methods _ _⟩
    · dsimp only
      split
      · exact nofun
      · exact hs.stacks j

include hP in
theorem import_fine (env : Env) (name : Str) (al : Option Str) :
    Fine K own a (importM P env name al : MS (List Stmt) W Nat) := by
  unfold importM importT
  refine (silent_kj _).then fun _ => (silent_globalInst _ _).then fun _ => (silent_ofOption _ _).then fun _ =>
    (silent_getInst _).thenWith (gives_getInst _) fun _ hme => (newInst_silent hP _ hme.2.1).then fun _ => ?_
  refine Silent.then (silent_modInst _ ?_) fun _ => (silent_pure _).fine
  exact fun _ hx => ⟨hx.1, hx.2.1.set _ (.inst _), hx.2.2⟩

include hP in
theorem extend_fine (env : Env) (name : Str) : Fine K own a (extendM P env name : MS (List Stmt) W Nat) := by
  unfold extendM extend
  refine (silent_kj _).then fun _ => (silent_ofOption _ _).then fun _ => (silent_getInst _).thenWith (gives_getInst _) fun me hme =>
    (newInst_silent hP _ hme.1).then fun _ => (silent_getInst _).thenWith (gives_getInst _) fun pi hpi => silent_get.then fun s => ?_
  dsimp only
  generalize hg : overrides (s.fns.map (·.tpl)) me.globals pi.globals = pg
  have h1 : CleanDict pg := hg ▸ CleanDict.update hpi.2.1 (hme.2.1.filter _)
  generalize hm : inherited (s.fns.map (·.tpl)) pg me.globals = mg
  have h2 : CleanDict mg := hm ▸ CleanDict.update hme.2.1 (h1.filter _)
  refine Silent.then (fun s hs => ⟨⟨?_, hs.frames, hs.insts, hs.stacks⟩, rfl⟩) fun _ =>
    Silent.then (silent_modInst _ ?_) fun _ => Silent.then (silent_modInst _ ?_) fun _ => (silent_pure _).fine
  · intro f hf d b hb
    rcases List.mem_append.1 hf with hf | hf
    · exact hs.fns f hf d b hb
    · obtain ⟨m, hm, rfl⟩ := List.mem_map.1 hf
      cases hb
  · exact fun x hx => ⟨hx.1, ((h1.set _ (.inst _)).set _ (.inst _)).set _ (h2.getD _ .none), hx.2.2⟩
  · exact fun x hx => ⟨hx.1, (h2.set _ (.inst _)).set _ (.inst _), hme.2.2.update (clean_tramps _ _)⟩

variable {O : Oracle W} (hO : Tame O K tr) {call : Mode → Nat → List Val → MS (List Stmt) W Unit}
  (h : ∀ mode f as, (∀ v ∈ as, Clean v) → Fine K own false (call mode f as))
include hown hP hO h

set_option linter.unusedSectionVars false in
mutual
theorem exec_fine : ∀ (x : Stmt) (a : Bool) (_ : Within₁ K a x) (env : Env), Fine K own a (exec P O call env x)
  | .yieldLit t, a, hw, _ => by
    unfold exec
    exact fine_tell (woven_own (hown.texts _ (hw (.text t) (by unfold items; exact .head _))))
  | .yieldGettext t, a, hw, _ => by
    have hk : K (.message t) := hw _ (by unfold items; exact .head _)
    unfold exec
    refine (silent_gettext _ _ _).thenWith (gives_gettext (hO.messages t hk)) fun v hv => ?_
    rw [hv]
    exact emit_str _ (woven_own (hown.msgs _ hk))
  | .yieldCode e, true, hw, _ => by
    unfold exec
    exact (silent_ask _).thenWith (gives_ask (hO.exprs e (hw _ (by unfold items; exact .head _)))) fun v hv =>
      keeps_emit h _ hv
  | .yieldCode e, false, hw, _ => by
    have h1 := hO.exprs e (hw _ (by unfold items; exact .head _))
    have h2 := hO.calls e (hw _ (by unfold items; exact .tail _ (.head _)))
    unfold exec
    exact (silent_ask _).thenWith (gives_ask fun v w x hv hx => And.intro (h1 v w x hv hx) (h2 v w x hv hx)) fun v hv =>
      emit_calls h _ hv.1 hv.2
  | .yieldEscape e, a, hw, _ => by
    unfold exec
    exact (silent_ask _).thenWith (gives_ask (hO.exprs e (hw _ (by unfold items; exact .head _)))) fun v hv => emit_escape h _ hv
  | .py ls, _, hw, _ => by
    unfold exec
    exact (silent_ask _).thenWith (gives_ask (hO.blocks ls (hw _ (by unfold items; exact .head _)))) fun _ hb =>
      (silent_setVars _ hb).fine
  | .importS _ _, _, _, _ => by unfold exec; exact (import_fine hP _ _ _).bind fun _ => (silent_pure _).fine
  | .includeS _, _, _, _ => by unfold exec; exact (import_fine hP _ _ _).bind fun _ => emitMain_fine h _ _
  | .extendS _, _, _, _ => by unfold exec; exact (extend_fine hP _ _).bind fun _ => emitMain_fine h _ _
  | .pushWith ns, _, _, env => by
    unfold exec
    refine (silent_kj _).then fun _ => silent_get.thenWith gives_get fun s hs => (silent_modStacks _ fun k hk vs hvs => ?_).fine
    rcases List.mem_cons.1 hvs with rfl | hvs
    · intro v hv
      obtain ⟨n, _, rfl⟩ := List.mem_map.1 hv
      refine CleanDict.getD ?_ _ .unit
      unfold localVars
      split
      · next f hf => exact hs.frames f (List.mem_of_getElem? hf)
      · exact .nil
    · exact hk vs hvs
  | .assign k e, _, hw, _ => by
    unfold exec
    refine (silent_ask _).thenWith (gives_ask (hO.exprs e (hw _ (by unfold items; exact .head _)))) fun v hv =>
      (silent_setVars _ fun kv hkv => ?_).fine
    rw [List.mem_singleton.1 hkv]
    exact hv
  | .popWith _, _, _, _ => by
    unfold exec
    exact (silent_kj _).then fun _ => (silent_popWith _).thenWith (gives_popWith _) fun _ hv => (silent_unpack _ _ hv).fine
  | .pushSwitch _, _, _, _ => by
    unfold exec
    exact (silent_kj _).then fun _ => (silent_ask _).then fun _ => Silent.fine (silent_modStacks _ fun _ hk => hk)
  | .popSwitch, _, _, _ => by unfold exec; exact (silent_kj _).then fun _ => (silent_popSwitch _).fine
  | .fdef d b, a, hw, env => by
    unfold exec fdefM
    refine (silent_newFn fun d' b' hb => ?_).then fun _ => (silent_setVars _ fun kv hkv => ?_).fine
    · cases hb
      exact hw.fdef
    · rw [List.mem_singleton.1 hkv]
      exact .fn _
  | .collect b, a, hw, env => by
    unfold exec collectM
    exact (silent_newFrame .nil _).then fun _ =>
      ((execList_fine b true hw.collect _).reading _).capture.bind fun _ => Silent.fine (silent_modFrame _ fun _ hx => hx)
  | .attrS n m els, a, hw, env => by
    unfold exec
    exact Fine.bind (silent_get.then fun _ => emitStrs_fine (renderCollected_woven hown _ _ _ hw.attrS.1)) fun _ =>
      execList_fine els a hw.attrS.2 env
  | .attrsS e m els, a, hw, env => by
    unfold exec
    refine Fine.bind ((silent_ask _).thenWith (gives_ask (hO.attrs e hw.attrsS.1)) fun v hv => ?_) fun _ =>
      execList_fine els a hw.attrsS.2 env
    split
    · exact (silent_throw _).fine
    · next ss hs => exact emitStrs_fine (renderAttrs_woven hown _ hv hs)
  | .forS d b els, a, hw, env => by
    unfold exec
    exact (silent_ask _).thenWith (gives_ask (hO.loops d hw.forS.1)) fun bs hbs =>
      (Fine.each fun x hx => (silent_setVars _ (hbs x hx)).then fun _ => execList_fine b a hw.forS.2.1 env).bind fun _ =>
        execList_fine els a hw.forS.2.2 env
  | .ifS _ b els, a, hw, env => by
    unfold exec
    refine (silent_cond _ _ _).then fun t => ?_
    split
    · exact execList_fine b a hw.ifS.1 env
    · exact execList_fine els a hw.ifS.2 env
theorem execList_fine : ∀ (xs : List Stmt) (a : Bool) (_ : Within K a xs) (env : Env), Fine K own a (execList P O call env xs)
  | [], _, _, _ => by unfold execList; exact (silent_pure _).fine
  | x :: xs, a, hw, env => by
    unfold execList
    exact (exec_fine x a hw.head env).bind fun _ => execList_fine xs a hw.tail env
end

end

section
variable {W : Type} {own : Str → Prop} {tr : Str → Str} (hown : Owns K tr own) {P : Prog (List Stmt)}
  (hP : Code K P) {O : Oracle W} (hO : Tame O K tr)
include hown hP hO

theorem callN_fine : ∀ n mode f as, (∀ v ∈ as, Clean v) → Fine K own false (callN P O n mode f as)
  | 0, _, _, _, _ => (silent_throw _).fine
  | n + 1, mode, f, as, ha => by
    intro s hs
    have step : ∀ g : Store (List Stmt) W → Fn (List Stmt) → MS (List Stmt) W Unit,
        (∀ fn, s.fns[f]? = some fn → Fine K own false (g s fn)) →
        Good K (M.bind M.get (fun s => M.bind (M.ofOption .type s.fns[f]?) (g s)) s).st ∧
          (false = false → Woven own (M.bind M.get (fun s => M.bind (M.ofOption .type s.fns[f]?) (g s)) s).out.txt) := by
      intro g hg
      cases hf : s.fns[f]? with
      | none =>
        simp only [M.bind, M.get, hf, M.ofOption, M.throw]
        exact ⟨hs, fun _ => woven_nil⟩
      | some fn =>
        have := hg fn hf s hs
        simp only [M.bind, M.get, hf, M.ofOption, M.pure]
        exact ⟨this.1, fun _ => woven_append woven_nil (woven_append woven_nil (this.2 rfl))⟩
    refine step _ fun fn hf => ?_
    split
    · next decl body hb =>
      obtain ⟨hd, hw⟩ := hs.fns fn (List.mem_of_getElem? hf) _ _ hb
      refine Silent.thenWith (p := CleanDict) (fun s hs => ⟨⟨hs.fns, hs.frames, hs.insts, hs.stacks⟩, rfl⟩)
        (fun s _ b hv => hO.args decl hd as s.world b ha hv) fun vars hv =>
        (silent_newFrame hv _).then fun _ => (silent_getInst _).then fun _ => ?_
      exact (execList_fine hown hP hO (callN_fine n) body false hw _).reading _
    · exact (silent_globalInst _ _).then fun _ => (silent_attrFn _ _).then fun _ => callN_fine n _ _ _ ha

theorem render_woven (n c : Nat) {context : Dict Val} (hc : CleanDict context) (w : W) :
    Woven own (render P O n c context w).out.txt :=
  (((newInst_silent hP c hc).then fun i => emitMain_fine (callN_fine hown hP hO n) _ i) (emptyStore _ w)
    ⟨nofun, nofun, nofun, fun _ => nofun⟩).2 rfl

end

end Kajiki.Woven
