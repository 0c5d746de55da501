import Verif.Lemmas.Dict
import Verif.Spec.Chain

/-!
# Inheritance: helper lemmas
-/

namespace Kajiki.Dict
variable {α : Type}

/-- The keys are distinct. -/
def Distinct (d : Dict α) : Prop := (d.map (·.1)).Nodup

theorem map_set (d : Dict α) (k : Str) (v : α) :
    (d.set k v).map (·.1) = if k ∈ d.map (·.1) then d.map (·.1) else d.map (·.1) ++ [k] := by
  induction d with
  | nil => simp [set]
  | cons e d ih =>
    obtain ⟨a, w⟩ := e
    unfold set
    by_cases h : a = k
    · simp [h]
    · have h' : k ≠ a := fun h2 => h h2.symm
      simp only [h, if_false, List.map_cons, ih, List.mem_cons, h', false_or]
      split <;> rfl

theorem Distinct.set {d : Dict α} (h : Distinct d) (k : Str) (v : α) : Distinct (d.set k v) := by
  unfold Distinct at *
  rw [map_set]
  split
  · exact h
  · rename_i hk
    rw [List.nodup_append]
    refine ⟨h, by simp, fun a ha b hb => ?_⟩
    simp only [List.mem_singleton] at hb
    subst hb
    exact fun h => hk (h ▸ ha)

theorem Distinct.update {d : Dict α} (h : Distinct d) (e : Dict α) : Distinct (d.update e) := by
  unfold Dict.update
  induction e generalizing d with
  | nil => exact h
  | cons kv e ih => exact ih (h.set _ _)

theorem Distinct.filter {d : Dict α} (h : Distinct d) (p : Str × α → Bool) : Distinct (d.filter p) :=
  List.Nodup.sublist (List.filter_sublist.map _) h

theorem get_filter {d : Dict α} (h : Distinct d) (p : Str × α → Bool) (k : Str) :
    Dict.get (d.filter p) k = (Dict.get d k).filter fun v => p (k, v) := by
  induction d with
  | nil => rfl
  | cons e d ih =>
    obtain ⟨a, v⟩ := e
    have hd : Distinct d := (List.nodup_cons.1 h).2
    have ha : a ∉ d.map (·.1) := (List.nodup_cons.1 h).1
    by_cases hk : a = k
    · subst hk
      by_cases hp : p (a, v)
      · rw [List.filter_cons_of_pos hp]; simp [get, hp, Option.filter]
      · rw [List.filter_cons_of_neg hp, ih hd, get_none_of_not_mem ha]; simp [get, hp, Option.filter]
    · by_cases hp : p (a, v)
      · rw [List.filter_cons_of_pos hp]; simp only [get, hk, if_false]; exact ih hd
      · rw [List.filter_cons_of_neg hp]; simp only [get, hk, if_false]; exact ih hd

theorem mem_keys_iff {d : Dict α} {k : Str} : k ∈ d.map (·.1) ↔ ∃ v, d.get k = some v := by
  induction d with
  | nil => simp [get]
  | cons e d ih =>
    obtain ⟨a, v⟩ := e
    by_cases h : a = k
    · simp [get, h]
    · have h' : k ≠ a := fun h2 => h h2.symm
      simp [get, h, h', ← ih]

theorem get_of_mem {d : Dict α} (h : Distinct d) {k : Str} {v : α} (hm : (k, v) ∈ d) :
    d.get k = some v := by
  induction d with
  | nil => cases hm
  | cons e d ih =>
    obtain ⟨a, w⟩ := e
    rcases List.mem_cons.1 hm with he | he
    · cases he; simp [get]
    · have : a ≠ k := fun hk => (List.nodup_cons.1 h).1 (List.mem_map.2 ⟨(k, v), he, hk.symm⟩)
      simp only [get, this, if_false]
      exact ih (List.nodup_cons.1 h).2 he

end Kajiki.Dict

namespace Kajiki.Run
open Kajiki.Dict

variable {C W : Type}

/-! ## Names of an instance -/

theorem newGlobals_distinct (i : Nat) (base ms ctx : Dict Val) : Distinct (newGlobals i base ms ctx) := by
  unfold newGlobals
  refine Distinct.set (Distinct.set (Distinct.update (Distinct.update (Distinct.update (Distinct.update ?_ _) _) _) _) _ _) _ _
  simp only [Distinct, List.map_cons, List.map_nil]
  decide +kernel

theorem builtins_distinct : Distinct builtins := by unfold Distinct; decide +kernel

/-- Lookup in a new instance. -/
theorem get_newGlobals (i : Nat) (base ms ctx : Dict Val) (hb : Distinct base) (hm : Distinct ms)
    (hc : Distinct ctx) (k : Str) (h1 : k ≠ ['_']) (h2 : k ≠ "value_of".toList) :
    (newGlobals i base ms ctx).get k =
      (ctx.get k).or ((ms.get k).or ((base.get k).or ((builtins.get k).or
        (if k = "local".toList ∨ k = "self".toList then some (.inst i) else none)))) := by
  unfold newGlobals
  dsimp only
  rw [get_set_other _ _ (Ne.symm h2), get_set_other _ _ (Ne.symm h1), get_update_nodup _ _ _ hc,
    get_update_nodup _ _ _ hm, get_update_nodup _ _ _ hb, get_update_nodup _ _ _ builtins_distinct]
  congr 4
  simp only [Dict.get]
  generalize "local".toList = a
  generalize "self".toList = b
  by_cases h : a = k
  · simp [h]
  · by_cases h' : b = k
    · simp [h']
    · simp [h, h', Ne.symm h, Ne.symm h']

theorem methodDict_keys (n : Nat) (ms : List (Str × Str × C)) :
    (methodDict n ms).map (·.1) = ms.map (·.1) := by
  induction ms generalizing n with
  | nil => rfl
  | cons m ms ih => simp [methodDict, ih]

theorem methodDict_found {ms : List (Str × Str × C)} (h : (ms.map (·.1)).Nodup) {f d : Str} {b : C}
    (hm : (f, d, b) ∈ ms) (n : Nat) :
    ∃ i, (methodDict n ms).get f = some (.fn (n + i)) ∧ ms[i]? = some (f, d, b) := by
  induction ms generalizing n with
  | nil => cases hm
  | cons m ms ih =>
    obtain ⟨k, d', b'⟩ := m
    rcases List.mem_cons.1 hm with he | he
    · cases he; exact ⟨0, by simp [methodDict, Dict.get], rfl⟩
    · have hk : k ≠ f := fun hk => (List.nodup_cons.1 h).1 (List.mem_map.2 ⟨(f, d, b), he, hk.symm⟩)
      obtain ⟨i, h1, h2⟩ := ih (List.nodup_cons.1 h).2 he (n + 1)
      refine ⟨i + 1, ?_, by simpa using h2⟩
      simp only [methodDict, Dict.get, hk, if_false, h1]
      congr 2
      omega

theorem methodDict_absent {ms : List (Str × Str × C)} {f : Str} (h : ∀ d b, (f, d, b) ∉ ms) (n : Nat) :
    (methodDict n ms).get f = none := by
  apply get_none_of_not_mem
  rw [methodDict_keys]
  intro hm
  obtain ⟨⟨k, d, b⟩, hm', rfl⟩ := List.mem_map.1 hm
  exact h d b hm'

/-! ## One `_extend` -/

section
variable (s : Store C W) (cl : Cls C) (me : Inst)

/-- The function objects after making the parent's instance. -/
def extTpl : List Bool := (s.fns ++ methodFns s.insts.length cl.methods).map (·.tpl)

/-- The parent's own globals. -/
def extNew : Dict Val :=
  newGlobals s.insts.length cl.baseGlobals (methodDict s.fns.length cl.methods) me.context

/-- The parent's globals with the overrides. -/
def extOver : Dict Val := overrides (extTpl s cl) me.globals (extNew s cl me)

/-- The names of the trampolines. -/
def extTramps : List Str := trampNames (extTpl s cl) (extOver s cl me) me.attrs

/-- The child's globals with the inherited functions. -/
def extMine : Dict Val := inherited (extTpl s cl) (extOver s cl me) me.globals

/-- The parent's final instance. -/
def extParent (j c : Nat) : Inst :=
  ⟨c, me.context,
    Dict.set (Dict.set (Dict.set (extOver s cl me) "child".toList (.inst j)) "local".toList
      (.inst s.insts.length)) "self".toList ((Dict.get (extMine s cl me) "self".toList).getD .none),
    methodDict s.fns.length cl.methods⟩

/-- The child's final instance. -/
def extChild (j : Nat) : Inst :=
  ⟨me.cls, me.context,
    Dict.set (Dict.set (extMine s cl me) "parent".toList (.inst s.insts.length)) "local".toList (.inst j),
    Dict.update me.attrs (trampDict (s.fns.length + cl.methods.length) (extTramps s cl me))⟩

end

/-- Results of `_extend`. -/
structure Extended (s s' : Store C W) (j c : Nat) (cl : Cls C) (me : Inst) : Prop where
  /-- the new instance -/
  newI : s'.insts[s.insts.length]? = some (extParent s cl me j c)
  /-- the extending instance -/
  old : s'.insts[j]? = some (extChild s cl me j)
  others : ∀ i, i ≠ j → i < s.insts.length → s'.insts[i]? = s.insts[i]?
  len : s'.insts.length = s.insts.length + 1
  fns : s'.fns = s.fns ++ methodFns s.insts.length cl.methods ++
    (extTramps s cl me).map fun k => ⟨.tramp k, j, none, true⟩
  frames : s'.frames = s.frames
  used : s'.used = s.used
  world : s'.world = s.world

theorem get_overrides (tpl : List Bool) {child parent : Dict Val} (hc : Distinct child) (f : Str) :
    (overrides tpl child parent).get f =
      ((child.get f).filter fun v => f != "__main__".toList && isTpl tpl v).or (parent.get f) := by
  unfold overrides
  rw [get_update_nodup _ _ _ (hc.filter _), get_filter hc]

theorem get_inherited (tpl : List Bool) {child parent : Dict Val} (hp : Distinct parent) (f : Str) :
    (inherited tpl parent child).get f =
      (child.get f).or ((parent.get f).filter fun v => f != "__main__".toList && isTpl tpl v) := by
  unfold inherited
  rw [get_update_nodup _ _ _ (hp.filter _), get_filter hp]
  unfold Dict.has
  dsimp only
  generalize (f != "__main__".toList) = q
  cases child.get f with
  | some v => cases parent.get f <;> simp [Option.filter]
  | none =>
    simp only [Option.or_none, Option.none_or, Option.isSome_none, Bool.not_false, Bool.and_true]

theorem extend_run (P : Prog C) (j : Nat) (nm : Str) (s : Store C W) {c : Nat} {cl : Cls C} {me : Inst}
    (hl : P.load nm = some c) (hc : P.classes[c]? = some cl) (hj : s.insts[j]? = some me) :
    ∃ s', extend P j nm s = ⟨.nil, s', .ok s.insts.length⟩ ∧ Extended s s' j c cl me := by
  have hjlt : j < s.insts.length := (List.getElem?_eq_some_iff.1 hj).1
  have hne : s.insts.length ≠ j := by omega
  have hlen : (s.fns ++ methodFns s.insts.length cl.methods).length = s.fns.length + cl.methods.length := by
    simp [methodFns]
  refine ⟨⟨((s.insts ++ [(⟨c, me.context, extNew s cl me, methodDict s.fns.length cl.methods⟩ : Inst)]).modify
      s.insts.length fun x => { x with globals := (extParent s cl me j c).globals }).modify j
        fun x => { x with globals := (extChild s cl me j).globals, attrs := (extChild s cl me j).attrs },
    s.frames, s.fns ++ methodFns s.insts.length cl.methods ++
      (extTramps s cl me).map fun k => ⟨.tramp k, j, none, true⟩, s.used, s.world,
    fun i => if i = s.insts.length then ⟨[], []⟩ else s.stacks i⟩, ?_, ?_⟩
  · simp only [extend, hl, M.ofOption]
    simp only [M.bind, M.pure, getInst, hj]
    simp only [newInst, hc, List.getElem?_append_right (Nat.le_refl s.insts.length), Nat.sub_self,
      List.getElem?_cons_zero, M.get, M.modify, modInst, hlen]
    rfl
  · constructor
    · simp only [List.getElem?_modify, List.getElem?_append_right (Nat.le_refl s.insts.length),
        Nat.sub_self, List.getElem?_cons_zero, hne.symm, if_true, if_false]
      rfl
    · simp only [List.getElem?_modify, List.getElem?_append_left hjlt, hne, if_true, if_false, hj]
      rfl
    · intro i hi hlt
      have h1 : s.insts.length ≠ i := by omega
      simp only [List.getElem?_modify, h1, Ne.symm hi, if_false, List.getElem?_append_left hlt]
      simp
    · simp
    · rfl
    · rfl
    · rfl
    · rfl

/-- Instances and functions after `_extend` depend on nothing else. -/
theorem Extended.same {s t s' t' : Store C W} {j c : Nat} {cl : Cls C} {me : Inst} (h : Extended s s' j c cl me)
    (h' : Extended t t' j c cl me) (hj : j < s.insts.length) (hi : t.insts = s.insts) (hf : t.fns = s.fns) :
    t'.insts = s'.insts ∧ t'.fns = s'.fns := by
  obtain ⟨i1, i2, i3, i4, i5, i6⟩ := h
  obtain ⟨k1, k2, k3, k4, k5, k6⟩ := h'
  obtain ⟨a, b, c', d, e, f⟩ := s
  obtain ⟨a', b', c'', d', e', f'⟩ := t
  dsimp only at *
  subst hi hf
  refine ⟨List.ext_getElem? fun i => ?_, k5.trans i5.symm⟩
  by_cases h1 : i = a'.length
  · subst h1; exact k1.trans i1.symm
  · by_cases h2 : i = j
    · subst h2; exact k2.trans i2.symm
    · by_cases h3 : i < a'.length
      · rw [k3 i h2 h3, i3 i h2 h3]
      · rw [List.getElem?_eq_none (by omega), List.getElem?_eq_none (by omega)]

theorem extNew_distinct (s : Store C W) (cl : Cls C) (me : Inst) : Distinct (extNew s cl me) :=
  newGlobals_distinct _ _ _ _

theorem extOver_distinct (s : Store C W) (cl : Cls C) (me : Inst) : Distinct (extOver s cl me) :=
  (extNew_distinct s cl me).update _

theorem extParent_distinct (s : Store C W) (cl : Cls C) (me : Inst) (j c : Nat) :
    Distinct (extParent s cl me j c).globals :=
  (((extOver_distinct s cl me).set _ _).set _ _).set _ _

theorem extChild_distinct (s : Store C W) (cl : Cls C) (me : Inst) (hd : Distinct me.globals) (j : Nat) :
    Distinct (extChild s cl me j).globals := ((Distinct.update hd _).set _ _).set _ _

theorem parent_child (s : Store C W) (cl : Cls C) (me : Inst) (j c : Nat) :
    (extParent s cl me j c).globals.get "child".toList = some (.inst j) := by
  unfold extParent
  rw [get_set_other _ _ (by decide), get_set_other _ _ (by decide), get_set_same]

theorem parent_local (s : Store C W) (cl : Cls C) (me : Inst) (j c : Nat) :
    (extParent s cl me j c).globals.get "local".toList = some (.inst s.insts.length) := by
  unfold extParent
  rw [get_set_other _ _ (by decide), get_set_same]

theorem parent_self (s : Store C W) (cl : Cls C) (me : Inst) (j c : Nat) {v : Val}
    (hv : me.globals.get "self".toList = some v) :
    (extParent s cl me j c).globals.get "self".toList = some v := by
  unfold extParent
  rw [get_set_same, extMine, get_inherited _ (extOver_distinct s cl me), hv]
  rfl

theorem parent_get (s : Store C W) (cl : Cls C) (me : Inst) (hd : Distinct me.globals) (j c : Nat)
    (f : Str) (hf : f ∉ ["child".toList, "local".toList, "self".toList]) :
    (extParent s cl me j c).globals.get f =
      ((me.globals.get f).filter fun v => f != "__main__".toList && isTpl (extTpl s cl) v).or
        ((extNew s cl me).get f) := by
  simp only [List.mem_cons, List.not_mem_nil, or_false, not_or] at hf
  unfold extParent
  rw [get_set_other _ _ (Ne.symm hf.2.2), get_set_other _ _ (Ne.symm hf.2.1),
    get_set_other _ _ (Ne.symm hf.1), extOver, get_overrides _ hd]

theorem child_parent (s : Store C W) (cl : Cls C) (me : Inst) (j : Nat) :
    (extChild s cl me j).globals.get "parent".toList = some (.inst s.insts.length) := by
  unfold extChild
  rw [get_set_other _ _ (by decide), get_set_same]

theorem child_local (s : Store C W) (cl : Cls C) (me : Inst) (j : Nat) :
    (extChild s cl me j).globals.get "local".toList = some (.inst j) := by
  unfold extChild
  rw [get_set_same]

theorem child_get (s : Store C W) (cl : Cls C) (me : Inst) (hd : Distinct me.globals) (j : Nat)
    (f : Str) (hf : f ∉ ["parent".toList, "local".toList]) :
    (extChild s cl me j).globals.get f =
      (me.globals.get f).or (((extNew s cl me).get f).filter fun v =>
        f != "__main__".toList && isTpl (extTpl s cl) v) := by
  simp only [List.mem_cons, List.not_mem_nil, or_false, not_or] at hf
  unfold extChild
  rw [get_set_other _ _ (Ne.symm hf.2), get_set_other _ _ (Ne.symm hf.1), extMine,
    get_inherited _ (extOver_distinct s cl me), extOver, get_overrides _ hd]
  cases me.globals.get f <;> simp

/-! ## A whole chain -/

open Kajiki.Spec.Chain

variable (P : Prog C) (f : Str) (ctx : Dict Val)

/-- Global value of a name that no function has. -/
def plain (cl : Cls C) : Option Val := (cl.baseGlobals.get f).or (builtins.get f)

/-- `v` is the function `f` of class `cl` bound to instance `i`. -/
def Bound (s : Store C W) (i : Nat) (cl : Cls C) (v : Option Val) : Prop :=
  ∀ d b, (f, d, b) ∈ cl.methods → BoundTo s v i d b

/-- Facts about one instance of a chain. -/
structure Link (so : Prop) (s : Store C W) (N : Nat) (cls : List (Cls C)) (k : Nat) (x : Inst) : Prop where
  ofCls : P.classes[x.cls]? = cls[k]?
  context : x.context = ctx
  dist : Distinct x.globals
  here : cls.length ≠ 1 → x.globals.get "local".toList = some (.inst (N + k))
  me : so → x.globals.get "self".toList = some (.inst N)
  up : k + 1 < cls.length → x.globals.get "parent".toList = some (.inst (N + k + 1))
  down : ∀ k', k = k' + 1 → x.globals.get "child".toList = some (.inst (N + k'))
  own : ∀ i cl, i ≤ k → cls[i]? = some cl → hasMethod cl f →
    (∀ i' cl', i' < i → cls[i']? = some cl' → ¬ hasMethod cl' f) → Bound f s (N + i) cl (x.globals.get f)
  inh : (∀ i cl, i ≤ k → cls[i]? = some cl → ¬ hasMethod cl f) → ∀ m, cls[k]? = some m → plain f m = none →
    ∀ cl, cls[k + 1]? = some cl → hasMethod cl f → Bound f s (N + k + 1) cl (x.globals.get f)
  absent : (∀ i cl, i ≤ k + 1 → cls[i]? = some cl → ¬ hasMethod cl f) → ∀ m, cls[k]? = some m →
    x.globals.get f = plain f m
  shadow : (∀ i cl, i ≤ k → cls[i]? = some cl → ¬ hasMethod cl f) → ∀ m, cls[k]? = some m →
    ∀ v, plain f m = some v → x.globals.get f = some v
  attrOwn : ∀ cl, cls[k]? = some cl → hasMethod cl f → Bound f s (N + k) cl (x.attrs.get f)
  attrUp : k = 0 → ∀ cl, cls[0]? = some cl → ¬ hasMethod cl f → ∀ cl', cls[1]? = some cl' →
    hasMethod cl' f → f ∉ classAttrs →
    ∃ id, x.attrs.get f = some (.fn id) ∧ s.fns[id]? = some ⟨.tramp f, N, none, true⟩
  attrNone : k = 0 → (∀ i cl, i ≤ 1 → cls[i]? = some cl → ¬ hasMethod cl f) → x.attrs.get f = none

/-- The state after building a chain. -/
structure ChainInv (so : Prop) (s : Store C W) (N : Nat) (cls : List (Cls C)) : Prop where
  pos : cls ≠ []
  len : s.insts.length = N + cls.length
  links : ∀ k, k < cls.length → ∃ x, s.insts[N + k]? = some x ∧ Link P f ctx so s N cls k x

/-- What is assumed about the name and the classes. -/
structure ChainHyp : Prop where
  name : f ∉ reserved
  noCtx : ctx.get f = none
  ctxD : Distinct ctx
  methods : ∀ cl ∈ P.classes, (cl.methods.map (·.1)).Nodup
  base : ∀ cl ∈ P.classes, Distinct cl.baseGlobals
  baseFn : ∀ cl ∈ P.classes, ∀ id, cl.baseGlobals.get f ≠ some (.fn id)

theorem builtins_notFn (f : Str) (id : Nat) : builtins.get f ≠ some (.fn id) := by
  intro h
  have := get_eq_some_mem h
  simp [builtins] at this

theorem plain_notFn (h : ChainHyp P f ctx) {cl : Cls C} (hc : cl ∈ P.classes) (id : Nat) :
    plain f cl ≠ some (.fn id) := by
  unfold plain
  intro h'
  cases hb : cl.baseGlobals.get f with
  | none => rw [hb] at h'; exact builtins_notFn f id h'
  | some v => rw [hb] at h'; simp only [Option.some_or] at h'; exact h.baseFn cl hc id (hb.trans h')

theorem get_extNew (h : ChainHyp P f ctx) (s : Store C W) {cl : Cls C} (hc : cl ∈ P.classes) (me : Inst)
    (hm : me.context = ctx) :
    (extNew s cl me).get f = ((methodDict s.fns.length cl.methods).get f).or (plain f cl) := by
  have hn := h.name
  simp only [reserved, List.map_cons, List.map_nil, List.mem_cons, List.not_mem_nil, or_false, not_or] at hn
  unfold extNew
  rw [get_newGlobals _ _ _ _ (h.base cl hc)
    (by unfold Distinct; rw [methodDict_keys]; exact h.methods cl hc) (hm ▸ h.ctxD) f hn.2.2.2.2.1 hn.2.2.2.2.2.1,
    hm, h.noCtx, if_neg (by
      rintro (h | h)
      · exact hn.1 h
      · exact hn.2.1 h)]
  simp [plain]

theorem bound_mono {s s' : Store C W} {i : Nat} {cl : Cls C} {v : Option Val} (hf : ∃ l, s'.fns = s.fns ++ l)
    (h : Bound f s i cl v) : Bound f s' i cl v := by
  intro d b hm
  obtain ⟨id, h1, h2⟩ := h d b hm
  obtain ⟨l, hl⟩ := hf
  refine ⟨id, h1, ?_⟩
  rw [hl, List.getElem?_append_left (List.getElem?_eq_some_iff.1 h2).1]
  exact h2

theorem bound_new (h : ChainHyp P f ctx) {s s' : Store C W} {cl : Cls C} (hc : cl ∈ P.classes)
    (hf : ∃ l, s'.fns = s.fns ++ methodFns s.insts.length cl.methods ++ l) :
    Bound f s' s.insts.length cl ((methodDict s.fns.length cl.methods).get f) := by
  intro d b hm
  obtain ⟨i, h1, h2⟩ := methodDict_found (h.methods cl hc) hm s.fns.length
  refine ⟨_, h1, ?_⟩
  obtain ⟨l, hl⟩ := hf
  have hi : i < cl.methods.length := (List.getElem?_eq_some_iff.1 h2).1
  rw [hl, List.getElem?_append_left (by simp [methodFns]; omega),
    List.getElem?_append_right (by omega)]
  simp [methodFns, h2]

theorem has_iff {cl : Cls C} : hasMethod cl f ↔ ∃ d b, (f, d, b) ∈ cl.methods := by
  rfl

theorem method_absent {cl : Cls C} (h : ¬ hasMethod cl f) (n : Nat) :
    (methodDict n cl.methods).get f = none :=
  methodDict_absent (fun d b hm => h ⟨d, b, hm⟩) n

theorem isTpl_bound {s : Store C W} {i : Nat} {cl : Cls C} {v : Option Val} (hh : hasMethod cl f)
    (h : Bound f s i cl v) (l : List (Fn C)) :
    (v.filter fun v => isTpl ((s.fns ++ l).map (·.tpl)) v) = v := by
  obtain ⟨d, b, hm⟩ := hh
  obtain ⟨id, rfl, h2⟩ := h d b hm
  have : ((s.fns ++ l).map (·.tpl))[id]? = some true := by
    rw [List.getElem?_map, List.getElem?_append_left (List.getElem?_eq_some_iff.1 h2).1, h2]
    rfl
  simp only [Option.filter, isTpl, this, Option.getD_some, if_true]

theorem isTpl_notFn {v : Option Val} (h : ∀ id, v ≠ some (.fn id)) (tpl : List Bool) :
    (v.filter fun v => isTpl tpl v) = none := by
  cases v with
  | none => rfl
  | some v =>
    cases v with
    | fn id => exact absurd rfl (h id)
    | _ => rfl


theorem main_filter (h : ChainHyp P f ctx) (v : Option Val) (tpl : List Bool) :
    (v.filter fun v => f != "__main__".toList && isTpl tpl v) = v.filter fun v => isTpl tpl v := by
  have : (f != "__main__".toList) = true := by
    have hn := h.name
    simp only [reserved, List.map_cons, List.map_nil, List.mem_cons, List.not_mem_nil, or_false, not_or] at hn
    simpa using hn.2.2.2.2.2.2
  simp only [this, Bool.true_and]

theorem trampDict_found {ks : List Str} {f : Str} (hm : f ∈ ks) (n : Nat) :
    ∃ i, (trampDict n ks).get f = some (.fn (n + i)) ∧ ks[i]? = some f := by
  induction ks generalizing n with
  | nil => cases hm
  | cons k ks ih =>
    by_cases hk : k = f
    · subst hk; exact ⟨0, by simp [trampDict, Dict.get], rfl⟩
    · rcases List.mem_cons.1 hm with he | he
      · exact absurd he.symm hk
      · obtain ⟨i, h1, h2⟩ := ih he (n + 1)
        refine ⟨i + 1, ?_, by simpa using h2⟩
        simp only [trampDict, Dict.get, hk, if_false, h1]
        congr 2
        omega

theorem trampDict_keys (n : Nat) (ks : List Str) : (trampDict n ks).map (·.1) = ks := by
  induction ks generalizing n with
  | nil => rfl
  | cons k ks ih => simp [trampDict, ih]

theorem extTramps_nodup (s : Store C W) (cl : Cls C) (me : Inst) : (extTramps s cl me).Nodup :=
  (extOver_distinct s cl me).filter _

theorem mem_extTramps (s : Store C W) (cl : Cls C) (me : Inst) (f : Str) :
    f ∈ extTramps s cl me ↔ ∃ v, ((extOver s cl me).get f = some v ∧
      (f != "__main__".toList && isTpl (extTpl s cl) v) = true) ∧
      me.attrs.get f = none ∧ f ∉ classAttrs := by
  unfold extTramps trampNames
  rw [mem_keys_iff, ]
  simp only [get_filter (extOver_distinct s cl me), Option.filter_eq_some_iff, Bool.and_eq_true,
    Bool.not_eq_true', Bool.or_eq_false_iff, Dict.has, Option.isSome_eq_false_iff, Option.isNone_iff_eq_none,
    List.contains_eq_mem, decide_eq_false_iff_not, and_assoc]

theorem get_childAttrs (s : Store C W) (cl : Cls C) (me : Inst) (j : Nat) (f : Str) :
    (extChild s cl me j).attrs.get f =
      ((trampDict (s.fns.length + cl.methods.length) (extTramps s cl me)).get f).or (me.attrs.get f) := by
  unfold extChild
  rw [get_update_nodup _ _ _ (by rw [trampDict_keys]; exact extTramps_nodup s cl me)]

theorem chain_step (h : ChainHyp P f ctx) {so : Prop} {s : Store C W} {N : Nat} {cls : List (Cls C)}
    (hi : ChainInv P f ctx so s N cls) {nm : Str} {r : Res (Store C W) Nat}
    (hr : extend P (N + cls.length - 1) nm s = r) {p : Nat} (hok : r.val = .ok p) :
    ∃ cl, p = N + (cls ++ [cl]).length - 1 ∧ ChainInv P f ctx so r.st N (cls ++ [cl]) := by
  have hpos : 0 < cls.length := List.length_pos_iff.2 hi.pos
  obtain ⟨n, hn⟩ : ∃ n, cls.length = n + 1 := ⟨cls.length - 1, by omega⟩
  have hj : N + cls.length - 1 = N + n := by omega
  rw [hj] at hr
  obtain ⟨me, hme, lk⟩ := hi.links n (by omega)
  have hpl : s.insts.length = N + n + 1 := by rw [hi.len]; omega
  -- the load must have succeeded
  cases hl : P.load nm with
  | none =>
    rw [← hr] at hok
    simp [extend, hl, M.ofOption, M.bind, M.throw] at hok
  | some c =>
  cases hc : P.classes[c]? with
  | none =>
    rw [← hr] at hok
    simp [extend, hl, M.ofOption, M.bind, M.pure, getInst, hme, newInst, hc] at hok
  | some cl =>
  have hclm : cl ∈ P.classes := List.mem_of_getElem? hc
  obtain ⟨s', hs', ex⟩ := extend_run P (N + n) nm s hl hc hme
  rw [hs'] at hr
  subst hr
  simp only [Except.ok.injEq] at hok
  refine ⟨cl, by simp; omega, by simp, by simp [ex.len, hi.len]; omega, ?_⟩
  have hfns : ∃ l, s'.fns = s.fns ++ l := ⟨_, by rw [ex.fns, List.append_assoc]⟩
  have hold : ∀ (i : Nat), i ≤ n → (cls ++ [cl])[i]? = cls[i]? := fun i hi =>
    List.getElem?_append_left (by omega)
  have hnewc : (cls ++ [cl])[n + 1]? = some cl := by
    rw [List.getElem?_append_right (by omega)]; simp [hn]
  -- facts about the extending instance
  obtain ⟨mc, hmc⟩ : ∃ mc, cls[n]? = some mc := ⟨cls[n]'(by omega), List.getElem?_eq_getElem _⟩
  have hmcm : mc ∈ P.classes := by
    have := lk.ofCls; rw [hmc] at this; exact List.mem_of_getElem? this
  have hnone : cls[n + 1]? = none := List.getElem?_eq_none (by omega)
  have hall : (∀ i c', i ≤ n → cls[i]? = some c' → ¬ hasMethod c' f) → me.globals.get f = plain f mc :=
    fun hh => lk.absent (fun i c' hi hc' => by
      rcases Nat.lt_or_ge n i with hlt | hge
      · have : i = n + 1 := by omega
        subst this; rw [hnone] at hc'; cases hc'
      · exact hh i c' hge hc') mc hmc
  have hnames := h.name
  simp only [reserved, List.map_cons, List.map_nil, List.mem_cons, List.not_mem_nil, or_false, not_or] at hnames
  intro k hk
  simp only [List.length_append, List.length_cons, List.length_nil, hn] at hk
  rcases Nat.lt_trichotomy k n with hlt | heq | hgt
  · -- untouched
    obtain ⟨x, hx, lx⟩ := hi.links k (by omega)
    refine ⟨x, ?_, ?_⟩
    · rw [ex.others (N + k) (by omega) (by omega)]; exact hx
    · constructor
      · rw [lx.ofCls, hold k (by omega)]
      · exact lx.context
      · exact lx.dist
      · exact fun _ => lx.here (by omega)
      · exact lx.me
      · exact fun _ => lx.up (by omega)
      · exact lx.down
      · intro i c' hi' hc' hm hmin
        rw [hold i (by omega)] at hc'
        exact bound_mono f hfns (lx.own i c' hi' hc' hm fun i' c'' hi'' hc'' =>
          hmin i' c'' hi'' (by rw [hold i' (by omega)]; exact hc''))
      · intro hh m hm hpl' c' hc' hm'
        rw [hold _ (by omega)] at hm hc'
        exact bound_mono f hfns (lx.inh (fun i c'' hi'' hc'' =>
          hh i c'' hi'' (by rw [hold i (by omega)]; exact hc'')) m hm hpl' c' hc' hm')
      · intro hh m hm
        rw [hold _ (by omega)] at hm
        exact lx.absent (fun i c'' hi'' hc'' => hh i c'' hi'' (by rw [hold i (by omega)]; exact hc'')) m hm
      · intro hh m hm v hv
        rw [hold _ (by omega)] at hm
        exact lx.shadow (fun i c'' hi'' hc'' => hh i c'' hi'' (by rw [hold i (by omega)]; exact hc'')) m hm v hv
      · intro c' hc' hm
        rw [hold k (by omega)] at hc'
        exact bound_mono f hfns (lx.attrOwn c' hc' hm)
      · intro hk0 c' hc' hno c'' hc'' hm hca
        rw [hold _ (by omega)] at hc' hc''
        obtain ⟨id, h1, h2⟩ := lx.attrUp hk0 c' hc' hno c'' hc'' hm hca
        obtain ⟨l, hl⟩ := hfns
        exact ⟨id, h1, by rw [hl, List.getElem?_append_left (List.getElem?_eq_some_iff.1 h2).1]; exact h2⟩
      · intro hk0 hh
        exact lx.attrNone hk0 fun i c'' hi'' hc'' => hh i c'' hi'' (by rw [hold i (by omega)]; exact hc'')
  · -- the extending instance
    subst heq
    have hg := child_get s cl me lk.dist (N + k) f (by
      simp only [List.mem_cons, List.not_mem_nil, or_false, not_or]; exact ⟨hnames.2.2.1, hnames.1⟩)
    rw [main_filter P f ctx h, get_extNew P f ctx h s hclm me lk.context] at hg
    refine ⟨extChild s cl me (N + k), ex.old, ?_⟩
    constructor
    · rw [hold k (Nat.le_refl _)]; exact lk.ofCls
    · exact lk.context
    · exact extChild_distinct s cl me lk.dist _
    · exact fun _ => child_local s cl me _
    · intro hso
      rw [child_get s cl me lk.dist _ _ (by decide), lk.me hso]; rfl
    · intro _; rw [child_parent, hpl]
    · intro k' hk'
      rw [child_get s cl me lk.dist _ _ (by decide), lk.down k' hk']; rfl
    · intro i c' hi' hc' hm hmin
      rw [hold i (by omega)] at hc'
      have hb := lk.own i c' hi' hc' hm fun i' c'' hi'' hc'' =>
          hmin i' c'' hi'' (by rw [hold i' (by omega)]; exact hc'')
      obtain ⟨d, b, hdb⟩ := hm
      obtain ⟨id, hid, -⟩ := hb d b hdb
      rw [hg, hid]
      rw [hid] at hb
      exact bound_mono f hfns hb
    · intro hh m hm hpl' c' hc' hm'
      have hc2 : c' = cl := by rw [hnewc] at hc'; cases hc'; rfl
      subst hc2
      rw [hold k (Nat.le_refl _), hmc] at hm
      cases hm
      rw [hg, hall (fun i c'' hi'' hc'' => hh i c'' hi'' (by rw [hold i hi'']; exact hc'')), hpl', Option.none_or]
      have hb := bound_new P f ctx h (s := s) (s' := ⟨[], [], s.fns ++ methodFns s.insts.length c'.methods, [], s.world, s.stacks⟩) hclm ⟨[], by simp⟩
      have hf' := isTpl_bound f hm' hb []
      obtain ⟨d, b, hdb⟩ := hm'
      obtain ⟨id, hid, -⟩ := hb d b hdb
      rw [hid] at hb hf' ⊢
      simp only [Option.some_or]
      simp only [List.append_nil] at hf'
      rw [show extTpl s c' = (s.fns ++ methodFns s.insts.length c'.methods).map (·.tpl) from rfl, hf', ← hid]
      have := bound_new P f ctx h (s := s) (s' := s') hclm ⟨_, ex.fns⟩
      rw [hpl] at this
      exact this
    · intro hh m hm
      rw [hold k (Nat.le_refl _), hmc] at hm
      cases hm
      rw [hg, hall (fun i c'' hi'' hc'' => hh i c'' (by omega) (by rw [hold i hi'']; exact hc'')),
        method_absent f (hh (k + 1) cl (Nat.le_refl _) hnewc), Option.none_or,
        isTpl_notFn (plain_notFn P f ctx h hclm), Option.or_none]
    · intro hh m hm v hv
      rw [hold k (Nat.le_refl _), hmc] at hm
      cases hm
      rw [hg, hall (fun i c'' hi'' hc'' => hh i c'' (by omega) (by rw [hold i hi'']; exact hc'')), hv]
      rfl
    · intro c' hc' hm
      rw [hold k (Nat.le_refl _)] at hc'
      have hb := lk.attrOwn c' hc' hm
      obtain ⟨d, b, hdb⟩ := hm
      obtain ⟨id, hid, -⟩ := hb d b hdb
      have hnt : (trampDict (s.fns.length + cl.methods.length) (extTramps s cl me)).get f = none := by
        apply get_none_of_not_mem
        rw [trampDict_keys, mem_extTramps]
        rintro ⟨v, -, h3, -⟩
        rw [hid] at h3; cases h3
      rw [get_childAttrs, hnt, Option.none_or]
      exact bound_mono f hfns hb
    · intro hk0 c' hc' hno c'' hc'' hm hca
      subst hk0
      rw [hold 0 (Nat.le_refl _)] at hc'
      rw [hnewc] at hc''
      cases hc''
      have hno' : ∀ i c', i ≤ 0 → cls[i]? = some c' → ¬ hasMethod c' f := by
        intro i c3 hi3 hc3
        have : i = 0 := by omega
        subst this
        rw [hc'] at hc3; cases hc3; exact hno
      have hat : me.attrs.get f = none := lk.attrNone rfl fun i c3 hi3 hc3 => by
        rcases Nat.lt_or_ge 0 i with hlt | hge
        · have : i = 0 + 1 := by omega
          subst this; rw [hnone] at hc3; cases hc3
        · exact hno' i c3 hge hc3
      have hb := bound_new P f ctx h (s := s) (s' := ⟨[], [], s.fns ++ methodFns s.insts.length cl.methods, [], s.world, s.stacks⟩) hclm ⟨[], by simp⟩
      have hf' := isTpl_bound f hm hb []
      simp only [List.append_nil] at hf'
      obtain ⟨d, b, hdb⟩ := hm
      obtain ⟨id, hid, -⟩ := hb d b hdb
      rw [hid] at hf'
      have hmem : f ∈ extTramps s cl me := by
        rw [mem_extTramps]
        refine ⟨.fn id, ⟨?_, ?_⟩, hat, hca⟩
        · rw [extOver, get_overrides _ lk.dist, main_filter P f ctx h, hall hno',
            isTpl_notFn (plain_notFn P f ctx h hmcm), Option.none_or,
            get_extNew P f ctx h s hclm me lk.context, hid]
          rfl
        · have h2 : isTpl (extTpl s cl) (.fn id) = true := (Option.filter_eq_some_iff.1 hf').2
          have h3 : (f != "__main__".toList) = true := bne_iff_ne.2 hnames.2.2.2.2.2.2
          rw [h2, h3]; rfl
      obtain ⟨i, h1, h2⟩ := trampDict_found hmem (s.fns.length + cl.methods.length)
      refine ⟨_, by rw [get_childAttrs, h1]; rfl, ?_⟩
      have hlen : (s.fns ++ methodFns s.insts.length cl.methods).length = s.fns.length + cl.methods.length := by
        simp [methodFns]
      rw [ex.fns, List.getElem?_append_right (by omega), hlen]
      simp [h2]
    · intro hk0 hh
      subst hk0
      have hno' : ∀ i c', i ≤ 0 → cls[i]? = some c' → ¬ hasMethod c' f := fun i c' hi' hc' =>
        hh i c' (by omega) (by rw [hold i hi']; exact hc')
      have hat : me.attrs.get f = none := lk.attrNone rfl fun i c3 hi3 hc3 => by
        rcases Nat.lt_or_ge 0 i with hlt | hge
        · have : i = 0 + 1 := by omega
          subst this; rw [hnone] at hc3; cases hc3
        · exact hno' i c3 hge hc3
      have hnt : (trampDict (s.fns.length + cl.methods.length) (extTramps s cl me)).get f = none := by
        apply get_none_of_not_mem
        rw [trampDict_keys, mem_extTramps]
        rintro ⟨v, ⟨h3, h4⟩, -, -⟩
        rw [extOver, get_overrides _ lk.dist, main_filter P f ctx h, hall hno',
            isTpl_notFn (plain_notFn P f ctx h hmcm), Option.none_or,
            get_extNew P f ctx h s hclm me lk.context, method_absent f (hh 1 cl (Nat.le_refl _) hnewc),
            Option.none_or] at h3
        cases v with
        | fn id => exact plain_notFn P f ctx h hclm id h3
        | _ => simp [isTpl] at h4
      rw [get_childAttrs, hnt, Option.none_or, hat]
  · -- the new instance
    have hkn : k = n + 1 := by omega
    subst hkn
    have hg := parent_get s cl me lk.dist (N + n) c f (by
      simp only [List.mem_cons, List.not_mem_nil, or_false, not_or]
      exact ⟨hnames.2.2.2.1, hnames.1, hnames.2.1⟩)
    rw [main_filter P f ctx h, get_extNew P f ctx h s hclm me lk.context] at hg
    refine ⟨extParent s cl me (N + n) c, by rw [← Nat.add_assoc, ← hpl]; exact ex.newI, ?_⟩
    have hplain : (∀ i c', i ≤ n → cls[i]? = some c' → ¬ hasMethod c' f) →
        (extParent s cl me (N + n) c).globals.get f =
          ((methodDict s.fns.length cl.methods).get f).or (plain f cl) := by
      intro hh
      rw [hg, hall hh, isTpl_notFn (plain_notFn P f ctx h hmcm), Option.none_or]
    constructor
    · rw [hnewc]; exact hc
    · exact lk.context
    · exact extParent_distinct s cl me _ _
    · intro _; rw [parent_local, hpl]; rfl
    · intro hso; exact parent_self s cl me _ _ (lk.me hso)
    · intro hlt; simp [hn] at hlt
    · intro k' hk'
      have : k' = n := by omega
      subst this
      exact parent_child s cl me _ _
    · intro i c' hi' hc' hm hmin
      rcases Nat.lt_or_ge n i with hlt | hge
      · have : i = n + 1 := by omega
        subst this
        rw [hnewc] at hc'
        cases hc'
        rw [hplain fun i c'' hi'' hc'' => hmin i c'' (by omega) (by rw [hold i hi'']; exact hc'')]
        have hb := bound_new P f ctx h (s := s) (s' := s') hclm ⟨_, ex.fns⟩
        obtain ⟨d, b, hdb⟩ := hm
        obtain ⟨id, hid, -⟩ := hb d b hdb
        rw [hid, Option.some_or, ← hid]
        rw [hpl] at hb
        exact hb
      · rw [hold i hge] at hc'
        have hb := lk.own i c' hge hc' hm fun i' c'' hi'' hc'' =>
          hmin i' c'' hi'' (by rw [hold i' (by omega)]; exact hc'')
        have hf' := isTpl_bound f hm hb (methodFns s.insts.length cl.methods)
        rw [hg, show extTpl s cl = (s.fns ++ methodFns s.insts.length cl.methods).map (·.tpl) from rfl, hf']
        obtain ⟨d, b, hdb⟩ := hm
        obtain ⟨id, hid, -⟩ := hb d b hdb
        rw [hid, Option.some_or, ← hid]
        exact bound_mono f hfns hb
    · intro hh m hm hpl' c' hc'
      rw [List.getElem?_eq_none (by simp [hn])] at hc'
      cases hc'
    · intro hh m hm
      rw [hnewc] at hm
      cases hm
      rw [hplain fun i c'' hi'' hc'' => hh i c'' (by omega) (by rw [hold i hi'']; exact hc''),
        method_absent f (hh (n + 1) cl (by omega) hnewc), Option.none_or]
    · intro hh m hm v hv
      rw [hnewc] at hm
      cases hm
      rw [hplain fun i c'' hi'' hc'' => hh i c'' (by omega) (by rw [hold i hi'']; exact hc''),
        method_absent f (hh (n + 1) cl (Nat.le_refl _) hnewc), Option.none_or, hv]
    · intro c' hc' hm
      rw [hnewc] at hc'
      cases hc'
      have hb := bound_new P f ctx h (s := s) (s' := s') hclm ⟨_, ex.fns⟩
      rw [hpl] at hb
      exact hb
    · intro hk0; omega
    · intro hk0; omega

theorem chain_all (h : ChainHyp P f ctx) {so : Prop} (nms : List Str) {s : Store C W} {N : Nat}
    {cls : List (Cls C)} (hi : ChainInv P f ctx so s N cls) {q : Nat}
    (hok : (extendAll P (N + cls.length - 1) nms s).val = .ok q) :
    ∃ cls', cls'.length = cls.length + nms.length ∧ q = N + cls'.length - 1 ∧
      ChainInv P f ctx so (extendAll P (N + cls.length - 1) nms s).st N cls' := by
  induction nms generalizing s cls with
  | nil =>
    simp only [extendAll, M.pure, Except.ok.injEq] at hok
    exact ⟨cls, by simp, hok.symm, hi⟩
  | cons nm nms ih =>
    simp only [extendAll, M.bind] at hok ⊢
    cases hv : (extend P (N + cls.length - 1) nm s).val with
    | error e => rw [hv] at hok; simp at hok
    | ok p =>
      obtain ⟨cl, rfl, hi'⟩ := chain_step P f ctx h hi rfl hv
      rw [hv] at hok
      dsimp only at hok ⊢
      obtain ⟨cls', h1, h2, h3⟩ := ih hi' hok
      exact ⟨cls', by rw [h1]; simp; omega, h2, h3⟩

theorem chain_start (h : ChainHyp P f ctx) {c : Nat} {cl : Cls C} (hc : P.classes[c]? = some cl)
    (s : Store C W) :
    ∃ s', newInst P c ctx s = ⟨.nil, s', .ok s.insts.length⟩ ∧
      ChainInv P f ctx (newGlobals s.insts.length cl.baseGlobals (methodDict s.fns.length cl.methods) ctx
        |>.get "self".toList |> (· = some (.inst s.insts.length))) s' s.insts.length [cl] := by
  have hclm : cl ∈ P.classes := List.mem_of_getElem? hc
  have hnames := h.name
  simp only [reserved, List.map_cons, List.map_nil, List.mem_cons, List.not_mem_nil, or_false, not_or] at hnames
  refine ⟨_, by simp only [newInst, hc]; rfl, by simp, by simp, ?_⟩
  intro k hk
  have : k = 0 := by simpa using hk
  subst this
  refine ⟨_, by simp only [Nat.add_zero, List.getElem?_append_right (Nat.le_refl s.insts.length),
    Nat.sub_self, List.getElem?_cons_zero]; rfl, ?_⟩
  have hg : (newGlobals s.insts.length cl.baseGlobals (methodDict s.fns.length cl.methods) ctx).get f =
      ((methodDict s.fns.length cl.methods).get f).or (plain f cl) :=
    get_extNew P f ctx h s hclm ⟨0, ctx, [], []⟩ rfl
  constructor
  · simpa using hc
  · rfl
  · exact newGlobals_distinct _ _ _ _
  · intro h; simp at h
  · exact fun h => h
  · intro h; simp at h
  · intro k' h; omega
  · intro i c' hi' hc' hm hmin
    have : i = 0 := by omega
    subst this
    simp only [List.getElem?_cons_zero, Option.some.injEq] at hc'
    subst hc'
    dsimp only
    rw [hg]
    have hb := bound_new P f ctx h (s := s)
      (s' := ⟨s.insts ++ [⟨c, ctx, newGlobals s.insts.length cl.baseGlobals (methodDict s.fns.length cl.methods) ctx, methodDict s.fns.length cl.methods⟩], s.frames, s.fns ++ methodFns s.insts.length cl.methods, s.used, s.world,
        fun j => if j = s.insts.length then ⟨[], []⟩ else s.stacks j⟩) hclm ⟨[], by simp⟩
    obtain ⟨d, b, hdb⟩ := hm
    obtain ⟨id, hid, -⟩ := hb d b hdb
    rw [hid, Option.some_or, ← hid]
    exact hb
  · intro hh m hm hpl c' hc'; simp at hc'
  · intro hh m hm
    simp only [List.getElem?_cons_zero, Option.some.injEq] at hm
    subst hm
    dsimp only
    rw [hg, method_absent f (hh 0 cl (by omega) rfl), Option.none_or]
  · intro hh m hm v hv
    simp only [List.getElem?_cons_zero, Option.some.injEq] at hm
    subst hm
    dsimp only
    rw [hg, method_absent f (hh 0 cl (by omega) rfl), Option.none_or, hv]
  · intro c' hc' hm
    simp only [List.getElem?_cons_zero, Option.some.injEq] at hc'
    subst hc'
    exact bound_new P f ctx h (s := s)
      (s' := ⟨s.insts ++ [⟨c, ctx, newGlobals s.insts.length cl.baseGlobals (methodDict s.fns.length cl.methods) ctx, methodDict s.fns.length cl.methods⟩], s.frames, s.fns ++ methodFns s.insts.length cl.methods, s.used, s.world,
        fun j => if j = s.insts.length then ⟨[], []⟩ else s.stacks j⟩) hclm ⟨[], by simp⟩
  · intro _ c' hc' hno c'' hc''; simp at hc''
  · intro _ hh
    exact method_absent f (hh 0 cl (by omega) rfl) _

end Kajiki.Run
