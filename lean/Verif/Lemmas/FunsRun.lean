import Verif.Lemmas.FunsMean

/-! Building a chain of templates with functions. -/

namespace Kajiki.FunsDoc
open Kajiki.Run Kajiki.Spec.Pure Kajiki.Spec.DocSem Kajiki.PureDoc Kajiki.LayoutDoc
open Kajiki.Spec.Layout (Child elsewhere parentBlock BlockName plainName readable names)
open Kajiki.Spec.Funs (Calls means fnAt Reserved goodFn levels)

/-! ## Classes -/

/-- A function of one of the templates has this name. -/
def FnName (ls : List Spec.Funs.Level) (f : Str) : Prop := ∃ l ∈ ls, ∃ d ∈ l.fns, d.name = f

/-- What is needed to build the templates. -/
structure Good (context : Dict Val) (ls : List Spec.Funs.Level) : Prop where
  distinct : ∀ l ∈ ls, (l.fns.map (·.name)).Nodup
  fnames : ∀ f, FnName ls f → f ∉ names
  free : ∀ k, k = "local".toList ∨ FnName ls k → Dict.get context k = none
  baseD : ∀ l ∈ ls, (l.t.base.map (·.1)).Nodup
  baseF : ∀ l ∈ ls, ∀ k, k = "local".toList ∨ FnName ls k → Dict.get l.t.base k = none
  ctxD : (context.map (·.1)).Nodup

theorem good_of {W : Type} {O : Oracle W} {py : Py} {C : Calls} {context : Dict Val} {ls : List Spec.Funs.Level}
    (hr : Spec.Funs.Runs O py C context ls) (hn : (context.map (·.1)).Nodup) : Good context ls where
  distinct := hr.distinct
  fnames := by
    rintro f ⟨l, hl, d, hd, rfl⟩
    have hg := hr.good l hl d hd
    cases d with
    | block name kids =>
      rw [block_name hg]
      exact fun hm => block_names _ hm (blockName_is name)
    | defn decl kids => exact fun hm => hg.1 (List.mem_cons_of_mem _ hm)
  free k hk := hr.free k (hk.imp id .inr)
  baseD l hl := (hr.bases l hl).1
  baseF l hl k hk := (hr.bases l hl).2 k (hk.imp id .inr)
  ctxD := hn

/-- The functions of a template: the main one, and the others. -/
def Shape (l : Spec.Funs.Level) (body : Part) : Prop :=
  l.t.functions = ("__main__()".toList, body) :: l.fns.map (fnPart l.t.conf l.place)

section
variable {context : Dict Val} {ls : List Spec.Funs.Level} {l : Spec.Funs.Level} {body : Part}

theorem main_name : "__main__".toList ∈ names := by decide +kernel

theorem decls_nodup (hg : Good context ls) (hl : l ∈ ls) :
    (("__main__()".toList :: l.fns.map (·.decl)).map declName).Nodup := by
  rw [List.map_cons, List.nodup_cons, declName_main, List.map_map]
  refine ⟨fun hx => ?_, hg.distinct l hl⟩
  obtain ⟨d, hd, he⟩ := List.mem_map.1 hx
  exact hg.fnames _ ⟨l, hl, d, hd, he⟩ main_name

theorem shape_of (hg : Good context ls) (hl : l ∈ ls) {root : DNode} (hroot : l.t.root? = some root)
    (hd : defs l.t.conf .root root = l.fns.map (fnPart l.t.conf l.place)) :
    Shape l (.main l.t.conf (l.t.doctype root) root) := by
  unfold Shape Template.functions
  rw [hroot]
  dsimp only
  rw [hd]
  have hn := decls_nodup hg hl
  generalize l.t.doctype root = dt
  generalize "__main__()".toList = m at hn
  rw [update_append]
  · simp [Dict.set]
  · have : (m :: l.fns.map (·.decl)).Nodup := List.Nodup.of_map _ hn
    simpa [fnPart, Function.comp_def] using this

theorem names_nodup' (hg : Good context ls) (hl : l ∈ ls) (h : Shape l body) :
    (l.t.functions.map fun d => declName d.1).Nodup := by
  have hn := decls_nodup hg hl
  rw [h]
  simpa [fnPart, Function.comp_def] using hn

theorem main_mem' (hg : Good context ls) (hl : l ∈ ls) (h : Shape l body) :
    ("__main__".toList, "__main__()".toList, body) ∈ (classOf l.t.functions l.t.base).methods := by
  have := methodsOf_mem (names_nodup' hg hl h) ("__main__()".toList, body) (by rw [h]; exact List.mem_cons_self)
  rw [declName_main] at this
  exact this

theorem fn_method (hg : Good context ls) (hl : l ∈ ls) (h : Shape l body) {d : Spec.Funs.Fn} (hd : d ∈ l.fns) :
    (d.name, fnPart l.t.conf l.place d) ∈ (classOf l.t.functions l.t.base).methods :=
  methodsOf_mem (names_nodup' hg hl h) (fnPart l.t.conf l.place d) (by
    rw [h]; exact List.mem_cons_of_mem _ (List.mem_map_of_mem hd))

/-- No function has the name. -/
theorem method_none' (h : Shape l body) (N : Nat) {k : Str} (h1 : k ≠ "__main__".toList) (h2 : l.fn k = none) :
    Dict.get (methodDict N (classOf l.t.functions l.t.base).methods) k = none := by
  refine methodDict_absent (fun d b hm => ?_) N
  obtain ⟨x, hx, he⟩ := methodsOf_from hm
  rw [h] at hx
  have hk : k = declName x.1 := congrArg Prod.fst he
  rcases List.mem_cons.1 hx with rfl | hx
  · rw [declName_main] at hk
    exact h1 hk
  · obtain ⟨d, hd, rfl⟩ := List.mem_map.1 hx
    unfold Spec.Funs.Level.fn at h2
    have := List.find?_eq_none.1 h2 d hd
    exact this (by rw [hk]; exact beq_self_eq_true _)

/-- A function with the name. -/
theorem method_some (hg : Good context ls) (hl : l ∈ ls) (h : Shape l body) (N : Nat) {k : Str} {d : Spec.Funs.Fn}
    (hd : l.fn k = some d) : ∃ j, Dict.get (methodDict N (classOf l.t.functions l.t.base).methods) k = some (.fn (N + j)) ∧
      (classOf l.t.functions l.t.base).methods[j]? = some (k, d.decl, (fnPart l.t.conf l.place d).2) := by
  obtain ⟨h1, rfl⟩ := fn_mem hd
  exact methodDict_found (methods_nodup l.t.functions) (fn_method hg hl h h1) N

theorem fn_none (hg : Good context ls) (hl : l ∈ ls) {k : Str} (hk : k ∈ names) : l.fn k = none := by
  cases hf : l.fn k with
  | none => rfl
  | some d =>
    obtain ⟨h1, h2⟩ := fn_mem hf
    exact absurd hk (hg.fnames k ⟨l, hl, d, h1, h2⟩)

/-- The global variables of a new instance: functions. -/
theorem newG_fn (hg : Good context ls) (hl : l ∈ ls) (i N : Nat) {f : Str} (hf : FnName ls f) :
    Dict.get (newG i N l.t context) f = Dict.get (methodDict N (classOf l.t.functions l.t.base).methods) f := by
  have hb := hg.fnames f hf
  have hne : ∀ k ∈ names, f ≠ k := fun k hk he => hb (he ▸ hk)
  unfold newG
  rw [get_newGlobals _ _ _ _ (hg.baseD l hl) (methods_distinct N) hg.ctxD _ (hne _ (by decide +kernel))
    (hne _ (by decide +kernel)), hg.free _ (.inr hf), hg.baseF l hl _ (.inr hf), if_neg]
  · have : Dict.get builtins f = none := by
      apply Dict.get_none_of_not_mem
      intro hm
      exact hb ((by decide +kernel : ∀ x ∈ builtins.map (·.1), x ∈ names) _ hm)
    rw [this]
    simp
  · rintro (he | he) <;> exact hne _ (by decide +kernel) he

theorem newG_local' (hg : Good context ls) (hl : l ∈ ls) (h : Shape l body) (i N : Nat) :
    Dict.get (newG i N l.t context) "local".toList = some (.inst i) :=
  StaticDoc.globals_local _ _ _ _ (hg.baseF l hl _ (.inl rfl)) (method_none' h N (by decide +kernel)
    (fn_none hg hl (by decide +kernel))) (hg.free _ (.inl rfl))

theorem newG_globals' (hg : Good context ls) (hl : l ∈ ls) (h : Shape l body) (i N : Nat) :
    Spec.Funs.Globals ls context fun k => Dict.get (newG i N l.t context) k := by
  refine ⟨fun k x hk hne => ?_, fun k h1 h2 h3 h4 => ?_⟩
  · dsimp only
    unfold newG
    rw [get_newGlobals _ _ _ _ (hg.baseD l hl) (methods_distinct N) hg.ctxD, hk]
    · rfl
    · rintro rfl; exact hne (by decide +kernel)
    · rintro rfl; exact hne (by decide +kernel)
  · have hk : ∀ k' ∈ names, k ≠ k' := fun k' hk' he => h3 (he ▸ hk')
    dsimp only
    unfold newG
    rw [get_newGlobals _ _ _ _ (hg.baseD l hl) (methods_distinct N) hg.ctxD _ (hk _ (by decide +kernel))
      (hk _ (by decide +kernel)), h1, method_none' h N (hk _ (by decide +kernel)), h2 _ hl, if_neg]
    · have : Dict.get builtins k = none := by
        apply Dict.get_none_of_not_mem
        intro hm
        exact h3 ((by decide +kernel : ∀ x ∈ builtins.map (·.1), x ∈ names) _ hm)
      rw [this]
      rfl
    · rintro (he | he) <;> exact hk _ (by decide +kernel) he
    · cases hf : l.fn k with
      | none => rfl
      | some d =>
        obtain ⟨h5, h6⟩ := fn_mem hf
        exact absurd (.inr ⟨l, hl, d, h5, h6⟩) h4

end

/-! ## Instances -/

section
variable {W : Type}

/-- An instance of a chain of templates. -/
structure Lev (ls : List Spec.Funs.Level) (context : Dict Val) (insts : List Inst) (a : Nat) (I : Inst) : Prop where
  inst : insts[a]? = some I
  ctx : I.context = context
  dist : Dict.Distinct I.globals
  loc : Dict.get I.globals "local".toList = some (.inst a)
  gt : ∃ g, Dict.get I.globals "gettext".toList = some g
  gl : Spec.Funs.Globals ls context (glob I)

/-- The function with the given name of the first of `n` templates that has one. -/
def firstIn (ls : List Spec.Funs.Level) (n : Nat) (f : Str) : Option (Nat × Spec.Funs.Fn) :=
  (List.range n).findSome? fun b => (fnAt ls b f).map fun d => (b, d)

theorem firstIn_succ (ls : List Spec.Funs.Level) (n : Nat) (f : Str) :
    firstIn ls (n + 1) f = (firstIn ls n f).or ((fnAt ls n f).map fun d => (n, d)) := by
  unfold firstIn
  rw [List.range_succ, List.findSome?_append]
  congr 1
  simp only [List.findSome?_cons, List.findSome?_nil]
  cases fnAt ls n f <;> rfl

theorem firstIn_name {ls : List Spec.Funs.Level} {n : Nat} {f : Str} {x : Nat × Spec.Funs.Fn} (h : firstIn ls n f = some x) :
    FnName ls f := by
  unfold firstIn at h
  obtain ⟨b', -, h⟩ := List.exists_of_findSome?_eq_some h
  cases hf : fnAt ls b' f with
  | none => rw [hf] at h; cases h
  | some d' =>
    obtain ⟨l, h1, -, h3⟩ := fnAt_mem hf
    exact ⟨l, List.mem_of_getElem? h1, d', h3⟩

/-- The function object of function `d` of template `a`. -/
def CodeOf (ls : List Spec.Funs.Level) (fns : List (Run.Fn Part)) (a : Nat) (d : Spec.Funs.Fn) (g : Nat) : Prop :=
  ∃ l, ls[a]? = some l ∧ fns[g]? = some ⟨.code d.decl (fnPart l.t.conf l.place d).2, a, none, true⟩

theorem CodeOf.mono {ls : List Spec.Funs.Level} {fns fns' : List (Run.Fn Part)} {a : Nat} {d : Spec.Funs.Fn} {g : Nat}
    (h : CodeOf ls fns a d g) (hf : ∃ l, fns' = fns ++ l) : CodeOf ls fns' a d g := by
  obtain ⟨l, h1, h2⟩ := h
  obtain ⟨l', rfl⟩ := hf
  exact ⟨l, h1, by rw [List.getElem?_append_left (List.getElem?_eq_some_iff.1 h2).1]; exact h2⟩

/-- What a name means: a function, or nothing. -/
def Names (ls : List Spec.Funs.Level) (fns : List (Run.Fn Part)) (v : Option Val) : Option (Nat × Spec.Funs.Fn) → Prop
  | some (a, d) => ∃ g, v = some (.fn g) ∧ CodeOf ls fns a d g
  | none => v = none

theorem Names.mono {ls : List Spec.Funs.Level} {fns fns' : List (Run.Fn Part)} {v : Option Val}
    {o : Option (Nat × Spec.Funs.Fn)} (h : Names ls fns v o) (hf : ∃ l, fns' = fns ++ l) : Names ls fns' v o := by
  cases o with
  | none => exact h
  | some x =>
    obtain ⟨a, d⟩ := x
    obtain ⟨g, h1, h2⟩ := h
    exact ⟨g, h1, h2.mono hf⟩

/-- The instance of a template that extends another one, when that one is there. -/
structure Ext (ls : List Spec.Funs.Level) (fns : List (Run.Fn Part)) (a : Nat) (I : Inst) : Prop where
  named : ∀ f, FnName ls f → Names ls fns (Dict.get I.globals f) (firstIn ls (a + 2) f)
  parent : Dict.get I.globals "parent".toList = some (.inst (a + 1))
  own : ∀ f d, fnAt ls a f = some d → ∃ g, Dict.get I.attrs f = some (.fn g) ∧ CodeOf ls fns a d g
  up : ∀ f, BlockName f → fnAt ls a f = none → firstIn ls (a + 2) f ≠ none →
    ∃ g, Dict.get I.attrs f = some (.fn g) ∧ fns[g]? = some ⟨.tramp f, a, none, true⟩

theorem Ext.mono {ls : List Spec.Funs.Level} {fns fns' : List (Run.Fn Part)} {a : Nat} {I : Inst} (h : Ext ls fns a I)
    (hf : ∃ l, fns' = fns ++ l) : Ext ls fns' a I := by
  refine ⟨fun f hn => (h.named f hn).mono hf, h.parent, fun f d hd => ?_, fun f hb hn hm => ?_⟩
  · obtain ⟨g, h1, h2⟩ := h.own f d hd
    exact ⟨g, h1, h2.mono hf⟩
  · obtain ⟨g, h1, h2⟩ := h.up f hb hn hm
    obtain ⟨l', rfl⟩ := hf
    exact ⟨g, h1, by rw [List.getElem?_append_left (List.getElem?_eq_some_iff.1 h2).1]; exact h2⟩

/-- The state after building a part of a chain, up to template `k`; `I` is its instance. -/
structure State (ls : List Spec.Funs.Level) (context : Dict Val) (insts : List Inst) (fns : List (Run.Fn Part)) (k : Nat)
    (I : Inst) (body : Part) : Prop where
  len : insts.length = k + 1
  before : ∀ a < k, ∃ J, Lev ls context insts a J ∧ Ext ls fns a J
  cur : Lev ls context insts k I
  main : ∃ f, Dict.get I.attrs "__main__".toList = some (.fn f) ∧
    fns[f]? = some ⟨.code "__main__()".toList body, k, none, true⟩
  named : ∀ f, FnName ls f → Names ls fns (Dict.get I.globals f) (firstIn ls (k + 1) f)
  own : ∀ f d, fnAt ls k f = some d → ∃ g, Dict.get I.attrs f = some (.fn g) ∧ CodeOf ls fns k d g
  noAttr : ∀ f, f ≠ "__main__".toList → fnAt ls k f = none → Dict.get I.attrs f = none

variable {ls : List Spec.Funs.Level} {context : Dict Val} {s s' : Store Part W} {I : Inst}

theorem fnAt_at {a : Nat} {l : Spec.Funs.Level} (h : ls[a]? = some l) (f : Str) : fnAt ls a f = l.fn f := by
  unfold fnAt
  rw [h]
  rfl

/-- The functions of a new instance, by name. -/
theorem new_names (hg : Good context ls) {k : Nat} {l : Spec.Funs.Level} (hk : ls[k]? = some l) {body : Part}
    (h : Shape l body) (s : Store Part W) (rest : List (Run.Fn Part)) {f : Str} (hf : f ≠ "__main__".toList) :
    Names ls (s.fns ++ methodFns k (classOf l.t.functions l.t.base).methods ++ rest)
      (Dict.get (methodDict s.fns.length (classOf l.t.functions l.t.base).methods) f)
      ((fnAt ls k f).map fun d => (k, d)) := by
  have hl := List.mem_of_getElem? hk
  rw [fnAt_at hk]
  cases hd : l.fn f with
  | none => exact method_none' h _ hf hd
  | some d =>
    obtain ⟨j, h1, h2⟩ := method_some hg hl h s.fns.length hd
    exact ⟨_, h1, l, hk, method_at h2 _⟩

/-- The first instance. -/
theorem state_new' {P : Prog Part} {i : Nat} {l : Spec.Funs.Level} (hk : ls[0]? = some l)
    (hcls : P.classes[i]? = some (classOf l.t.functions l.t.base)) (w : W) :
    ∃ s I, newInst P i context (emptyStore _ w) = ⟨.nil, s, .ok 0⟩ ∧ s.used = [] ∧ s.world = w ∧ s.frames = [] ∧
      (∀ (w' : W) (s' : Store Part W), newInst P i context (emptyStore _ w') = ⟨.nil, s', .ok 0⟩ → s'.insts = s.insts ∧ s'.fns = s.fns) ∧
      ∀ body, Good context ls → Shape l body → State ls context s.insts s.fns 0 I body := by
  let ms := (classOf l.t.functions l.t.base).methods
  let I : Inst := ⟨i, context, newG 0 0 l.t context, methodDict 0 ms⟩
  refine ⟨⟨[I], [], methodFns 0 ms, [], w, fun j => if j = 0 then ⟨[], []⟩ else ⟨[], []⟩⟩, I, ?_, rfl, rfl, rfl, ?_, ?_⟩
  · unfold newInst
    rw [hcls]
    rfl
  · intro w' s' h
    unfold newInst at h
    rw [hcls] at h
    cases h
    exact ⟨rfl, rfl⟩
  · intro body hg h
    have hl := List.mem_of_getElem? hk
    have hnames : ∀ f, f ≠ "__main__".toList → Names ls (methodFns 0 ms) (Dict.get (methodDict 0 ms) f)
        ((fnAt ls 0 f).map fun d => (0, d)) := fun f hf => by
      have := new_names hg hk h (emptyStore Part w) [] hf
      rw [List.append_nil] at this
      exact this
    refine ⟨rfl, nofun, ⟨rfl, rfl, newGlobals_distinct _ _ _ _, newG_local' hg hl h 0 0,
      StaticDoc.globals_gettext _ _ _ _, newG_globals' hg hl h 0 0⟩, ?_, fun f hf => ?_, fun f d hd => ?_, fun f hne hd => ?_⟩
    · obtain ⟨k, h1, h2⟩ := methodDict_found (methods_nodup l.t.functions) (main_mem' hg hl h) 0
      rw [Nat.zero_add] at h1
      exact ⟨k, h1, by simp only [methodFns, List.getElem?_map]; exact congrArg (Option.map _) h2⟩
    · rw [firstIn_succ]
      change Names ls (methodFns 0 ms) (Dict.get (newG 0 0 l.t context) f) ((none : Option _).or _)
      rw [newG_fn hg hl 0 0 hf, Option.none_or]
      exact hnames f fun (he : f = _) => hg.fnames f hf (he ▸ main_name)
    · have hfn : FnName ls f := by
        obtain ⟨l, h1, -, h3⟩ := fnAt_mem hd
        exact ⟨l, List.mem_of_getElem? h1, d, h3⟩
      have := hnames f fun (he : f = _) => hg.fnames f hfn (he ▸ main_name)
      rw [hd] at this
      exact this
    · have := hnames f hne
      rw [hd] at this
      exact this

theorem block_classAttrs {f : Str} (h : BlockName f) : f ∉ classAttrs := by
  intro hm
  have : ∀ x ∈ classAttrs, ¬BlockName x := by unfold BlockName; decide +kernel
  exact this f hm h

/-- One `py:extends`. -/
theorem state_extend' (hg : Good context ls) {k : Nat} {body : Part} (h : State ls context s.insts s.fns k I body) {i : Nat}
    {l : Spec.Funs.Level} (hk : ls[k + 1]? = some l) (ex : Extended s s' k i (classOf l.t.functions l.t.base) I)
    {body' : Part} (hs : Shape l body') :
    State ls context s'.insts s'.fns (k + 1) (extParent s (classOf l.t.functions l.t.base) I k i) body' := by
  have hl := List.mem_of_getElem? hk
  generalize hcl : classOf l.t.functions l.t.base = cl at ex
  have hnew : extNew s cl I = newG s.insts.length s.fns.length l.t context := by
    unfold extNew newG
    rw [h.cur.ctx, hcl]
    subst hcl
    rfl
  have hng := newG_globals' hg hl hs s.insts.length s.fns.length
  have hme := h.cur.gl
  have hfns : ∃ l, s'.fns = s.fns ++ l := ⟨_, by rw [ex.fns, List.append_assoc]⟩
  have hnn : ∀ f, f ≠ "__main__".toList → Names ls s'.fns (Dict.get (methodDict s.fns.length cl.methods) f)
      ((fnAt ls (k + 1) f).map fun d => (k + 1, d)) := fun f hf => by
    have := new_names hg hk hs s ((extTramps s cl I).map fun f => ⟨.tramp f, k, none, true⟩) hf
    rw [ex.fns, h.len]
    rw [hcl] at this
    exact this
  have hnm : ∀ f, FnName ls f → (f != "__main__".toList) = true := fun f hf => by
    simpa using fun (he : f = "__main__".toList) => hg.fnames f hf (he ▸ main_name)
  have hnewN : ∀ f, FnName ls f → Names ls s'.fns (Dict.get (extNew s cl I) f)
      ((fnAt ls (k + 1) f).map fun d => (k + 1, d)) := fun f hf => by
    rw [hnew, newG_fn hg hl _ _ hf, hcl]
    exact hnn f (by simpa using hnm f hf)
  -- functions are recognised
  have htpl : ∀ f o, FnName ls f → Names ls s.fns (Dict.get I.globals f) o →
      ((Dict.get I.globals f).filter fun v => f != "__main__".toList && isTpl (extTpl s cl) v) = Dict.get I.globals f := by
    intro f o hf ho
    cases o with
    | none => rw [show Dict.get I.globals f = none from ho]; rfl
    | some x =>
      obtain ⟨a, d⟩ := x
      obtain ⟨g, h1, l', -, h2⟩ := ho
      rw [h1, hnm f hf]
      have : (extTpl s cl)[g]? = some true := by
        unfold extTpl
        rw [List.getElem?_map, List.getElem?_append_left (List.getElem?_eq_some_iff.1 h2).1, h2]
        rfl
      simp [Option.filter, isTpl, this]
  have htplN : ∀ f, FnName ls f →
      ((Dict.get (extNew s cl I) f).filter fun v => f != "__main__".toList && isTpl (extTpl s cl) v) =
        Dict.get (extNew s cl I) f := by
    intro f hf
    rw [hnew, newG_fn hg hl _ _ hf]
    cases hd : l.fn f with
    | none => rw [method_none' hs _ (by simpa using hnm f hf) hd]; rfl
    | some d =>
      obtain ⟨j, h1, h2⟩ := method_some hg hl hs s.fns.length hd
      rw [h1, hnm f hf]
      have : (extTpl s cl)[s.fns.length + j]? = some true := by
        unfold extTpl
        rw [List.getElem?_map, ← hcl, ← List.append_nil (s.fns ++ _), method_at h2]
        rfl
      simp [Option.filter, isTpl, this]
  have hover : ∀ f, FnName ls f → Dict.get (extOver s cl I) f =
      (Dict.get I.globals f).or (Dict.get (extNew s cl I) f) := by
    intro f hf
    unfold extOver
    rw [get_overrides _ h.cur.dist, htpl f _ hf (h.named f hf)]
  have hor : ∀ f, FnName ls f → Names ls s'.fns ((Dict.get I.globals f).or (Dict.get (extNew s cl I) f))
      (firstIn ls (k + 2) f) := by
    intro f hf
    rw [firstIn_succ]
    have h1 := (h.named f hf).mono hfns
    have h2 := hnewN f hf
    generalize firstIn ls (k + 1) f = o at h1
    cases o with
    | none =>
      rw [show Dict.get I.globals f = none from h1, Option.none_or, Option.none_or]
      exact h2
    | some x =>
      obtain ⟨a, d⟩ := x
      obtain ⟨g, h3, h4⟩ := h1
      rw [h3]
      exact ⟨g, rfl, h4⟩
  refine ⟨?_, ?_, ?_, ?_, ?_, ?_, ?_⟩
  · rw [ex.len, h.len]
  · intro a ha
    by_cases hak : a < k
    · obtain ⟨J, hJ, hJ'⟩ := h.before a hak
      exact ⟨J, ⟨by rw [ex.others a (Nat.ne_of_lt hak) (by rw [h.len]; omega)]; exact hJ.inst, hJ.ctx, hJ.dist, hJ.loc,
        hJ.gt, hJ.gl⟩, hJ'.mono hfns⟩
    · have hak : a = k := by omega
      subst hak
      refine ⟨extChild s cl I a, ⟨ex.old, h.cur.ctx, extChild_distinct s cl I h.cur.dist _, child_local s cl I _, ?_, ?_, ?_⟩,
        fun f hf => ?_, ?_, fun f d hd => ?_, fun f hb hd hm => ?_⟩
      · obtain ⟨g, hg⟩ := h.cur.gt
        exact ⟨g, by rw [child_get s cl I h.cur.dist _ _ (by decide +kernel), hg]; rfl⟩
      · intro k v hk hne
        change Dict.get _ k = _
        rw [child_get s cl I h.cur.dist]
        · have := hme.1 k v hk hne
          unfold glob at this
          rw [this]
          rfl
        · intro hm
          simp only [List.mem_cons, List.not_mem_nil, or_false] at hm
          rcases hm with rfl | rfl
          · exact hne (by decide +kernel)
          · rw [hg.free _ (.inl rfl)] at hk; cases hk
      · intro k h1 h2 h3 h4
        change Dict.get _ k = _
        rw [child_get s cl I h.cur.dist]
        · have := hme.2 k h1 h2 h3 h4
          unfold glob at this
          have h5 := hng.2 k h1 h2 h3 h4
          dsimp only at h5
          rw [this, hnew, h5]
          rfl
        · intro hm
          exact h3 ((by decide +kernel : ∀ x ∈ ["parent".toList, "local".toList], x ∈ names) k hm)
      · rw [child_get s cl I h.cur.dist _ _ (fun hm => hg.fnames f hf
          ((by decide +kernel : ∀ x ∈ ["parent".toList, "local".toList], x ∈ names) _ hm)), htplN f hf]
        exact hor f hf
      · rw [child_parent, h.len]
      · obtain ⟨g, h1, h2⟩ := h.own f d hd
        refine ⟨g, ?_, h2.mono hfns⟩
        have hnt : (trampDict (s.fns.length + cl.methods.length) (extTramps s cl I)).get f = none := by
          apply Dict.get_none_of_not_mem
          rw [trampDict_keys, mem_extTramps]
          rintro ⟨v, -, h3, -⟩
          rw [h1] at h3; cases h3
        rw [get_childAttrs, hnt, Option.none_or]
        exact h1
      · have hfn : FnName ls f := by
          obtain ⟨x, hx⟩ := Option.ne_none_iff_exists'.1 hm
          exact firstIn_name hx
        have h1 := hor f hfn
        obtain ⟨x, hx⟩ := Option.ne_none_iff_exists'.1 hm
        rw [hx] at h1
        obtain ⟨b, d⟩ := x
        obtain ⟨g, h2, -⟩ := h1
        have hmem : f ∈ extTramps s cl I := by
          rw [mem_extTramps]
          refine ⟨.fn g, ⟨by rw [hover f hfn]; exact h2, ?_⟩, h.noAttr f (by simpa using hnm f hfn) hd, block_classAttrs hb⟩
          have h3 := htpl f _ hfn (h.named f hfn)
          have h4 := htplN f hfn
          cases hI : Dict.get I.globals f with
          | none =>
            rw [hI, Option.none_or] at h2
            rw [h2] at h4
            exact (Option.filter_eq_some_iff.1 h4).2
          | some v =>
            rw [hI, Option.some_or] at h2
            cases h2
            rw [hI] at h3
            exact (Option.filter_eq_some_iff.1 h3).2
        obtain ⟨j, h3, h4⟩ := trampDict_found hmem (s.fns.length + cl.methods.length)
        refine ⟨_, by rw [get_childAttrs, h3]; rfl, ?_⟩
        have hlen : (s.fns ++ methodFns s.insts.length cl.methods).length = s.fns.length + cl.methods.length := by
          simp [methodFns]
        rw [ex.fns, List.getElem?_append_right (by omega), hlen]
        simp [h4]
  · rw [← h.len]
    refine ⟨ex.newI, h.cur.ctx, extParent_distinct s cl I _ _, parent_local s cl I _ _, ?_, ?_, ?_⟩
    · rw [parent_get s cl I h.cur.dist _ _ _ (by decide +kernel), hnew]
      obtain ⟨g, hg⟩ := StaticDoc.globals_gettext s.insts.length l.t.base
        (methodDict s.fns.length (classOf l.t.functions l.t.base).methods) context
      rw [show Dict.get (newG s.insts.length s.fns.length l.t context) "gettext".toList = some g from hg]
      generalize Option.filter _ _ = o
      cases o with
      | none => exact ⟨g, rfl⟩
      | some g' => exact ⟨g', rfl⟩
    · intro k v hk hne
      change Dict.get _ k = _
      rw [parent_get s cl I h.cur.dist]
      · have h5 := hme.1 k v hk hne
        unfold glob at h5
        have h6 := hng.1 k v hk hne
        dsimp only at h6
        rw [h5, hnew, h6]
        simp only [Option.filter]
        split <;> rfl
      · intro hm
        simp only [List.mem_cons, List.not_mem_nil, or_false] at hm
        rcases hm with rfl | rfl | rfl
        · exact hne (by decide +kernel)
        · rw [hg.free _ (.inl rfl)] at hk; cases hk
        · exact hne (by decide +kernel)
    · intro k h1 h2 h3 h4
      change Dict.get _ k = _
      rw [parent_get s cl I h.cur.dist]
      · have := hme.2 k h1 h2 h3 h4
        unfold glob at this
        have h5 := hng.2 k h1 h2 h3 h4
        dsimp only at h5
        rw [this, hnew, h5]
        rfl
      · intro hm
        exact h3 ((by decide +kernel : ∀ x ∈ ["child".toList, "local".toList, "self".toList], x ∈ names) k hm)
  · obtain ⟨j, h1, h2⟩ := methodDict_found (methods_nodup l.t.functions) (main_mem' hg hl hs) s.fns.length
    subst hcl
    refine ⟨s.fns.length + j, h1, ?_⟩
    rw [ex.fns, ← h.len]
    exact method_at h2 _
  · intro f hf
    rw [parent_get s cl I h.cur.dist _ _ _ (fun hm => hg.fnames f hf
          ((by decide +kernel : ∀ x ∈ ["child".toList, "local".toList, "self".toList], x ∈ names) _ hm)),
      htpl f _ hf (h.named f hf)]
    exact hor f hf
  · intro f d hd
    have hfn : FnName ls f := by
      obtain ⟨l, h1, -, h3⟩ := fnAt_mem hd
      exact ⟨l, List.mem_of_getElem? h1, d, h3⟩
    have := hnn f (by simpa using hnm f hfn)
    rw [hd] at this
    exact this
  · intro f hne hd
    have := hnn f hne
    rw [hd] at this
    exact this

end

end Kajiki.FunsDoc
