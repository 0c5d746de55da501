import Verif.Lemmas.Chain
import Verif.Lemmas.Methods
import Verif.Lemmas.Attrs
import Verif.Lemmas.Compile

/-!
# C40-C44: inheritance, names, imports

The chain is built by `_Template._extend` (`kajiki/template.py` 131-169): instance `N` is the template
that is rendered (the child-most one), `N + 1` the template it extends, and so on.  Chain length,
templates, their functions and the context are arbitrary, and so is the state in which the chain is
built.
-/

namespace Kajiki.Props
open Kajiki.Run Kajiki.Spec.Chain

variable {C W : Type}

/-! ## Compiled templates are well formed -/

/-- A set of compiled templates is well formed (if the given `base_globals` are dictionaries). -/
theorem C40_compiled_well_formed (S : Source) (P : Prog (List Stmt)) (h : S.compile = some P)
    (hb : ∀ t ∈ S.tmpls, (t.2.map (·.1)).Nodup) : WellFormed P := by
  obtain ⟨ts, load, al⟩ := S
  simp only [Source.compile, Option.map_eq_some_iff] at h
  obtain ⟨cs, hcs, rfl⟩ := h
  intro cl hcl
  simp only at hcl hb hcs
  clear load al
  induction ts generalizing cs with
  | nil => simp only [compileAll, Option.some.injEq] at hcs; subst hcs; cases hcl
  | cons t ts ih =>
    simp only [compileAll] at hcs
    split at hcs
    · next c cs' h1 h2 =>
      simp only [Option.some.injEq] at hcs
      subst hcs
      rcases List.mem_cons.1 hcl with rfl | hcl
      · simp only [fromIr, Option.map_eq_some_iff] at h1
        obtain ⟨m, -, rfl⟩ := h1
        exact ⟨methods_nodup _, hb t List.mem_cons_self⟩
      · exact ih (fun t ht => hb t (List.mem_cons_of_mem _ ht)) cs' h2 hcl
    · simp at hcs

/-! ## Building the chain -/

private theorem chainHyp {P : Prog C} {ctx : Dict Val} {f : Str} (hw : WellFormed P)
    (hctx : (ctx.map (·.1)).Nodup) (hf : Ordinary P ctx f) : ChainHyp P f ctx :=
  ⟨hf.free, hf.noContext, hctx, fun cl h => (hw cl h).1, fun cl h => (hw cl h).2, hf.noBase⟩

private theorem newInst_class {P : Prog C} {c : Nat} {ctx : Dict Val} {nms : List Str} {s : Store C W}
    {q : Nat} (hok : (buildChain P c ctx nms s).val = .ok q) : ∃ cl, P.classes[c]? = some cl := by
  cases hc : P.classes[c]? with
  | some cl => exact ⟨cl, rfl⟩
  | none => simp [buildChain, M.bind, newInst, hc] at hok

private theorem chain_built {P : Prog C} {ctx : Dict Val} {f : Str} (h : ChainHyp P f ctx) {c : Nat}
    {nms : List Str} {s : Store C W} {q : Nat} (hok : (buildChain P c ctx nms s).val = .ok q) :
    ∃ cl cls, P.classes[c]? = some cl ∧ cls.length = nms.length + 1 ∧ q = s.insts.length + nms.length ∧
      ChainInv P f ctx
        ((newGlobals s.insts.length cl.baseGlobals (methodDict s.fns.length cl.methods) ctx).get
          "self".toList = some (.inst s.insts.length))
        (buildChain P c ctx nms s).st s.insts.length cls := by
  obtain ⟨cl, hcl⟩ := newInst_class hok
  obtain ⟨s', hs', hi⟩ := chain_start P f ctx h hcl s
  unfold buildChain at hok ⊢
  simp only [M.bind, hs'] at hok ⊢
  obtain ⟨cls', h1, h2, h3⟩ := chain_all P f ctx h nms hi (by simpa using hok)
  refine ⟨cl, cls', hcl, by rw [h1]; simp [Nat.add_comm], ?_, by simpa using h3⟩
  rw [h2, h1]
  simp only [List.length_cons, List.length_nil]
  omega

private theorem defines_iff {P : Prog C} {ctx : Dict Val} {f : Str} {so : Prop} {s : Store C W} {N : Nat}
    {cls : List (Cls C)} (hi : ChainInv P f ctx so s N cls) {k : Nat} (hk : k < cls.length) {d : Str} {b : C} :
    Defines P s (N + k) f d b ↔ (f, d, b) ∈ (cls[k]).methods := by
  obtain ⟨x, hx, lx⟩ := hi.links k hk
  have hc := lx.ofCls
  rw [List.getElem?_eq_getElem hk] at hc
  constructor
  · rintro ⟨y, cl, hy, hcl, hm⟩
    rw [hx] at hy; cases hy
    rw [hc] at hcl; cases hcl
    exact hm
  · exact fun hm => ⟨x, _, hx, hc, hm⟩

private theorem no_method {P : Prog C} {ctx : Dict Val} {f : Str} {so : Prop} {s : Store C W} {N : Nat}
    {cls : List (Cls C)} (hi : ChainInv P f ctx so s N cls) {p : Nat → Prop}
    (h : ∀ i, p i → ∀ d b, ¬ Defines P s (N + i) f d b) :
    ∀ i cl, p i → cls[i]? = some cl → ¬ hasMethod cl f := by
  rintro i cl hp hcl ⟨d, b, hm⟩
  obtain ⟨hlt, he⟩ := List.getElem?_eq_some_iff.1 hcl
  exact h i hp d b ((defines_iff hi hlt).2 (by rw [he]; exact hm))

/-! ## C40 -/

/-- **C40.** In template `k` of the chain the name `f` means the function `f` of the child-most template
`i ≤ k` that defines it (bound to that template's instance). -/
theorem C40_override_wins (P : Prog C) (hw : WellFormed P) (ctx : Dict Val)
    (hctx : (ctx.map (·.1)).Nodup) (f : Str) (hf : Ordinary P ctx f) (c : Nat) (nms : List Str)
    (s : Store C W) (q : Nat) (hok : (buildChain P c ctx nms s).val = .ok q) :
    let s' := (buildChain P c ctx nms s).st
    let N := s.insts.length
    ∀ i k d b, i ≤ k → k ≤ nms.length → Defines P s' (N + i) f d b →
      (∀ i', i' < i → ∀ d' b', ¬ Defines P s' (N + i') f d' b') →
      BoundTo s' (globalOf s' (N + k) f) (N + i) d b := by
  intro s' N i k d b hik hk hd hmin
  obtain ⟨cl, cls, -, hlen, -, hi⟩ := chain_built (chainHyp hw hctx hf) hok
  obtain ⟨x, hx, lx⟩ := hi.links k (by omega)
  have hm := (defines_iff hi (k := i) (by omega)).1 hd
  have := lx.own i _ hik (List.getElem?_eq_getElem (by omega)) ⟨d, b, hm⟩
    (no_method hi (p := (· < i)) hmin) d b hm
  simpa [globalOf, s', N, hx] using this

/-! ## C41 -/

private theorem fresh_name (l : List Str) : ∃ f, f ∉ l := by
  refine ⟨List.replicate ((l.map List.length).sum + 1) 'x', fun h => ?_⟩
  have : ∀ l : List Str, ∀ a ∈ l, a.length ≤ (l.map List.length).sum := by
    intro l
    induction l with
    | nil => simp
    | cons b l ih =>
      intro a ha
      rcases List.mem_cons.1 ha with rfl | ha
      · simp
      · have := ih a ha; simp; omega
  have := this l _ h
  simp only [List.length_replicate] at this
  omega

private theorem ordinary_exists (P : Prog C) (ctx : Dict Val) : ∃ f, Ordinary P ctx f := by
  obtain ⟨f, hf⟩ := fresh_name (reserved ++ (ctx.map (·.1) ++ P.classes.flatMap fun cl => cl.baseGlobals.map (·.1)))
  simp only [List.mem_append, not_or, List.mem_flatMap, not_exists, not_and] at hf
  refine ⟨f, hf.1, Dict.get_none_of_not_mem hf.2.1, fun cl hcl id h => ?_⟩
  rw [Dict.get_none_of_not_mem (hf.2.2 cl hcl)] at h
  cases h

/-- **C41.** In every template of a chain of at least two, `local` is that template, `self` the
child-most one, `parent` the extended one and `child` the extending one.  The only hypothesis about
names is that the rendered template does not itself rebind `self`. -/
theorem C41_chain_names (P : Prog C) (hw : WellFormed P) (ctx : Dict Val)
    (hctx : (ctx.map (·.1)).Nodup) (c : Nat) (hself : Unused P c ctx "self".toList) (nms : List Str)
    (s : Store C W) (q : Nat) (hok : (buildChain P c ctx nms s).val = .ok q) :
    let s' := (buildChain P c ctx nms s).st
    let N := s.insts.length
    q = N + nms.length ∧ ∀ k, k ≤ nms.length →
      (nms ≠ [] → globalOf s' (N + k) "local".toList = some (.inst (N + k))) ∧
      globalOf s' (N + k) "self".toList = some (.inst N) ∧
      (k < nms.length → globalOf s' (N + k) "parent".toList = some (.inst (N + (k + 1)))) ∧
      (∀ k', k = k' + 1 → globalOf s' (N + k) "child".toList = some (.inst (N + k'))) := by
  intro s' N
  obtain ⟨f, hf⟩ := ordinary_exists P ctx
  obtain ⟨cl, cls, hcl, hlen, hq, hi⟩ := chain_built (chainHyp hw hctx hf) hok
  refine ⟨hq, fun k hk => ?_⟩
  obtain ⟨x, hx, lx⟩ := hi.links k (by omega)
  have hclm : cl ∈ P.classes := List.mem_of_getElem? hcl
  have hso : (newGlobals s.insts.length cl.baseGlobals (methodDict s.fns.length cl.methods) ctx).get
      "self".toList = some (.inst s.insts.length) := by
    obtain ⟨h1, h2⟩ := hself
    obtain ⟨h3, h4⟩ := h2 cl hcl
    rw [get_newGlobals _ _ _ _ (hw cl hclm).2
      (by unfold Dict.Distinct; rw [methodDict_keys]; exact (hw cl hclm).1) hctx _ (by decide) (by decide),
      h1, h4, method_absent _ h3, if_pos (Or.inr rfl)]
    rfl
  have hg : ∀ n, globalOf s' (N + k) n = x.globals.get n := fun n => by simp [globalOf, s', N, hx]
  simp only [hg]
  refine ⟨fun hne => lx.here ?_, lx.me hso, fun hlt => lx.up (by omega), lx.down⟩
  have : 0 < nms.length := List.length_pos_iff.2 hne
  omega

/-- A template that extends nothing: `local` and `self` are the template itself. -/
theorem C41_alone (P : Prog C) (hw : WellFormed P) (ctx : Dict Val) (hctx : (ctx.map (·.1)).Nodup) (c : Nat)
    (h1 : Unused P c ctx "self".toList) (h2 : Unused P c ctx "local".toList) (s : Store C W) (q : Nat)
    (hok : (newInst P c ctx s).val = .ok q) :
    globalOf (newInst P c ctx s).st q "self".toList = some (.inst q) ∧
    globalOf (newInst P c ctx s).st q "local".toList = some (.inst q) := by
  cases hc : P.classes[c]? with
  | none => simp [newInst, hc] at hok
  | some cl =>
    have hclm : cl ∈ P.classes := List.mem_of_getElem? hc
    simp only [newInst, hc, Except.ok.injEq] at hok ⊢
    subst hok
    simp only [globalOf, List.getElem?_append_right (Nat.le_refl s.insts.length), Nat.sub_self,
      List.getElem?_cons_zero, Option.bind_some]
    have hd : Dict.Distinct (methodDict s.fns.length cl.methods) := by
      unfold Dict.Distinct; rw [methodDict_keys]; exact (hw cl hclm).1
    obtain ⟨h3, h4⟩ := h1.2 cl hc
    obtain ⟨h5, h6⟩ := h2.2 cl hc
    rw [get_newGlobals _ _ _ _ (hw cl hclm).2 hd hctx _ (by decide) (by decide),
      get_newGlobals _ _ _ _ (hw cl hclm).2 hd hctx _ (by decide) (by decide),
      h1.1, h2.1, h4, h6, method_absent _ h3, method_absent _ h5, if_pos (Or.inr rfl), if_pos (Or.inl rfl)]
    exact ⟨rfl, rfl⟩

/-! ## C42 -/

/-- **C42 (the part that holds).** A function of the *directly* extended template that neither this
template nor its descendants define is available under its name.

Missing: functions of templates further up, see `C42_grandparent_function_missing`. -/
theorem C42_parent_function_partial (P : Prog C) (hw : WellFormed P) (ctx : Dict Val)
    (hctx : (ctx.map (·.1)).Nodup) (f : Str) (hf : Ordinary P ctx f) (c : Nat) (nms : List Str)
    (s : Store C W) (q : Nat) (hok : (buildChain P c ctx nms s).val = .ok q)
    (hnb : builtins.get f = none ∧ ∀ cl ∈ P.classes, cl.baseGlobals.get f = none) :
    let s' := (buildChain P c ctx nms s).st
    let N := s.insts.length
    ∀ k d b, k < nms.length → Defines P s' (N + (k + 1)) f d b →
      (∀ i, i ≤ k → ∀ d' b', ¬ Defines P s' (N + i) f d' b') →
      BoundTo s' (globalOf s' (N + k) f) (N + (k + 1)) d b := by
  intro s' N k d b hk hd hmin
  obtain ⟨cl, cls, -, hlen, -, hi⟩ := chain_built (chainHyp hw hctx hf) hok
  obtain ⟨x, hx, lx⟩ := hi.links k (by omega)
  have hm := (defines_iff hi (k := k + 1) (by omega)).1 hd
  have hmem : cls[k] ∈ P.classes := by
    have := lx.ofCls
    rw [List.getElem?_eq_getElem (l := cls) (by omega)] at this
    exact List.mem_of_getElem? this
  have := lx.inh (no_method hi (p := (· ≤ k)) hmin) _ (List.getElem?_eq_getElem (by omega))
    (by simp [plain, hnb.1, hnb.2 _ hmem]) _ (List.getElem?_eq_getElem (by omega)) ⟨d, b, hm⟩ d b hm
  simpa [globalOf, s', N, hx, Nat.add_assoc] using this

/-- **C42 (through `self`, the part that holds).** For a function that only the template extended by the
rendered one defines, `self.f` is a trampoline ... -/
theorem C42_self_reaches_parent_partial (P : Prog C) (hw : WellFormed P) (ctx : Dict Val)
    (hctx : (ctx.map (·.1)).Nodup) (f : Str) (hf : Ordinary P ctx f) (hca : f ∉ classAttrs) (c : Nat)
    (nms : List Str) (s : Store C W) (q : Nat) (hok : (buildChain P c ctx nms s).val = .ok q) :
    let s' := (buildChain P c ctx nms s).st
    let N := s.insts.length
    ∀ d b, 0 < nms.length → Defines P s' (N + 1) f d b → (∀ d' b', ¬ Defines P s' N f d' b') →
      (∃ id, attrOf s' N f = some (.fn id) ∧ s'.fns[id]? = some ⟨.tramp f, N, none, true⟩) ∧
      BoundTo s' (attrOf s' (N + 1) f) (N + 1) d b := by
  intro s' N d b hk hd hmin
  obtain ⟨cl, cls, -, hlen, -, hi⟩ := chain_built (chainHyp hw hctx hf) hok
  obtain ⟨x, hx, lx⟩ := hi.links 0 (by omega)
  obtain ⟨y, hy, ly⟩ := hi.links 1 (by omega)
  have hm := (defines_iff hi (k := 1) (by omega)).1 hd
  have h0 : ¬ hasMethod cls[0] f := by
    rintro ⟨d', b', hm'⟩
    exact hmin d' b' ((defines_iff hi (k := 0) (by omega)).2 hm')
  have h1 := lx.attrUp rfl _ (List.getElem?_eq_getElem (by omega)) h0 _
    (List.getElem?_eq_getElem (by omega)) ⟨d, b, hm⟩ hca
  have h2 := ly.attrOwn _ (List.getElem?_eq_getElem (by omega)) ⟨d, b, hm⟩ d b hm
  simp only [Nat.add_zero] at hx
  exact ⟨by simpa [attrOf, s', N, hx] using h1, by simpa [attrOf, s', N, hy] using h2⟩

/-- ... that runs the parent's function: calling it is calling `parent.f`. -/
theorem C42_trampoline (P : Prog (List Stmt)) (O : Oracle W) (n : Nat) (mode : Mode) (s : Store (List Stmt) W)
    (id g i j : Nat) (f : Str) (as : List Val) (x y : Inst)
    (hid : s.fns[id]? = some ⟨.tramp f, i, none, true⟩)
    (hx : s.insts[i]? = some x) (hp : x.globals.get "parent".toList = some (.inst j))
    (hy : s.insts[j]? = some y) (hg : y.attrs.get f = some (.fn g)) :
    callN P O (n + 1) mode id as s = callN P O n mode g as s := by
  simp only [callN, callWith, M.bind, M.get, hid, M.ofOption, M.pure, globalInst, getInst, hx, hp, attrFn,
    hy, hg, Out.nil_append]

/-- **C42 is false** further up: a function that only ancestors beyond the parent define is not a name
of the template, nor (for the rendered template) an attribute of `self`. -/
theorem C42_grandparent_function_missing (P : Prog C) (hw : WellFormed P) (ctx : Dict Val)
    (hctx : (ctx.map (·.1)).Nodup) (f : Str) (hf : Ordinary P ctx f) (c : Nat) (nms : List Str)
    (s : Store C W) (q : Nat) (hok : (buildChain P c ctx nms s).val = .ok q)
    (hnb : builtins.get f = none ∧ ∀ cl ∈ P.classes, cl.baseGlobals.get f = none) :
    let s' := (buildChain P c ctx nms s).st
    let N := s.insts.length
    ∀ k, k ≤ nms.length → (∀ i, i ≤ k + 1 → ∀ d' b', ¬ Defines P s' (N + i) f d' b') →
      globalOf s' (N + k) f = none ∧ attrOf s' N f = none := by
  intro s' N k hk hmin
  obtain ⟨cl, cls, -, hlen, -, hi⟩ := chain_built (chainHyp hw hctx hf) hok
  obtain ⟨x, hx, lx⟩ := hi.links k (by omega)
  obtain ⟨y, hy, ly⟩ := hi.links 0 (by omega)
  have hmem : cls[k] ∈ P.classes := by
    have := lx.ofCls
    rw [List.getElem?_eq_getElem (l := cls) (by omega)] at this
    exact List.mem_of_getElem? this
  have h1 := lx.absent (no_method hi (p := (· ≤ k + 1)) hmin) _ (List.getElem?_eq_getElem (by omega))
  have h2 := ly.attrNone rfl (no_method hi (p := (· ≤ 1)) fun i hi' => hmin i (by omega))
  simp only [Nat.add_zero] at hy
  refine ⟨?_, by simpa [attrOf, s', N, hy] using h2⟩
  have : plain f cls[k] = none := by simp [plain, hnb.1, hnb.2 _ hmem]
  rw [this] at h1
  simpa [globalOf, s', N, hx] using h1

/-! ### An example: four templates, `f` in the first and third, `g` in the second, `h` in the third -/

private def fnDef (name body : String) : Def := ⟨(name ++ "()").toList, [.text body.toList none 1], 1⟩

private def page (defs : List Def) (main : Ir) : Tmpl × Dict Val :=
  (⟨[], ⟨"__main__()".toList, [main], 1⟩ :: defs⟩, [])

private def family : Source :=
  ⟨[page [fnDef "f" "f0"] (.ext "b".toList 1),
    page [fnDef "g" "g1"] (.ext "c".toList 1),
    page [fnDef "f" "f2", fnDef "h" "h2"] (.ext "d".toList 1),
    page [] (.text "end".toList none 1)],
   fun n => if n = "b".toList then some 1 else if n = "c".toList then some 2 else
     if n = "d".toList then some 3 else none, id⟩

private def bodyAt (s : Store (List Stmt) Nat) (v : Option Val) : Option (Nat × Str) :=
  match v with
  | some (.fn id) =>
    match s.fns[id]? with
    | some ⟨.code _ [.yieldLit t], i, _, _⟩ => some (i, t)
    | some ⟨.tramp k, i, _, _⟩ => some (i, k)
    | _ => none
  | _ => none

private def familyLook (i : Nat) (k : String) : Option (Option (Nat × Str)) :=
  family.compile.map fun P =>
    let s := (buildChain P 0 [] ["b".toList, "c".toList, "d".toList] (emptyStore _ 0)).st
    bodyAt s (globalOf s i k.toList)

example : familyLook 3 "f" = some (some (0, "f0".toList)) := by decide +kernel
example : familyLook 1 "h" = some (some (2, "h2".toList)) := by decide +kernel
example : familyLook 0 "h" = some none := by decide +kernel
example : familyLook 0 "g" = some (some (1, "g1".toList)) := by decide +kernel
example : (family.compile.map fun P =>
    let s := (buildChain P 0 [] ["b".toList, "c".toList, "d".toList] (emptyStore _ 0)).st
    bodyAt s (attrOf s 0 "g".toList)) = some (some (0, "g".toList)) := by decide +kernel

/-- The hypotheses of C40-C42 hold for it. -/
example : ∃ P, family.compile = some P ∧ WellFormed P ∧ Ordinary P [] "f".toList ∧
    "f".toList ∉ classAttrs ∧ Unused P 0 [] "self".toList ∧
    (buildChain P 0 [] ["b".toList, "c".toList, "d".toList] (emptyStore _ 0)).val.toOption = some 3 := by
  obtain ⟨P, hP⟩ : ∃ P, family.compile = some P := Option.isSome_iff_exists.1 (by decide +kernel)
  have hb : ∀ t ∈ family.tmpls, t.2 = [] := by decide +kernel
  have hbase : (family.compile.map fun P => P.classes.all fun cl => cl.baseGlobals.isEmpty) = some true := by
    decide +kernel
  have hms : (family.compile.bind fun P => (P.classes[0]?).map fun cl => cl.methods.map (·.1)) =
      some ["__main__".toList, "f".toList] := by decide +kernel
  have hrun : (family.compile.bind fun P =>
    (buildChain P 0 [] ["b".toList, "c".toList, "d".toList] (emptyStore _ 0)).val.toOption) = some 3 := by
    decide +kernel
  rw [hP] at hbase hms hrun
  simp only [Option.map_some, Option.some.injEq, List.all_eq_true, List.isEmpty_iff] at hbase
  simp only [Option.bind_some] at hms hrun
  refine ⟨P, hP, C40_compiled_well_formed _ _ hP fun t ht => by rw [hb t ht]; exact List.nodup_nil,
    ⟨by decide +kernel, rfl, fun cl hcl id h => ?_⟩, by decide +kernel, ⟨rfl, fun cl hcl => ⟨?_, ?_⟩⟩, hrun⟩
  · rw [hbase cl hcl] at h; cases h
  · rintro ⟨d, b, hm⟩
    rw [hcl] at hms
    simp only [Option.map_some, Option.some.injEq] at hms
    have := List.mem_map_of_mem (f := (·.1)) hm
    rw [hms] at this
    exact absurd (show "self".toList ∈ ["__main__".toList, "f".toList] from this) (by decide +kernel)
  · rw [hbase cl (List.mem_of_getElem? hcl)]; rfl

/-! ## C43 -/

/-- **C43.** Names in a new instance: the context first, then the template's functions, then
`base_globals`, then Kajiki's own names. -/
theorem C43_name_precedence (P : Prog C) (hw : WellFormed P) (ctx : Dict Val)
    (hctx : (ctx.map (·.1)).Nodup) (c : Nat) (s : Store C W) (i : Nat) (cl : Cls C)
    (hcl : P.classes[c]? = some cl) (hok : (newInst P c ctx s).val = .ok i) (k : Str) (h1 : k ≠ ['_'])
    (h2 : k ≠ "value_of".toList) :
    let s' := (newInst P c ctx s).st
    (∀ v, ctx.get k = some v → globalOf s' i k = some v) ∧
    (ctx.get k = none → ∀ d b, Defines P s' i k d b → BoundTo s' (globalOf s' i k) i d b) ∧
    (ctx.get k = none → (∀ d b, ¬ Defines P s' i k d b) →
      (∀ v, cl.baseGlobals.get k = some v → globalOf s' i k = some v) ∧
      (cl.baseGlobals.get k = none → (∀ v, builtins.get k = some v → globalOf s' i k = some v) ∧
        (builtins.get k = none → globalOf s' i k =
          if k = "local".toList ∨ k = "self".toList then some (.inst i) else none))) := by
  have hclm : cl ∈ P.classes := List.mem_of_getElem? hcl
  have hd : Dict.Distinct (methodDict s.fns.length cl.methods) := by
    unfold Dict.Distinct; rw [methodDict_keys]; exact (hw cl hclm).1
  simp only [newInst, hcl, Except.ok.injEq] at hok
  subst hok
  have hx : (newInst P c ctx s).st.insts[s.insts.length]? = some ⟨c, ctx,
      newGlobals s.insts.length cl.baseGlobals (methodDict s.fns.length cl.methods) ctx,
      methodDict s.fns.length cl.methods⟩ := by
    simp only [newInst, hcl, List.getElem?_append_right (Nat.le_refl s.insts.length), Nat.sub_self,
      List.getElem?_cons_zero]
  have hdef : ∀ d b, Defines P (newInst P c ctx s).st s.insts.length k d b ↔ (k, d, b) ∈ cl.methods := by
    intro d b
    constructor
    · rintro ⟨x, cl', hx', hcl', hm⟩
      rw [hx] at hx'; cases hx'
      simp only [hcl, Option.some.injEq] at hcl'
      subst hcl'; exact hm
    · exact fun hm => ⟨_, cl, hx, hcl, hm⟩
  simp only [hdef]
  have hg : globalOf (newInst P c ctx s).st s.insts.length k = _ :=
    (by rw [globalOf, hx]; rfl : _ = _).trans (get_newGlobals s.insts.length _ _ _ (hw cl hclm).2 hd hctx k h1 h2)
  rw [hg]
  refine ⟨fun v hv => by rw [hv]; rfl, fun hc d b hm => ?_, fun hc hno => ?_⟩
  · obtain ⟨j, h3, h4⟩ := methodDict_found (hw cl hclm).1 hm s.fns.length
    rw [hc, h3]
    refine ⟨_, rfl, ?_⟩
    simp only [newInst, hcl]
    rw [List.getElem?_append_right (by omega)]
    simp [methodFns, h4]
  · rw [hc, methodDict_absent hno]
    exact ⟨fun v hv => by rw [hv]; rfl, fun hb => by
      rw [hb]; exact ⟨fun v hv => by rw [hv]; rfl, fun hn => by rw [hn]; rfl⟩⟩

/-- **C43.** `_` is whatever `gettext` means in the final namespace, whatever the context and
`base_globals` say about `_`; likewise `value_of` is the lookup function of this namespace. -/
theorem C43_underscore_and_value_of (P : Prog C) (ctx : Dict Val) (c : Nat) (s : Store C W) (i : Nat)
    (hok : (newInst P c ctx s).val = .ok i) :
    let s' := (newInst P c ctx s).st
    (∃ g, globalOf s' i "gettext".toList = some g ∧ globalOf s' i ['_'] = some g) ∧
    globalOf s' i "value_of".toList = some (.meth "value_of".toList i) := by
  cases hcl : P.classes[c]? with
  | none => simp [newInst, hcl] at hok
  | some cl =>
    simp only [newInst, hcl, Except.ok.injEq] at hok
    subst hok
    simp only [globalOf, newInst, hcl, List.getElem?_append_right (Nat.le_refl s.insts.length), Nat.sub_self,
      List.getElem?_cons_zero, Option.bind_some]
    unfold newGlobals
    dsimp only
    have hh : ∀ g e : Dict Val, (∃ v, g.get "gettext".toList = some v) →
        ∃ v, (Dict.update g e).get "gettext".toList = some v := by
      intro g e
      unfold Dict.update
      induction e generalizing g with
      | nil => exact id
      | cons kv e ih =>
        intro hv
        refine ih _ ?_
        rw [Dict.get_set]
        split
        · exact ⟨_, rfl⟩
        · exact hv
    obtain ⟨v, hv⟩ := hh _ ctx (hh _ (methodDict s.fns.length cl.methods) (hh
      (Dict.update [("local".toList, Val.inst s.insts.length), ("self".toList, Val.inst s.insts.length)]
        builtins) cl.baseGlobals ⟨.obj 3 "gettext".toList true, by
        rw [Dict.get_update_nodup _ _ _ builtins_distinct]
        have : builtins.get "gettext".toList = some (.obj 3 "gettext".toList true) := by rfl
        rw [this]; rfl⟩))
    refine ⟨⟨v, ?_, ?_⟩, Dict.get_set_same _ _ _⟩
    · rw [Dict.get_set_other _ _ (by decide), Dict.get_set_other _ _ (by decide), hv]
    · rw [Dict.get_set_other _ _ (by decide), Dict.get_set_same, hv]; rfl

/-! ## C44 -/

private theorem import_globals (P : Prog C) (j : Nat) (nm : Str) (al : Option Str)
    (s : Store C W) (r : Nat) (me : Inst) (hj : s.insts[j]? = some me)
    (hok : (importT P j nm al s).val = .ok r) :
    ∃ c cl, P.load nm = some c ∧ P.classes[c]? = some cl ∧ r = s.insts.length ∧
      (importT P j nm al s).st.insts[r]? = some ⟨c, me.globals,
        newGlobals r cl.baseGlobals (methodDict s.fns.length cl.methods) me.globals,
        methodDict s.fns.length cl.methods⟩ ∧
      (importT P j nm al s).st.fns = s.fns ++ methodFns r cl.methods := by
  have hjlt : j < s.insts.length := (List.getElem?_eq_some_iff.1 hj).1
  cases hl : P.load nm with
  | none => simp [importT, hl, M.ofOption, M.bind, M.throw] at hok
  | some c =>
    cases hc : P.classes[c]? with
    | none => simp [importT, hl, M.ofOption, M.bind, M.pure, getInst, hj, newInst, hc] at hok
    | some cl =>
      have hne : j ≠ s.insts.length := by omega
      simp only [importT, hl, M.ofOption, M.bind, M.pure, getInst, hj, newInst, hc, modInst, M.modify,
        Except.ok.injEq] at hok ⊢
      subst hok
      refine ⟨c, cl, rfl, hc, rfl, ?_, rfl⟩
      simp only [List.getElem?_modify, hne, if_false,
        List.getElem?_append_right (Nat.le_refl s.insts.length), Nat.sub_self, List.getElem?_cons_zero]
      rfl

/-- **C44 is false**: every name of the importing template's namespace replaces the imported template's
own function of that name, because the importer's globals are passed as the context.  In particular
`local` and `self` in the imported template are the importer's. -/
theorem C44_importer_names_win (P : Prog C) (hw : WellFormed P) (j : Nat) (nm : Str) (al : Option Str)
    (s : Store C W) (r : Nat) (me : Inst) (hj : s.insts[j]? = some me) (hd : (me.globals.map (·.1)).Nodup)
    (hok : (importT P j nm al s).val = .ok r) (f : Str) (h1 : f ≠ ['_']) (h2 : f ≠ "value_of".toList)
    (v : Val) (hv : me.globals.get f = some v) :
    globalOf (importT P j nm al s).st r f = some v := by
  obtain ⟨c, cl, -, hc, rfl, hx, -⟩ := import_globals P j nm al s r me hj hok
  have hclm : cl ∈ P.classes := List.mem_of_getElem? hc
  rw [globalOf, hx]
  simp only [Option.bind_some]
  rw [get_newGlobals _ _ _ _ (hw cl hclm).2
    (by unfold Dict.Distinct; rw [methodDict_keys]; exact (hw cl hclm).1) hd f h1 h2, hv]
  rfl

/-- **C44 (the part that holds).** A function whose name the importing template's namespace does not
have is reached from the imported template as its own definition.

Missing: names that the importing template uses too, see `C44_importer_names_win`. -/
theorem C44_own_functions_partial (P : Prog C) (hw : WellFormed P) (j : Nat) (nm : Str) (al : Option Str)
    (s : Store C W) (r : Nat) (me : Inst) (hj : s.insts[j]? = some me) (hd : (me.globals.map (·.1)).Nodup)
    (hok : (importT P j nm al s).val = .ok r) (f d : Str) (b : C) (hf : f ∉ reserved)
    (hv : me.globals.get f = none) (hdef : Defines P (importT P j nm al s).st r f d b) :
    BoundTo (importT P j nm al s).st (globalOf (importT P j nm al s).st r f) r d b := by
  obtain ⟨c, cl, -, hc, rfl, hx, hfn⟩ := import_globals P j nm al s r me hj hok
  have hclm : cl ∈ P.classes := List.mem_of_getElem? hc
  obtain ⟨x, cl', hx', hcl', hm⟩ := hdef
  rw [hx] at hx'; cases hx'
  simp only [hc, Option.some.injEq] at hcl'
  subst hcl'
  simp only [reserved, List.map_cons, List.map_nil, List.mem_cons, List.not_mem_nil, or_false, not_or] at hf
  obtain ⟨i, h3, h4⟩ := methodDict_found (hw cl hclm).1 hm s.fns.length
  rw [globalOf, hx]
  simp only [Option.bind_some]
  rw [get_newGlobals _ _ _ _ (hw cl hclm).2
    (by unfold Dict.Distinct; rw [methodDict_keys]; exact (hw cl hclm).1) hd f hf.2.2.2.2.1 hf.2.2.2.2.2.1,
    hv, h3]
  refine ⟨_, rfl, ?_⟩
  rw [hfn, List.getElem?_append_right (by omega)]
  simp [methodFns, h4]

private def lib : Source :=
  ⟨[page [fnDef "f" "mine"] (.imp "lib".toList none 1),
    page [fnDef "f" "lib-f", fnDef "g" "lib-g"] (.text "".toList none 1)],
   fun n => if n = "lib".toList then some 1 else none, id⟩

private def libLook (k : String) : Option (Option (Nat × Str)) :=
  lib.compile.map fun P =>
    let s := (M.bind (newInst P 0 []) (fun j => importT P j "lib".toList none) (emptyStore _ 0)).st
    bodyAt s (globalOf s 1 k.toList)

/-- In the imported template `f` is the importer's function, `g` its own. -/
example : libLook "f" = some (some (0, "mine".toList)) := by decide +kernel
example : libLook "g" = some (some (1, "lib-g".toList)) := by decide +kernel

end Kajiki.Props
