import Verif.Lemmas.LayoutSem
import Verif.Lemmas.Methods

/-! Rendering templates that extend a layout. -/

namespace Kajiki.LayoutDoc
open Kajiki.Run Kajiki.Spec.Pure Kajiki.Spec.DocSem Kajiki.Spec.Layout Kajiki.PureDoc
open Kajiki.Spec.Pure.Shown (done put get)

/-! ## Classes -/

/-- What is needed about a template and its functions: the main one and one for each block. -/
structure Shape (t : Template) (c : CEnv) (p : Place) (bs : Dict (List DNode)) (body : Part) : Prop where
  fns : t.functions = ("__main__()".toList, body) :: bs.map (blockFn c p)
  good : goodBlocks c p bs
  baseD : (t.base.map (·.1)).Nodup
  baseF : ∀ k, k = "local".toList ∨ BlockName k → Dict.get t.base k = none

theorem block_names : ∀ k ∈ names, ¬BlockName k := by
  unfold BlockName
  decide +kernel

theorem block_ne {k : Str} (h : BlockName k) {k' : Str} (hk : k' ∈ names) : k ≠ k' := fun he => block_names k' hk (he ▸ h)

theorem declName_main : declName "__main__()".toList = "__main__".toList := by decide +kernel

theorem update_append {α : Type} (d e : Dict α) (h : ((d ++ e).map (·.1)).Nodup) : Dict.update d e = d ++ e := by
  induction e generalizing d with
  | nil => simp [Dict.update]
  | cons x e ih =>
    obtain ⟨k, v⟩ := x
    have hset : ∀ d : Dict α, k ∉ d.map (·.1) → Dict.set d k v = d ++ [(k, v)] := by
      intro d hd
      induction d with
      | nil => rfl
      | cons y d ih =>
        obtain ⟨k', v'⟩ := y
        simp only [List.map_cons, List.mem_cons, not_or] at hd
        rw [Dict.set, if_neg (Ne.symm hd.1), ih hd.2]
        rfl
    have hk : k ∉ d.map (·.1) := by
      rw [List.map_append, List.nodup_append] at h
      intro hm
      exact h.2.2 k hm k (by simp) rfl
    have : Dict.update d ((k, v) :: e) = Dict.update (Dict.set d k v) e := rfl
    rw [this, hset d hk, ih, List.append_assoc]
    · rfl
    · rw [List.append_assoc]
      exact h

theorem functions_shape {t : Template} {root : DNode} (hroot : t.root? = some root) {c : CEnv} {p : Place}
    {bs : Dict (List DNode)} (hd : defs t.conf .root root = bs.map (blockFn c p)) (hg : goodBlocks c p bs) :
    t.functions = ("__main__()".toList, Part.main t.conf (t.doctype root) root) :: bs.map (blockFn c p) := by
  unfold Template.functions
  rw [hroot]
  dsimp only
  rw [hd]
  generalize t.doctype root = dt
  have hm : ∀ n, blockDecl n ≠ "__main__()".toList := by
    intro n he
    have : ∀ m : Str, m.take 4 = "__ma".toList → blockDecl n ≠ m := by
      rintro m hm rfl
      unfold blockDecl blockName at hm
      rw [List.append_assoc] at hm
      exact absurd hm (by simp)
    exact this _ (by decide +kernel) he
  generalize "__main__()".toList = m at hm
  rw [update_append]
  · simp [Dict.set]
  · rw [List.singleton_append, List.map_cons, List.nodup_cons, List.map_map]
    refine ⟨fun hx => ?_, ?_⟩
    · obtain ⟨b, -, hb⟩ := List.mem_map.1 hx
      exact hm b.1 hb
    · have := hg.1
      rw [List.Nodup, List.pairwise_map] at this ⊢
      exact this.imp fun h he => h (blockDecl_inj he)

section
variable {t : Template} {c : CEnv} {p : Place} {bs : Dict (List DNode)} {body : Part}

theorem names_nodup (h : Shape t c p bs body) : (t.functions.map fun d => declName d.1).Nodup := by
  rw [h.fns, List.map_cons, List.nodup_cons, List.map_map, declName_main]
  refine ⟨fun hx => ?_, ?_⟩
  · obtain ⟨b, hb, he⟩ := List.mem_map.1 hx
    have : declName (blockFn c p b).1 = blockName b.1 := declName_block (h.good.2 b hb).1
    rw [Function.comp_apply, this] at he
    exact block_ne (blockName_is b.1) (by decide +kernel) he
  · have := h.good.1
    rw [List.Nodup, List.pairwise_map] at this ⊢
    refine this.imp_of_mem fun {a b} ha hb hne he => hne ?_
    have h1 : declName (blockFn c p a).1 = blockName a.1 := declName_block (h.good.2 a ha).1
    have h2 : declName (blockFn c p b).1 = blockName b.1 := declName_block (h.good.2 b hb).1
    rw [Function.comp_apply, Function.comp_apply, h1, h2] at he
    exact blockName_inj he

theorem main_mem (h : Shape t c p bs body) :
    ("__main__".toList, "__main__()".toList, body) ∈ (classOf t.functions t.base).methods := by
  have := methodsOf_mem (names_nodup h) ("__main__()".toList, body) (by rw [h.fns]; exact List.mem_cons_self)
  rw [declName_main] at this
  exact this

theorem block_mem (h : Shape t c p bs body) {n : Str} {kids : List DNode} (hb : Dict.get bs n = some kids) :
    (blockName n, blockDecl n, Part.block c p "py:block".toList n kids) ∈ (classOf t.functions t.base).methods := by
  have hm := mem_of_get hb
  have := methodsOf_mem (names_nodup h) (blockFn c p (n, kids)) (by
    rw [h.fns]; exact List.mem_cons_of_mem _ (List.mem_map_of_mem hm))
  unfold blockFn at this
  rw [declName_block (h.good.2 _ hm).1] at this
  exact this

theorem method_only (h : Shape t c p bs body) {m : Str × Str × Part} (hm : m ∈ (classOf t.functions t.base).methods) :
    m.1 = "__main__".toList ∨ ∃ b ∈ bs, m.1 = blockName b.1 := by
  obtain ⟨d, hd, rfl⟩ := methodsOf_from hm
  rw [h.fns] at hd
  rcases List.mem_cons.1 hd with rfl | hd
  · exact .inl declName_main
  · obtain ⟨b, hb, rfl⟩ := List.mem_map.1 hd
    exact .inr ⟨b, hb, declName_block (h.good.2 b hb).1⟩

theorem methods_distinct (N : Nat) : Dict.Distinct (methodDict N (classOf t.functions t.base).methods) := by
  unfold Dict.Distinct
  rw [methodDict_keys]
  exact methods_nodup _

/-- No function has the name. -/
theorem method_none (h : Shape t c p bs body) (N : Nat) {k : Str} (h1 : k ≠ "__main__".toList)
    (h2 : ∀ b ∈ bs, k ≠ blockName b.1) : Dict.get (methodDict N (classOf t.functions t.base).methods) k = none := by
  refine methodDict_absent (fun d b hm => ?_) N
  rcases method_only h hm with he | ⟨b, hb, he⟩
  · exact h1 he
  · exact h2 b hb he

/-- The global variables of a new instance. -/
def newG (i N : Nat) (t : Template) (context : Dict Val) : Dict Val :=
  newGlobals i t.base (methodDict N (classOf t.functions t.base).methods) context

variable {context : Dict Val} (hn : (context.map (·.1)).Nodup)
  (hfree : ∀ k, k = "local".toList ∨ BlockName k → Dict.get context k = none)

include hn hfree

theorem newG_block (h : Shape t c p bs body) (i N : Nat) (n : Str) :
    Dict.get (newG i N t context) (blockName n) =
      Dict.get (methodDict N (classOf t.functions t.base).methods) (blockName n) := by
  have hb := blockName_is n
  unfold newG
  rw [get_newGlobals _ _ _ _ h.baseD (methods_distinct N) hn _ (block_ne hb (by decide +kernel))
    (block_ne hb (by decide +kernel)), hfree _ (.inr hb), h.baseF _ (.inr hb), if_neg]
  · have : Dict.get builtins (blockName n) = none := by
      apply Dict.get_none_of_not_mem
      intro hm
      exact block_names _ ((by decide +kernel : ∀ x ∈ builtins.map (·.1), x ∈ names) _ hm) hb
    rw [this]
    simp
  · rintro (he | he) <;> exact block_ne hb (by decide +kernel) he

omit hn in
theorem newG_local (h : Shape t c p bs body) (i N : Nat) :
    Dict.get (newG i N t context) "local".toList = some (.inst i) :=
  StaticDoc.globals_local _ _ _ _ (h.baseF _ (.inl rfl)) (method_none h N (by decide +kernel) fun b _ he =>
    block_ne (blockName_is b.1) (by decide +kernel) he.symm) (hfree _ (.inl rfl))

omit hfree in
theorem newG_globals (h : Shape t c p bs body) {bases : List (Dict Val)} (hb : t.base ∈ bases) (i N : Nat) :
    Globals bases context fun k => Dict.get (newG i N t context) k := by
  refine ⟨fun k x hk hne => ?_, fun k h1 h2 h3 h4 => ?_⟩
  · dsimp only
    unfold newG
    rw [get_newGlobals _ _ _ _ h.baseD (methods_distinct N) hn, hk]
    · rfl
    · rintro rfl; exact hne (by decide +kernel)
    · rintro rfl; exact hne (by decide +kernel)
  · have hk : ∀ k' ∈ names, k ≠ k' := fun k' hk' he => h3 (he ▸ hk')
    dsimp only
    unfold newG
    rw [get_newGlobals _ _ _ _ h.baseD (methods_distinct N) hn _ (hk _ (by decide +kernel)) (hk _ (by decide +kernel)),
      h1, method_none h N (hk _ (by decide +kernel)), h2 _ hb, if_neg]
    · have : Dict.get builtins k = none := by
        apply Dict.get_none_of_not_mem
        intro hm
        exact h3 ((by decide +kernel : ∀ x ∈ builtins.map (·.1), x ∈ names) _ hm)
      rw [this]
      rfl
    · rintro (he | he) <;> exact hk _ (by decide +kernel) he
    · rintro b - rfl
      exact h4 (blockName_is b.1)

end

/-! ## Instances -/

section
variable {W : Type}

/-- An instance of a chain of templates. -/
structure Level (bases : List (Dict Val)) (context : Dict Val) (s : Store Part W) (a : Nat) (I : Inst) : Prop where
  inst : s.insts[a]? = some I
  ctx : I.context = context
  dist : Dict.Distinct I.globals
  loc : Dict.get I.globals "local".toList = some (.inst a)
  gt : ∃ g, Dict.get I.globals "gettext".toList = some g
  gl : Globals bases context (glob I)

/-- The first template that has a block of this name, and its function. -/
def firstOf : List Child → Nat → Str → Option (Nat × Part)
  | [], _, _ => none
  | x :: xs, a, n =>
    match Dict.get x.blocks n with
    | some kids => some (a, .block x.t.conf Place.root.ext "py:block".toList n kids)
    | none => firstOf xs (a + 1) n

theorem firstOf_snoc (xs : List Child) (x : Child) (a : Nat) (n : Str) : firstOf (xs ++ [x]) a n =
    (firstOf xs a n).or ((Dict.get x.blocks n).map fun kids =>
      (a + xs.length, .block x.t.conf Place.root.ext "py:block".toList n kids)) := by
  induction xs generalizing a with
  | nil => simp only [List.nil_append, firstOf]; cases Dict.get x.blocks n <;> rfl
  | cons y xs ih =>
    simp only [List.cons_append, firstOf]
    cases Dict.get y.blocks n with
    | some kids => rfl
    | none => 
      dsimp only
      rw [ih]
      simp only [List.length_cons, Nat.add_assoc, Nat.add_comm 1]

/-- What the global name of a block means. -/
def Named (s : Store Part W) (I : Inst) (n : Str) : Option (Nat × Part) → Prop
  | some (a, body) => ∃ f, Dict.get I.globals (blockName n) = some (.fn f) ∧
    s.fns[f]? = some ⟨.code (blockDecl n) body, a, none, true⟩
  | none => Dict.get I.globals (blockName n) = none

/-- The state after building a part of a chain: `pre` are the templates that extend another one with their instances,
and `I` is the last instance. -/
structure State (bases : List (Dict Val)) (context : Dict Val) (s : Store Part W) (pre : List (Child × Inst)) (I : Inst)
    (c : CEnv) (p : Place) (bs : Dict (List DNode)) (body : Part) : Prop where
  len : s.insts.length = pre.length + 1
  before : ∀ a x, pre[a]? = some x → Level bases context s a x.2
  cur : Level bases context s pre.length I
  main : ∃ f, Dict.get I.attrs "__main__".toList = some (.fn f) ∧
    s.fns[f]? = some ⟨.code "__main__()".toList body, pre.length, none, true⟩
  named : ∀ n, Named s I n ((firstOf (pre.map (·.1)) 0 n).or ((Dict.get bs n).map fun kids =>
    (pre.length, .block c p "py:block".toList n kids)))

theorem method_at {s : Store Part W} {i : Nat} {ms : List (Str × Str × Part)} {k : Nat} {f d : Str} {b : Part}
    (hm : ms[k]? = some (f, d, b)) (l : List (Fn Part)) :
    (s.fns ++ methodFns i ms ++ l)[s.fns.length + k]? = some ⟨.code d b, i, none, true⟩ := by
  have hk : k < ms.length := (List.getElem?_eq_some_iff.1 hm).1
  rw [List.append_assoc, List.getElem?_append_right (by omega),
    List.getElem?_append_left (by simp [methodFns]; omega)]
  simp [methodFns, hm]

variable {bases : List (Dict Val)} {context : Dict Val} {s s' : Store Part W} {pre : List (Child × Inst)} {I : Inst}
  {c : CEnv} {p : Place} {bs : Dict (List DNode)} {body : Part}

/-- The first instance. -/
theorem state_new {P : Prog Part} {i : Nat} {t : Template} (hcls : P.classes[i]? = some (classOf t.functions t.base))
    (hn : (context.map (·.1)).Nodup) (hfree : ∀ k, k = "local".toList ∨ BlockName k → Dict.get context k = none)
    (hb : t.base ∈ bases) (w : W) :
    ∃ s I, newInst P i context (emptyStore _ w) = ⟨.nil, s, .ok 0⟩ ∧ s.used = [] ∧ s.world = w ∧ s.frames = [] ∧
      (∀ (w' : W) (s' : Store Part W), newInst P i context (emptyStore _ w') = ⟨.nil, s', .ok 0⟩ → s'.insts = s.insts ∧ s'.fns = s.fns) ∧
      ∀ c p bs body, Shape t c p bs body → State bases context s [] I c p bs body := by
  let ms := (classOf t.functions t.base).methods
  let I : Inst := ⟨i, context, newG 0 0 t context, methodDict 0 ms⟩
  refine ⟨⟨[I], [], methodFns 0 ms, [], w, fun j => if j = 0 then ⟨[], []⟩ else ⟨[], []⟩⟩, I, ?_, rfl, rfl, rfl, ?_, ?_⟩
  · unfold newInst
    rw [hcls]
    rfl
  · intro w' s' h
    unfold newInst at h
    rw [hcls] at h
    cases h
    exact ⟨rfl, rfl⟩
  · intro c p bs body h
    refine ⟨rfl, nofun, ⟨rfl, rfl, newGlobals_distinct _ _ _ _, newG_local hfree h 0 0,
      StaticDoc.globals_gettext _ _ _ _, newG_globals hn h hb 0 0⟩, ?_, fun n => ?_⟩
    · obtain ⟨k, h1, h2⟩ := methodDict_found (methods_nodup t.functions) (main_mem h) 0
      rw [Nat.zero_add] at h1
      exact ⟨k, h1, by simp only [methodFns, List.getElem?_map]; exact congrArg (Option.map _) h2⟩
    · simp only [List.map_nil, firstOf, Option.none_or]
      cases hb : Dict.get bs n with
      | none =>
        simp only [Option.map_none, Named]
        change Dict.get (newG 0 0 t context) (blockName n) = none
        rw [newG_block hn hfree h]
        refine method_none h 0 (block_ne (blockName_is n) (by decide +kernel)) fun b hm he => ?_
        cases blockName_inj he
        obtain ⟨k', v'⟩ := b
        rw [Dict.get_of_mem h.good.1 hm] at hb
        cases hb
      | some kids =>
        simp only [Option.map_some, Named]
        obtain ⟨k, h1, h2⟩ := methodDict_found (methods_nodup t.functions) (block_mem h hb) 0
        rw [Nat.zero_add] at h1
        refine ⟨k, ?_, by simp only [methodFns, List.getElem?_map]; exact congrArg (Option.map _) h2⟩
        change Dict.get (newG 0 0 t context) (blockName n) = _
        rw [newG_block hn hfree h]
        exact h1

/-- One `py:extends`. -/
theorem state_extend {x : Child} (h : State bases context s pre I x.t.conf Place.root.ext x.blocks body) {i : Nat}
    {t : Template} (ex : Extended s s' pre.length i (classOf t.functions t.base) I) {c' : CEnv} {p' : Place}
    {bs' : Dict (List DNode)} {body' : Part} (hs : Shape t c' p' bs' body')
    (hn : (context.map (·.1)).Nodup) (hfree : ∀ k, k = "local".toList ∨ BlockName k → Dict.get context k = none)
    (hb : t.base ∈ bases) :
    State bases context s' (pre ++ [(x, extChild s (classOf t.functions t.base) I pre.length)])
      (extParent s (classOf t.functions t.base) I pre.length i) c' p' bs' body' := by
  generalize hcl : classOf t.functions t.base = cl at ex
  have hnew : extNew s cl I = newG s.insts.length s.fns.length t context := by
    unfold extNew newG
    rw [h.cur.ctx, hcl]
    subst hcl
    rfl
  have hng := newG_globals hn hs hb s.insts.length s.fns.length
  have hme := h.cur.gl
  have hfns : ∃ l, s'.fns = s.fns ++ l := ⟨_, by rw [ex.fns, List.append_assoc]⟩
  refine ⟨?_, ?_, ?_, ?_, ?_⟩
  · rw [ex.len, h.len, List.length_append]
    rfl
  · intro a y hy
    by_cases ha : a < pre.length
    · rw [List.getElem?_append_left ha] at hy
      have hl := h.before a y hy
      exact ⟨by rw [ex.others a (Nat.ne_of_lt ha) (by rw [h.len]; omega)]; exact hl.inst, hl.ctx, hl.dist, hl.loc, hl.gt, hl.gl⟩
    · have hlt := (List.getElem?_eq_some_iff.1 hy).1
      rw [List.length_append, List.length_singleton] at hlt
      have ha : a = pre.length := by omega
      subst ha
      rw [List.getElem?_append_right (Nat.le_refl _), Nat.sub_self] at hy
      cases hy
      refine ⟨ex.old, h.cur.ctx, extChild_distinct s cl I h.cur.dist _, child_local s cl I _, ?_, ?_, ?_⟩
      · obtain ⟨g, hg⟩ := h.cur.gt
        exact ⟨g, by rw [child_get s cl I h.cur.dist _ _ (by decide +kernel), hg]; rfl⟩
      · intro k v hk hne
        change Dict.get _ k = _
        rw [child_get s cl I h.cur.dist]
        · have := hme.1 k v hk hne
          unfold glob at this
          rw [this]
          rfl
        · intro hm
          simp only [List.mem_cons, List.not_mem_nil, or_false] at hm
          rcases hm with rfl | rfl
          · exact hne (by decide +kernel)
          · rw [hfree _ (.inl rfl)] at hk; cases hk
      · intro k h1 h2 h3 h4
        change Dict.get _ k = _
        rw [child_get s cl I h.cur.dist]
        · have := hme.2 k h1 h2 h3 h4
          unfold glob at this
          have h5 := hng.2 k h1 h2 h3 h4
          dsimp only at h5
          rw [this, hnew, h5]
          rfl
        · intro hm
          exact h3 ((by decide +kernel : ∀ x ∈ ["parent".toList, "local".toList], x ∈ names) k hm)
  · rw [List.length_append, List.length_singleton, ← h.len]
    refine ⟨ex.newI, h.cur.ctx, extParent_distinct s cl I _ _, parent_local s cl I _ _, ?_, ?_, ?_⟩
    · rw [parent_get s cl I h.cur.dist _ _ _ (by decide +kernel), hnew]
      obtain ⟨g, hg⟩ := StaticDoc.globals_gettext s.insts.length t.base
        (methodDict s.fns.length (classOf t.functions t.base).methods) context
      rw [show Dict.get (newG s.insts.length s.fns.length t context) "gettext".toList = some g from hg]
      generalize Option.filter _ _ = o
      cases o with
      | none => exact ⟨g, rfl⟩
      | some g' => exact ⟨g', rfl⟩
    · intro k v hk hne
      change Dict.get _ k = _
      rw [parent_get s cl I h.cur.dist]
      · have h5 := hme.1 k v hk hne
        unfold glob at h5
        have h6 := hng.1 k v hk hne
        dsimp only at h6
        rw [h5, hnew, h6]
        simp only [Option.filter]
        split <;> rfl
      · intro hm
        simp only [List.mem_cons, List.not_mem_nil, or_false] at hm
        rcases hm with rfl | rfl | rfl
        · exact hne (by decide +kernel)
        · rw [hfree _ (.inl rfl)] at hk; cases hk
        · exact hne (by decide +kernel)
    · intro k h1 h2 h3 h4
      change Dict.get _ k = _
      rw [parent_get s cl I h.cur.dist]
      · have := hme.2 k h1 h2 h3 h4
        unfold glob at this
        have h5 := hng.2 k h1 h2 h3 h4
        dsimp only at h5
        rw [this, hnew, h5]
        rfl
      · intro hm
        exact h3 ((by decide +kernel : ∀ x ∈ ["child".toList, "local".toList, "self".toList], x ∈ names) k hm)
  · obtain ⟨k, h1, h2⟩ := methodDict_found (methods_nodup t.functions) (main_mem hs) s.fns.length
    refine ⟨s.fns.length + k, ?_, ?_⟩
    · subst hcl
      exact h1
    · rw [ex.fns, List.length_append, List.length_singleton, ← h.len]
      subst hcl
      exact method_at h2 _
  · intro n
    rw [List.map_append, List.map_singleton, firstOf_snoc, List.length_map, Nat.zero_add, List.length_append,
      List.length_singleton]
    have hb := blockName_is n
    have hpg := parent_get s cl I h.cur.dist pre.length i (blockName n) (by
      intro hm
      exact block_names _ ((by decide +kernel : ∀ x ∈ ["child".toList, "local".toList, "self".toList], x ∈ names) _ hm) hb)
    have hmain : (blockName n != "__main__".toList) = true := by
      simpa using block_ne hb (by decide +kernel : "__main__".toList ∈ names)
    rw [hmain, hnew, newG_block hn hfree hs] at hpg
    have hold := h.named n
    generalize (firstOf (pre.map (·.1)) 0 n).or (Option.map _ (Dict.get x.blocks n)) = o at hold ⊢
    cases o with
    | some y =>
      obtain ⟨a, b⟩ := y
      obtain ⟨f, h1, h2⟩ := hold
      have hf : f < s.fns.length := (List.getElem?_eq_some_iff.1 h2).1
      refine ⟨f, ?_, ?_⟩
      · rw [hpg, h1]
        have : (extTpl s cl)[f]? = some true := by
          unfold extTpl
          rw [List.getElem?_map, List.getElem?_append_left hf, h2]
          rfl
        simp [Option.filter, isTpl, this]
      · rw [ex.fns, List.append_assoc, List.getElem?_append_left hf]
        exact h2
    | none =>
      rw [Option.none_or]
      change Dict.get I.globals (blockName n) = none at hold
      rw [hold] at hpg
      cases hg : Dict.get bs' n with
      | none =>
        change Dict.get _ (blockName n) = none
        rw [hpg]
        refine method_none hs _ (block_ne hb (by decide +kernel)) fun b hm he => ?_
        cases blockName_inj he
        obtain ⟨k', v'⟩ := b
        rw [Dict.get_of_mem hs.good.1 hm] at hg
        cases hg
      | some kids =>
        obtain ⟨k, h1, h2⟩ := methodDict_found (methods_nodup t.functions) (block_mem hs hg) s.fns.length
        refine ⟨s.fns.length + k, ?_, ?_⟩
        · rw [hpg]
          exact h1
        · rw [ex.fns, ← h.len]
          subst hcl
          exact method_at h2 _

end

end Kajiki.LayoutDoc
