import Verif.Spec.Layout
import Verif.Lemmas.PureRun
import Verif.Lemmas.Chain

/-! Blocks and layouts. -/

namespace Kajiki.LayoutDoc
open Kajiki.Run Kajiki.Spec.Pure Kajiki.Spec.DocSem Kajiki.Spec.Layout Kajiki.PureDoc
open Kajiki.Spec.Pure.Shown (done put get)

/-! ## Names -/

theorem blockName_is (n : Str) : BlockName (blockName n) := by
  unfold BlockName blockName
  exact List.isPrefixOf_iff_prefix.2 (List.prefix_append _ _)

theorem blockName_inj {n m : Str} (h : blockName n = blockName m) : n = m := List.append_cancel_left h

theorem blockDecl_inj {n m : Str} (h : blockDecl n = blockDecl m) : n = m :=
  blockName_inj (List.append_cancel_right h)

theorem strip_solid {s : Str} (h : ∀ c ∈ s, isSpace c = false) : strip s = s := by
  have hl : ∀ t : Str, (∀ c ∈ t, isSpace c = false) → t.dropWhile isSpace = t := by
    intro t ht
    cases t with
    | nil => rfl
    | cons c t => rw [List.dropWhile_cons, ht c (by simp), if_neg Bool.false_ne_true]
  unfold strip rstrip lstrip
  rw [hl s h, hl s.reverse fun c hc => h c (List.mem_reverse.1 hc), List.reverse_reverse]

theorem plain_mem {n : Str} (h : plainName n = true) : ∀ c ∈ n, c ≠ '(' ∧ isSpace c = false := by
  intro c hc
  have := List.all_eq_true.1 h c hc
  simpa using this

theorem declName_block {n : Str} (h : plainName n = true) : declName (blockDecl n) = blockName n := by
  have h0 : ∀ c ∈ "_kj_block_".toList, c ≠ '(' ∧ isSpace c = false := by decide +kernel
  have h1 : ∀ c ∈ blockName n, c ≠ '(' ∧ isSpace c = false := by
    intro c hc
    rcases List.mem_append.1 hc with hc | hc
    · exact h0 c hc
    · exact plain_mem h c hc
  unfold declName blockDecl
  have : (blockName n ++ "()".toList).takeWhile (· != '(') = blockName n := by
    generalize blockName n = s at h1
    have h2 : ("()".toList).takeWhile (· != '(') = [] := by decide +kernel
    generalize "()".toList = u at h2
    induction s with
    | nil => exact h2
    | cons c s ih =>
      rw [List.cons_append, List.takeWhile_cons, if_pos (by simpa using (h1 c (by simp)).1),
        ih fun c hc => h1 c (by simp [hc])]
  rw [this, strip_solid fun c hc => (h1 c hc).2]

theorem break_space {c : Char} (h : isSpace c = false) : isLineBreak c = false := by
  unfold isSpace at h
  unfold isLineBreak
  simp only [Bool.or_eq_false_iff, Bool.and_eq_false_iff, decide_eq_false_iff_not, beq_eq_false_iff_ne, not_le] at h ⊢
  omega

theorem splitlines_solid (s cur : Str) (cr : Bool) (h : ∀ c ∈ s, isSpace c = false) :
    splitlinesAux cr cur s = if (s.reverse ++ cur).isEmpty then [] else [(s.reverse ++ cur).reverse] := by
  induction s generalizing cur cr with
  | nil => rfl
  | cons c s ih =>
    have hc := h c (by simp)
    rw [splitlinesAux, if_neg, break_space hc, if_neg Bool.false_ne_true, ih _ _ fun c hc => h c (by simp [hc])]
    · simp
    · intro hx
      have : c = '\n' := by simp at hx; exact hx.1
      rw [this] at hc
      exact absurd hc (by decide)

theorem parent_lines {n : Str} (h : plainName n = true) :
    pyLines ("parent_block=parent.".toList ++ blockName n) = (false, [parentBlock n]) := by
  have h0 : ∀ c ∈ "parent_block=parent.".toList ++ "_kj_block_".toList, isSpace c = false := by decide +kernel
  have h1 : ∀ c ∈ parentBlock n, isSpace c = false := by
    intro c hc
    unfold parentBlock blockName at hc
    rw [← List.append_assoc] at hc
    rcases List.mem_append.1 hc with hc | hc
    · exact h0 c hc
    · exact (plain_mem h c hc).2
  change pyLines (parentBlock n) = _
  have h2 : ∃ t, parentBlock n = 'p' :: t := ⟨_, rfl⟩
  generalize parentBlock n = s at h1 h2
  obtain ⟨t, rfl⟩ := h2
  have h3 : splitlines ('p' :: t) = ['p' :: t] := by
    unfold splitlines
    rw [splitlines_solid _ _ _ h1]
    simp
  have h4 : normalizePy ('p' :: t) = .ok ['p' :: t] := by
    unfold normalizePy
    rw [if_neg (by simp [List.isPrefixOf])]
    dsimp only
    rw [h3]
    have : indentOf ('p' :: t) = [] := rfl
    simp [this, dedentLines]
  unfold pyLines pythonNode
  dsimp only
  rw [if_neg (by decide), h4]
  rfl

/-! ## Blocks in blocks -/

section
variable {W : Type} {O : Oracle W} {py : Py}

mutual
theorem block_facts (c : CEnv) : ∀ x, Ok O py .no c x → ∀ b ∈ blocks c.opts x,
    OkAll O py .no c b.2 ∧ depthAll b.2 < depth x ∧ (∀ b' ∈ blocksAll c.opts b.2, b' ∈ blocks c.opts x) ∧
    (∀ k ∈ boundAll c.opts b.2, k ∈ bound c.opts x)
  | .text _ _ _, _, b, hb => by unfold blocks at hb; cases hb
  | .cdata _ _, _, b, hb => by unfold blocks at hb; cases hb
  | .comment _ _, _, b, hb => by unfold blocks at hb; cases hb
  | .pi _ _ _, _, b, hb => by unfold blocks at hb; cases hb
  | .elem t as ln kids, h, b, hb => by
    unfold Ok at h
    obtain ⟨-, -, -, h4⟩ := h
    have hu : ∀ d, Allowed.no.under d = .no := fun d => by cases d with | none => rfl | some d => cases d <;> rfl
    rw [hu] at h4
    have hk := blockAll_facts c kids h4
    have hd' : depthAll kids ≤ depth (.elem t as ln kids) := by
      rw [depth]; split <;> omega
    unfold blocks at hb ⊢
    unfold bound
    cases hd : dirOf t with
    | none =>
      rw [hd] at hb
      dsimp only at hb ⊢
      split at hb
      · cases hb
      · next ho =>
        simp only [ho]
        obtain ⟨k1, k2, k3, k4⟩ := hk b hb
        exact ⟨k1, by omega, k3, k4⟩
    | some d =>
      rw [hd] at hb
      cases d with
      | replace => cases hb
      | block =>
        rcases List.mem_append.1 hb with hb | hb
        · obtain ⟨k1, k2, k3, k4⟩ := hk b hb
          exact ⟨k1, by omega, fun b' hb' => List.mem_append_left _ (k3 b' hb'), k4⟩
        · cases List.mem_singleton.1 hb
          refine ⟨h4, ?_, fun b' hb' => List.mem_append_left _ hb', fun k hk => hk⟩
          rw [depth, if_pos hd]
          exact Nat.lt_succ_self _
      | withD =>
        obtain ⟨k1, k2, k3, k4⟩ := hk b hb
        exact ⟨k1, by omega, k3, fun k hk => List.mem_append_right _ (k4 k hk)⟩
      | _ =>
        obtain ⟨k1, k2, k3, k4⟩ := hk b hb
        exact ⟨k1, by omega, k3, k4⟩

theorem blockAll_facts (c : CEnv) : ∀ xs, OkAll O py .no c xs → ∀ b ∈ blocksAll c.opts xs,
    OkAll O py .no c b.2 ∧ depthAll b.2 < depthAll xs ∧ (∀ b' ∈ blocksAll c.opts b.2, b' ∈ blocksAll c.opts xs) ∧
    (∀ k ∈ boundAll c.opts b.2, k ∈ boundAll c.opts xs)
  | [], _, b, hb => by unfold blocksAll at hb; cases hb
  | x :: xs, h, b, hb => by
    rw [OkAll] at h
    rw [blocksAll] at hb
    rw [blocksAll, boundAll, depthAll]
    rcases List.mem_append.1 hb with hb | hb
    · obtain ⟨k1, k2, k3, k4⟩ := block_facts c x h.1 b hb
      exact ⟨k1, by omega, fun b' hb' => List.mem_append_left _ (k3 b' hb'), fun k hk => List.mem_append_left _ (k4 k hk)⟩
    · obtain ⟨k1, k2, k3, k4⟩ := blockAll_facts c xs h.2 b hb
      exact ⟨k1, by omega, fun b' hb' => List.mem_append_right _ (k3 b' hb'), fun k hk => List.mem_append_right _ (k4 k hk)⟩
end

/-! ## Silence -/

variable {G : Look} {ov : Str → Option (Shown Unit)}

mutual
theorem silent_node (c : CEnv) (p : Place) (hp : p.child = true → ov = elsewhere) (els : Vars → Shown Vars) (tag : Str)
    (ρ : Vars) (A : Allowed) : ∀ x, Ok O py A c x → silent c p x = true → Spec.Pure.node py G ov c els tag x ρ = done ρ
  | .text d _ _, _, h => by
    unfold silent at h
    unfold Spec.Pure.node Spec.Pure.text
    rw [List.isEmpty_iff.1 h]
    rfl
  | .cdata d _, _, h => by
    unfold silent at h
    unfold Spec.Pure.node Spec.Pure.text
    rw [List.isEmpty_iff.1 h]
    rfl
  | .comment d _, _, h => by
    unfold silent at h
    unfold Spec.Pure.node
    rw [if_pos h]
    rfl
  | .pi _ d _, _, h => by
    unfold silent at h
    unfold Spec.Pure.node
    rw [h]
    rfl
  | .elem t as ln kids, hok, h => by
    unfold Ok at hok
    obtain ⟨h1, -, h3, h4⟩ := hok
    unfold silent at h
    rw [h1, if_neg Bool.false_ne_true] at h
    unfold Spec.Pure.node
    cases hd : dirOf t with
    | none => rw [hd] at h; cases h
    | some d =>
      rw [hd] at h h3
      cases d with
      | block =>
        dsimp only at h
        rw [afterAll_ok _ c p kids h4] at h
        rw [hp h]
        rfl
      | nop => rw [hd] at h4; exact silent_nodes c p hp false t ρ A kids h4 h
      | defn => rfl
      | _ => cases h

theorem silent_nodes (c : CEnv) (p : Place) (hp : p.child = true → ov = elsewhere) (raw : Bool) (tag : Str) (ρ : Vars)
    (A : Allowed) : ∀ xs, OkAll O py A c xs → silentAll c p xs = true → Spec.Pure.nodes py G ov c false tag xs ρ = done ρ
  | [], _, _ => by unfold Spec.Pure.nodes; rfl
  | x :: xs, hok, h => by
    rw [OkAll] at hok
    unfold silentAll at h
    rw [Bool.and_eq_true, after_ok _ c p x hok.1] at h
    unfold Spec.Pure.nodes
    dsimp only
    rw [silent_node c p hp _ tag ρ A x hok.1 h.1, Shown.done_next]
    exact silent_nodes c p hp raw tag ρ A xs hok.2 h.2
end

end

/-! ## Calls -/

section
variable {W : Type} {O : Oracle W} {py : Py} {P : Prog Part}

/-- The instances and functions stay, and generators are new. -/
def fixed (insts : List Inst) (fns : List (Fn Part)) (next : W → Nat) : Setting W where
  K fr s s' := s.frames.length ≤ s'.frames.length ∧ ∀ j < s.frames.length, j ≠ fr → s'.frames[j]? = s.frames[j]?
  J s := s.insts = insts ∧ s.fns = fns ∧ ∀ i ∈ s.used, i < next s.world
  R := BlockName
  π _ := none
  refl _ _ := ⟨Nat.le_refl _, fun _ _ _ => rfl⟩
  trans h1 h2 := ⟨Nat.le_trans h1.1 h2.1, fun j hj hne =>
    (h2.2 j (Nat.lt_of_lt_of_le hj h1.1) hne).trans (h1.2 j hj hne)⟩
  frames _ _ _ h1 h2 := ⟨h1, h2⟩
  inv _ _ h := h

instance {insts : List Inst} {fns : List (Fn Part)} {next : W → Nat} {py : Py} : Blind (fixed insts fns next).hid py :=
  blind_none (fun _ => not_false) py

/-- The scope of a call. -/
def callEnv (a fr : Nat) : Env := ⟨a, fr, some a, .stream⟩

/-- Reading the result of a function. -/
theorem call_run (n : Nat) {f a : Nat} {decl : Str} {body : Part} {I : Inst} {s : Store Part W}
    (hf : s.fns[f]? = some ⟨.code decl body, a, none, true⟩) (ha : s.insts[a]? = some I)
    (hl : Dict.get I.globals "local".toList = some (.inst a)) (hargs : O.args decl [] s.world = (.ok [], s.world)) :
    callDoc P O (n + 1) .stream f [] s = part P O (callDoc P O n) (callEnv a s.frames.length) body
      { s with frames := s.frames ++ [⟨[], none, none⟩] } := by
  have hlt : a < s.insts.length := (List.getElem?_eq_some_iff.1 ha).1
  rw [callDoc]
  unfold callWith
  simp only [M.bind, M.get, M.ofOption, hf, M.pure, hargs, newFrame, getInst, ha, hl, localInst, hlt, if_true]
  rfl

variable {insts : List Inst} {fns : List (Fn Part)} {next : W → Nat}

/-- Showing a block. -/
theorem does_call {env : Env} {I I' : Inst} {name : Str} {f a n : Nat} {body : Part} {d : Vars → Shown Vars}
    (hnext : ∀ name v w f, visible v (blockName name) = some (.fn f) →
      ∃ w', O.eval (blockDecl name) v w = (.ok (.flatCall (next w) f []), w') ∧ next w < next w')
    (hargs : ∀ name w, O.args (blockDecl name) [] w = (.ok [], w)) (hm : env.mode = .stream)
    (hI : Dict.get I.globals (blockName name) = some (.fn f))
    (hf : fns[f]? = some ⟨.code (blockDecl name) body, a, none, true⟩) (ha : insts[a]? = some I')
    (hl : Dict.get I'.globals "local".toList = some (.inst a))
    (hg : ∃ g, Dict.get I'.globals "gettext".toList = some g)
    (hbody : ∀ fr, Does (fixed insts fns next) I' (callEnv a fr) (part P O (callDoc P O n) (callEnv a fr) body) d) :
    Does₀ (fixed insts fns next) I env (escaped O (callDoc P O (n + 1)) env (blockDecl name))
      fun _ => (d []).next fun _ => done () := by
  intro s ρ hs
  obtain ⟨j1, j2, j3⟩ := hs.inv
  have hvis : visible (view env s) (blockName name) = some (.fn f) := by
    rw [hs.visible fun _ => not_false]
    unfold look
    rw [hs.clean _ (blockName_is name)]
    exact hI
  obtain ⟨w', he, hw⟩ := hnext name (view env s) s.world f hvis
  let s1 : Store Part W := { s with world := w' }
  have e1 : evalM O env (blockDecl name) s = ⟨.nil, s1, .ok (.flatCall (next s.world) f [])⟩ := by
    unfold evalM ask
    rw [he]
  let s2 : Store Part W := { s1 with used := next s.world :: s.used }
  have hfresh : s.used.contains (next s.world) = false := by
    rw [Bool.eq_false_iff]
    intro hc
    exact Nat.lt_irrefl _ (j3 _ (List.contains_iff_mem.1 hc))
  have e2 : emit (callDoc P O (n + 1)) env.mode (escape (.flatCall (next s.world) f [])) s1 =
      callDoc P O (n + 1) .stream f [] s2 := by
    have hst : start (C := Part) (W := W) (next s.world) s1 = ⟨.nil, s2, .ok true⟩ := by
      unfold start
      change (if s.used.contains (next s.world) then _ else _) = _
      rw [hfresh]
      rfl
    rw [hm]
    unfold escape emit splice
    dsimp only
    rw [bind_ok hst]
    rfl
  let s3 : Store Part W := { s2 with frames := s.frames ++ [⟨[], none, none⟩] }
  have e3 : callDoc P O (n + 1) .stream f [] s2 =
      part P O (callDoc P O n) (callEnv a s.frames.length) body s3 :=
    call_run n (by rw [show s2.fns = s.fns from rfl, j2]; exact hf) (by rw [show s2.insts = s.insts from rfl, j1]; exact ha)
      hl (hargs _ _)
  have hr : Ready (fixed insts fns next) I' (callEnv a s.frames.length) [] s3 := by
    have hia : s3.insts[a]? = some I' := by rw [show s3.insts = s.insts from rfl, j1]; exact ha
    refine ⟨⟨none, ?_⟩, ⟨_, hia, fun _ _ => rfl⟩, ⟨a, rfl, _, hia, hg⟩, ⟨j1, j2, fun i hi => ?_⟩, fun _ _ => rfl⟩
    · change (s.frames ++ [⟨[], none, none⟩])[s.frames.length]? = _
      rw [List.getElem?_append_right (Nat.le_refl _), Nat.sub_self]
      rfl
    · change i < next w'
      rcases List.mem_cons.1 hi with rfl | hi
      · exact hw
      · exact Nat.lt_trans (j3 i hi) hw
  obtain ⟨s', any, h1, ⟨k1, k2⟩, h3⟩ := hbody s.frames.length s3 [] hr
  have hlen : s3.frames.length = s.frames.length + 1 := by
    change (s.frames ++ _).length = _
    rw [List.length_append]
    rfl
  have hK : (fixed insts fns next).K env.frame s s' := by
    refine ⟨by omega, fun j hj _ => ?_⟩
    rw [k2 j (by omega) (Nat.ne_of_lt hj)]
    exact List.getElem?_append_left hj
  refine ⟨s', any, ?_, hK, fun ρ' hρ => ?_⟩
  · unfold escaped
    rw [bind_ok e1, e2, e3, h1]
    unfold keeping
    obtain ⟨t, r⟩ := d []
    cases r with
    | error e => rfl
    | ok σ => simp [Spec.Pure.Shown.next, done, Except.map, Out.nil]; rfl
  · have hσ : ∃ σ, (d []).res = .ok σ ∧ ρ' = ρ := by
      unfold keeping Spec.Pure.Shown.next at hρ
      cases hd : (d []).res with
      | error e => rw [hd] at hρ; cases hρ
      | ok σ => rw [hd] at hρ; cases hρ; exact ⟨σ, rfl, rfl⟩
    obtain ⟨σ, hσ, rfl⟩ := hσ
    have hr' := h3 σ hσ
    obtain ⟨co, hfr⟩ := hs.frame
    obtain ⟨i1, -, -⟩ := hr'.inv
    refine ⟨⟨co, ?_⟩, ?_, ?_, hr'.inv, hs.clean⟩
    · rw [k2 env.frame (by have := hs.lt; omega) (Nat.ne_of_lt hs.lt)]
      change (s.frames ++ _)[env.frame]? = _
      rw [List.getElem?_append_left hs.lt, hfr]
    · rw [i1, ← j1]; exact hs.inst
    · obtain ⟨j, hj, hj'⟩ := hs.kj
      exact ⟨j, hj, by rw [i1, ← j1]; exact hj'⟩

end

/-! ## What blocks do -/

section
variable {W : Type} {O : Oracle W} {py : Py} {P : Prog Part} {S : Setting W} [Blind S.hid py] {I : Inst} {env : Env}
  {call : Mode → Nat → List Val → MD W Unit} {ov : Str → Option (Shown Unit)} {B : Str → List DNode → Prop}

/-- The content of a function for a block. -/
theorem does_content {A : Allowed} (hO : Translates O py) (hT : Tidy S.R py) (hC : Calling O py S I env call A) (c : CEnv)
    (p : Place) (hin : A.defs = true → p.inDef = false)
    (hp : p.child = true → ov = elsewhere)
    (hB : ∀ n kids, B n kids → Does₀ S I env (if p.child then M.pure () else escaped O call env (blockDecl n)) fun _ =>
      blockShown py (glob I) ov c n kids)
    (hI : ∀ href, A.incls href = true → Does₀ S I env (M.bind (importM P env href none) fun i => emitMain call env.mode i) fun _ =>
      py.incl href) (tag : Str) {kids : List DNode} (hok : OkAll O py A c kids)
    (hf : FitAll S.R B c.opts kids) (hr : readable c p kids = true) :
    Does S I env (if silentAll c p kids then say [] else reading (speaksAny c p kids) (nodes P O call c env p false tag kids))
      (Spec.Pure.nodes py (glob I) ov c false tag kids) := by
  by_cases hs : silentAll c p kids = true
  · rw [if_pos hs]
    exact (Does₀.put []).congr fun ρ => (silent_nodes c p hp false tag ρ A kids hok hs).symm
  · rw [if_neg hs]
    have : speaksAny c p kids = true := by
      unfold readable at hr
      simpa [hs] using hr
    rw [this, reading_true]
    exact does_nodes call P hO hT hC c p hin hB hI false tag kids hok hf

/-- A block that replaces one of the layout. -/
theorem does_replacement (hO : Translates O py) (hT : Tidy S.R py) (hnc : ∀ e, py.call e = none) (c : CEnv) {p : Place} (hp : p.child = true)
    {name : Str} (hn : plainName name = true)
    (hpar : ∀ v w, O.py [parentBlock name] v w = (py.block [parentBlock name] (visible v), w))
    {kids : List DNode} (hok : OkAll O py .no c kids) (hb : ∀ k ∈ boundAll c.opts kids, ¬S.R k)
    (hr : readable c p kids = true) :
    Does S I env (part P O call env (.block c p "py:block".toList name kids)) fun ρ =>
      (get (py.block [parentBlock name] (look (glob I) ρ))).next fun b =>
        Spec.Pure.nodes py (glob I) elsewhere c false "py:block".toList kids (ρ.update b) := by
  unfold part
  dsimp only
  rw [afterAll_ok _ c p kids hok, if_pos hp, parent_lines hn]
  refine (Does.bind (Does.block hpar hT) (does_content (B := fun _ _ => True) (ov := elsewhere) hO hT (.no _ hnc) c p (fun h => nomatch h) (fun _ => rfl) (fun n kids _ => ?_) (fun _ h => nomatch h)
    _ hok (fitAll_of _ _ _ _ hb fun _ _ => trivial) hr)).congr fun ρ => ?_
  · rw [if_pos hp]
    exact Does₀.done
  · rw [if_neg (by simp), Shown.next_assoc]
    rfl

/-- A block of the layout. -/
theorem does_own (hO : Translates O py) (hT : Tidy S.R py) (hnc : ∀ e, py.call e = none) (c : CEnv)
    (hB : ∀ n kids, B n kids → Does₀ S I env (escaped O call env (blockDecl n)) fun _ =>
      blockShown py (glob I) ov c n kids)
    {name : Str} {kids : List DNode} (hok : OkAll O py .no c kids)
    (hf : FitAll S.R B c.opts kids) (hr : readable c .root kids = true) :
    Does S I env (part P O call env (.block c .root "py:block".toList name kids))
      (Spec.Pure.nodes py (glob I) ov c false "py:block".toList kids) := by
  unfold part
  dsimp only
  rw [afterAll_ok _ c .root kids hok, if_neg (by decide), M.pure_bind]
  exact does_content hO hT (.no _ hnc) c .root (fun h => nomatch h) nofun (fun n kids h => hB n kids h) (fun _ h => nomatch h) _ hok hf hr

end

section
variable {W : Type} {O : Oracle W} {py : Py} {P : Prog Part} {insts : List Inst} {fns : List (Fn Part)}
  {next : W → Nat} {ov : Str → Option (Shown Unit)}

/-- A global name that means a function made for a block. -/
def Means (insts : List Inst) (fns : List (Fn Part)) (I : Inst) (name : Str) (body : Part) (a : Nat) (I' : Inst) : Prop :=
  ∃ f, Dict.get I.globals (blockName name) = some (.fn f) ∧
    fns[f]? = some ⟨.code (blockDecl name) body, a, none, true⟩ ∧ insts[a]? = some I' ∧
    Dict.get I'.globals "local".toList = some (.inst a) ∧ ∃ g, Dict.get I'.globals "gettext".toList = some g

/-- The blocks of the layout `c`, `root` are found: those of other templates, or its own. -/
def Found (O : Oracle W) (py : Py) (insts : List Inst) (fns : List (Fn Part)) (ov : Str → Option (Shown Unit)) (k : Nat)
    (I : Inst) (c : CEnv) (root : DNode) : Prop :=
  ∀ b ∈ blocks c.opts root,
    (∃ c' kids a I', Means insts fns I b.1 (.block c' Place.root.ext "py:block".toList b.1 kids) a I' ∧
      ov b.1 = some (replacement py (glob I') c' b.1 kids) ∧ OkAll O py .no c' kids ∧
      (∀ k ∈ boundAll c'.opts kids, ¬BlockName k) ∧ readable c' Place.root.ext kids = true) ∨
    (Means insts fns I b.1 (.block c .root "py:block".toList b.1 b.2) k I ∧ ov b.1 = none)

theorem does_blocks {context : Dict Val} {xs : List Child} {t : Template} {root : DNode} (hr : Runs O py context xs t root)
    (hnext : ∀ name v w f, visible v (blockName name) = some (.fn f) →
      ∃ w', O.eval (blockDecl name) v w = (.ok (.flatCall (next w) f []), w') ∧ next w < next w')
    {k : Nat} {I : Inst} (hfo : Found O py insts fns ov k I t.conf root) :
    ∀ n, ∀ b ∈ blocks t.conf.opts root, depthAll b.2 < n → ∀ env : Env, env.mode = .stream →
      Does₀ (fixed insts fns next) I env (escaped O (callDoc P O n) env (blockDecl b.1)) fun _ =>
        blockShown py (glob I) ov t.conf b.1 b.2
  | 0, _, _, h => nomatch h
  | n + 1, b, hb, hd => by
    intro env hm
    obtain ⟨hbok, -, hsub, hbound⟩ := block_facts t.conf root hr.okRoot b hb
    obtain ⟨hpl, hrd⟩ := hr.layoutBlocks.2 b hb
    unfold blockShown
    rcases hfo b hb with ⟨c', kids, a, I', ⟨f, f1, f2, f3, f4, f5⟩, hov, h1, h2, h3⟩ | ⟨⟨f, f1, f2, f3, f4, f5⟩, hov⟩
    · rw [hov]
      refine (does_call (P := P) (n := n) hnext hr.args hm f1 f2 f3 f4 f5 (fun fr =>
        does_replacement hr.messages hr.tidy hr.noCalls c' rfl hpl (hr.parent _) h1 h2 h3)).congr fun ρ => ?_
      unfold replacement
      rw [Shown.next_assoc]
    · rw [hov]
      refine does_call (P := P) (n := n) hnext hr.args hm f1 f2 f3 f4 f5 (fun fr =>
        does_own (B := fun n' kids => (n', kids) ∈ blocksAll t.conf.opts b.2) hr.messages hr.tidy hr.noCalls t.conf
          (fun n' kids hb' => ?_) hbok (fitAll_of _ _ _ _ (fun k hk => hr.layoutWiths k (hbound k hk)) fun _ h => h) hrd)
      have := (blockAll_facts t.conf b.2 hbok _ hb').2.1
      exact does_blocks hr hnext hfo n (n', kids) (hsub _ hb') (by omega) _ rfl

end

end Kajiki.LayoutDoc
