import Verif.Lemmas.FunsCore

/-! Functions of templates: what they are, and what calling them does. -/

namespace Kajiki.FunsDoc
open Kajiki.Run Kajiki.Spec.Pure Kajiki.Spec.DocSem Kajiki.PureDoc Kajiki.LayoutDoc
open Kajiki.Spec.Layout (Child elsewhere parentBlock BlockName plainName readable names)
open Kajiki.Spec.Funs (Calls Meaning means fnAt pyAt mayCall inPlace Reserved goodFn allowed levels shownAt meaning
  CallsFunctions)
open Kajiki.Spec.Pure.Shown (done raise put get)

/-! ## Functions -/

/-- The function of the compiled template. -/
def fnPart (c : CEnv) (p : Place) (d : Spec.Funs.Fn) : Str × Part :=
  (d.decl, match d with
    | .block n kids => .block c p "py:block".toList n kids
    | .defn _ kids => .body c p.fn "py:def".toList kids)

theorem name_eq (d : Spec.Funs.Fn) : d.name = declName d.decl := rfl

section
variable {W : Type} {O : Oracle W} {py : Py}

theorem dirOf_defn' {t : Str} (h : dirOf t = some .defn) : t = "py:def".toList := dirOf_defn h

theorem under_incls (A : Allowed) (d : Option Dir) : (A.under d).incls = A.incls := by
  cases d with
  | none => rfl
  | some d => cases d <;> rfl

mutual
theorem defs_fns (A : Allowed) (hA : A.incls = fun _ => false) (c : CEnv) (p : Place) (hp : p.inDef = false) :
    ∀ x, Ok O py A c x → defs c p x = (Spec.Funs.fns c.opts x).map (fnPart c p)
  | .text _ _ _, _ => by unfold defs Spec.Funs.fns; rfl
  | .cdata _ _, _ => by unfold defs Spec.Funs.fns; rfl
  | .comment _ _, _ => by unfold defs Spec.Funs.fns; rfl
  | .pi _ _ _, _ => by unfold defs Spec.Funs.fns; rfl
  | .elem t as ln kids, h => by
    unfold Ok at h
    obtain ⟨h1, -, h3, h4⟩ := h
    have hk := defsAll_fns _ ((under_incls A _).trans hA) c p hp kids h4
    unfold defs Spec.Funs.fns
    rw [h1, if_neg Bool.false_ne_true]
    cases hd : dirOf t with
    | none => dsimp only; rw [hk]; split <;> rfl
    | some d =>
      rw [hd] at h3
      cases d with
      | replace => rfl
      | imp => exact h3.elim
      | ext => exact h3.elim
      | incl => rw [hA] at h3; exact nomatch h3.1
      | block =>
        dsimp only
        rw [hk, List.map_append, dirOf_block hd]
        rfl
      | defn =>
        dsimp only
        rw [hd] at h4
        rw [defsAll_ok _ rfl c p.fn kids h4, h3.2, hp, if_neg Bool.false_ne_true, dirOf_defn hd]
        rfl
      | call => exact h3.elim
      | _ => exact hk

theorem defsAll_fns (A : Allowed) (hA : A.incls = fun _ => false) (c : CEnv) (p : Place) (hp : p.inDef = false) :
    ∀ xs, OkAll O py A c xs → defsAll c p xs = (Spec.Funs.fnsAll c.opts xs).map (fnPart c p)
  | [], _ => by unfold defsAll Spec.Funs.fnsAll; rfl
  | x :: xs, h => by
    rw [OkAll] at h
    unfold defsAll Spec.Funs.fnsAll
    rw [defs_fns A hA c p hp x h.1, after_ok _ c p x h.1, defsAll_fns A hA c _ hp xs h.2, List.map_append]
end

/-- Where a function may call something. -/
def allowedIn (A : Allowed) : Spec.Funs.Fn → Allowed
  | .block _ _ => A.under (some .block)
  | .defn _ _ => A.under (some .defn)

theorem allowedIn_under (A : Allowed) (d : Spec.Funs.Fn) {k : Option Dir} (hk : k ≠ some .defn) :
    allowedIn (A.under k) d = allowedIn A d := by
  cases k with
  | none => rfl
  | some k => cases k <;> first | exact absurd rfl hk | (cases d <;> rfl)

/-- What is known about a function: where it is, what it has, and what blocks are in it. -/
structure FnFacts (O : Oracle W) (py : Py) (A : Allowed) (c : CEnv) (fs : List Spec.Funs.Fn) (bound : List Str)
    (d : Spec.Funs.Fn) : Prop where
  ok : OkAll O py (allowedIn A d) c d.kids
  bound : ∀ k ∈ boundAll c.opts d.kids, k ∈ bound
  blocks : ∀ b ∈ blocksAll c.opts d.kids, Spec.Funs.Fn.block b.1 b.2 ∈ fs

theorem FnFacts.mono {A : Allowed} {c : CEnv} {fs fs' : List Spec.Funs.Fn} {b b' : List Str} {d : Spec.Funs.Fn}
    (h : FnFacts O py A c fs b d) (h1 : ∀ d ∈ fs, d ∈ fs') (h2 : ∀ k ∈ b, k ∈ b') : FnFacts O py A c fs' b' d :=
  ⟨h.ok, fun k hk => h2 k (h.bound k hk), fun b hb => h1 _ (h.blocks b hb)⟩

mutual
theorem fn_facts (A : Allowed) (c : CEnv) : ∀ x, Ok O py A c x →
    (∀ d ∈ Spec.Funs.fns c.opts x, FnFacts O py A c (Spec.Funs.fns c.opts x) (bound c.opts x) d) ∧
    (∀ b ∈ blocks c.opts x, Spec.Funs.Fn.block b.1 b.2 ∈ Spec.Funs.fns c.opts x)
  | .text _ _ _, _ => by unfold Spec.Funs.fns blocks; exact ⟨nofun, nofun⟩
  | .cdata _ _, _ => by unfold Spec.Funs.fns blocks; exact ⟨nofun, nofun⟩
  | .comment _ _, _ => by unfold Spec.Funs.fns blocks; exact ⟨nofun, nofun⟩
  | .pi _ _ _, _ => by unfold Spec.Funs.fns blocks; exact ⟨nofun, nofun⟩
  | .elem t as ln kids, h => by
    unfold Ok at h
    obtain ⟨-, -, h3, h4⟩ := h
    obtain ⟨k1, k2⟩ := fnAll_facts _ c kids h4
    have hA : dirOf t ≠ some .defn → ∀ d ∈ Spec.Funs.fnsAll c.opts kids,
        FnFacts O py A c (Spec.Funs.fnsAll c.opts kids) (boundAll c.opts kids) d := fun hne d hd => by
      obtain ⟨a1, a2, a3⟩ := k1 d hd
      rw [allowedIn_under A d hne] at a1
      exact ⟨a1, a2, a3⟩
    unfold Spec.Funs.fns blocks bound
    cases hd : dirOf t with
    | none =>
      have hA := hA (by rw [hd]; nofun)
      dsimp only
      split
      · exact ⟨nofun, nofun⟩
      · exact ⟨hA, k2⟩
    | some d =>
      rw [hd] at h3 h4
      cases d with
      | replace => exact ⟨nofun, nofun⟩
      | block =>
        have hA := hA (by rw [hd]; nofun)
        dsimp only
        refine ⟨fun d hm => ?_, fun b hb => ?_⟩
        · rcases List.mem_append.1 hm with hm | hm
          · exact (hA d hm).mono (fun _ h => List.mem_append_left _ h) fun _ h => h
          · cases List.mem_singleton.1 hm
            exact ⟨h4, fun _ h => h, fun b hb => List.mem_append_left _ (k2 b hb)⟩
        · rcases List.mem_append.1 hb with hb | hb
          · exact List.mem_append_left _ (k2 b hb)
          · cases List.mem_singleton.1 hb
            exact List.mem_append_right _ List.mem_cons_self
      | defn =>
        dsimp only
        obtain ⟨-, h3⟩ := h3
        refine ⟨fun d hm => ?_, fun b hb => ?_⟩
        · cases List.mem_singleton.1 hm
          refine ⟨h4, fun _ h => h, fun b hb => ?_⟩
          change b ∈ blocksAll c.opts kids at hb
          rw [h3] at hb
          cases hb
        · rw [h3] at hb
          cases hb
      | withD =>
        have hA := hA (by rw [hd]; nofun)
        exact ⟨fun d hm => (hA d hm).mono (fun _ h => h) fun _ h => List.mem_append_right _ h, k2⟩
      | _ => exact ⟨hA (by rw [hd]; nofun), k2⟩

theorem fnAll_facts (A : Allowed) (c : CEnv) : ∀ xs, OkAll O py A c xs →
    (∀ d ∈ Spec.Funs.fnsAll c.opts xs, FnFacts O py A c (Spec.Funs.fnsAll c.opts xs) (boundAll c.opts xs) d) ∧
    (∀ b ∈ blocksAll c.opts xs, Spec.Funs.Fn.block b.1 b.2 ∈ Spec.Funs.fnsAll c.opts xs)
  | [], _ => by unfold Spec.Funs.fnsAll blocksAll; exact ⟨nofun, nofun⟩
  | x :: xs, h => by
    rw [OkAll] at h
    obtain ⟨a1, a2⟩ := fn_facts A c x h.1
    obtain ⟨b1, b2⟩ := fnAll_facts A c xs h.2
    rw [Spec.Funs.fnsAll, blocksAll, boundAll]
    refine ⟨fun d hd => ?_, fun b hb => ?_⟩
    · rcases List.mem_append.1 hd with hd | hd
      · exact (a1 d hd).mono (fun _ h => List.mem_append_left _ h) fun _ h => List.mem_append_left _ h
      · exact (b1 d hd).mono (fun _ h => List.mem_append_right _ h) fun _ h => List.mem_append_right _ h
    · rcases List.mem_append.1 hb with hb | hb
      · exact List.mem_append_left _ (a2 b hb)
      · exact List.mem_append_right _ (b2 b hb)
end

end

/-! ## Calls -/

section
variable {W : Type} {O : Oracle W} {py : Py} {P : Prog Part}
variable {insts : List Inst} {fns : List (Run.Fn Part)} {next : W → Nat} {R : Str → Prop}

/-- Reading what function `g` returns shows `q`. -/
abbrev Performs (P : Prog Part) (O : Oracle W) (insts : List Inst) (fns : List (Run.Fn Part)) (next : W → Nat) (n g : Nat)
    (q : List Val → Shown Unit) : Prop :=
  PerformsBy (callDoc P O n) insts fns next g q

theorem performs_zero (g : Nat) : Performs P O insts fns next 0 g fun _ => raise .recursion := fun _ s _ =>
  ⟨s, false, rfl, Nat.le_refl _, fun _ _ => rfl, fun h => nomatch h⟩

/-- A function of a template. -/
theorem performs_code {n g a : Nat} {decl : Str} {body : Part} {I : Inst} {bind : List Val → Except Err Vars}
    {q : Vars → Shown Unit} (hf : fns[g]? = some ⟨.code decl body, a, none, true⟩) (ha : insts[a]? = some I)
    (hl : Dict.get I.globals "local".toList = some (.inst a)) (hg : ∃ g, Dict.get I.globals "gettext".toList = some g)
    (hargs : ∀ vs w, O.args decl vs w = (bind vs, w)) (hclean : ∀ vs ρ, bind vs = .ok ρ → Clean R ρ)
    (hbody : ∀ vs ρ, bind vs = .ok ρ →
      Enacts insts fns next R I a (fun env => part P O (callDoc P O n) env body) ρ (q ρ)) :
    Performs P O insts fns next (n + 1) g fun vs => (get (bind vs)).next q :=
  performs_code_by hf ha hl hg hargs hclean hbody

/-- A function that calls one of the template that is extended. -/
theorem performs_tramp {n g a p g' : Nat} {k : Str} {I Ip : Inst} {q : List Val → Shown Unit}
    (hf : fns[g]? = some ⟨.tramp k, a, none, true⟩) (ha : insts[a]? = some I)
    (hp : Dict.get I.globals "parent".toList = some (.inst p)) (hpi : insts[p]? = some Ip)
    (hk : Dict.get Ip.attrs k = some (.fn g')) (h : Performs P O insts fns next n g' q) :
    Performs P O insts fns next (n + 1) g q := by
  intro vs s hs
  obtain ⟨s', any, h1, h2⟩ := h vs s hs
  obtain ⟨j1, j2, j3⟩ := hs
  have hf' : s.fns[g]? = some ⟨.tramp k, a, none, true⟩ := by rw [j2]; exact hf
  have ha' : s.insts[a]? = some I := by rw [j1]; exact ha
  have hpi' : s.insts[p]? = some Ip := by rw [j1]; exact hpi
  have e1 : callDoc P O (n + 1) .stream g vs s = callDoc P O n .stream g' vs s := by
    rw [callDoc]
    unfold callWith
    simp only [M.bind, M.get, M.ofOption, hf', M.pure, globalInst, getInst, attrFn, ha', hp, hpi', hk]
    rfl
  exact ⟨s', any, e1.trans h1, h2⟩

/-- An expression that calls a function. -/
theorem does_expr {C : Calls} {π : Str → Option Val} {env : Env} {I : Inst} {n g : Nat} {e f : Str}
    {args : Look → Except Err (List Val)} {q : List Val → Shown Unit}
    (hnext : ∀ e f args v w g, C.callee e = some (f, args) → visible v f = some (.fn g) →
      match args (visible v) with
      | .error x => O.eval e v w = (.error x, w)
      | .ok vs => ∃ w', O.eval e v w = (.ok (.flatCall (next w) g vs), w') ∧ next w < next w')
    (he : C.callee e = some (f, args)) (hm : env.mode = .stream) (hR : R f)
    (hv : (π f).or (glob I f) = some (.fn g)) (h : Performs P O insts fns next n g q) :
    Does₀ (setting insts fns next R π) I env (escaped O (callDoc P O n) env e)
      fun ρ => (get (args (look (glob I) ρ))).next q :=
  does_expr_by escape (fun _ _ _ => rfl) hnext he hm hR hv h

end

end Kajiki.FunsDoc
