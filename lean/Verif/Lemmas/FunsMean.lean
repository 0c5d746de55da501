import Verif.Lemmas.FunsSem

/-! What the functions of a chain of templates show. -/

namespace Kajiki.FunsDoc
open Kajiki.Run Kajiki.Spec.Pure Kajiki.Spec.DocSem Kajiki.PureDoc Kajiki.LayoutDoc
open Kajiki.Spec.Layout (Child elsewhere parentBlock BlockName plainName readable names)
open Kajiki.Spec.Funs (Calls Meaning means fnAt pyAt mayCall inPlace Reserved goodFn allowed levels shownAt meaning
  CallsFunctions)
open Kajiki.Spec.Pure.Shown (done raise put get)

section
variable {W : Type} {O : Oracle W} {py : Py} {C : Calls} {P : Prog Part} {context : Dict Val} {ls : List Spec.Funs.Level}
  {insts : List Inst} {fns : List (Run.Fn Part)} {next : W → Nat} {G : Nat → Look} {up : Nat → Str → Val}

/-! ## Names -/

theorem fn_mem {l : Spec.Funs.Level} {f : Str} {d : Spec.Funs.Fn} (h : l.fn f = some d) : d ∈ l.fns ∧ d.name = f := by
  unfold Spec.Funs.Level.fn at h
  exact ⟨List.mem_of_find?_eq_some h, by simpa using List.find?_some h⟩

theorem fn_some {l : Spec.Funs.Level} (hn : (l.fns.map (·.name)).Nodup) {d : Spec.Funs.Fn} (h : d ∈ l.fns) :
    l.fn d.name = some d := by
  unfold Spec.Funs.Level.fn
  generalize l.fns = ds at hn h
  induction ds with
  | nil => cases h
  | cons x ds ih =>
    rw [List.map_cons, List.nodup_cons] at hn
    rcases List.mem_cons.1 h with rfl | h
    · simp
    · have : x.name ≠ d.name := fun he => hn.1 (by rw [he]; exact List.mem_map_of_mem h)
      rw [List.find?_cons_of_neg (by simpa using this)]
      exact ih hn.2 h

theorem fnAt_mem {a : Nat} {f : Str} {d : Spec.Funs.Fn} (h : fnAt ls a f = some d) :
    ∃ l, ls[a]? = some l ∧ l.fn f = some d ∧ d ∈ l.fns ∧ d.name = f := by
  unfold fnAt at h
  cases hl : ls[a]? with
  | none => rw [hl] at h; cases h
  | some l =>
    rw [hl] at h
    exact ⟨l, rfl, h, fn_mem h⟩

theorem means_mem {a b : Nat} {f : Str} {d : Spec.Funs.Fn} (h : means ls a f = some (b, d)) :
    ∃ l, ls[b]? = some l ∧ d ∈ l.fns ∧ d.name = f := by
  unfold means at h
  obtain ⟨b', -, h⟩ := List.exists_of_findSome?_eq_some h
  cases hf : fnAt ls b' f with
  | none => rw [hf] at h; cases h
  | some d' =>
    rw [hf] at h
    cases h
    obtain ⟨l, h1, -, h3⟩ := fnAt_mem hf
    exact ⟨l, h1, h3⟩

theorem block_name {l : Spec.Funs.Level} {name : Str} {kids : List DNode} (h : goodFn l (.block name kids)) :
    (Spec.Funs.Fn.block name kids).name = blockName name := declName_block h.1

/-- Functions with the name of a block are blocks. -/
theorem block_of_name {l : Spec.Funs.Level} {d : Spec.Funs.Fn} (hg : goodFn l d) {name : Str}
    (h : d.name = blockName name) : ∃ kids, d = .block name kids := by
  cases d with
  | defn decl kids => exact absurd (h ▸ blockName_is name) hg.2.1
  | block name' kids =>
    rw [block_name hg] at h
    exact ⟨kids, by rw [blockName_inj h]⟩

/-! ## Only calls -/

mutual
theorem ok_call (k : Str → Option (Look → Shown Unit)) (A : Allowed) (c : CEnv) :
    ∀ x, Ok O py A c x → Ok O { py with call := k } A c x
  | .text _ _ _, h => by unfold Ok at h ⊢; exact h
  | .cdata _ _, h => by unfold Ok at h ⊢; exact h
  | .comment _ _, h => by unfold Ok; trivial
  | .pi _ _ _, h => by unfold Ok at h ⊢; exact h
  | .elem t as ln kids, h => by
    unfold Ok at h ⊢
    exact ⟨h.1, h.2.1, h.2.2.1, okAll_call k _ c kids h.2.2.2⟩
theorem okAll_call (k : Str → Option (Look → Shown Unit)) (A : Allowed) (c : CEnv) :
    ∀ xs, OkAll O py A c xs → OkAll O { py with call := k } A c xs
  | [], _ => by unfold OkAll; trivial
  | x :: xs, h => by
    unfold OkAll at h ⊢
    exact ⟨ok_call k A c x h.1, okAll_call k A c xs h.2⟩
end

/-! ## The state -/

/-- The instance of template `a`. -/
structure At (ls : List Spec.Funs.Level) (insts : List Inst) (fns : List (Run.Fn Part)) (G : Nat → Look) (a : Nat)
    (I : Inst) : Prop where
  inst : insts[a]? = some I
  loc : Dict.get I.globals "local".toList = some (.inst a)
  gt : ∃ g, Dict.get I.globals "gettext".toList = some g
  gl : glob I = G a
  named : ∀ f b d, means ls a f = some (b, d) → ∃ g l, Dict.get I.globals f = some (.fn g) ∧ ls[b]? = some l ∧
    fns[g]? = some ⟨.code d.decl (fnPart l.t.conf l.place d).2, b, none, true⟩

/-- The attribute of the instance of template `b`: its own function, or one that calls that of the next. -/
inductive Attr (ls : List Spec.Funs.Level) (insts : List Inst) (fns : List (Run.Fn Part)) : Nat → Str → Nat → Prop
  | own {b f g I l d} : insts[b]? = some I → Dict.get I.attrs f = some (.fn g) → ls[b]? = some l → l.fn f = some d →
    fns[g]? = some ⟨.code d.decl (fnPart l.t.conf l.place d).2, b, none, true⟩ → Attr ls insts fns b f g
  | up {b f g I g'} : insts[b]? = some I → Dict.get I.attrs f = some (.fn g) → fnAt ls b f = none →
    fns[g]? = some ⟨.tramp f, b, none, true⟩ → Dict.get I.globals "parent".toList = some (.inst (b + 1)) →
    Attr ls insts fns (b + 1) f g' → Attr ls insts fns b f g

theorem Attr.get {b : Nat} {f : Str} {g : Nat} (h : Attr ls insts fns b f g) :
    ∃ I, insts[b]? = some I ∧ Dict.get I.attrs f = some (.fn g) := by
  cases h with
  | own h1 h2 _ _ _ => exact ⟨_, h1, h2⟩
  | up h1 h2 _ _ _ _ => exact ⟨_, h1, h2⟩

/-- The last template has a block of this name. -/
def InLast (ls : List Spec.Funs.Level) (name : Str) : Prop :=
  ∃ l ∈ ls, l.child = false ∧ ∃ kids, Spec.Funs.Fn.block name kids ∈ l.fns

/-- A function that can be called: a block only if the last template has it, too. -/
def Live (ls : List Spec.Funs.Level) (d : Spec.Funs.Fn) : Prop := ∀ name kids, d = .block name kids → InLast ls name

/-- All instances and functions are there. -/
structure Built (ls : List Spec.Funs.Level) (insts : List Inst) (fns : List (Run.Fn Part)) (G : Nat → Look)
    (up : Nat → Str → Val) : Prop where
  at_ : ∀ a l, ls[a]? = some l → ∃ I, At ls insts fns G a I
  parent : ∀ a l name kids, ls[a]? = some l → l.child = true → Spec.Funs.Fn.block name kids ∈ l.fns → InLast ls name →
    ∃ I g, insts[a]? = some I ∧ Dict.get I.globals "parent".toList = some (.inst (a + 1)) ∧ up a name = .fn g ∧
      Attr ls insts fns (a + 1) (blockName name) g

/-- What functions do. -/
structure Done (P : Prog Part) (O : Oracle W) (ls : List Spec.Funs.Level) (insts : List Inst) (fns : List (Run.Fn Part))
    (next : W → Nat) (n : Nat) (m : Meaning) : Prop where
  fn : ∀ b l d g, ls[b]? = some l → d ∈ l.fns → Live ls d →
    fns[g]? = some ⟨.code d.decl (fnPart l.t.conf l.place d).2, b, none, true⟩ →
    Performs P O insts fns next n g (m.fn b d)
  above : ∀ b name g, Attr ls insts fns b (blockName name) g → InLast ls name →
    Performs P O insts fns next n g (m.above b (blockName name))

/-- The block of a template that extends another one we are in, and what `parent_block` is there. -/
inductive Inside (ls : List Spec.Funs.Level) (up : Nat → Str → Val) (a : Nat) (l : Spec.Funs.Level) :
    Option Str → (Str → Option Val) → Prop
  | no : Inside ls up a l none fun _ => none
  | yes {name kids} : l.child = true → Spec.Funs.Fn.block name kids ∈ l.fns → InLast ls name →
    Inside ls up a l (some name) fun k => if k = "parent_block".toList then some (up a name) else none

theorem calling_at (hr : Spec.Funs.Runs O py C context ls) {next : W → Nat}
    (hnext : ∀ e f args v w g, C.callee e = some (f, args) → visible v f = some (.fn g) →
      match args (visible v) with
      | .error x => O.eval e v w = (.error x, w)
      | .ok vs => ∃ w', O.eval e v w = (.ok (.flatCall (next w) g vs), w') ∧ next w < next w')
    (hb : Built ls insts fns G up) {n : Nat} {m : Meaning} (hd : Done P O ls insts fns next n m) {a : Nat}
    {l : Spec.Funs.Level} (hl : ls[a]? = some l) {I : Inst} (hI : At ls insts fns G a I) {env : Env}
    (hm : env.mode = .stream) {blk : Option Str} {π : Str → Option Val} (hi : Inside ls up a l blk π) {A : Allowed}
    (hA : ∀ e, A.calls e = true → mayCall ls C a blk.isSome e = true) :
    Calling O (pyAt ls C py m a blk) (setting insts fns next (Reserved ls) π) I env (callDoc P O n) A := by
  refine ⟨fun e q hq => ?_, fun e he hq => ?_⟩
  · unfold pyAt at hq
    dsimp only at hq
    cases hc : C.callee e with
    | none => rw [hc] at hq; cases hq
    | some fa =>
      obtain ⟨f, args⟩ := fa
      rw [hc, Option.bind_some] at hq
      dsimp only at hq
      split at hq
      · next hf =>
        rw [Bool.and_eq_true, beq_iff_eq] at hf
        obtain ⟨h1, rfl⟩ := hf
        cases hi with
        | no => cases h1
        | @yes name kids h2 h3 h4 =>
          cases hq
          obtain ⟨I', g, -, -, h5, h6⟩ := hb.parent a l name kids hl h2 h3 h4
          exact does_expr hnext hc hm (.inl rfl) (by rw [if_pos rfl, h5]; rfl) (hd.above _ _ _ h6 h4)
      · next hf =>
        split at hq
        · cases hq
        · next hpre =>
          cases hmn : means ls a f with
          | none => rw [hmn] at hq; cases hq
          | some bd =>
            obtain ⟨b, d⟩ := bd
            rw [hmn] at hq
            cases hq
            obtain ⟨g, l', h1, h2, h3⟩ := hI.named f b d hmn
            obtain ⟨l'', h2', h4, h5⟩ := means_mem hmn
            rw [h2] at h2'
            cases h2'
            have hlm := List.mem_of_getElem? h2
            refine does_expr hnext hc hm (.inr ⟨l', hlm, d, h4, h5⟩) ?_ (hd.fn b l' d g h2 h4 ?_ h3)
            · have hπ : π f = none := by
                cases hi with
                | no => rfl
                | yes _ _ _ =>
                  dsimp only
                  rw [if_neg]
                  intro he
                  exact hf (by rw [he]; rfl)
              rw [hπ]
              exact h1
            · rintro name kids rfl
              exfalso
              rw [block_name (hr.good l' hlm _ h4)] at h5
              exact hpre (h5 ▸ blockName_is name)
  · have := hA e he
    unfold mayCall at this
    unfold pyAt at hq
    dsimp only at hq
    cases hc : C.callee e with
    | none => rw [hc] at this; cases this
    | some fa =>
      obtain ⟨f, args⟩ := fa
      rw [hc] at this hq
      rw [Option.bind_some] at hq
      dsimp only at this hq
      rw [Bool.or_eq_true] at this
      split at hq
      · cases hq
      · next h1 =>
        rcases this with h | h
        · exact h1 h
        · rw [Bool.and_eq_true, Bool.not_eq_true'] at h
          split at hq
          · next h2 => rw [h.1] at h2; cases h2
          · obtain ⟨bd, hbd⟩ := Option.isSome_iff_exists.1 h.2
            rw [hbd] at hq
            cases hq

theorem tidy_call {R : Str → Prop} (h : Tidy R py) (k : Str → Option (Look → Shown Unit)) : Tidy R { py with call := k } :=
  ⟨h.iter, h.block⟩

/-- A block of the last template, where it is. -/
theorem place_at (hr : Spec.Funs.Runs O py C context ls) {next : W → Nat}
    (hnext : ∀ e f args v w g, C.callee e = some (f, args) → visible v f = some (.fn g) →
      match args (visible v) with
      | .error x => O.eval e v w = (.error x, w)
      | .ok vs => ∃ w', O.eval e v w = (.ok (.flatCall (next w) g vs), w') ∧ next w < next w')
    {n : Nat} {m : Meaning} (hd : Done P O ls insts fns next n m) {a : Nat}
    {l : Spec.Funs.Level} (hl : ls[a]? = some l) {I : Inst} (hI : At ls insts fns G a I) {env : Env}
    (hm : env.mode = .stream) {π : Str → Option Val} (hπ : l.child = false → π = fun _ => none) (py' : Py) (c : CEnv)
    (name : Str) (kids : List DNode) (hk : Spec.Funs.Fn.block name kids ∈ l.fns) :
    Does₀ (setting insts fns next (Reserved ls) π) I env
      (if l.child then M.pure () else escaped O (callDoc P O n) env (blockDecl name)) fun _ =>
      blockShown py' (glob I) (inPlace ls m a l) c name kids := by
  unfold inPlace blockShown
  cases hch : l.child with
  | true =>
    rw [if_pos rfl, if_pos rfl]
    exact Does₀.done
  | false =>
    rw [if_neg Bool.false_ne_true, if_neg Bool.false_ne_true, hπ hch]
    have hlm := List.mem_of_getElem? hl
    have hin : InLast ls name := ⟨l, hlm, hch, kids, hk⟩
    have hmn : ∃ bd, means ls a (blockName name) = some bd := by
      rw [← Option.isSome_iff_exists]
      unfold means
      rw [List.findSome?_isSome_iff]
      refine ⟨a, List.mem_range.2 (by omega), ?_⟩
      unfold fnAt
      have := fn_some (hr.distinct l hlm) hk
      rw [block_name (hr.good l hlm _ hk)] at this
      rw [hl, Option.bind_some, this]
      rfl
    obtain ⟨⟨b, d⟩, hmn⟩ := hmn
    obtain ⟨g, l', h1, h2, h3⟩ := hI.named _ b d hmn
    obtain ⟨l'', h2', h4, h5⟩ := means_mem hmn
    rw [h2] at h2'
    cases h2'
    have hlm' := List.mem_of_getElem? h2
    obtain ⟨kids', rfl⟩ := block_of_name (hr.good l' hlm' d h4) h5
    rw [hmn]
    have hperf := hd.fn b l' _ g h2 h4 (by rintro name' kids'' he; cases he; exact hin) h3
    refine Does.congr (does_expr hnext (hr.blockCalls name) hm (.inr ⟨l', hlm', _, h4, h5⟩) (by exact h1) hperf) fun ρ => ?_
    rfl

/-- Nodes of a template. -/
theorem content_at (hr : Spec.Funs.Runs O py C context ls) {next : W → Nat}
    (hnext : ∀ e f args v w g, C.callee e = some (f, args) → visible v f = some (.fn g) →
      match args (visible v) with
      | .error x => O.eval e v w = (.error x, w)
      | .ok vs => ∃ w', O.eval e v w = (.ok (.flatCall (next w) g vs), w') ∧ next w < next w')
    (hb : Built ls insts fns G up) {n : Nat} {m : Meaning} (hd : Done P O ls insts fns next n m) {a : Nat}
    {l : Spec.Funs.Level} (hl : ls[a]? = some l) {I : Inst} (hI : At ls insts fns G a I) {env : Env}
    (hm : env.mode = .stream) {blk : Option Str} {π : Str → Option Val} (hi : Inside ls up a l blk π) {A : Allowed}
    (hA : ∀ e, A.calls e = true → mayCall ls C a blk.isSome e = true) (hAi : A.incls = fun _ => false) {p : Place}
    (hp : p.child = l.child)
    (hin : A.defs = true → p.inDef = false) (tag : Str) {kids : List DNode} (hok : OkAll O py A l.t.conf kids)
    (hw : ∀ k ∈ boundAll l.t.conf.opts kids, k ∈ boundAll l.t.conf.opts l.kids)
    (hbl : ∀ b ∈ blocksAll l.t.conf.opts kids, Spec.Funs.Fn.block b.1 b.2 ∈ l.fns) :
    Does (setting insts fns next (Reserved ls) π) I env
      (nodes P O (callDoc P O n) l.t.conf env p false tag kids)
      (Spec.Pure.nodes (pyAt ls C py m a blk) (glob I) (inPlace ls m a l) l.t.conf false tag kids) ∧
    (readable l.t.conf p kids = true → Does (setting insts fns next (Reserved ls) π) I env
      (if silentAll l.t.conf p kids then say [] else
        reading (speaksAny l.t.conf p kids) (nodes P O (callDoc P O n) l.t.conf env p false tag kids))
      (Spec.Pure.nodes (pyAt ls C py m a blk) (glob I) (inPlace ls m a l) l.t.conf false tag kids)) := by
  have hC := calling_at hr hnext hb hd hl hI hm hi hA
  have hπ : l.child = false → π = fun _ => none := by
    intro h
    cases hi with
    | no => rfl
    | yes h' _ _ => rw [h'] at h; cases h
  have hlm := List.mem_of_getElem? hl
  have hB : ∀ name kids, Spec.Funs.Fn.block name kids ∈ l.fns → Does₀ (setting insts fns next (Reserved ls) π) I env
      (if p.child then M.pure () else escaped O (callDoc P O n) env (blockDecl name)) fun _ =>
      blockShown (pyAt ls C py m a blk) (glob I) (inPlace ls m a l) l.t.conf name kids := fun name kids hk => by
    rw [hp]
    exact place_at hr hnext hd hl hI hm hπ _ _ name kids hk
  have hf := fitAll_of (R := Reserved ls) (B := fun name kids => Spec.Funs.Fn.block name kids ∈ l.fns) l.t.conf.opts kids
    (fun k hk => hr.withs l hlm k (hw k hk)) hbl
  refine ⟨?_, fun hrd => ?_⟩
  · exact does_nodes (py := pyAt ls C py m a blk) _ P (hr.messages) (tidy_call hr.tidy _) hC l.t.conf p hin hB (fun _ h => by rw [hAi] at h; cases h) false tag kids (okAll_call _ A _ kids hok) hf
  · refine does_content (py := pyAt ls C py m a blk) (hr.messages) (tidy_call hr.tidy _) hC l.t.conf p hin (fun h => ?_) hB (fun _ h => by rw [hAi] at h; cases h) tag (okAll_call _ A _ kids hok) hf hrd
    unfold inPlace
    rw [← hp, if_pos h]

/-- The functions of a template. -/
theorem facts_at (hr : Spec.Funs.Runs O py C context ls) {a : Nat} {l : Spec.Funs.Level} (hl : ls[a]? = some l)
    {d : Spec.Funs.Fn} (hd : d ∈ l.fns) :
    FnFacts O py (allowed C ls a l) l.t.conf l.fns (boundAll l.t.conf.opts l.kids) d :=
  (fnAll_facts _ _ _ (hr.ok a l hl)).1 d hd

theorem place_child (l : Spec.Funs.Level) : l.place.child = l.child := by
  unfold Spec.Funs.Level.place
  cases l.child <;> rfl

theorem place_inDef (l : Spec.Funs.Level) : l.place.inDef = false := by
  unfold Spec.Funs.Level.place
  cases l.child <;> rfl

/-- A function. -/
theorem performs_body (hr : Spec.Funs.Runs O py C context ls) {next : W → Nat}
    (hnext : ∀ e f args v w g, C.callee e = some (f, args) → visible v f = some (.fn g) →
      match args (visible v) with
      | .error x => O.eval e v w = (.error x, w)
      | .ok vs => ∃ w', O.eval e v w = (.ok (.flatCall (next w) g vs), w') ∧ next w < next w')
    (hb : Built ls insts fns G up) {n : Nat} {m : Meaning} (hd : Done P O ls insts fns next n m) {a : Nat}
    {l : Spec.Funs.Level} (hl : ls[a]? = some l) {d : Spec.Funs.Fn} (hm : d ∈ l.fns) (hlive : Live ls d) {g : Nat}
    (hf : fns[g]? = some ⟨.code d.decl (fnPart l.t.conf l.place d).2, a, none, true⟩) :
    Performs P O insts fns next (n + 1) g (Spec.Funs.body ls C py G up m a d) := by
  obtain ⟨I, hI⟩ := hb.at_ a l hl
  have hlm := List.mem_of_getElem? hl
  have hfa := facts_at hr hl hm
  have hgood := hr.good l hlm d hm
  have hq : Spec.Funs.body ls C py G up m a d = fun args => (get (C.bind d.decl args)).next fun ρ =>
      (match d with
        | .defn _ kids => Spec.Pure.nodes (pyAt ls C py m a none) (G a) (inPlace ls m a l) l.t.conf false "py:def".toList kids ρ
        | .block name kids =>
          if l.child then
            Spec.Pure.nodes (pyAt ls C py m a (some name)) (G a) elsewhere l.t.conf false "py:block".toList kids
              [("parent_block".toList, up a name)]
          else Spec.Pure.nodes (pyAt ls C py m a none) (G a) (inPlace ls m a l) l.t.conf false "py:block".toList kids []).next
        fun _ => done () := by
    funext args
    unfold Spec.Funs.body
    rw [hl]
    cases d <;> rfl
  rw [hq]
  refine performs_code (R := Reserved ls) hf hI.inst hI.loc hI.gt (hr.args l hlm d hm) (hr.params l hlm d hm) fun vs ρ hρ => ?_
  rw [← hI.gl]
  cases d with
  | defn decl kids =>
    refine enacts_of_does (d := Spec.Pure.nodes (pyAt ls C py m a none) (glob I) (inPlace ls m a l) l.t.conf false
      "py:def".toList kids) (fun fr => ?_) ρ
    unfold fnPart part
    dsimp only
    exact (content_at hr hnext hb hd hl hI rfl .no (A := allowedIn (allowed C ls a l) (.defn decl kids)) (fun e he => he) rfl
      (p := l.place.fn) (place_child l) (fun h => nomatch h) _ hfa.ok hfa.bound hfa.blocks).2 hgood.2.2
  | block name kids =>
    have hρ' := hr.noParams name vs ρ hρ
    subst hρ'
    obtain ⟨hpl, hrd⟩ := hgood
    cases hch : l.child with
    | false =>
      refine enacts_of_does (d := Spec.Pure.nodes (pyAt ls C py m a none) (glob I) (inPlace ls m a l) l.t.conf false
        "py:block".toList kids) (fun fr => ?_) []
      unfold fnPart part
      dsimp only
      rw [afterAll_ok _ l.t.conf l.place kids hfa.ok, place_child, hch, if_neg Bool.false_ne_true, M.pure_bind]
      refine (content_at hr hnext hb hd hl hI rfl .no (A := allowedIn (allowed C ls a l) (.block name kids)) (fun e he => ?_) rfl
        (p := l.place) (place_child l) (fun _ => place_inDef l) _ hfa.ok hfa.bound hfa.blocks).2 hrd
      have : mayCall ls C a l.child e = true := he
      rw [hch] at this
      exact this
    | true =>
      have hin := hlive name kids rfl
      obtain ⟨I', g', h1, h2, h3, h4⟩ := hb.parent a l name kids hl hch hm hin
      rw [hI.inst] at h1
      cases h1
      obtain ⟨Ip, h5, h6⟩ := h4.get
      intro fr s hs
      dsimp only
      rw [if_pos rfl]
      have hJ := hs.inv
      have hvis : visible (view (callEnv a fr) s) "parent".toList = some (.inst (a + 1)) := by
        rw [hs.visible fun _ => not_false]
        exact h2
      have hpy : O.py [parentBlock name] (view (callEnv a fr) s) s.world =
          (.ok [("parent_block".toList, .fn g')], s.world) := by
        refine hr.parent name _ _ (a + 1) Ip _ hvis ?_ h6
        change s.insts[a + 1]? = _
        rw [hJ.1]
        exact h5
      obtain ⟨s1, any1, e1, ⟨k1, k2⟩, k3⟩ := Does.setVars (S := setting insts fns next (fun _ => False) fun _ => none)
        (I := I) (env := callEnv a fr) (b := [("parent_block".toList, .fn g')]) (fun _ h => False.elim h) s []
        ⟨hs.frame, hs.inst, hs.kj, hs.inv, fun _ h => False.elim h⟩
      have hr1 := k3 _ rfl
      have e2 : python O (callEnv a fr) [parentBlock name] s = ⟨⟨[], any1⟩, s1, .ok ()⟩ := by
        unfold python
        rw [if_neg (by simp)]
        have : ask (C := Part) (callEnv a fr) (O.py [parentBlock name]) s =
            ⟨.nil, s, .ok [("parent_block".toList, .fn g')]⟩ := by
          unfold ask
          rw [hpy]
        rw [bind_ok this, e1]
        rfl
      let π : Str → Option Val := fun k => if k = "parent_block".toList then some (up a name) else none
      have hr2 : Ready (setting insts fns next (Reserved ls) π) I (callEnv a fr) [("parent_block".toList, up a name)] s1 := by
        refine ⟨?_, hr1.inst, hr1.kj, hr1.inv, fun k _ => ?_⟩
        · obtain ⟨co, h⟩ := hr1.frame
          rw [h3]
          exact ⟨co, h⟩
        · rw [Dict.get_cons]
          change _ = if k = "parent_block".toList then some (up a name) else none
          by_cases hk : k = "parent_block".toList
          · rw [if_pos hk, if_pos hk.symm]
          · rw [if_neg hk, if_neg (Ne.symm hk)]
            rfl
      have hdo := (content_at hr hnext hb hd hl hI (env := callEnv a fr) rfl (.yes hch hm hin)
        (A := allowedIn (allowed C ls a l) (.block name kids)) (fun e he => by
          have : mayCall ls C a l.child e = true := he
          rw [hch] at this
          exact this) rfl
        (p := l.place) (place_child l) (fun _ => place_inDef l) "py:block".toList hfa.ok hfa.bound hfa.blocks).2 hrd
      rw [show inPlace ls m a l = elsewhere by unfold inPlace; rw [if_pos hch]] at hdo
      dsimp only [Spec.Funs.Fn.kids] at hdo
      obtain ⟨s', any, q1, ⟨q2, q3⟩, q4⟩ := hdo s1 _ hr2
      refine ⟨s', any1 || any, ?_, Nat.le_trans k1 q2, fun j hj hne => ?_, fun hok => ?_⟩
      · unfold fnPart part
        dsimp only
        rw [afterAll_ok _ l.t.conf l.place kids hfa.ok, place_child, hch, if_pos rfl, parent_lines hpl, bind_ok e2]
        refine (congrArg (fun r : Res (Store Part W) Unit =>
          (⟨⟨[], any1⟩ ++ r.out, r.st, r.val⟩ : Res (Store Part W) Unit)) q1).trans ?_
        generalize Spec.Pure.nodes _ _ _ _ _ _ _ _ = q
        obtain ⟨t, r⟩ := q
        cases r with
        | error e => rfl
        | ok σ => simp [Spec.Pure.Shown.next, done, Except.map]; rfl
      · rw [q3 j (Nat.lt_of_lt_of_le hj k1) hne]
        exact k2 j hj hne
      · generalize hq : Spec.Pure.nodes _ _ _ _ _ _ _ _ = q at hok q4
        obtain ⟨t, r⟩ := q
        cases r with
        | error e => cases hok
        | ok σ => exact (q4 σ rfl).inv

/-- All functions. -/
theorem all_perform (hr : Spec.Funs.Runs O py C context ls) {next : W → Nat}
    (hnext : ∀ e f args v w g, C.callee e = some (f, args) → visible v f = some (.fn g) →
      match args (visible v) with
      | .error x => O.eval e v w = (.error x, w)
      | .ok vs => ∃ w', O.eval e v w = (.ok (.flatCall (next w) g vs), w') ∧ next w < next w')
    (hb : Built ls insts fns G up) : ∀ n, Done P O ls insts fns next n (meaning ls C py G up n)
  | 0 => ⟨fun _ _ _ g _ _ _ _ => performs_zero g, fun _ _ g _ _ => performs_zero g⟩
  | n + 1 => by
    have ih := all_perform hr hnext hb n
    refine ⟨fun b l d g hl hm hlive hf => performs_body hr hnext hb ih hl hm hlive hf, fun b name g ha hin => ?_⟩
    cases ha with
    | @own _ _ _ I l d h1 h2 h3 h4 h5 =>
      obtain ⟨h6, h7⟩ := fn_mem h4
      obtain ⟨kids, rfl⟩ := block_of_name (hr.good l (List.mem_of_getElem? h3) d h6) h7
      have := performs_body hr hnext hb ih h3 h6 (by rintro _ _ he; cases he; exact hin) h5
      have he : (meaning ls C py G up (n + 1)).above b (blockName name) =
          Spec.Funs.body ls C py G up (meaning ls C py G up n) b (.block name kids) := by
        funext args
        have : fnAt ls b (blockName name) = some (.block name kids) := by
          unfold fnAt
          rw [h3]
          exact h4
        simp only [meaning, this]
      rw [he]
      exact this
    | @up _ _ _ I g' h1 h2 h3 h4 h5 h6 =>
      obtain ⟨Ip, h7, h8⟩ := h6.get
      have := performs_tramp h4 h1 h5 h7 h8 (ih.above (b + 1) name g' h6 hin)
      have he : (meaning ls C py G up (n + 1)).above b (blockName name) =
          (meaning ls C py G up n).above (b + 1) (blockName name) := by
        funext args
        simp only [meaning, h3]
      rw [he]
      exact this

end

end Kajiki.FunsDoc
