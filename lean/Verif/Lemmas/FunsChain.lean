import Verif.Lemmas.FunsRun

/-! Rendering a chain of templates with functions. -/

namespace Kajiki.FunsDoc
open Kajiki.Run Kajiki.Spec.Pure Kajiki.Spec.DocSem Kajiki.PureDoc Kajiki.LayoutDoc
open Kajiki.Spec.Layout (Child elsewhere parentBlock BlockName plainName readable names Extends)
open Kajiki.Spec.Funs (Calls Meaning means fnAt pyAt mayCall inPlace Reserved goodFn allowed levels shownAt meaning
  CallsFunctions)
open Kajiki.Spec.Pure.Shown (done raise put get)

/-! ## Everything is there -/

/-- The global variables of the instances. -/
def globs (insts : List Inst) (a : Nat) : Look :=
  match insts[a]? with
  | some I => glob I
  | none => fun _ => none

/-- The functions for `parent_block`. -/
def ups (insts : List Inst) (a : Nat) (name : Str) : Val :=
  ((insts[a + 1]?).bind fun I => Dict.get I.attrs (blockName name)).getD .none

section
variable {context : Dict Val} {ls : List Spec.Funs.Level} {insts : List Inst} {fns : List (Run.Fn Part)}

theorem Lev.globs {a : Nat} {I : Inst} (h : Lev ls context insts a I) : globs insts a = glob I := by
  unfold FunsDoc.globs
  rw [h.inst]

/-- Attributes, for blocks of the last template. -/
theorem attr_from {k : Nat} {I : Inst} {body : Part} (h : State ls context insts fns k I body) {f : Str} (hf : BlockName f)
    (hk : fnAt ls k f ≠ none) {a : Nat} (ha : fnAt ls a f ≠ none) : ∀ m b, a < b → b + m = k → ∃ g, Attr ls insts fns b f g := by
  intro m
  induction m with
  | zero =>
    intro b _ hb
    rw [Nat.add_zero] at hb
    subst hb
    obtain ⟨d, hd⟩ := Option.ne_none_iff_exists'.1 hk
    obtain ⟨g, h1, l, h2, h3⟩ := h.own f d hd
    exact ⟨g, .own h.cur.inst h1 h2 (by rw [← fnAt_at h2]; exact hd) h3⟩
  | succ m ih =>
    intro b hab hb
    obtain ⟨J, hJ, hE⟩ := h.before b (by omega)
    cases hd : fnAt ls b f with
    | some d =>
      obtain ⟨g, h1, l, h2, h3⟩ := hE.own f d hd
      exact ⟨g, .own hJ.inst h1 h2 (by rw [← fnAt_at h2]; exact hd) h3⟩
    | none =>
      have hm : firstIn ls (b + 2) f ≠ none := by
        unfold firstIn
        rw [Option.ne_none_iff_isSome, List.findSome?_isSome_iff]
        exact ⟨a, List.mem_range.2 (by omega), by rw [Option.isSome_map]; exact Option.ne_none_iff_isSome.1 ha⟩
      obtain ⟨g, h1, h2⟩ := hE.up f hf hd hm
      obtain ⟨g', h3⟩ := ih (b + 1) (by omega) (by omega)
      exact ⟨g, .up hJ.inst h1 hd h2 hE.parent h3⟩

theorem built_of (hg : Good context ls) (hgood : ∀ l ∈ ls, ∀ d ∈ l.fns, goodFn l d)
    {k : Nat} {I : Inst} {body : Part} (h : State ls context insts fns k I body) (hlen : ls.length = k + 1)
    (hlast : ∀ a l, ls[a]? = some l → (l.child = false ↔ a = k)) :
    Built ls insts fns (globs insts) (ups insts) ∧ ∀ a < ls.length, Spec.Funs.Globals ls context (globs insts a) := by
  have hlev : ∀ a < ls.length, ∃ J, Lev ls context insts a J ∧
      ∀ f, FnName ls f → Names ls fns (Dict.get J.globals f) (firstIn ls (a + 2) f) := by
    intro a ha
    by_cases hak : a < k
    · obtain ⟨J, hJ, hE⟩ := h.before a hak
      exact ⟨J, hJ, hE.named⟩
    · have hak : a = k := by omega
      subst hak
      refine ⟨I, h.cur, fun f hf => ?_⟩
      have hn : fnAt ls (a + 1) f = none := by
        unfold fnAt
        rw [List.getElem?_eq_none (by omega)]
        rfl
      rw [firstIn_succ, hn, Option.map_none, Option.or_none]
      exact h.named f hf
  refine ⟨⟨fun a l hl => ?_, fun a l name kids hl hch hm hin => ?_⟩, fun a ha => ?_⟩
  · obtain ⟨J, hJ, hN⟩ := hlev a (List.getElem?_eq_some_iff.1 hl).1
    refine ⟨J, hJ.inst, hJ.loc, hJ.gt, hJ.globs.symm, fun f b d hmn => ?_⟩
    have := hN f (firstIn_name hmn)
    rw [show firstIn ls (a + 2) f = some (b, d) from hmn] at this
    obtain ⟨g, h1, l', h2, h3⟩ := this
    exact ⟨g, l', h1, h2, h3⟩
  · have hak : a < k := by
      have h1 := (List.getElem?_eq_some_iff.1 hl).1
      have h2 : a ≠ k := fun he => by
        have := (hlast a l hl).2 he
        rw [hch] at this
        cases this
      omega
    have hfa : ∀ b l', ls[b]? = some l' → ∀ kids', Spec.Funs.Fn.block name kids' ∈ l'.fns →
        fnAt ls b (blockName name) ≠ none := by
      intro b l' hl' kids' hm'
      have hlm := List.mem_of_getElem? hl'
      have := fn_some (hg.distinct l' hlm) hm'
      rw [block_name (hgood l' hlm _ hm')] at this
      rw [fnAt_at hl', this]
      nofun
    obtain ⟨l', hl', hch', kids', hm'⟩ := hin
    obtain ⟨b, hb⟩ := List.getElem?_of_mem hl'
    have hbk := (hlast b l' hb).1 hch'
    subst hbk
    obtain ⟨g, hA⟩ := attr_from h (blockName_is name) (hfa b l' hb kids' hm') (hfa a l hl kids hm) (b - (a + 1)) (a + 1)
      (by omega) (by omega)
    obtain ⟨J, hJ, hE⟩ := h.before a hak
    refine ⟨J, g, hJ.inst, hE.parent, ?_, hA⟩
    obtain ⟨I', h1, h2⟩ := hA.get
    unfold ups
    rw [h1, Option.bind_some, h2]
    rfl
  · obtain ⟨J, hJ, -⟩ := hlev a ha
    rw [hJ.globs]
    exact hJ.gl

end

/-! ## Rendering -/

section
variable {W : Type} {context : Dict Val}

theorem levels_get {cs : List Child} {t : Template} {root : DNode} {pre : List Spec.Funs.Level} {k : Nat}
    (hk : pre.length = k) : (pre ++ levels cs t root)[k]? =
      some (match cs with | [] => ⟨t, false, [root]⟩ | x :: _ => ⟨x.t, true, x.kids⟩) := by
  subst hk
  rw [List.getElem?_append_right (Nat.le_refl _), Nat.sub_self]
  unfold levels
  cases cs <;> rfl

theorem levels_last (cs : List Child) (t : Template) (root : DNode) (a : Nat) (l : Spec.Funs.Level)
    (h : (levels cs t root)[a]? = some l) : l.child = false ↔ a = cs.length := by
  unfold levels at h
  by_cases ha : a < cs.length
  · rw [List.getElem?_append_left (by simpa using ha), List.getElem?_map] at h
    obtain ⟨x, -, rfl⟩ := Option.map_eq_some_iff.1 h
    constructor
    · nofun
    · intro he; omega
  · rw [List.getElem?_append_right (by simpa using ha), List.length_map] at h
    have h1 := (List.getElem?_eq_some_iff.1 h).1
    have h2 : a = cs.length := by simp at h1; omega
    subst h2
    rw [Nat.sub_self] at h
    cases h
    exact ⟨fun _ => rfl, fun _ => rfl⟩

theorem shape_last {O : Oracle W} {py : Py} {C : Calls} {ls : List Spec.Funs.Level} (hr : Spec.Funs.Runs O py C context ls)
    (hg : Good context ls) {k : Nat} {t : Template} {root : DNode} (hk : ls[k]? = some ⟨t, false, [root]⟩)
    (hroot : t.root? = some root) : Shape ⟨t, false, [root]⟩ (.main t.conf (t.doctype root) root) := by
  refine shape_of hg (List.mem_of_getElem? hk) hroot ?_
  have hok := hr.ok k _ hk
  have := defsAll_fns _ rfl t.conf .root rfl _ hok
  dsimp only at this
  unfold defsAll defsAll at this
  rw [List.append_nil] at this
  exact this

theorem shape_more {O : Oracle W} {py : Py} {C : Calls} {ls : List Spec.Funs.Level} (hr : Spec.Funs.Runs O py C context ls)
    (hg : Good context ls) {k : Nat} {t : Template} {kids : List DNode} (hk : ls[k]? = some ⟨t, true, kids⟩)
    {as : Dict Str} {ln : Nat} (hroot : t.root? = some (.elem "py:extends".toList as ln kids))
    (ha : auto t.conf.opts "py:extends".toList as = false) :
    Shape ⟨t, true, kids⟩ (.main t.conf [] (.elem "py:extends".toList as ln kids)) := by
  have hok := hr.ok k _ hk
  have hd : t.doctype (.elem "py:extends".toList as ln kids) = [] := by
    unfold Template.doctype after
    rw [ha, if_neg Bool.false_ne_true, dirOf_extends]
    dsimp only
    rw [afterAll_ok _ _ _ _ hok]
    simp [Place.ext]
  have := shape_of hg (List.mem_of_getElem? hk) hroot (by
    unfold defs
    rw [ha, if_neg Bool.false_ne_true, dirOf_extends]
    exact defsAll_fns _ rfl _ _ rfl _ hok)
  rw [← hd]
  exact this

/-- What running a main function does: it shows `d`, older scopes stay, and then everything is there. -/
def Shows (insts : List Inst) (fns : List (Run.Fn Part)) (next : W → Nat) (m : MD W Unit) (d : Shown Unit)
    (s : Store Part W) : Prop :=
  ∃ s' any, m s = ⟨⟨d.text, any⟩, s', d.res⟩ ∧ s.frames.length ≤ s'.frames.length ∧
    (∀ fr < s.frames.length, s'.frames[fr]? = s.frames[fr]?) ∧ (d.res = .ok () → Inv insts fns next s')

theorem shows_zero {P : Prog Part} {O : Oracle W} {insts : List Inst} {fns : List (Run.Fn Part)} {next : W → Nat}
    {s : Store Part W} {a f : Nat} {I : Inst} (hI : s.insts[a]? = some I)
    (hm : Dict.get I.attrs "__main__".toList = some (.fn f)) :
    Shows insts fns next (emitMain (callDoc P O 0) .stream a) (raise .recursion) s := by
  refine ⟨s, false, ?_, Nat.le_refl _, fun _ _ => rfl, fun h => nomatch h⟩
  simp only [emitMain, attrFn, M.bind, getInst, hI, hm, M.pure, splice]
  rfl

/-- What follows is shown, too. -/
theorem shows_seq {insts : List Inst} {fns : List (Run.Fn Part)} {next : W → Nat} {R : Str → Prop} {I : Inst} {a : Nat}
    {s s₁ : Store Part W} {any₁ : Bool} {d : Shown Unit} {q : Vars → Shown Vars} {m₁ m : MD W Unit}
    (h1 : m₁ s = ⟨⟨d.text, any₁⟩, s₁, d.res⟩) (hlen : s.frames.length < s₁.frames.length)
    (hsame : ∀ fr < s.frames.length, s₁.frames[fr]? = s.frames[fr]?)
    (hfr : s₁.frames[s.frames.length]? = some ⟨[], none, none⟩)
    (hinv : d.res = .ok () → Inv insts fns next s₁) (hI : insts[a]? = some I)
    (hgt : ∃ g, Dict.get I.globals "gettext".toList = some g)
    (hd : Does (setting insts fns next R fun _ => none) I (callEnv a s.frames.length) m q) :
    Shows insts fns next (M.bind m₁ fun _ => m) (d.seq ((q []).next fun _ => done ())) s := by
  obtain ⟨tx, rs⟩ := d
  cases rs with
  | error e => exact ⟨s₁, any₁, by rw [bind_error h1]; rfl, Nat.le_of_lt hlen, hsame, fun h => nomatch h⟩
  | ok u =>
    have hi := hinv rfl
    have hI₁ : s₁.insts[a]? = some I := by rw [hi.1]; exact hI
    obtain ⟨s3, any', k1, ⟨k2, k3⟩, k4⟩ := hd s₁ [] ⟨⟨none, hfr⟩, ⟨_, hI₁, fun _ _ => rfl⟩, ⟨a, rfl, _, hI₁, hgt⟩, hi, fun _ _ => rfl⟩
    generalize q [] = q at k1 k4 ⊢
    refine ⟨s3, any₁ || any', ?_, by omega, fun fr h => ?_, fun hok => ?_⟩
    · rw [bind_ok h1, k1]
      obtain ⟨tx', rs'⟩ := q
      cases rs' with
      | error e => rfl
      | ok σ => simp [Spec.Pure.Shown.seq, Spec.Pure.Shown.next, done, Except.map]; rfl
    · rw [k3 fr (by omega) (Nat.ne_of_lt h)]
      exact hsame fr h
    · obtain ⟨tx', rs'⟩ := q
      cases rs' with
      | error e => cases hok
      | ok σ => exact (k4 σ rfl).inv

/-- The content of a template. -/
theorem level_does {O : Oracle W} {py : Py} {C : Calls} {P : Prog Part} {ls : List Spec.Funs.Level}
    {insts : List Inst} {fns : List (Run.Fn Part)} {G : Nat → Look} {up : Nat → Str → Val}
    (hr : Spec.Funs.Runs O py C context ls) {next : W → Nat}
    (hnext : ∀ e f args v w g, C.callee e = some (f, args) → visible v f = some (.fn g) →
      match args (visible v) with
      | .error x => O.eval e v w = (.error x, w)
      | .ok vs => ∃ w', O.eval e v w = (.ok (.flatCall (next w) g vs), w') ∧ next w < next w')
    (hb : Built ls insts fns G up) (n : Nat) {a : Nat} {l : Spec.Funs.Level} (hl : ls[a]? = some l) {I : Inst}
    (hI : At ls insts fns G a I) (fr : Nat) (tag : Str) :
    Does (setting insts fns next (Reserved ls) fun _ => none) I (callEnv a fr)
      (nodes P O (callDoc P O n) l.t.conf (callEnv a fr) l.place false tag l.kids)
      (Spec.Pure.nodes (pyAt ls C py (meaning ls C py G up n) a none) (G a) (inPlace ls (meaning ls C py G up n) a l) l.t.conf
        false tag l.kids) := by
  rw [← hI.gl]
  exact (content_at hr hnext hb (all_perform hr hnext hb n) hl hI (env := callEnv a fr) rfl .no
    (A := allowed C ls a l) (fun e he => he) rfl (p := l.place) (place_child l) (fun _ => place_inDef l) tag (hr.ok a l hl)
    (fun _ h => h) (fnAll_facts _ _ _ (hr.ok a l hl)).2).1

/-- The rest of a chain. -/
theorem chain_run {ts : List Template} {load : Str → Option Nat} (aliasFor : Str → Str) {ls : List Spec.Funs.Level}
    (hg : Good context ls) (O₀ : Oracle W) (py₀ : Py) (C₀ : Calls) (hr₀ : Spec.Funs.Runs O₀ py₀ C₀ context ls)
    (hlast : ∀ a l, ls[a]? = some l → (l.child = false ↔ a + 1 = ls.length))
    {i : Nat} {cs : List Child} {t : Template} {root : DNode} (hx : Extends ts load i cs t root) :
    ∀ (pre : List Spec.Funs.Level) (k : Nat) (s₀ : Store Part W) (I : Inst), pre ++ levels cs t root = ls → pre.length = k →
      (∀ l body, ls[k]? = some l → Shape l body → State ls context s₀.insts s₀.fns k I body) →
      ∃ insts fns, Built ls insts fns (globs insts) (ups insts) ∧
        (∀ a < ls.length, Spec.Funs.Globals ls context (globs insts a)) ∧
        ∀ (O : Oracle W) (py : Py) (C : Calls) (next : W → Nat), Spec.Funs.Runs O py C context ls →
        (∀ e f args v w g, C.callee e = some (f, args) → visible v f = some (.fn g) →
          match args (visible v) with
          | .error x => O.eval e v w = (.error x, w)
          | .ok vs => ∃ w', O.eval e v w = (.ok (.flatCall (next w) g vs), w') ∧ next w < next w') →
        ∀ s : Store Part W, s.insts = s₀.insts → s.fns = s₀.fns → (∀ i ∈ s.used, i < next s.world) → ∀ n,
          Shows insts fns next (emitMain (callDoc (program ts load aliasFor) O n) .stream k)
            (shownAt ls C py (globs insts) (ups insts) n k) s := by
  induction hx with
  | @layout i t root ht hroot =>
    intro pre k s₀ I hls hk hst
    have hkl : ls[k]? = some ⟨t, false, [root]⟩ := by rw [← hls]; exact levels_get hk
    have hst := hst _ _ hkl (shape_last hr₀ hg hkl hroot)
    have hlen : ls.length = k + 1 := by rw [← hls, List.length_append, hk]; rfl
    obtain ⟨hb, hG⟩ := built_of hg hr₀.good hst hlen fun a l hl => by rw [hlast a l hl, hlen]; omega
    refine ⟨s₀.insts, s₀.fns, hb, hG, fun O py C next hr hnext s hi hf hu n => ?_⟩
    obtain ⟨f, hm, hfm⟩ := hst.main
    have hIs : s.insts[k]? = some I := by rw [hi]; exact hst.cur.inst
    cases n with
    | zero => exact shows_zero hIs hm
    | succ n =>
      obtain ⟨I', hI'⟩ := hb.at_ k _ hkl
      have hII : I' = I := by
        have h1 := hI'.inst
        rw [hst.cur.inst] at h1
        cases h1
        rfl
      subst hII
      have e1 := main_run (P := program ts load aliasFor) (n := n) hIs hst.cur.loc hm (by rw [hf]; exact hfm) (hr.main s.world)
      let s1 : Store Part W := { s with frames := s.frames ++ [⟨[], none, none⟩] }
      have hsp : speaks t.conf .root root = true := hr.speaks _ (List.mem_of_getElem? hkl) rfl root List.mem_cons_self
      have hq : silent t.conf .root root = false := not_silent _ _ _ hsp
      let m₁ : MD W Unit := fun s => (if (t.doctype root).isEmpty then M.pure () else say (t.doctype root))
        { s with frames := s.frames ++ [⟨[], none, none⟩] }
      have e2 : part (program ts load aliasFor) O (callDoc (program ts load aliasFor) O n) (callEnv k s.frames.length)
          (.main t.conf (t.doctype root) root) s1 =
          M.bind m₁ (fun _ => nodes (program ts load aliasFor) O (callDoc (program ts load aliasFor) O n) t.conf
              (callEnv k s.frames.length) .root false [] [root]) s := by
        simp only [part, hq, hsp, Bool.and_false, Bool.false_eq_true, if_false, Bool.or_true, reading_true]
        unfold Spec.DocSem.nodes Spec.DocSem.nodes Spec.DocSem.otherwise
        simp only [M.bind_pure]
        rfl
      obtain ⟨any₁, h1⟩ : ∃ any₁, m₁ s = ⟨⟨(put (t.doctype root)).text, any₁⟩, s1, (put (t.doctype root)).res⟩ := by
        change ∃ any₁, (if (t.doctype root).isEmpty then M.pure () else say (t.doctype root)) s1 = _
        split
        · next hd => rw [List.isEmpty_iff.1 hd]; exact ⟨_, rfl⟩
        · exact ⟨_, rfl⟩
      have hshow := shows_seq (s := s) (s₁ := s1) (m₁ := m₁) (d := put (t.doctype root)) h1 (by simp [s1])
        (fun fr hfr => by simp [s1, List.getElem?_append_left hfr]) (by simp [s1]) (fun _ => ⟨hi, hf, hu⟩) hI'.inst hI'.gt
        (level_does (P := program ts load aliasFor) hr hnext hb n hkl hI' s.frames.length [])
      obtain ⟨s', any', r1, r2⟩ := hshow
      refine ⟨s', any', ?_, ?_⟩
      · rw [e1, e2]
        refine Eq.trans ?_ (r1.trans ?_)
        · rfl
        · simp only [shownAt, hkl, hroot]
          rfl
      · simp only [shownAt, hkl, hroot]
        exact r2
  | @child i t' as ln kids j rest t root ht hroot ha hload hext ih =>
    intro pre k s₀ I hls hk hst
    have hkl : ls[k]? = some ⟨t', true, kids⟩ := by rw [← hls]; exact levels_get hk
    have hst := hst _ _ hkl (shape_more hr₀ hg hkl hroot ha)
    obtain ⟨t2, ht2, -⟩ := extends_get hext
    have hcls : (program ts load aliasFor).classes[j]? = some (classOf t2.functions t2.base) := by
      unfold program
      dsimp only
      rw [List.getElem?_map, ht2]
      rfl
    have hk2 : ∃ l2, ls[k + 1]? = some l2 ∧ l2.t = t2 := by
      have hls' : (pre ++ [⟨t', true, kids⟩]) ++ levels rest t root = ls := by rw [← hls, List.append_assoc]; rfl
      rw [← hls']
      rw [levels_get (by rw [List.length_append, hk]; rfl)]
      cases hext with
      | layout h _ => rw [ht2] at h; cases h; exact ⟨_, rfl, rfl⟩
      | child h _ _ _ _ => rw [ht2] at h; cases h; exact ⟨_, rfl, rfl⟩
    obtain ⟨l2, hk2, rfl⟩ := hk2
    have hlt : k < s₀.insts.length := by rw [hst.len]; omega
    obtain ⟨s₀', -, ex₀⟩ := extend_run (program ts load aliasFor) k (attr as "href") s₀ hload hcls hst.cur.inst
    obtain ⟨insts, fns, hb, hG, h3⟩ := ih (pre ++ [⟨t', true, kids⟩]) (k + 1) s₀'
      (extParent s₀ (classOf l2.t.functions l2.t.base) I k j) (by rw [← hls, List.append_assoc]; rfl)
      (by rw [List.length_append, hk]; rfl) (fun l body hl hsh => by
        rw [hk2] at hl
        cases hl
        exact state_extend' hg hst hk2 ex₀ hsh)
    refine ⟨insts, fns, hb, hG, fun O py C next hr hnext s hi hf hu n => ?_⟩
    obtain ⟨f, hm, hfm⟩ := hst.main
    have hIs : s.insts[k]? = some I := by rw [hi]; exact hst.cur.inst
    cases n with
    | zero => exact shows_zero hIs hm
    | succ n =>
      obtain ⟨I', hI'⟩ := hb.at_ k _ hkl
      have e1 := main_run (P := program ts load aliasFor) (n := n) hIs hst.cur.loc hm (by rw [hf]; exact hfm) (hr.main s.world)
      let s1 : Store Part W := { s with frames := s.frames ++ [⟨[], none, none⟩] }
      obtain ⟨s1', he1, ex1⟩ := extend_run (program ts load aliasFor) k (attr as "href") s1 hload hcls hIs
      obtain ⟨q1, q2⟩ := ex₀.same ex1 hlt hi hf
      have e2 := child_main (O := O) (P := program ts load aliasFor) (x := ⟨t', kids⟩) (ln := ln)
        (call := callDoc (program ts load aliasFor) O n) (fr := s.frames.length) ha he1
      have hlen1 : s1.insts.length = k + 1 := by
        rw [show s1.insts = s.insts from rfl, hi, hst.len]
      rw [hlen1] at e2
      obtain ⟨s2, any, g1, g2, g3, g4⟩ := h3 O py C next hr hnext s1' q1 q2 (by
        rw [ex1.used, ex1.world]; exact hu) n
      have hfr1 : s1'.frames = s.frames ++ [⟨[], none, none⟩] := ex1.frames
      rw [hfr1] at g2 g3
      rw [List.length_append, List.length_singleton] at g2 g3
      have hshow := shows_seq (s := s) (s₁ := s2) (m₁ := fun _ => emitMain (callDoc (program ts load aliasFor) O n) .stream (k + 1) s1')
        (d := shownAt ls C py (globs insts) (ups insts) n (k + 1)) g1 (by omega)
        (fun fr hfr => by rw [g3 fr (by omega), List.getElem?_append_left hfr]) (by
          rw [g3 _ (by omega)]; simp) g4 hI'.inst hI'.gt
        (level_does (P := program ts load aliasFor) hr hnext hb n hkl hI' s.frames.length "py:extends".toList)
      obtain ⟨s', any', r1, r2⟩ := hshow
      refine ⟨s', any', ?_, ?_⟩
      · rw [e1, e2]
        refine Eq.trans ?_ (r1.trans ?_)
        · rfl
        · simp only [shownAt, hkl]
          rfl
      · simp only [shownAt, hkl]
        exact r2

end

end Kajiki.FunsDoc
