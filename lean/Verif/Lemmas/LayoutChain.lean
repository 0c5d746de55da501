import Verif.Lemmas.LayoutRun

/-! Rendering templates that extend a layout: the whole chain. -/

namespace Kajiki.LayoutDoc
open Kajiki.Run Kajiki.Spec.Pure Kajiki.Spec.DocSem Kajiki.Spec.Layout Kajiki.PureDoc
open Kajiki.Spec.Pure.Shown (done put get)

section
variable {W : Type} {O : Oracle W} {py : Py} {context : Dict Val}

theorem dirOf_extends : dirOf "py:extends".toList = some .ext := by decide +kernel

theorem shape_layout {xs : List Child} {t : Template} {root : DNode} (hr : Runs O py context xs t root)
    (hroot : t.root? = some root) :
    Shape t t.conf .root (Spec.Pure.blocks t.conf.opts root) (.main t.conf (t.doctype root) root) :=
  ⟨functions_shape hroot (defs_ok _ rfl t.conf .root root hr.okRoot) hr.layoutBlocks, hr.layoutBlocks,
    (hr.bases t List.mem_cons_self).1, (hr.bases t List.mem_cons_self).2⟩

theorem shape_child {xs : List Child} {t : Template} {root : DNode} (hr : Runs O py context xs t root) {x : Child}
    (hx : x ∈ xs) {as : Dict Str} {ln : Nat} (hroot : x.t.root? = some (.elem "py:extends".toList as ln x.kids))
    (ha : auto x.t.conf.opts "py:extends".toList as = false) :
    Shape x.t x.t.conf Place.root.ext x.blocks (.main x.t.conf [] (.elem "py:extends".toList as ln x.kids)) := by
  have hb := hr.bases x.t (List.mem_cons_of_mem _ (List.mem_map_of_mem hx))
  refine ⟨?_, hr.childBlocks x hx, hb.1, hb.2⟩
  have hd : x.t.doctype (.elem "py:extends".toList as ln x.kids) = [] := by
    unfold Template.doctype after
    rw [ha, if_neg Bool.false_ne_true, dirOf_extends]
    dsimp only
    rw [afterAll_ok _ _ _ _ (hr.okKids x hx)]
    simp [Place.ext]
  rw [functions_shape (p := Place.root.ext) (c := x.t.conf) hroot ?_ (hr.childBlocks x hx), hd]
  unfold defs
  rw [ha, if_neg Bool.false_ne_true, dirOf_extends]
  exact defsAll_ok _ rfl _ _ _ (hr.okKids x hx)

theorem over_firstOf (py : Py) (pre : List (Child × Inst)) (a : Nat) (n : Str) :
    (∃ k x I kids, pre[k]? = some (x, I) ∧ Dict.get x.blocks n = some kids ∧
      firstOf (pre.map (·.1)) a n = some (a + k, .block x.t.conf Place.root.ext "py:block".toList n kids) ∧
      over py (pre.map fun x => (x.1, glob x.2)) n = some (replacement py (glob I) x.t.conf n kids)) ∨
    (firstOf (pre.map (·.1)) a n = none ∧ over py (pre.map fun x => (x.1, glob x.2)) n = none) := by
  induction pre generalizing a with
  | nil => exact .inr ⟨rfl, rfl⟩
  | cons y pre ih =>
    obtain ⟨x, I⟩ := y
    simp only [List.map_cons, firstOf, over]
    cases hg : Dict.get x.blocks n with
    | some kids => exact .inl ⟨0, x, I, kids, rfl, hg, rfl, rfl⟩
    | none =>
      dsimp only
      rcases ih (a + 1) with ⟨k, x', I', kids, h1, h2, h3, h4⟩ | h
      · refine .inl ⟨k + 1, x', I', kids, by simpa using h1, h2, ?_, h4⟩
        rw [h3]
        congr 2
        omega
      · exact .inr h

/-- The blocks of the layout are found. -/
theorem found {pre : List (Child × Inst)} {t : Template} {root : DNode}
    (hr : Runs O py context (pre.map (·.1)) t root) {bases : List (Dict Val)} {s : Store Part W} {I : Inst} {body : Part}
    (h : State bases context s pre I t.conf .root (Spec.Pure.blocks t.conf.opts root) body) :
    Found O py s.insts s.fns (over py (pre.map fun x => (x.1, glob x.2))) pre.length I t.conf root := by
  intro b hb
  have hn := h.named b.1
  rcases over_firstOf py pre 0 b.1 with ⟨k, x, I', kids, h1, h2, h3, h4⟩ | ⟨h3, h4⟩
  · left
    have hl := h.before k _ h1
    have hx : x ∈ pre.map (·.1) := List.mem_map.2 ⟨_, List.mem_of_getElem? h1, rfl⟩
    have hm := mem_of_get h2
    obtain ⟨k1, -, -, k4⟩ := blockAll_facts x.t.conf x.kids (hr.okKids x hx) _ hm
    rw [h3, Nat.zero_add, Option.some_or] at hn
    obtain ⟨f, f1, f2⟩ := hn
    exact ⟨x.t.conf, kids, k, I', ⟨f, f1, f2, hl.inst, hl.loc, hl.gt⟩, h4, k1,
      fun k hk => hr.withs x hx k (k4 k hk), ((hr.childBlocks x hx).2 _ hm).2⟩
  · right
    rw [h3, Option.none_or, Dict.get_of_mem hr.layoutBlocks.1 hb] at hn
    obtain ⟨f, f1, f2⟩ := hn
    exact ⟨⟨f, f1, f2, h.cur.inst, h.cur.loc, h.cur.gt⟩, h4⟩

/-- What running a main function does: it shows `d`, older scopes stay, and older instances stay. -/
def Shows (next : W → Nat) (k : Nat) (m : MD W Unit) (d : Shown Unit) (s : Store Part W) : Prop :=
  ∃ s' any, m s = ⟨⟨d.text, any⟩, s', d.res⟩ ∧ s.frames.length ≤ s'.frames.length ∧
    (∀ fr < s.frames.length, s'.frames[fr]? = s.frames[fr]?) ∧
    (d.res = .ok () → (∀ a < k, s'.insts[a]? = s.insts[a]?) ∧ ∀ i ∈ s'.used, i < next s'.world)

theorem main_run {P : Prog Part} {n f a : Nat} {body : Part} {I : Inst} {s : Store Part W}
    (hI : s.insts[a]? = some I) (hl : Dict.get I.globals "local".toList = some (.inst a))
    (hm : Dict.get I.attrs "__main__".toList = some (.fn f))
    (hf : s.fns[f]? = some ⟨.code "__main__()".toList body, a, none, true⟩)
    (ha : O.args "__main__()".toList [] s.world = (.ok [], s.world)) :
    emitMain (callDoc P O (n + 1)) .stream a s = part P O (callDoc P O n) (callEnv a s.frames.length) body
      { s with frames := s.frames ++ [⟨[], none, none⟩] } := by
  rw [← call_run n hf hI hl ha]
  simp only [emitMain, attrFn, M.bind, getInst, hI, hm, M.pure, splice]
  rfl

/-- The layout itself. -/
theorem layout_run {P : Prog Part} {pre : List (Child × Inst)} {t : Template} {root : DNode}
    (hr : Runs O py context (pre.map (·.1)) t root) {next : W → Nat}
    (hnext : ∀ name v w f, visible v (blockName name) = some (.fn f) →
      ∃ w', O.eval (blockDecl name) v w = (.ok (.flatCall (next w) f []), w') ∧ next w < next w')
    {bases : List (Dict Val)} {s : Store Part W} {I : Inst}
    (h : State bases context s pre I t.conf .root (Spec.Pure.blocks t.conf.opts root) (.main t.conf (t.doctype root) root))
    (hu : ∀ i ∈ s.used, i < next s.world) {n : Nat} (hn : 1 + depth root ≤ n) :
    Shows next pre.length (emitMain (callDoc P O n) .stream pre.length)
      (layout py (glob I) (over py (pre.map fun x => (x.1, glob x.2))) t root) s := by
  obtain ⟨n, rfl⟩ : ∃ m, n = m + 1 := ⟨n - 1, by omega⟩
  obtain ⟨f, hm, hf⟩ := h.main
  have e1 := main_run (P := P) (n := n) h.cur.inst h.cur.loc hm hf (hr.main s.world)
  have hs : Does (fixed s.insts s.fns next) I (callEnv pre.length s.frames.length)
      (part P O (callDoc P O n) (callEnv pre.length s.frames.length) (.main t.conf (t.doctype root) root)) fun ρ =>
        (put (t.doctype root)).seq (Spec.Pure.node py (glob I) (over py (pre.map fun x => (x.1, glob x.2))) t.conf
          (fun ρ => done ρ) [] root ρ) := by
    have hq : silent t.conf .root root = false := not_silent _ _ _ hr.speaks
    simp only [part, hq, hr.speaks, Bool.and_false, Bool.false_eq_true, if_false, Bool.or_true, reading_true]
    refine Does₀.seq ?_ (does_node _ P hr.messages hr.tidy (.no _ hr.noCalls) t.conf .root (fun h => nomatch h)
      (B := fun n' kids => (n', kids) ∈ Spec.Pure.blocks t.conf.opts root) (fun n' kids hb => ?_) (fun _ h => nomatch h) Does.done [] root hr.okRoot
      (fit_of _ _ _ _ hr.layoutWiths fun _ h => h))
    · split
      · next hd => rw [List.isEmpty_iff.1 hd]; exact Does₀.done
      · exact Does₀.put _
    · have := (block_facts t.conf root hr.okRoot _ hb).2.1
      exact does_blocks hr hnext (found hr h) n (n', kids) hb (by omega) _ rfl
  obtain ⟨s', any, h1, ⟨h2, h3⟩, h4⟩ := hs { s with frames := s.frames ++ [⟨[], none, none⟩] } []
    ⟨⟨none, by simp [callEnv]⟩, ⟨_, h.cur.inst, fun _ _ => rfl⟩, ⟨pre.length, rfl, _, h.cur.inst, h.cur.gt⟩, ⟨rfl, rfl, hu⟩, fun _ _ => rfl⟩
  simp only [List.length_append, List.length_singleton] at h2 h3
  dsimp only at h1 h4
  refine ⟨s', any, ?_, by omega, fun fr hfr => ?_, fun hok => ?_⟩
  · rw [e1, h1]
    unfold layout
    rw [show ∀ (a : Shown Unit) (b : Shown Vars), a.seq (b.next fun _ => done ()) = (a.seq b).next fun _ => done () from
      fun a b => (Shown.next_assoc a _ _).symm]
    generalize (put (t.doctype root)).seq _ = d
    obtain ⟨tx, rs⟩ := d
    cases rs with
    | error e => rfl
    | ok σ => simp [Spec.Pure.Shown.next, done, Except.map]
  · rw [h3 fr (by omega) (Nat.ne_of_lt hfr), List.getElem?_append_left hfr]
  · unfold layout at hok
    rw [show ∀ (a : Shown Unit) (b : Shown Vars), a.seq (b.next fun _ => done ()) = (a.seq b).next fun _ => done () from
      fun a b => (Shown.next_assoc a _ _).symm] at hok
    generalize hd : (put (t.doctype root)).seq _ = d at hok
    cases hres : d.res with
    | error e => rw [Shown.next, hres] at hok; cases hok
    | ok σ =>
      obtain ⟨i1, -, i3⟩ := (h4 σ (by rw [hd]; exact hres)).inv
      exact ⟨fun a _ => by rw [i1], i3⟩

theorem extends_get {ts : List Template} {load : Str → Option Nat} {i : Nat} {cs : List Child} {t : Template} {root : DNode}
    (h : Extends ts load i cs t root) : ∃ t', ts[i]? = some t' ∧ t' ∈ t :: cs.map (·.t) := by
  cases h with
  | layout h _ => exact ⟨_, h, List.mem_cons_self⟩
  | child h _ _ _ _ => exact ⟨_, h, List.mem_cons_of_mem _ List.mem_cons_self⟩

/-- The main function of a template that extends another one, when the instance of that one is made. -/
theorem child_main {P : Prog Part} {x : Child} {as : Dict Str} {ln : Nat} {call : Mode → Nat → List Val → MD W Unit}
    (ha : auto x.t.conf.opts "py:extends".toList as = false) {s s' : Store Part W} {j fr j' : Nat}
    (he : extend P j (attr as "href") s = ⟨.nil, s', .ok j'⟩) :
    part P O call (callEnv j fr) (.main x.t.conf [] (.elem "py:extends".toList as ln x.kids)) s =
      M.bind (emitMain call .stream j') (fun _ =>
        nodes P O call x.t.conf (callEnv j fr) Place.root.ext false "py:extends".toList x.kids) s' := by
  have h1 : silent x.t.conf .root (.elem "py:extends".toList as ln x.kids) = false := by
    unfold silent
    rw [ha, if_neg Bool.false_ne_true, dirOf_extends]
  have h2 : speaks x.t.conf .root (.elem "py:extends".toList as ln x.kids) = true := by
    unfold speaks
    rw [ha, if_neg Bool.false_ne_true, dirOf_extends]
  simp only [part, h1, h2, Bool.and_false, Bool.false_eq_true, if_false, Bool.or_true, reading_true, List.isEmpty_nil,
    if_true, M.pure_bind]
  unfold Spec.DocSem.node
  rw [ha, if_neg Bool.false_ne_true, dirOf_extends]
  dsimp only
  rw [M.bind_assoc]
  have : extendM P (callEnv j fr) (attr as "href") s = ⟨.nil, s', .ok j'⟩ := by
    unfold extendM kjInst callEnv
    dsimp only [M.ofOption]
    rw [M.pure_bind]
    exact he
  rw [bind_ok this]
  rfl

/-- The rest of a chain. -/
theorem chain_run {ts : List Template} {load : Str → Option Nat} (aliasFor : Str → Str)
    (hn : (context.map (·.1)).Nodup) (hfree : ∀ k, k = "local".toList ∨ BlockName k → Dict.get context k = none)
    {bases : List (Dict Val)} {i : Nat} {cs : List Child} {t : Template} {root : DNode} (hx : Extends ts load i cs t root) :
    ∀ (xs : List Child) (O₀ : Oracle W) (py₀ : Py), (∀ x ∈ t :: xs.map (·.t), x.base ∈ bases) →
      Runs O₀ py₀ context xs t root → ∀ (pre : List (Child × Inst)) (s₀ : Store Part W) (I : Inst),
      pre.map (·.1) ++ cs = xs →
      (∀ t' c p bs body, ts[i]? = some t' → Shape t' c p bs body → State bases context s₀ pre I c p bs body) →
      ∃ Is IL, Is.length = cs.length ∧ (∀ I ∈ IL :: Is, Globals bases context (glob I)) ∧
        ∀ (O : Oracle W) (py : Py) (next : W → Nat), Runs O py context xs t root →
        (∀ name v w f, visible v (blockName name) = some (.fn f) →
          ∃ w', O.eval (blockDecl name) v w = (.ok (.flatCall (next w) f []), w') ∧ next w < next w') →
        ∀ s : Store Part W, s.insts = s₀.insts → s.fns = s₀.fns → (∀ i ∈ s.used, i < next s.world) →
        ∀ n, cs.length + 1 + depth root ≤ n →
          Shows next pre.length (emitMain (callDoc (program ts load aliasFor) O n) .stream pre.length)
            (parts py (layout py (glob IL) (over py ((pre.map fun x => (x.1, glob x.2)) ++ cs.zip (Is.map glob))) t root)
              (cs.zip (Is.map glob))) s := by
  induction hx with
  | @layout i t root ht hroot =>
    intro xs O₀ py₀ hb hr₀ pre s₀ I hxs hst
    refine ⟨[], I, rfl, fun I' hI' => ?_, fun O py next hr hnext s hi hf hu n hle => ?_⟩
    · cases List.mem_singleton.1 hI'
      exact (hst _ _ _ _ _ ht (shape_layout hr₀ hroot)).cur.gl
    · rw [List.append_nil] at hxs
      subst hxs
      have hst' := hst _ _ _ _ _ ht (shape_layout hr₀ hroot)
      have hst : State bases context s pre I t.conf .root (Spec.Pure.blocks t.conf.opts root)
          (.main t.conf (t.doctype root) root) := by
        obtain ⟨k1, k2, k3, k4, k5⟩ := hst'
        refine ⟨by rw [hi]; exact k1, fun a x hx => ?_, ?_, by rw [hf]; exact k4, fun n => ?_⟩
        · obtain ⟨l1, l2, l3, l4, l5, l6⟩ := k2 a x hx
          exact ⟨by rw [hi]; exact l1, l2, l3, l4, l5, l6⟩
        · obtain ⟨l1, l2, l3, l4, l5, l6⟩ := k3
          exact ⟨by rw [hi]; exact l1, l2, l3, l4, l5, l6⟩
        · have := k5 n
          generalize Option.or _ _ = o at this ⊢
          cases o with
          | none => exact this
          | some y => unfold Named at this ⊢; rw [hf]; exact this
      simp only [List.zip_nil_left, List.append_nil, Spec.Layout.parts]
      exact layout_run hr hnext hst hu (by simpa using hle)
  | @child i t' as ln kids j rest t root ht hroot ha hload hext ih =>
    intro xs O₀ py₀ hb hr₀ pre s₀ I hxs hst
    let x : Child := ⟨t', kids⟩
    have hxm : x ∈ xs := by rw [← hxs]; simp [x]
    have hst := hst _ _ _ _ _ ht (shape_child hr₀ hxm hroot ha)
    obtain ⟨t2, ht2, hm2⟩ := extends_get hext
    have hcls : (program ts load aliasFor).classes[j]? = some (classOf t2.functions t2.base) := by
      unfold program
      dsimp only
      rw [List.getElem?_map, ht2]
      rfl
    have hb2 : t2.base ∈ bases := by
      refine hb t2 ?_
      rcases List.mem_cons.1 hm2 with rfl | hm2
      · exact List.mem_cons_self
      · refine List.mem_cons_of_mem _ ?_
        rw [← hxs, List.map_append, List.map_cons]
        exact List.mem_append_right _ (List.mem_cons_of_mem _ hm2)
    have hlt : pre.length < s₀.insts.length := by rw [hst.len]; omega
    obtain ⟨s₀', -, ex₀⟩ := extend_run (program ts load aliasFor) pre.length (attr as "href") s₀ hload hcls hst.cur.inst
    have hst2 : ∀ t' c p bs body, ts[j]? = some t' → Shape t' c p bs body → 
        State bases context s₀' (pre ++ [(x, extChild s₀ (classOf t2.functions t2.base) I pre.length)])
          (extParent s₀ (classOf t2.functions t2.base) I pre.length j) c p bs body := by
      intro t3 c p bs body ht3 hsh
      rw [ht2] at ht3
      cases ht3
      exact state_extend (x := x) hst ex₀ hsh hn hfree hb2
    generalize extChild s₀ (classOf t2.functions t2.base) I pre.length = I' at hst2
    obtain ⟨Is, IL, h1, h2, h3⟩ := ih xs O₀ py₀ hb hr₀ (pre ++ [(x, I')]) s₀' _ (by
      rw [← hxs]; simp [x]) hst2
    have hlev : Level bases context s₀' pre.length I' := by
      have hsh : ∃ c p bs body, Shape t2 c p bs body := by
        cases hext with
        | layout h h' => rw [ht2] at h; cases h; exact ⟨_, _, _, _, shape_layout hr₀ h'⟩
        | @child _ _ _ _ kids' _ _ _ _ h h' h'' _ _ =>
          rw [ht2] at h
          cases h
          exact ⟨_, _, _, _, shape_child (x := ⟨t2, kids'⟩) hr₀ (by rw [← hxs]; simp) h' h''⟩
      obtain ⟨c, p, bs, body, hsh⟩ := hsh
      exact (hst2 _ _ _ _ _ ht2 hsh).before pre.length (x, I') (by simp)
    refine ⟨I' :: Is, IL, by simp [h1], fun I'' hI'' => ?_, fun O py next hr hnext s hi hf hu n hle => ?_⟩
    · rcases List.mem_cons.1 hI'' with rfl | hI''
      · exact h2 _ List.mem_cons_self
      · rcases List.mem_cons.1 hI'' with rfl | hI''
        · exact hlev.gl
        · exact h2 _ (List.mem_cons_of_mem _ hI'')
    · obtain ⟨n, rfl⟩ : ∃ m, n = m + 1 := ⟨n - 1, by omega⟩
      rw [List.length_cons] at hle
      obtain ⟨f, hm, hfm⟩ := hst.main
      have hIs : s.insts[pre.length]? = some I := by rw [hi]; exact hst.cur.inst
      have e1 := main_run (P := program ts load aliasFor) (n := n) hIs hst.cur.loc hm (by rw [hf]; exact hfm)
        (hr.main s.world)
      let s1 : Store Part W := { s with frames := s.frames ++ [⟨[], none, none⟩] }
      obtain ⟨s1', he1, ex1⟩ := extend_run (program ts load aliasFor) pre.length (attr as "href") s1 hload hcls hIs
      obtain ⟨q1, q2⟩ := ex₀.same ex1 hlt hi hf
      have e2 := child_main (O := O) (P := program ts load aliasFor) (x := x) (ln := ln) (call := callDoc (program ts load aliasFor) O n)
        (fr := s.frames.length) ha he1
      have hlen1 : s1.insts.length = (pre ++ [(x, I')]).length := by
        rw [show s1.insts = s.insts from rfl, hi, hst.len]
        simp
      rw [hlen1] at e2
      obtain ⟨s2, any, g1, g2, g3, g4⟩ := h3 O py next hr hnext s1' q1 q2 (by
        rw [ex1.used, ex1.world]; exact hu) n (by omega)
      have hzip : (pre ++ [(x, I')]).map (fun x => (x.1, glob x.2)) ++ rest.zip (Is.map glob) =
          (pre.map fun x => (x.1, glob x.2)) ++ (⟨t', kids⟩ :: rest).zip ((I' :: Is).map glob) := by
        simp [x]
      rw [hzip] at g1 g4
      have hparts : ∀ L, parts py L ((⟨t', kids⟩ :: rest).zip ((I' :: Is).map glob)) =
          (parts py L (rest.zip (Is.map glob))).seq
            ((Spec.Pure.nodes py (glob I') elsewhere x.t.conf false "py:extends".toList x.kids []).next fun _ => done ()) :=
        fun L => rfl
      rw [hparts]
      generalize parts py _ (rest.zip (Is.map glob)) = d at g1 g4 ⊢
      have hfr1 : s1'.frames = s.frames ++ [⟨[], none, none⟩] := ex1.frames
      rw [hfr1] at g2 g3
      rw [List.length_append, List.length_singleton] at g2 g3
      have hfr : ∀ fr < s.frames.length, s2.frames[fr]? = s.frames[fr]? := fun fr hfr => by
        rw [g3 fr (by omega), List.getElem?_append_left hfr]
      obtain ⟨tx, rs⟩ := d
      cases rs with
      | error e =>
        refine ⟨s2, any, ?_, by omega, hfr, fun h => nomatch h⟩
        rw [e1, e2, bind_error g1]
        rfl
      | ok u =>
        obtain ⟨g5, g6⟩ := g4 rfl
        have hI' : s2.insts[pre.length]? = some I' := by
          rw [g5 pre.length (by simp), q1]
          exact hlev.inst
        have hd : Does (fixed s2.insts s2.fns next) I' (callEnv pre.length s.frames.length)
            (nodes (program ts load aliasFor) O (callDoc (program ts load aliasFor) O n) x.t.conf
              (callEnv pre.length s.frames.length) Place.root.ext false "py:extends".toList x.kids)
            (Spec.Pure.nodes py (glob I') elsewhere x.t.conf false "py:extends".toList x.kids) :=
          does_nodes _ _ hr.messages hr.tidy (.no _ hr.noCalls) x.t.conf Place.root.ext (fun h => nomatch h) (B := fun _ _ => True)
            (fun n kids _ => Does₀.done) (fun _ h => nomatch h) false _ x.kids (hr.okKids x hxm)
            (fitAll_of _ _ _ _ (hr.withs x hxm) fun _ _ => trivial)
        obtain ⟨s3, any', k1, ⟨k2, k3⟩, k4⟩ := hd s2 [] ⟨⟨none, by
            change s2.frames[s.frames.length]? = _
            rw [g3 _ (by omega)]
            simp⟩, ⟨_, hI', fun _ _ => rfl⟩, ⟨pre.length, rfl, _, hI', hlev.gt⟩, ⟨rfl, rfl, g6⟩, fun _ _ => rfl⟩
        generalize Spec.Pure.nodes py (glob I') elsewhere x.t.conf false "py:extends".toList x.kids [] = q at k1 k4 ⊢
        refine ⟨s3, any || any', ?_, by omega, fun fr h => ?_, fun hok => ?_⟩
        · rw [e1, e2, bind_ok g1, k1]
          obtain ⟨tx', rs'⟩ := q
          cases rs' with
          | error e => rfl
          | ok σ => simp [Spec.Pure.Shown.seq, Spec.Pure.Shown.next, done, Except.map]; rfl
        · rw [k3 fr (by omega) (Nat.ne_of_lt h)]
          exact hfr fr h
        · obtain ⟨tx', rs'⟩ := q
          cases rs' with
          | error e => cases hok
          | ok σ =>
            obtain ⟨i1, -, i3⟩ := (k4 σ rfl).inv
            refine ⟨fun a ha => ?_, i3⟩
            rw [i1, g5 a (by simp; omega), ex1.others a (Nat.ne_of_lt ha) (by rw [hlen1]; simp; omega)]

end

end Kajiki.LayoutDoc
