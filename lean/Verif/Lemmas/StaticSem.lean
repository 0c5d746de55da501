import Verif.Lemmas.StaticText

/-! What documents without directives mean. -/

namespace Kajiki.StaticDoc
open Kajiki.Run Kajiki.Spec.Static Kajiki.Spec.DocSem
open Kajiki.Spec.XmlText (doubled)

/-! ## Documents -/

/-- A text as it is shown in an element: each piece is translated by `tr` unless it is blank. -/
def textOut (tr : Str → Str) (tag d : Str) : Str :=
  (segs (und d)).flatMap fun t => if scriptTag tag then t else if (strip t).isEmpty then t else tr t

/-- A text as it is shown in a script. -/
def scriptOut : DNode → Str
  | .text d e _ => (segs (und d)).flatMap fun t => if e then resolve t else t
  | _ => []

/-- The content of a script. -/
def scriptSer (mode : Str) (kids : List DNode) : Str :=
  if mode = "xml".toList then "/*<![CDATA[*/".toList ++ (kids.flatMap scriptOut ++ "/*]]>*/".toList)
  else kids.flatMap scriptOut

mutual
/-- A node as it is shown. -/
def ser (tr : Str → Str) (o : Opts) (mode tag : Str) : DNode → Str
  | .text d _ _ => textOut tr tag d
  | .cdata d _ => d
  | .comment d _ => if ['!'].isPrefixOf d then [] else "<!-- ".toList ++ d ++ " -->".toList
  | .pi _ _ _ => []
  | .elem t as _ kids =>
    '<' :: t ++ ((sortItems as).flatMap (fun kv => attrText mode (kv.1, und kv.2)) ++
      if kids.isEmpty then emptyTag mode t
      else ">".toList ++ ((if script o t then scriptSer mode kids else serAll tr o mode t kids) ++
        if html mode && void t then [] else close t))

/-- Several nodes as they are shown. -/
def serAll (tr : Str → Str) (o : Opts) (mode tag : Str) : List DNode → Str
  | [] => []
  | x :: xs => ser tr o mode tag x ++ serAll tr o mode tag xs
end

/-- Text or the marker of a CDATA section. -/
def isTextD : DNode → Bool
  | .text _ _ _ => true
  | .cdata _ _ => true
  | _ => false

mutual
/-- There are no directives and no expressions. -/
def Lit (o : Opts) : DNode → Prop
  | .text d e _ => ∃ t, d = enc e t
  | .cdata _ _ => True
  | .comment _ _ => True
  | .pi _ _ _ => False
  | .elem t as _ kids =>
    reserved t = false ∧ (∀ kv ∈ as, reserved kv.1 = false ∧ ∃ v, kv.2 = doubled v) ∧ (as.map (·.1)).Nodup ∧
    o.autoblocks.contains t = false ∧ (script o t = true → ∀ x ∈ kids, isTextD x = true) ∧ LitAll o kids

/-- The same for several nodes. -/
def LitAll (o : Opts) : List DNode → Prop
  | [] => True
  | x :: xs => Lit o x ∧ LitAll o xs
end

theorem litAll_iff (o : Opts) (xs : List DNode) : LitAll o xs ↔ ∀ x ∈ xs, Lit o x := by
  induction xs with
  | nil => simp [LitAll]
  | cons x xs ih => rw [LitAll, ih]; simp

theorem und_enc (e : Bool) (t : Str) : und (enc e t) = if e then saxEscape t else t := by
  cases e
  · exact und_doubled t
  · exact und_doubled (saxEscape t)

theorem enc_doubled (e : Bool) (t : Str) : ∃ u, enc e t = doubled u := by
  cases e
  · exact ⟨_, rfl⟩
  · exact ⟨_, rfl⟩

theorem get_reserved {as : Dict Str} (h : ∀ kv ∈ as, reserved kv.1 = false) {k : Str} (hk : reserved k = true) :
    Dict.get as k = none := by
  apply Dict.get_none_of_not_mem
  intro hm
  obtain ⟨kv, h1, rfl⟩ := List.mem_map.1 hm
  rw [h kv h1] at hk; cases hk

theorem dirOf_plain {t : Str} (h : reserved t = false) : dirOf t = none := by
  unfold dirOf
  apply Dict.get_none_of_not_mem
  intro hm
  have : ∀ k ∈ Spec.DocSem.directives.map (·.1), reserved k = true := by decide +kernel
  rw [this t hm] at h; cases h

theorem auto_plain {o : Opts} {t : Str} (h : o.autoblocks.contains t = false) (as : Dict Str) :
    auto o t as = false := by
  unfold auto; rw [h]; rfl

theorem plainAttrs_plain {o : Opts} {t : Str} (h : o.autoblocks.contains t = false) (as : Dict Str) :
    plainAttrs o t as = as := by
  unfold plainAttrs; rw [h]; rfl

theorem attr_reserved {as : Dict Str} (h : ∀ kv ∈ as, reserved kv.1 = false) {k : String}
    (hk : reserved k.toList = true) : attr as k = [] := by
  unfold attr; rw [get_reserved h hk]; rfl

theorem keepTag_plain {as : Dict Str} (h : ∀ kv ∈ as, reserved kv.1 = false) : keepTag as = none := by
  unfold keepTag
  rw [get_reserved h (by decide +kernel)]
  rfl

theorem special_plain {as : Dict Str} (h : ∀ kv ∈ as, reserved kv.1 = false) :
    as.filter (fun kv => !special kv.1) = as := by
  rw [List.filter_eq_self]
  intro kv hkv
  cases hs : special kv.1 with
  | false => rfl
  | true =>
    have h1 := h kv hkv
    unfold special at hs
    simp only [decide_eq_true_eq] at hs
    rcases hs with hs | hs | hs <;> rw [hs] at h1 <;> revert h1 <;> decide +kernel

/-! ## Computations that only say something -/

section
variable {W : Type}

/-- A scope and an instance to run in.  There are no local variables. -/
structure Ready (I : Inst) (env : Env) (s : Store Part W) : Prop where
  frame : env.frame < s.frames.length
  blank : ∀ f ∈ s.frames, f.vars = []
  inst : s.insts[env.inst]? = some I
  kj : ∃ j, env.kj = some j ∧ s.insts[j]? = some I
  gettext : ∃ g, Dict.get I.globals "gettext".toList = some g

/-- Only scopes were added. -/
structure Kept (s s' : Store Part W) : Prop where
  insts : s'.insts = s.insts
  world : s'.world = s.world
  frames : s.frames.length ≤ s'.frames.length
  blank : (∀ f ∈ s.frames, f.vars = []) → ∀ f ∈ s'.frames, f.vars = []

theorem Kept.refl (s : Store Part W) : Kept s s := ⟨rfl, rfl, Nat.le_refl _, id⟩

theorem Kept.trans {s s' s'' : Store Part W} (h : Kept s s') (h' : Kept s' s'') : Kept s s'' :=
  ⟨h'.insts.trans h.insts, h'.world.trans h.world, Nat.le_trans h.frames h'.frames, fun h0 => h'.blank (h.blank h0)⟩

theorem Ready.kept {I : Inst} {env : Env} {s s' : Store Part W} (h : Ready I env s) (k : Kept s s') : Ready I env s' :=
  ⟨Nat.lt_of_lt_of_le h.frame k.frames, k.blank h.blank, by rw [k.insts]; exact h.inst, by rw [k.insts]; exact h.kj,
    h.gettext⟩

/-- The computation shows the text and does nothing else. -/
def Says (I : Inst) (env : Env) (m : MD W Unit) (t : Str) : Prop :=
  ∀ s, Ready I env s → ∃ s' any, m s = ⟨⟨t, any⟩, s', .ok ()⟩ ∧ Kept s s'

variable {I : Inst} {env : Env}

theorem Says.say (t : Str) : Says (W := W) I env (say t) t := fun s _ => ⟨s, true, rfl, .refl s⟩

theorem Says.pure : Says (W := W) I env (M.pure ()) [] := fun s _ => ⟨s, false, rfl, .refl s⟩

theorem Says.bind {m m' : MD W Unit} {t t' : Str} (h : Says I env m t) (h' : Says I env m' t') :
    Says I env (M.bind m fun _ => m') (t ++ t') := by
  intro s hs
  obtain ⟨s1, a1, e1, k1⟩ := h s hs
  obtain ⟨s2, a2, e2, k2⟩ := h' s1 (hs.kept k1)
  refine ⟨s2, a1 || a2, ?_, k1.trans k2⟩
  unfold M.bind
  rw [e1]
  dsimp only
  rw [e2]
  rfl

theorem Says.each {α : Type} {f : α → MD W Unit} {g : α → Str} {l : List α} (h : ∀ a ∈ l, Says I env (f a) (g a)) :
    Says I env (M.each f l) (l.flatMap g) := by
  induction l with
  | nil => exact .pure
  | cons a l ih =>
    rw [List.flatMap_cons]
    exact Says.bind (h a (by simp)) (ih fun b hb => h b (by simp [hb]))

theorem Says.emitStrs (ss : List Str) : Says (W := W) I env (emitStrs ss) ss.flatten := by
  have := Says.each (W := W) (I := I) (env := env) (f := fun s => M.tell (.chunk s)) (g := id) (l := ss)
    fun a _ => Says.say a
  rwa [List.flatMap_id] at this

/-- The translation function translates with `tr`. -/
def Translates (O : Oracle W) (tr : Str → Str) : Prop := ∀ g s w, O.gettext g s w = (.ok (.str (tr s)), w)

variable {O : Oracle W} {tr : Str → Str} (call : Mode → Nat → List Val → MD W Unit)

theorem emit_str (mode : Mode) (t : Str) : emit call mode (.str t) = M.tell (.chunk t) := by
  unfold emit
  cases mode <;> rfl

theorem Says.saying (hO : Translates O tr) (t : Str) :
    Says I env (saying O call env t) (if (strip t).isEmpty then t else tr t) := by
  unfold Spec.DocSem.saying
  split
  · exact .say t
  · intro s hs
    obtain ⟨j, h1, h2⟩ := hs.kj
    obtain ⟨g, h3⟩ := hs.gettext
    refine ⟨s, true, ?_, .refl s⟩
    have hg := hO g t s.world
    simp only [gettextM, kjInst, h1, M.ofOption, M.pure, M.bind, getInst, h2, h3, ask, hg, emit_str, M.tell]
    rfl

/-- A text. -/
theorem Says.text (hO : Translates O tr) (c : CEnv) (tag u : Str) :
    Says I env (Spec.DocSem.text O call c env tag (doubled u)) (textOut tr tag (doubled u)) := by
  unfold Spec.DocSem.text textOut
  rw [cut_doubled, und_doubled]
  induction segs u with
  | nil => exact .pure
  | cons t l ih =>
    rw [List.flatMap_cons]
    refine Says.bind ?_ ih
    dsimp only
    split
    · exact .say t
    · exact Says.saying call hO t

/-- A text in a script. -/
theorem Says.scriptText (c : CEnv) (e : Bool) (u : Str) (ln : Nat) :
    Says I env (Spec.DocSem.scriptText O call c env e (doubled u)) (scriptOut (.text (doubled u) e ln)) := by
  unfold Spec.DocSem.scriptText scriptOut
  dsimp only
  rw [cut_doubled, und_doubled]
  induction segs u with
  | nil => exact .pure
  | cons t l ih =>
    rw [List.flatMap_cons]
    exact Says.bind (.say _) ih

theorem Says.scriptContent (c : CEnv) (kids : List DNode) (hk : LitAll o kids) :
    Says I env (Spec.DocSem.scriptContent O call c env kids) (scriptSer c.mode kids) := by
  have h : ∀ f : DNode → MD W Unit, (∀ d e l, f (.text d e l) = Spec.DocSem.scriptText O call c env e d) →
      (∀ x, (∀ d e l, x ≠ .text d e l) → f x = M.pure ()) → Says I env (M.each f kids) (kids.flatMap scriptOut) := by
    intro f hf hf'
    refine Says.each fun x hx => ?_
    have := (litAll_iff o kids).1 hk x hx
    cases x with
    | text d e ln =>
      obtain ⟨t, rfl⟩ := this
      obtain ⟨u, hu⟩ := enc_doubled e t
      rw [hu, hf]
      exact Says.scriptText call c e u ln
    | _ => rw [hf' _ (by intros; simp)]; exact .pure
  have h := fun f hf => h f hf
  have h' := fun f hf hf' => Says.bind (Says.pure (I := I) (env := env)) (Says.bind (h f hf hf') Says.pure)
  simp only [List.nil_append, List.append_nil] at h'
  unfold Spec.DocSem.scriptContent scriptSer
  split
  · refine Says.bind (.say _) (Says.bind (h _ (fun _ _ _ => rfl) fun x hx => ?_) (.say _))
    cases x <;> first | rfl | exact absurd rfl (hx _ _ _)
  · refine h' _ (fun _ _ _ => rfl) fun x hx => ?_
    cases x <;> first | rfl | exact absurd rfl (hx _ _ _)

/-! ## Attributes -/

theorem each_say (l : List Str) (f : Str ⊕ Str → MD W Unit) (hf : ∀ t, f (.inl t) = Spec.DocSem.say t) (s : Store Part W) :
    M.each f (l.map .inl) s = ⟨⟨l.flatten, !l.isEmpty⟩, s, .ok ()⟩ := by
  induction l with
  | nil => rfl
  | cons t l ih =>
    simp only [List.map_cons, M.each, M.bind, hf, Spec.DocSem.say, M.tell, ih]
    rfl

theorem attrValue_text (c : CEnv) (env : Env) (u : Str) (s : Store Part W) :
    attrValue O call c env (doubled u) s = ⟨⟨u, true⟩, s, .ok ()⟩ := by
  unfold attrValue
  rw [cut_doubled]
  have hf := segs_flatten u
  cases hs : segs u with
  | nil =>
    rw [hs] at hf
    cases hf
    rfl
  | cons t l =>
    rw [if_neg (by simp), each_say _ _ (fun _ => rfl), ← hs, hf, hs]
    rfl

theorem Says.attrPart (c : CEnv) (k u : Str) :
    Says I env (Spec.DocSem.attrPart O call c env none k (doubled u)) (attrText c.mode (k, u)) := by
  intro s hs
  unfold Spec.DocSem.attrPart under
  dsimp only
  let fr : Frame := ⟨[], liveScope s.frames (some env.frame), none⟩
  let s' : Store Part W := { s with
    frames := (s.frames ++ [fr]).modify env.frame fun f => { f with coll := some u } }
  have h1 : collectM env (fun env => attrValue O call c env (doubled u)) s = ⟨.nil, s', .ok ()⟩ := by
    simp only [collectM, newFrame, M.bind, M.capture, attrValue_text, modFrame, M.modify]
    rfl
  have hk : Kept s s' := ⟨rfl, rfl, by simp [s'], fun h0 => by
    have h1 : ∀ f ∈ s.frames ++ [fr], f.vars = [] := by
      intro f hf
      rcases List.mem_append.1 hf with hf | hf
      · exact h0 f hf
      · rw [List.mem_singleton.1 hf]
    intro f hf
    obtain ⟨n, hn⟩ := List.mem_iff_getElem?.1 hf
    simp only [s', List.getElem?_modify] at hn
    cases hq : (s.frames ++ [fr])[n]? with
    | none => rw [hq] at hn; cases hn
    | some q =>
      rw [hq] at hn
      have := h1 q (List.mem_iff_getElem?.2 ⟨n, hq⟩)
      simp only [Option.map_eq_map, Option.map_some, Option.some.injEq] at hn
      subst hn
      split <;> exact this⟩
  have hl : (s'.frames[env.frame]?).bind (·.coll) = some u := by
    have : env.frame < (s.frames ++ [fr]).length := by
      rw [List.length_append]; exact Nat.lt_add_right _ hs.frame
    simp [s', List.getElem?_eq_getElem this]
  obtain ⟨s2, a2, e2, k2⟩ := Says.emitStrs (W := W) (I := I) (env := env) (renderCollected k c.mode (some u)) s' (hs.kept hk)
  refine ⟨s2, a2, ?_, hk.trans k2⟩
  unfold M.bind
  rw [h1]
  dsimp only
  have : attrM env k c.mode s' = Run.emitStrs (renderCollected k c.mode (some u)) s' := by
    simp only [attrM, M.bind, M.get, hl]
    rfl
  rw [this, e2, renderCollected_text]
  rfl

theorem Says.startTag (c : CEnv) (t : Str) (as : Dict Str)
    (h : ∀ kv ∈ as, reserved kv.1 = false ∧ ∃ v, kv.2 = doubled v) :
    Says I env (Spec.DocSem.startTag O call c env t as)
      ('<' :: t ++ (sortItems as).flatMap (fun kv => attrText c.mode (kv.1, und kv.2))) := by
  have h' : ∀ kv ∈ as, reserved kv.1 = false := fun kv hkv => (h kv hkv).1
  unfold Spec.DocSem.startTag
  rw [keepTag_plain h', attr_reserved h' (by decide +kernel), special_plain h']
  simp only [List.isEmpty_nil, if_true]
  refine Says.bind (.say _) ?_
  rw [M.bind_pure]
  refine Says.each fun kv hkv => ?_
  obtain ⟨v, hv⟩ := (h kv ((Wf.sortItems_perm as).mem_iff.1 hkv)).2
  rw [hv, und_doubled]
  exact Says.attrPart call c kv.1 v

/-! ## Nodes -/

variable (P : Prog Part)

mutual
theorem says_node (hO : Translates O tr) (c : CEnv) (p : Place) (els : MD W Unit) (tag : Str) :
    ∀ x, Lit c.opts x → (∀ d l, x ≠ .cdata d l) →
      Says I env (node P O call c env p els tag x) (ser tr c.opts c.mode tag x)
  | .text d e _, h, _ => by
    obtain ⟨t, rfl⟩ := h
    obtain ⟨u, hu⟩ := enc_doubled e t
    rw [hu, node, ser]
    exact Says.text call hO c tag u
  | .cdata d l, _, hn => absurd rfl (hn d l)
  | .comment d _, _, _ => by
    rw [node, ser]
    split
    · exact .pure
    · exact .say _
  | .pi _ _ _, h, _ => h.elim
  | .elem t as ln kids, h, _ => by
    obtain ⟨h1, h2, h3, h4, h5, h6⟩ := h
    have h2' : ∀ kv ∈ as, reserved kv.1 = false := fun kv hkv => (h2 kv hkv).1
    rw [node, auto_plain h4, if_neg Bool.false_ne_true, dirOf_plain h1]
    dsimp only
    rw [plainAttrs_plain h4, keepTag_plain h2', attr_reserved h2' (by decide +kernel), ser, ← List.append_assoc]
    refine Says.bind (Says.startTag call c t as h2) ?_
    rw [if_neg (by simp)]
    cases kids with
    | nil => exact .say _
    | cons k ks =>
      simp only [List.isEmpty_cons, Bool.false_eq_true, if_false]
      refine Says.bind (.say _) (Says.bind ?_ ?_)
      · split
        · exact Says.scriptContent call c _ h6
        · exact says_nodes hO c p t _ h6
      · split
        · exact .pure
        · exact .say _

theorem says_nodes (hO : Translates O tr) (c : CEnv) (p : Place) (tag : Str) :
    ∀ xs, LitAll c.opts xs → Says I env (nodes P O call c env p true tag xs) (serAll tr c.opts c.mode tag xs)
  | [], _ => by rw [nodes, serAll]; exact .pure
  | x :: xs, h => by
    obtain ⟨h1, h2⟩ := h
    have ih := fun p => says_nodes hO c p tag xs h2
    rw [serAll]
    cases x with
    | cdata d l => unfold nodes; rw [ser]; exact Says.bind (.say _) (ih _)
    | _ => unfold nodes; exact Says.bind (says_node hO c p _ tag _ h1 (by intros; simp)) (ih _)
end

end

end Kajiki.StaticDoc
