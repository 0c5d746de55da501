import Verif.Lemmas.PureCore

/-! What templates with directives show. -/

namespace Kajiki.PureDoc
open Kajiki.Run Kajiki.Spec.Pure Kajiki.Spec.DocSem
open Kajiki.Spec.Pure.Shown (done raise put get)
open Kajiki.Spec.Static (attrText)
open Kajiki.Spec.Fill (escapedValue plainValue isNone settled)

section
variable {W : Type} {S : Setting W} {I : Inst} {env : Env} {O : Oracle W} {py : Py} [hBl : Blind S.hid py]
variable (call : Mode → Nat → List Val → MD W Unit) {A : Allowed}

/-- What calls show. -/
structure Calling (O : Oracle W) (py : Py) (S : Setting W) (I : Inst) (env : Env)
    (call : Mode → Nat → List Val → MD W Unit) (A : Allowed) : Prop where
  does : ∀ e m, py.call e = some m → Does₀ S I env (escaped O call env e) fun ρ => m (look (glob I) ρ)
  known : ∀ e, A.calls e = true → py.call e ≠ none

omit hBl in
theorem Calling.no (h : ∀ e, py.call e = none) : Calling O py S I env call .no :=
  ⟨(fun e m hm => by rw [h] at hm; cases hm), fun _ h => nomatch h⟩

theorem Does₀.value {e : Str} (hC : Calling O py S I env call A) (he : Prints O py A e) :
    Does₀ S I env (escaped O call env e) fun ρ => value py (look (glob I) ρ) e := by
  unfold Spec.Pure.value
  cases hc : py.call e with
  | some m => exact hC.does e m hc
  | none =>
  have he : Evals O py e := by
    refine he ?_
    cases ha : A.calls e with
    | false => rfl
    | true => exact absurd hc (hC.known e ha)
  refine Does₀.eval he fun v hv => ?_
  intro s ρ hs
  refine ⟨s, !isNone v, ?_, S.refl _ _, fun ρ' h => by cases h; exact hs⟩
  rw [FillDoc.emit_escape call env.mode hv]
  simp [keeping, Spec.Pure.Shown.next, Spec.Pure.Shown.put, Spec.Pure.Shown.done, Except.map]

/-- The translation. -/
def Translates (O : Oracle W) (py : Py) : Prop := StaticDoc.Translates O py.tr

omit hBl in
theorem Does₀.saying (hO : Translates O py) (t : Str) :
    Does₀ S I env (saying O call env t) fun _ => Spec.Pure.Shown.put (if (strip t).isEmpty then t else py.tr t) := by
  unfold Spec.DocSem.saying
  split
  · exact .put t
  · intro s ρ hs
    obtain ⟨j, h1, J, h2, g, h3⟩ := hs.kj
    refine ⟨s, true, ?_, S.refl _ _, fun ρ' h => by cases h; exact hs⟩
    have hg := hO g t s.world
    simp only [gettextM, kjInst, h1, M.ofOption, M.pure, M.bind, getInst, h2, h3, ask, hg, StaticDoc.emit_str, M.tell]
    simp [keeping, Spec.Pure.Shown.next, Spec.Pure.Shown.put, Spec.Pure.Shown.done, Except.map]
    rfl

theorem Does₀.text (hO : Translates O py) (hC : Calling O py S I env call A) {c : CEnv} {d : Str} (h : EvalsText O py A c d) (tag : Str) :
    Does₀ S I env (Spec.DocSem.text O call c env tag d) fun ρ => Spec.Pure.text py c (look (glob I) ρ) tag d := by
  unfold Spec.DocSem.text Spec.Pure.text
  refine Does₀.each (g := fun (a : Str ⊕ Str) ρ => match a with
    | .inl t => Spec.Pure.Shown.put (if scriptTag tag || (strip t).isEmpty then t else py.tr t)
    | .inr e => Spec.Pure.value py (look (glob I) ρ) e) fun a ha => ?_
  cases a with
  | inl t =>
    dsimp only
    cases scriptTag tag with
    | true => exact .put t
    | false => exact .saying call hO t
  | inr e => exact .value call hC (h e ha).1

theorem Does₀.scriptText (hC : Calling O py S I env call A) {c : CEnv} {d : Str} (h : EvalsText O py A c d) (esc : Bool) :
    Does₀ S I env (Spec.DocSem.scriptText O call c env esc d)
      fun ρ => Spec.Pure.scriptText py c (look (glob I) ρ) esc d := by
  unfold Spec.DocSem.scriptText Spec.Pure.scriptText
  refine Does₀.each (g := fun (a : Str ⊕ Str) ρ => match a with
    | .inl t => Spec.Pure.Shown.put (if esc then resolve t else t)
    | .inr e => Spec.Pure.value py (look (glob I) ρ) (if esc then resolve e else e)) fun a ha => ?_
  cases a with
  | inl t => exact .put _
  | inr e =>
    dsimp only
    cases esc with
    | true => exact .value call hC (h e ha).2
    | false => exact .value call hC (h e ha).1

theorem okAll_mem {c : CEnv} {xs : List DNode} (h : OkAll O py A c xs) : ∀ x ∈ xs, Ok O py A c x := by
  induction xs with
  | nil => nofun
  | cons x xs ih =>
    rw [OkAll] at h
    intro y hy
    rcases List.mem_cons.1 hy with rfl | hy
    · exact h.1
    · exact ih h.2 y hy

theorem Does₀.scriptContent (hC : Calling O py S I env call A) {c : CEnv} {kids : List DNode} (h : OkAll O py A c kids) :
    Does₀ S I env (Spec.DocSem.scriptContent O call c env kids)
      fun ρ => Spec.Pure.scriptContent py c (look (glob I) ρ) kids := by
  unfold Spec.DocSem.scriptContent Spec.Pure.scriptContent
  refine Does₀.bind ?_ (Does₀.bind (Does₀.each (g := fun (x : DNode) ρ => match x with
    | .text d e _ => Spec.Pure.scriptText py c (look (glob I) ρ) e d
    | _ => Spec.Pure.Shown.done ()) fun x hx => ?_) ?_)
  · split
    · exact .put _
    · exact .done
  · have := okAll_mem h x hx
    cases x with
    | text d e l => rw [Ok] at this; exact .scriptText call hC this e
    | _ => exact .done
  · split
    · exact .put _
    · exact .done

/-! ## Tags -/

theorem Does₀.under {attrs : Dict Str} (h : ∀ e, Dict.get attrs "py:strip".toList = some e → Negates O py e)
    {m : MD W Unit} {q : Vars → Shown Unit} (hm : Does₀ S I env m q) :
    Does₀ S I env (under O env (keepTag attrs) m) fun ρ => tagPart py (look (glob I) ρ) attrs (q ρ) := by
  unfold Spec.DocSem.under Spec.Pure.tagPart kept keepTag
  generalize Dict.get attrs "py:strip".toList = o at h ⊢
  cases o with
  | none => exact hm
  | some e =>
    obtain ⟨h1, h2⟩ := h e rfl
    have key : Does₀ S I env (M.bind (test O env (if e.isEmpty then "False".toList else "not (".toList ++ e ++ ")".toList))
        fun b => if b then m else M.pure ()) fun ρ =>
          (get (py.eval (if e.isEmpty then "False".toList else "not (".toList ++ e ++ ")".toList) (look (glob I) ρ))).next
            fun v => if truthy v then q ρ else Spec.Pure.Shown.done () := by
      unfold test
      rw [M.bind_assoc]
      refine Does₀.eval h1 fun v _ => ?_
      rw [M.pure_bind]
      split
      · exact hm
      · exact .done
    refine Does.congr key fun ρ => ?_
    dsimp only
    congr 1
    cases e with
    | nil =>
      have h2 := h2 (look (glob I) ρ)
      change (get (py.eval "False".toList (look (glob I) ρ))).next _ = _
      rw [h2]
      rfl
    | cons a e =>
      have h2 := h2 (look (glob I) ρ)
      rw [if_neg (by simp), h2]
      dsimp only
      cases py.eval (a :: e) (look (glob I) ρ) with
      | error x => rfl
      | ok v => rfl

/-- What the parts of an attribute give, when they are read. -/
def partsRes (s : Store Part W) : Except Err (List (Option Str)) → Res (Store Part W) Unit → Prop
  | .ok ps, r => r = ⟨⟨(ps.filterMap id).flatten, ps.any (·.isSome)⟩, s, .ok ()⟩
  | .error x, r => ∃ o, r = ⟨o, s, .error x⟩

theorem each_parts (l : List (Str ⊕ Str)) (L : Look) (hl : ∀ e, .inr e ∈ l → Evals O py e) (env : Env)
    (hm : env.mode = .collect) (s : Store Part W) (hs : visible (view env s) = L) :
    partsRes s (parts py L l) (M.each (fun
      | .inl t => say t
      | .inr e => unescaped O call env e) l s) := by
  induction l with
  | nil => rfl
  | cons a l ih =>
    have ih := ih fun e he => hl e (List.mem_cons_of_mem _ he)
    cases a with
    | inl t =>
      rw [M.each, bind_ok (m := say t) (s := s) (o := .chunk t) (s' := s) (a := ()) rfl, parts]
      cases hp : parts py L l with
      | error x =>
        rw [hp] at ih
        obtain ⟨o, ih⟩ := ih
        exact ⟨_, by rw [ih]⟩
      | ok ps =>
        rw [hp] at ih
        change _ = _ at ih
        change _ = _
        rw [ih]
        rfl
    | inr e =>
      have he := hl e (by simp)
      have hv : evalM O env e s = ⟨.nil, s, py.eval e L⟩ := by
        unfold evalM ask
        rw [he.1, hs]
      rw [M.each, parts]
      cases hx : py.eval e L with
      | error x =>
        rw [hx] at hv
        have : unescaped O call env e s = ⟨.nil, s, .error x⟩ := by
          unfold unescaped
          rw [bind_error hv]
        rw [bind_error (m := unescaped O call env e) this]
        exact ⟨_, rfl⟩
      | ok v =>
        rw [hx] at hv
        have hu : unescaped O call env e s = ⟨⟨plainValue v, !isNone v⟩, s, .ok ()⟩ := by
          unfold unescaped
          rw [bind_ok hv, hm, FillDoc.emit_plain call (he.2 _ _ hx)]
          rfl
        rw [bind_ok (m := unescaped O call env e) hu]
        dsimp only
        cases hp : parts py L l with
        | error x =>
          rw [hp] at ih
          obtain ⟨o, ih⟩ := ih
          exact ⟨_, by rw [ih]⟩
        | ok ps =>
          rw [hp] at ih
          change _ = _ at ih
          change _ = _
          rw [ih]
          have h0 : isNone v = true → plainValue v = [] := by cases v <;> simp [isNone, plainValue]
          cases hn : isNone v with
          | true => rw [h0 hn]; rfl
          | false => rfl

theorem parts_nil {L : Look} {l : List (Str ⊕ Str)} {ps : List (Option Str)} (h : parts py L l = .ok ps) :
    ps.isEmpty = l.isEmpty := by
  cases l with
  | nil => cases h; rfl
  | cons a l =>
    cases a with
    | inl t =>
      rw [parts] at h
      cases hp : parts py L l with
      | error x => rw [hp] at h; cases h
      | ok qs => rw [hp] at h; cases h; rfl
    | inr e =>
      rw [parts] at h
      cases hx : py.eval e L with
      | error x => rw [hx] at h; cases h
      | ok v =>
        rw [hx] at h
        cases hp : parts py L l with
        | error x => rw [hp] at h; cases h
        | ok qs => rw [hp] at h; cases h; rfl

/-- The scope of an attribute. -/
theorem inner_visible {ρ : Vars} {s : Store Part W} (hs : Ready S I env ρ s) (mode : Mode) (k : Str) (hk : ¬S.hid k) :
    visible (view { env with frame := s.frames.length, mode := mode }
      { s with frames := s.frames ++ [⟨[], liveScope s.frames (some env.frame), none⟩] }) k = look (glob I) ρ k := by
  obtain ⟨co, hf⟩ := hs.frame
  obtain ⟨J, hJ, hG⟩ := hs.inst
  have hl := hs.lt
  unfold Spec.Pure.visible view look
  dsimp only
  rw [hJ, List.length_append, List.length_singleton, scopes, List.getElem?_append_right (Nat.le_refl _), Nat.sub_self]
  have hlive : liveScope s.frames (some env.frame) = some env.frame := by
    unfold liveScope
    simp [hl]
  simp only [List.getElem?_cons_zero, hlive]
  cases hn : s.frames.length with
  | zero => rw [hn] at hl; cases hl
  | succ n =>
    rw [scopes, List.getElem?_append_left hl, hf]
    dsimp only
    have : ∀ fs, scopes fs n none = [] := by intro fs; cases n <;> rfl
    rw [this, show glob I k = Dict.get I.globals k from rfl, ← hG k hk]
    have h0 : Dict.get ([] : Dict Val) k = none := rfl
    simp [List.findSome?, h0]
    cases Dict.get ρ k <;> rfl

theorem parts_blind {L L' : Look} (h : ∀ k, ¬S.hid k → L k = L' k) : ∀ ps, parts py L ps = parts py L' ps
  | [] => rfl
  | .inl t :: xs => by rw [parts, parts, parts_blind h xs]
  | .inr e :: xs => by rw [parts, parts, parts_blind h xs, hBl.eval e L L' h]

theorem emitStrs_run (ss : List Str) (s : Store Part W) :
    emitStrs (C := Part) (W := W) ss s = ⟨⟨ss.flatten, !ss.isEmpty⟩, s, .ok ()⟩ := by
  unfold emitStrs
  induction ss with
  | nil => rfl
  | cons t ss ih =>
    rw [M.each, bind_ok (m := M.tell (.chunk t)) (s := s) (o := .chunk t) (s' := s) (a := ()) rfl, ih]
    rfl

theorem Does₀.oneAttribute {c : CEnv} {k v : Str} (h : EvalsAttr O py c v) :
    Does₀ S I env (M.bind (collectM env fun env => attrValue O call c env v) fun _ => attrM env k c.mode)
      fun ρ => oneAttribute py c (look (glob I) ρ) (k, v) := by
  intro s ρ hs
  let fr : Frame := ⟨[], liveScope s.frames (some env.frame), none⟩
  let s1 : Store Part W := { s with frames := s.frames ++ [fr] }
  let env1 : Env := { env with frame := s.frames.length, mode := .collect }
  have hv : ∀ ps, parts py (visible (view env1 s1)) ps = parts py (look (glob I) ρ) ps :=
    parts_blind (S := S) (inner_visible hs .collect)
  have hc0 : ∀ r, attrValue O call c env1 v s1 = r → collectM env (fun env => attrValue O call c env v) s =
      match r.val with
      | .error x => ⟨.nil, r.st, .error x⟩
      | .ok _ => ⟨.nil, { r.st with frames := (r.st.frames.modify env.frame
          fun f => { f with coll := if r.out.any then some r.out.txt else none }) }, .ok ()⟩ := by
    intro r hr
    unfold collectM
    rw [bind_ok (m := newFrame [] (some env.frame)) (s := s) (o := .nil) (s' := s1) (a := s.frames.length) rfl]
    have hcap : M.capture (attrValue O call c env1 v) s1 = match r.val with
      | .error e => ⟨.nil, r.st, .error e⟩
      | .ok _ => ⟨.nil, r.st, .ok r.out⟩ := by
      unfold M.capture
      rw [hr]
      rfl
    cases hval : r.val with
    | error x =>
      rw [hval] at hcap
      rw [bind_error hcap]
      rfl
    | ok u =>
      rw [hval] at hcap
      rw [bind_ok hcap]
      rfl
  have hp := each_parts call (cut c.py v) _ h env1 rfl s1 rfl
  rw [hv] at hp
  have hframes : ∀ (s' : Store Part W) (co : Option Str),
      s' = { s1 with frames := s1.frames.modify env.frame fun f => { f with coll := co } } →
      Ready S I env ρ s' ∧ (s'.frames[env.frame]?).bind (·.coll) = co := by
    rintro s' co rfl
    obtain ⟨co', hf⟩ := hs.frame
    have hlt := hs.lt
    have hq : (s1.frames.modify env.frame fun f => { f with coll := co })[env.frame]? = some ⟨ρ, none, co⟩ := by
      rw [List.getElem?_modify]
      have : s1.frames[env.frame]? = some ⟨ρ, none, co'⟩ := by
        change (s.frames ++ [fr])[env.frame]? = _
        rw [List.getElem?_append_left hlt, hf]
      rw [this]
      simp
    exact ⟨⟨⟨co, hq⟩, hs.inst, hs.kj, S.inv s _ hs.inv, hs.clean⟩, by dsimp only; rw [hq]; rfl⟩
  dsimp only
  unfold Spec.Pure.oneAttribute
  dsimp only
  cases hps : parts py (look (glob I) ρ) (cut c.py v) with
  | error x =>
    rw [hps] at hp
    obtain ⟨o, hp⟩ := hp
    have hne : (cut c.py v).isEmpty = false := by
      cases hc : cut c.py v with
      | nil => rw [hc] at hps; cases hps
      | cons a l => rfl
    have hr : attrValue O call c env1 v s1 = ⟨o, s1, .error x⟩ := by
      unfold attrValue
      rw [hne, if_neg Bool.false_ne_true]
      exact hp
    rw [bind_error (hc0 _ hr)]
    refine ⟨s1, false, rfl, S.frames _ _ _ (by simp) fun j hj _ => ?_, fun _ h => nomatch h⟩
    rw [List.getElem?_append_left hj]
  | ok ps =>
    rw [hps] at hp
    change _ = _ at hp
    have hemp := parts_nil hps
    have hr : attrValue O call c env1 v s1 =
        ⟨⟨(ps.filterMap id).flatten, ps.isEmpty || ps.any (·.isSome)⟩, s1, .ok ()⟩ := by
      unfold attrValue
      cases hc : (cut c.py v).isEmpty with
      | true =>
        rw [hc] at hemp
        rw [List.isEmpty_iff.1 hemp]
        rfl
      | false =>
        rw [if_neg Bool.false_ne_true, hemp, hc]
        exact hp
    have hcol := hc0 _ hr
    dsimp only at hcol
    obtain ⟨h1, h2⟩ := hframes _ _ rfl
    rw [bind_ok hcol]
    have hat : ∀ s' : Store Part W, attrM env k c.mode s' =
        emitStrs (renderCollected k c.mode ((s'.frames[env.frame]?).bind (·.coll))) s' := by
      intro s'
      unfold attrM
      rw [bind_ok (m := M.get) (s := s') (o := .nil) (s' := s') (a := s') rfl]
      rfl
    rw [hat, h2, emitStrs_run]
    have hall : (ps.any (·.isSome)) = !ps.all (·.isNone) := by
      clear * -
      induction ps with
      | nil => rfl
      | cons p ps ih => rw [List.any_cons, ih, List.all_cons]; cases p <;> simp
    have hco : (renderCollected k c.mode (if (ps.isEmpty || ps.any (·.isSome)) = true then some (ps.filterMap id).flatten
        else none)).flatten = if (!ps.isEmpty && ps.all (·.isNone)) = true then []
          else attrText c.mode (k, (ps.filterMap id).flatten) := by
      rw [hall]
      by_cases ha : (ps.isEmpty || !ps.all (·.isNone)) = true
      · rw [if_pos ha, StaticDoc.renderCollected_text, if_neg]
        revert ha
        cases ps.isEmpty <;> cases ps.all (·.isNone) <;> simp
      · rw [if_neg ha, FillDoc.renderCollected_none, if_pos]
        · rfl
        · revert ha
          cases ps.isEmpty <;> cases ps.all (·.isNone) <;> simp
    generalize renderCollected k c.mode _ = ss at hco ⊢
    refine ⟨{ s1 with frames := (s1.frames.modify env.frame fun f => { f with coll :=
      (if (ps.isEmpty || ps.any (·.isSome)) = true then some ((ps.filterMap id).flatten) else none) }) }, !ss.isEmpty, ?_,
      S.frames _ _ _ (by rw [List.length_modify]; simp [s1]) fun j hj hne => ?_, fun ρ' hρ => by cases hρ; exact h1⟩
    on_goal 2 =>
      rw [List.getElem?_modify]
      simp only [if_neg (Ne.symm hne), id_map']
      exact List.getElem?_append_left hj
    rw [hco]
    simp only [keeping, Spec.Pure.Shown.next, Spec.Pure.Shown.put, Spec.Pure.Shown.done, Spec.Pure.Shown.get, Except.map,
      List.append_nil, List.nil_append]
    rfl

theorem Does₀.startTag {c : CEnv} {t : Str} {attrs : Dict Str}
    (h : ∀ e, Dict.get attrs "py:strip".toList = some e → Negates O py e)
    (h1 : ∀ kv ∈ attrs, special kv.1 = false → EvalsAttr O py c kv.2)
    (h2 : attr attrs "py:attrs" ≠ [] → Evals O py (attr attrs "py:attrs")) :
    Does₀ S I env (Spec.DocSem.startTag O call c env t attrs)
      fun ρ => Spec.Pure.startTag py c (look (glob I) ρ) t attrs := by
  unfold Spec.DocSem.startTag Spec.Pure.startTag
  refine Does₀.bind (.under h (.put _)) (Does₀.bind (Does₀.each (g := fun kv ρ => tagPart py (look (glob I) ρ) attrs
    (Spec.Pure.oneAttribute py c (look (glob I) ρ) kv)) fun kv hkv => ?_) ?_)
  · have hm := List.mem_filter.1 ((Wf.sortItems_perm _).mem_iff.1 hkv)
    exact Does₀.under h (.oneAttribute call (h1 kv hm.1 (by simpa using hm.2)))
  · split
    · exact .done
    · next hn =>
      refine Does₀.under h (Does₀.eval (h2 fun he => hn (by rw [he]; rfl)) fun v _ => ?_)
      cases hr : renderAttrs v c.mode with
      | error x => exact fun s ρ hs => ⟨s, false, rfl, S.refl _ _, fun _ h => nomatch h⟩
      | ok ss =>
        intro s ρ hs
        refine ⟨s, !ss.isEmpty, ?_, S.refl _ _, fun ρ' hρ => by cases hρ; exact hs⟩
        dsimp only
        rw [emitStrs_run]
        simp [keeping, Spec.Pure.Shown.next, Spec.Pure.Shown.put, Spec.Pure.Shown.done, Spec.Pure.Shown.get, Except.map]

/-! ## Nodes -/

theorem clean_single {R : Str → Prop} {k : Str} (h : ¬R k) (v : Val) : Clean R [(k, v)] := fun k' hk' => by
  rw [Dict.get_cons, if_neg (by rintro rfl; exact h hk')]
  rfl

theorem clean_zip {R : Str → Prop} {ks : List Str} (h : ∀ k ∈ ks, ¬R k) (vs : List Val) : Clean R (ks.zip vs) :=
  fun k hk => Dict.get_none_of_not_mem fun hm => by
    obtain ⟨kv, h1, rfl⟩ := List.mem_map.1 hm
    exact h _ (List.of_mem_zip h1).1 hk

theorem Does.assign {vs : List (Str × Str)} (h : ∀ kv ∈ vs, Evals O py kv.2) (hR : ∀ kv ∈ vs, ¬S.R kv.1) :
    Does S I env (M.each (fun kv : Str × Str => M.bind (evalM O env kv.2) fun v => Run.setVars env [(kv.1, v)]) vs)
      (Spec.Pure.assign py (glob I) vs) := by
  induction vs with
  | nil => exact Does.done
  | cons kv vs ih =>
    have ih := ih (fun kv h' => h kv (List.mem_cons_of_mem _ h')) fun kv h' => hR kv (List.mem_cons_of_mem _ h')
    refine (Does.bind (Does.eval (h kv (by simp)) fun v _ => Does.setVars (clean_single (hR kv (by simp)) v)) ih).congr fun ρ => ?_
    rw [Spec.Pure.assign, Shown.next_assoc]
    rfl

/-- Something that ends with the restoration of variables. -/
theorem Does.restoring {m m' : MD W Unit} {d d' : Vars → Shown Vars} (h : Does S I env m d) (h' : Does S I env m' d')
    {ks : List Str} (hks : ∀ k ∈ ks, ¬S.R k) :
    Does S I env (M.bind M.get fun s => M.bind m fun _ => M.bind m' fun _ =>
        Run.setVars env (ks.zip (ks.map fun k => ((localVars env s).get k).getD .unit)))
      fun ρ => (d ρ).next fun σ => (d' σ).next fun τ => Spec.Pure.Shown.done (restore ks ρ τ) := by
  intro s ρ hs
  have hl : localVars env s = ρ := by
    obtain ⟨co, hf⟩ := hs.frame
    unfold localVars
    rw [hf]
  rw [bind_ok (m := M.get) (s := s) (o := .nil) (s' := s) (a := s) rfl, hl]
  obtain ⟨s', a, h1, h2, h3⟩ := Does.bind h (Does.bind h' (Does.setVars (S := S) (I := I) (env := env)
    (clean_zip hks (ks.map fun k => (Dict.get ρ k).getD .unit)))) s ρ hs
  rw [h1]
  exact ⟨s', a, rfl, h2, h3⟩

theorem Does.block {ls : List Str} (he : ∀ v w, O.py ls v w = (py.block ls (visible v), w)) (hT : Tidy S.R py) :
    Does S I env (python O env ls) fun ρ => if ls.isEmpty then Spec.Pure.Shown.done ρ
      else (get (py.block ls (look (glob I) ρ))).next fun b => Spec.Pure.Shown.done (ρ.update b) :=
  Does.pyBlock he hT

/-! ## Blocks -/

section
variable (R : Str → Prop) (B : Str → List DNode → Prop)

mutual
/-- No variable of a `py:with` has a name of the given kind, and the blocks are as given. -/
def Fit (o : Opts) : DNode → Prop
  | .elem t as _ kids =>
    match dirOf t with
    | none => ownContent o t as = false → FitAll o kids
    | some .replace => True
    | some .block => B (attr as "name") kids
    | some .withD => (∀ kv ∈ (withAssignments (attr as "vars")).toOption.getD [], ¬R kv.1) ∧ FitAll o kids
    | some _ => FitAll o kids
  | _ => True

def FitAll (o : Opts) : List DNode → Prop
  | [] => True
  | x :: xs => Fit o x ∧ FitAll o xs
end

mutual
theorem fit_of (o : Opts) : ∀ x, (∀ k ∈ bound o x, ¬R k) → (∀ b ∈ blocks o x, B b.1 b.2) → Fit R B o x
  | .text _ _ _, _, _ => by unfold Fit; trivial
  | .cdata _ _, _, _ => by unfold Fit; trivial
  | .comment _ _, _, _ => by unfold Fit; trivial
  | .pi _ _ _, _, _ => by unfold Fit; trivial
  | .elem t as ln kids, h1, h2 => by
    have hk := fitAll_of o kids
    unfold bound at h1
    unfold blocks at h2
    unfold Fit
    cases hd : dirOf t with
    | none =>
      rw [hd] at h1 h2
      intro ho
      dsimp only at h1 h2
      rw [ho, if_neg Bool.false_ne_true] at h1 h2
      exact hk h1 h2
    | some d =>
      rw [hd] at h1 h2
      cases d with
      | replace => trivial
      | block => exact h2 (attr as "name", kids) (List.mem_append_right _ (List.mem_singleton.2 rfl))
      | withD =>
        exact ⟨fun kv hkv => h1 kv.1 (List.mem_append_left _ (List.mem_map_of_mem hkv)),
          hk (fun k hk => h1 k (List.mem_append_right _ hk)) h2⟩
      | _ => exact hk h1 h2

theorem fitAll_of (o : Opts) :
    ∀ xs, (∀ k ∈ boundAll o xs, ¬R k) → (∀ b ∈ blocksAll o xs, B b.1 b.2) → FitAll R B o xs
  | [], _, _ => by unfold FitAll; trivial
  | x :: xs, h1, h2 => by
    unfold boundAll at h1
    unfold blocksAll at h2
    unfold FitAll
    exact ⟨fit_of o x (fun k hk => h1 k (List.mem_append_left _ hk)) fun b hb => h2 b (List.mem_append_left _ hb),
      fitAll_of o xs (fun k hk => h1 k (List.mem_append_right _ hk)) fun b hb => h2 b (List.mem_append_right _ hb)⟩
end

end

theorem mem_of_get {α : Type} {d : Dict α} {k : Str} {v : α} (h : Dict.get d k = some v) : (k, v) ∈ d := by
  induction d with
  | nil => cases h
  | cons x d ih =>
    obtain ⟨a, u⟩ := x
    rw [Dict.get_cons] at h
    split at h
    · next he => cases h; rw [he]; exact List.mem_cons_self
    · exact List.mem_cons_of_mem _ (ih h)

theorem dirOf_defn {t : Str} (h : dirOf t = some .defn) : t = "py:def".toList := by
  exact (by decide +kernel : ∀ kv ∈ Spec.DocSem.directives, kv.2 = .defn → kv.1 = "py:def".toList) _
    (mem_of_get h) rfl

theorem dirOf_block {t : Str} (h : dirOf t = some .block) : t = "py:block".toList := by
  exact (by decide +kernel : ∀ kv ∈ Spec.DocSem.directives, kv.2 = .block → kv.1 = "py:block".toList) _
    (mem_of_get h) rfl

theorem attr_plain (o : Opts) (t : Str) (as : Dict Str) :
    attr (plainAttrs o t as) "py:content" = attr as "py:content" := by
  unfold attr plainAttrs
  split
  · congr 1
    have hk : "py:autoblock".toList ≠ "py:content".toList := by decide +kernel
    generalize "py:autoblock".toList = a at hk
    generalize "py:content".toList = b at hk
    induction as with
    | nil => rfl
    | cons x as ih =>
      obtain ⟨k, v⟩ := x
      rw [List.filter_cons]
      split
      · rw [Dict.get_cons, Dict.get_cons, ih]
      · next h =>
        have h : k = a := by simpa using h
        rw [Dict.get_cons, if_neg (by rw [h]; exact hk), ih]
  · rfl

mutual
theorem after_ok (A : Allowed) (c : CEnv) (p : Place) : ∀ x, Ok O py A c x → after c.opts p x = p
  | .text _ _ _, _ => by unfold after; rfl
  | .cdata _ _, _ => by unfold after; rfl
  | .comment _ _, _ => by unfold after; rfl
  | .pi _ _ _, _ => by unfold after; rfl
  | .elem t as ln kids, h => by
    unfold Ok at h
    obtain ⟨h1, -, h3, h4⟩ := h
    have hk := fun p => afterAll_ok _ c p kids h4
    unfold after
    rw [h1, if_neg Bool.false_ne_true]
    cases hd : dirOf t with
    | none => dsimp only; rw [hk, ite_self]
    | some d =>
      rw [hd] at h3
      cases d with
      | replace => rfl
      | imp => exact h3.elim
      | ext => exact h3.elim
      | incl => rfl
      | defn => dsimp only; rw [hk]; rfl
      | call => exact h3.elim
      | _ => exact hk p

theorem afterAll_ok (A : Allowed) (c : CEnv) (p : Place) : ∀ xs, OkAll O py A c xs → afterAll c.opts p xs = p
  | [], _ => by unfold afterAll; rfl
  | x :: xs, h => by
    rw [OkAll] at h
    unfold afterAll
    rw [after_ok A c p x h.1, afterAll_ok A c p xs h.2]
end

variable (P : Prog Part) {over : Str → Option (Shown Unit)} {B : Str → List DNode → Prop}

/-- What a block shows. -/
abbrev blockShown (py : Py) (G : Look) (over : Str → Option (Shown Unit)) (c : CEnv) (n : Str) (kids : List DNode) :
    Shown Unit :=
  match over n with
  | some m => m
  | none => (Spec.Pure.nodes py G over c false "py:block".toList kids []).next fun _ => done ()

variable (hO : Translates O py) (hT : Tidy S.R py) (hC : Calling O py S I env call A) (c : CEnv) (p : Place)
  (hp : A.defs = true → p.inDef = false)
  (hB : ∀ n kids, B n kids → Does₀ S I env (if p.child then M.pure () else escaped O call env (blockDecl n)) fun _ =>
    blockShown py (glob I) over c n kids)
  (hI : ∀ href, A.incls href = true → Does₀ S I env (M.bind (importM P env href none) fun i => emitMain call env.mode i) fun _ =>
    py.incl href)

include hO hT hC hp hB hI

set_option linter.unusedSectionVars false in
mutual
theorem does_node {els : MD W Unit} {els' : Vars → Shown Vars}
    (he : Does S I env els els') (tag : Str) :
    ∀ x, Ok O py A c x → Fit S.R B c.opts x →
      Does S I env (node P O call c env p els tag x) (Spec.Pure.node py (glob I) over c els' tag x)
  | .text d _ _, h, hf => by
    rw [Ok] at h
    unfold Spec.DocSem.node Spec.Pure.node
    exact Does₀.text call hO hC h tag
  | .cdata d _, h, hf => by
    rw [Ok] at h
    unfold Spec.DocSem.node Spec.Pure.node
    exact Does₀.text call hO hC h tag
  | .comment d _, h, hf => by
    unfold Spec.DocSem.node Spec.Pure.node
    split
    · exact Does₀.done
    · exact Does₀.put _
  | .pi _ d _, h, hf => by
    rw [Ok] at h
    unfold Spec.DocSem.node Spec.Pure.node
    cases (pyLines (strip d)).1 with
    | true => exact Does.done
    | false => exact Does.block h hT
  | .elem t as ln kids, h, hf => by
    unfold Ok at h
    obtain ⟨h1, h2, h3, h4⟩ := h
    have hk := fun (hu : A.under (dirOf t) = A) raw tag => does_nodes raw tag kids (hu ▸ h4)
    have hc := fun (hu : A.under (dirOf t) = A) v m d hmd => does_choices v (rest := m) (rest' := d) hmd kids (hu ▸ h4)
    unfold Fit at hf
    unfold Spec.DocSem.node Spec.Pure.node
    rw [h1, if_neg Bool.false_ne_true]
    cases hd : dirOf t with
    | none =>
      rw [hd] at h3 hf
      obtain ⟨h5, h6, h7⟩ := h3
      dsimp only
      have htag : ∀ s, Does S I env (under O env (keepTag (plainAttrs c.opts t as)) (say s)) fun ρ =>
          keeping ρ (tagPart py (look (glob I) ρ) (plainAttrs c.opts t as) (put s)) := fun s => Does₀.under h2 (.put s)
      refine Does₀.seq (Does₀.startTag call h2 h5 h6) ?_
      by_cases hcont : attr (plainAttrs c.opts t as) "py:content" = []
      · simp only [hcont, List.isEmpty_nil, Bool.not_true, Bool.false_eq_true, if_false]
        by_cases hkids : kids.isEmpty = true
        · simp only [hkids, if_true]
          exact htag _
        · simp only [hkids]
          refine Does.bind (htag _) (Does.bind ?_ ?_)
          · split
            · exact Does₀.scriptContent (A := A) call hC (by rw [hd] at h4; exact h4)
            · next hscr =>
              refine hk (by rw [hd]; rfl) _ _ (hf ?_)
              unfold ownContent
              rw [← attr_plain, hcont]
              simpa using hscr
          · split
            · exact Does.done
            · exact htag _
      · have hne : (attr (plainAttrs c.opts t as) "py:content").isEmpty = false := by
          cases hq : attr (plainAttrs c.opts t as) "py:content" with
          | nil => exact absurd hq hcont
          | cons a l => rfl
        simp only [hne, Bool.not_false, if_true]
        exact Does.bind (htag _) (Does.bind (Does₀.value call hC (h7 hcont)) (htag _))
    | some d =>
      rw [hd] at h3 hf
      cases d with
      | replace => exact Does₀.value call hC h3
      | forD =>
        exact Does.iter h3 hT fun bs hbs => Does.loop fun b hb => Does.bind (Does.setVars (hbs b hb)) (hk (by rw [hd]; rfl) _ _ hf)
      | withD =>
        refine Does.kj (Does.restoring (Does.assign h3 hf.1) (hk (by rw [hd]; rfl) _ _ hf.2) fun k hk => ?_)
        obtain ⟨kv, hkv, rfl⟩ := List.mem_map.1 hk
        exact hf.1 kv hkv
      | switchD => exact Does.kj (Does.eval h3 fun v _ => hc (by rw [hd]; rfl) v _ _ Does.done hf)
      | caseD => exact Does.done
      | ifD =>
        dsimp only
        unfold test
        rw [M.bind_assoc]
        refine Does.eval h3 fun v _ => ?_
        rw [M.pure_bind]
        split
        · exact hk (by rw [hd]; rfl) _ _ hf
        · exact he
      | elseD => exact Does.done
      | nop => exact hk (by rw [hd]; rfl) _ _ hf
      | imp => exact h3.elim
      | ext => exact h3.elim
      | incl => exact hI _ h3.1
      | block =>
        dsimp only
        rw [afterAll_ok _ c p kids h4, dirOf_block hd]
        exact hB _ _ hf
      | defn =>
        dsimp only
        rw [hp h3.1]
        exact Does.done
      | call => exact h3.elim

theorem does_nodes (raw : Bool) (tag : Str) :
    ∀ xs, OkAll O py A c xs → FitAll S.R B c.opts xs →
      Does S I env (nodes P O call c env p raw tag xs) (Spec.Pure.nodes py (glob I) over c raw tag xs)
  | [], _, _ => by unfold Spec.DocSem.nodes Spec.Pure.nodes; exact Does.done
  | x :: xs, h, hf => by
    rw [OkAll] at h
    unfold FitAll at hf
    unfold Spec.DocSem.nodes Spec.Pure.nodes
    rw [after_ok _ c p x h.1]
    refine Does.bind ?_ (does_nodes raw tag xs h.2 hf.2)
    have hx := does_node (does_otherwise xs h.2 hf.2) tag x h.1 hf.1
    split
    · exact Does₀.put _
    · next hn =>
      rw [after_ok _ c p _ h.1]
      refine hx.congr fun ρ => ?_
      split
      · exact absurd rfl (hn _ _ rfl)
      · rfl

theorem does_otherwise :
    ∀ xs, OkAll O py A c xs → FitAll S.R B c.opts xs →
      Does S I env (otherwise P O call c env p xs) (Spec.Pure.otherwise py (glob I) over c xs)
  | .elem t as ln kids :: _, h, hf => by
    rw [OkAll] at h
    have h := h.1
    unfold Ok at h
    unfold FitAll at hf
    have hf := hf.1
    unfold Fit at hf
    unfold Spec.DocSem.otherwise Spec.Pure.otherwise
    split
    · next hd =>
      rw [hd] at hf
      exact does_nodes false t kids (by have := h.2.2.2; rw [hd] at this; exact this) hf
    · exact Does.done
  | [], _, _ => Does.done
  | .text _ _ _ :: _, _, _ => Does.done
  | .cdata _ _ :: _, _, _ => Does.done
  | .comment _ _ :: _, _, _ => Does.done
  | .pi _ _ _ :: _, _, _ => Does.done

theorem does_choice (v : Val) {rest : MD W Unit}
    {rest' : Vars → Shown Vars} (hr : Does S I env rest rest') :
    ∀ x, Ok O py A c x → Fit S.R B c.opts x →
      Does S I env (choice P O call c env p v rest x) (Spec.Pure.choice py (glob I) over c v rest' x)
  | .elem t as ln kids, h, hf => by
    unfold Ok at h
    obtain ⟨h1, h2, h3, h4⟩ := h
    have hk := fun (hu : A.under (dirOf t) = A) tag => does_nodes false tag kids (hu ▸ h4)
    have hc := fun (hu : A.under (dirOf t) = A) => does_choices v hr kids (hu ▸ h4)
    unfold Fit at hf
    unfold Spec.DocSem.choice Spec.Pure.choice
    cases hd : dirOf t with
    | none => exact hr
    | some d =>
      rw [hd] at h3 hf
      cases d with
      | caseD =>
        refine Does.eval h3 fun u _ => ?_
        split
        · exact hk (by rw [hd]; rfl) _ hf
        · exact hr
      | elseD => exact hk (by rw [hd]; rfl) _ hf
      | nop => exact hc (by rw [hd]; rfl) hf
      | _ => exact hr
  | .text _ _ _, _, _ => by unfold Spec.DocSem.choice Spec.Pure.choice; exact hr
  | .cdata _ _, _, _ => by unfold Spec.DocSem.choice Spec.Pure.choice; exact hr
  | .comment _ _, _, _ => by unfold Spec.DocSem.choice Spec.Pure.choice; exact hr
  | .pi _ _ _, _, _ => by unfold Spec.DocSem.choice Spec.Pure.choice; exact hr

theorem does_choices (v : Val) {rest : MD W Unit}
    {rest' : Vars → Shown Vars} (hr : Does S I env rest rest') :
    ∀ xs, OkAll O py A c xs → FitAll S.R B c.opts xs →
      Does S I env (choices P O call c env p v rest xs) (Spec.Pure.choices py (glob I) over c v rest' xs)
  | [], _, _ => by unfold Spec.DocSem.choices Spec.Pure.choices; exact hr
  | x :: xs, h, hf => by
    rw [OkAll] at h
    unfold FitAll at hf
    unfold Spec.DocSem.choices Spec.Pure.choices
    rw [after_ok _ c p x h.1]
    exact does_choice v (does_choices v hr xs h.2 hf.2) x h.1 hf.1
end

end

end Kajiki.PureDoc
