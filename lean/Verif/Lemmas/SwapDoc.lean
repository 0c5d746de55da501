import Verif.Spec.SwapDoc
import Verif.Lemmas.DocSem
import Verif.Lemmas.Swap

/-!
# Lemmas for C79: all templates
-/

namespace Kajiki.SwapDocL
open Kajiki.Run Kajiki.Spec.DocSem Kajiki.Spec.SwapDoc
open Kajiki.Spec.Swap (startsElse)

variable {W : Type} {O : Oracle W} {c : CEnv}

/-! ## Functions -/

/-- Bodies of functions of which one is the other with parts exchanged. -/
inductive PartR (O : Oracle W) : Part → Part → Prop
  | main {c : CEnv} {dt : Str} {x y : DNode} (h : Swapped O c .root false x y) : PartR O (.main c dt x) (.main c dt y)
  | body {c : CEnv} {p : Place} {tag : Str} {xs ys : List DNode} (h : SwappedAll O c p false false tag xs ys) :
      PartR O (.body c p tag xs) (.body c p tag ys)
  | block {c : CEnv} {p : Place} {tag name : Str} {xs ys : List DNode} (h : SwappedAll O c p false false tag xs ys) :
      PartR O (.block c p tag name xs) (.block c p tag name ys)

theorem all_refl : ∀ (xs : List DNode) (p : Place) (sw raw : Bool) (tag : Str), SwappedAll O c p sw raw tag xs xs
  | [], _, _, _, _ => .nil
  | x :: xs, _, _, _, _ => .cons (.same x) (all_refl xs _ _ _ _)

theorem part_refl (a : Part) : PartR O a a := by
  cases a with
  | main => exact .main (.same _)
  | body => exact .body (all_refl _ _ _ _ _)
  | block => exact .block (all_refl _ _ _ _ _)

/-- Functions with related bodies. -/
abbrev FunsR (O : Oracle W) : List (Str × Part) → List (Str × Part) → Prop :=
  List.Forall₂ fun a b => a.1 = b.1 ∧ PartR O a.2 b.2

theorem funs_refl (fs : List (Str × Part)) : FunsR O fs fs := List.forall₂_same.2 fun _ _ => ⟨rfl, part_refl _⟩

theorem funs_append {a b a' b' : List (Str × Part)} (h : FunsR O a a') (h' : FunsR O b b') :
    FunsR O (a ++ b) (a' ++ b') := List.rel_append h h'

theorem defsAll_append (p : Place) : ∀ xs ys, defsAll c p (xs ++ ys) = defsAll c p xs ++ defsAll c (afterAll c.opts p xs) ys := by
  intro xs
  induction xs generalizing p with
  | nil => intro ys; rw [List.nil_append, defsAll, afterAll, List.nil_append]
  | cons x xs ih => intro ys; rw [List.cons_append, defsAll, defsAll, afterAll, ih, List.append_assoc]

theorem afterAll_append (o : Opts) (p : Place) : ∀ xs ys, afterAll o p (xs ++ ys) = afterAll o (afterAll o p xs) ys := by
  intro xs
  induction xs generalizing p with
  | nil => intro ys; rw [List.nil_append, afterAll]
  | cons x xs ih => intro ys; rw [List.cons_append, afterAll, afterAll, ih]

theorem silentAll_append (p : Place) : ∀ xs ys,
    silentAll c p (xs ++ ys) = (silentAll c p xs && silentAll c (afterAll c.opts p xs) ys) := by
  intro xs
  induction xs generalizing p with
  | nil => intro ys; rw [List.nil_append, silentAll, afterAll, Bool.true_and]
  | cons x xs ih => intro ys; rw [List.cons_append, silentAll, silentAll, afterAll, ih, Bool.and_assoc]

theorem speaksAny_append (p : Place) : ∀ xs ys,
    speaksAny c p (xs ++ ys) = (speaksAny c p xs || speaksAny c (afterAll c.opts p xs) ys) := by
  intro xs
  induction xs generalizing p with
  | nil => intro ys; rw [List.nil_append, speaksAny, afterAll, Bool.false_or]
  | cons x xs ih => intro ys; rw [List.cons_append, speaksAny, speaksAny, afterAll, ih, Bool.or_assoc]

/-! ## What does not depend on states -/

/-- What two nodes have in common of which one is the other with parts exchanged. -/
structure One (O : Oracle W) (c : CEnv) (p : Place) (sw : Bool) (x y : DNode) : Prop where
  after : after c.opts p x = after c.opts p y
  defs : FunsR O (defs c p x) (defs c p y)
  silent : sw = false → silent c p x = silent c p y
  speaks : sw = false → speaks c p x = speaks c p y
  choice : sw = true → speaksChoice c p x = speaksChoice c p y

/-- The same for several nodes. -/
structure All (O : Oracle W) (c : CEnv) (p : Place) (sw : Bool) (xs ys : List DNode) : Prop where
  after : afterAll c.opts p xs = afterAll c.opts p ys
  defs : FunsR O (defsAll c p xs) (defsAll c p ys)
  silent : sw = false → silentAll c p xs = silentAll c p ys
  speaks : sw = false → speaksAny c p xs = speaksAny c p ys
  choices : sw = true → speaksChoices c p xs = speaksChoices c p ys

theorem inside_auto {o : Opts} {p : Place} {t : Str} {as : Dict Str} (h : auto o t as = true) : inside o p t as = p := by
  unfold inside; rw [if_pos h]

theorem inside_dir {o : Opts} {p : Place} {t : Str} {as : Dict Str} (h : auto o t as = false) :
    inside o p t as = match dirOf t with
      | some .ext => p.ext
      | some .defn => p.fn
      | _ => p := by
  unfold inside; rw [if_neg (by rw [h]; exact Bool.false_ne_true)]; rfl

theorem ordinary_auto {o : Opts} {t : Str} {as : Dict Str} (h : auto o t as = true) : ordinary o t as = false := by
  unfold ordinary; rw [h]; rfl

theorem ordinary_dir {o : Opts} {t : Str} {as : Dict Str} (h : auto o t as = false) :
    ordinary o t as = (dirOf t).isNone := by
  unfold ordinary; rw [h]; rfl

theorem choosing_auto {o : Opts} {sw : Bool} {t : Str} {as : Dict Str} (h : auto o t as = true) :
    choosing o sw t as = false := by
  unfold choosing; rw [h]; rfl

theorem choosing_dir {o : Opts} {sw : Bool} {t : Str} {as : Dict Str} (h : auto o t as = false) :
    choosing o sw t as = (decide (dirOf t = some .switchD) || (sw && decide (dirOf t = some .nop))) := by
  unfold choosing; rw [h]; rfl

theorem elem_one {p : Place} {sw : Bool} {t : Str} {as : Dict Str} {l l' : Nat} {xs ys : List DNode}
    (hd : auto c.opts t as = true → dirOf t = none)
    (h : SwappedAll O c (inside c.opts p t as) (choosing c.opts sw t as) (ordinary c.opts t as) t xs ys)
    (ih : All O c (inside c.opts p t as) (choosing c.opts sw t as) xs ys) :
    One O c p sw (.elem t as l xs) (.elem t as l' ys) := by
  cases ha : auto c.opts t as with
  | true =>
    rw [inside_auto ha, choosing_auto ha] at ih h
    rw [ordinary_auto ha] at h
    refine ⟨?_, ?_, fun _ => ?_, fun _ => ?_, fun hsw => ?_⟩
    · rw [Spec.DocSem.after, Spec.DocSem.after, if_pos ha, if_pos ha, ih.after]
    · rw [Spec.DocSem.defs, Spec.DocSem.defs, if_pos ha, if_pos ha]
      exact funs_append ih.defs (.cons ⟨rfl, .block h⟩ .nil)
    · rw [Spec.DocSem.silent, Spec.DocSem.silent, if_pos ha, if_pos ha, ih.after]
    · rw [Spec.DocSem.speaks, Spec.DocSem.speaks, if_pos ha, if_pos ha, ih.after]
    · rw [speaksChoice, speaksChoice, hd ha]
  | false =>
    have hn : ¬ auto c.opts t as = true := by rw [ha]; exact Bool.false_ne_true
    rw [inside_dir ha, choosing_dir ha] at ih h
    rw [ordinary_dir ha] at h
    refine ⟨?_, ?_, fun hsw => ?_, fun hsw => ?_, fun hsw => ?_⟩
    · rw [Spec.DocSem.after, Spec.DocSem.after, if_neg hn, if_neg hn]
      have := ih.after
      cases hdir : dirOf t with
      | none => rw [hdir] at this; dsimp only at this ⊢; rw [this]
      | some d => rw [hdir] at this; cases d <;> dsimp only at this ⊢ <;> rw [this]
    · rw [Spec.DocSem.defs, Spec.DocSem.defs, if_neg hn, if_neg hn]
      have hdf := ih.defs
      cases hdir : dirOf t with
      | none =>
        rw [hdir] at hdf; dsimp only at hdf ⊢
        split
        · exact .nil
        · exact hdf
      | some d =>
        rw [hdir] at hdf h
        cases d
        case block => exact funs_append hdf (.cons ⟨rfl, .block (by simpa using h)⟩ .nil)
        case defn =>
          refine funs_append hdf ?_
          split
          · exact .nil
          · exact .cons ⟨rfl, .body (by simpa using h)⟩ .nil
        case replace => exact .nil
        case imp => exact .nil
        case incl => exact .nil
        all_goals exact hdf
    · rw [Spec.DocSem.silent, Spec.DocSem.silent, if_neg hn, if_neg hn]
      cases hdir : dirOf t with
      | none => rfl
      | some d =>
        rw [hdir, hsw] at ih
        cases d
        case block => dsimp only; rw [show afterAll c.opts p xs = afterAll c.opts p ys from ih.after]
        case nop => exact ih.silent rfl
        all_goals rfl
    · rw [Spec.DocSem.speaks, Spec.DocSem.speaks, if_neg hn, if_neg hn]
      cases hdir : dirOf t with
      | none => rfl
      | some d =>
        rw [hdir, hsw] at ih
        cases d
        case block => dsimp only; rw [show afterAll c.opts p xs = afterAll c.opts p ys from ih.after]
        case switchD => exact ih.choices rfl
        case forD => exact ih.speaks rfl
        case withD => exact ih.speaks rfl
        case caseD => exact ih.speaks rfl
        case ifD => exact ih.speaks rfl
        case elseD => exact ih.speaks rfl
        case nop => exact ih.speaks rfl
        all_goals rfl
    · rw [speaksChoice, speaksChoice]
      cases hdir : dirOf t with
      | none => rfl
      | some d =>
        rw [hdir, hsw] at ih
        cases d
        case caseD => exact ih.speaks rfl
        case elseD => exact ih.speaks rfl
        case nop => exact ih.choices rfl
        all_goals rfl

mutual
theorem one : ∀ {p : Place} {sw : Bool} {x y : DNode}, Swapped O c p sw x y → One O c p sw x y
  | _, _, _, _, .same _ => ⟨rfl, funs_refl _, fun _ => rfl, fun _ => rfl, fun _ => rfl⟩
  | _, _, _, _, .elem hd _ _ h => elem_one hd h (all h)

theorem all : ∀ {p : Place} {sw raw : Bool} {tag : Str} {xs ys : List DNode}, SwappedAll O c p sw raw tag xs ys →
    All O c p sw xs ys
  | _, _, _, _, _, _, .nil => ⟨rfl, .nil, fun _ => rfl, fun _ => rfl, fun _ => rfl⟩
  | p, sw, _, _, _, _, .cons (x := x) (y := y) (xs := xs) (ys := ys) h hs => by
    have h1 := one h
    have h2 := all hs
    refine ⟨?_, ?_, fun e => ?_, fun e => ?_, fun e => ?_⟩
    · rw [afterAll, afterAll, ← h1.after, h2.after]
    · rw [defsAll, defsAll, ← h1.after]; exact funs_append h1.defs h2.defs
    · rw [silentAll, silentAll, ← h1.after, h1.silent e, h2.silent e]
    · rw [speaksAny, speaksAny, ← h1.after, h1.speaks e, h2.speaks e]
    · rw [speaksChoices, speaksChoices, ← h1.after, h1.choice e, h2.choices e]
  | _, _, _, _, _, _, .part h _ _ _ _ hs => by
    have h2 := all hs
    refine ⟨?_, ?_, fun e => ?_, fun e => ?_, nofun⟩
    · rw [afterAll_append, afterAll_append, ← h.after, h2.after]
    · rw [defsAll_append, defsAll_append, ← h.after, ← h.defines]; exact funs_append (funs_refl _) h2.defs
    · rw [silentAll_append, silentAll_append, ← h.after, h.silent, h2.silent e]
    · rw [speaksAny_append, speaksAny_append, ← h.after, h.speaks, h2.speaks e]
end

/-! ## States -/

theorem otherwise_not {P : Prog Part} {call} (env : Env) (p : Place) {xs : List DNode} (h : startsElse xs = false) :
    otherwise P O call c env p xs = M.pure () := by
  cases xs with
  | nil => rw [otherwise]; nofun
  | cons x xs =>
    cases x with
    | elem t as l ks =>
      rw [otherwise, if_neg]
      intro e
      exact absurd (of_decide_eq_false h) (by simp [e])
    | _ => rw [otherwise]; nofun

theorem otherwise_append {P : Prog Part} {call} (env : Env) (p : Place) (xs : List DNode) {ys : List DNode}
    (h : startsElse ys = false) : otherwise P O call c env p (xs ++ ys) = otherwise P O call c env p xs := by
  cases xs with
  | nil => rw [List.nil_append, otherwise_not env p h, otherwise_not env p rfl]
  | cons x xs =>
    rw [List.cons_append]
    cases x with
    | elem t as l ks => rw [otherwise, otherwise]
    | _ => rw [otherwise, otherwise] <;> nofun

/-- A node among others. -/
def head (P : Prog Part) (O : Oracle W) (call : Mode → Nat → List Val → MD W Unit) (c : CEnv) (env : Env) (p : Place) (raw : Bool) (els : MD W Unit) (tag : Str)
    (x : DNode) : MD W Unit :=
  match raw, x with
  | true, .cdata d _ => say d
  | _, x => node P O call c env p els tag x

theorem nodes_cons {P : Prog Part} {call} (env : Env) (p : Place) (raw : Bool) (tag : Str) (x : DNode) (xs : List DNode) :
    nodes P O call c env p raw tag (x :: xs) =
      M.bind (head P O call c env p raw (otherwise P O call c env (after c.opts p x) xs) tag x) fun _ =>
        nodes P O call c env (after c.opts p x) raw tag xs := by
  cases raw <;> cases x <;> (rw [nodes] <;> first | rfl | nofun)

theorem nodes_append {P : Prog Part} {call} (env : Env) (raw : Bool) (tag : Str) {ys : List DNode}
    (hy : startsElse ys = false) : ∀ (p : Place) (xs : List DNode), nodes P O call c env p raw tag (xs ++ ys) =
      M.bind (nodes P O call c env p raw tag xs) fun _ => nodes P O call c env (afterAll c.opts p xs) raw tag ys
  | p, [] => by
    rw [List.nil_append, afterAll]
    conv_rhs => rw [nodes]
    rw [M.pure_bind]
  | p, x :: xs => by
    rw [List.cons_append, nodes_cons, nodes_cons, otherwise_append env _ xs hy, M.bind_assoc, afterAll,
      nodes_append env raw tag hy (after c.opts p x) xs]

section
variable {P Q : Prog Part} (hP : ProgRel (PartR O) P Q) {call call' : Mode → Nat → List Val → MD W Unit}
  (hcall : ∀ mode f as, Rel (PartR O) (call mode f as) (call' mode f as))

theorem test_rel (env : Env) (e : Str) : Rel (PartR O) (test O env e) (test O env e) :=
  (Rel.evalM O env e).bind fun _ => Rel.pure _

include hcall in
theorem escaped_rel (env : Env) (e : Str) : Rel (PartR O) (escaped O call env e) (escaped O call' env e) :=
  (Rel.evalM O env e).bind fun _ => Rel.emit hcall _ _

include hcall in
theorem unescaped_rel (env : Env) (e : Str) : Rel (PartR O) (unescaped O call env e) (unescaped O call' env e) :=
  (Rel.evalM O env e).bind fun _ => Rel.emit hcall _ _

theorem say_rel (t : Str) : Rel (PartR O) (say t : MD W Unit) (say t) := Rel.tell _

include hcall in
theorem saying_rel (env : Env) (t : Str) : Rel (PartR O) (saying O call env t) (saying O call' env t) := by
  unfold saying
  split
  · exact say_rel t
  · exact (Rel.gettextM O env t).bind fun _ => Rel.emit hcall _ _

include hcall in
theorem text_rel (env : Env) (tag d : Str) : Rel (PartR O) (text O call c env tag d) (text O call' c env tag d) := by
  refine Rel.each stable_true (fun a => ?_) _
  cases a with
  | inl t =>
    dsimp only
    split
    · exact say_rel t
    · exact saying_rel hcall env t
  | inr e => exact escaped_rel hcall env e

theorem python_rel (env : Env) (ls : List Str) : Rel (PartR O) (python O env ls) (python O env ls) := by
  unfold python
  split
  · exact Rel.pure _
  · exact (Rel.ask _ _).bind fun _ => Rel.setVars _ _

include hcall in
theorem scriptContent_rel (env : Env) (ks : List DNode) :
    Rel (PartR O) (scriptContent O call c env ks) (scriptContent O call' c env ks) := by
  have mark (t : Str) : Rel (PartR O) (if c.mode = "xml".toList then say t else M.pure () : MD W Unit)
      (if c.mode = "xml".toList then say t else M.pure ()) := by
    split
    · exact say_rel t
    · exact Rel.pure _
  refine (mark _).bind fun _ => Rel.bind (Rel.each stable_true (fun a => ?_) _) fun _ => mark _
  cases a with
  | text d e l =>
    refine Rel.each stable_true (fun a => ?_) _
    cases a with
    | inl t => exact say_rel _
    | inr e => exact escaped_rel hcall env _
  | _ => exact Rel.pure _

theorem under_rel (env : Env) (g : Option Str) {m n : MD W Unit} (h : Rel (PartR O) m n) :
    Rel (PartR O) (under O env g m) (under O env g n) := by
  cases g with
  | none => exact h
  | some e =>
    refine (test_rel env e).bind fun b => ?_
    cases b
    · exact Rel.pure _
    · exact h

include hcall in
theorem attrPart_rel (env : Env) (g : Option Str) (k v : Str) :
    Rel (PartR O) (attrPart O call c env g k v) (attrPart O call' c env g k v) := by
  refine under_rel env g (Rel.bind (RelAt.collectM stable_true fun fr => ?_) fun _ => Rel.attrM _ _ _)
  unfold attrValue
  split
  · exact say_rel _
  · refine Rel.each stable_true (fun a => ?_) _
    cases a with
    | inl t => exact say_rel _
    | inr e => exact unescaped_rel hcall _ _

include hcall in
theorem startTag_rel (env : Env) (t : Str) (as : Dict Str) :
    Rel (PartR O) (startTag O call c env t as) (startTag O call' c env t as) := by
  refine (under_rel env _ (say_rel _)).bind fun _ =>
    Rel.bind (Rel.each stable_true (fun a => attrPart_rel hcall env _ _ _) _) fun _ => ?_
  split
  · exact Rel.pure _
  · exact under_rel env _ (Rel.attrsM _ _ _ _)

include hP hcall in
/-- What two elements do, given what is in them. -/
theorem elem_rel {p : Place} {t : Str} {as : Dict Str} {l l' : Nat} {xs ys : List DNode} (env : Env) (tag : Str)
    {els els' : MD W Unit} (hels : Rel (PartR O) els els')
    (he : ordinary c.opts t as = true → xs.isEmpty = ys.isEmpty ∧ (script c.opts t = true → xs = ys))
    (ha : dirOf t = some .call → callArgs xs = callArgs ys)
    (h : SwappedAll O c (inside c.opts p t as) (choosing c.opts false t as) (ordinary c.opts t as) t xs ys)
    (hn : choosing c.opts false t as = false →
      Rel (PartR O) (nodes P O call c env (inside c.opts p t as) (ordinary c.opts t as) t xs)
        (nodes Q O call' c env (inside c.opts p t as) (ordinary c.opts t as) t ys))
    (hc : choosing c.opts false t as = true → ∀ v,
      Rel (PartR O) (choices P O call c env (inside c.opts p t as) v (M.pure ()) xs)
        (choices Q O call' c env (inside c.opts p t as) v (M.pure ()) ys)) :
    Rel (PartR O) (node P O call c env p els tag (.elem t as l xs)) (node Q O call' c env p els' tag (.elem t as l' ys)) := by
  have hafter := (all h).after
  rw [node, node]
  cases hau : auto c.opts t as with
  | true =>
    rw [inside_auto hau] at hafter
    rw [if_pos rfl, if_pos rfl, hafter]
    split
    · exact Rel.pure _
    · exact escaped_rel hcall _ _
  | false =>
    rw [if_neg Bool.false_ne_true, if_neg Bool.false_ne_true]
    rw [inside_dir hau, choosing_dir hau, ordinary_dir hau] at hn h
    rw [inside_dir hau, choosing_dir hau] at hc
    rw [ordinary_dir hau] at he
    rw [inside_dir hau] at hafter
    cases hd : dirOf t with
    | none =>
      rw [hd] at hn he
      obtain ⟨e1, e2⟩ := he rfl
      dsimp only
      refine (startTag_rel hcall env _ _).bind fun _ => ?_
      split
      · exact (under_rel env _ (say_rel _)).bind fun _ => (escaped_rel hcall env _).bind fun _ =>
          under_rel env _ (say_rel _)
      · rw [e1]
        split
        · exact under_rel env _ (say_rel _)
        · refine (under_rel env _ (say_rel _)).bind fun _ => Rel.bind ?_ fun _ => ?_
          · split
            · next hs => rw [e2 hs]; exact scriptContent_rel hcall env _
            · exact hn rfl
          · split
            · exact Rel.pure _
            · exact under_rel env _ (say_rel _)
    | some d =>
      rw [hd] at hn hafter hc h
      cases d
      case replace => exact escaped_rel hcall _ _
      case imp => exact (Rel.importM hP _ _ _).bind fun _ => Rel.pure _
      case incl => exact (Rel.importM hP _ _ _).bind fun _ => Rel.emitMain hcall _ _
      case ext =>
        exact Rel.bind ((Rel.extendM hP _ _).bind fun _ => Rel.emitMain hcall _ _) fun _ => hn rfl
      case block =>
        dsimp only at hafter ⊢
        rw [hafter]
        split
        · exact Rel.pure _
        · exact escaped_rel hcall _ _
      case defn =>
        dsimp only
        split
        · exact Rel.fdefM _ _ (.body (by simpa using h))
        · exact Rel.pure _
      case call =>
        dsimp only at hafter ⊢
        rw [hafter, ha hd]
        exact (Rel.fdefM _ _ (.body (by simpa using h))).bind fun _ => unescaped_rel hcall _ _
      case forD =>
        exact (Rel.ask _ _).bind fun bs => Rel.each stable_true (fun _ => (Rel.setVars _ _).bind fun _ => hn rfl) bs
      case withD =>
        refine (Rel.kjInst env).bind fun _ => RelAt.getBind fun s t hs _ => ?_
        rw [localVars_eq hs env]
        exact Rel.bind (R := PartR O) (Rel.each stable_true (fun _ => (Rel.evalM _ _ _).bind fun _ => Rel.setVars _ _) _)
          (fun _ => (hn rfl).bind fun _ => Rel.setVars _ _) s t hs trivial
      case switchD => exact (Rel.kjInst env).bind fun _ => (Rel.evalM _ _ _).bind fun v => hc rfl v
      case caseD => exact Rel.pure _
      case ifD =>
        refine (test_rel _ _).bind fun b => ?_
        cases b
        · exact hels
        · exact hn rfl
      case elseD => exact Rel.pure _
      case nop => exact hn rfl

set_option linter.unusedSectionVars false in
include hP hcall in
mutual
/-- The same node. -/
theorem node_refl (env : Env) (p : Place) (tag : Str) {els els' : MD W Unit} (hels : Rel (PartR O) els els') :
    ∀ x : DNode, Rel (PartR O) (node P O call c env p els tag x) (node Q O call' c env p els' tag x)
  | .text d b l => by rw [node, node]; exact text_rel hcall env tag d
  | .cdata d l => by rw [node, node]; exact text_rel hcall env tag d
  | .comment d l => by
    rw [node, node]
    split
    · exact Rel.pure _
    · exact say_rel _
  | .pi a d l => by
    rw [node, node]
    split
    · exact Rel.pure _
    · exact python_rel env _
  | .elem t as l xs =>
    elem_rel hP hcall env tag hels (fun _ => ⟨rfl, fun _ => rfl⟩) (fun _ => rfl) (all_refl xs _ _ _ _)
      (fun _ => nodes_refl env _ _ t xs) (fun _ v => choices_refl env _ v (Rel.pure _) xs)

/-- The same nodes. -/
theorem nodes_refl (env : Env) (p : Place) (raw : Bool) (tag : Str) :
    ∀ xs : List DNode, Rel (PartR O) (nodes P O call c env p raw tag xs) (nodes Q O call' c env p raw tag xs)
  | [] => by rw [nodes, nodes]; exact Rel.pure _
  | x :: xs => by
    have hx {els els' : MD W Unit} (he : Rel (PartR O) els els') := node_refl env p tag he x
    have ho := otherwise_refl env (after c.opts p x) xs
    have hs := nodes_refl env (after c.opts p x) raw tag xs
    rw [nodes_cons, nodes_cons]
    refine Rel.bind ?_ fun _ => hs
    unfold head
    split
    · exact say_rel _
    · exact hx ho

theorem otherwise_refl (env : Env) (p : Place) :
    ∀ xs : List DNode, Rel (PartR O) (otherwise P O call c env p xs) (otherwise Q O call' c env p xs)
  | [] => by rw [otherwise_not env p rfl, otherwise_not env p rfl]; exact Rel.pure _
  | .elem t as l ks :: xs => by
    have := nodes_refl env p false t ks
    rw [otherwise, otherwise]
    split
    · exact this
    · exact Rel.pure _
  | .text .. :: _ => by rw [otherwise_not env p rfl, otherwise_not env p rfl]; exact Rel.pure _
  | .cdata .. :: _ => by rw [otherwise_not env p rfl, otherwise_not env p rfl]; exact Rel.pure _
  | .comment .. :: _ => by rw [otherwise_not env p rfl, otherwise_not env p rfl]; exact Rel.pure _
  | .pi .. :: _ => by rw [otherwise_not env p rfl, otherwise_not env p rfl]; exact Rel.pure _

theorem choice_refl (env : Env) (p : Place) (v : Val) {r r' : MD W Unit} (hr : Rel (PartR O) r r') :
    ∀ x : DNode, Rel (PartR O) (choice P O call c env p v r x) (choice Q O call' c env p v r' x)
  | .elem t as l ks => by
    have h1 := nodes_refl env p false t ks
    have h2 := choices_refl env p v hr ks
    rw [choice, choice]
    split
    · refine (Rel.evalM _ _ _).bind fun u => ?_
      split
      · exact h1
      · exact hr
    · exact h1
    · exact h2
    · exact hr
  | .text .. => by rw [choice, choice] <;> first | exact hr | nofun
  | .cdata .. => by rw [choice, choice] <;> first | exact hr | nofun
  | .comment .. => by rw [choice, choice] <;> first | exact hr | nofun
  | .pi .. => by rw [choice, choice] <;> first | exact hr | nofun

theorem choices_refl (env : Env) (p : Place) (v : Val) {r r' : MD W Unit} (hr : Rel (PartR O) r r') :
    ∀ xs : List DNode, Rel (PartR O) (choices P O call c env p v r xs) (choices Q O call' c env p v r' xs)
  | [] => by rw [choices, choices]; exact hr
  | x :: xs => by
    have h1 := choices_refl env (after c.opts p x) v hr xs
    rw [choices, choices]
    exact choice_refl env p v h1 x
end

/-- What two nodes do of which one is the other with parts exchanged. -/
structure Does (O : Oracle W) (P Q : Prog Part) (call call' : Mode → Nat → List Val → MD W Unit) (c : CEnv) (p : Place)
    (sw : Bool) (x y : DNode) : Prop where
  node : sw = false → ∀ (env : Env) (raw : Bool) (tag : Str) (els els' : MD W Unit), Rel (PartR O) els els' →
    Rel (PartR O) (head P O call c env p raw els tag x) (head Q O call' c env p raw els' tag y)
  els : sw = false → ∀ (env : Env) (xs ys : List DNode),
    Rel (PartR O) (otherwise P O call c env p (x :: xs)) (otherwise Q O call' c env p (y :: ys))
  choice : sw = true → ∀ (env : Env) (v : Val) (r r' : MD W Unit), Rel (PartR O) r r' →
    Rel (PartR O) (choice P O call c env p v r x) (choice Q O call' c env p v r' y)

/-- The same for several nodes. -/
structure DoAll (O : Oracle W) (P Q : Prog Part) (call call' : Mode → Nat → List Val → MD W Unit) (c : CEnv) (p : Place)
    (sw raw : Bool) (tag : Str) (xs ys : List DNode) : Prop where
  nodes : sw = false → ∀ env : Env,
    Rel (PartR O) (nodes P O call c env p raw tag xs) (nodes Q O call' c env p raw tag ys)
  els : sw = false → ∀ env : Env,
    Rel (PartR O) (otherwise P O call c env p xs) (otherwise Q O call' c env p ys)
  choices : sw = true → ∀ (env : Env) (v : Val) (r r' : MD W Unit), Rel (PartR O) r r' →
    Rel (PartR O) (choices P O call c env p v r xs) (choices Q O call' c env p v r' ys)

include hP hcall in
theorem elem_does {p : Place} {sw : Bool} {t : Str} {as : Dict Str} {l l' : Nat} {xs ys : List DNode}
    (hd : auto c.opts t as = true → dirOf t = none)
    (he : ordinary c.opts t as = true → xs.isEmpty = ys.isEmpty ∧ script c.opts t = false)
    (ha : dirOf t = some .call → callArgs xs = callArgs ys)
    (h : SwappedAll O c (inside c.opts p t as) (choosing c.opts sw t as) (ordinary c.opts t as) t xs ys)
    (ih : DoAll O P Q call call' c (inside c.opts p t as) (choosing c.opts sw t as) (ordinary c.opts t as) t xs ys) :
    Does O P Q call call' c p sw (.elem t as l xs) (.elem t as l' ys) := by
  have plain {d : Dir} (hdir : dirOf t = some d) (h1 : d ≠ .ext) (h2 : d ≠ .defn) (h3 : d ≠ .switchD) (h4 : sw = false ∨ d ≠ .nop) (env : Env) :
      Rel (PartR O) (Spec.DocSem.nodes P O call c env p false t xs) (Spec.DocSem.nodes Q O call' c env p false t ys) := by
    have hau : auto c.opts t as = false := by
      cases hau : auto c.opts t as with
      | false => rfl
      | true => rw [hd hau] at hdir; cases hdir
    have hi : inside c.opts p t as = p := by
      rw [inside_dir hau, hdir]
      cases d <;> first | rfl | exact absurd rfl h1 | exact absurd rfl h2
    have ho : ordinary c.opts t as = false := by rw [ordinary_dir hau, hdir]; rfl
    have hc : choosing c.opts sw t as = false := by
      rw [choosing_dir hau, hdir]
      rcases h4 with h4 | h4
      · rw [h4]; cases d <;> first | rfl | exact absurd rfl h3
      · cases d <;> cases sw <;> first | rfl | exact absurd rfl h3 | exact absurd rfl h4
    rw [hi, ho, hc] at ih
    exact ih.nodes rfl env
  refine ⟨fun hsw env raw tag els els' hels => ?_, fun hsw env xs' ys' => ?_, fun hsw env v r r' hr => ?_⟩
  · subst hsw
    have : Rel (PartR O) (Spec.DocSem.node P O call c env p els tag (.elem t as l xs))
        (Spec.DocSem.node Q O call' c env p els' tag (.elem t as l' ys)) :=
      elem_rel hP hcall env tag hels (fun ho => ⟨(he ho).1, fun hs => by rw [(he ho).2] at hs; cases hs⟩) ha h
        (fun hn => ih.nodes hn env) (fun hc v => ih.choices hc env v _ _ (Rel.pure _))
    cases raw <;> exact this
  · rw [otherwise, otherwise]
    split
    · next hdir => exact plain hdir nofun nofun nofun (.inl hsw) env
    · exact Rel.pure _
  · rw [Spec.DocSem.choice, Spec.DocSem.choice]
    cases hdir : dirOf t with
    | none => exact hr
    | some d =>
      cases d
      case caseD =>
        refine (Rel.evalM _ _ _).bind fun u => ?_
        split
        · exact plain hdir nofun nofun nofun (.inr nofun) env
        · exact hr
      case elseD => exact plain hdir nofun nofun nofun (.inr nofun) env
      case nop =>
        have hau : auto c.opts t as = false := by
          cases hau : auto c.opts t as with
          | false => rfl
          | true => rw [hd hau] at hdir; cases hdir
        rw [inside_dir hau, choosing_dir hau, hdir, hsw] at ih
        exact ih.choices rfl env v r r' hr
      all_goals exact hr

set_option linter.unusedSectionVars false in
include hP hcall in
mutual
theorem does : ∀ {p : Place} {sw : Bool} {x y : DNode}, Swapped O c p sw x y → Does O P Q call call' c p sw x y
  | p, _, _, _, .same x =>
    ⟨fun _ env raw tag els els' hels => by
      have := node_refl (c := c) hP hcall env p tag hels x
      unfold head
      split
      · exact say_rel _
      · exact this,
     fun _ env xs ys => by
      have := otherwise_refl (c := c) hP hcall env p [x]
      cases x with
      | elem t as l ks => rw [otherwise, otherwise] at this ⊢; exact this
      | _ => rw [otherwise_not env p rfl, otherwise_not env p rfl]; exact Rel.pure _,
     fun _ env v r r' hr => choice_refl hP hcall env p v hr x⟩
  | _, _, _, _, .elem hd he ha h => elem_does hP hcall hd he ha h (do_all h)

theorem do_all : ∀ {p : Place} {sw raw : Bool} {tag : Str} {xs ys : List DNode}, SwappedAll O c p sw raw tag xs ys →
    DoAll O P Q call call' c p sw raw tag xs ys
  | p, _, raw, tag, _, _, .nil =>
    ⟨fun _ env => nodes_refl hP hcall env p raw tag [], fun _ env => otherwise_refl hP hcall env p [],
      fun _ env v _ _ hr => choices_refl hP hcall env p v hr []⟩
  | p, sw, raw, tag, _, _, .cons (x := x) (y := y) (xs := xs) (ys := ys) h hs => by
    have h0 := (one h).after
    have h1 := does h
    have h2 := do_all hs
    refine ⟨fun e env => ?_, fun e env => h1.els e env xs ys, fun e env v r r' hr => ?_⟩
    · rw [nodes_cons, nodes_cons, ← h0]
      exact (h1.node e env raw tag _ _ (h2.els e env)).bind fun _ => h2.nodes e env
    · rw [Spec.DocSem.choices, Spec.DocSem.choices, ← h0]
      exact h1.choice e env v _ _ (h2.choices e env v r r' hr)
  | p, _, raw, tag, _, _, .part (us := us) (vs := vs) (xs := xs) (ys := ys) h hu hv hx hy hs => by
    have h2 := do_all hs
    refine ⟨fun e env => ?_, fun e env => ?_, nofun⟩
    · rw [nodes_append env raw tag hx, nodes_append env raw tag hy, ← h.after, h.does]
      exact (nodes_refl hP hcall env p raw tag vs).bind fun _ => h2.nodes e env
    · rw [otherwise_append env p us hx, otherwise_append env p vs hy, otherwise_not env p hu, otherwise_not env p hv]
      exact Rel.pure _
end

include hP hcall in
theorem part_rel (env : Env) {a b : Part} (h : PartR O a b) :
    Rel (PartR O) (part P O call env a) (part Q O call' env b) := by
  have body {c : CEnv} {p : Place} {tag : Str} {xs ys : List DNode} (h : SwappedAll O c p false false tag xs ys) :
      Rel (PartR O)
        (if silentAll c p xs then say [] else reading (speaksAny c p xs) (nodes P O call c env p false tag xs))
        (if silentAll c p ys then say [] else reading (speaksAny c p ys) (nodes Q O call' c env p false tag ys)) := by
    rw [(all h).silent rfl, (all h).speaks rfl]
    split
    · exact say_rel _
    · exact RelAt.reading stable_true ((do_all hP hcall h).nodes rfl env) _
  cases h with
  | @main c dt x y h =>
    rw [part, part, (one h).silent rfl, (one h).speaks rfl]
    split
    · exact say_rel _
    · refine RelAt.reading stable_true (Rel.bind ?_ fun _ => ?_) _
      · split
        · exact Rel.pure _
        · exact say_rel _
      · exact (does hP hcall h).node rfl env false [] _ _ (Rel.pure _)
  | body h => rw [part, part]; exact body h
  | @block c p tag name xs ys h =>
    rw [part, part, (all h).after]
    refine Rel.bind ?_ fun _ => body h
    split
    · exact python_rel env _
    · exact Rel.pure _

end

theorem callDoc_rel {P Q : Prog Part} (hP : ProgRel (PartR O) P Q) (n : Nat) (m : Mode) (f : Nat) (as : List Val) :
    Rel (PartR O) (callDoc P O n m f as) (callDoc Q O n m f as) := by
  induction n generalizing m f as with
  | zero => exact Rel.throw _
  | succ n ih => exact callWith_rel O (fun env c d h => (part_rel hP ih env h).at) ih m f as

/-! ## Templates -/

theorem set_rel {d e : Dict Part} (h : FunsR O d e) {k : Str} {v w : Part} (hv : PartR O v w) :
    FunsR O (d.set k v) (e.set k w) := by
  induction h with
  | nil => exact .cons ⟨rfl, hv⟩ .nil
  | @cons a b as bs hab hs ih =>
    obtain ⟨a1, a2⟩ := a
    obtain ⟨b1, b2⟩ := b
    have he : a1 = b1 := hab.1
    subst he
    simp only [Dict.set]
    split
    · next h => subst h; exact .cons ⟨rfl, hv⟩ hs
    · exact .cons hab ih

theorem update_rel {d e : Dict Part} (h : FunsR O d e) {fs gs : Dict Part} (hf : FunsR O fs gs) :
    FunsR O (Dict.update d fs) (Dict.update e gs) := by
  unfold Dict.update
  induction hf generalizing d e with
  | nil => exact h
  | @cons a b as bs hab hs ih =>
    obtain ⟨a1, a2⟩ := a
    obtain ⟨b1, b2⟩ := b
    have he : a1 = b1 := hab.1
    subst he
    exact ih (set_rel h hab.2)

theorem functions_rel {t t' : Template} (h : Exchanged O t t') : FunsR O t.functions t'.functions := by
  obtain ⟨root, root', h1, h2, h3⟩ := h.roots
  have hdt : t'.doctype root' = t.doctype root := by
    unfold Template.doctype
    rw [h.conf, h.dtd, (one h3).after]
  unfold Template.functions
  rw [h1, h2]
  dsimp only
  rw [hdt, h.conf]
  have hm : PartR O (.main t.conf (t.doctype root) root) (.main t.conf (t.doctype root) root') := .main h3
  have h0 : FunsR O [("__main__()".toList, .main t.conf (t.doctype root) root)]
      [("__main__()".toList, .main t.conf (t.doctype root) root')] := .cons ⟨rfl, hm⟩ .nil
  exact set_rel (update_rel h0 (one h3).defs) hm

theorem program_rel {ts ts' : List Template} (h : List.Forall₂ (Exchanged O) ts ts') (load : Str → Option Nat)
    (aliasFor : Str → Str) : ProgRel (PartR O) (program ts load aliasFor) (program ts' load aliasFor) := by
  refine ⟨rfl, rfl, ?_⟩
  simp only [program]
  rw [List.forall₂_map_left_iff, List.forall₂_map_right_iff]
  exact h.imp fun t t' h => ⟨h.base.symm, methodsOf_rel (functions_rel h)⟩

theorem rendered_rel {ts ts' : List Template} (h : List.Forall₂ (Exchanged O) ts ts') (load : Str → Option Nat)
    (aliasFor : Str → Str) (n i : Nat) (context : Dict Val) (w : W) :
    ResRel (PartR O) (emptyStore _ w) (rendered (program ts load aliasFor) O n i context w)
      (rendered (program ts' load aliasFor) O n i context w) :=
  Rel.bind (R := PartR O) (Rel.newInst (program_rel h load aliasFor) i context)
    (fun j => Rel.emitMain (callDoc_rel (program_rel h load aliasFor) n) _ j) _ _ (emptyStore_rel w) trivial

/-! ## Laws -/

theorem alike_refl {p : Place} {raw : Bool} {tag : Str} (xs : List DNode) : Alike O c p raw tag xs xs :=
  ⟨fun _ _ _ => rfl, rfl, rfl, rfl, rfl⟩

theorem alike_symm {p : Place} {raw : Bool} {tag : Str} {xs ys : List DNode} (h : Alike O c p raw tag xs ys) :
    Alike O c p raw tag ys xs :=
  ⟨fun P call env => (h.does P call env).symm, h.defines.symm, h.after.symm, h.silent.symm, h.speaks.symm⟩

theorem alike_trans {p : Place} {raw : Bool} {tag : Str} {xs ys zs : List DNode} (h : Alike O c p raw tag xs ys)
    (h' : Alike O c p raw tag ys zs) : Alike O c p raw tag xs zs :=
  ⟨fun P call env => (h.does P call env).trans (h'.does P call env), h.defines.trans h'.defines, h.after.trans h'.after,
    h.silent.trans h'.silent, h.speaks.trans h'.speaks⟩

section
variable {P : Prog Part} {call : Mode → Nat → List Val → MD W Unit} {env : Env}

/-- The name of the element matters only for scripts. -/
theorem node_tag {tag tag' : Str} (h : scriptTag tag = scriptTag tag') (p : Place) (els : MD W Unit) (x : DNode) :
    node P O call c env p els tag x = node P O call c env p els tag' x := by
  cases x with
  | text d _ _ => rw [node, node]; unfold text; rw [h]
  | cdata d _ => rw [node, node]; unfold text; rw [h]
  | comment d _ => rw [node, node]
  | pi t d _ => rw [node, node]
  | elem t as l kids => rw [node, node]

theorem nodes_tag {tag tag' : Str} (h : scriptTag tag = scriptTag tag') (raw raw' : Bool) :
    ∀ (xs : List DNode) (p : Place), raw = raw' ∨ Spec.Swap.sections xs = false →
      nodes P O call c env p raw tag xs = nodes P O call c env p raw' tag' xs
  | [], p, _ => by rw [nodes, nodes]
  | x :: xs, p, hr => by
    have hs : raw = raw' ∨ Spec.Swap.sections xs = false := hr.imp_right fun hs => by
      cases x <;> first | exact hs | cases hs
    rw [nodes_cons, nodes_cons, nodes_tag h raw raw' xs _ hs]
    have hn := fun els => node_tag (P := P) (O := O) (call := call) (env := env) (c := c) h p els x
    unfold head
    cases x with
    | cdata d l =>
      rcases hr with rfl | hr
      · cases raw
        · dsimp only; rw [hn]
        · rfl
      · cases hr
    | _ => cases raw <;> cases raw' <;> · dsimp only; rw [hn]

/-- One node. -/
theorem nodes_one (p : Place) (raw : Bool) (tag : Str) (x : DNode) (hx : Spec.Swap.sections [x] = false) :
    nodes P O call c env p raw tag [x] = node P O call c env p (M.pure ()) tag x := by
  rw [nodes_cons, otherwise_not env _ rfl]
  have h0 (q : Place) : nodes P O call c env q raw tag [] = M.pure () := by rw [nodes]
  rw [h0, M.bind_pure]
  unfold head
  cases x with
  | cdata => cases hx
  | _ => cases raw <;> rfl

theorem text_expr (tag d e : Str) (h : cut c.py d = [.inr e]) : text O call c env tag d = escaped O call env e := by
  unfold text
  rw [h]
  exact M.bind_pure _

theorem defs_one (p : Place) (x : DNode) : defsAll c p [x] = defs c p x := by rw [defsAll, defsAll, List.append_nil]

theorem defs_two (p : Place) (x y : DNode) : defsAll c p [x, y] = defs c p x ++ defs c (after c.opts p x) y := by
  rw [defsAll, defs_one]

theorem after_one (o : Opts) (p : Place) (x : DNode) : afterAll o p [x] = after o p x := by rw [afterAll, afterAll]

theorem after_two (o : Opts) (p : Place) (x y : DNode) : afterAll o p [x, y] = after o (after o p x) y := by
  rw [afterAll, after_one]

theorem silent_one (p : Place) (x : DNode) : silentAll c p [x] = silent c p x := by
  rw [silentAll, silentAll, Bool.and_true]

theorem silent_two (p : Place) (x y : DNode) :
    silentAll c p [x, y] = (silent c p x && silent c (after c.opts p x) y) := by rw [silentAll, silent_one]

theorem speaks_one (p : Place) (x : DNode) : speaksAny c p [x] = speaks c p x := by
  rw [speaksAny, speaksAny, Bool.or_false]

theorem speaks_two (p : Place) (x y : DNode) :
    speaksAny c p [x, y] = (speaks c p x || speaks c (after c.opts p x) y) := by rw [speaksAny, speaks_one]

/-- What is known of an element from its name alone. -/
theorem elem_facts (p : Place) {t : Str} {as : Dict Str} (l : Nat) (xs : List DNode) (ha : auto c.opts t as = false) :
    defs c p (.elem t as l xs) = (match dirOf t with
      | none => if ownContent c.opts t as then [] else defsAll c p xs
      | some .replace => []
      | some .imp => []
      | some .incl => []
      | some .ext => defsAll c p.ext xs
      | some .block => defsAll c p xs ++ [(blockDecl (attr as "name"), .block c p t (attr as "name") xs)]
      | some .defn => defsAll c p.fn xs ++ if p.inDef then [] else [(attr as "function", .body c p.fn t xs)]
      | some _ => defsAll c p xs) ∧
    after c.opts p (.elem t as l xs) = (match dirOf t with
      | none => if ownContent c.opts t as then p else afterAll c.opts p xs
      | some .replace => p
      | some .imp => p
      | some .incl => p
      | some .ext => afterAll c.opts p.ext xs
      | some .defn => { afterAll c.opts p.fn xs with inDef := p.inDef }
      | some .call => let q := afterAll c.opts p xs; { q with calls := q.calls + 1 }
      | some _ => afterAll c.opts p xs) ∧
    silent c p (.elem t as l xs) = (match dirOf t with
      | some .block => (afterAll c.opts p xs).child
      | some .defn => !p.inDef
      | some .nop => silentAll c p xs
      | _ => false) ∧
    speaks c p (.elem t as l xs) = (match dirOf t with
      | some .block => !(afterAll c.opts p xs).child
      | some .defn => false
      | some .imp => false
      | some .forD => speaksAny c p xs
      | some .withD => speaksAny c p xs
      | some .switchD => speaksChoices c p xs
      | some .caseD => speaksAny c p xs
      | some .ifD => speaksAny c p xs
      | some .elseD => speaksAny c p xs
      | some .nop => speaksAny c p xs
      | _ => true) := by
  have hn : ¬ auto c.opts t as = true := by rw [ha]; exact Bool.false_ne_true
  refine ⟨?_, ?_, ?_, ?_⟩
  · rw [defs, if_neg hn]; rfl
  · rw [after, if_neg hn]; rfl
  · rw [silent, if_neg hn]; rfl
  · rw [speaks, if_neg hn]; rfl

theorem text_facts (p : Place) (d : Str) (b : Bool) (l : Nat) : defs c p (.text d b l) = [] ∧
    after c.opts p (.text d b l) = p ∧ silent c p (.text d b l) = (cut c.py d).isEmpty ∧
      speaks c p (.text d b l) = !(cut c.py d).isEmpty := by
  refine ⟨?_, ?_, ?_, ?_⟩
  · rw [defs]; nofun
  · rw [after]; nofun
  · rw [silent]
  · rw [speaks]

theorem remark_facts (p : Place) (d : Str) (l : Nat) : defs c p (.comment ('!' :: d) l) = [] ∧
    after c.opts p (.comment ('!' :: d) l) = p ∧ silent c p (.comment ('!' :: d) l) = true ∧
      speaks c p (.comment ('!' :: d) l) = false := by
  refine ⟨?_, ?_, ?_, ?_⟩
  · rw [defs]; nofun
  · rw [after]; nofun
  · rw [silent]; rfl
  · rw [speaks]; rfl

/-- Python knows that `False` is false. -/
theorem under_false (hF : ∀ v w, O.eval "False".toList v w = (.ok (.bool false), w)) {attrs : Dict Str}
    (h : Dict.get attrs "py:strip".toList = some []) (m : MD W Unit) : under O env (keepTag attrs) m = M.pure () := by
  unfold keepTag
  rw [h]
  change M.bind (M.bind (evalM O env "False".toList) _) _ = _
  have he : (evalM O env "False".toList : MD W Val) = M.pure (.bool false) := by
    funext s
    unfold evalM ask
    rw [hF]
    rfl
  rw [he, M.pure_bind, M.pure_bind]
  rfl

theorem each_pure {γ : Type} : ∀ l : List γ, M.each (fun _ => (M.pure () : MD W Unit)) l = M.pure ()
  | [] => rfl
  | _ :: l => by
    unfold M.each
    rw [each_pure l]
    exact M.pure_bind _ _

theorem startTag_false (hF : ∀ v w, O.eval "False".toList v w = (.ok (.bool false), w)) {tag : Str} {attrs : Dict Str}
    (h : Dict.get attrs "py:strip".toList = some []) : startTag O call c env tag attrs = M.pure () := by
  unfold startTag attrPart
  simp only [under_false hF h, each_pure, ite_self, M.pure_bind]

theorem keepTag_content (attrs : Dict Str) :
    keepTag (attrs.filter (·.1 ≠ "py:content".toList)) = keepTag attrs := by
  unfold keepTag
  rw [SwapL.get_filter _ _ (by decide)]

theorem startTag_content (tag : Str) (attrs : Dict Str) :
    startTag O call c env tag (attrs.filter (·.1 ≠ "py:content".toList)) = startTag O call c env tag attrs := by
  unfold startTag
  have h : ((attrs.filter (·.1 ≠ "py:content".toList)).filter fun kv => !special kv.1) =
      attrs.filter fun kv => !special kv.1 := by
    rw [List.filter_filter]
    refine List.filter_congr fun x _ => ?_
    by_cases hx : x.1 = "py:content".toList
    · rw [hx]; rfl
    · have : decide (x.1 ≠ "py:content".toList) = true := decide_eq_true hx
      rw [this, Bool.and_true]
  have h2 : attr (attrs.filter (·.1 ≠ "py:content".toList)) "py:attrs" = attr attrs "py:attrs" := by
    unfold attr
    rw [SwapL.get_filter _ _ (by decide)]
  rw [h, h2, keepTag_content]

theorem auto_content (o : Opts) (t : Str) (as : Dict Str) :
    auto o t (as.filter (·.1 ≠ "py:content".toList)) = auto o t as := by
  unfold auto attr
  rw [SwapL.get_filter _ _ (by decide)]

/-- A condition with a `py:else`. -/
theorem if_else (p : Place) (raw : Bool) (tag : Str) (as bs : Dict Str) (l m : Nat) (xs ys : List DNode)
    (ha : auto c.opts "py:if".toList as = false) (hb : auto c.opts "py:else".toList bs = false) :
    nodes P O call c env p raw tag [.elem "py:if".toList as l xs, .elem "py:else".toList bs m ys] =
      M.bind (evalM O env (attr as "test")) fun v =>
        if truthy v then nodes P O call c env p false "py:nop".toList xs
        else nodes P O call c env (afterAll c.opts p xs) false "py:nop".toList ys := by
  have h1 : dirOf "py:if".toList = some .ifD := by decide +kernel
  have h2 : dirOf "py:else".toList = some .elseD := by decide +kernel
  have h3 (q : Place) : nodes P O call c env q raw tag [.elem "py:else".toList bs m ys] = M.pure () := by
    rw [nodes_one _ _ _ _ rfl, node, hb, if_neg Bool.false_ne_true, h2]
  have h4 : after c.opts p (.elem "py:if".toList as l xs) = afterAll c.opts p xs := by
    rw [after, ha, if_neg Bool.false_ne_true, h1]
  rw [nodes_cons, h3, otherwise, h2, if_pos rfl, M.bind_pure, h4]
  have hx : nodes P O call c env p false "py:if".toList xs = nodes P O call c env p false "py:nop".toList xs :=
    nodes_tag (by decide +kernel) _ _ _ _ (.inl rfl)
  have hy : nodes P O call c env (afterAll c.opts p xs) false "py:else".toList ys =
      nodes P O call c env (afterAll c.opts p xs) false "py:nop".toList ys :=
    nodes_tag (by decide +kernel) _ _ _ _ (.inl rfl)
  have : node P O call c env p (nodes P O call c env (afterAll c.opts p xs) false "py:nop".toList ys) tag
      (.elem "py:if".toList as l xs) = M.bind (evalM O env (attr as "test")) fun v =>
        if truthy v then nodes P O call c env p false "py:nop".toList xs
        else nodes P O call c env (afterAll c.opts p xs) false "py:nop".toList ys := by
    rw [node, ha, if_neg Bool.false_ne_true, h1]
    dsimp only
    unfold test
    rw [M.bind_assoc, hx]
    simp only [M.pure_bind]
  rw [hy]
  cases raw <;> exact this

theorem each_append {γ : Type} (f : γ → MD W Unit) : ∀ l l' : List γ,
    M.each f (l ++ l') = M.bind (M.each f l) fun _ => M.each f l'
  | [], l' => (M.pure_bind _ _).symm
  | a :: l, l' => by
    change M.bind (f a) (fun _ => M.each f (l ++ l')) = M.bind (M.bind (f a) fun _ => M.each f l) _
    rw [each_append f l l', M.bind_assoc]

end

end Kajiki.SwapDocL
