import Verif.Lemmas.XmlCompile

/-!
# When a document extends another
-/

namespace Kajiki.XmlComp
open Kajiki.Spec.XmlCompile

variable {α β : Type}

/-- The compilation sets `is_child` if `b`, and otherwise leaves it. -/
def Adds (b : Bool) (m : CM α) : Prop := ∀ s a t, m s = .ok (a, t) → t.isChild = (s.isChild || b)

theorem Adds.elim {b : Bool} {m : CM α} {s t : CState} {a : α} (h2 : m s = .ok (a, t)) (h : Adds b m) :
    t.isChild = (s.isChild || b) := h s a t h2

theorem Adds.pure (a : α) : Adds false (CM.pure a) := by
  intro s x t h; cases pure_ok.1 h; simp

theorem Adds.throw (b : Bool) (e : Err) : Adds b (CM.throw e : CM α) := by intro s x t h; cases h

theorem Adds.lift (x : Except Err α) : Adds false (CM.lift x) := by
  intro s a t h; have := (lift_ok.1 h).2; simp only at this; subst this; simp

theorem Adds.get : Adds false CM.get := by intro s a t h; cases h; simp

theorem Adds.modify (f : CState → CState) (h : ∀ s, (f s).isChild = s.isChild) : Adds false (CM.modify f) := by
  intro s a t he; cases he; simp [h]

theorem Adds.bind {b c : Bool} {m : CM α} {f : α → CM β} (h : Adds b m) (hf : ∀ a, Adds c (f a)) :
    Adds (b || c) (CM.bind m f) := by
  intro s x t he
  obtain ⟨a, u, h1, h2⟩ := bind_ok.1 he
  rw [hf a u x t h2, h s a u h1, Bool.or_assoc]

theorem Adds.bind0 {b : Bool} {m : CM α} {f : α → CM β} (h : Adds b m) (hf : ∀ a, Adds false (f a)) :
    Adds b (CM.bind m f) := by simpa using h.bind hf

theorem Adds.then {b : Bool} {m : CM α} {f : α → CM β} (h : Adds false m) (hf : ∀ a, Adds b (f a)) :
    Adds b (CM.bind m f) := by simpa using h.bind hf

theorem Adds.mod {b : Bool} {g : CState → CState} {f : Unit → CM β} (hg : ∀ s, (g s).isChild = s.isChild)
    (hf : Adds b (f ())) : Adds b (CM.bind (CM.modify g) f) := (Adds.modify g hg).then fun _ => hf

theorem Adds.annotate {b : Bool} {m : CM (List Ir)} (l : Nat) (h : Adds b m) : Adds b (annotate l m) :=
  h.bind0 fun _ => .pure _

theorem Adds.finishBlock (name : Str) (b : List Ir) : Adds false (finishBlock name b) := by
  unfold Kajiki.finishBlock
  refine .mod (fun _ => rfl) (Adds.get.then fun s => ?_)
  split
  · exact (Adds.lift _).then fun _ => .mod (fun _ => rfl) (.pure _)
  · exact .pure _

theorem Adds.compileDef (decl : Str) {b : Bool} {m : CM (List Ir)} (h : Adds b m) :
    Adds b (compileDef decl m) := by
  unfold Kajiki.compileDef
  refine Adds.get.then fun s => .mod (fun _ => rfl) (h.bind0 fun b => .mod (fun _ => rfl) ?_)
  split
  · exact .pure _
  · exact .mod (fun _ => rfl) (.pure _)

theorem Adds.compileCall (env : CEnv) (f : Str) (kids : List DNode) {b : Bool} {m : CM (List Ir)}
    (h : Adds b m) : Adds b (compileCall env f kids m) := by
  unfold Kajiki.compileCall
  exact (Adds.lift _).then fun _ => h.bind0 fun _ => Adds.get.then fun s =>
 .mod (fun _ => rfl) (.pure _)

theorem Adds.compileText (env : CEnv) (p : Option Str) (d : Str) (l : Nat) :
    Adds false (compileText env p d l) := by
  unfold Kajiki.compileText
  split
  · exact .throw _ _
  · exact .annotate _ (.lift _)

theorem Adds.compileScript (env : CEnv) (tag : Str) (kids : List DNode) :
    Adds false (compileScript env tag kids) := by
  induction kids with
  | nil => exact .pure _
  | cons k kids ih =>
    cases k with
    | cdata d l => exact ih
    | text d e l =>
      exact (Adds.compileText _ _ _ _).then fun _ => (Adds.lift _).then fun _ => ih.bind0 fun _ => .pure _
    | _ => exact .throw _ _

theorem isAutoblock_ok {env : CEnv} {tag : Str} {attrs : Dict Str} {r : Bool × Dict Str}
    (h : isAutoblock env tag attrs = .ok r) :
    r.1 = isAuto env.opts tag attrs ∧
      ∀ k, k ≠ "py:autoblock".toList → Dict.get r.2 k = Dict.get attrs k := by
  unfold isAutoblock at h
  unfold isAuto getAttr
  split at h
  · next hc =>
    rw [hc]
    split at h
    · next hn =>
      cases h
      exact ⟨by rw [hn]; rfl, fun _ _ => rfl⟩
    · next v hv =>
      simp only at h
      split at h
      · next hf =>
        cases h
        refine ⟨by rw [hv]; simp only [Option.getD_some, hf]; rfl, fun k hk => ?_⟩
        rw [Dict.get_del, if_neg (fun e => hk e.symm)]
      · next hf =>
        split at h
        · cases h
          exact ⟨by rw [hv]; simp only [Option.getD_some]; simp only [Bool.true_and]; symm; exact decide_eq_true hf,
            fun _ _ => rfl⟩
        · cases h
  · next hc =>
    cases h
    refine ⟨?_, fun _ _ => rfl⟩
    rw [Bool.not_eq_true] at hc
    simp only [hc, Bool.false_and]

/-- What an element adds, from its children. -/
theorem Adds.xml (env : CEnv) (tag : Str) (attrs : Dict Str) (ln : Nat) (e : Bool) {b : Bool}
    {m : CM (List Ir)} (h : Adds b m) (he : e = true → b = false) :
    Adds ((getAttr attrs "py:content".toList).isEmpty && b) (compileXml env tag attrs ln e m) := by
  unfold Kajiki.compileXml
  refine (Adds.lift _).then fun _ => Adds.bind0 ?_ fun _ => .pure _
  unfold compileBody
  simp only
  split
  · next hc =>
    rw [hc]
    split
    · next hh => rw [he hh]; exact .pure _
    · exact h.bind0 fun _ => .pure _
  · next hc => rw [Bool.not_eq_true] at hc; rw [hc]; exact .pure _

theorem Adds.kind (env : CEnv) (ctx : Ctx) (attrs : Dict Str) (kids : List DNode) {b : Bool}
    {m : CM (List Ir)} (h : Adds b m) (k : Kind) (hk : k ≠ .xml) :
    Adds (decide (k = .ext) || ((match k with | .replace | .imp | .incl => false | _ => true) && b))
      (compileKind env ctx attrs kids m k) := by
  cases k with
  | replace => exact .pure _
  | imp => exact .pure _
  | ext =>
    intro s a t he
    obtain ⟨v, s2, h3, h4⟩ := bind_ok.1 he
    cases pure_ok.1 h4
    rw [h _ _ _ h3]
    simp
  | incl => exact .pure _
  | block => exact Adds.bind0 h fun _ => .finishBlock _ _
  | defn => exact .compileDef _ h
  | call => exact .compileCall _ _ _ h
  | forK => exact Adds.bind0 h fun _ => .pure _
  | withK => exact Adds.bind0 h fun _ => (Adds.lift _).then fun _ => .pure _
  | switchK => exact Adds.bind0 h fun _ => (Adds.lift _).then fun _ => .pure _
  | caseK => exact Adds.bind0 h fun _ => .pure _
  | ifK => exact Adds.bind0 h fun _ => .pure _
  | elseK => exact (Adds.lift _).then fun _ => Adds.bind0 h fun _ => .pure _
  | nop => exact h
  | xml => exact absurd rfl hk
  | broken => exact .throw _ _
  | endless => exact .throw _ _

theorem extendsInList_isEmpty {o : Opts} {kids : List DNode} (h : kids.isEmpty = true) :
    extendsInList o kids = false := by
  cases kids
  · rfl
  · cases h

mutual
theorem node_adds (env : CEnv) (ctx : Ctx) (x : DNode) :
    Adds (extendsIn env.opts x) (compileNode env ctx x) := by
  cases x with
  | comment d ln => simp only [compileNode, extendsIn]; exact .annotate _ (.pure _)
  | text d e ln => simp only [compileNode, extendsIn]; exact .compileText _ _ _ _
  | cdata d ln => simp only [compileNode, extendsIn]; exact .compileText _ _ _ _
  | pi tg d ln =>
    simp only [compileNode, extendsIn]
    refine .annotate _ ((Adds.lift _).then fun p => ?_)
    split
    · exact .mod (fun _ => rfl) (.pure _)
    · exact .pure _
  | elem tag attrs ln kids =>
    intro s a t he
    simp only [compileNode] at he
    obtain ⟨auto, s1, h1, h2⟩ := bind_ok.1 he
    obtain ⟨h3, h4⟩ := lift_ok.1 h1
    simp only at h3 h4
    subst h4
    obtain ⟨ha, hattr⟩ := isAutoblock_ok h3
    have hk := fun raw => kids_adds env raw (some tag) (auto.2.has "py:switch".toList) [] kids
    simp only [extendsIn]
    refine Adds.elim h2 ?_
    clear h2
    rw [ha]
    cases hau : isAuto env.opts tag attrs with
    | true =>
      simp only [if_true, usesKids, hau, Bool.true_or, Bool.true_and, Bool.not_true, Bool.false_and,
        Bool.false_or]
      exact .annotate _ (Adds.bind0 (.annotate _ (hk _)) fun _ => .finishBlock _ _)
    | false =>
      simp only [Bool.false_eq_true, if_false, usesKids, hau, Bool.false_or, Bool.not_false, Bool.true_and]
      by_cases hx : kindOf tag = .xml
      · have hc : getAttr auto.2 "py:content".toList = getAttr attrs "py:content".toList := by
          unfold getAttr; rw [hattr _ (by decide)]
        have hd : (decide (kindOf tag = .ext)) = false := by rw [hx]; rfl
        rw [hd, Bool.false_or, hx]
        simp only
        refine .annotate _ ?_
        rw [← hc, Bool.and_assoc]
        refine Adds.xml env tag auto.2 ln _ ?_ fun hh => by rw [extendsInList_isEmpty hh, Bool.and_false]
        unfold isScript
        split
        · next hs =>
          rw [hs]
          simp only [Bool.not_true, Bool.false_and]
          exact (Adds.compileScript _ _ _).bind0 fun _ => .pure _
        · next hs =>
          rw [Bool.not_eq_true] at hs
          rw [hs]
          simp only [Bool.not_false, Bool.true_and]
          exact hk true
      · have := Adds.kind env ctx auto.2 kids (.annotate ln (hk false)) (kindOf tag) hx
        revert this
        generalize kindOf tag = k at hx ⊢
        cases k <;> first | exact absurd rfl hx | exact fun h => Adds.annotate _ h

theorem kids_adds (env : CEnv) (raw : Bool) (parent : Option Str) (sw : Bool) (prev : Str)
    (xs : List DNode) : Adds (extendsInList env.opts xs) (compileKids env raw parent sw prev xs) := by
  cases xs with
  | nil => simp only [compileKids, extendsInList]; exact .pure _
  | cons x xs =>
    have h2 := fun pr => kids_adds env raw parent sw pr xs
    cases x with
    | cdata d ln =>
      simp only [compileKids, extendsInList, extendsIn, Bool.false_or]
      refine Adds.then ?_ fun _ => (h2 _).bind0 fun _ => .pure _
      split
      · exact .pure _
      · exact .compileText _ _ _ _
    | _ =>
      simp only [compileKids, extendsInList]
      exact (node_adds env _ _).bind fun _ => (h2 _).bind0 fun _ => .pure _
end

end Kajiki.XmlComp
