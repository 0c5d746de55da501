import Verif.Lemmas.XmlCompile

/-!
# Properties of the registries kept by compiling
-/

namespace Kajiki.XmlComp

variable {α β : Type}

/-- A property of the table of functions that survives setting an entry. -/
structure Stable (I : Dict (List Ir) → Prop) : Prop where
  set : ∀ d k v, I d → I (d.set k v)

/-- The compilation keeps the property. -/
def Keeps (I : Dict (List Ir) → Prop) (m : CM α) : Prop :=
  ∀ s, I s.funs → ∀ a t, m s = .ok (a, t) → I t.funs

variable {I : Dict (List Ir) → Prop}

theorem Keeps.pure (a : α) : Keeps I (CM.pure a) := by
  intro s hs b t h; cases pure_ok.1 h; exact hs
theorem Keeps.throw (e : Err) : Keeps I (CM.throw e : CM α) := by intro s hs b t h; cases h
theorem Keeps.lift (x : Except Err α) : Keeps I (CM.lift x) := by
  intro s hs b t h
  obtain ⟨_, h2⟩ := lift_ok.1 h
  simp only at h2; subst h2; exact hs
theorem Keeps.get : Keeps I CM.get := by intro s hs b t h; cases h; exact hs
theorem Keeps.bind {m : CM α} {f : α → CM β} (h : Keeps I m) (hf : ∀ a, Keeps I (f a)) :
    Keeps I (CM.bind m f) := by
  intro s hs b t he
  obtain ⟨a, s1, h1, h2⟩ := bind_ok.1 he
  exact hf a s1 (h s hs a s1 h1) b t h2
theorem Keeps.mod {g : CState → CState} {f : Unit → CM β} (hg : ∀ s, I s.funs → I (g s).funs)
    (h : Keeps I (f ())) : Keeps I (CM.bind (CM.modify g) f) :=
  fun s hs b t he => h (g s) (hg s hs) b t he
theorem Keeps.annotate (l : Nat) {m : CM (List Ir)} (h : Keeps I m) : Keeps I (annotate l m) :=
  h.bind fun _ => .pure _

theorem Keeps.finishBlock (hI : Stable I) (name : Str) (b : List Ir) : Keeps I (finishBlock name b) := by
  unfold Kajiki.finishBlock
  refine .mod (fun s hs => hI.set _ _ _ hs) (Keeps.get.bind fun s => ?_)
  split
  · exact (Keeps.lift _).bind fun p => .mod (fun s hs => hI.set _ _ _ hs) (.pure _)
  · exact .pure _

theorem Keeps.kind (hI : Stable I) (env : CEnv) (ctx : Ctx) (attrs : Dict Str) (kids : List DNode) {m : CM (List Ir)}
    (h : Keeps I m) (k : Kind) : Keeps I (compileKind env ctx attrs kids m k) := by
  cases k with
  | ext =>
    exact .mod (g := fun s => { s with isChild := true }) (f := fun _ => CM.bind m fun b => CM.pure (.ext (getAttr attrs "href".toList) 0 :: b))
      (fun s hs => hs) (h.bind fun b => .pure _)
  | block => exact h.bind fun b => .finishBlock hI _ _
  | defn =>
    unfold compileKind compileDef
    refine Keeps.get.bind fun s => .mod (fun s hs => hs) (h.bind fun b => .mod (fun s hs => hs) ?_)
    split
    · exact .pure _
    · exact .mod (fun s hs => hI.set _ _ _ hs) (.pure _)
  | call =>
    exact (Keeps.lift _).bind fun _ => h.bind fun b => Keeps.get.bind fun s => .mod (fun s hs => hs) (.pure _)
  | forK => exact h.bind fun b => .pure _
  | withK => exact h.bind fun b => (Keeps.lift _).bind fun _ => .pure _
  | switchK => exact h.bind fun b => (Keeps.lift _).bind fun _ => .pure _
  | caseK => exact h.bind fun b => .pure _
  | ifK => exact h.bind fun b => .pure _
  | elseK => exact (Keeps.lift _).bind fun _ => h.bind fun b => .pure _
  | nop => exact h
  | broken => exact .throw _
  | endless => exact .throw _
  | _ => exact .pure _

theorem Keeps.text (env : CEnv) (p : Option Str) (d : Str) (l : Nat) : Keeps I (compileText env p d l) := by
  unfold compileText
  cases p with
  | none => exact .throw _
  | some p => exact .annotate _ (.lift _)

theorem Keeps.script (env : CEnv) (tag : Str) (kids : List DNode) : Keeps I (compileScript env tag kids) := by
  induction kids with
  | nil => exact .pure _
  | cons k kids ih =>
    cases k with
    | cdata d l => exact ih
    | text d e l =>
      exact (Keeps.text _ _ _ _).bind fun _ => (Keeps.lift _).bind fun _ => ih.bind fun _ => .pure _
    | _ => exact .throw _

theorem Keeps.xml (env : CEnv) (tag : Str) (attrs : Dict Str) (ln : Nat) (e : Bool) {m : CM (List Ir)}
    (h : Keeps I m) : Keeps I (compileXml env tag attrs ln e m) := by
  unfold compileXml
  refine (Keeps.lift _).bind fun _ => Keeps.bind ?_ fun _ => .pure _
  unfold compileBody
  simp only
  split
  · split
    · exact .pure _
    · exact h.bind fun _ => .pure _
  · exact .pure _

mutual
theorem node_keeps (hI : Stable I) (env : CEnv) (ctx : Ctx) (x : DNode) : Keeps I (compileNode env ctx x) := by
  cases x with
  | comment d ln => simp only [compileNode]; exact .annotate _ (.pure _)
  | text d e ln => simp only [compileNode]; exact .text _ _ _ _
  | cdata d ln => simp only [compileNode]; exact .text _ _ _ _
  | pi tg d ln =>
    simp only [compileNode]
    refine .annotate _ ((Keeps.lift _).bind fun p => ?_)
    split
    · exact .mod (fun s hs => hs) (.pure _)
    · exact .pure _
  | elem tag attrs ln kids =>
    simp only [compileNode]
    refine (Keeps.lift _).bind fun a => ?_
    have hk := fun raw => kids_keeps hI env raw (some tag) (a.2.has "py:switch".toList) [] kids
    split
    · exact .annotate _ ((Keeps.annotate _ (hk false)).bind fun b => .finishBlock hI _ _)
    · split
      · refine .annotate _ (.xml _ _ _ _ _ ?_)
        split
        · exact (Keeps.script _ _ _).bind fun _ => .pure _
        · exact hk true
      · exact .annotate _ (.kind hI _ _ _ _ (.annotate _ (hk false)) _)

theorem kids_keeps (hI : Stable I) (env : CEnv) (raw : Bool) (p : Option Str) (sw : Bool) (prev : Str)
    (xs : List DNode) : Keeps I (compileKids env raw p sw prev xs) := by
  cases xs with
  | nil => simp only [compileKids]; exact .pure _
  | cons x xs =>
    cases x with
    | cdata d ln =>
      simp only [compileKids]
      refine Keeps.bind ?_ fun _ => (kids_keeps hI env raw p sw _ xs).bind fun _ => .pure _
      split
      · exact .pure _
      · exact .text _ _ _ _
    | _ =>
      simp only [compileKids]
      exact (node_keeps hI env _ _).bind fun _ => (kids_keeps hI env raw p sw _ xs).bind fun _ => .pure _
end

theorem keys_set (d : Dict (List Ir)) (k : Str) (v : List Ir) (h : (d.map (·.1)).Nodup) :
    ((d.set k v).map (·.1)).Nodup := by
  induction d with
  | nil => simp [Dict.set]
  | cons x d ih =>
    obtain ⟨k', v'⟩ := x
    simp only [List.map_cons, List.nodup_cons] at h
    simp only [Dict.set]
    split
    · simpa using h
    · next hk =>
      simp only [List.map_cons, List.nodup_cons]
      refine ⟨fun hm => ?_, ih h.2⟩
      obtain ⟨f, hf, hfk⟩ := List.mem_map.1 hm
      rcases Dict.mem_set hf with rfl | hf
      · exact hk hfk.symm
      · exact h.1 (List.mem_map.2 ⟨f, hf, hfk⟩)

theorem stable_keys : Stable fun d : Dict (List Ir) => (d.map (·.1)).Nodup := ⟨keys_set⟩

end Kajiki.XmlComp
