import Verif.Spec.Share
import Mathlib.Data.List.Forall2
import Mathlib.Data.List.Nodup

/-!
# Renumbering values
-/

namespace Kajiki.Spec.Share
open Kajiki Kajiki.Run

variable {fl : Nat → Nat} {ρ σ τ : Ren}

/-- More objects were made. -/
structure Le (ρ σ : Ren) : Prop where
  inst : ρ.inst <+: σ.inst
  fn : ρ.fn <+: σ.fn
  frame : ρ.frame <+: σ.frame

theorem Le.refl (ρ : Ren) : Le ρ ρ := ⟨List.prefix_rfl, List.prefix_rfl, List.prefix_rfl⟩

theorem Le.trans (h : Le ρ σ) (h2 : Le σ τ) : Le ρ τ :=
  ⟨h.inst.trans h2.inst, h.fn.trans h2.fn, h.frame.trans h2.frame⟩

theorem prefix_get {l m : List Nat} (h : l <+: m) {i j : Nat} (hi : l[i]? = some j) : m[i]? = some j := by
  obtain ⟨t, rfl⟩ := h
  rw [List.getElem?_append_left]
  · exact hi
  · exact (List.getElem?_eq_some_iff.1 hi).1

theorem get_inj {l : List Nat} (h : l.Nodup) {i i' j : Nat} (hi : l[i]? = some j) (hi' : l[i']? = some j) : i = i' := by
  obtain ⟨a, b⟩ := List.getElem?_eq_some_iff.1 hi
  obtain ⟨a', b'⟩ := List.getElem?_eq_some_iff.1 hi'
  exact (h.getElem_inj_iff).1 (b.trans b'.symm)

theorem get_beq {l : List Nat} (h : l.Nodup) {i i' j j' : Nat} (hi : l[i]? = some j) (hi' : l[i']? = some j') :
    (i == i') = (j == j') := by
  rw [Bool.eq_iff_iff, beq_iff_eq, beq_iff_eq]
  constructor
  · rintro rfl
    rw [hi] at hi'
    exact Option.some.inj hi'
  · rintro rfl
    exact get_inj h hi hi'

theorem ValR.mono (hle : Le ρ σ) {v v' : Val} (h : ValR fl ρ v v') : ValR fl σ v v' := by
  induction h with
  | none => exact .none
  | bool b => exact .bool b
  | int b => exact .int b
  | str b => exact .str b
  | html s h t => exact .html s h t
  | obj s h t => exact .obj s h t
  | unit => exact .unit
  | pairs s l l' keys vals ih => exact .pairs s l l' keys ih
  | inst i j h => exact .inst i j (prefix_get hle.inst h)
  | meth m i j h => exact .meth m i j (prefix_get hle.inst h)
  | fn i j h => exact .fn i j (prefix_get hle.fn h)
  | flatItems id vs vs' len vals ih => exact .flatItems id vs vs' len ih
  | flatCall id i j h vs vs' len vals ih => exact .flatCall id i j (prefix_get hle.fn h) vs vs' len ih

theorem ValsR.mono (hle : Le ρ σ) {v v' : List Val} (h : ValsR fl ρ v v') : ValsR fl σ v v' :=
  List.Forall₂.imp (fun _ _ h => ValR.mono hle h) h

theorem DictR.mono (hle : Le ρ σ) {v v' : Dict Val} (h : DictR fl ρ v v') : DictR fl σ v v' :=
  List.Forall₂.imp (fun _ _ h => ⟨h.1, ValR.mono hle h.2⟩) h

theorem DictsR.mono (hle : Le ρ σ) {v v' : List (Dict Val)} (h : List.Forall₂ (DictR fl ρ) v v') :
    List.Forall₂ (DictR fl σ) v v' :=
  List.Forall₂.imp (fun _ _ h => DictR.mono hle h) h

theorem InstR.mono (hle : Le ρ σ) {v v' : Inst} (h : InstR fl ρ v v') : InstR fl σ v v' :=
  ⟨h.cls, DictR.mono hle h.context, DictR.mono hle h.globals, DictR.mono hle h.attrs⟩

theorem forall₂_of_get {α β : Type} {R : α → β → Prop} {l : List α} {l' : List β} (len : l.length = l'.length)
    (vals : ∀ (n : Nat) x y, l[n]? = some x → l'[n]? = some y → R x y) : List.Forall₂ R l l' := by
  rw [List.forall₂_iff_get]
  refine ⟨len, fun i h h' => vals i _ _ ?_ ?_⟩ <;> simp

theorem get_of_forall₂ {α β : Type} {R : α → β → Prop} {l : List α} {l' : List β} (h : List.Forall₂ R l l') :
    ∀ (n : Nat) x y, l[n]? = some x → l'[n]? = some y → R x y := by
  induction h with
  | nil => simp
  | cons a h ih =>
    intro n x y hx hy
    cases n with
    | zero => simp_all
    | succ n => exact ih n x y (by simpa using hx) (by simpa using hy)

theorem get_some_of_forall₂ {α β : Type} {R : α → β → Prop} {l : List α} {l' : List β} (h : List.Forall₂ R l l')
    {n : Nat} {x : α} (hx : l[n]? = some x) : ∃ y, l'[n]? = some y ∧ R x y := by
  have hl := h.length_eq
  have hn := (List.getElem?_eq_some_iff.1 hx).1
  refine ⟨l'[n]'(hl ▸ hn), List.getElem?_eq_getElem _, get_of_forall₂ h n _ _ hx (List.getElem?_eq_getElem _)⟩

theorem get_some_of_forall₂' {α β : Type} {R : α → β → Prop} {l : List α} {l' : List β} (h : List.Forall₂ R l l')
    {n : Nat} {y : β} (hy : l'[n]? = some y) : ∃ x, l[n]? = some x ∧ R x y := by
  have hl := h.length_eq
  have hn := (List.getElem?_eq_some_iff.1 hy).1
  refine ⟨l[n]'(hl ▸ hn), List.getElem?_eq_getElem _, get_of_forall₂ h n _ _ (List.getElem?_eq_getElem _) hy⟩

theorem DictR.of_pairs {l l' : List (Str × Val)} (keys : l.map (·.1) = l'.map (·.1))
    (vals : ∀ (n : Nat) x y, l[n]? = some x → l'[n]? = some y → ValR fl ρ x.2 y.2) : DictR fl ρ l l' := by
  refine forall₂_of_get (by simpa using congrArg List.length keys) fun n x y hx hy => ⟨?_, vals n x y hx hy⟩
  have := congrArg (·[n]?) keys
  simpa [hx, hy] using this

theorem DictR.keys {l l' : Dict Val} (h : DictR fl ρ l l') : l.map (·.1) = l'.map (·.1) := by
  induction h with
  | nil => rfl
  | cons a h ih => simp [a.1, ih]

theorem ValR.of_dict (s : Str) {l l' : Dict Val} (h : DictR fl ρ l l') : ValR fl ρ (.pairs s l) (.pairs s l') :=
  .pairs s l l' h.keys fun n x y hx hy => (get_of_forall₂ h n x y hx hy).2

theorem ValR.plain {v : Val} (h : Plain v) : ValR fl ρ v v := by
  induction h with
  | none => exact .none
  | bool b => exact .bool b
  | int b => exact .int b
  | str b => exact .str b
  | html s h t => exact .html s h t
  | obj s h t => exact .obj s h t
  | unit => exact .unit
  | pairs s l vals ih =>
    refine .pairs s l l rfl fun n x y hx hy => ?_
    rw [hx] at hy
    cases hy
    exact ih x (List.mem_of_getElem? hx)

theorem DictR.plain {d : Dict Val} (h : ∀ x ∈ d, Plain x.2) : DictR fl ρ d d := by
  induction d with
  | nil => exact .nil
  | cons a d ih => exact .cons ⟨rfl, .plain (h a (by simp))⟩ (ih fun x hx => h x (by simp [hx]))

/-! ## What the runtime looks at -/

theorem ValR.toStr {v v' : Val} (h : ValR fl ρ v v') : Kajiki.toStr v = Kajiki.toStr v' := by
  cases h <;> rfl

theorem DictR.isEmpty {l l' : Dict Val} (h : DictR fl ρ l l') : l.isEmpty = l'.isEmpty := by cases h <;> rfl

theorem ValR.truthy {v v' : Val} (h : ValR fl ρ v v') : Kajiki.truthy v = Kajiki.truthy v' := by
  cases h with
  | pairs s l l' keys vals =>
    rw [Kajiki.truthy, Kajiki.truthy, (DictR.of_pairs keys vals).isEmpty]
  | _ => rfl

theorem ValR.numVal {v v' : Val} (h : ValR fl ρ v v') : Kajiki.numVal v = Kajiki.numVal v' := by
  cases h <;> rfl

theorem ValR.pyEq (hρ : ρ.Inj) (hfl : Function.Injective fl) {v v' w w' : Val} (h : ValR fl ρ v v')
    (h2 : ValR fl ρ w w') : Kajiki.pyEq v w = Kajiki.pyEq v' w' := by
  have fb : ∀ i j : Nat, (fl i == fl j) = (i == j) := by
    intro i j
    rw [Bool.eq_iff_iff, beq_iff_eq, beq_iff_eq, hfl.eq_iff]
  cases h <;> cases h2 <;> simp only [Kajiki.pyEq, Kajiki.numVal, fb] <;>
    first
    | exact get_beq hρ.1 ‹_› ‹_›
    | exact get_beq hρ.2.1 ‹_› ‹_›
    | (congr 1; exact get_beq hρ.1 ‹_› ‹_›)

theorem ValR.escape {v v' : Val} (h : ValR fl ρ v v') : ValR fl ρ (Kajiki.escape v) (Kajiki.escape v') := by
  cases h <;> simp only [Kajiki.escape] <;> first | exact .none | exact .str _ | skip
  · exact .flatItems _ _ _ ‹_› ‹_›
  · exact .flatCall _ _ _ ‹_› _ _ ‹_› ‹_›

theorem ValR.valLt {v v' w w' : Val} (h : ValR fl ρ v v') (h2 : ValR fl ρ w w') :
    Kajiki.valLt v w = Kajiki.valLt v' w' := by
  cases h <;> cases h2 <;> rfl

theorem ValR.isNone {v v' : Val} (h : ValR fl ρ v v') : (v = .none) = (v' = .none) := by
  cases h <;> simp

/-- Related entries. -/
abbrev PairR (fl : Nat → Nat) (ρ : Ren) (x y : Str × Val) : Prop := x.1 = y.1 ∧ ValR fl ρ x.2 y.2

section
variable (hρ : ρ.Inj) (hfl : Function.Injective fl)
include hρ hfl

theorem pairLe_eq {a a' b b' : Str × Val} (ha : PairR fl ρ a a') (hb : PairR fl ρ b b') : pairLe a b = pairLe a' b' := by
  unfold pairLe
  rw [ha.1, hb.1, ha.2.pyEq hρ hfl hb.2, hb.2.valLt ha.2]

theorem insertPair_rel {x x' : Str × Val} (hx : PairR fl ρ x x') {l l' : List (Str × Val)} (h : DictR fl ρ l l') :
    DictR fl ρ (insertPair x l) (insertPair x' l') := by
  induction h with
  | nil => exact .cons hx .nil
  | cons a h ih =>
    rw [insertPair, insertPair, pairLe_eq hρ hfl hx a]
    split
    · exact .cons hx (.cons a h)
    · exact .cons a ih

theorem insertionSort_rel {l l' : List (Str × Val)} (h : DictR fl ρ l l') :
    DictR fl ρ (insertionSort l) (insertionSort l') := by
  induction h with
  | nil => exact .nil
  | cons a h ih => exact insertPair_rel hρ hfl a ih

theorem anyClash_eq {l l' : List (Str × Val)} (h : DictR fl ρ l l') : anyClash l = anyClash l' := by
  induction h with
  | nil => rfl
  | cons a h ih =>
    rw [anyClash, anyClash, ih]
    congr 1
    clear ih
    induction h with
    | nil => rfl
    | cons b h ih =>
      rw [List.any_cons, List.any_cons, ih]
      congr 1
      unfold clash
      rw [a.1, b.1, a.2.pyEq hρ hfl b.2, a.2.valLt b.2]

theorem boolLike_eq {v v' : Val} (h : ValR fl ρ v v') : boolLike v = boolLike v' := by
  unfold boolLike
  rw [h.pyEq hρ hfl (.bool true), h.pyEq hρ hfl (.bool false)]

theorem renderAttr_eq (mode : Str) {a a' : Str × Val} (h : PairR fl ρ a a') : renderAttr mode a = renderAttr mode a' := by
  obtain ⟨k, v⟩ := a
  obtain ⟨k', v'⟩ := a'
  obtain ⟨hk, hv⟩ := h
  simp only at hk hv
  subst hk
  unfold renderAttr
  simp only
  rw [boolLike_eq hρ hfl hv, hv.truthy]
  by_cases hb : (emptyAttrs.contains k && boolLike v') = true
  · rw [if_pos hb]
    simp only [hb, ↓reduceIte]
  · simp only [hb]
    cases hv <;> rfl

theorem renderAttrs_eq (mode : Str) {v v' : Val} (h : ValR fl ρ v v') : renderAttrs v mode = renderAttrs v' mode := by
  cases h with
  | pairs s l l' keys vals =>
    have h := DictR.of_pairs keys vals
    unfold renderAttrs sortAttrs
    simp only
    rw [anyClash_eq hρ hfl h]
    cases anyClash l' with
    | true => rfl
    | false =>
      simp only [Bool.false_eq_true, ↓reduceIte]
      congr 1
      have h2 := insertionSort_rel hρ hfl h
      generalize insertionSort l = m at h2
      generalize insertionSort l' = m' at h2
      induction h2 with
      | nil => rfl
      | cons a h ih => rw [List.flatMap_cons, List.flatMap_cons, ih, renderAttr_eq hρ hfl mode a]
  | _ => rfl

end

/-! ## Dictionaries -/

theorem DictR.get {d d' : Dict Val} (h : DictR fl ρ d d') (k : Str) :
    Option.Rel (ValR fl ρ) (d.get k) (d'.get k) := by
  induction h with
  | nil => exact .none
  | cons a h ih =>
    rw [Dict.get, Dict.get, a.1]
    split
    · exact .some a.2
    · exact ih

theorem DictR.has {d d' : Dict Val} (h : DictR fl ρ d d') (k : Str) : d.has k = d'.has k := by
  unfold Dict.has
  have := h.get k
  revert this
  generalize d.get k = a
  generalize d'.get k = b
  intro this
  cases this <;> rfl

theorem DictR.getD {d d' : Dict Val} (h : DictR fl ρ d d') (k : Str) {w w' : Val} (hw : ValR fl ρ w w') :
    ValR fl ρ ((d.get k).getD w) ((d'.get k).getD w') := by
  cases hg : d.get k with
  | none =>
    have := h.get k
    rw [hg] at this
    cases hg' : d'.get k with
    | none => exact hw
    | some x => rw [hg'] at this; cases this
  | some x =>
    have := h.get k
    rw [hg] at this
    cases hg' : d'.get k with
    | none => rw [hg'] at this; cases this
    | some y => rw [hg'] at this; cases this; assumption

theorem DictR.set {d d' : Dict Val} (h : DictR fl ρ d d') (k : Str) {v v' : Val} (hv : ValR fl ρ v v') :
    DictR fl ρ (d.set k v) (d'.set k v') := by
  induction h with
  | nil => exact .cons ⟨rfl, hv⟩ .nil
  | cons a h ih =>
    rw [Dict.set, Dict.set, a.1]
    split
    · exact .cons ⟨rfl, hv⟩ h
    · exact .cons ⟨rfl, a.2⟩ ih

theorem DictR.update {d d' e e' : Dict Val} (h : DictR fl ρ d d') (he : DictR fl ρ e e') :
    DictR fl ρ (d.update e) (d'.update e') := by
  unfold Dict.update
  induction he generalizing d d' with
  | nil => exact h
  | cons a _ ih =>
    rw [List.foldl_cons, List.foldl_cons]
    apply ih
    rw [a.1]
    exact h.set _ a.2

theorem DictR.filter {p q : Str × Val → Bool} {d d' : Dict Val} (h : DictR fl ρ d d')
    (hpq : ∀ x y, PairR fl ρ x y → p x = q y) : DictR fl ρ (d.filter p) (d'.filter q) := by
  induction h with
  | nil => exact .nil
  | cons a h ih =>
    rw [List.filter_cons, List.filter_cons, hpq _ _ a]
    split
    · exact .cons a ih
    · exact ih

theorem DictR.zip (names : List Str) {vs vs' : List Val} (h : ValsR fl ρ vs vs') :
    DictR fl ρ (names.zip vs) (names.zip vs') := by
  induction h generalizing names with
  | nil => simp only [List.zip_nil_right]; exact .nil
  | cons a h ih =>
    cases names with
    | nil => exact .nil
    | cons n ns => exact .cons ⟨rfl, a⟩ (ih ns)

end Kajiki.Spec.Share
