import Verif.Lemmas.XmlCompile
import Verif.Lemmas.Woven
import Verif.Props.Codegen
import Verif.Lemmas.Methods
import Verif.Lemmas.Dict

/-!
# Which expressions of a document are shown as they are: proof of C78
-/

namespace Kajiki.WovenXml
open Kajiki.Run Kajiki.Spec Kajiki.Spec.Woven Kajiki.Spec.Code Kajiki.XmlComp
open Kajiki.Spec.DocSem (Template SourceFile attr)

/-! ## Statements -/

mutual
/-- Expressions of a statement that are shown as they are. -/
def unescaped (a : Bool) : Stmt → List Str
  | .yieldCode e => if a then [] else [e]
  | .attrS _ _ els => unescapedAll a els
  | .attrsS _ _ els => unescapedAll a els
  | .fdef _ b => unescapedAll false b
  | .collect b => unescapedAll true b
  | .forS _ b els => unescapedAll a b ++ unescapedAll a els
  | .ifS _ b els => unescapedAll a b ++ unescapedAll a els
  | _ => []

def unescapedAll (a : Bool) : List Stmt → List Str
  | [] => []
  | x :: xs => unescaped a x ++ unescapedAll a xs
end

mutual
/-- Expressions of `py:attrs` of a statement. -/
def mappings : Stmt → List Str
  | .attrS _ _ els => mappingsAll els
  | .attrsS e _ els => e :: mappingsAll els
  | .fdef _ b => mappingsAll b
  | .collect b => mappingsAll b
  | .forS _ b els => mappingsAll b ++ mappingsAll els
  | .ifS _ b els => mappingsAll b ++ mappingsAll els
  | _ => []

def mappingsAll : List Stmt → List Str
  | [] => []
  | x :: xs => mappings x ++ mappingsAll xs
end

mutual
theorem unescaped_of_item (a : Bool) (e : Str) (x : Stmt) (h : .raw e ∈ items a x) : e ∈ unescaped a x := by
  cases x with
  | yieldCode c => cases a <;> simp_all [items, unescaped]
  | attrS n m els => simp only [items, List.mem_cons, reduceCtorEq, false_or] at h; exact unescaped_of_items a e els h
  | attrsS n m els => simp only [items, List.mem_cons, reduceCtorEq, false_or] at h; exact unescaped_of_items a e els h
  | fdef d b => simp only [items, List.mem_cons, reduceCtorEq, false_or] at h; exact unescaped_of_items false e b h
  | collect b => simp only [items] at h; exact unescaped_of_items true e b h
  | forS d b els =>
    simp only [items, List.mem_cons, reduceCtorEq, false_or, List.mem_append] at h
    exact List.mem_append.2 (h.imp (unescaped_of_items a e b) (unescaped_of_items a e els))
  | ifS d b els =>
    simp only [items, List.mem_append] at h
    exact List.mem_append.2 (h.imp (unescaped_of_items a e b) (unescaped_of_items a e els))
  | _ => simp [items] at h

theorem unescaped_of_items (a : Bool) (e : Str) (xs : List Stmt) (h : .raw e ∈ itemsAll a xs) : e ∈ unescapedAll a xs := by
  cases xs with
  | nil => simp [itemsAll] at h
  | cons x xs =>
    simp only [itemsAll, List.mem_append] at h
    exact List.mem_append.2 (h.imp (unescaped_of_item a e x) (unescaped_of_items a e xs))
end

mutual
theorem mappings_of_item (a : Bool) (e : Str) (x : Stmt) (h : .mapping e ∈ items a x) : e ∈ mappings x := by
  cases x with
  | yieldCode c => cases a <;> simp_all [items]
  | attrS n m els => simp only [items, List.mem_cons, reduceCtorEq, false_or] at h; exact mappings_of_items a e els h
  | attrsS n m els =>
    simp only [items, List.mem_cons, Item.mapping.injEq] at h
    exact List.mem_cons.2 (h.imp id (mappings_of_items a e els))
  | fdef d b => simp only [items, List.mem_cons, reduceCtorEq, false_or] at h; exact mappings_of_items false e b h
  | collect b => simp only [items] at h; exact mappings_of_items true e b h
  | forS d b els =>
    simp only [items, List.mem_cons, reduceCtorEq, false_or, List.mem_append] at h
    exact List.mem_append.2 (h.imp (mappings_of_items a e b) (mappings_of_items a e els))
  | ifS d b els =>
    simp only [items, List.mem_append] at h
    exact List.mem_append.2 (h.imp (mappings_of_items a e b) (mappings_of_items a e els))
  | _ => simp [items] at h

theorem mappings_of_items (a : Bool) (e : Str) (xs : List Stmt) (h : .mapping e ∈ itemsAll a xs) : e ∈ mappingsAll xs := by
  cases xs with
  | nil => simp [itemsAll] at h
  | cons x xs =>
    simp only [itemsAll, List.mem_append] at h
    exact List.mem_append.2 (h.imp (mappings_of_item a e x) (mappings_of_items a e xs))
end

/-! ## Trees -/

mutual
/-- Expressions of a tree that are shown as they are. -/
def raw (a : Bool) : Ir → List Str
  | .expr c safe _ => if safe && !a then [c] else []
  | .attr _ _ _ v _ => rawAll true v
  | .innerDef _ b _ => rawAll false b
  | .call _ c b _ => (if a then [] else [c]) ++ rawAll false b
  | .forN _ b _ => rawAll a b
  | .withN _ b _ => rawAll a b
  | .switchN _ b _ => rawAll a b
  | .caseN _ b _ => rawAll a b
  | .ifN _ b _ => rawAll a b
  | .elseN b _ => rawAll a b
  | _ => []

def rawAll (a : Bool) : List Ir → List Str
  | [] => []
  | x :: xs => raw a x ++ rawAll a xs
end

mutual
/-- Expressions of `py:attrs` of a tree. -/
def maps : Ir → List Str
  | .attrs c _ _ _ => [c]
  | .attr _ _ _ v _ => mapsAll v
  | .innerDef _ b _ => mapsAll b
  | .call _ _ b _ => mapsAll b
  | .forN _ b _ => mapsAll b
  | .withN _ b _ => mapsAll b
  | .switchN _ b _ => mapsAll b
  | .caseN _ b _ => mapsAll b
  | .ifN _ b _ => mapsAll b
  | .elseN b _ => mapsAll b
  | _ => []

def mapsAll : List Ir → List Str
  | [] => []
  | x :: xs => maps x ++ mapsAll xs
end

theorem rawAll_append (a : Bool) (xs ys : List Ir) : rawAll a (xs ++ ys) = rawAll a xs ++ rawAll a ys := by
  induction xs with
  | nil => rfl
  | cons x xs ih => simp [rawAll, ih]

theorem mapsAll_append (xs ys : List Ir) : mapsAll (xs ++ ys) = mapsAll xs ++ mapsAll ys := by
  induction xs with
  | nil => rfl
  | cons x xs ih => simp [mapsAll, ih]

theorem unescapedAll_append (a : Bool) (xs ys : List Stmt) :
    unescapedAll a (xs ++ ys) = unescapedAll a xs ++ unescapedAll a ys := by
  induction xs with
  | nil => rfl
  | cons x xs ih => simp [unescapedAll, ih]

theorem mappingsAll_append (xs ys : List Stmt) : mappingsAll (xs ++ ys) = mappingsAll xs ++ mappingsAll ys := by
  induction xs with
  | nil => rfl
  | cons x xs ih => simp [mappingsAll, ih]

theorem consMerge_raw (a : Bool) (x : Ir) (xs : List Ir) : rawAll a (consMerge x xs) = raw a x ++ rawAll a xs := by
  unfold consMerge
  split
  · split <;> simp [rawAll, raw]
  · rfl

theorem consMerge_maps (x : Ir) (xs : List Ir) : mapsAll (consMerge x xs) = maps x ++ mapsAll xs := by
  unfold consMerge
  split
  · split <;> simp [mapsAll, maps]
  · rfl

mutual
theorem merged_raw (a : Bool) (x : Ir) : raw a (merged x) = raw a x := by
  cases x <;> simp only [merged, raw, mergedList_raw]

theorem mergedList_raw (a : Bool) (xs : List Ir) : rawAll a (mergedList xs) = rawAll a xs := by
  cases xs with
  | nil => rfl
  | cons x xs => simp only [mergedList, consMerge_raw, rawAll, merged_raw a x, mergedList_raw a xs]
end

mutual
theorem merged_maps (x : Ir) : maps (merged x) = maps x := by
  cases x <;> simp only [merged, maps, mergedList_maps]

theorem mergedList_maps (xs : List Ir) : mapsAll (mergedList xs) = mapsAll xs := by
  cases xs with
  | nil => rfl
  | cons x xs => simp only [mergedList, consMerge_maps, mapsAll, merged_maps x, mergedList_maps xs]
end

theorem assigns_raw (a : Bool) (vs : List (Str × Str)) :
    unescapedAll a (vs.map fun kv => Stmt.assign kv.1 kv.2) = [] := by
  induction vs with
  | nil => rfl
  | cons v vs ih => simp [unescapedAll, unescaped, ih]

theorem assigns_maps (vs : List (Str × Str)) : mappingsAll (vs.map fun kv => Stmt.assign kv.1 kv.2) = [] := by
  induction vs with
  | nil => rfl
  | cons v vs ih => simp [mappingsAll, mappings, ih]

mutual
theorem codeOne_raw (a : Bool) (els : List Stmt) (x : Ir) :
    ∀ t ∈ unescapedAll a (codeOne els x), t ∈ raw a x ∨ t ∈ unescapedAll a els := by
  intro t ht
  cases x with
  | text s g l => simp only [codeOne] at ht; split at ht <;> simp_all [unescapedAll, unescaped]
  | trans s l => simp only [codeOne] at ht; split at ht <;> simp_all [unescapedAll, unescaped]
  | expr c safe l => cases safe <;> cases a <;> simp_all [codeOne, unescapedAll, unescaped, raw]
  | attr n m g v l =>
    have hv : ∀ t ∈ unescapedAll true (if v.isEmpty then [.yieldLit []] else code v), t ∈ rawAll true v := by
      intro t ht
      split at ht
      · simp [unescapedAll, unescaped] at ht
      · exact code_raw true v t ht
    simp only [codeOne] at ht
    split at ht
    · simp only [unescapedAll, unescaped, List.append_nil, List.mem_append] at ht
      exact ht.imp (hv t) id
    · simp only [unescapedAll, unescaped, List.append_nil, List.mem_append] at ht
      exact ht.imp (hv t) id
  | attrs c m g l => simp only [codeOne] at ht; split at ht <;> simp_all [unescapedAll, unescaped]
  | python ls l => simp only [codeOne] at ht; split at ht <;> simp_all [unescapedAll, unescaped]
  | imp n al l => simp [codeOne, unescapedAll, unescaped] at ht
  | incl n l => simp [codeOne, unescapedAll, unescaped] at ht
  | ext n l => simp [codeOne, unescapedAll, unescaped] at ht
  | innerDef d b l =>
    simp only [codeOne, unescapedAll, unescaped, List.append_nil] at ht
    split at ht
    · simp [unescapedAll, unescaped] at ht
    · exact .inl (code_raw false b t ht)
  | call d c b l =>
    simp only [codeOne, unescapedAll, unescaped, List.append_nil, List.mem_append] at ht
    simp only [raw, List.mem_append]
    exact .inl (ht.symm.imp id (code_raw false b t))
  | forN d b l =>
    simp only [codeOne, unescapedAll, unescaped, List.append_nil, List.mem_append] at ht
    exact ht.imp (code_raw a b t) id
  | withN vs b l =>
    simp only [codeOne, List.cons_append, unescapedAll, unescapedAll_append, unescaped, assigns_raw, List.append_nil,
      List.nil_append] at ht
    exact .inl (code_raw a b t ht)
  | switchN e b l =>
    simp only [codeOne, unescapedAll, unescapedAll_append, unescaped, List.append_nil, List.nil_append,
      List.mem_append] at ht
    exact .inl (ht.elim (elsePart_raw a b t) (code_raw a b t))
  | caseN e b l => simp [codeOne, unescapedAll] at ht
  | ifN e b l =>
    simp only [codeOne, unescapedAll, unescaped, List.append_nil, List.mem_append] at ht
    exact ht.imp (code_raw a b t) id
  | elseN b l => simp [codeOne, unescapedAll] at ht
  | pass l => simp [codeOne, unescapedAll, unescaped] at ht

theorem code_raw (a : Bool) (xs : List Ir) : ∀ t ∈ unescapedAll a (code xs), t ∈ rawAll a xs := by
  intro t ht
  cases xs with
  | nil => exact ht
  | cons x xs =>
    simp only [code, unescapedAll_append, List.mem_append] at ht
    simp only [rawAll, List.mem_append]
    rcases ht with ht | ht
    · exact (codeOne_raw a _ x t ht).imp id (elsePart_raw a xs t)
    · exact .inr (code_raw a xs t ht)

theorem elsePart_raw (a : Bool) (xs : List Ir) : ∀ t ∈ unescapedAll a (elsePart xs), t ∈ rawAll a xs := by
  intro t ht
  cases xs with
  | nil => exact ht
  | cons x xs =>
    simp only [rawAll, List.mem_append]
    cases x with
    | caseN e b l =>
      simp only [elsePart, unescapedAll, unescaped, List.append_nil, List.mem_append] at ht
      exact ht.imp (code_raw a b t) (elsePart_raw a xs t)
    | elseN b l => exact .inl (code_raw a b t ht)
    | python ls l =>
      cases ls with
      | nil => exact .inr (elsePart_raw a xs t ht)
      | cons => simp [elsePart, unescapedAll] at ht
    | _ => simp [elsePart, unescapedAll] at ht
end

mutual
theorem codeOne_maps (els : List Stmt) (x : Ir) :
    ∀ t ∈ mappingsAll (codeOne els x), t ∈ maps x ∨ t ∈ mappingsAll els := by
  intro t ht
  cases x with
  | text s g l => simp only [codeOne] at ht; split at ht <;> simp_all [mappingsAll, mappings]
  | trans s l => simp only [codeOne] at ht; split at ht <;> simp_all [mappingsAll, mappings]
  | expr c safe l => cases safe <;> simp_all [codeOne, mappingsAll, mappings]
  | attr n m g v l =>
    have hv : ∀ t ∈ mappingsAll (if v.isEmpty then [.yieldLit []] else code v), t ∈ mapsAll v := by
      intro t ht
      split at ht
      · simp [mappingsAll, mappings] at ht
      · exact code_maps v t ht
    simp only [codeOne] at ht
    split at ht
    · simp only [mappingsAll, mappings, List.append_nil, List.mem_append] at ht
      exact ht.imp (hv t) id
    · simp only [mappingsAll, mappings, List.append_nil, List.mem_append] at ht
      exact ht.imp (hv t) id
  | attrs c m g l => simp only [codeOne] at ht; split at ht <;> simp_all [mappingsAll, mappings, maps]
  | python ls l => simp only [codeOne] at ht; split at ht <;> simp_all [mappingsAll, mappings]
  | imp n al l => simp [codeOne, mappingsAll, mappings] at ht
  | incl n l => simp [codeOne, mappingsAll, mappings] at ht
  | ext n l => simp [codeOne, mappingsAll, mappings] at ht
  | innerDef d b l =>
    simp only [codeOne, mappingsAll, mappings, List.append_nil] at ht
    split at ht
    · simp [mappingsAll, mappings] at ht
    · exact .inl (code_maps b t ht)
  | call d c b l =>
    simp only [codeOne, mappingsAll, mappings, List.append_nil] at ht
    exact .inl (code_maps b t ht)
  | forN d b l =>
    simp only [codeOne, mappingsAll, mappings, List.append_nil, List.mem_append] at ht
    exact ht.imp (code_maps b t) id
  | withN vs b l =>
    simp only [codeOne, List.cons_append, mappingsAll, mappingsAll_append, mappings, assigns_maps, List.append_nil,
      List.nil_append] at ht
    exact .inl (code_maps b t ht)
  | switchN e b l =>
    simp only [codeOne, mappingsAll, mappingsAll_append, mappings, List.append_nil, List.nil_append,
      List.mem_append] at ht
    exact .inl (ht.elim (elsePart_maps b t) (code_maps b t))
  | caseN e b l => simp [codeOne, mappingsAll] at ht
  | ifN e b l =>
    simp only [codeOne, mappingsAll, mappings, List.append_nil, List.mem_append] at ht
    exact ht.imp (code_maps b t) id
  | elseN b l => simp [codeOne, mappingsAll] at ht
  | pass l => simp [codeOne, mappingsAll, mappings] at ht

theorem code_maps (xs : List Ir) : ∀ t ∈ mappingsAll (code xs), t ∈ mapsAll xs := by
  intro t ht
  cases xs with
  | nil => exact ht
  | cons x xs =>
    simp only [code, mappingsAll_append, List.mem_append] at ht
    simp only [mapsAll, List.mem_append]
    rcases ht with ht | ht
    · exact (codeOne_maps _ x t ht).imp id (elsePart_maps xs t)
    · exact .inr (code_maps xs t ht)

theorem elsePart_maps (xs : List Ir) : ∀ t ∈ mappingsAll (elsePart xs), t ∈ mapsAll xs := by
  intro t ht
  cases xs with
  | nil => exact ht
  | cons x xs =>
    simp only [mapsAll, List.mem_append]
    cases x with
    | caseN e b l =>
      simp only [elsePart, mappingsAll, mappings, List.append_nil, List.mem_append] at ht
      exact ht.imp (code_maps b t) (elsePart_maps xs t)
    | elseN b l => exact .inl (code_maps b t ht)
    | python ls l =>
      cases ls with
      | nil => exact .inr (elsePart_maps xs t ht)
      | cons => simp [elsePart, mappingsAll] at ht
    | _ => simp [elsePart, mappingsAll] at ht
end

/-! ## Compiling documents -/

/-- All expressions shown as they are satisfy `A`, those of `py:attrs` satisfy `B`. -/
structure Only (A B : Str → Prop) (xs : List Ir) : Prop where
  raw : ∀ t ∈ rawAll false xs, A t
  maps : ∀ t ∈ mapsAll xs, B t

variable {A B : Str → Prop} {α : Type}

/-- The same for the registered functions. -/
def OnlyS (A B : Str → Prop) (s : CState) : Prop := ∀ f ∈ s.funs, Only A B f.2

/-- The compilation makes only such nodes. -/
def MakesO (A B : Str → Prop) (m : CM (List Ir)) : Prop :=
  ∀ s, OnlyS A B s → ∀ xs t, m s = .ok (xs, t) → OnlyS A B t ∧ Only A B xs

theorem Only.nil : Only A B [] := ⟨nofun, nofun⟩

theorem Only.append {xs ys : List Ir} (h : Only A B xs) (h2 : Only A B ys) : Only A B (xs ++ ys) :=
  ⟨fun t ht => by rw [rawAll_append, List.mem_append] at ht; exact ht.elim (h.raw t) (h2.raw t),
   fun t ht => by rw [mapsAll_append, List.mem_append] at ht; exact ht.elim (h.maps t) (h2.maps t)⟩

theorem Only.cons {x : Ir} {xs : List Ir} (h : Only A B [x]) (h2 : Only A B xs) : Only A B (x :: xs) := h.append h2

theorem Only.head {x : Ir} {xs : List Ir} (h : Only A B (x :: xs)) : Only A B [x] :=
  ⟨fun t ht => h.raw t (by simp only [rawAll, List.append_nil] at ht ⊢; exact List.mem_append_left _ ht),
   fun t ht => h.maps t (by simp only [mapsAll, List.append_nil] at ht ⊢; exact List.mem_append_left _ ht)⟩

theorem Only.tail {x : Ir} {xs : List Ir} (h : Only A B (x :: xs)) : Only A B xs :=
  ⟨fun t ht => h.raw t (by simp only [rawAll]; exact List.mem_append_right _ ht),
   fun t ht => h.maps t (by simp only [mapsAll]; exact List.mem_append_right _ ht)⟩

theorem Only.of {xs : List Ir} (h : ∀ x ∈ xs, Only A B [x]) : Only A B xs := by
  induction xs with
  | nil => exact .nil
  | cons x xs ih => exact (h x (.head _)).cons (ih fun y hy => h y (.tail _ hy))

theorem Only.mem {xs : List Ir} (h : Only A B xs) {x : Ir} (hx : x ∈ xs) : Only A B [x] := by
  induction xs with
  | nil => cases hx
  | cons y xs ih =>
    rcases List.mem_cons.1 hx with rfl | hx
    · exact h.head
    · exact ih h.tail hx

theorem Only.sub {xs ys : List Ir} (h : Only A B xs) (hs : ∀ y ∈ ys, y ∈ xs) : Only A B ys :=
  .of fun y hy => h.mem (hs y hy)

/-- A node without any. -/
theorem Only.none {y : Ir} (hr : Kajiki.WovenXml.raw false y = []) (hm : Kajiki.WovenXml.maps y = []) : Only A B [y] :=
  ⟨fun t ht => by simp [rawAll, hr] at ht, fun t ht => by simp [mapsAll, hm] at ht⟩

/-- One node with a body. -/
theorem Only.wrap {xs : List Ir} {y : Ir} (hr : Kajiki.WovenXml.raw false y = rawAll false xs)
    (hm : Kajiki.WovenXml.maps y = mapsAll xs) (h : Only A B xs) : Only A B [y] :=
  ⟨fun t ht => h.raw t (by simpa [rawAll, hr] using ht), fun t ht => h.maps t (by simpa [mapsAll, hm] using ht)⟩

theorem raw_anno (l : Nat) (x : Ir) : raw false (anno l x) = raw false x := by
  unfold anno
  split
  · cases x <;> rfl
  · rfl

theorem maps_anno (l : Nat) (x : Ir) : maps (anno l x) = maps x := by
  unfold anno
  split
  · cases x <;> rfl
  · rfl

theorem Only.anno {xs : List Ir} (l : Nat) (h : Only A B xs) : Only A B (xs.map (anno l)) := by
  refine .of fun y hy => ?_
  obtain ⟨x, hx, rfl⟩ := List.mem_map.1 hy
  have := h.mem hx
  exact ⟨fun t ht => this.raw t (by simpa [rawAll, raw_anno] using ht),
    fun t ht => this.maps t (by simpa [mapsAll, maps_anno] using ht)⟩

/-- Texts and escaped expressions. -/
def isSafe : Ir → Bool
  | .text _ _ _ => true
  | .trans _ _ => true
  | .expr _ s _ => !s
  | _ => false

theorem Only.safe {xs : List Ir} (h : ∀ x ∈ xs, isSafe x = true) : Only A B xs := by
  refine .of fun x hx => ?_
  have := h x hx
  cases x with
  | text => exact .none rfl rfl
  | trans => exact .none rfl rfl
  | expr c safe l =>
    cases safe
    · exact .none rfl rfl
    · cases this
  | _ => cases this

theorem MakesO.pure {xs : List Ir} (h : Only A B xs) : MakesO A B (CM.pure xs) := by
  intro s hs ys t he
  rw [pure_ok] at he
  cases he
  exact ⟨hs, h⟩

theorem MakesO.throw (e : Err) : MakesO A B (CM.throw e) := by intro s hs ys t he; cases he

theorem MakesO.bind {m : CM (List Ir)} {f : List Ir → CM (List Ir)} (h : MakesO A B m)
    (hf : ∀ xs, Only A B xs → MakesO A B (f xs)) : MakesO A B (CM.bind m f) := by
  intro s hs ys t he
  obtain ⟨xs, s1, h1, h2⟩ := bind_ok.1 he
  obtain ⟨g1, g2⟩ := h s hs xs s1 h1
  exact hf xs g2 s1 g1 ys t h2

theorem MakesO.lift {x : Except Err α} {f : α → CM (List Ir)} (h : ∀ a, x = .ok a → MakesO A B (f a)) :
    MakesO A B (CM.bind (CM.lift x) f) := by
  intro s hs ys t he
  obtain ⟨a, s1, h1, h2⟩ := bind_ok.1 he
  obtain ⟨h3, h4⟩ := lift_ok.1 h1
  simp only at h3 h4
  subst h4
  exact h a h3 s1 hs ys t h2

theorem MakesO.get {f : CState → CM (List Ir)} (h : ∀ s, MakesO A B (f s)) : MakesO A B (CM.bind CM.get f) := by
  intro s hs ys t he
  exact h s s hs ys t he

theorem MakesO.modify {g : CState → CState} {f : Unit → CM (List Ir)} (hg : ∀ s, OnlyS A B s → OnlyS A B (g s))
    (h : MakesO A B (f ())) : MakesO A B (CM.bind (CM.modify g) f) := by
  intro s hs ys t he
  exact h (g s) (hg s hs) ys t he

theorem MakesO.annotate {m : CM (List Ir)} (l : Nat) (h : MakesO A B m) : MakesO A B (annotate l m) :=
  MakesO.bind h fun _ hx => .pure (hx.anno l)

theorem OnlyS.set {s : CState} (h : OnlyS A B s) (k : Str) {b : List Ir} (hb : Only A B b) :
    OnlyS A B { s with funs := s.funs.set k b } := by
  intro f hf
  rcases Dict.mem_set hf with rfl | h1
  · exact hb
  · exact h f h1

theorem MakesO.finishBlock (name : Str) {b : List Ir} (hb : Only A B b) : MakesO A B (finishBlock name b) := by
  unfold Kajiki.finishBlock
  have hb' : Only A B (if b.isEmpty then [.pass 0] else b) := by
    split
    · exact .none rfl rfl
    · exact hb
  refine .modify (fun s hs => hs.set _ hb') (.get fun s => ?_)
  split
  · exact .lift fun p _ => .modify (fun s hs => hs.set _ (.cons (.none rfl rfl) hb')) (.pure .nil)
  · exact .pure (.none rfl rfl)

theorem MakesO.compileDef (decl : Str) {m : CM (List Ir)} (h : MakesO A B m) :
    MakesO A B (compileDef decl m) := by
  unfold Kajiki.compileDef
  refine .get fun s => .modify (fun s hs => hs) (.bind h fun b hb => .modify (fun s hs => hs) ?_)
  split
  · exact .pure (.wrap rfl rfl hb)
  · exact .modify (fun s hs => hs.set _ hb) (.pure .nil)

theorem MakesO.compileCall (env : CEnv) (f : Str) (kids : List DNode) {m : CM (List Ir)} (h : MakesO A B m)
    (hf : ∀ k, A (callCode env.gen k f)) : MakesO A B (compileCall env f kids m) := by
  unfold Kajiki.compileCall
  refine .lift fun d _ => .bind h fun b hb => .get fun s => .modify (fun s hs => hs) (.pure ⟨fun t ht => ?_, fun t ht => ?_⟩)
  · simp only [rawAll, raw, List.append_nil, Bool.false_eq_true, if_false, List.singleton_append, List.mem_cons] at ht
    rcases ht with rfl | ht
    · exact hf _
    · exact hb.raw t ht
  · exact hb.maps t (by simpa only [mapsAll, maps, List.append_nil] using ht)

theorem MakesO.compileKind (env : CEnv) (ctx : Ctx) (attrs : Dict Str) (kids : List DNode)
    {m : CM (List Ir)} (h : MakesO A B m) (k : Kind)
    (hf : k = .call → ∀ i, A (callCode env.gen i (getAttr attrs "function".toList))) :
    MakesO A B (compileKind env ctx attrs kids m k) := by
  cases k with
  | replace => exact .pure (.none rfl rfl)
  | imp => exact .pure (.none rfl rfl)
  | ext =>
    exact .modify (f := fun _ => CM.bind m fun b => CM.pure (.ext (getAttr attrs "href".toList) 0 :: b))
      (fun s hs => hs) (.bind h fun b hb => .pure (.cons (.none rfl rfl) hb))
  | incl => exact .pure (.none rfl rfl)
  | block => exact .bind h fun b hb => .finishBlock _ hb
  | defn => exact .compileDef _ h
  | call => exact .compileCall _ _ _ h (hf rfl)
  | forK => exact .bind h fun b hb => .pure (.wrap rfl rfl hb)
  | withK => exact .bind h fun b hb => .lift fun vs _ => .pure (.wrap rfl rfl hb)
  | switchK =>
    exact .bind h fun b hb => .lift fun b' hb' => .pure (.wrap rfl rfl (hb.sub (switchBody_sub hb')))
  | caseK => exact .bind h fun b hb => .pure (.wrap rfl rfl hb)
  | ifK => exact .bind h fun b hb => .pure (.wrap rfl rfl hb)
  | elseK => exact .lift fun _ _ => .bind h fun b hb => .pure (.wrap rfl rfl hb)
  | nop => exact h
  | xml => exact .pure .nil
  | broken => exact .throw _
  | endless => exact .throw _

theorem TextPart.safe {m : TextMode} {src : Str} {x : Ir} (h : TextPart m src x) (hm : m.safe = false) : isSafe x = true := by
  cases h with
  | text t l ht => unfold textNode; split <;> rfl
  | expr t l => simp [exprNode, isSafe, hm]

/-- In an attribute nothing is shown as it is. -/
theorem attr_raw {py : PyCompile} {m : TextMode} {src : Str} {ln : Nat} {xs : List Ir}
    (h : compileTextSrc py m src ln = .ok xs) : rawAll true xs = [] ∧ mapsAll xs = [] := by
  have := textSrc_parts h
  clear h
  induction xs with
  | nil => exact ⟨rfl, rfl⟩
  | cons x xs ih =>
    obtain ⟨h1, h2⟩ := ih fun y hy => this y (.tail _ hy)
    simp only [rawAll, mapsAll, h1, h2, List.append_nil]
    cases this x (.head _) with
    | text t l ht => unfold textNode; split <;> exact ⟨rfl, rfl⟩
    | expr t l => exact ⟨by simp [exprNode, raw], rfl⟩

theorem compileAttrs_only {env : CEnv} {g : Option Str} {ln : Nat} {as : List (Str × Str)} {xs : List Ir}
    (h : compileAttrs env g ln as = .ok xs) : Only A B xs := by
  induction as generalizing xs with
  | nil => simp only [compileAttrs, Except.ok.injEq] at h; subst h; exact .nil
  | cons kv as ih =>
    obtain ⟨k, v⟩ := kv
    simp only [compileAttrs] at h
    split at h
    · cases h
    · next vs hv =>
      obtain ⟨ys, hy, rfl⟩ := prepend_ok.1 h
      refine .append ?_ (ih hy)
      split
      · exact .nil
      · exact .none (by simp only [raw, (attr_raw hv).1]) (by simp only [maps, (attr_raw hv).2])

theorem MakesO.compileXml (env : CEnv) (tag : Str) (attrs : Dict Str) (ln : Nat) (e : Bool)
    {m : CM (List Ir)} (h : MakesO A B m) (hB : getAttr attrs "py:attrs".toList ≠ [] → B (getAttr attrs "py:attrs".toList)) :
    MakesO A B (compileXml env tag attrs ln e m) := by
  unfold Kajiki.compileXml
  have hb : MakesO A B (compileBody env tag attrs (stripGuard attrs) e m) := by
    unfold compileBody
    simp only
    split
    · split
      · exact .pure (.none rfl rfl)
      · refine .bind h fun ks hk => .pure (.append (xs := .text _ _ 0 :: ks) (.cons (.none rfl rfl) hk) ?_)
        unfold fullEnd
        split
        · exact .nil
        · exact .none rfl rfl
    · exact .pure (.safe (by simp [isSafe]))
  refine .lift fun as has => .bind hb fun ks hk => .pure ?_
  refine .append (xs := .text _ _ 0 :: as ++ attrsNode env _ attrs) (.append
    (.cons (.none rfl rfl) (compileAttrs_only has)) ?_) hk
  unfold attrsNode
  simp only
  split
  · exact .nil
  · next he => exact ⟨by simp [rawAll, raw], by simpa [mapsAll, maps] using hB fun h => he (List.isEmpty_iff.2 h)⟩

theorem MakesO.compileText (env : CEnv) (parent : Option Str) (d : Str) (l : Nat) :
    MakesO A B (compileText env parent d l) := by
  unfold Kajiki.compileText
  cases parent with
  | none => exact .throw _
  | some p =>
    intro s hs xs t he
    obtain ⟨ys, h1, rfl⟩ := annotate_ok.1 he
    obtain ⟨h2, h3⟩ := lift_ok.1 h1
    simp only at h2 h3 ⊢
    subst h3
    exact ⟨hs, Only.anno l (.safe fun x hx => TextPart.safe (textSrc_parts h2 x hx) rfl)⟩

theorem unescapeNode_safe {x y : Ir} (h : unescapeNode x = .ok y) (hx : isSafe x = true) (hp : isPlain x = true) :
    isSafe y = true := by
  cases x with
  | text t g l =>
    simp only [unescapeNode] at h
    cases hu : unescape t <;> rw [hu] at h <;> cases h; rfl
  | expr t g l =>
    simp only [unescapeNode] at h
    cases hu : unescape t <;> rw [hu] at h <;> cases h; first | rfl | exact hx
  | _ => cases hp

theorem safe_anno (l : Nat) {x : Ir} (h : isSafe x = true) : isSafe (anno l x) = true := by
  unfold anno
  split
  · cases x <;> first | rfl | exact h
  · exact h

theorem unescapeNodes_safe {xs ys : List Ir} (h : unescapeNodes xs = .ok ys)
    (hx : ∀ x ∈ xs, isPlain x = true ∧ isSafe x = true) : ∀ y ∈ ys, isSafe y = true := by
  have := unescapeNodes_ok h
  clear h
  induction this with
  | nil => simp
  | cons h _ ih =>
    intro z hz
    rcases List.mem_cons.1 hz with rfl | hz
    · exact unescapeNode_safe h (hx _ List.mem_cons_self).2 (hx _ List.mem_cons_self).1
    · exact ih (fun x h => hx x (List.mem_cons_of_mem _ h)) z hz

theorem MakesO.compileScript (env : CEnv) (tag : Str) (ht : cdataTags.contains tag = true)
    (kids : List DNode) : MakesO A B (compileScript env tag kids) := by
  induction kids with
  | nil => exact .pure .nil
  | cons k kids ih =>
    cases k with
    | cdata d l => exact ih
    | text d e l =>
      intro s hs xs t he
      simp only [Kajiki.compileScript] at he
      obtain ⟨ys, s1, h1, h2⟩ := bind_ok.1 he
      obtain ⟨y2, s2, h3, h4⟩ := bind_ok.1 h2
      obtain ⟨h5, h6⟩ := lift_ok.1 h3
      obtain ⟨zs, s3, h7, h8⟩ := bind_ok.1 h4
      simp only at h5 h6
      subst h6
      obtain ⟨w, h9, h10⟩ := annotate_ok.1 h1
      obtain ⟨h11, h12⟩ := lift_ok.1 h9
      simp only at h10 h11 h12
      subst h12
      have hp : ∀ x ∈ w, isPlain x = true ∧ isSafe x = true := fun x hx =>
        ⟨textSrc_isPlain h11 (by show (!cdataTags.contains tag) = false; rw [ht]; rfl) x hx,
          TextPart.safe (textSrc_parts h11 x hx) rfl⟩
      have hp2 : ∀ x ∈ ys, isPlain x = true ∧ isSafe x = true := by
        subst h10
        intro x hx
        obtain ⟨y, hy, rfl⟩ := List.mem_map.1 hx
        exact ⟨isPlain_anno l (hp y hy).1, safe_anno l (hp y hy).2⟩
      have hp3 : ∀ x ∈ y2, isSafe x = true := by
        split at h5
        · exact unescapeNodes_safe h5 hp2
        · cases h5; exact fun x hx => (hp2 x hx).2
      cases (pure_ok.1 h8)
      obtain ⟨g1, g2⟩ := ih _ hs _ _ h7
      exact ⟨g1, .append (.safe hp3) g2⟩
    | _ => exact .throw _

theorem MakesO.scriptKids (env : CEnv) (tag : Str) (ht : cdataTags.contains tag = true)
    (kids : List DNode) : MakesO A B (scriptKids env tag kids) := by
  refine .bind (.compileScript env tag ht kids) fun ks hk => .pure (.append (.append ?_ hk) ?_)
  all_goals
    unfold scriptMark
    split
    · exact .none rfl rfl
    · exact .nil

theorem auto_get {env : CEnv} {tag : Str} {attrs : Dict Str} {r : Bool × Dict Str}
    (h : isAutoblock env tag attrs = .ok r) {k : Str} (hk : k ≠ "py:autoblock".toList) :
    getAttr r.2 k = getAttr attrs k := by
  unfold isAutoblock at h
  split at h
  · split at h
    · cases h; rfl
    · dsimp only at h
      split at h
      · cases h
        unfold getAttr
        rw [Dict.get_del, if_neg (Ne.symm hk)]
      · split at h
        · cases h; rfl
        · cases h
  · cases h; rfl

theorem only_call : ∀ p ∈ kinds, p.2 = .call → p.1 = "call".toList := by decide +kernel

theorem kindOf_call {tag : Str} (h : kindOf tag = .call) :
    ("py:".toList.isPrefixOf tag && "call".toList.isSuffixOf tag) = true := by
  unfold kindOf at h
  split at h
  · next hp =>
    rw [hp, Bool.true_and, List.isSuffixOf_iff_suffix]
    have hl : lastPart tag = "call".toList := by
      cases hg : kinds.get (lastPart tag) with
      | none => rw [hg] at h; cases h
      | some v =>
        rw [hg] at h
        cases (show v = .call from h)
        exact only_call _ (Dict.get_eq_some_mem hg) rfl
    rw [← hl]
    unfold lastPart
    rw [← List.reverse_prefix, List.reverse_reverse]
    exact List.takeWhile_prefix _
  · cases h

mutual
theorem node_only (env : CEnv) (ctx : Ctx) (x : DNode) (hA : ∀ f ∈ called x, ∀ k, A (callCode env.gen k f))
    (hB : ∀ e ∈ mapped x, B e) : MakesO A B (compileNode env ctx x) := by
  cases x with
  | comment d ln =>
    simp only [compileNode]
    refine .annotate ln (.pure ?_)
    unfold compileComment
    split
    · exact .nil
    · exact .none rfl rfl
  | text d e ln => simp only [compileNode]; exact .compileText env _ d ln
  | cdata d ln => simp only [compileNode]; exact .compileText env _ d ln
  | pi tg d ln =>
    simp only [compileNode]
    refine .annotate ln (.lift fun p _ => ?_)
    split
    · exact .modify (fun s hs => hs) (.pure .nil)
    · exact .pure (.none rfl rfl)
  | elem tag attrs ln kids =>
    simp only [compileNode]
    refine .lift fun auto hauto => ?_
    simp only [called, List.mem_append] at hA
    simp only [mapped, List.mem_append] at hB
    have hk : ∀ raw, MakesO A B (compileKids env raw (some tag) (auto.2.has "py:switch".toList) [] kids) :=
      fun raw => kids_only env raw (some tag) _ [] kids (fun f hf => hA f (.inr hf)) (fun e he => hB e (.inr he))
    split
    · exact .annotate ln (.bind (.annotate ln (hk false)) fun b hb => .finishBlock _ hb)
    · split
      · refine .annotate ln (.compileXml _ _ _ _ _ ?_ ?_)
        · split
          · next hs =>
            simp only [isScript, Bool.and_eq_true] at hs
            exact .scriptKids env tag hs.2 kids
          · exact hk true
        · rw [auto_get hauto (by decide)]
          intro hne
          refine hB _ (.inl ?_)
          rw [if_neg (show attr attrs "py:attrs" ≠ [] from hne)]
          exact .head _
      · refine .annotate ln (.compileKind _ _ _ _ (.annotate ln (hk false)) _ fun hc i => ?_)
        rw [auto_get hauto (by decide)]
        refine hA _ (.inl ?_) i
        rw [if_pos (kindOf_call hc)]
        exact .head _

theorem kids_only (env : CEnv) (raw : Bool) (parent : Option Str) (sw : Bool) (prev : Str) (xs : List DNode)
    (hA : ∀ f ∈ calledAll xs, ∀ k, A (callCode env.gen k f)) (hB : ∀ e ∈ mappedAll xs, B e) :
    MakesO A B (compileKids env raw parent sw prev xs) := by
  cases xs with
  | nil => simp only [compileKids]; exact .pure .nil
  | cons x xs =>
    simp only [calledAll, List.mem_append] at hA
    simp only [mappedAll, List.mem_append] at hB
    have h2 := fun pr => kids_only env raw parent sw pr xs (fun f hf => hA f (.inr hf)) (fun e he => hB e (.inr he))
    cases x with
    | cdata d ln =>
      simp only [compileKids]
      refine .bind ?_ fun ys hy => .bind (h2 _) fun zs hz => .pure (hy.append hz)
      split
      · exact .pure (.none rfl rfl)
      · exact .compileText env _ d ln
    | _ =>
      simp only [compileKids]
      exact .bind (node_only env _ _ (fun f hf => hA f (.inl hf)) (fun e he => hB e (.inl he))) fun ys hy =>
        .bind (h2 _) fun zs hz => .pure (hy.append hz)
end

theorem mem_calledAll {x : DNode} {xs : List DNode} (hx : x ∈ xs) : ∀ f ∈ called x, f ∈ calledAll xs := by
  intro f hf
  induction xs with
  | nil => cases hx
  | cons y xs ih =>
    simp only [calledAll, List.mem_append]
    rcases List.mem_cons.1 hx with rfl | hx
    · exact .inl hf
    · exact .inr (ih hx)

theorem mem_mappedAll {x : DNode} {xs : List DNode} (hx : x ∈ xs) : ∀ f ∈ mapped x, f ∈ mappedAll xs := by
  intro f hf
  induction xs with
  | nil => cases hx
  | cons y xs ih =>
    simp only [mappedAll, List.mem_append]
    rcases List.mem_cons.1 hx with rfl | hx
    · exact .inl hf
    · exact .inr (ih hx)

/-- The functions of a compiled document. -/
theorem doc_only {env : CEnv} {doc : Doc} {u : Tmpl} (h : compileDoc env doc = .ok u)
    (hA : ∀ f ∈ calledAll doc.kids, ∀ k, A (callCode env.gen k f)) (hB : ∀ e ∈ mappedAll doc.kids, B e) :
    ∀ d ∈ u.defs, Only A B d.body := by
  unfold compileDoc at h
  split at h
  · next root hroot =>
    have hmem : root ∈ doc.kids := List.mem_of_mem_filter (p := fun n => !isComment n)
      (by rw [hroot]; exact List.mem_cons_self ..)
    split at h
    · cases h
    · next body s hc =>
      cases h
      obtain ⟨h1, h2⟩ := node_only env _ root (fun f hf => hA f (mem_calledAll hmem f hf))
        (fun e he => hB e (mem_mappedAll hmem e he)) .start
        (fun f hf => by rw [List.mem_singleton.1 hf]; exact .nil) _ _ hc
      intro d hd
      obtain ⟨f, hf, rfl⟩ := List.mem_map.1 hd
      rcases Dict.mem_set hf with rfl | hf
      · dsimp only
        split
        · refine .append ?_ h2
          unfold doctypeNode
          split
          · exact .none rfl rfl
          · split
            · exact .none rfl rfl
            · exact .nil
        · exact h2
      · exact h1 f hf
  · cases h

/-- The statements of a compiled function. -/
theorem bodyCode_only {b : List Ir} (h : Only A B b) :
    (∀ t ∈ unescapedAll false (bodyCode (mergedList b)), A t) ∧ ∀ t ∈ mappingsAll (bodyCode (mergedList b)), B t := by
  unfold bodyCode
  split
  · exact ⟨nofun, nofun⟩
  · refine ⟨fun t ht => h.raw t ?_, fun t ht => h.maps t ?_⟩
    · rw [← mergedList_raw]; exact code_raw false _ t ht
    · rw [← mergedList_maps]; exact code_maps _ t ht

theorem fromIr_only {t : Tmpl} {base : Dict Val} {c : Cls (List Stmt)} (h : fromIr t base = some c)
    (hd : ∀ d ∈ t.defs, Only A B d.body) :
    ∀ m ∈ c.methods, (∀ t ∈ unescapedAll false m.2.2, A t) ∧ ∀ t ∈ mappingsAll m.2.2, B t := by
  unfold fromIr at h
  rw [Props.C11_block_structure] at h
  split at h
  · cases h
    intro m hm
    obtain ⟨d, hd', rfl⟩ := methodsOf_from hm
    simp only [codeTmpl, mergedTmpl, List.map_map, List.mem_map, Function.comp_apply] at hd'
    obtain ⟨d, hd', rfl⟩ := hd'
    exact bodyCode_only (hd d hd')
  · cases h

/-- The functions of compiled documents. -/
theorem compileAll_only {ts : List Template} {us : List (Tmpl × Dict Val)} {cs : List (Cls (List Stmt))}
    (hc : List.Forall₂ (fun t u => compileDoc t.conf t.doc = .ok u.1 ∧ u.2 = t.base) ts us)
    (h : compileAll us = some cs)
    (hA : ∀ t ∈ ts, ∀ f ∈ calledAll t.doc.kids, ∀ k, A (callCode t.conf.gen k f))
    (hB : ∀ t ∈ ts, ∀ e ∈ mappedAll t.doc.kids, B e) :
    ∀ c ∈ cs, ∀ m ∈ c.methods, (∀ t ∈ unescapedAll false m.2.2, A t) ∧ ∀ t ∈ mappingsAll m.2.2, B t := by
  induction hc generalizing cs with
  | nil => cases h; exact nofun
  | @cons t u ts us hu _ ih =>
    unfold compileAll at h
    split at h
    · next c cs' h1 h2 =>
      cases h
      intro d hd
      rcases List.mem_cons.1 hd with rfl | hd
      · exact fromIr_only h1 (doc_only hu.1 (hA t (.head _)) (hB t (.head _)))
      · exact ih h2 (fun t ht => hA t (.tail _ ht)) (fun t ht => hB t (.tail _ ht)) d hd
    · cases h

end Kajiki.WovenXml
