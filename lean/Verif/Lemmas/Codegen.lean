import Verif.Spec.Code
import Mathlib.Data.List.Chain

/-!
# Code generation and reading back

Auxiliary definitions (none of them mirrors code in the repository) and lemmas for C10 and C11.
-/

namespace Kajiki

/-! ## Blocks of a tree -/

/-- The body of the function collecting an attribute's value. -/
def orEmptyText (isEmpty : Bool) (value : List Block) : List Block :=
  if isEmpty then [.node (.yieldLit []) []] else value

/-- The blocks of an unguarded attribute. -/
def attrBlocks (name mode : Str) (value : List Block) : List Block :=
  [.node .attrDef value,
   .node .attrCollect [], .node (.attrFor name mode) [.node .yieldVar []]]

mutual
/-- The blocks one node stands for. -/
def blocks : Ir → List Block
  | .text t g _ => [.node (textLine t g) []]
  | .trans t _ =>
    if (strip t).isEmpty then [.node (.yieldLit t) []] else [.node (.yieldGettext t) []]
  | .expr c safe _ => [.node (if safe then .yieldCode c else .yieldEscape c) []]
  | .attr n m g v _ =>
    match activeGuard g with
    | some g => [.node (.ifLine g) (attrBlocks n m (orEmptyText v.isEmpty (blocksList v)))]
    | none => attrBlocks n m (orEmptyText v.isEmpty (blocksList v))
  | .attrs c m g _ =>
    match activeGuard g with
    | some g => [.node (.ifLine g) [.node (.attrsFor c m) [.node .yieldVar []]]]
    | none => [.node (.attrsFor c m) [.node .yieldVar []]]
  | .python [] _ => []
  | .python (l :: ls) _ => [.node (.pyChunk (l :: ls)) []]
  | .imp n a _ => [.node (.importStmt n a) []]
  | .incl n _ => [.node (.includeStmt n) []]
  | .ext n _ => [.node (.extendStmt n) []]
  | .innerDef d b _ =>
    [.node (.defLine false d) (orEmptyText b.isEmpty (blocksList b))]
  | .call d c b _ => [.node (.defLine false d) (blocksList b), .node (.yieldCode c) []]
  | .forN d b _ => [.node (.forLine d) (blocksList b)]
  | .withN vs b _ =>
    .node (.pushWith (vs.map (·.1))) [] :: (vs.map fun kv => .node (.assign kv.1 kv.2) []) ++
      (blocksList b ++ [.node (.popWith (vs.map (·.1))) []])
  | .switchN e b _ =>
    .node (.pushSwitch e) [] :: .node .ifFalse [] :: (blocksList b ++ [.node .popSwitch []])
  | .caseN e b _ => [.node (.elifCase e) (blocksList b)]
  | .ifN e b _ => [.node (.ifLine e) (blocksList b)]
  | .elseN b _ => [.node .elseLine (blocksList b)]
  | .pass _ => [.node (.yieldLit []) []]

/-- The blocks of a list of nodes. -/
def blocksList : List Ir → List Block
  | [] => []
  | x :: xs => blocks x ++ blocksList xs
end

/-! ## `optimize` as a right fold -/

/-- Put a stream element before a stream, merging texts. -/
def consTok : FTok → List FTok → List FTok
  | .text a g l, .text b g' l' :: xs =>
    if g = g' then .text (a ++ b) g l :: xs else .text a g l :: .text b g' l' :: xs
  | x, xs => x :: xs

/-- `optimize` from the right. -/
def optR (xs : List FTok) : List FTok := xs.foldr consTok []

theorem consTok_text_text (a b : Str) (g : Option Str) (l l' : Nat) (ys : List FTok) :
    consTok (.text a g l) (consTok (.text b g l') ys) = consTok (.text (a ++ b) g l) ys := by
  cases ys with
  | nil => simp [consTok]
  | cons y ys =>
    cases y with
    | text c g' l'' =>
      by_cases h : g = g' <;> simp [consTok, h]
    | _ => simp [consTok]

theorem consTok_ne (a b : Str) (g g' : Option Str) (l l' : Nat) (ys : List FTok) (h : g ≠ g') :
    consTok (.text a g l) (consTok (.text b g' l') ys) = .text a g l :: consTok (.text b g' l') ys := by
  cases ys with
  | nil => simp [consTok, h]
  | cons y ys =>
    cases y with
    | text c g'' l'' =>
      by_cases h' : g' = g'' <;> simp [consTok, h, h']
      intro h2; exact absurd (h2.trans h'.symm) h
    | _ => simp [consTok, h]

/-- Whether a stream element is a text. -/
def FTok.isText : FTok → Bool
  | .text .. => true
  | _ => false

theorem consTok_notText {x : FTok} (h : x.isText = false) (ys : List FTok) :
    consTok x ys = x :: ys := by
  cases x <;> simp_all [consTok, FTok.isText]

theorem consTok_before_notText (x y : FTok) (h : y.isText = false) (ys : List FTok) :
    consTok x (y :: ys) = x :: y :: ys := by
  cases x <;> cases y <;> simp_all [consTok, FTok.isText]

theorem optimizeAux_some (xs : List FTok) : ∀ y, optimizeAux (some y) xs = consTok y (optR xs) := by
  induction xs with
  | nil => intro y; cases y <;> simp [optimizeAux, optR, consTok]
  | cons x xs ih =>
    intro y
    have hR : optR (x :: xs) = consTok x (optR xs) := rfl
    cases x with
    | text b g' l' =>
      cases y with
      | text a g l =>
        rw [optimizeAux, hR]
        by_cases h : g = g'
        · subst h; rw [if_pos rfl, ih, consTok_text_text]
        · rw [if_neg h, ih, consTok_ne _ _ _ _ _ _ _ h]
      | _ => rw [hR, consTok_notText rfl, optimizeAux, ih]; simp
    | _ =>
      rw [hR]
      rw [consTok_notText (by rfl) (optR xs), consTok_before_notText _ _ rfl, optimizeAux, ih, consTok_notText rfl]
      all_goals simp

theorem optimize_eq (xs : List FTok) : optimize xs = optR xs := by
  cases xs with
  | nil => rfl
  | cons x xs => rw [optimize, optimizeAux, optimizeAux_some]; rfl

/-- Two neighbours that `optimize` leaves alone. -/
def Apart (x y : FTok) : Prop := ∀ a g l b g' l', x = .text a g l → y = .text b g' l' → g ≠ g'

theorem consTok_apart {x y : FTok} (h : Apart x y) (ys : List FTok) :
    consTok x (y :: ys) = x :: y :: ys := by
  cases x with
  | text a g l =>
    cases y with
    | text b g' l' => simp [consTok, h a g l b g' l' rfl rfl]
    | _ => rfl
  | _ => rfl

theorem foldr_apart (A B : List FTok) (h : List.IsChain Apart (A ++ B.head?.toList)) :
    A.foldr consTok B = A ++ B := by
  induction A with
  | nil => rfl
  | cons a A ih =>
    have h2 : List.IsChain Apart (A ++ B.head?.toList) := by
      rw [List.cons_append] at h
      exact h.tail
    rw [List.foldr_cons, ih h2]
    cases A with
    | nil =>
      cases B with
      | nil => cases a <;> rfl
      | cons b B =>
        have : Apart a b := by simpa using h
        simpa using consTok_apart this B
    | cons a' A =>
      have : Apart a a' := by
        have := h
        simp only [List.cons_append, List.isChain_cons_cons] at this
        exact this.1
      simpa using consTok_apart this (A ++ B)

theorem chain_consTok (x : FTok) (Y : List FTok) (h : List.IsChain Apart Y) :
    List.IsChain Apart (consTok x Y) := by
  cases Y with
  | nil => cases x <;> simp [consTok]
  | cons y Y =>
    cases x with
    | text a g l =>
      cases y with
      | text b g' l' =>
        by_cases hg : g = g'
        · subst hg
          simp only [consTok, if_true]
          cases Y with
          | nil => simp
          | cons z Z =>
            rw [List.isChain_cons_cons] at h ⊢
            refine ⟨?_, h.2⟩
            intro a1 g1 l1 b1 g2 l2 e1 e2
            cases e1
            exact h.1 b g l' b1 g2 l2 rfl e2
        · simp only [consTok, if_neg hg]
          rw [List.isChain_cons_cons]
          refine ⟨?_, h⟩
          intro a1 g1 l1 b1 g2 l2 e1 e2
          cases e1; cases e2; exact hg
      | _ =>
        simp only [consTok]; rw [List.isChain_cons_cons]
        exact ⟨fun _ _ _ _ _ _ _ e2 => (by cases e2), h⟩
    | _ =>
      simp only [consTok]; rw [List.isChain_cons_cons]
      exact ⟨fun _ _ _ _ _ _ e1 => (by cases e1), h⟩

theorem chain_optR (xs : List FTok) : List.IsChain Apart (optR xs) := by
  induction xs with
  | nil => simp [optR]
  | cons x xs ih => exact chain_consTok x _ ih

theorem optR_idem (xs : List FTok) : optR (optR xs) = optR xs := by
  have := foldr_apart (optR xs) [] (by simpa using chain_optR xs)
  simpa [optR] using this

/-- A stretch of the stream that `optimize` leaves alone whatever follows. -/
def Solid (A : List FTok) : Prop := ∀ B, A.foldr consTok B = A ++ B

theorem Solid.append {A B : List FTok} (ha : Solid A) (hb : Solid B) : Solid (A ++ B) := by
  intro C; rw [List.foldr_append, hb, ha, List.append_assoc]

theorem Solid.cons {a : FTok} {A : List FTok} (h : a.isText = false) (ha : Solid A) :
    Solid (a :: A) := by
  intro C; rw [List.foldr_cons, ha, consTok_notText h]; rfl

theorem Solid.nil : Solid [] := fun _ => rfl

theorem Solid.opt (xs : List FTok) {d : FTok} {D : List FTok} (h : d.isText = false)
    (hd : Solid (d :: D)) : Solid (optR xs ++ d :: D) := by
  intro C
  rw [List.foldr_append, hd, foldr_apart, List.append_assoc]
  have hc := chain_optR xs
  simp only [List.cons_append, List.head?_cons, Option.toList_some]
  rw [List.isChain_append]
  refine ⟨hc, by simp, ?_⟩
  intro x _ y hy a g l b g' l' _ e2
  simp at hy
  subst hy; subst e2; cases h

theorem attrStream_solid (n m : Str) (ln : Nat) (v : List FTok) (e : Bool) :
    Solid (attrStream n m ln v e) := by
  unfold attrStream
  refine Solid.cons rfl (Solid.cons rfl ?_)
  cases e with
  | true =>
    intro C
    simp [consTok]
  | false =>
    simp only [optimize_eq, Bool.false_eq_true, if_false]
    exact Solid.opt _ rfl (Solid.cons rfl (Solid.cons rfl Solid.nil))

theorem orPass_solid (xs : List FTok) : Solid (orPass (optR xs) ++ [.dedent]) := by
  cases h : optR xs with
  | nil => exact Solid.cons rfl (Solid.cons rfl Solid.nil)
  | cons y ys =>
    rw [orPass, ← h]
    exact Solid.opt _ rfl (Solid.cons rfl Solid.nil)

theorem flat_solid (x : Ir) (h : ∀ t g l, x ≠ .text t g l) : Solid (flat x) := by
  have one : ∀ ls ln, Solid [.other ls ln] := fun ls ln => Solid.cons rfl Solid.nil
  have hier : ∀ (l : List (Nat × PLine)) (ln : Nat) (b : List FTok),
      Solid (.other l ln :: .indent :: (optimize b ++ [.dedent])) := fun l ln b => by
    rw [optimize_eq]
    exact Solid.cons rfl (Solid.cons rfl (Solid.opt _ rfl (Solid.cons rfl Solid.nil)))
  cases x with
  | text t g l => exact absurd rfl (h t g l)
  | trans t ln => simp only [flat]; split <;> exact one _ _
  | expr c s ln => simp only [flat]; exact one _ _
  | attr n m g v ln =>
    simp only [flat]
    split
    · exact hier _ _ _
    · exact attrStream_solid _ _ _ _ _
  | attrs c m g ln => simp only [flat]; split <;> exact one _ _
  | python ls ln => cases ls <;> (simp only [flat]; exact one _ _)
  | imp n a ln => simp only [flat]; exact one _ _
  | incl n ln => simp only [flat]; exact one _ _
  | ext n ln => simp only [flat]; exact one _ _
  | innerDef d b ln =>
    simp only [flat]
    refine Solid.cons rfl (Solid.cons rfl ?_)
    rw [optimize_eq]; exact orPass_solid _
  | call d c b ln =>
    simp only [flat]
    rw [optimize_eq]
    exact Solid.cons rfl (Solid.cons rfl (Solid.opt _ rfl (Solid.cons rfl (Solid.cons rfl Solid.nil))))
  | forN d b ln => simp only [flat]; exact hier _ _ _
  | withN vs b ln =>
    simp only [flat]; rw [optimize_eq]
    exact Solid.cons rfl (Solid.opt _ rfl (one _ _))
  | switchN e b ln =>
    simp only [flat]; rw [optimize_eq]
    exact Solid.cons rfl (Solid.opt _ rfl (one _ _))
  | caseN e b ln => simp only [flat]; exact hier _ _ _
  | ifN e b ln => simp only [flat]; exact hier _ _ _
  | elseN b ln => simp only [flat]; exact hier _ _ _
  | pass ln => simp only [flat]; exact one _ _

theorem flat_ne_nil (x : Ir) : flat x ≠ [] := by
  cases x with
  | attr n m g v ln => simp only [flat]; split <;> simp [attrStream]
  | attrs c m g ln => simp only [flat]; split <;> simp
  | trans t ln => simp only [flat]; split <;> simp
  | python ls ln => cases ls <;> simp [flat]
  | _ => simp [flat]

theorem consMerge_notText (x : Ir) (h : ∀ t g l, x ≠ .text t g l) (ys : List Ir) :
    consMerge x ys = x :: ys := by
  cases x with
  | text t g l => exact absurd rfl (h t g l)
  | _ => simp [consMerge]

theorem flatList_consMerge (x : Ir) (ys : List Ir) :
    flatList (consMerge x ys) = (flat x).foldr consTok (flatList ys) := by
  by_cases h : ∀ t g l, x ≠ .text t g l
  · rw [consMerge_notText x h, flat_solid x h, flatList]
  · simp only [not_forall, not_not] at h
    obtain ⟨t, g, l, rfl⟩ := h
    cases ys with
    | nil => simp [consMerge, flatList, flat, consTok]
    | cons y ys =>
      by_cases h : ∀ t g l, y ≠ .text t g l
      · have h1 : consMerge (.text t g l) (y :: ys) = .text t g l :: y :: ys := by
          cases y with
          | text a b c => exact absurd rfl (h a b c)
          | _ => rfl
        rw [h1]
        simp only [flatList, flat, List.foldr_cons, List.foldr_nil, List.singleton_append]
        have h2 : ∀ z ∈ (flat y).head?, z.isText = false := by
          cases y with
          | text a b c => exact absurd rfl (h a b c)
          | attr n m g v ln => simp only [flat]; split <;> simp [attrStream, FTok.isText]
          | attrs c m g ln => simp only [flat]; split <;> simp [FTok.isText]
          | trans t ln => simp only [flat]; split <;> simp [FTok.isText]
          | python ls ln => cases ls <;> simp [flat, FTok.isText]
          | _ => simp [flat, FTok.isText]
        cases hf : flat y with
        | nil => exact absurd hf (flat_ne_nil y)
        | cons z zs =>
          rw [List.cons_append, consTok_before_notText _ _ (h2 z (by simp [hf]))]
      · simp only [not_forall, not_not] at h
        obtain ⟨t', g', l', rfl⟩ := h
        by_cases hg : g = g'
        · subst hg; simp [consMerge, flatList, flat, consTok]
        · simp [consMerge, flatList, flat, consTok, hg]

theorem mergedList_isEmpty (xs : List Ir) : (mergedList xs).isEmpty = xs.isEmpty := by
  cases xs with
  | nil => rfl
  | cons x xs =>
    rw [mergedList]
    generalize merged x = x', mergedList xs = ys
    unfold consMerge
    split
    · split <;> simp
    · simp

mutual
theorem flat_merged : ∀ x, flat (merged x) = flat x
  | .text .. => rfl
  | .trans .. => rfl
  | .expr .. => rfl
  | .attr n m g v ln => by
    have h := opt_merged v
    have h' := flatList_merged v
    simp only [merged, flat, mergedList_isEmpty]
    simp only [attrStream, h]
  | .attrs .. => rfl
  | .python .. => rfl
  | .imp .. => rfl
  | .incl .. => rfl
  | .ext .. => rfl
  | .innerDef d b ln => by simp only [merged, flat, opt_merged b]
  | .call d c b ln => by simp only [merged, flat, opt_merged b]
  | .forN d b ln => by simp only [merged, flat, opt_merged b]
  | .withN vs b ln => by simp only [merged, flat, opt_merged b]
  | .switchN e b ln => by simp only [merged, flat, opt_merged b]
  | .caseN e b ln => by simp only [merged, flat, opt_merged b]
  | .ifN e b ln => by simp only [merged, flat, opt_merged b]
  | .elseN b ln => by simp only [merged, flat, opt_merged b]
  | .pass .. => rfl

theorem flatList_merged : ∀ xs, flatList (mergedList xs) = optR (flatList xs)
  | [] => rfl
  | x :: xs => by
    rw [mergedList, flatList_consMerge, flatList_merged xs, flat_merged x, flatList]
    simp [optR, List.foldr_append]

theorem opt_merged : ∀ xs, optimize (flatList (mergedList xs)) = optimize (flatList xs)
  | xs => by rw [flatList_merged xs, optimize_eq, optimize_eq, optR_idem]
end

/-! ## From streams to lines to blocks -/

mutual
/-- Blocks written out as lines at indentation `d`. -/
def layout (d : Nat) : Block → List (Nat × PLine)
  | .node p kids => (d, p) :: layoutList (d + 4) kids

/-- A list of blocks written out. -/
def layoutList (d : Nat) : List Block → List (Nat × PLine)
  | [] => []
  | b :: bs => layout d b ++ layoutList d bs
end

theorem layoutList_append (d : Nat) (A B : List Block) :
    layoutList d (A ++ B) = layoutList d A ++ layoutList d B := by
  induction A with
  | nil => simp [layoutList]
  | cons a A ih => simp [layoutList, ih]

/-- The lines of a stream, without template line numbers. -/
def gen (d : Nat) (xs : List FTok) : List (Nat × PLine) :=
  (generate d xs).map fun l => (l.indent, l.code)

theorem gen_nil (d : Nat) : gen d [] = [] := rfl
theorem gen_indent (d : Nat) (xs : List FTok) : gen d (.indent :: xs) = gen (d + 4) xs := by
  simp [gen, generate]
theorem gen_dedent (d : Nat) (xs : List FTok) : gen (d + 4) (.dedent :: xs) = gen d xs := by
  simp [gen, generate]
theorem gen_text (d : Nat) (t : Str) (g : Option Str) (ln : Nat) (xs : List FTok) :
    gen d (.text t g ln :: xs) = (d, textLine t g) :: gen d xs := by
  simp [gen, generate]
theorem gen_other (d : Nat) (ls : List (Nat × PLine)) (ln : Nat) (xs : List FTok) :
    gen d (.other ls ln :: xs) = ls.map (fun l => (d + 4 * l.1, l.2)) ++ gen d xs := by
  simp [gen, generate, Function.comp_def]

/-- A stream writes out as these blocks, at any indentation and whatever follows. -/
def Writes (A : List FTok) (F : List Block) : Prop :=
  ∀ d R, gen d (A ++ R) = layoutList d F ++ gen d R

theorem Writes.nil : Writes [] [] := fun d R => by simp [layoutList]

theorem Writes.append {A B : List FTok} {F G : List Block} (ha : Writes A F) (hb : Writes B G) :
    Writes (A ++ B) (F ++ G) := by
  intro d R
  rw [List.append_assoc, ha, hb, layoutList_append, List.append_assoc]

theorem Writes.one (p : PLine) (ln : Nat) : Writes [.other [(0, p)] ln] [.node p []] := by
  intro d R; simp [gen_other, layoutList, layout]

theorem Writes.hier (p : PLine) (ln : Nat) {A : List FTok} {F : List Block} (ha : Writes A F) :
    Writes (.other [(0, p)] ln :: .indent :: (A ++ [.dedent])) [.node p F] := by
  intro d R
  simp only [List.cons_append, List.append_assoc, gen_other, gen_indent, List.nil_append]
  rw [ha, gen_dedent]
  simp [layoutList, layout]

theorem Writes.attrStream (n m : Str) (ln : Nat) {v : List FTok} (e : Bool) {F : List Block}
    (h : e = false → Writes (optimize v) F) :
    Writes (attrStream n m ln v e) (attrBlocks n m (orEmptyText e F)) := by
  have h1 : Writes (if e then [FTok.text [] none 0] else optimize v) (orEmptyText e F) := by
    cases e with
    | true => intro d R; simp [gen_text, orEmptyText, layoutList, layout, textLine, activeGuard]
    | false => simpa [orEmptyText] using h rfl
  have h2 : Writes [.other (attrTail n m) 0]
      [.node .attrCollect [], .node (.attrFor n m) [.node .yieldVar []]] := by
    intro d R; simp [attrTail, gen_other, layoutList, layout]
  have := (Writes.hier .attrDef ln h1).append h2
  simpa [Kajiki.attrStream, attrBlocks] using this

theorem writes_assigns (vs : List (Str × Str)) (ns : List Str) (ln : Nat) :
    Writes [.other ((0, .pushWith ns) :: vs.map fun kv => (0, .assign kv.1 kv.2)) ln]
      (.node (.pushWith ns) [] :: vs.map fun kv => .node (.assign kv.1 kv.2) []) := by
  intro d R
  have : ∀ vs : List (Str × Str),
      layoutList d (vs.map fun kv => Block.node (.assign kv.1 kv.2) [])
        = vs.map fun kv => (d, PLine.assign kv.1 kv.2) := by
    intro vs
    induction vs with
    | nil => simp [layoutList]
    | cons v vs ih => simp [layoutList, layout, ih]
  simp [gen_other, layoutList, layout, this, Function.comp_def]

theorem optR_eq_nil {xs : List FTok} : optR xs = [] ↔ xs = [] := by
  cases xs with
  | nil => simp [optR]
  | cons x xs =>
    have : optR (x :: xs) = consTok x (optR xs) := rfl
    rw [this]
    generalize optR xs = ys
    unfold consTok
    split
    · split <;> simp
    · simp

theorem flatList_eq_nil {xs : List Ir} : flatList xs = [] ↔ xs = [] := by
  cases xs with
  | nil => simp [flatList]
  | cons x xs => simp [flatList, flat_ne_nil]

theorem writes_orPass (b : List Ir) {F : List Block} (h : Writes (optimize (flatList b)) F) :
    Writes (orPass (optimize (flatList b))) (orEmptyText b.isEmpty F) := by
  cases b with
  | nil => exact Writes.one _ _
  | cons x xs =>
    have : optimize (flatList (x :: xs)) ≠ [] := by
      rw [optimize_eq, ne_eq, optR_eq_nil, flatList_eq_nil]; simp
    cases ho : optimize (flatList (x :: xs)) with
    | nil => contradiction
    | cons y ys =>
      rw [orPass, ← ho]
      simpa [orEmptyText] using h

mutual
theorem writes_flat : ∀ x, Writes (flat x) (blocks (merged x))
  | .text t g l => by intro d R; simp [flat, merged, blocks, gen_text, layoutList, layout]
  | .trans t l => by
    simp only [flat, merged, blocks]
    split <;> exact Writes.one _ _
  | .expr c s l => by simp only [flat, merged, blocks]; exact Writes.one _ _
  | .attr n m g v ln => by
    have h := writes_list v
    simp only [flat, merged, blocks, mergedList_isEmpty]
    cases activeGuard g with
    | some g =>
      have h1 := Writes.attrStream n m 0 v.isEmpty (v := flatList v) (F := blocksList (mergedList v))
        (fun _ => h)
      have h2 : optimize (attrStream n m 0 (flatList v) v.isEmpty)
          = attrStream n m 0 (flatList v) v.isEmpty := by
        rw [optimize_eq]
        have := attrStream_solid n m 0 (flatList v) v.isEmpty []
        simpa [optR] using this
      simp only [h2]
      exact Writes.hier _ _ h1
    | none => exact Writes.attrStream n m ln v.isEmpty (fun _ => h)
  | .attrs c m g l => by
    simp only [flat, merged, blocks]
    cases activeGuard g <;> (intro d R; simp [gen_other, layoutList, layout])
  | .python [] l => by intro d R; simp [flat, merged, blocks, gen_other, layoutList]
  | .python (x :: xs) l => by simp only [flat, merged, blocks]; exact Writes.one _ _
  | .imp n a l => by simp only [flat, merged, blocks]; exact Writes.one _ _
  | .incl n l => by simp only [flat, merged, blocks]; exact Writes.one _ _
  | .ext n l => by simp only [flat, merged, blocks]; exact Writes.one _ _
  | .innerDef dl b l => by
    simp only [flat, merged, blocks, mergedList_isEmpty]
    exact Writes.hier _ _ (writes_orPass b (writes_list b))
  | .call dl c b l => by
    simp only [flat, merged, blocks]
    have := (Writes.hier (.defLine false dl) l (writes_list b)).append (Writes.one (.yieldCode c) 0)
    simpa using this
  | .forN dl b l => by simp only [flat, merged, blocks]; exact Writes.hier _ _ (writes_list b)
  | .withN vs b l => by
    simp only [flat, merged, blocks]
    have := (writes_assigns vs (vs.map (·.1)) l).append
      ((writes_list b).append (Writes.one (.popWith (vs.map (·.1))) 0))
    simpa using this
  | .switchN e b l => by
    simp only [flat, merged, blocks]
    have h1 : Writes [.other [(0, .pushSwitch e), (0, .ifFalse)] l]
        [.node (.pushSwitch e) [], .node .ifFalse []] := by
      intro d R; simp [gen_other, layoutList, layout]
    have := h1.append ((writes_list b).append (Writes.one .popSwitch 0))
    simpa using this
  | .caseN e b l => by simp only [flat, merged, blocks]; exact Writes.hier _ _ (writes_list b)
  | .ifN e b l => by simp only [flat, merged, blocks]; exact Writes.hier _ _ (writes_list b)
  | .elseN b l => by simp only [flat, merged, blocks]; exact Writes.hier _ _ (writes_list b)
  | .pass l => by simp only [flat, merged, blocks]; exact Writes.one _ _

theorem writes_list : ∀ xs, Writes (optimize (flatList xs)) (blocksList (mergedList xs))
  | [] => by intro d R; simp [flatList, optimize, optimizeAux, mergedList, blocksList, layoutList]
  | x :: xs => by
    have hx := writes_flat x
    have hs := writes_list xs
    rw [optimize_eq] at hs ⊢
    rw [flatList, optR, List.foldr_append]
    change Writes ((flat x).foldr consTok (optR (flatList xs))) _
    rw [mergedList]
    by_cases h : ∀ t g l, x ≠ .text t g l
    · rw [flat_solid x h, consMerge_notText]
      · exact hx.append hs
      · intro t g l; cases x <;> simp_all [merged]
    · simp only [not_forall, not_not] at h
      obtain ⟨t, g, l, rfl⟩ := h
      rw [← flatList_merged] at hs ⊢
      simp only [merged]
      cases hm : mergedList xs with
      | nil =>
        rw [hm] at hs
        simp only [flatList, flat, List.foldr_cons, List.foldr_nil, consTok, consMerge, blocksList]
        intro d R; simp [gen_text, layoutList, layout, blocks]
      | cons y ys =>
        rw [hm] at hs
        rw [← flatList_consMerge]
        by_cases hy : ∃ t' l', y = .text t' g l'
        · obtain ⟨t', l', rfl⟩ := hy
          simp only [consMerge, if_true]
          intro d R
          have := hs d R
          simp only [flatList, flat, List.cons_append, List.nil_append, gen_text, blocksList, blocks,
            layoutList, layout] at this ⊢
          simp only [List.cons.injEq, true_and] at this
          simp [this]
        · have : consMerge (.text t g l) (y :: ys) = .text t g l :: y :: ys := by
            cases y with
            | text t' g' l' =>
              by_cases hg : g = g'
              · subst hg; exact absurd ⟨t', l', rfl⟩ hy
              · simp [consMerge, hg]
            | _ => rfl
          rw [this]
          intro d R
          have := hs d R
          simp only [flatList, flat, List.cons_append, List.nil_append, gen_text, blocksList, blocks,
            layoutList, layout] at this ⊢
          rw [this]
end

mutual
/-- The token stream of a block. -/
def toks : Block → List Tok
  | .node p kids => .line p :: (if kids.isEmpty then [] else .indent :: (toksList kids ++ [.dedent]))

/-- The token stream of a list of blocks. -/
def toksList : List Block → List Tok
  | [] => []
  | b :: bs => toks b ++ toksList bs
end

/-- The next line, if any, is indented by at most `d`. -/
def NextLe (d : Nat) (R : List (Nat × PLine)) : Prop := ∀ l ∈ R.head?, l.1 ≤ d

theorem tokenize_same (d : Nat) (S : List Nat) (p : PLine) (R : List (Nat × PLine)) :
    tokenize (d :: S) ((d, p) :: R) = (tokenize (d :: S) R).map (.line p :: ·) := by
  rw [tokenize]; simp [popTo]

theorem tokenize_deeper (d e : Nat) (S : List Nat) (p : PLine) (R : List (Nat × PLine)) (h : d < e) :
    tokenize (d :: S) ((e, p) :: R)
      = (tokenize (e :: d :: S) ((e, p) :: R)).map (.indent :: ·) := by
  rw [tokenize_same, tokenize]
  simp [h, Function.comp_def]

theorem tokenize_close (d e : Nat) (S : List Nat) (R : List (Nat × PLine)) (h : d < e)
    (hR : NextLe d R) :
    tokenize (e :: d :: S) R = (tokenize (d :: S) R).map (.dedent :: ·) := by
  cases R with
  | nil => simp [tokenize]
  | cons l R =>
    have hl : l.1 ≤ d := hR l (by simp)
    rw [tokenize, tokenize]
    rw [if_neg (by omega), if_neg (by omega)]
    have : popTo l.1 (e :: d :: S) = (popTo l.1 (d :: S)).map fun r => (.dedent :: r.1, r.2) := by
      conv => lhs; rw [popTo]
      rw [if_neg (by omega), if_pos (by omega)]
    rw [this]
    cases hp : popTo l.1 (d :: S) with
    | none => simp
    | some r =>
      simp [Function.comp_def]

theorem nextLe_layoutList (d : Nat) (F : List Block) (R : List (Nat × PLine)) (hR : NextLe d R) :
    NextLe d (layoutList d F ++ R) := by
  cases F with
  | nil => simpa [layoutList] using hR
  | cons b bs => cases b with
    | node p kids => intro l hl; simp [layoutList, layout] at hl; simp [← hl]

mutual
theorem tokenize_layout (b : Block) (d : Nat) (S : List Nat) (R : List (Nat × PLine))
    (hR : NextLe d R) :
    tokenize (d :: S) (layout d b ++ R) = (tokenize (d :: S) R).map (toks b ++ ·) := by
  cases b with
  | node p kids =>
    rw [layout, List.cons_append, tokenize_same]
    cases kids with
    | nil => simp [layoutList, toks]
    | cons k ks =>
      have hk := tokenize_layoutList (k :: ks) (d + 4) (d :: S) R
        (fun l hl => Nat.le_add_right_of_le (hR l hl))
      cases k with
      | node q kk =>
        simp only [layoutList, layout, List.cons_append] at hk ⊢
        rw [tokenize_deeper d (d + 4) S _ _ (by omega), hk, tokenize_close d (d + 4) S R (by omega) hR]
        simp [Function.comp_def, toks]

theorem tokenize_layoutList (F : List Block) (d : Nat) (S : List Nat) (R : List (Nat × PLine))
    (hR : NextLe d R) :
    tokenize (d :: S) (layoutList d F ++ R) = (tokenize (d :: S) R).map (toksList F ++ ·) := by
  cases F with
  | nil => simp [layoutList, toksList]
  | cons b bs =>
    rw [layoutList, List.append_assoc, tokenize_layout b d S _ (nextLe_layoutList d bs R hR),
      tokenize_layoutList bs d S R hR]
    simp [Function.comp_def, toksList]
end

mutual
theorem readBlocks_toks (b : Block) (st : List (PLine × List Block)) (cur : List Block)
    (ts : List Tok) : readBlocks st cur (toks b ++ ts) = readBlocks st (b :: cur) ts := by
  cases b with
  | node p kids =>
    cases kids with
    | nil => simp [toks, readBlocks]
    | cons k ks =>
      have := readBlocks_toksList (k :: ks) ((p, cur) :: st) [] (.dedent :: ts)
      simp only [toks, List.isEmpty_cons, Bool.false_eq_true, if_false, List.cons_append,
        List.append_assoc, readBlocks, List.nil_append]
      rw [this]
      simp [readBlocks]

theorem readBlocks_toksList (F : List Block) (st : List (PLine × List Block)) (cur : List Block)
    (ts : List Tok) :
    readBlocks st cur (toksList F ++ ts) = readBlocks st (F.reverse ++ cur) ts := by
  cases F with
  | nil => simp [toksList]
  | cons b bs =>
    rw [toksList, List.append_assoc, readBlocks_toks b, readBlocks_toksList bs]
    simp
end

/-- Reading back what was written out gives the blocks. -/
theorem read_layout (F : List Block) :
    (tokenize [0] (layoutList 0 F)).bind (readBlocks [] []) = some F := by
  have h := tokenize_layoutList F 0 [] [] (by intro l hl; simp at hl)
  have h2 := readBlocks_toksList F [] [] []
  simp only [List.append_nil] at h h2
  rw [h]
  simp [tokenize, h2, readBlocks]

end Kajiki
