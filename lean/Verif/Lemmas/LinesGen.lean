import Verif.Lemmas.Lnotab
import Verif.Spec.LinesGen
import Verif.Lemmas.LinesExpr

/-!
# Lines of the generated code
-/

namespace Kajiki.LinesGenL
open Kajiki.Spec.Lines Kajiki.Spec.LinesGen Kajiki.Spec.XmlText Kajiki.XmlComp Kajiki.DocComp

variable {α β : Type}

/-! ## Streams of nodes -/

/-- The greatest line. -/
def top : List FTok → Nat
  | [] => 0
  | .text _ _ l :: ts => max l (top ts)
  | .other _ l :: ts => max l (top ts)
  | .indent :: ts => top ts
  | .dedent :: ts => top ts

/-- After lines up to `m`, each node that is no text and has a line is not before the ones before it. -/
def Exact : Nat → List FTok → Prop
  | _, [] => True
  | m, .text _ _ l :: ts => Exact (max m l) ts
  | m, .other _ l :: ts => (l = 0 ∨ m ≤ l) ∧ Exact (max m l) ts
  | m, .indent :: ts => Exact m ts
  | m, .dedent :: ts => Exact m ts

theorem Exact.mono {m n : Nat} {ts : List FTok} (h : Exact m ts) (hn : n ≤ m) : Exact n ts := by
  induction ts generalizing m n with
  | nil => trivial
  | cons t ts ih =>
    cases t with
    | text t g l => exact ih (m := max m l) h (by omega)
    | other ls l => exact ⟨by have := h.1; omega, ih h.2 (by omega)⟩
    | indent => exact ih (m := m) h hn
    | dedent => exact ih (m := m) h hn

theorem exact_append {m : Nat} {as bs : List FTok} : Exact m (as ++ bs) ↔ Exact m as ∧ Exact (max m (top as)) bs := by
  induction as generalizing m with
  | nil => simp [Exact, top]
  | cons t ts ih =>
    cases t with
    | text t g l => simp only [List.cons_append, Exact, top, ih]; rw [Nat.max_assoc]
    | other ls l => simp only [List.cons_append, Exact, top, ih]; rw [Nat.max_assoc, and_assoc]
    | indent => simp only [List.cons_append, Exact, top, ih]
    | dedent => simp only [List.cons_append, Exact, top, ih]

theorem top_append (as bs : List FTok) : top (as ++ bs) = max (top as) (top bs) := by
  induction as with
  | nil => simp [top]
  | cons t ts ih => cases t <;> simp only [List.cons_append, top, ih] <;> omega

/-- Between the lines `lo` and `hi`. -/
structure Part (lo hi : Nat) (ts : List FTok) : Prop where
  le : lo ≤ hi
  exact : Exact lo ts
  top : top ts ≤ hi

theorem Part.append {lo mid hi : Nat} {as bs : List FTok} (ha : Part lo mid as) (hb : Part mid hi bs) : Part lo hi (as ++ bs) :=
  ⟨Nat.le_trans ha.le hb.le, exact_append.2 ⟨ha.exact, hb.exact.mono (by have := ha.le; have := ha.top; omega)⟩, by
    rw [top_append]; have := ha.top; have := hb.top; have := hb.le; omega⟩

theorem Part.weaken {lo hi lo' hi' : Nat} {ts : List FTok} (h : Part lo hi ts) (h1 : lo' ≤ lo) (h2 : hi ≤ hi') :
    Part lo' hi' ts := ⟨by have := h.le; omega, h.exact.mono h1, by have := h.top; omega⟩

theorem part_nil {lo hi : Nat} (h : lo ≤ hi) : Part lo hi [] := ⟨h, trivial, Nat.zero_le _⟩
theorem part_text {lo hi l : Nat} {t : Str} {g : Option Str} (h : lo ≤ hi) (hl : l ≤ hi) : Part lo hi [.text t g l] :=
  ⟨h, trivial, by simpa [LinesGenL.top] using hl⟩
theorem part_other {lo hi l : Nat} {ls : List (Nat × PLine)} (h : lo ≤ l) (hl : l ≤ hi) : Part lo hi [.other ls l] :=
  ⟨Nat.le_trans h hl, ⟨.inr h, trivial⟩, by simpa [LinesGenL.top] using hl⟩
theorem part_zero {lo hi : Nat} {ls : List (Nat × PLine)} (h : lo ≤ hi) : Part lo hi [.other ls 0] :=
  ⟨h, ⟨.inl rfl, trivial⟩, Nat.zero_le _⟩
theorem Part.indent {lo hi : Nat} {ts : List FTok} (h : Part lo hi ts) : Part lo hi (.indent :: ts) := ⟨h.le, h.exact, h.top⟩
theorem part_dedent {lo hi : Nat} (h : lo ≤ hi) : Part lo hi [.dedent] := ⟨h, trivial, Nat.zero_le _⟩

theorem opt_exact : ∀ (ts : List FTok) (last : Option FTok) (m : Nat), Exact m (last.toList ++ ts) →
    Exact m (optimizeAux last ts) ∧ top (optimizeAux last ts) ≤ top (last.toList ++ ts) := by
  intro ts
  induction ts with
  | nil =>
    intro last m h
    rw [List.append_nil] at h
    have : optimizeAux last [] = last.toList := by cases last <;> rfl
    rw [this, List.append_nil]
    exact ⟨h, Nat.le_refl _⟩
  | cons x xs ih =>
    intro last m h
    have keep : ∀ y, last = some y → optimizeAux last (x :: xs) = y :: optimizeAux (some x) xs →
        Exact m (optimizeAux last (x :: xs)) ∧ top (optimizeAux last (x :: xs)) ≤ top (last.toList ++ x :: xs) := by
      intro y hy he
      rw [he]
      subst hy
      rw [show (some y).toList ++ x :: xs = [y] ++ (x :: xs) from rfl] at h ⊢
      rw [exact_append] at h
      obtain ⟨h1, h2⟩ := ih (some x) _ h.2
      rw [show y :: optimizeAux (some x) xs = [y] ++ optimizeAux (some x) xs from rfl]
      refine ⟨exact_append.2 ⟨h.1, h1⟩, ?_⟩
      rw [top_append, top_append]
      have h2 : top (optimizeAux (some x) xs) ≤ top (x :: xs) := h2
      omega
    cases last with
    | none =>
      have := ih (some x) m h
      rw [optimizeAux]
      exact this
    | some y =>
      cases y with
      | text a g l =>
        cases x with
        | text b g' l' =>
          by_cases hg : g = g'
          · rw [show optimizeAux (some (.text a g l)) (.text b g' l' :: xs) = optimizeAux (some (.text (a ++ b) g l)) xs by
              rw [optimizeAux, if_pos hg]]
            have h' : Exact (max (max m l) l') xs := h
            obtain ⟨h1, h2⟩ := ih (some (.text (a ++ b) g l)) m (show Exact (max m l) xs from h'.mono (by omega))
            refine ⟨h1, Nat.le_trans h2 ?_⟩
            simp only [Option.toList, List.cons_append, List.nil_append, top]
            omega
          · exact keep _ rfl (by rw [optimizeAux, if_neg hg])
        | _ => exact keep _ rfl rfl
      | _ => exact keep _ rfl (by cases x <;> rfl)

theorem Part.optimize {lo hi : Nat} {ts : List FTok} (h : Part lo hi ts) : Part lo hi (optimize ts) := by
  obtain ⟨h1, h2⟩ := opt_exact ts none lo h.exact
  exact ⟨h.le, h1, Nat.le_trans h2 h.top⟩

theorem Part.orPass {lo hi : Nat} {ts : List FTok} (h : Part lo hi ts) : Part lo hi (orPass ts) := by
  cases ts with
  | nil => exact part_zero h.le
  | cons t ts => exact h

/-! ## Nodes -/

theorem flatList_append (xs ys : List Ir) : flatList (xs ++ ys) = flatList xs ++ flatList ys := by
  induction xs with
  | nil => rfl
  | cons x xs ih => rw [List.cons_append, flatList, flatList, ih, List.append_assoc]

theorem flatList_one (x : Ir) : flatList [x] = flat x := by rw [flatList, flatList, List.append_nil]

/-- The code of the nodes is between the lines, once those without a line have some line before. -/
def Near (lo hi : Nat) (xs : List Ir) : Prop := ∀ l, l ≠ 0 → l ≤ lo → Part lo hi (flatList (xs.map (anno l)))

/-- The nodes have a line, and the code is between the lines. -/
def Good (lo hi : Nat) (xs : List Ir) : Prop := Part lo hi (flatList xs) ∧ ∀ x ∈ xs, x.ln ≠ 0

theorem Good.near {lo hi : Nat} {xs : List Ir} (h : Good lo hi xs) : Near lo hi xs := by
  intro l _ _
  rw [show xs.map (anno l) = xs from ?_]
  · exact h.1
  · conv_rhs => rw [← List.map_id xs]
    refine List.map_congr_left fun x hx => ?_
    unfold anno
    rw [if_neg (h.2 x hx)]
    rfl

theorem Near.append {lo mid hi : Nat} {xs ys : List Ir} (h : Near lo mid xs) (hs : Near mid hi ys) (hm : lo ≤ mid) :
    Near lo hi (xs ++ ys) := by
  intro l h0 hl
  rw [List.map_append, flatList_append]
  exact (h l h0 hl).append (hs l h0 (Nat.le_trans hl hm))

theorem near_nil {lo hi : Nat} (h : lo ≤ hi) : Near lo hi [] := fun _ _ _ => part_nil h
theorem near_text {lo hi : Nat} {t : Str} {g : Option Str} (h : lo ≤ hi) : Near lo hi [.text t g 0] := fun _ _ hl =>
  part_text h (Nat.le_trans hl h)

theorem ln_anno {l : Nat} (h : l ≠ 0) (x : Ir) : (anno l x).ln ≠ 0 := by
  unfold anno
  split
  · cases x <;> exact h
  · assumption

/-! ## Compiling -/

/-- Python blocks for the module have no line, and the first function is the main one. -/
def Inv (s : CState) : Prop := (∀ p ∈ s.modPy, p.2 = 0) ∧ ∃ v r, s.funs = (mainDecl, v) :: r

/-- The result has `Q`. -/
def Out (Q : α → Prop) (m : CM α) : Prop := ∀ s, Inv s → ∀ a t, m s = .ok (a, t) → Q a ∧ Inv t

variable {Q : α → Prop} {R : β → Prop}

theorem Out.pure {a : α} (h : Q a) : Out Q (CM.pure a) := by
  intro s hs b t k; cases pure_ok.1 k; exact ⟨h, hs⟩
theorem Out.throw (e : Err) : Out Q (CM.throw e : CM α) := by intro s hs b t h; cases h
theorem Out.lift {x : Except Err α} (h : ∀ a, x = .ok a → Q a) : Out Q (CM.lift x) := by
  intro s hs b t k
  obtain ⟨h1, h2⟩ := lift_ok.1 k
  simp only at h2; subst h2; exact ⟨h b h1, hs⟩
theorem Out.any (x : Except Err α) : Out (fun _ => True) (CM.lift x) := .lift fun _ _ => trivial
theorem Out.get : Out (fun _ => True) CM.get := by intro s hs b t h; cases h; exact ⟨trivial, hs⟩
theorem Out.bind {m : CM α} {f : α → CM β} (h : Out Q m) (hf : ∀ a, Q a → Out R (f a)) : Out R (CM.bind m f) := by
  intro s hs b t he
  obtain ⟨a, s1, h1, h2⟩ := bind_ok.1 he
  obtain ⟨k1, k2⟩ := h s hs a s1 h1
  exact hf a k1 s1 k2 b t h2
theorem Out.mod {g : CState → CState} {f : Unit → CM β} (hg : ∀ s, Inv s → Inv (g s)) (h : Out R (f ())) :
    Out R (CM.bind (CM.modify g) f) := fun s hs b t he => h (g s) (hg s hs) b t he
theorem Out.imp {Q' : α → Prop} {m : CM α} (h : Out Q m) (hq : ∀ a, Q a → Q' a) : Out Q' m := fun s hs a t k =>
  ⟨hq a (h s hs a t k).1, (h s hs a t k).2⟩

theorem first_set {d : Dict (List Ir)} (h : ∃ v r, d = (mainDecl, v) :: r) (k : Str) (w : List Ir) :
    ∃ v r, d.set k w = (mainDecl, v) :: r := by
  obtain ⟨v, r, rfl⟩ := h
  rw [Dict.set]
  split
  · exact ⟨_, _, rfl⟩
  · exact ⟨_, _, rfl⟩

theorem inv_set {s : CState} (h : Inv s) (k : Str) (w : List Ir) : Inv { s with funs := s.funs.set k w } :=
  ⟨h.1, first_set h.2 k w⟩

theorem Out.annotate {l lo hi : Nat} (h0 : l ≠ 0) (hl : l ≤ lo) {m : CM (List Ir)} (h : Out (Near lo hi) m) :
    Out (Good lo hi) (Kajiki.annotate l m) :=
  h.bind fun xs k => .pure ⟨k l h0 hl, fun x hx => by
    obtain ⟨y, -, rfl⟩ := List.mem_map.1 hx
    exact ln_anno h0 y⟩

/-- The code after the nodes without a line have got the line `l`. -/
def At (l hi : Nat) (xs : List Ir) : Prop := Part l hi (flatList (xs.map (anno l)))

theorem Out.annotateAt {l hi : Nat} (h0 : l ≠ 0) {m : CM (List Ir)} (h : Out (At l hi) m) : Out (Good l hi) (Kajiki.annotate l m) :=
  h.bind fun xs k => .pure ⟨k, fun x hx => by
    obtain ⟨y, -, rfl⟩ := List.mem_map.1 hx
    exact ln_anno h0 y⟩

theorem at_nil {l hi : Nat} (h : l ≤ hi) : At l hi [] := part_nil h
theorem at_append {l hi : Nat} {xs ys : List Ir} (h : At l l xs) (hs : At l hi ys) : At l hi (xs ++ ys) := by
  unfold At
  rw [List.map_append, flatList_append]
  exact Part.append h hs
theorem at_node {l hi : Nat} {x : Ir} (h : Part l hi (flat (anno l x))) : At l hi [x] := by
  unfold At
  rw [List.map_cons, List.map_nil, flatList_one]
  exact h
theorem at_cons {l hi : Nat} {x : Ir} {xs : List Ir} (h : Part l l (flat (anno l x))) (hs : At l hi xs) : At l hi (x :: xs) :=
  at_append (at_node h) hs

theorem Out.finishBlock {l hi : Nat} (hh : l ≤ hi) (name : Str) (b : List Ir) : Out (At l hi) (finishBlock name b) := by
  unfold Kajiki.finishBlock
  refine .mod (fun s hs => inv_set hs _ _) (Out.get.bind fun s _ => ?_)
  split
  · exact (Out.any _).bind fun p _ => .mod (fun s hs => inv_set hs _ _) (.pure (at_nil hh))
  · refine .pure (at_node ?_)
    show Part l hi (flat (.expr _ false l))
    rw [flat]
    exact part_other (Nat.le_refl _) hh

theorem good_switch {b c : List Ir} {lo hi : Nat} (h : switchBody b = .ok c) (hb : Good lo hi b) : Good lo hi c := by
  suffices key : ∀ {b c : List Ir} (m : Nat), switchBody b = .ok c → Exact m (flatList b) → (∀ x ∈ b, x.ln ≠ 0) →
      Exact m (flatList c) ∧ top (flatList c) ≤ top (flatList b) ∧ ∀ x ∈ c, x.ln ≠ 0 by
    obtain ⟨h1, h2, h3⟩ := key lo h hb.1.exact hb.2
    exact ⟨⟨hb.1.le, h1, Nat.le_trans h2 hb.1.top⟩, h3⟩
  clear h hb
  intro b
  induction b with
  | nil => intro c m h hb hn; cases h; exact ⟨hb, Nat.le_refl _, hn⟩
  | cons x xs ih =>
    intro c m h hb hn
    have pre : prepend [x] (switchBody xs) = .ok c →
        Exact m (flatList c) ∧ top (flatList c) ≤ top (flatList (x :: xs)) ∧ ∀ x ∈ c, x.ln ≠ 0 := by
      intro k
      cases hs : switchBody xs with
      | error e => rw [hs] at k; cases k
      | ok d =>
        rw [hs] at k
        cases k
        rw [flatList, exact_append] at hb
        obtain ⟨h1, h2, h3⟩ := ih _ hs hb.2 fun y hy => hn y (List.mem_cons_of_mem _ hy)
        rw [show [x] ++ d = x :: d from rfl, flatList, flatList, exact_append, top_append, top_append]
        exact ⟨⟨hb.1, h1⟩, by omega, List.forall_mem_cons.2 ⟨hn x List.mem_cons_self, h3⟩⟩
    cases x with
    | text t g l =>
      simp only [switchBody] at h
      split at h
      · rw [flatList, exact_append] at hb
        obtain ⟨h1, h2, h3⟩ := ih m h (hb.2.mono (by omega)) fun y hy => hn y (List.mem_cons_of_mem _ hy)
        rw [flatList, top_append]
        exact ⟨h1, by omega, h3⟩
      · cases h
    | caseN e b l => simp only [switchBody] at h; exact pre h
    | elseN b l => simp only [switchBody] at h; exact pre h
    | _ => simp [switchBody] at h

/-- A directive around something. -/
theorem part_around {l hi : Nat} {ls : List (Nat × PLine)} {b : List FTok} (hb : Part l hi b) :
    Part l hi (.other ls l :: .indent :: (optimize b ++ [.dedent])) :=
  (part_other (Nat.le_refl _) (Nat.le_refl _)).append ((hb.optimize.append (part_dedent (Nat.le_refl _))).indent)

theorem part_around' {l hi : Nat} {ls : List (Nat × PLine)} {b rest : List FTok} (hb : Part l hi b) (hr : Part hi hi rest) :
    Part l hi (.other ls l :: (optimize b ++ rest)) :=
  (part_other (Nat.le_refl _) (Nat.le_refl _)).append (hb.optimize.append hr)

theorem Out.kind {env : CEnv} (attrs : Dict Str) {l hi : Nat} (hh : l ≤ hi) (ctx : Ctx) (kids : List DNode) {m : CM (List Ir)}
    (h0 : l ≠ 0) (h : Out (Good l hi) m) (k : Kind) : Out (At l hi) (compileKind env ctx attrs kids m k) := by
  have one : ∀ {x : Ir}, Part l hi (flat (x.setLn l)) → x.ln = 0 → At l hi [x] := by
    intro x hx h0
    refine at_node ?_
    unfold anno
    rw [if_pos h0]
    exact hx
  cases k with
  | replace => exact .pure (one (by rw [Ir.setLn, flat]; exact part_other (Nat.le_refl _) hh) rfl)
  | imp => exact .pure (one (by rw [importNode, Ir.setLn, flat]; exact part_other (Nat.le_refl _) hh) rfl)
  | incl => exact .pure (one (by rw [Ir.setLn, flat]; exact part_other (Nat.le_refl _) hh) rfl)
  | ext =>
    refine .mod (g := fun s => { s with isChild := true }) (f := fun _ => CM.bind m fun b => CM.pure (.ext (getAttr attrs "href".toList) 0 :: b))
      (fun s hs => hs) (h.bind fun b hb => .pure (at_cons ?_ (hb.near l h0 (Nat.le_refl _))))
    show Part l l (flat (.ext _ l))
    rw [flat]
    exact part_other (Nat.le_refl _) (Nat.le_refl _)
  | block => exact h.bind fun b hb => .finishBlock hh _ _
  | defn =>
    unfold compileKind compileDef
    refine Out.get.bind fun s _ => .mod (fun s hs => hs) (h.bind fun b hb => .mod (fun s hs => hs) ?_)
    split
    · refine .pure (one ?_ rfl)
      rw [Ir.setLn, flat]
      exact (part_other (Nat.le_refl _) (Nat.le_refl _)).append
        ((hb.1.optimize.orPass.append (part_dedent (Nat.le_refl _))).indent)
    · exact .mod (fun s hs => inv_set hs _ _) (.pure (at_nil hh))
  | call =>
    refine (Out.any _).bind fun _ _ => h.bind fun b hb => Out.get.bind fun s _ => .mod (fun s hs => hs) (.pure (one ?_ rfl))
    rw [Ir.setLn, flat]
    exact (part_other (Nat.le_refl _) (Nat.le_refl _)).append
      ((hb.1.optimize.append ((part_dedent (Nat.le_refl _)).append (part_zero (Nat.le_refl _)))).indent)
  | forK => exact h.bind fun b hb => .pure (one (by rw [Ir.setLn, flat]; exact part_around hb.1) rfl)
  | withK =>
    exact h.bind fun b hb => (Out.any _).bind fun _ _ => .pure (one (by
      rw [Ir.setLn, flat]; exact part_around' hb.1 (part_zero (Nat.le_refl _))) rfl)
  | switchK =>
    exact h.bind fun b hb => (Out.lift (Q := Good l hi) fun c hc => good_switch hc hb).bind fun _ hc => .pure (one (by
      rw [Ir.setLn, flat]; exact part_around' hc.1 (part_zero (Nat.le_refl _))) rfl)
  | caseK => exact h.bind fun b hb => .pure (one (by rw [Ir.setLn, flat]; exact part_around hb.1) rfl)
  | ifK => exact h.bind fun b hb => .pure (one (by rw [Ir.setLn, flat]; exact part_around hb.1) rfl)
  | elseK =>
    exact (Out.any _).bind fun _ _ => h.bind fun b hb => .pure (one (by rw [Ir.setLn, flat]; exact part_around hb.1) rfl)
  | nop => exact h.imp fun b hb => hb.near l h0 (Nat.le_refl _)
  | broken => exact .throw _
  | endless => exact .throw _
  | xml => exact .pure (at_nil hh)

/-! ## Texts, attributes and elements -/

/-- The nodes of a text are between its first and last line. -/
def TextPart (py : PyCompile) (d : Str) (l : Nat) : Prop :=
  ∀ m xs, compileTextSrc py m d l = .ok xs → Good l (l + countNL d) xs

theorem Out.text {env : CEnv} {d : Str} {l : Nat} (h0 : l ≠ 0) (h : TextPart env.py d l) (p : Option Str) :
    Out (Good l (l + countNL d)) (compileText env p d l) := by
  unfold compileText
  cases p with
  | none => exact .throw _
  | some p => exact .annotate h0 (Nat.le_refl _) (.lift fun xs hx => (h _ xs hx).near)

theorem flat_unescape {x y : Ir} (h : unescapeNode x = .ok y) (m : Nat) :
    (Exact m (flat x) → Exact m (flat y)) ∧ top (flat y) = top (flat x) ∧ y.ln = x.ln := by
  cases x with
  | text t g l =>
    simp only [unescapeNode] at h
    cases ht : unescape t with
    | error e => rw [ht] at h; cases h
    | ok t => rw [ht] at h; cases h; simp only [flat]; exact ⟨id, rfl, rfl⟩
  | trans t l =>
    simp only [unescapeNode] at h
    cases ht : unescape t with
    | error e => rw [ht] at h; cases h
    | ok t =>
      rw [ht] at h
      cases h
      simp only [flat]
      refine ⟨fun k => ?_, ?_, rfl⟩
      · split at k <;> split <;> exact k
      · split <;> split <;> rfl
  | expr c s l =>
    simp only [unescapeNode] at h
    cases ht : unescape c with
    | error e => rw [ht] at h; cases h
    | ok t => rw [ht] at h; cases h; simp only [flat]; exact ⟨id, rfl, rfl⟩
  | _ => cases h; exact ⟨id, rfl, rfl⟩

theorem good_unescaped {lo hi : Nat} {xs ys : List Ir} (h : unescapeNodes xs = .ok ys) (hx : Good lo hi xs) : Good lo hi ys := by
  suffices key : ∀ {xs ys : List Ir} (m : Nat), unescapeNodes xs = .ok ys → Exact m (flatList xs) → (∀ x ∈ xs, x.ln ≠ 0) →
      Exact m (flatList ys) ∧ top (flatList ys) = top (flatList xs) ∧ ∀ x ∈ ys, x.ln ≠ 0 by
    obtain ⟨h1, h2, h3⟩ := key lo h hx.1.exact hx.2
    exact ⟨⟨hx.1.le, h1, by rw [h2]; exact hx.1.top⟩, h3⟩
  clear h hx
  intro xs
  induction xs with
  | nil => intro ys m h hb hn; cases h; exact ⟨hb, rfl, hn⟩
  | cons x xs ih =>
    intro ys m h hb hn
    simp only [unescapeNodes] at h
    cases hu : unescapeNode x with
    | error e => rw [hu] at h; cases h
    | ok y =>
      rw [hu] at h
      cases hs : unescapeNodes xs with
      | error e => rw [hs] at h; cases h
      | ok zs =>
        rw [hs] at h
        cases h
        rw [flatList, exact_append] at hb
        obtain ⟨k1, k2, k3⟩ := flat_unescape hu m
        obtain ⟨h1, h2, h3⟩ := ih _ hs hb.2 fun y hy => hn y (List.mem_cons_of_mem _ hy)
        rw [show [y] ++ zs = y :: zs from rfl, flatList, flatList, exact_append, top_append, top_append, k2, h2]
        exact ⟨⟨k1 hb.1, h1⟩, rfl, List.forall_mem_cons.2 ⟨by rw [k3]; exact hn x List.mem_cons_self, h3⟩⟩

mutual
theorem lastLine_le (lo : Nat) (x : DNode) (h : InOrder lo x) : lo ≤ lastLine x := by
  cases x with
  | elem tag attrs l kids => exact Nat.le_trans h.1 (lastLines_le l kids h.2)
  | text d e l => exact Nat.le_trans h (Nat.le_add_right _ _)
  | cdata d l => exact Nat.le_trans h (Nat.le_add_right _ _)
  | comment d l => exact h
  | pi t d l => exact h

theorem lastLines_le (lo : Nat) (xs : List DNode) (h : InOrders lo xs) : lo ≤ lastLines lo xs := by
  cases xs with
  | nil => exact Nat.le_refl _
  | cons x xs => exact Nat.le_trans (lastLine_le lo x h.1) (lastLines_le _ xs h.2)
end

theorem Out.script {env : CEnv} (tag : Str) : ∀ (kids : List DNode) (lo : Nat), InOrders lo kids →
    (∀ p ∈ textsList kids, p.2 ≠ 0 ∧ TextPart env.py p.1 p.2) →
    Out (Near lo (lastLines lo kids)) (compileScript env tag kids) := by
  intro kids
  induction kids with
  | nil => exact fun lo _ _ => .pure (near_nil (Nat.le_refl _))
  | cons k kids ih =>
    intro lo ho hk
    rw [textsList] at hk
    have ih := ih _ ho.2 fun p k => hk p (List.mem_append_right _ k)
    have hlo := lastLine_le lo k ho.1
    cases k with
    | cdata d l => exact ih.imp fun xs hx l h0 hl => (hx l h0 (Nat.le_trans hl hlo)).weaken hlo (Nat.le_refl _)
    | text d e l =>
      obtain ⟨h0, hd⟩ := hk (d, l) (List.mem_append_left _ (by simp [texts]))
      refine (Out.text h0 hd (some tag)).bind fun ys hy =>
        (Out.lift (Q := Good l (l + countNL d)) fun zs hz => ?_).bind fun zs hz => ih.bind fun ws hw => .pure ?_
      · split at hz
        · exact good_unescaped hz hy
        · cases hz; exact hy
      · exact Near.append (mid := l + countNL d)
          (fun l' h1 h2 => (hz.near l' h1 (Nat.le_trans h2 ho.1)).weaken ho.1 (Nat.le_refl _)) hw hlo
    | _ => exact .throw _

theorem part_attrStream {l : Nat} {name mode : Str} {ln : Nat} {v : List FTok} {e : Bool} (hn : ln = 0 ∨ ln = l)
    (hv : Part l l v) : Part l l (attrStream name mode ln v e) := by
  unfold attrStream
  have h1 : Part l l [.other [(0, .attrDef)] ln] := by
    rcases hn with rfl | rfl
    · exact part_zero (Nat.le_refl _)
    · exact part_other (Nat.le_refl _) (Nat.le_refl _)
  refine h1.append (Part.indent (Part.append (mid := l) ?_
    ((part_dedent (Nat.le_refl _)).append (part_zero (Nat.le_refl _)))))
  split
  · exact part_text (Nat.le_refl _) (Nat.zero_le _)
  · exact hv.optimize

theorem at_attrs {env : CEnv} {g : Option Str} {l : Nat} {as : List (Str × Str)} {xs : List Ir}
    (h : compileAttrs env g l as = .ok xs) (ha : ∀ kv ∈ as, '\n' ∉ kv.2 ∧ TextPart env.py kv.2 l) : At l l xs := by
  induction as generalizing xs with
  | nil => cases h; exact at_nil (Nat.le_refl _)
  | cons a as ih =>
    obtain ⟨k, v⟩ := a
    simp only [compileAttrs] at h
    cases hv : compileTextSrc env.py ⟨false, true⟩ v l with
    | error e => rw [hv] at h; cases h
    | ok vs =>
      rw [hv] at h
      cases hs : compileAttrs env g l as with
      | error e => rw [hs] at h; cases h
      | ok ys =>
        rw [hs] at h
        cases h
        refine at_append ?_ (ih hs fun kv k => ha kv (List.mem_cons_of_mem _ k))
        obtain ⟨hn, ht⟩ := ha (k, v) List.mem_cons_self
        have hp : Part l l (flatList vs) := by
          have := (ht _ vs hv).1
          rwa [show countNL v = 0 from List.count_eq_zero.2 hn, Nat.add_zero] at this
        split
        · exact at_nil (Nat.le_refl _)
        · refine at_node ?_
          show Part l l (flat (.attr k env.mode g vs l))
          rw [flat]
          split
          · exact (part_zero (Nat.le_refl _)).append
              (((part_attrStream (.inl rfl) hp).optimize.append (part_dedent (Nat.le_refl _))).indent)
          · exact part_attrStream (.inr rfl) hp

theorem Near.at {l hi : Nat} {xs : List Ir} (h0 : l ≠ 0) (h : Near l hi xs) : At l hi xs := h l h0 (Nat.le_refl _)

theorem Out.xml {env : CEnv} (tag : Str) {attrs : Dict Str} {l hi : Nat} (h0 : l ≠ 0) (hh : l ≤ hi)
    (ha : ∀ kv ∈ attrs, '\n' ∉ kv.2 ∧ TextPart env.py kv.2 l) (e : Bool) {m : CM (List Ir)} (h : Out (Near l hi) m) :
    Out (At l hi) (compileXml env tag attrs l e m) := by
  unfold compileXml
  refine (Out.lift (Q := At l l) fun xs hx => at_attrs hx fun kv k => ha kv
    (List.mem_of_mem_filter (LinesL.sortItems_mem k))).bind fun as has => Out.bind (Q := At l hi) ?_ fun ks hk => .pure ?_
  · unfold compileBody
    simp only
    split
    · split
      · exact .pure ((near_text hh).at h0)
      · refine h.bind fun ks hk => .pure ?_
        rw [List.cons_append]
        refine Near.at h0 (Near.append (xs := [_]) (mid := l) (near_text (Nat.le_refl _)) (Near.append (mid := hi) hk ?_ hh) (Nat.le_refl _))
        unfold fullEnd
        split
        · exact near_nil (Nat.le_refl _)
        · exact near_text (Nat.le_refl _)
    · refine .pure (at_append (xs := [_]) ((near_text (Nat.le_refl _)).at h0) (at_append (xs := [_]) ?_ ((near_text hh).at h0)))
      refine at_node ?_
      show Part l l (flat (.expr _ false l))
      rw [flat]
      exact part_other (Nat.le_refl _) (Nat.le_refl _)
  · rw [List.cons_append, List.cons_append, List.append_assoc]
    refine at_append (xs := [_]) ((near_text (Nat.le_refl _)).at h0) (at_append has (at_append ?_ hk))
    unfold attrsNode
    simp only
    split
    · exact at_nil (Nat.le_refl _)
    · refine at_node ?_
      show Part l l (flat (.attrs _ env.mode _ l))
      rw [flat]
      split <;> exact part_other (Nat.le_refl _) (Nat.le_refl _)

theorem near_mark (mode : Str) (s : String) {l : Nat} : Near l l (scriptMark mode s) := by
  unfold scriptMark
  split
  · exact near_text (Nat.le_refl _)
  · exact near_nil (Nat.le_refl _)

theorem Good.weaken {lo lo' hi : Nat} {xs : List Ir} (h : Good lo hi xs) (k : lo' ≤ lo) : Good lo' hi xs :=
  ⟨h.1.weaken k (Nat.le_refl _), h.2⟩

/-- What is assumed about an element. -/
def ElemPart (py : PyCompile) (p : Dict Str × Nat) : Prop := p.2 ≠ 0 ∧ ∀ kv ∈ p.1, '\n' ∉ kv.2 ∧ TextPart py kv.2 p.2

mutual
/-- Comments and processing instructions have a line. -/
def Lined : DNode → Prop
  | .comment _ l => l ≠ 0
  | .pi _ _ l => l ≠ 0
  | .elem _ _ _ kids => LinedList kids
  | _ => True

/-- All of them. -/
def LinedList : List DNode → Prop
  | [] => True
  | x :: xs => Lined x ∧ LinedList xs
end

mutual
theorem lined_of (lo : Nat) (h0 : lo ≠ 0) (x : DNode) (h : InOrder lo x) : Lined x := by
  cases x with
  | elem tag attrs l kids => rw [Lined]; exact linedList_of l (by have := h.1; omega) kids h.2
  | comment d l => have : lo ≤ l := h; rw [Lined]; omega
  | pi t d l => have : lo ≤ l := h; rw [Lined]; omega
  | text d e l => trivial
  | cdata d l => trivial

theorem linedList_of (lo : Nat) (h0 : lo ≠ 0) (xs : List DNode) (h : InOrders lo xs) : LinedList xs := by
  cases xs with
  | nil => trivial
  | cons x xs => exact ⟨lined_of lo h0 x h.1, linedList_of _ (by have := lastLine_le lo x h.1; omega) xs h.2⟩
end

mutual
theorem node_out (env : CEnv) (ctx : Ctx) (lo : Nat) (x : DNode) (hl : Lined x) (ho : InOrder lo x)
    (hx : ∀ p ∈ texts x, p.2 ≠ 0 ∧ TextPart env.py p.1 p.2) (he : ∀ p ∈ elems x, ElemPart env.py p) :
    Out (Good lo (lastLine x)) (compileNode env ctx x) := by
  cases x with
  | comment d ln =>
    simp only [compileNode]
    refine (Out.annotate hl (Nat.le_refl ln) (.pure ?_)).imp fun xs k => k.weaken ho
    unfold compileComment
    split
    · exact near_nil (Nat.le_refl _)
    · exact near_text (Nat.le_refl _)
  | text d e ln =>
    simp only [compileNode]
    obtain ⟨h0, hd⟩ := hx (d, ln) (by simp [texts])
    exact (Out.text h0 hd _).imp fun xs k => k.weaken ho
  | cdata d ln =>
    simp only [compileNode]
    obtain ⟨h0, hd⟩ := hx (d, ln) (by simp [texts])
    exact (Out.text h0 hd _).imp fun xs k => k.weaken ho
  | pi tg d ln =>
    simp only [compileNode]
    refine (Out.annotateAt hl ((Out.any _).bind fun p _ => ?_)).imp fun xs k => k.weaken ho
    split
    · refine .mod (fun s hs => ⟨fun q hq => ?_, hs.2⟩) (.pure (at_nil (Nat.le_refl _)))
      rcases List.mem_append.1 hq with hq | hq
      · exact hs.1 q hq
      · rw [List.mem_singleton.1 hq]
    · refine .pure (at_node ?_)
      show Part ln ln (flat (.python p.2 ln))
      cases p.2 <;> rw [flat] <;> exact part_other (Nat.le_refl _) (Nat.le_refl _)
  | elem tag attrs ln kids =>
    simp only [compileNode]
    refine (Out.lift (Q := fun a : Bool × Dict Str => ∀ kv ∈ a.2, kv ∈ attrs) fun a ha => LinesL.autoblock_sub ha).bind fun a ha => ?_
    rw [texts] at hx
    rw [elems] at he
    obtain ⟨h0, hat⟩ := he (attrs, ln) List.mem_cons_self
    have hh := lastLines_le ln kids ho.2
    have hk := fun raw => kids_out env raw (some tag) (a.2.has "py:switch".toList) [] ln kids hl ho.2 hx
      fun p k => he p (List.mem_cons_of_mem _ k)
    suffices h : Out (Good ln (lastLines ln kids)) _ from h.imp fun xs k => k.weaken ho.1
    split
    · exact .annotateAt h0 ((Out.annotate h0 (Nat.le_refl _) (hk false)).bind fun b hb => .finishBlock hh _ _)
    · split
      · refine .annotateAt h0 (.xml _ h0 hh (fun kv k => hat kv (ha kv k)) _ ?_)
        split
        · refine (Out.script _ _ _ ho.2 hx).bind fun ks hk => .pure ?_
          exact Near.append (mid := lastLines ln kids) (Near.append (mid := ln) (near_mark _ _) hk (Nat.le_refl _)) (near_mark _ _) hh
        · exact hk true
      · exact .annotateAt h0 (.kind _ hh _ _ h0 (.annotate h0 (Nat.le_refl _) (hk false)) _)

theorem kids_out (env : CEnv) (raw : Bool) (p : Option Str) (sw : Bool) (prev : Str) (lo : Nat)
    (xs : List DNode) (hl : LinedList xs) (ho : InOrders lo xs) (hx : ∀ p ∈ textsList xs, p.2 ≠ 0 ∧ TextPart env.py p.1 p.2)
    (he : ∀ p ∈ elemsList xs, ElemPart env.py p) :
    Out (Near lo (lastLines lo xs)) (compileKids env raw p sw prev xs) := by
  cases xs with
  | nil => simp only [compileKids]; exact .pure (near_nil (Nat.le_refl _))
  | cons x xs =>
    rw [textsList] at hx
    rw [elemsList] at he
    have h1 : ∀ p ∈ texts x, p.2 ≠ 0 ∧ TextPart env.py p.1 p.2 := fun p k => hx p (List.mem_append_left _ k)
    have h2 : ∀ p ∈ textsList xs, p.2 ≠ 0 ∧ TextPart env.py p.1 p.2 := fun p k => hx p (List.mem_append_right _ k)
    have e1 : ∀ p ∈ elems x, ElemPart env.py p := fun p k => he p (List.mem_append_left _ k)
    have e2 : ∀ p ∈ elemsList xs, ElemPart env.py p := fun p k => he p (List.mem_append_right _ k)
    have hlo := lastLine_le lo x ho.1
    cases x with
    | cdata d ln =>
      simp only [compileKids]
      refine Out.bind (Q := Near lo (ln + countNL d)) ?_ fun ys hy => (kids_out env raw p sw _ _ xs hl.2 ho.2 h2 e2).bind fun zs hz =>
        .pure (hy.append hz hlo)
      split
      · exact .pure (near_text hlo)
      · obtain ⟨h0, hd⟩ := h1 (d, ln) (by simp [texts])
        exact (Out.text h0 hd _).imp fun xs k => (k.weaken ho.1).near
    | _ =>
      simp only [compileKids]
      exact (node_out env _ lo _ hl.1 ho.1 h1 e1).bind fun ys hy => (kids_out env raw p sw _ _ xs hl.2 ho.2 h2 e2).bind fun zs hz =>
        .pure (hy.near.append hz hlo)
end

/-! ## The order of a document -/

mutual
theorem texts_lined (lo : Nat) (h0 : lo ≠ 0) (x : DNode) (h : InOrder lo x) :
    (∀ p ∈ texts x, p.2 ≠ 0) ∧ ∀ p ∈ elems x, p.2 ≠ 0 := by
  cases x with
  | elem tag attrs l kids =>
    have hl : l ≠ 0 := by have := h.1; omega
    have := textsList_lined l hl kids h.2
    rw [texts, elems]
    exact ⟨this.1, List.forall_mem_cons.2 ⟨hl, this.2⟩⟩
  | comment d l => simp [texts, elems]
  | pi t d l => simp [texts, elems]
  | text d e l => have : lo ≤ l := h; simp [texts, elems]; omega
  | cdata d l => have : lo ≤ l := h; simp [texts, elems]; omega

theorem textsList_lined (lo : Nat) (h0 : lo ≠ 0) (xs : List DNode) (h : InOrders lo xs) :
    (∀ p ∈ textsList xs, p.2 ≠ 0) ∧ ∀ p ∈ elemsList xs, p.2 ≠ 0 := by
  cases xs with
  | nil => simp [textsList, elemsList]
  | cons x xs =>
    have h1 := texts_lined lo h0 x h.1
    have h2 := textsList_lined _ (by have := lastLine_le lo x h.1; omega) xs h.2
    rw [textsList, elemsList]
    exact ⟨fun p k => (List.mem_append.1 k).elim (h1.1 p) (h2.1 p), fun p k => (List.mem_append.1 k).elim (h1.2 p) (h2.2 p)⟩
end

theorem inOrder_mono {lo lo' : Nat} {x : DNode} (h : InOrder lo x) (hl : lo' ≤ lo) : InOrder lo' x := by
  cases x with
  | elem tag attrs l kids => exact ⟨Nat.le_trans hl h.1, h.2⟩
  | _ => exact Nat.le_trans hl h

theorem inOrder_mem {lo : Nat} {x : DNode} {xs : List DNode} (h : InOrders lo xs) (hx : x ∈ xs) : InOrder lo x := by
  induction xs generalizing lo with
  | nil => cases hx
  | cons y ys ih =>
    rcases List.mem_cons.1 hx with rfl | hx
    · exact h.1
    · exact inOrder_mono (ih h.2 hx) (lastLine_le lo y h.1)

theorem good_nodes {m : TextMode} (ps : List Piece) (l : Nat) (h0 : l ≠ 0) :
    Good l (l + countNL (source ps)) (nodes m l ps) := by
  induction ps generalizing l with
  | nil => exact ⟨part_nil (Nat.le_add_right _ _), fun x hx => by cases hx⟩
  | cons p ps ih =>
    have hv : countNL (p.value.elim id id) ≤ countNL p.source := by
      cases p with
      | text u => exact Nat.le_refl _
      | dollar => exact Nat.zero_le _
      | name n =>
        show countNL n ≤ countNL ('$' :: n)
        rw [show '$' :: n = ['$'] ++ n from rfl, LinesL.countNL_append]
        omega
      | expr ws e =>
        show countNL e ≤ countNL ('$' :: '{' :: ws ++ e ++ ['}'])
        rw [LinesL.countNL_append, LinesL.countNL_append]
        omega
    obtain ⟨h1, h2⟩ := ih (l + countNL (p.value.elim id id)) (by omega)
    rw [nodes]
    rw [LinesL.source_cons, LinesL.countNL_append]
    refine ⟨?_, List.forall_mem_cons.2 ⟨?_, h2⟩⟩
    · rw [flatList]
      refine Part.append (mid := l) ?_ (h1.weaken (Nat.le_add_right _ _) (by omega))
      cases p.value with
      | inl t =>
        simp only [node]
        split
        · rw [flat]; split <;> exact part_other (Nat.le_refl _) (Nat.le_refl _)
        · rw [flat]; exact part_text (Nat.le_refl _) (Nat.le_refl _)
      | inr e => simp only [node]; rw [flat]; exact part_other (Nat.le_refl _) (Nat.le_refl _)
    · cases p.value with
      | inl t => simp only [node]; split <;> exact h0
      | inr e => exact h0

/-! ## Documents -/

theorem doc_main {env : CEnv} {doc : Doc} {u : Tmpl} (h : compileDoc env doc = .ok u) (ho : InOrders 1 doc.kids)
    (hx : ∀ p ∈ textsList doc.kids, TextPart env.py p.1 p.2)
    (he : ∀ p ∈ elemsList doc.kids, ∀ kv ∈ p.1, '\n' ∉ kv.2 ∧ TextPart env.py kv.2 p.2) :
    (∀ p ∈ u.modPy, p.2 = 0) ∧ ∃ body rest hi, u.defs = ⟨mainDecl, body, 0⟩ :: rest ∧ (∀ d ∈ rest, d.ln = 0) ∧
      Part 0 hi (flatList body) := by
  unfold compileDoc at h
  split at h
  · next root hr =>
    have hroot : root ∈ doc.kids := List.mem_of_mem_filter (p := fun n => !isComment n) (by rw [hr]; simp)
    split at h
    · cases h
    · next body s hc =>
      cases h
      have ho' := inOrder_mem ho hroot
      obtain ⟨l1, l2⟩ := texts_lined 1 (by omega) root ho'
      obtain ⟨⟨h1, -⟩, h2, v, r, h3⟩ := node_out env _ 1 root (lined_of 1 (by omega) root ho') ho'
        (fun p k => ⟨l1 p k, hx p (LinesL.texts_mem hroot p k)⟩)
        (fun p k => ⟨l2 p k, he p (LinesL.elems_mem hroot p k)⟩) _
        ⟨(fun p hp => by cases hp), [], [], rfl⟩ _ _ hc
      have hb : Part 0 (lastLine root)
          (flatList (if !env.opts.isFragment && !s.isChild then doctypeNode env.mode doc.dtd ++ body else body)) := by
        split
        · rw [flatList_append]
          refine Part.append (mid := 1) ?_ h1
          unfold doctypeNode
          split
          · exact part_text (by omega) (Nat.le_refl _)
          · split
            · exact part_text (by omega) (Nat.le_refl _)
            · exact part_nil (by omega)
        · exact h1.weaken (by omega) (Nat.le_refl _)
      refine ⟨h2, _, r.map fun f => ⟨f.1, f.2, 0⟩, lastLine root, ?_, ?_, hb⟩
      · show ((s.funs.set mainDecl _).map _) = _
        rw [h3, Dict.set, if_pos rfl]
        rfl
      · intro d hd
        obtain ⟨f, -, rfl⟩ := List.mem_map.1 hd
        rfl
  · cases h

/-! ## Lines -/

/-- The same for generated lines. -/
def LExact : Nat → List Line → Prop
  | _, [] => True
  | m, l :: ls => (l.ln = 0 ∨ isLiteral l = true ∨ m ≤ l.ln) ∧ LExact (max m l.ln) ls

theorem LExact.mono {m n : Nat} {ls : List Line} (h : LExact m ls) (hn : n ≤ m) : LExact n ls := by
  induction ls generalizing m n with
  | nil => trivial
  | cons l ls ih =>
    exact ⟨h.1.imp id fun k => k.imp id fun k => Nat.le_trans hn k, ih h.2 (by omega)⟩

theorem LExact.le {m : Nat} {before after : List Line} {line : Line} (h : LExact m (before ++ line :: after)) (h0 : line.ln ≠ 0)
    (hl : isLiteral line = false) : m ≤ line.ln ∧ ∀ b ∈ before, b.ln ≤ line.ln := by
  induction before generalizing m with
  | nil =>
    refine ⟨?_, fun b hb => by cases hb⟩
    rcases h.1 with k | k | k
    · exact absurd k h0
    · rw [hl] at k; cases k
    · exact k
  | cons b bs ih =>
    obtain ⟨h1, h2⟩ := ih h.2
    exact ⟨by omega, List.forall_mem_cons.2 ⟨by omega, h2⟩⟩

theorem gen_lines {m l d : Nat} {ls : List (Nat × PLine)} {R : List Line} (h : l = 0 ∨ m ≤ l) (hR : LExact (max m l) R) :
    LExact m (ls.map (fun p => (⟨d + 4 * p.1, p.2, l⟩ : Line)) ++ R) := by
  induction ls generalizing m with
  | nil => exact hR.mono (by omega)
  | cons p ls ih =>
    refine ⟨h.elim .inl fun h => .inr (.inr h), ih (m := max m l) (by omega) (hR.mono ?_)⟩
    omega

theorem gen_exact {ts : List FTok} {m d : Nat} (h : Exact m ts) : LExact m (generate d ts) := by
  induction ts generalizing m d with
  | nil => rw [generate]; trivial
  | cons t ts ih =>
    cases t with
    | text t g l =>
      rw [generate]
      refine ⟨.inr (.inl ?_), ih h⟩
      unfold isLiteral textLine
      split <;> rename_i hc <;> split at hc <;> first | rfl | cases hc | simp_all
    | other ls l => rw [generate]; exact gen_lines h.1 (ih h.2)
    | indent => rw [generate]; exact ih (m := m) h
    | dedent => rw [generate]; exact ih (m := m) h

theorem generate_append (as bs : List FTok) (d : Nat) : ∃ d', generate d (as ++ bs) = generate d as ++ generate d' bs := by
  induction as generalizing d with
  | nil => exact ⟨d, by rw [generate]; rfl⟩
  | cons t ts ih =>
    cases t with
    | text t g l => obtain ⟨d', h⟩ := ih d; exact ⟨d', by simp only [List.cons_append, generate, h]⟩
    | other ls l => obtain ⟨d', h⟩ := ih d; exact ⟨d', by simp only [List.cons_append, generate, h, List.append_assoc]⟩
    | indent => obtain ⟨d', h⟩ := ih (d + 4); exact ⟨d', by simp only [List.cons_append, generate, h]⟩
    | dedent => obtain ⟨d', h⟩ := ih (d - 4); exact ⟨d', by simp only [List.cons_append, generate, h]⟩

theorem mem_generate {ts : List FTok} {ls : List (Nat × PLine)} {l : Nat} (h : .other ls l ∈ ts) {p : Nat × PLine} (hp : p ∈ ls)
    (d : Nat) : ∃ i, ⟨i, p.2, l⟩ ∈ generate d ts := by
  obtain ⟨as, bs, rfl⟩ := List.append_of_mem h
  obtain ⟨d', k⟩ := generate_append as (.other ls l :: bs) d
  refine ⟨d' + 4 * p.1, ?_⟩
  rw [k, generate]
  exact List.mem_append_right _ (List.mem_append_left _ (List.mem_map.2 ⟨p, hp, rfl⟩))

theorem opt_other (ls : List (Nat × PLine)) (l : Nat) (ts : List FTok) :
    optimize (.other ls l :: ts) = .other ls l :: optimize ts := by
  unfold optimize
  rw [optimizeAux]
  cases ts <;> rfl

theorem opt_dedent (as bs : List FTok) (last : Option FTok) :
    optimizeAux last (as ++ .dedent :: bs) = optimizeAux last as ++ .dedent :: optimizeAux none bs := by
  have base : optimizeAux (some .dedent) bs = .dedent :: optimizeAux none bs := by cases bs <;> rfl
  induction as generalizing last with
  | nil =>
    cases last with
    | none => exact base
    | some y => cases y <;> exact congrArg (_ :: ·) base
  | cons x xs ih =>
    cases last with
    | none => rw [List.cons_append, optimizeAux, optimizeAux]; exact ih _
    | some y =>
      cases y with
      | text a g l =>
        cases x with
        | text b g' l' =>
          rw [List.cons_append, optimizeAux, optimizeAux]
          split
          · exact ih _
          · rw [ih]; rfl
        | _ => exact congrArg (_ :: ·) (ih _)
      | _ => cases x <;> exact congrArg (_ :: ·) (ih _)

theorem python_zero {ps : List (List Str × Nat)} (h : ∀ p ∈ ps, p.2 = 0) {m : Nat} :
    Exact m (ps.map (fun p => FTok.other (if p.1.isEmpty then [] else [(0, .pyChunk p.1)]) p.2)) ∧
    top (ps.map (fun p => FTok.other (if p.1.isEmpty then [] else [(0, .pyChunk p.1)]) p.2)) = 0 := by
  induction ps generalizing m with
  | nil => exact ⟨trivial, rfl⟩
  | cons p ps ih =>
    have h0 := h p List.mem_cons_self
    obtain ⟨h1, h2⟩ := ih (m := max m p.2) fun q hq => h q (List.mem_cons_of_mem _ hq)
    refine ⟨⟨.inl h0, h1⟩, ?_⟩
    rw [List.map_cons, top, h2, h0]
    rfl

/-- The lines of the main function and of what is before it, and the others. -/
theorem lines_main {u : Tmpl} (hm : ∀ p ∈ u.modPy, p.2 = 0) {body : List Ir} {rest : List Def} {hi : Nat}
    (hd : u.defs = ⟨mainDecl, body, 0⟩ :: rest) (hb : Part 0 hi (flatList body)) :
    ∃ LA LB, generatePython u = LA ++ LB ∧ LExact 0 LA ∧ (∃ l ∈ LA, isFunction l = true) ∧
      ∀ l ls, LB = l :: ls → isFunction l = true ∨ l.ln = 0 ∧ ls = [] := by
  have hopt : optimize (u.defs.flatMap flatDef) =
      optimize (.other [(0, .defLine true mainDecl)] 0 :: .indent :: orPass (bodyIter body)) ++ .dedent ::
        optimize (rest.flatMap flatDef) := by
    rw [hd, List.flatMap_cons, flatDef]
    unfold optimize
    rw [← opt_dedent]
    simp
  have hX : Exact 0 (optimize (.other [(0, .defLine true mainDecl)] 0 :: .indent :: orPass (bodyIter body))) := by
    refine (opt_exact _ none 0 ?_).1
    exact ⟨.inl rfl, hb.optimize.orPass.exact⟩
  obtain ⟨z1, z2⟩ := python_zero hm (m := 0)
  have hall : flatTmpl u = (u.modPy.map (fun p => FTok.other (if p.1.isEmpty then [] else [(0, .pyChunk p.1)]) p.2) ++
      (.other [(0, .classLine)] 0 :: .indent ::
        optimize (.other [(0, .defLine true mainDecl)] 0 :: .indent :: orPass (bodyIter body)))) ++
      (.dedent :: (optimize (rest.flatMap flatDef) ++ [.dedent, .other [(0, .tail)] 0])) := by
    rw [flatTmpl, hopt]
    simp
  obtain ⟨d', hg⟩ := generate_append (bs := .dedent :: (optimize (rest.flatMap flatDef) ++ [.dedent, .other [(0, .tail)] 0]))
    (as := u.modPy.map (fun p => FTok.other (if p.1.isEmpty then [] else [(0, .pyChunk p.1)]) p.2) ++
      (.other [(0, .classLine)] 0 :: .indent ::
        optimize (.other [(0, .defLine true mainDecl)] 0 :: .indent :: orPass (bodyIter body)))) (d := 0)
  rw [← hall] at hg
  refine ⟨_, _, hg, gen_exact (exact_append.2 ⟨z1, ?_⟩), ?_, ?_⟩
  · rw [z2]
    exact ⟨.inl rfl, hX⟩
  · obtain ⟨i, hi⟩ := mem_generate (p := (0, .defLine true mainDecl)) (l := 0) (ls := [(0, .defLine true mainDecl)])
      (ts := u.modPy.map (fun p => FTok.other (if p.1.isEmpty then [] else [(0, .pyChunk p.1)]) p.2) ++
      (.other [(0, .classLine)] 0 :: .indent ::
        optimize (.other [(0, .defLine true mainDecl)] 0 :: .indent :: orPass (bodyIter body))))
      (by rw [opt_other]; simp) (by simp) 0
    exact ⟨_, hi, rfl⟩
  · intro l ls h
    cases rest with
    | nil =>
      rw [List.flatMap_nil] at h
      have : generate d' (.dedent :: (optimize [] ++ [.dedent, .other [(0, .tail)] 0])) =
        [⟨d' - 4 - 4 + 4 * 0, .tail, 0⟩] := by simp [optimize, optimizeAux, generate]
      rw [this] at h
      cases h
      exact .inr ⟨rfl, rfl⟩
    | cons r rs =>
      rw [List.flatMap_cons, flatDef, List.cons_append, opt_other] at h
      simp only [List.cons_append, generate, List.map_cons, List.map_nil, List.nil_append, List.cons.injEq] at h
      rw [← h.1]
      exact .inl rfl

/-! ## What is reported -/

open Lnotab in
theorem pyLinenos_at (a c : List (Option Nat)) (v last : Nat) (hl : last ≤ v) (h : ∀ x ∈ a, x.getD 0 ≤ v) :
    (pyLinenos last (a ++ some v :: c))[a.length]? = some v := by
  induction a generalizing last with
  | nil =>
    simp only [List.nil_append, pyLinenos, Option.getD_some, List.length_nil, List.getElem?_cons_zero, Option.some.injEq]
    omega
  | cons x xs ih =>
    simp only [List.cons_append, pyLinenos, List.length_cons, List.getElem?_cons_succ]
    have := h x List.mem_cons_self
    exact ih _ (by omega) fun y hy => h y (List.mem_cons_of_mem _ hy)

theorem recorded_length {ls : List Line} (h : ∀ b ∈ ls, breaks b.code = 0) : (recorded ls).length = height ls := by
  induction ls with
  | nil => rfl
  | cons l ls ih =>
    have h0 := h l List.mem_cons_self
    have := ih fun b hb => h b (List.mem_cons_of_mem _ hb)
    unfold recorded height at *
    rw [List.flatMap_cons, List.length_append, List.length_replicate, this, List.map_cons, List.sum_cons, h0, Nat.add_zero]

theorem reported_at {before after : List Line} {line : Line} (hb : ∀ b ∈ before, breaks b.code = 0)
    (hle : ∀ b ∈ before, b.ln ≤ line.ln) {i : Nat} (hi : i < parts line.code) :
    reported (before ++ line :: after) (height before + i) = some line.ln := by
  have hr : recorded (before ++ line :: after) = (recorded before ++ List.replicate i (some line.ln)) ++
      some line.ln :: (List.replicate (parts line.code - i - 1) (some line.ln) ++ recorded after) := by
    have e : List.replicate (parts line.code) (some line.ln) = List.replicate i (some line.ln) ++
        some line.ln :: List.replicate (parts line.code - i - 1) (some line.ln) := by
      rw [← List.replicate_succ, List.replicate_append_replicate]
      congr 1
      omega
    unfold recorded
    rw [List.flatMap_append, List.flatMap_cons, e]
    simp
  have hlen : (recorded before ++ List.replicate i (some line.ln)).length = height before + i := by
    rw [List.length_append, List.length_replicate, recorded_length hb]
  unfold reported Lnotab.tplLine
  rw [if_neg (by omega), hr, Nat.add_sub_cancel, ← hlen]
  refine pyLinenos_at _ _ _ _ (Nat.zero_le _) fun x hx => ?_
  rcases List.mem_append.1 hx with hx | hx
  · obtain ⟨b, h1, h2⟩ := List.mem_flatMap.1 hx
    rw [(List.mem_replicate.1 h2).2]
    exact hle b h1
  · rw [(List.mem_replicate.1 hx).2]
    exact Nat.le_refl _

/-! ## Lines of expressions -/

/-- What a line shows. -/
def showsExpr : PLine → Option Str
  | .yieldCode c => some c
  | .yieldEscape c => some c
  | _ => none

/-- The lines that show expressions are of expressions in `R`. -/
def Known (R : Nat → Str → Prop) (ts : List FTok) : Prop :=
  ∀ ls l, .other ls l ∈ ts → l ≠ 0 → ∀ p ∈ ls, ∀ c, showsExpr p.2 = some c → R l c

theorem mem_optimizeAux {ls : List (Nat × PLine)} {l : Nat} : ∀ (ts : List FTok) (last : Option FTok),
    .other ls l ∈ optimizeAux last ts → .other ls l ∈ last.toList ++ ts := by
  intro ts
  induction ts with
  | nil => intro last h; rw [List.append_nil]; cases last <;> exact h
  | cons x xs ih =>
    intro last h
    have keep : ∀ y, .other ls l ∈ y :: optimizeAux (some x) xs → .other ls l ∈ [y] ++ x :: xs := by
      intro y h
      rcases List.mem_cons.1 h with h | h
      · rw [h]; exact List.mem_cons_self
      · exact List.mem_cons_of_mem _ (ih (some x) h)
    cases last with
    | none => exact ih (some x) h
    | some y =>
      cases y with
      | text a g k =>
        cases x with
        | text b g' k' =>
          rw [optimizeAux] at h
          split at h
          · have := ih _ h
            simp only [Option.toList, List.cons_append, List.nil_append, List.mem_cons, reduceCtorEq, false_or] at this ⊢
            exact this
          · exact keep _ h
        | _ => exact keep _ h
      | _ => cases x <;> exact keep _ h

variable {S : Nat → Str → Prop}

theorem Known.optimize {ts : List FTok} (h : Known S ts) : Known S (optimize ts) := fun ls l k =>
  h ls l (mem_optimizeAux ts none k)

theorem known_append {as bs : List FTok} (h : Known S as) (k : Known S bs) : Known S (as ++ bs) := fun ls l m =>
  (List.mem_append.1 m).elim (h ls l) (k ls l)
theorem known_nil : Known S [] := fun _ _ m => by cases m
theorem known_zero {ls : List (Nat × PLine)} {ts : List FTok} (k : Known S ts) : Known S (.other ls 0 :: ts) := fun ls' l m h0 => by
  rcases List.mem_cons.1 m with m | m
  · cases m; exact absurd rfl h0
  · exact k ls' l m h0
theorem known_other {ls : List (Nat × PLine)} {l : Nat} {ts : List FTok} (h : ∀ p ∈ ls, showsExpr p.2 = none) (k : Known S ts) :
    Known S (.other ls l :: ts) := fun ls' l' m h0 => by
  rcases List.mem_cons.1 m with m | m
  · cases m
    intro p hp c hc
    rw [h p hp] at hc
    cases hc
  · exact k ls' l' m h0
theorem known_indent {ts : List FTok} (k : Known S ts) : Known S (.indent :: ts) := fun ls l m => k ls l (by simpa using m)
theorem known_dedent {ts : List FTok} (k : Known S ts) : Known S (.dedent :: ts) := fun ls l m => k ls l (by simpa using m)
theorem known_text {t : Str} {g : Option Str} {n : Nat} {ts : List FTok} (k : Known S ts) : Known S (.text t g n :: ts) :=
  fun ls l m => k ls l (by simpa using m)
theorem Known.orPass {ts : List FTok} (k : Known S ts) : Known S (orPass ts) := by
  cases ts with
  | nil => exact known_zero known_nil
  | cons t ts => exact k
theorem known_attrStream {n m : Str} {ln : Nat} {v : List FTok} {e : Bool} (k : Known S v) : Known S (attrStream n m ln v e) := by
  unfold attrStream
  refine known_other (by simp [showsExpr]) (known_indent (known_append ?_ (known_dedent (known_zero known_nil))))
  split
  · exact known_text known_nil
  · exact k.optimize

mutual
theorem known_flat (x : Ir) : Known (fun l c => (l, Read.expression c) ∈ reads x) (flat x) := by
  cases x with
  | text t g l => simp only [flat]; exact known_text known_nil
  | trans t l => simp only [flat]; split <;> exact known_other (by simp [showsExpr]) known_nil
  | expr c s l =>
    intro ls l' m h0 p hp d hd
    simp only [flat, List.mem_singleton, FTok.other.injEq] at m
    obtain ⟨rfl, rfl⟩ := m
    rw [List.mem_singleton] at hp
    subst hp
    have : d = c := by cases s <;> simp [showsExpr] at hd <;> exact hd.symm
    subst this
    simp [reads]
  | attr n m g v l =>
    simp only [flat, reads]
    split
    · exact known_zero (known_indent (known_append (known_attrStream (known_list v)).optimize (known_dedent known_nil)))
    · exact known_attrStream (known_list v)
  | attrs c m g l => simp only [flat]; split <;> exact known_other (by simp [showsExpr]) known_nil
  | python c l => cases c <;> simp only [flat] <;> exact known_other (by simp [showsExpr]) known_nil
  | imp n a l => simp only [flat]; exact known_other (by simp [showsExpr]) known_nil
  | incl n l => simp only [flat]; exact known_other (by simp [showsExpr]) known_nil
  | ext n l => simp only [flat]; exact known_other (by simp [showsExpr]) known_nil
  | pass l => simp only [flat]; exact known_other (by simp [showsExpr]) known_nil
  | innerDef d b l =>
    simp only [flat, reads]
    exact known_other (by simp [showsExpr]) (known_indent (known_append (known_list b).optimize.orPass (known_dedent known_nil)))
  | call d c b l =>
    simp only [flat, reads]
    exact known_other (by simp [showsExpr])
      (known_indent (known_append (known_list b).optimize (known_dedent (known_zero known_nil))))
  | withN vs b l =>
    simp only [flat, reads]
    refine known_other ?_ (known_append (known_list b).optimize (known_zero known_nil))
    intro p hp
    rcases List.mem_cons.1 hp with rfl | hp
    · rfl
    · obtain ⟨kv, -, rfl⟩ := List.mem_map.1 hp
      rfl
  | switchN e b l =>
    simp only [flat, reads]
    exact known_other (by simp [showsExpr]) (known_append (known_list b).optimize (known_zero known_nil))
  | forN e b l =>
    simp only [flat, reads]
    exact known_other (by simp [showsExpr]) (known_indent (known_append (known_list b).optimize (known_dedent known_nil)))
  | caseN e b l =>
    simp only [flat, reads]
    exact known_other (by simp [showsExpr]) (known_indent (known_append (known_list b).optimize (known_dedent known_nil)))
  | ifN e b l =>
    simp only [flat, reads]
    exact known_other (by simp [showsExpr]) (known_indent (known_append (known_list b).optimize (known_dedent known_nil)))
  | elseN b l =>
    simp only [flat, reads]
    exact known_other (by simp [showsExpr]) (known_indent (known_append (known_list b).optimize (known_dedent known_nil)))

theorem known_list (xs : List Ir) : Known (fun l c => (l, Read.expression c) ∈ readsList xs) (flatList xs) := by
  cases xs with
  | nil => exact known_nil
  | cons x xs =>
    rw [flatList, readsList]
    exact known_append (fun ls l m h0 p hp c hc => List.mem_append_left _ (known_flat x ls l m h0 p hp c hc))
      (fun ls l m h0 p hp c hc => List.mem_append_right _ (known_list xs ls l m h0 p hp c hc))
end

theorem known_tmpl (u : Tmpl) : Known (fun l c => (l, Read.expression c) ∈ readsTmpl u) (flatTmpl u) := by
  unfold flatTmpl
  refine known_append ?_ (known_zero (known_indent (known_append (Known.optimize ?_) (known_dedent (known_zero known_nil)))))
  · intro ls l m h0 p hp c hc
    obtain ⟨q, -, h⟩ := List.mem_map.1 m
    cases h
    split at hp
    · cases hp
    · rw [List.mem_singleton.1 hp] at hc
      cases hc
  · intro ls l m h0 p hp c hc
    obtain ⟨d, hd, m⟩ := List.mem_flatMap.1 m
    refine List.mem_flatMap.2 ⟨d, hd, ?_⟩
    have : Known (fun l c => (l, Read.expression c) ∈ readsList d.body) (flatDef d) :=
      known_other (by simp [showsExpr]) (known_indent (known_append (known_list _).optimize.orPass (known_dedent known_nil)))
    exact this ls l m h0 p hp c hc

theorem generate_mem {ts : List FTok} {d : Nat} {line : Line} (h : line ∈ generate d ts) :
    (∃ t g, line.code = textLine t g) ∨ ∃ ls p, .other ls line.ln ∈ ts ∧ p ∈ ls ∧ line.code = p.2 := by
  induction ts generalizing d with
  | nil => rw [generate] at h; cases h
  | cons t ts ih =>
    have lift : ∀ {d'}, line ∈ generate d' ts →
        (∃ t g, line.code = textLine t g) ∨ ∃ ls p, .other ls line.ln ∈ t :: ts ∧ p ∈ ls ∧ line.code = p.2 := fun k =>
      (ih k).imp id fun ⟨ls, p, h1, h2, h3⟩ => ⟨ls, p, List.mem_cons_of_mem _ h1, h2, h3⟩
    cases t with
    | text t g l =>
      rw [generate] at h
      rcases List.mem_cons.1 h with rfl | h
      · exact .inl ⟨t, g, rfl⟩
      · exact lift h
    | other ls l =>
      rw [generate] at h
      rcases List.mem_append.1 h with h | h
      · obtain ⟨p, hp, rfl⟩ := List.mem_map.1 h
        exact .inr ⟨ls, p, List.mem_cons_self, hp, rfl⟩
      · exact lift h
    | indent => rw [generate] at h; exact lift h
    | dedent => rw [generate] at h; exact lift h

/-- What both C93 and C94 need: the lines of the main function. -/
theorem reported_main {u : Tmpl} {body : List Ir} {rest : List Def} {top : Nat} (hm : ∀ p ∈ u.modPy, p.2 = 0)
    (h1 : u.defs = ⟨mainDecl, body, 0⟩ :: rest) (h3 : Part 0 top (flatList body))
    {before : List Line} {line : Line} {after : List Line} (hs : generatePython u = before ++ line :: after)
    (hf : ((before ++ [line]).filter isFunction).length ≤ 1) (h0 : line.ln ≠ 0) (ht : isLiteral line = false)
    (hb : ∀ b ∈ before, breaks b.code = 0) {i : Nat} (hi : i < parts line.code) :
    reported (generatePython u) (height before + i) = some line.ln := by
  obtain ⟨LA, LB, g1, g2, ⟨f, f1, f2⟩, g3⟩ := lines_main hm h1 h3
  rw [hs]
  refine reported_at hb ?_ hi
  have hc : before ++ line :: after = LA ++ LB := by rw [← hs, g1]
  rcases List.append_eq_append_iff.1 hc with ⟨w, k1, k2⟩ | ⟨w, k1, k2⟩
  · cases w with
    | nil =>
      rw [List.nil_append] at k2
      rw [List.append_nil] at k1
      rcases g3 line after k2.symm with k | ⟨k, -⟩
      · exfalso
        rw [List.filter_append, List.length_append] at hf
        have p1 : 0 < (before.filter isFunction).length := List.length_pos_of_mem (List.mem_filter.2 ⟨k1 ▸ f1, f2⟩)
        have p2 : ([line].filter isFunction).length = 1 := by simp [k]
        omega
      · exact absurd k h0
    | cons x xs =>
      obtain ⟨rfl, rfl⟩ := List.cons.inj k2
      rw [k1] at g2
      exact (g2.le h0 ht).2
  · exfalso
    cases w with
    | nil =>
      rw [List.nil_append] at k2
      rw [List.append_nil] at k1
      rcases g3 line after k2 with k | ⟨k, -⟩
      · rw [List.filter_append, List.length_append] at hf
        have p1 : 0 < (before.filter isFunction).length := List.length_pos_of_mem (List.mem_filter.2 ⟨k1 ▸ f1, f2⟩)
        have p2 : ([line].filter isFunction).length = 1 := by simp [k]
        omega
      · exact absurd k h0
    | cons x xs =>
      rcases g3 x (xs ++ line :: after) k2 with k | ⟨-, k⟩
      · rw [k1, List.filter_append, List.filter_append, List.length_append, List.length_append] at hf
        have p1 : 0 < (LA.filter isFunction).length := List.length_pos_of_mem (List.mem_filter.2 ⟨f1, f2⟩)
        have p2 : 0 < ((x :: xs).filter isFunction).length := List.length_pos_of_mem (List.mem_filter.2 ⟨List.mem_cons_self, k⟩)
        omega
      · simp at k

/-! ## Bounds for what is reported -/

open Lnotab in
theorem pyLinenos_from (a : List (Option Nat)) (last : Nat) : ∀ x ∈ pyLinenos last a, x = last ∨ x = 0 ∨ some x ∈ a := by
  induction a generalizing last with
  | nil => intro x hx; cases hx
  | cons y ys ih =>
    intro x hx
    have hy : max last (y.getD 0) = last ∨ max last (y.getD 0) = 0 ∨ some (max last (y.getD 0)) = y := by
      cases y with
      | none => left; simp
      | some v =>
        rcases Nat.le_total last v with k | k
        · right; right; simp [Nat.max_eq_right k]
        · left; simp [Nat.max_eq_left k]
    have fin : x = max last (y.getD 0) → x = last ∨ x = 0 ∨ some x ∈ y :: ys := by
      rintro rfl
      rcases hy with k | k | k
      · exact .inl k
      · exact .inr (.inl k)
      · exact .inr (.inr (by rw [k]; exact List.mem_cons_self))
    simp only [pyLinenos, List.mem_cons] at hx
    rcases hx with hx | hx
    · exact fin hx
    · rcases ih _ x hx with k | k | k
      · exact fin k
      · exact .inr (.inl k)
      · exact .inr (.inr (List.mem_cons_of_mem _ k))

open Lnotab in
theorem pyLinenos_le (a c : List (Option Nat)) (v last : Nat) (k n : Nat) (hk : a.length ≤ k)
    (h : (pyLinenos last (a ++ some v :: c))[k]? = some n) : v ≤ n := by
  induction a generalizing last k with
  | nil =>
    have hv : v ≤ max last ((some v).getD 0) := Nat.le_max_right _ _
    cases k with
    | zero =>
      simp only [List.nil_append, pyLinenos, List.getElem?_cons_zero, Option.some.injEq] at h
      exact h ▸ hv
    | succ k =>
      simp only [List.nil_append, pyLinenos, List.getElem?_cons_succ] at h
      exact Nat.le_trans hv (pyLinenos_ge _ _ n (List.mem_of_getElem? h))
  | cons x xs ih =>
    cases k with
    | zero => simp at hk
    | succ k =>
      simp only [List.cons_append, pyLinenos, List.getElem?_cons_succ] at h
      exact ih _ k (Nat.le_of_succ_le_succ hk) h

theorem recorded_le (ls : List Line) : (recorded ls).length ≤ height ls := by
  induction ls with
  | nil => exact Nat.le_refl _
  | cons l ls ih =>
    unfold recorded height at *
    rw [List.flatMap_cons, List.length_append, List.length_replicate, List.map_cons, List.sum_cons]
    omega

theorem reported_le {before after : List Line} {line : Line} (hp : 0 < parts line.code) {i n : Nat}
    (h : reported (before ++ line :: after) (height before + i) = some n) : line.ln ≤ n := by
  obtain ⟨m, hm⟩ : ∃ m, parts line.code = m + 1 := ⟨_, (Nat.succ_pred_eq_of_pos hp).symm⟩
  unfold reported Lnotab.tplLine at h
  rw [if_neg (by omega), Nat.add_sub_cancel] at h
  have hr : recorded (before ++ line :: after) = recorded before ++ some line.ln :: (List.replicate m (some line.ln) ++ recorded after) := by
    unfold recorded
    rw [List.flatMap_append, List.flatMap_cons, hm, List.replicate_succ]
    rfl
  rw [hr] at h
  exact pyLinenos_le _ _ _ _ _ _ (Nat.le_trans (recorded_le before) (Nat.le_add_right _ _)) h

theorem reported_from {ls : List Line} {k n : Nat} (h : reported ls k = some n) : n = 0 ∨ ∃ l ∈ ls, l.ln = n := by
  unfold reported Lnotab.tplLine at h
  rw [if_neg (by omega)] at h
  rcases pyLinenos_from _ _ n (List.mem_of_getElem? h) with k | k | k
  · exact .inl k
  · exact .inl k
  · obtain ⟨l, h1, h2⟩ := List.mem_flatMap.1 k
    exact .inr ⟨l, h1, (Option.some.inj (List.mem_replicate.1 h2).2).symm⟩

open Lnotab in
theorem pyLinenos_max (a c : List (Option Nat)) (v last : Nat) (hs : ∀ x ∈ a, x ≠ none) :
    ∃ n, (pyLinenos last (a ++ some v :: c))[a.length]? = some n ∧ last ≤ n ∧ v ≤ n ∧ (∀ x, some x ∈ a → x ≤ n) ∧
      (n = last ∨ n = v ∨ some n ∈ a) := by
  induction a generalizing last with
  | nil =>
    refine ⟨max last v, rfl, Nat.le_max_left _ _, Nat.le_max_right _ _, nofun, ?_⟩
    rcases Nat.le_total last v with k | k
    · exact .inr (.inl (Nat.max_eq_right k))
    · exact .inl (Nat.max_eq_left k)
  | cons y ys ih =>
    cases y with
    | none => exact absurd rfl (hs none List.mem_cons_self)
    | some w =>
      obtain ⟨n, h1, h2, h3, h4, h5⟩ := ih (max last w) fun x hx => hs x (List.mem_cons_of_mem _ hx)
      refine ⟨n, h1, Nat.le_trans (Nat.le_max_left _ _) h2, h3, fun x hx => ?_, ?_⟩
      · rcases List.mem_cons.1 hx with hx | hx
        · cases hx; exact Nat.le_trans (Nat.le_max_right _ _) h2
        · exact h4 x hx
      · rcases h5 with h5 | h5 | h5
        · rcases Nat.le_total last w with k | k
          · rw [Nat.max_eq_right k] at h5; exact .inr (.inr (h5 ▸ List.mem_cons_self))
          · rw [Nat.max_eq_left k] at h5; exact .inl h5
        · exact .inr (.inl h5)
        · exact .inr (.inr (List.mem_cons_of_mem _ h5))

theorem reported_max {before after : List Line} {line : Line} (hb : ∀ b ∈ before, breaks b.code = 0) {i : Nat}
    (hi : i < parts line.code) :
    ∃ n, reported (before ++ line :: after) (height before + i) = some n ∧ (∃ l ∈ before ++ [line], l.ln = n) ∧
      ∀ l ∈ before ++ [line], 0 < parts l.code → l.ln ≤ n := by
  have hr : recorded (before ++ line :: after) = (recorded before ++ List.replicate i (some line.ln)) ++
      some line.ln :: (List.replicate (parts line.code - i - 1) (some line.ln) ++ recorded after) := by
    have e : List.replicate (parts line.code) (some line.ln) = List.replicate i (some line.ln) ++
        some line.ln :: List.replicate (parts line.code - i - 1) (some line.ln) := by
      rw [← List.replicate_succ, List.replicate_append_replicate]
      congr 1
      omega
    unfold recorded
    rw [List.flatMap_append, List.flatMap_cons, e]
    simp
  have hlen : (recorded before ++ List.replicate i (some line.ln)).length = height before + i := by
    rw [List.length_append, List.length_replicate, recorded_length hb]
  have hmem : ∀ x, x ∈ recorded before ++ List.replicate i (some line.ln) → ∃ l ∈ before ++ [line], x = some l.ln := by
    intro x hx
    rcases List.mem_append.1 hx with hx | hx
    · obtain ⟨b, h1, h2⟩ := List.mem_flatMap.1 hx
      exact ⟨b, List.mem_append_left _ h1, (List.mem_replicate.1 h2).2⟩
    · exact ⟨line, List.mem_append_right _ List.mem_cons_self, (List.mem_replicate.1 hx).2⟩
  obtain ⟨n, h1, -, h3, h4, h5⟩ := pyLinenos_max (recorded before ++ List.replicate i (some line.ln))
    (List.replicate (parts line.code - i - 1) (some line.ln) ++ recorded after) line.ln 0
    fun x hx => by obtain ⟨l, -, rfl⟩ := hmem x hx; exact nofun
  refine ⟨n, ?_, ?_, fun l hl hp => ?_⟩
  · unfold reported Lnotab.tplLine
    rw [if_neg (by omega), hr, Nat.add_sub_cancel, ← hlen]
    exact h1
  · rcases h5 with h5 | h5 | h5
    · exact ⟨line, List.mem_append_right _ List.mem_cons_self, by omega⟩
    · exact ⟨line, List.mem_append_right _ List.mem_cons_self, h5.symm⟩
    · obtain ⟨l, k1, k2⟩ := hmem _ h5
      exact ⟨l, k1, (Option.some.inj k2).symm⟩
  · rcases List.mem_append.1 hl with hl | hl
    · refine h4 _ (List.mem_append_left _ (List.mem_flatMap.2 ⟨l, hl, List.mem_replicate.2 ⟨by omega, rfl⟩⟩))
    · rw [List.mem_singleton.1 hl]; exact h3

end Kajiki.LinesGenL
