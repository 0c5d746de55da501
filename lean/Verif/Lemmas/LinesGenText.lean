import Verif.Lemmas.LinesGen
import Verif.Model.Text

/-!
# Lines of the code of text templates
-/

namespace Kajiki.LinesGenL

/-- The lines of texts and expressions do not decrease, from `lo` on. -/
def Sorted : Nat → List TTok → Prop
  | _, [] => True
  | lo, .text _ l :: ts => lo ≤ l ∧ Sorted l ts
  | lo, .expr _ l :: ts => lo ≤ l ∧ Sorted l ts
  | lo, .tag _ _ _ :: ts => Sorted lo ts
  | lo, .none :: ts => Sorted lo ts

theorem Sorted.mono {lo lo' : Nat} {ts : List TTok} (h : Sorted lo ts) (hl : lo' ≤ lo) : Sorted lo' ts := by
  induction ts generalizing lo lo' with
  | nil => trivial
  | cons t ts ih =>
    cases t with
    | text t l => exact ⟨Nat.le_trans hl h.1, h.2⟩
    | expr t l => exact ⟨Nat.le_trans hl h.1, h.2⟩
    | tag n b l => exact ih (lo := lo) h hl
    | none => exact ih (lo := lo) h hl

/-! ## Scanning -/

theorem token_sorted {py : PyCompile} {src : Str} {k : TKind} {pos ln : Nat} {t : TTok} {pos' ln' : Nat}
    (h : scanToken py src k pos ln = .ok (t, pos', ln')) {ts : List TTok} (hs : Sorted ln' ts) : Sorted ln (t :: ts) := by
  have tag : ∀ n, scanTag src n pos ln = .ok (t, pos', ln') → Sorted ln (t :: ts) := by
    intro n h
    unfold scanTag at h
    split at h
    · cases h
    · dsimp only at h
      split at h
      · split at h
        · cases h
        · cases h
          exact hs.mono (Nat.le_add_right _ _)
      · cases h
        exact hs.mono (Nat.le_add_right _ _)
  cases k with
  | braced =>
    simp only [scanToken, scanBraced] at h
    split at h
    · cases h; exact hs
    · cases h; exact ⟨Nat.le_add_right _ _, hs⟩
  | named n => cases h; exact ⟨Nat.le_refl _, hs⟩
  | escaped => cases h; exact ⟨Nat.le_refl _, hs⟩
  | bare n => cases h; exact hs.mono (Nat.le_add_right _ _)
  | ljust n => exact tag n h
  | begin_ n => exact tag n h
  | _ => cases h

theorem scan_sorted (py : PyCompile) (src : Str) (ms : List (Nat × Nat × TKind)) (pos ln : Nat) :
    Sorted ln (scanLoop py src pos ln ms).1 := by
  induction ms generalizing pos ln with
  | nil =>
    simp only [scanLoop]
    split
    · exact ⟨Nat.le_add_right _ _, trivial⟩
    · trivial
  | cons q ms ih =>
    obtain ⟨start, stop, k⟩ := q
    simp only [scanLoop]
    have before : ∀ b : List TTok × Nat × Nat, b = (if start > pos then
        ([.text (slice src pos start) (ln + countNL (slice src pos start))], start, ln + countNL (slice src pos start))
        else ([], pos, ln)) → ∀ ts, Sorted b.2.2 ts → Sorted ln (b.1 ++ ts) := by
      intro b hb ts h
      split at hb
      · subst hb; exact ⟨Nat.le_add_right _ _, h⟩
      · subst hb; exact h
    generalize hb : (if start > pos then
        ([TTok.text (slice src pos start) (ln + countNL (slice src pos start))], start, ln + countNL (slice src pos start))
        else ([], pos, ln)) = b
    have before := before b hb.symm
    split
    · exact before _ (ih _ _)
    · split
      · have := before [] trivial
        rwa [List.append_nil] at this
      · split
        · have := before [] trivial
          rwa [List.append_nil] at this
        · next h =>
          simp only [Toks.cons, List.append_assoc]
          exact before _ (token_sorted h (ih _ _))

/-! ## Parsing -/

/-- Python blocks for the module have no line, and the first function is the main one. -/
def TInv (s : TState) : Prop := (∀ p ∈ s.modPy, p.2 = 0) ∧ ∃ v r, s.funs = (mainDecl, v) :: r

theorem TInv.set {s : TState} (h : TInv s) (k : Str) (w : List Ir) : TInv { s with funs := s.funs.set k w } :=
  ⟨h.1, first_set h.2 k w⟩

/-- What parsing a body gives. -/
def BodyOk (lo : Nat) (r : List (Option Ir) × Option TTok × List TTok × TState) : Prop :=
  TInv r.2.2.2 ∧ ∃ hi, Part lo hi (flatList (present r.1)) ∧ Sorted hi r.2.2.1 ∧ ∀ t ∈ r.2.1, t = .none ∨ ∃ n b l, t = .tag n b l

/-- What parsing a tag gives. -/
def TagOk (lo : Nat) (r : Option Ir × List TTok × TState) : Prop :=
  TInv r.2.2 ∧ ∃ hi, Part lo hi (flatList (present [r.1])) ∧ Sorted hi r.2.1

theorem TBody.ok_cons {x : Option Ir} {b : TBody} {r : List (Option Ir) × Option TTok × List TTok × TState}
    (h : b.cons x = .ok r) : ∃ r', b = .ok r' ∧ r = (x :: r'.1, r'.2) := by
  cases b with
  | error e => cases h
  | ok r' => cases h; exact ⟨r', rfl, rfl⟩

theorem map_ok {α β : Type} {f : α → β} {x : Except Err α} {b : β} (h : x.map f = .ok b) : ∃ a, x = .ok a ∧ b = f a := by
  cases x with
  | error e => cases h
  | ok a => cases h; exact ⟨a, rfl, rfl⟩

theorem flat_some {lo hi : Nat} {x : Ir} (h : Part lo hi (flat x)) : Part lo hi (flatList (present [some x])) := by
  show Part lo hi (flatList [x])
  rw [flatList_one]
  exact h

theorem part_around0 {lo hi : Nat} {ls : List (Nat × PLine)} {b : List FTok} (hb : Part lo hi b) :
    Part lo hi (.other ls 0 :: .indent :: (optimize b ++ [.dedent])) :=
  (part_zero (Nat.le_refl _)).append ((hb.optimize.append (part_dedent (Nat.le_refl _))).indent)

theorem py_ok {lo hi : Nat} {text : Str} {st : TState} {r : Option Ir × TState} (hst : TInv st) (hle : lo ≤ hi)
    (h : finishPy text st = .ok r) : TInv r.2 ∧ Part lo hi (flatList (present [r.1])) := by
  unfold finishPy at h
  obtain ⟨p, -, rfl⟩ := map_ok h
  split
  · refine ⟨⟨fun q hq => ?_, hst.2⟩, part_nil hle⟩
    rcases List.mem_append.1 hq with hq | hq
    · exact hst.1 q hq
    · rw [List.mem_singleton.1 hq]
  · refine ⟨hst, flat_some ?_⟩
    cases p.2 <;> rw [flat] <;> exact part_zero hle

theorem block_ok {lo hi : Nat} {name : Str} {b : List Ir} {st : TState} {r : Option Ir × TState} (hst : TInv st) (hle : lo ≤ hi)
    (h : finishTextBlock name b st = .ok r) : TInv r.2 ∧ Part lo hi (flatList (present [r.1])) := by
  unfold finishTextBlock at h
  dsimp only at h
  split at h
  · obtain ⟨p, -, rfl⟩ := map_ok h
    exact ⟨hst.set _ _, part_nil hle⟩
  · cases h
    refine ⟨hst.set _ _, flat_some ?_⟩
    rw [flat]
    exact part_zero hle

theorem tag_ok {env : TEnv} {rec : List Str → List TTok → TState → TBody}
    (hrec : ∀ stops ts st lo r, TInv st → Sorted lo ts → rec stops ts st = .ok r → BodyOk lo r) {t : TTag} {body : Str}
    {ts : List TTok} {st : TState} {lo : Nat} {r : Option Ir × List TTok × TState} (hst : TInv st) (hs : Sorted lo ts)
    (h : parseTag env rec t body ts st = .ok r) : TagOk lo r := by
  have around : ∀ {f : List Ir → Ir} {stops}, (∀ {b hi}, Part lo hi (flatList b) → Part lo hi (flat (f b))) →
      bodyNode (rec stops ts st) f = .ok r → TagOk lo r := by
    intro f stops hf h
    obtain ⟨a, ha, rfl⟩ := map_ok h
    obtain ⟨h1, hi, h2, h3, -⟩ := hrec _ _ _ _ _ hst hs ha
    exact ⟨h1, hi, flat_some (hf h2), h3⟩
  have le := Nat.le_refl lo
  cases t with
  | defn =>
    simp only [parseTag] at h
    obtain ⟨a, ha, rfl⟩ := map_ok h
    obtain ⟨h1, hi, h2, h3, -⟩ := hrec _ _ _ _ _ (show TInv { st with inDef := true } from hst) hs ha
    split
    · refine ⟨h1, hi, flat_some ?_, h3⟩
      rw [flat]
      exact (part_zero (Nat.le_refl _)).append ((h2.optimize.orPass.append (part_dedent (Nat.le_refl _))).indent)
    · exact ⟨⟨h1.1, first_set h1.2 _ _⟩, hi, part_nil h2.le, h3⟩
  | call =>
    simp only [parseTag] at h
    split at h
    · cases h
    · obtain ⟨a, ha, rfl⟩ := map_ok h
      obtain ⟨h1, hi, h2, h3, -⟩ := hrec _ _ _ _ _ hst hs ha
      refine ⟨h1, hi, flat_some ?_, h3⟩
      rw [flat]
      exact (part_zero (Nat.le_refl _)).append
        ((h2.optimize.append ((part_dedent (Nat.le_refl _)).append (part_zero (Nat.le_refl _)))).indent)
  | ifT =>
    simp only [parseTag] at h
    cases hb : rec [endTagName, elseTagName] ts st with
    | error e => rw [hb] at h; cases h
    | ok a =>
      rw [hb] at h
      obtain ⟨h1, hi, h2, h3, -⟩ := hrec _ _ _ _ _ hst hs hb
      obtain ⟨xs, stop, ts', st'⟩ := a
      cases stop with
      | none => cases h
      | some s =>
        cases s with
        | tag n b l =>
          cases h
          refine ⟨h1, hi, flat_some ?_, ?_⟩
          · rw [flat]; exact part_around0 h2
          · dsimp only
            split
            · exact h3
            · exact h3
        | _ => cases h
  | forT =>
    rw [parseTag] at h
    exact around (fun hb => by rw [flat]; exact part_around0 hb) h
  | switch =>
    rw [parseTag] at h
    exact around (fun hb => by
      rw [flat]
      exact (part_zero (Nat.le_refl _)).append (hb.optimize.append (part_zero (Nat.le_refl _)))) h
  | case =>
    simp only [parseTag] at h
    cases hb : rec [caseTagName, elseTagName, endTagName] ts st with
    | error e => rw [hb] at h; cases h
    | ok a =>
      rw [hb] at h
      obtain ⟨h1, hi, h2, h3, h4⟩ := hrec _ _ _ _ _ hst hs hb
      obtain ⟨xs, stop, ts', st'⟩ := a
      cases h
      refine ⟨h1, hi, flat_some ?_, ?_⟩
      · rw [flat]; exact part_around0 h2
      · cases stop with
        | none => exact h3
        | some s => rcases h4 s rfl with rfl | ⟨n, b, l, rfl⟩ <;> exact h3
  | elseT =>
    rw [parseTag] at h
    exact around (fun hb => by rw [flat]; exact part_around0 hb) h
  | «extends» =>
    obtain ⟨w, -, rfl⟩ := map_ok h
    exact ⟨hst, lo, flat_some (by rw [flat]; exact part_zero le), hs⟩
  | imp =>
    obtain ⟨w, -, rfl⟩ := map_ok h
    exact ⟨hst, lo, flat_some (by rw [flat]; exact part_zero le), hs⟩
  | incl =>
    obtain ⟨w, -, rfl⟩ := map_ok h
    exact ⟨hst, lo, flat_some (by rw [flat]; exact part_zero le), hs⟩
  | py =>
    simp only [parseTag] at h
    split at h
    · split at h
      · cases h
      · next ha =>
        obtain ⟨h1, hi, h2, h3, -⟩ := hrec _ _ _ _ _ hst hs ha
        split at h
        · cases h
        · obtain ⟨a, ha, rfl⟩ := map_ok h
          obtain ⟨k1, k2⟩ := py_ok h1 h2.le ha
          exact ⟨k1, hi, k2, h3⟩
    · obtain ⟨a, ha, rfl⟩ := map_ok h
      obtain ⟨k1, k2⟩ := py_ok hst le ha
      exact ⟨k1, lo, k2, hs⟩
  | block =>
    simp only [parseTag] at h
    split at h
    · cases h
    · next ha =>
      obtain ⟨h1, hi, h2, h3, -⟩ := hrec _ _ _ _ _ hst hs ha
      obtain ⟨a, ha, rfl⟩ := map_ok h
      obtain ⟨k1, k2⟩ := block_ok h1 h2.le ha
      exact ⟨k1, hi, k2, h3⟩
  | body => cases h; exact ⟨hst, lo, part_nil le, hs⟩

theorem present_cons (x : Option Ir) (xs : List (Option Ir)) : present (x :: xs) = present [x] ++ present xs := by
  cases x <;> rfl

theorem body_cons {lo mid : Nat} {x : Option Ir} {r : List (Option Ir) × Option TTok × List TTok × TState}
    (h : Part lo mid (flatList (present [x]))) (hr : BodyOk mid r) : BodyOk lo (x :: r.1, r.2) := by
  obtain ⟨h1, hi, h2, h3⟩ := hr
  refine ⟨h1, hi, ?_, h3⟩
  rw [present_cons, flatList_append]
  exact h.append h2

theorem body_ok (env : TEnv) (n : Nat) : ∀ stops ts st lo r, TInv st → Sorted lo ts → parseBody env n stops ts st = .ok r →
    BodyOk lo r := by
  induction n with
  | zero => intro stops ts st lo r _ _ h; rw [parseBody] at h; cases h
  | succ n ih =>
    intro stops ts st lo r hst hs h
    cases ts with
    | nil =>
      rw [parseBody] at h
      split at h
      · cases h
      · cases h; exact ⟨hst, lo, part_nil (Nat.le_refl _), trivial, nofun⟩
    | cons t ts =>
      cases t with
      | text t l =>
        rw [parseBody] at h
        split at h
        · cases h
        · obtain ⟨r', h1, rfl⟩ := TBody.ok_cons h
          refine body_cons (flat_some ?_) (ih _ _ _ _ _ hst hs.2 h1)
          rw [flat]
          exact part_text hs.1 (Nat.le_refl _)
      | expr t l =>
        rw [parseBody] at h
        obtain ⟨r', h1, rfl⟩ := TBody.ok_cons h
        refine body_cons (flat_some ?_) (ih _ _ _ _ _ hst hs.2 h1)
        rw [flat]
        exact part_other hs.1 (Nat.le_refl _)
      | tag name body l =>
        rw [parseBody] at h
        split at h
        · cases h
          exact ⟨hst, lo, part_nil (Nat.le_refl _), hs, fun t ht => by cases ht; exact .inr ⟨_, _, _, rfl⟩⟩
        · split at h
          · cases h
          · split at h
            · cases h
            · next ht =>
              obtain ⟨k1, hi, k2, k3⟩ := tag_ok (lo := lo) ih hst (show Sorted lo ts from hs) ht
              obtain ⟨r', h1, rfl⟩ := TBody.ok_cons h
              exact body_cons k2 (ih _ _ _ _ _ k1 k3 h1)
      | none => rw [parseBody] at h; cases h

theorem text_main {py : PyCompile} {gen : Nat → Str} {autoescape : Bool} {filename : Option Str} {src : Str} {u : Tmpl}
    (h : textTemplate py gen autoescape filename src = .ok u) :
    (∀ p ∈ u.modPy, p.2 = 0) ∧ ∃ body rest hi, u.defs = ⟨mainDecl, body, 0⟩ :: rest ∧ Part 0 hi (flatList body) := by
  unfold textTemplate at h
  split at h
  · cases h
  · unfold parseText at h
    split at h
    · cases h
    · next xs stop ts st hb =>
      cases h
      obtain ⟨⟨h1, v, r, h2⟩, hi, h3, -⟩ := body_ok _ _ _ _ _ 0 _ ⟨fun p hp => (by cases hp), [], [], rfl⟩
        ((scan_sorted py src _ 0 1).mono (by omega)) hb
      refine ⟨h1, present xs, r.map fun f => ⟨f.1, f.2, 0⟩, hi, ?_, h3⟩
      show ((st.funs.set mainDecl _).map _) = _
      rw [show st.funs = (mainDecl, v) :: r from h2, Dict.set, if_pos rfl]
      rfl

end Kajiki.LinesGenL
