import Verif.Lemmas.Escape

/-! Helper lemmas about attribute sorting. -/

namespace Kajiki

theorem char_toNat_inj {a b : Char} (h : a.toNat = b.toNat) : a = b := by
  apply Char.ext; apply UInt32.toNat_inj.1; exact h

theorem strLt_irrefl (s : Str) : strLt s s = false := by
  induction s with
  | nil => rfl
  | cons a s ih => simp [strLt, ih]

theorem strLt_trans (a b c : Str) (h1 : strLt a b = true) (h2 : strLt b c = true) :
    strLt a c = true := by
  induction a generalizing b c with
  | nil =>
    cases c with
    | nil => cases b <;> simp [strLt] at h2
    | cons _ _ => rfl
  | cons x a ih =>
    cases b with
    | nil => simp [strLt] at h1
    | cons y b =>
      cases c with
      | nil => simp [strLt] at h2
      | cons z c =>
        simp only [strLt] at h1 h2 ⊢
        by_cases hxy : x.toNat < y.toNat
        · by_cases hyz : y.toNat < z.toNat
          · rw [if_pos (by omega)]
          · rw [if_neg hyz] at h2
            by_cases e : y = z
            · subst e; rw [if_pos hxy]
            · simp [e] at h2
        · rw [if_neg hxy] at h1
          by_cases e : x = y
          · subst e
            simp only [if_true] at h1
            by_cases hyz : x.toNat < z.toNat
            · rw [if_pos hyz]
            · rw [if_neg hyz] at h2 ⊢
              by_cases e2 : x = z
              · subst e2
                simp only [if_true] at h2 ⊢
                exact ih _ _ h1 h2
              · simp [e2] at h2
          · simp [e] at h1

theorem strLt_total (a b : Str) : strLt a b = true ∨ a = b ∨ strLt b a = true := by
  induction a generalizing b with
  | nil => cases b <;> simp [strLt]
  | cons x a ih =>
    cases b with
    | nil => simp [strLt]
    | cons y b =>
      simp only [strLt]
      rcases Nat.lt_trichotomy x.toNat y.toNat with h | h | h
      · simp [h]
      · have := char_toNat_inj h
        subst this
        simp only [Nat.lt_irrefl, if_false, if_true]
        rcases ih b with h | h | h
        · exact Or.inl h
        · right; left; rw [h]
        · exact Or.inr (Or.inr h)
      · right; right; simp [h]

theorem insertPair_perm (x l) : (insertPair x l).Perm (x :: l) := by
  induction l with
  | nil => exact List.Perm.refl _
  | cons y ys ih =>
    simp only [insertPair]
    split
    · exact List.Perm.refl _
    · exact (List.Perm.cons y ih).trans (List.Perm.swap x y ys)

theorem insertionSort_perm (l) : (insertionSort l).Perm l := by
  induction l with
  | nil => exact List.Perm.refl _
  | cons x xs ih => exact (insertPair_perm x _).trans (List.Perm.cons x ih)

theorem pairLe_of_ne {a b : Str × Val} (h : a.1 ≠ b.1) : pairLe a b = strLt a.1 b.1 := by
  simp only [pairLe, h, if_false]
  cases strLt a.1 b.1 <;> rfl

theorem insertPair_sorted (x l) (hl : l.Pairwise (fun a b => strLt a.1 b.1 = true))
    (hx : ∀ y ∈ l, x.1 ≠ y.1) :
    (insertPair x l).Pairwise (fun a b => strLt a.1 b.1 = true) := by
  induction l with
  | nil => exact List.pairwise_singleton _ _
  | cons y ys ih =>
    obtain ⟨h1, h2⟩ := List.pairwise_cons.1 hl
    have hne := hx y (List.mem_cons_self ..)
    simp only [insertPair, pairLe_of_ne hne]
    split
    · rename_i hlt
      refine List.pairwise_cons.2 ⟨?_, hl⟩
      intro z hz
      rcases List.mem_cons.1 hz with rfl | hz
      · exact hlt
      · exact strLt_trans _ _ _ hlt (h1 z hz)
    · rename_i hnlt
      have hyx : strLt y.1 x.1 = true := by
        rcases strLt_total x.1 y.1 with h | h | h
        · exact absurd h hnlt
        · exact absurd h hne
        · exact h
      refine List.pairwise_cons.2 ⟨?_, ih h2 (fun z hz => hx z (List.mem_cons_of_mem _ hz))⟩
      intro z hz
      rcases List.mem_cons.1 ((insertPair_perm x ys).mem_iff.1 hz) with rfl | hz
      · exact hyx
      · exact h1 z hz

theorem insertionSort_sorted (l : List (Str × Val)) (h : (l.map (·.1)).Nodup) :
    (insertionSort l).Pairwise (fun a b => strLt a.1 b.1 = true) := by
  induction l with
  | nil => exact List.Pairwise.nil
  | cons x xs ih =>
    simp only [List.map_cons, List.nodup_cons] at h
    refine insertPair_sorted x _ (ih h.2) ?_
    intro y hy heq
    have := (insertionSort_perm xs).mem_iff.1 hy
    exact h.1 (heq ▸ List.mem_map_of_mem this)

theorem anyClash_false (l : List (Str × Val)) (h : (l.map (·.1)).Nodup) : anyClash l = false := by
  induction l with
  | nil => rfl
  | cons x xs ih =>
    simp only [List.map_cons, List.nodup_cons] at h
    simp only [anyClash, ih h.2, Bool.or_false]
    simp only [List.any_eq_false]
    intro y hy
    have : x.1 ≠ y.1 := fun e => h.1 (e ▸ List.mem_map_of_mem hy)
    simp [clash, this]

theorem sorted_unique {l l' : List (Str × Val)} (hp : l.Perm l')
    (h : l.Pairwise (fun a b => strLt a.1 b.1 = true))
    (h' : l'.Pairwise (fun a b => strLt a.1 b.1 = true)) : l = l' := by
  refine hp.eq_of_pairwise ?_ h h'
  intro a b _ _ h1 h2
  have := strLt_trans _ _ _ h1 h2
  rw [strLt_irrefl] at this
  cases this

theorem sortAttrs_perm {l l' : List (Str × Val)} (hp : l.Perm l') (h : (l.map (·.1)).Nodup) :
    sortAttrs l = sortAttrs l' := by
  have h' : (l'.map (·.1)).Nodup := (hp.map _).nodup_iff.1 h
  simp only [sortAttrs, anyClash_false _ h, anyClash_false _ h']
  rw [sorted_unique (((insertionSort_perm l).trans hp).trans (insertionSort_perm l').symm)
    (insertionSort_sorted l h) (insertionSort_sorted l' h')]

end Kajiki
