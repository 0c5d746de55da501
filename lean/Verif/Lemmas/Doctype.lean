import Verif.Model.Doctype

/-! Helper lemmas for `Verif.Model.Doctype`. -/

namespace Kajiki

/-! ### Searching -/

theorem dtdAt_spec {s m : Str} (h : dtdAt s = some m) :
    ∃ run rest : Str, run ≠ [] ∧ (∀ c ∈ run, c ≠ '>') ∧ m = dtdOpen ++ run ++ ['>'] ∧
      s = m ++ rest := by
  unfold dtdAt at h
  split at h
  · rename_i hp
    have hs := List.prefix_iff_eq_append.1 (List.isPrefixOf_iff_prefix.1 hp)
    simp only [] at h
    generalize ht : s.drop dtdOpen.length = t at h hs
    have hsplit := List.takeWhile_append_dropWhile (p := (· != '>')) (l := t)
    have hall : ∀ c ∈ t.takeWhile (· != '>'), (c != '>') = true :=
      fun c hc => List.all_eq_true.1 List.all_takeWhile c hc
    have hhead := List.head?_dropWhile_not (p := (· != '>')) t
    generalize t.takeWhile (· != '>') = run at h hsplit hall
    generalize t.dropWhile (· != '>') = rest at h hsplit hhead
    split at h
    · cases h
    · rename_i hne
      cases rest with
      | nil => simp at h
      | cons c rest =>
        simp only [Option.some.injEq] at h
        simp only [List.head?_cons] at hhead
        have hc : c = '>' := by simpa using hhead
        subst hc
        refine ⟨run, rest, by simpa using hne, fun c hc => by simpa using hall c hc, h.symm, ?_⟩
        rw [← h, ← hs, ← hsplit]; simp
  · cases h

theorem dtdAt_of {run rest : Str} (hne : run ≠ []) (hr : ∀ c ∈ run, c ≠ '>') :
    dtdAt (dtdOpen ++ run ++ ['>'] ++ rest) = some (dtdOpen ++ run ++ ['>']) := by
  have hp : dtdOpen.isPrefixOf (dtdOpen ++ run ++ ['>'] ++ rest) = true := by
    rw [List.isPrefixOf_iff_prefix]; exact ⟨run ++ ['>'] ++ rest, by simp⟩
  have hd : (dtdOpen ++ run ++ ['>'] ++ rest).drop dtdOpen.length = run ++ '>' :: rest := by
    rw [List.append_assoc, List.append_assoc, List.drop_left]; simp
  have hall : ∀ c ∈ run, (c != '>') = true := fun c hc => by simpa using hr c hc
  unfold dtdAt
  rw [if_pos hp]
  simp only [hd]
  rw [List.takeWhile_append_of_pos hall, List.dropWhile_append_of_pos hall]
  cases run with
  | nil => exact absurd rfl hne
  | cons a t => simp

theorem dtdSearch_some {s m : Str} {i : Nat} (h : dtdSearch s = some (m, i)) :
    ∃ rest : Str, i ≤ s.length ∧ s = s.take i ++ m ++ rest ∧ dtdAt (s.drop i) = some m ∧
      ∀ j < i, dtdAt (s.drop j) = none := by
  induction s generalizing i with
  | nil => simp [dtdSearch] at h
  | cons c s ih =>
    unfold dtdSearch at h
    split at h
    · rename_i m' hm
      cases h
      obtain ⟨_, rest, _, _, _, hs⟩ := dtdAt_spec hm
      exact ⟨rest, by simp, by simpa using hs, by simpa using hm, by simp⟩
    · rename_i hn
      cases hx : dtdSearch s with
      | none => simp [hx] at h
      | some p =>
        obtain ⟨m', j⟩ := p
        simp [hx] at h
        obtain ⟨rfl, rfl⟩ := h
        obtain ⟨rest, h1, h2, h3, h4⟩ := ih hx
        refine ⟨rest, by simp; omega, by simpa using h2, by simpa using h3, ?_⟩
        intro k hk
        cases k with
        | zero => simpa using hn
        | succ k => simpa using h4 k (by omega)

theorem dtdSearch_none {s : Str} (h : dtdSearch s = none) : ∀ j, dtdAt (s.drop j) = none := by
  induction s with
  | nil => intro j; simp; decide
  | cons c s ih =>
    unfold dtdSearch at h
    split at h
    · cases h
    · rename_i hn
      intro j
      cases j with
      | zero => simpa using hn
      | succ j =>
        cases hx : dtdSearch s with
        | none => simpa using ih hx j
        | some p => simp [hx] at h

theorem removeFirst_at {s pat : Str} {i : Nat} (hp : pat.isPrefixOf (s.drop i) = true)
    (hne : pat ≠ []) (hi : i ≤ s.length)
    (hno : ∀ j < i, pat.isPrefixOf (s.drop j) = false) :
    removeFirst pat s = s.take i ++ (s.drop i).drop pat.length := by
  induction s generalizing i with
  | nil =>
    have : i = 0 := by simpa using hi
    subst this
    cases pat with
    | nil => exact absurd rfl hne
    | cons a t => simp at hp
  | cons c s ih =>
    unfold removeFirst
    cases i with
    | zero =>
      rw [List.drop_zero] at hp
      rw [if_pos hp]; simp
    | succ i =>
      have h0 := hno 0 (by omega)
      rw [List.drop_zero] at h0
      rw [if_neg (by rw [h0]; simp)]
      rw [ih (i := i) (by simpa using hp) (by simpa using hi)
        (fun j hj => by simpa using hno (j + 1) (by omega))]
      simp

theorem dtdAt_append {m rest : Str} (h : dtdAt m = some m) : dtdAt (m ++ rest) = some m := by
  obtain ⟨run, r, h1, h2, h3, h4⟩ := dtdAt_spec h
  rw [h3, dtdAt_of h1 h2]

theorem dtdAt_self {s m : Str} (h : dtdAt s = some m) : dtdAt m = some m := by
  obtain ⟨run, r, h1, h2, h3, h4⟩ := dtdAt_spec h
  have := dtdAt_of (rest := []) h1 h2
  rw [List.append_nil] at this
  rw [h3]; exact this

/-! ### Case folding -/

theorem fold_eq_self (c : Char) (h1 : ¬ ('A'.toNat ≤ c.toNat ∧ c.toNat ≤ 'Z'.toNat))
    (h2 : c.toNat ≠ 0x212a) (h3 : c.toNat ≠ 0x17f) (h4 : c.toNat ≠ 0x130) (h5 : c.toNat ≠ 0x131) :
    fold c = c := by
  unfold fold
  rw [if_neg h2, if_neg h3, if_neg (by simp [h4, h5])]
  unfold Char.toLower
  split
  · rename_i h
    exfalso; apply h1
    simp only [ge_iff_le, UInt32.le_iff_toNat_le] at h
    exact h
  · rfl

theorem char_cases (P : Char → Prop)
    (hother : ∀ c : Char, fold c = c → ¬ ('A'.toNat ≤ c.toNat ∧ c.toNat ≤ 'Z'.toNat) → P c)
    (hup : ∀ n ∈ List.range 26, P (Char.ofNat (65 + n)))
    (hsp : ∀ n ∈ [0x212a, 0x17f, 0x130, 0x131], P (Char.ofNat n)) (c : Char) : P c := by
  have hof : ∀ n, c.toNat = n → c = Char.ofNat n := fun n h => by rw [← h, Char.ofNat_toNat]
  by_cases h1 : 'A'.toNat ≤ c.toNat ∧ c.toNat ≤ 'Z'.toNat
  · have hA : 'A'.toNat = 65 := rfl
    have hZ : 'Z'.toNat = 90 := rfl
    rw [hof (65 + (c.toNat - 65)) (by omega)]
    exact hup _ (List.mem_range.2 (by omega))
  · by_cases h2 : c.toNat = 0x212a
    · rw [hof _ h2]; exact hsp _ (by simp)
    · by_cases h3 : c.toNat = 0x17f
      · rw [hof _ h3]; exact hsp _ (by simp)
      · by_cases h4 : c.toNat = 0x130
        · rw [hof _ h4]; exact hsp _ (by simp)
        · by_cases h5 : c.toNat = 0x131
          · rw [hof _ h5]; exact hsp _ (by simp)
          · exact hother c (fold_eq_self c h1 h2 h3 h4 h5) h1

theorem fold_fold (c : Char) : fold (fold c) = fold c := by
  refine char_cases (fun c => fold (fold c) = fold c) ?_ ?_ ?_ c
  · intro c h _; rw [h, h]
  · decide +kernel
  · decide +kernel

theorem isSpace_fold (c : Char) : isSpace (fold c) = isSpace c := by
  refine char_cases (fun c => isSpace (fold c) = isSpace c) ?_ ?_ ?_ c
  · intro c h _; rw [h]
  · decide +kernel
  · decide +kernel

theorem fold_toLower (c : Char) : fold c.toLower = fold c := by
  refine char_cases (fun c => fold c.toLower = fold c) ?_ ?_ ?_ c
  · intro c _ h
    have : c.toLower = c := by
      unfold Char.toLower
      split
      · rename_i h'
        exfalso; apply h
        simp only [ge_iff_le, UInt32.le_iff_toNat_le] at h'
        exact h'
      · rfl
    rw [this]
  · decide +kernel
  · decide +kernel

/-! ### Normal forms -/

/-- Case-folded text with whitespace runs collapsed to one blank. -/
def normAux : Bool → Str → Str
  | _, [] => []
  | b, c :: s =>
    if isSpace c then (if b then normAux true s else ' ' :: normAux true s)
    else fold c :: normAux false s

/-- Patterns whose literals are not whitespace and where no two `\s+` are adjacent. -/
def goodPat : List Pat → Bool
  | [] => true
  | .one c :: ps => !isSpace c && goodPat ps
  | .many c :: ps => !isSpace c && goodPat ps
  | .spaces :: .spaces :: _ => false
  | .spaces :: ps => goodPat ps

theorem normAux_true (s : Str) : normAux true s = normAux false (s.dropWhile isSpace) := by
  induction s with
  | nil => rfl
  | cons c s ih =>
    by_cases h : isSpace c = true
    · rw [List.dropWhile_cons_of_pos h, ← ih]; simp [normAux, h]
    · rw [List.dropWhile_cons_of_neg h]; simp [normAux, h]

theorem patMatch_spaces_step (ps : List Pat) (s : Str)
    (hg : goodPat (.spaces :: ps) = true) (c : Char) :
    patMatch (.spaces :: ps) (c :: s) = (isSpace c && patMatch ps (s.dropWhile isSpace)) := by
  induction s generalizing c with
  | nil =>
    cases ps with
    | nil => simp [patMatch]
    | cons p ps => cases p <;> simp [patMatch]
  | cons d s ih =>
    by_cases hd : isSpace d = true
    · rw [List.dropWhile_cons_of_pos hd]
      have hstep : patMatch (.spaces :: ps) (c :: d :: s) =
          (isSpace c && (patMatch (.spaces :: ps) (d :: s) || patMatch ps (d :: s))) := by
        simp [patMatch]
      rw [hstep, ih d]
      simp only [hd, Bool.true_and]
      -- a pattern that does not start with `\s+` cannot match at whitespace unless it is empty
      cases ps with
      | nil => simp [patMatch]
      | cons p ps =>
        cases p with
        | spaces => simp [goodPat] at hg
        | one q =>
          have hq : isSpace q = false := by
            simp [goodPat] at hg; exact hg.1
          have : (fold d == fold q) = false := by
            rw [beq_eq_false_iff_ne]
            intro e
            have h1 := isSpace_fold d
            have h2 := isSpace_fold q
            rw [e, h2, hq, hd] at h1; cases h1
          simp [patMatch, this]
        | many q =>
          have hq : isSpace q = false := by
            simp [goodPat] at hg; exact hg.1
          have : (fold d == fold q) = false := by
            rw [beq_eq_false_iff_ne]
            intro e
            have h1 := isSpace_fold d
            have h2 := isSpace_fold q
            rw [e, h2, hq, hd] at h1; cases h1
          simp [patMatch, this]
    · rw [List.dropWhile_cons_of_neg hd]
      have hd' : isSpace d = false := by simpa using hd
      simp [patMatch, hd']

theorem normAux_length (b : Bool) (s : Str) : (normAux b s).length ≤ s.length := by
  induction s generalizing b with
  | nil => simp [normAux]
  | cons c s ih =>
    unfold normAux
    split
    · split
      · have := ih true; simp; omega
      · have := ih true; simp; omega
    · have := ih false; simp; omega

theorem isSpace_blank : isSpace ' ' = true := by decide

theorem literal_mismatch {c q : Char} (hc : isSpace c = true) (hq : isSpace q = false) :
    (fold c == fold q) = false := by
  rw [beq_eq_false_iff_ne]
  intro e
  have h1 := isSpace_fold c
  have h2 := isSpace_fold q
  rw [e, h2, hq, hc] at h1; cases h1

theorem goodPat_tail {p : Pat} {ps : List Pat} (h : goodPat (p :: ps) = true) :
    goodPat ps = true := by
  cases p with
  | one c => simp [goodPat] at h; exact h.2
  | many c => simp [goodPat] at h; exact h.2
  | spaces =>
    cases ps with
    | nil => rfl
    | cons q ps => cases q <;> simp [goodPat] at h ⊢ <;> exact h

theorem patMatch_norm (n : Nat) : ∀ (s : Str) (ps : List Pat), s.length ≤ n → goodPat ps = true →
    patMatch ps (normAux false s) = patMatch ps s := by
  induction n with
  | zero =>
    intro s ps hs _
    have : s = [] := List.length_eq_zero_iff.1 (by omega)
    subst this; rfl
  | succ n ih =>
    intro s ps hs hg
    cases s with
    | nil => rfl
    | cons c s =>
      simp only [List.length_cons] at hs
      cases ps with
      | nil => simp [patMatch]
      | cons p ps =>
        have hgt := goodPat_tail hg
        by_cases hc : isSpace c = true
        · have hn : normAux false (c :: s) = ' ' :: normAux true s := by simp [normAux, hc]
          rw [hn]
          cases p with
          | one q =>
            have hq : isSpace q = false := by simp [goodPat] at hg; exact hg.1
            simp [patMatch, literal_mismatch hc hq, literal_mismatch isSpace_blank hq]
          | many q =>
            have hq : isSpace q = false := by simp [goodPat] at hg; exact hg.1
            simp [patMatch, literal_mismatch hc hq, literal_mismatch isSpace_blank hq]
          | spaces =>
            rw [patMatch_spaces_step ps _ hg, patMatch_spaces_step ps _ hg, hc, isSpace_blank]
            have hlen : (s.dropWhile isSpace).length ≤ s.length :=
              (List.dropWhile_sublist _).length_le
            have hh : (normAux true s).dropWhile isSpace = normAux false (s.dropWhile isSpace) := by
              rw [normAux_true]
              have hhead := List.head?_dropWhile_not (p := isSpace) s
              cases hd : s.dropWhile isSpace with
              | nil => simp [normAux]
              | cons d t =>
                rw [hd] at hhead
                simp only [List.head?_cons] at hhead
                have hd' : isSpace d = false := by simpa using hhead
                have : normAux false (d :: t) = fold d :: normAux false t := by
                  simp [normAux, hd']
                rw [this, List.dropWhile_cons_of_neg (by rw [isSpace_fold, hd']; simp)]
            rw [hh, ih _ ps (by omega) hgt]
        · have hc' : isSpace c = false := by simpa using hc
          have hn : normAux false (c :: s) = fold c :: normAux false s := by simp [normAux, hc']
          rw [hn]
          cases p with
          | one q => simp only [patMatch]; rw [fold_fold, ih s ps (by omega) hgt]
          | many q =>
            simp only [patMatch]
            rw [fold_fold, ih s ps (by omega) hgt, ih s (.many q :: ps) (by omega) hg]
          | spaces => simp [patMatch, hc', isSpace_fold]

theorem byUri_good : byUri.all (fun e => goodPat (compileDtd e.2.str)) = true := by
  decide +kernel

theorem find_congr {α} (l : List α) (p q : α → Bool) (h : ∀ x ∈ l, p x = q x) :
    l.find? p = l.find? q := by
  induction l with
  | nil => rfl
  | cons a l ih =>
    simp only [List.find?_cons, h a (by simp)]
    rw [ih fun x hx => h x (by simp [hx])]

/-- `matching` only looks at the normal form. -/
theorem matching_norm (w : Str) : matching w = matching (normAux false w) := by
  unfold matching
  apply find_congr
  intro d hd
  obtain ⟨e, he, rfl⟩ := List.mem_map.1 hd
  have := List.all_eq_true.1 byUri_good e he
  exact (patMatch_norm w.length w _ (Nat.le_refl _) this).symm

end Kajiki
