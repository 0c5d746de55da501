import Verif.Model.Lnotab

/-! Helper lemmas about line tables. -/

namespace Kajiki.Lnotab

/-- The lookup algorithm of the `lnotab.py` docstring, on the raw integers. -/
def lk : List Nat → Nat → Nat → Nat → Nat
  | a :: l :: rest, addr, line, A =>
    if addr + a > A then line else lk rest (addr + a) (line + l) A
  | _, _, line, _ => line

theorem lk_wideAux_byte (f d l rest addr line A) (h : d ≤ f) :
    lk (wideAux f d ++ l :: rest) addr line A =
      if addr + d > A then line else lk rest (addr + d) (line + l) A := by
  induction f generalizing d addr with
  | zero => simp [wideAux, lk]
  | succ f ih =>
    simp only [wideAux]
    split
    · rename_i hd
      simp only [List.cons_append, lk, Nat.add_zero]
      rw [ih _ _ (by omega)]
      by_cases h1 : addr + 255 > A
      · rw [if_pos h1, if_pos (by omega)]
      · rw [if_neg h1]
        have : addr + 255 + (d - 255) = addr + d := by omega
        rw [this]
    · simp [lk]

theorem lk_wideAux_line (f d rest addr line A) (h : d ≤ f) (hA : addr ≤ A) :
    lk (0 :: wideAux f d ++ rest) addr line A = lk rest addr (line + d) A := by
  induction f generalizing d line with
  | zero => simp [wideAux, lk]; omega
  | succ f ih =>
    simp only [wideAux]
    split
    · rename_i hd
      simp only [List.cons_append, lk, Nat.add_zero]
      rw [if_neg (by omega)]
      have := ih (d - 255) (line + 255) (by omega)
      simp only [List.cons_append] at this
      have e : line + 255 + (d - 255) = line + d := by omega
      rw [this, e]
    · simp [lk]; omega

theorem wideAux_shape (f d) : ∃ x tl, wideAux f d = x :: tl := by
  cases f with
  | zero => exact ⟨_, _, rfl⟩
  | succ f => simp only [wideAux]; split <;> exact ⟨_, _, rfl⟩

theorem lk_entry (bd ld rest addr line A) :
    lk (wide bd ++ wide ld ++ rest) addr line A =
      if addr + bd > A then line else lk rest (addr + bd) (line + ld) A := by
  obtain ⟨x, tl, hx⟩ := wideAux_shape ld ld
  have hw : wide ld = x :: tl := hx
  rw [List.append_assoc, hw, List.cons_append, wide, lk_wideAux_byte _ _ _ _ _ _ _ (Nat.le_refl _)]
  split
  · rfl
  · have hA : addr + bd ≤ A := by omega
    have := lk_wideAux_line ld ld rest (addr + bd) line A (Nat.le_refl _) hA
    rw [hx] at this
    simp only [List.cons_append, lk, Nat.add_zero] at this
    rw [if_neg (by omega)] at this
    exact this

theorem wideAux_le (f d) (h : d ≤ f) : ∀ b ∈ wideAux f d, b ≤ 255 := by
  induction f generalizing d with
  | zero => simp [wideAux]; omega
  | succ f ih =>
    simp only [wideAux]
    split
    · intro b hb
      simp only [List.mem_cons] at hb
      rcases hb with h | h | h
      · omega
      · omega
      · exact ih _ (by omega) b h
    · simp; omega

theorem wideAux_odd (f d) : (wideAux f d).length % 2 = 1 := by
  induction f generalizing d with
  | zero => simp [wideAux]
  | succ f ih =>
    simp only [wideAux]
    split
    · simp; have := ih (d - 255); omega
    · simp

/-- Pairs sorted in both components and starting at or after `(b, l)`. -/
def MonoFrom : Nat → Nat → List (Nat × Nat) → Prop
  | _, _, [] => True
  | b, l, (b', l') :: rest => b ≤ b' ∧ l ≤ l' ∧ MonoFrom b' l' rest

theorem encodeFrom_ok (b l pairs) (h : MonoFrom b l pairs) :
    ∃ bs, encodeFrom b l pairs = .ok bs ∧ (∀ x ∈ bs, x ≤ 255) ∧ bs.length % 2 = 0 := by
  induction pairs generalizing b l with
  | nil => exact ⟨[], rfl, by simp, rfl⟩
  | cons p rest ih =>
    obtain ⟨b', l'⟩ := p
    obtain ⟨hb, hl, hr⟩ := h
    obtain ⟨bs, hbs, hle, hev⟩ := ih b' l' hr
    refine ⟨_, by simp [encodeFrom, hbs, Nat.not_lt.2 hb, Nat.not_lt.2 hl]; rfl, ?_, ?_⟩
    · intro x hx
      simp only [List.mem_append] at hx
      rcases hx with hx | hx | hx
      · exact wideAux_le _ _ (Nat.le_refl _) x hx
      · exact wideAux_le _ _ (Nat.le_refl _) x hx
      · exact hle x hx
    · have h1 := wideAux_odd (b' - b) (b' - b)
      have h2 := wideAux_odd (l' - l) (l' - l)
      simp only [List.length_append, wide]; omega

theorem encodeFrom_mono (b l pairs bs) (h : encodeFrom b l pairs = .ok bs) :
    MonoFrom b l pairs := by
  induction pairs generalizing b l bs with
  | nil => trivial
  | cons p rest ih =>
    obtain ⟨b', l'⟩ := p
    simp only [encodeFrom] at h
    split at h
    · cases h
    · split at h
      · cases h
      · split at h
        · cases h
        · rename_i bs' heq
          exact ⟨by omega, by omega, ih _ _ _ heq⟩

/-- Result of the lookup stated on the pairs. -/
def lkPairs : Nat → List (Nat × Nat) → Nat → Nat
  | line, [], _ => line
  | line, (b, l) :: rest, A => if b > A then line else lkPairs l rest A

theorem lk_encodeFrom (b l pairs bs A) (h : encodeFrom b l pairs = .ok bs) :
    lk bs b l A = lkPairs l pairs A := by
  induction pairs generalizing b l bs with
  | nil => simp only [encodeFrom] at h; cases h; rfl
  | cons p rest ih =>
    obtain ⟨b', l'⟩ := p
    have hm := encodeFrom_mono _ _ _ _ h
    simp only [encodeFrom] at h
    split at h
    · cases h
    · split at h
      · cases h
      · split at h
        · cases h
        · rename_i bs' heq
          cases h
          rw [lk_entry]
          obtain ⟨hb, hl, _⟩ := hm
          have e1 : b + (b' - b) = b' := by omega
          have e2 : l + (l' - l) = l' := by omega
          rw [e1, e2, ih _ _ _ heq]
          rfl

/-- Spec-side lookup used in the property statements. -/
theorem lkPairs_eq (line b pairs A) (h : MonoFrom b line pairs) :
    lkPairs line pairs A =
      (((pairs.filter (·.1 ≤ A)).getLast?).map (·.2)).getD line := by
  induction pairs generalizing line b with
  | nil => rfl
  | cons p rest ih =>
    obtain ⟨b', l'⟩ := p
    obtain ⟨_, _, hr⟩ := h
    simp only [lkPairs]
    split
    · rename_i hgt
      have hall : ∀ q ∈ (b', l') :: rest, ¬ q.1 ≤ A := by
        intro q hq
        rcases List.mem_cons.1 hq with rfl | hq
        · simp; omega
        · have : ∀ (c m : Nat) (xs : List (Nat × Nat)), MonoFrom c m xs → ∀ q ∈ xs, c ≤ q.1 := by
            intro c m xs
            induction xs generalizing c m with
            | nil => simp
            | cons y ys ihy =>
              obtain ⟨y1, y2⟩ := y
              intro ⟨h1, _, h3⟩ q hq
              rcases List.mem_cons.1 hq with rfl | hq
              · exact h1
              · have := ihy _ _ h3 q hq; omega
          have := this _ _ _ hr q hq
          omega
      rw [List.filter_eq_nil_iff.2 (by simpa using hall)]
      rfl
    · rename_i hle
      rw [ih _ _ hr, List.filter_cons_of_pos (by simp; omega)]
      cases hf : rest.filter (·.1 ≤ A) with
      | nil => simp
      | cons y ys =>
        rw [List.getLast?_cons_cons, List.getLast?_eq_some_getLast (List.cons_ne_nil y ys)]; rfl

/-- `numbersFrom` on the raw integers. -/
def nf : Option Nat → Nat → Nat → List Nat → List (Nat × Nat)
  | last, cb, cl, a :: l :: rest =>
    if a ≠ 0 then
      if some cl ≠ last then (cb, cl) :: nf (some cl) (cb + a) (cl + l) rest
      else nf last (cb + a) (cl + l) rest
    else nf last cb (cl + l) rest
  | last, cb, cl, _ => if some cl ≠ last then [(cb, cl)] else []

/-- What is emitted before moving on to another offset. -/
def flush (last : Option Nat) (cb cl : Nat) : List (Nat × Nat) :=
  if some cl ≠ last then [(cb, cl)] else []

theorem nf_cons (last cb cl a l rest) :
    nf last cb cl (a :: l :: rest) =
      if a = 0 then nf last cb (cl + l) rest
      else flush last cb cl ++ nf (some cl) (cb + a) (cl + l) rest := by
  rw [nf, flush]
  by_cases h : a = 0
  · simp [h]
  · by_cases h2 : some cl = last
    · simp [h, h2]
    · simp [h, h2]

theorem bytePairs_nf (tab ps) (h : bytePairs tab = .ok ps) (last cb cl) :
    numbersFrom last cb cl ps = nf last cb cl tab := by
  induction tab using bytePairs.induct generalizing ps last cb cl with
  | case1 => cases h; simp [numbersFrom, nf]
  | case2 a => cases h
  | case3 a b rest e he ih => simp only [bytePairs, he] at h; cases h
  | case4 a b rest ps' he ih =>
    simp only [bytePairs, he] at h
    cases h
    simp only [numbersFrom, nf, ih _ he]

theorem bytePairs_even (tab) (h : tab.length % 2 = 0) : ∃ ps, bytePairs tab = .ok ps := by
  induction tab using bytePairs.induct with
  | case1 => exact ⟨[], rfl⟩
  | case2 a => simp at h
  | case3 a b rest e he ih => obtain ⟨ps, hp⟩ := ih (by simp at h; omega); rw [hp] at he; cases he
  | case4 a b rest ps' he ih => exact ⟨_, by simp [bytePairs, he]; rfl⟩

theorem nf_wideAux_byte (f d l rest last cb cl) (h : d ≤ f) :
    nf last cb cl (wideAux f d ++ l :: rest) =
      if d = 0 then nf last cb (cl + l) rest
      else flush last cb cl ++ nf (some cl) (cb + d) (cl + l) rest := by
  induction f generalizing d last cb with
  | zero => simp [wideAux, nf_cons]
  | succ f ih =>
    simp only [wideAux]
    split
    · rename_i hd
      simp only [List.cons_append, nf_cons, Nat.add_zero]
      rw [if_neg (by omega), ih _ _ _ (by omega), if_neg (by omega), if_neg (by omega)]
      have e : cb + 255 + (d - 255) = cb + d := by omega
      rw [e]
      simp [flush]
    · simp [nf_cons]

theorem nf_wideAux_line (f d rest last cb cl) (h : d ≤ f) :
    nf last cb cl (0 :: wideAux f d ++ rest) = nf last cb (cl + d) rest := by
  induction f generalizing d cl with
  | zero => simp [wideAux, nf_cons]
  | succ f ih =>
    simp only [wideAux]
    split
    · rename_i hd
      have := ih (d - 255) (cl + 255) (by omega)
      have e : cl + 255 + (d - 255) = cl + d := by omega
      simp only [List.cons_append, nf_cons, if_true] at this ⊢
      rw [this, e]
    · simp [nf_cons]

theorem nf_entry (bd ld rest last cb cl) :
    nf last cb cl (wide bd ++ wide ld ++ rest) =
      if bd = 0 then nf last cb (cl + ld) rest
      else flush last cb cl ++ nf (some cl) (cb + bd) (cl + ld) rest := by
  obtain ⟨x, tl, hx⟩ := wideAux_shape ld ld
  have hw : wide ld = x :: tl := hx
  rw [List.append_assoc, hw, List.cons_append, wide, nf_wideAux_byte _ _ _ _ _ _ _ (Nat.le_refl _)]
  have key : ∀ last cb, nf last cb (cl + x) (tl ++ rest) = nf last cb (cl + ld) rest := by
    intro last cb
    have := nf_wideAux_line ld ld rest last cb cl (Nat.le_refl _)
    rw [hx] at this
    simpa [nf_cons] using this
  rw [key, key]

/-- Decoding stated on the pairs that were encoded. -/
def numsPairs : Option Nat → Nat → Nat → List (Nat × Nat) → List (Nat × Nat)
  | last, cb, cl, [] => flush last cb cl
  | last, cb, cl, (b, l) :: rest =>
    if b = cb then numsPairs last cb l rest
    else flush last cb cl ++ numsPairs (some cl) b l rest

theorem nf_encodeFrom (b l pairs bs last) (h : encodeFrom b l pairs = .ok bs) :
    nf last b l bs = numsPairs last b l pairs := by
  induction pairs generalizing b l bs last with
  | nil => simp only [encodeFrom] at h; cases h; rfl
  | cons p rest ih =>
    obtain ⟨b', l'⟩ := p
    obtain ⟨hb, hl, _⟩ := encodeFrom_mono _ _ _ _ h
    simp only [encodeFrom] at h
    rw [if_neg (by omega), if_neg (by omega)] at h
    split at h
    · cases h
    · rename_i bs' heq
      cases h
      rw [nf_entry]
      have e1 : b + (b' - b) = b' := by omega
      have e2 : l + (l' - l) = l' := by omega
      rw [e1, e2, numsPairs]
      by_cases hbb : b' = b
      · subst hbb
        rw [if_pos (by omega), if_pos rfl, ih _ _ _ _ heq]
      · rw [if_neg (by omega), if_neg hbb, ih _ _ _ _ heq]

/-- Remove every pair whose line repeats the previous one. -/
def dropRepeats : Option Nat → List (Nat × Nat) → List (Nat × Nat)
  | _, [] => []
  | last, (b, l) :: rest =>
    if some l = last then dropRepeats last rest else (b, l) :: dropRepeats (some l) rest

theorem numsPairs_eq (last b l rest) (h : ((b, l) :: rest).Pairwise (·.1 < ·.1)) :
    numsPairs last b l rest = dropRepeats last ((b, l) :: rest) := by
  induction rest generalizing last b l with
  | nil =>
    simp only [numsPairs, dropRepeats, flush]
    by_cases h : some l = last <;> simp [h]
  | cons p rest ih =>
    obtain ⟨b', l'⟩ := p
    have hlt : b < b' := (List.pairwise_cons.1 h).1 _ (List.mem_cons_self ..)
    rw [numsPairs, if_neg (by omega), ih _ _ _ (List.pairwise_cons.1 h).2]
    conv => rhs; rw [dropRepeats]
    by_cases h : some l = last
    · rw [if_pos h, ← h]; simp [flush]
    · rw [if_neg h]; simp [flush, h]

theorem dropRepeats_id (last : Option Nat) (pairs) (h : pairs.Pairwise (·.2 < ·.2))
    (hl : ∀ p ∈ pairs, some p.2 ≠ last) : dropRepeats last pairs = pairs := by
  induction pairs generalizing last with
  | nil => rfl
  | cons p rest ih =>
    obtain ⟨b, l⟩ := p
    rw [dropRepeats, if_neg (hl _ (List.mem_cons_self ..)), ih _ (List.pairwise_cons.1 h).2]
    intro q hq
    have := (List.pairwise_cons.1 h).1 q hq
    simp at this ⊢
    omega

theorem nf_mono (last cb cl tab) : MonoFrom cb cl (nf last cb cl tab) := by
  induction tab using bytePairs.induct generalizing last cb cl with
  | case1 => rw [nf]; split <;> simp [MonoFrom]; simp
  | case2 a => rw [nf]; split <;> simp [MonoFrom]; simp
  | case3 a b rest e he ih | case4 a b rest e he ih =>
    have weak : ∀ (c m c' m' : Nat) (xs : List (Nat × Nat)), MonoFrom c' m' xs → c ≤ c' → m ≤ m' →
        MonoFrom c m xs := by
      intro c m c' m' xs h h1 h2
      cases xs with
      | nil => trivial
      | cons y ys => exact ⟨Nat.le_trans h1 h.1, Nat.le_trans h2 h.2.1, h.2.2⟩
    rw [nf_cons]
    split
    · exact weak _ _ _ _ _ (ih last cb (cl + b)) (Nat.le_refl _) (by omega)
    · have := weak cb cl _ _ _ (ih (some cl) (cb + a) (cl + b)) (by omega) (by omega)
      simp only [flush]
      split
      · exact ⟨Nat.le_refl _, Nat.le_refl _, this⟩
      · exact this

theorem lkPairs_lt (m b l pairs A) (h : MonoFrom b l pairs) (hA : A < b) :
    lkPairs m pairs A = m := by
  cases pairs with
  | nil => rfl
  | cons y ys => rw [lkPairs, if_pos]; have := h.1; omega

theorem lk_nf (m last cb cl tab A) (hA : cb ≤ A) (hm : last = none ∨ last = some m) :
    lkPairs m (nf last cb cl tab) A = lk tab cb cl A := by
  have base : lkPairs m (flush last cb cl) A = cl := by
    simp only [flush]
    rcases hm with rfl | rfl
    · simp [lkPairs]; omega
    · by_cases h : cl = m
      · simp [h, lkPairs]
      · simp [h, lkPairs]; omega
  induction tab using bytePairs.induct generalizing last m cb cl with
  | case1 => simpa [nf, lk, flush] using base
  | case2 a => simpa [nf, lk, flush] using base
  | case3 a b rest e he ih | case4 a b rest e he ih =>
    rw [nf_cons, lk]
    have base' : ∀ (m : Nat) (last : Option Nat) (cb cl : Nat), cb ≤ A →
        (last = none ∨ last = some m) → lkPairs m (flush last cb cl) A = cl := by
      intro m last cb cl hA hm
      simp only [flush]
      rcases hm with rfl | rfl
      · simp [lkPairs]; omega
      · by_cases h : cl = m
        · simp [h, lkPairs]
        · simp [h, lkPairs]; omega
    by_cases ha : a = 0
    · subst ha
      rw [if_pos rfl, if_neg (by omega)]
      exact ih m last _ _ hA hm (base' _ _ _ _ hA hm)
    · rw [if_neg ha]
      have h1 : lkPairs m (flush last cb cl ++ nf (some cl) (cb + a) (cl + b) rest) A =
          lkPairs cl (nf (some cl) (cb + a) (cl + b) rest) A := by
        simp only [flush]
        split
        · simp only [List.cons_append, List.nil_append, lkPairs]
          rw [if_neg (by omega)]
        · rename_i hn
          rcases hm with rfl | rfl
          · simp at hn
          · simp only [ne_eq, Option.some.injEq, Decidable.not_not] at hn
            simp [hn]
      rw [h1]
      split
      · rename_i hgt
        exact lkPairs_lt _ _ _ _ _ (nf_mono _ _ _ _) (by omega)
      · exact ih cl (some cl) _ _ (by omega) (Or.inr rfl) (base' _ _ _ _ (by omega) (Or.inr rfl))

theorem lkPairs_map (T : Nat → Nat) (m pairs A) :
    lkPairs (T m) (pairs.map fun p => (p.1, T p.2)) A = T (lkPairs m pairs A) := by
  induction pairs generalizing m with
  | nil => rfl
  | cons p rest ih =>
    obtain ⟨b, l⟩ := p
    simp only [List.map_cons, lkPairs]
    split
    · rfl
    · exact ih l

theorem mono_map (T : Nat → Nat) (b l pairs N) (h : MonoFrom b l pairs) (hl : 1 ≤ l)
    (hN : ∀ p ∈ pairs, p.2 ≤ N)
    (hT : ∀ x y, 1 ≤ x → x ≤ y → y ≤ N → T x ≤ T y) :
    MonoFrom b (T l) (pairs.map fun p => (p.1, T p.2)) := by
  induction pairs generalizing b l with
  | nil => trivial
  | cons p rest ih =>
    obtain ⟨b', l'⟩ := p
    obtain ⟨h1, h2, h3⟩ := h
    have := hN _ (List.mem_cons_self ..)
    exact ⟨h1, hT _ _ hl h2 this, ih _ _ h3 (Nat.le_trans hl h2)
      (fun q hq => hN q (List.mem_cons_of_mem _ hq))⟩

/-- Sum of the line increments of a table. -/
def lineSum : List Nat → Nat
  | _ :: l :: rest => l + lineSum rest
  | _ => 0

theorem nf_le (last cb cl tab) : ∀ p ∈ nf last cb cl tab, p.2 ≤ cl + lineSum tab := by
  induction tab using bytePairs.induct generalizing last cb cl with
  | case1 => simp only [nf, lineSum]; split <;> simp
  | case2 a => simp only [nf, lineSum]; split <;> simp
  | case3 a b rest e he ih | case4 a b rest e he ih =>
    rw [nf_cons, lineSum]
    intro p hp
    split at hp
    · have := ih _ _ _ p hp; omega
    · rcases List.mem_append.1 hp with hp | hp
      · simp only [flush] at hp
        split at hp
        · simp at hp; subst hp; simp
        · simp at hp
      · have := ih _ _ _ p hp; omega

theorem nf_ne_nil (cb cl tab) : nf none cb cl tab ≠ [] := by
  induction tab using bytePairs.induct generalizing cb cl with
  | case1 => simp [nf]
  | case2 a => simp [nf]
  | case3 a b rest e he ih | case4 a b rest e he ih =>
    rw [nf_cons]
    split
    · exact ih _ _
    · simp [flush]

theorem pyLinenos_ge (last ls) : ∀ x ∈ pyLinenos last ls, last ≤ x := by
  induction ls generalizing last with
  | nil => simp [pyLinenos]
  | cons l rest ih =>
    intro x hx
    simp only [pyLinenos, List.mem_cons] at hx
    rcases hx with rfl | hx
    · omega
    · have := ih _ x hx; omega

theorem pyLinenos_sorted (last ls) : (pyLinenos last ls).Pairwise (· ≤ ·) := by
  induction ls generalizing last with
  | nil => exact List.Pairwise.nil
  | cons l rest ih => exact List.pairwise_cons.2 ⟨pyLinenos_ge _ _, ih _⟩

theorem pyLinenos_length (last ls) : (pyLinenos last ls).length = ls.length := by
  induction ls generalizing last with
  | nil => rfl
  | cons l rest ih => simp [pyLinenos, ih]

end Kajiki.Lnotab
