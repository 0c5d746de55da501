import Verif.Model.Util
import Std.Data.String.ToNat
import Mathlib.Data.List.Perm.Subperm

/-! Helper lemmas for `Verif.Model.Util`. -/

namespace Kajiki

theorem natStr_inj {m n : Nat} (h : natStr m = natStr n) : m = n := by
  have h' : (toString m).toList = (toString n).toList := h
  have : toString m = toString n := String.toList_inj.mp h'
  exact Nat.repr_injective this

theorem candidate_inj {hint : Str} {m n : Nat} (h : candidate hint m = candidate hint n) : m = n := by
  unfold candidate at h
  have := List.append_cancel_left h
  exact natStr_inj (List.cons.inj this).2

theorem genLoop_fresh {hint : Str} {names : List Str} {draws : List Nat} {r0 r : Str}
    {rest : List Nat} (h : genLoop hint names r0 draws = some (r, rest)) : r ∉ names := by
  induction draws generalizing r0 with
  | nil =>
    simp only [genLoop] at h
    split at h
    · cases h
    · cases h; assumption
  | cons d draws ih =>
    simp only [genLoop] at h
    split at h
    · exact ih h
    · cases h; assumption

theorem genName_fresh {hint : Str} {names names' : List Str} {draws rest : List Nat} {r : Str}
    (h : genName names hint draws = some (r, names', rest)) : r ∉ names ∧ names' = r :: names := by
  unfold genName at h
  split at h
  · cases h
  · rename_i heq
    cases h
    exact ⟨genLoop_fresh heq, rfl⟩

theorem genNames_fresh (names hints : List Str) (draws : List Nat) :
    (genNames names hints draws).Nodup ∧ ∀ r ∈ genNames names hints draws, r ∉ names := by
  induction hints generalizing names draws with
  | nil => simp [genNames]
  | cons hint hints ih =>
    unfold genNames
    split
    · simp
    · rename_i r names' draws' heq
      obtain ⟨hr, rfl⟩ := genName_fresh heq
      obtain ⟨h1, h2⟩ := ih (r :: names) draws'
      refine ⟨List.nodup_cons.2 ⟨fun hm => ?_, h1⟩, ?_⟩
      · exact h2 r hm List.mem_cons_self
      · intro x hx
        rcases List.mem_cons.1 hx with rfl | hx
        · exact hr
        · exact fun hm => h2 x hx (List.mem_cons_of_mem _ hm)

theorem taken_le (hint : Str) (names : List Str) (m : Nat) :
    ((List.range m).filter fun d => decide (candidate hint d ∈ names)).length ≤ names.length := by
  have hnd : (((List.range m).filter fun d => decide (candidate hint d ∈ names)).map
      (candidate hint)).Nodup := by
    have : ((List.range m).filter fun d => decide (candidate hint d ∈ names)).Nodup :=
      List.nodup_range.filter _
    exact List.Pairwise.map (candidate hint) (fun _ _ hne h => hne (candidate_inj h)) this
  have hsub : (((List.range m).filter fun d => decide (candidate hint d ∈ names)).map
      (candidate hint)) ⊆ names := by
    intro x hx
    simp only [List.mem_map, List.mem_filter, decide_eq_true_eq] at hx
    obtain ⟨d, ⟨_, hd⟩, rfl⟩ := hx
    exact hd
  have := (List.subperm_of_subset hnd hsub).length_le
  simpa using this

/-! ### Windows -/

theorem windowRest_two {α} (a b : Option α) (xs : List α) :
    windowRest [a, b] xs = (List.zip (b :: xs.map some) (xs.map some)).map fun p => [p.1, p.2] := by
  induction xs generalizing a b with
  | nil => simp [windowRest]
  | cons x xs ih => simp [windowRest, dequePush, ih]

theorem window_two {α} (x : α) (xs : List α) :
    window 2 (x :: xs) =
      match xs with
      | [] => [[some x, none]]
      | y :: ys => [some x, some y] :: (List.zip (some y :: ys.map some) (ys.map some)).map
          fun p => [p.1, p.2] := by
  cases xs with
  | nil => simp [window, windowRest]
  | cons y ys => simp [window, windowRest_two]

/-! ### `withMatches` as a splitting of the text -/

/-- The text before the first match, and for every match its name and the text up to the next. -/
def splitAux : Nat → Bool → Str → Str × List (Str × Str)
  | _, _, [] => ([], [])
  | n + 1, _, c :: s => splitAux n (c == '\n') s
  | 0, bol, c :: s =>
    match withMatchAt bol (c :: s) with
    | some (lhs, len) =>
      let r := splitAux (len - 1) (c == '\n') s
      ([], (lhs, r.1) :: r.2)
    | none =>
      let r := splitAux 0 (c == '\n') s
      (c :: r.1, r.2)

/-- The assignments read off the match list. -/
def readMatches (vars : Str) : List (Str × Nat × Nat) → List (Str × Str)
  | [] => []
  | [(lhs, _, e)] => [(lhs, slice vars e vars.length)]
  | (lhs, _, e) :: (lhs', s2, e') :: ms =>
    (lhs, slice vars e s2) :: readMatches vars ((lhs', s2, e') :: ms)

theorem mapM_pairs (vars : Str) (m : Str × Nat × Nat) (ms : List (Str × Nat × Nat)) :
    (window 2 ((m :: ms).map some ++ [none])).mapM (m := Except Err) (readWindow vars) = .ok (readMatches vars (m :: ms)) := by
  obtain ⟨l, s, e⟩ := m
  rw [List.map_cons, List.cons_append, window_two]
  cases ms with
  | nil => simp [readMatches, readWindow, bind, Except.bind, pure, Except.pure]
  | cons m' ms =>
    simp only [List.map_cons, List.cons_append, List.mapM_cons, readMatches]
    obtain ⟨l', s', e'⟩ := m'
    have key : ∀ (m' : Str × Nat × Nat) (ms : List (Str × Nat × Nat)),
        (List.map (fun p : Option (Option (Str × Nat × Nat)) × Option (Option (Str × Nat × Nat)) =>
            [p.1, p.2])
          ((some (some m') :: (ms.map some ++ [none]).map some).zip
            ((ms.map some ++ [none]).map some))).mapM (m := Except Err) (readWindow vars) = .ok (readMatches vars (m' :: ms)) := by
      intro m' ms
      induction ms generalizing m' with
      | nil => obtain ⟨a, b, c⟩ := m'; simp [readMatches, readWindow, bind, Except.bind, pure, Except.pure]
      | cons m'' ms ih =>
        obtain ⟨a, b, c⟩ := m'
        obtain ⟨a', b', c'⟩ := m''
        have := ih (a', b', c')
        simp only [List.map_cons, List.cons_append, List.zip_cons_cons, List.mapM_cons,
          readMatches] at this ⊢
        rw [this]; rfl
    rw [key (l', s', e') ms]; rfl

theorem withMatchAt_len_pos {bol : Bool} {s : Str} {lhs : Str} {len : Nat}
    (h : withMatchAt bol s = some (lhs, len)) : 0 < len ∧ len ≤ s.length := by
  have ha : ∀ {s : Str} {lhs : Str} {len : Nat}, assignAt s = some (lhs, len) →
      0 < len ∧ len ≤ s.length := by
    intro s lhs len h
    unfold assignAt at h
    have hl := congrArg List.length (List.takeWhile_append_dropWhile (p := notSemiEq) (l := s))
    simp only [] at h
    split at h
    · cases h
    · cases h
    · rename_i heq _
      cases h
      rw [List.length_append, heq] at hl
      simp at hl; omega
    · cases h
  unfold withMatchAt at h
  split at h
  · rename_i m heq
    cases h
    split at heq
    · exact ha heq
    · cases heq
  · split at h
    · rename_i t _
      cases hx : assignAt t with
      | none => simp [hx] at h
      | some p =>
        obtain ⟨l, n⟩ := p
        simp [hx] at h
        have := ha hx
        obtain ⟨_, rfl⟩ := h
        simp; omega
    · cases h

/-- Reading the matches gives the pieces of `splitAux`. -/
theorem readMatches_eq (pre s : Str) (skip : Nat) (bol : Bool) (hs : skip ≤ s.length) :
    readMatches (pre ++ s) (withMatches skip bol pre.length s) = (splitAux skip bol s).2 ∧
    (splitAux skip bol s).1 = slice (pre ++ s) (pre.length + skip)
      (match withMatches skip bol pre.length s with
        | [] => (pre ++ s).length
        | (_, st, _) :: _ => st) := by
  induction s generalizing pre skip bol with
  | nil =>
    have : skip = 0 := by simpa using hs
    subst this
    simp [withMatches, splitAux, readMatches, slice]
  | cons c s ih =>
    have e1 : pre ++ c :: s = (pre ++ [c]) ++ s := by simp
    have e2 : (pre ++ [c]).length = pre.length + 1 := by simp
    cases skip with
    | succ n =>
      have := ih (pre ++ [c]) n (c == '\n') (by simpa using hs)
      rw [e2] at this
      simp only [withMatches, splitAux]
      rw [e1]
      refine ⟨this.1, ?_⟩
      rw [this.2]
      have e : pre.length + 1 + n = pre.length + (n + 1) := by omega
      rw [e]
    | zero =>
      cases hm : withMatchAt bol (c :: s) with
      | some p =>
        obtain ⟨lhs, len⟩ := p
        have hlen := withMatchAt_len_pos hm
        simp only [List.length_cons] at hlen
        have := ih (pre ++ [c]) (len - 1) (c == '\n') (by omega)
        rw [e2] at this
        simp only [withMatches, splitAux, hm]
        rw [e1]
        have e : pre.length + 1 + (len - 1) = pre.length + len := by omega
        rw [e] at this
        constructor
        · rw [← this.1, this.2]
          cases withMatches (len - 1) (c == '\n') (pre.length + 1) s with
          | nil => simp [readMatches]
          | cons m ms => obtain ⟨a, b, d⟩ := m; simp [readMatches]
        · simp [slice]
      | none =>
        have := ih (pre ++ [c]) 0 (c == '\n') (by omega)
        rw [e2] at this
        simp only [withMatches, splitAux, hm]
        rw [e1]
        refine ⟨this.1, ?_⟩
        rw [this.2]
        have hge : ∀ (s : Str) (k : Nat) (b : Bool) (p : Nat) (m : Str × Nat × Nat)
            (ms : List (Str × Nat × Nat)), withMatches k b p s = m :: ms → p ≤ m.2.1 := by
          intro s
          induction s with
          | nil => intro k b p m ms h; simp [withMatches] at h
          | cons c s ih =>
            intro k b p m ms h
            cases k with
            | succ k => simp only [withMatches] at h; have := ih _ _ _ _ _ h; omega
            | zero =>
              simp only [withMatches] at h
              split at h
              · cases h; simp
              · have := ih _ _ _ _ _ h; omega
        have hsl : ∀ e, pre.length + 1 ≤ e → c :: slice (pre ++ [c] ++ s) (pre.length + 1 + 0) e
            = slice (pre ++ [c] ++ s) (pre.length + 0) e := by
          intro e he
          unfold slice
          obtain ⟨k, rfl⟩ : ∃ k, e = pre.length + 1 + k := ⟨e - (pre.length + 1), by omega⟩
          have h3 : (pre ++ [c] ++ s).take (pre.length + 1 + k) = pre ++ c :: s.take k := by
            rw [List.append_assoc, List.take_append]
            have : pre.length + 1 + k - pre.length = k + 1 := by omega
            rw [this, List.take_of_length_le (by omega)]; simp
          rw [h3]
          simp [List.drop_append]
        cases hw : withMatches 0 (c == '\n') (pre.length + 1) s with
        | nil => exact hsl _ (by simp)
        | cons m ms => exact hsl _ (hge _ _ _ _ _ _ hw)

theorem withAssignments_eq (vars : Str) :
    withAssignments vars = if (splitAux 0 true vars).2 = [] then .error .attr
      else .ok (splitAux 0 true vars).2 := by
  have h := (readMatches_eq [] vars 0 true (by simp)).1
  simp only [List.nil_append, List.length_nil] at h
  unfold withAssignments
  simp only []
  rw [← h]
  cases hm : withMatches 0 true 0 vars with
  | nil => simp [readMatches]; rfl
  | cons m ms =>
    rw [mapM_pairs, if_neg]
    obtain ⟨a, b, c⟩ := m
    cases ms with
    | nil => simp [readMatches]
    | cons m' ms => obtain ⟨a', b', c'⟩ := m'; simp [readMatches]

/-! ### Splitting well-formed assignment lists -/

theorem assignAt_some {t : Str} {lhs : Str} {n : Nat} (h : assignAt t = some (lhs, n)) :
    ∃ m q : Str, t = m ++ '=' :: q ∧ m ≠ [] ∧ (∀ x ∈ m, notSemiEq x = true) ∧
      q.head? ≠ some '=' := by
  have ht := List.takeWhile_append_dropWhile (p := notSemiEq) (l := t)
  have hall : ∀ x ∈ t.takeWhile notSemiEq, notSemiEq x = true :=
    fun x hx => List.all_eq_true.1 List.all_takeWhile x hx
  unfold assignAt at h
  generalize t.takeWhile notSemiEq = run at h ht hall
  generalize t.dropWhile notSemiEq = rest at h ht
  cases run with
  | nil => simp at h
  | cons a m =>
    cases rest with
    | nil => simp at h
    | cons b q =>
      by_cases hb : b = '='
      · subst hb
        refine ⟨a :: m, q, ht.symm, by simp, hall, fun hh => ?_⟩
        cases q with
        | nil => simp at hh
        | cons d q => simp at hh; subst hh; simp at h
      · simp only [] at h
        split at h
        · cases h
        · rename_i heq _; cases heq; exact absurd rfl hb
        · rename_i heq _; cases heq; exact absurd rfl hb
        · cases h

theorem assignAt_run {m q : Str} (hm : m ≠ []) (hc : ∀ x ∈ m, notSemiEq x = true)
    (hq : q.head? ≠ some '=') : assignAt (m ++ '=' :: q) = some (strip m, m.length + 1) := by
  have h1 : (m ++ '=' :: q).takeWhile notSemiEq = m := by
    rw [List.takeWhile_append_of_pos hc]; simp [notSemiEq]
  have h2 : (m ++ '=' :: q).dropWhile notSemiEq = '=' :: q := by
    rw [List.dropWhile_append_of_pos hc]; simp [notSemiEq]
  unfold assignAt
  simp only [h1, h2]
  cases m with
  | nil => exact absurd rfl hm
  | cons a m =>
    cases q with
    | nil => rfl
    | cons b q =>
      have : b ≠ '=' := by simpa using hq
      split
      · rename_i h; cases h
      · rename_i h _; cases h; exact absurd rfl this
      · rfl
      · rename_i h; exact absurd rfl (h _)

theorem split_inside {rhs rest m q : Str} (h : rhs ++ rest = m ++ '=' :: q)
    (hm : ∀ x ∈ m, notSemiEq x = true) (hr : rest = [] ∨ ∃ t, rest = ';' :: t) :
    ∃ q' : Str, rhs = m ++ '=' :: q' ∧ q = q' ++ rest := by
  rcases List.append_eq_append_iff.1 h with ⟨a, h1, h2⟩ | ⟨a, h1, h2⟩
  · -- m = rhs ++ a, rest = a ++ '=' :: q
    rcases hr with rfl | ⟨t, rfl⟩
    · simp at h2
    · cases a with
      | nil => simp at h2
      | cons x a =>
        simp only [List.cons_append, List.cons.injEq] at h2
        have := hm x (by rw [h1]; simp)
        rw [← h2.1] at this
        simp [notSemiEq] at this
  · cases a with
    | nil =>
      simp only [List.nil_append] at h2
      rcases hr with rfl | ⟨t, rfl⟩
      · cases h2
      · simp at h2
    | cons x a =>
      simp only [List.cons_append, List.cons.injEq] at h2
      exact ⟨a, by rw [h1, ← h2.1], h2.2⟩

/-- No assignment starts inside `rhs`, entered with `^` matching iff `bol`. -/
def Quiet (bol : Bool) (rhs : Str) : Prop :=
  (bol = true → ∀ m q : Str, rhs = m ++ '=' :: q → m ≠ [] → (∀ x ∈ m, notSemiEq x = true) →
    q.head? = some '=') ∧
  (∀ (p : Str) (c : Char) (m q : Str), rhs = p ++ c :: (m ++ '=' :: q) → c = ';' ∨ c = '\n' →
    m ≠ [] → (∀ x ∈ m, notSemiEq x = true) → q.head? = some '=')

theorem quiet_tail {bol : Bool} {c : Char} {s : Str} (h : Quiet bol (c :: s)) :
    Quiet (c == '\n') s := by
  refine ⟨fun hb m q e hm hc => ?_, fun p d m q e hd hm hc => ?_⟩
  · exact h.2 [] c m q (by rw [e]; rfl) (Or.inr (by simpa using hb)) hm hc
  · exact h.2 (c :: p) d m q (by rw [e]; rfl) hd hm hc

theorem withMatchAt_none {bol : Bool} {rhs rest : Str} (hne : rhs ≠ []) (h : Quiet bol rhs)
    (hr : rest = [] ∨ ∃ t, rest = ';' :: t) : withMatchAt bol (rhs ++ rest) = none := by
  have key : ∀ {p t : Str} {x}, assignAt (t ++ rest) = some x → rhs = p ++ t →
      (∀ m q : Str, t = m ++ '=' :: q → m ≠ [] → (∀ x ∈ m, notSemiEq x = true) →
        q.head? = some '=') → False := by
    intro p t x hx _ hq
    obtain ⟨lhs, n⟩ := x
    obtain ⟨m, q, e, hm, hc, hh⟩ := assignAt_some hx
    obtain ⟨q', e1, e2⟩ := split_inside e hc hr
    have := hq m q' e1 hm hc
    apply hh
    rw [e2]
    cases q' with
    | nil => simp at this
    | cons a q' => simpa using this
  unfold withMatchAt
  have h1 : (if bol = true then assignAt (rhs ++ rest) else none) = none := by
    split
    · rename_i hb
      cases hx : assignAt (rhs ++ rest) with
      | none => rfl
      | some x => exact absurd (key (p := []) hx rfl (h.1 hb)) id
    · rfl
  rw [h1]
  cases rhs with
  | nil => exact absurd rfl hne
  | cons c t =>
    by_cases hc : c = ';'
    · subst hc
      simp only [List.cons_append]
      cases hx : assignAt (t ++ rest) with
      | none => rfl
      | some x =>
        exact absurd (key (p := [';']) hx rfl
          (fun m q e hm hc => h.2 [] ';' m q (by rw [e]; rfl) (Or.inl rfl) hm hc)) id
    · simp only [List.cons_append]
      split
      · rename_i heq; cases heq; exact absurd rfl hc
      · rfl

theorem splitAux_quiet {bol : Bool} {rhs rest : Str} (h : Quiet bol rhs)
    (hr : rest = [] ∨ ∃ t, rest = ';' :: t) :
    ∃ b, splitAux 0 bol (rhs ++ rest) = (rhs ++ (splitAux 0 b rest).1, (splitAux 0 b rest).2) := by
  induction rhs generalizing bol with
  | nil => exact ⟨bol, by simp⟩
  | cons c s ih =>
    have hn := withMatchAt_none (by simp) h hr
    obtain ⟨b, hb⟩ := ih (quiet_tail h)
    refine ⟨b, ?_⟩
    rw [List.cons_append] at hn ⊢
    simp only [splitAux, hn, hb, List.cons_append]

theorem splitAux_skip (y : Str) (b : Bool) (s : Str) :
    splitAux (y.length + 1) b (y ++ '=' :: s) = splitAux 0 false s := by
  induction y generalizing b with
  | nil => simp [splitAux]
  | cons c y ih => simp only [List.length_cons, List.cons_append, splitAux]; exact ih _

/-- An assignment at an anchor: `^` (with `bol`). -/
theorem splitAux_bol {m q : Str} (hm : m ≠ []) (hc : ∀ x ∈ m, notSemiEq x = true)
    (hq : q.head? ≠ some '=') :
    splitAux 0 true (m ++ '=' :: q) =
      ([], (strip m, (splitAux 0 false q).1) :: (splitAux 0 false q).2) := by
  cases m with
  | nil => exact absurd rfl hm
  | cons c y =>
    have := assignAt_run hm hc hq
    simp only [List.cons_append, splitAux]
    rw [show withMatchAt true (c :: (y ++ '=' :: q)) = some (strip (c :: y), (c :: y).length + 1) by
      unfold withMatchAt; simp only [if_true]
      rw [List.cons_append] at this; rw [this]]
    simp only [List.length_cons, Nat.add_sub_cancel]
    rw [splitAux_skip]

/-- An assignment at an anchor `;`. -/
theorem splitAux_semi {m q : Str} (b : Bool) (hm : m ≠ []) (hc : ∀ x ∈ m, notSemiEq x = true)
    (hq : q.head? ≠ some '=') :
    splitAux 0 b (';' :: (m ++ '=' :: q)) =
      ([], (strip m, (splitAux 0 false q).1) :: (splitAux 0 false q).2) := by
  have := assignAt_run hm hc hq
  have h0 : assignAt (';' :: (m ++ '=' :: q)) = none := by
    unfold assignAt; simp [notSemiEq]
  simp only [splitAux]
  rw [show withMatchAt b (';' :: (m ++ '=' :: q)) = some (strip m, m.length + 1 + 1) by
    unfold withMatchAt
    rw [h0]; simp [this]]
  simp only [Nat.add_sub_cancel]
  rw [splitAux_skip]

end Kajiki
