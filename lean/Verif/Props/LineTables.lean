import Verif.Lemmas.Lnotab

/-!
# C49, C50, C51: line tables

The specification is the lookup algorithm quoted in the docstring of
`kajiki/lnotab.py` (lines 33-42), plus "line of the last pair at or before the
address".
-/

namespace Kajiki.Spec
open Kajiki

/-- Docstring algorithm: which line does address `A` belong to? -/
def lookup (tab : List Nat) (addr lineno A : Nat) : Nat :=
  match tab with
  | addrIncr :: lineIncr :: rest =>
    if addr + addrIncr > A then lineno
    else lookup rest (addr + addrIncr) (lineno + lineIncr) A
  | _ => lineno

/-- The same algorithm as CPython ≥ 3.6 runs it: line increments are signed bytes. -/
def lookupSigned (tab : List Nat) (addr : Nat) (lineno : Int) (A : Nat) : Int :=
  match tab with
  | addrIncr :: lineIncr :: rest =>
    if addr + addrIncr > A then lineno
    else lookupSigned rest (addr + addrIncr)
      (if lineIncr < 128 then lineno + lineIncr else lineno + lineIncr - 256) A
  | _ => lineno

/-- The line of the last pair whose offset is at or before `A`. -/
def lineAt (pairs : List (Nat × Nat)) (first A : Nat) : Nat :=
  (((pairs.filter (·.1 ≤ A)).getLast?).map (·.2)).getD first

/-- Offsets and lines never decrease and no line precedes `first`. -/
def Monotone (pairs : List (Nat × Nat)) (first : Nat) : Prop :=
  pairs.Pairwise (fun p q => p.1 ≤ q.1 ∧ p.2 ≤ q.2) ∧ ∀ p ∈ pairs, first ≤ p.2

/-- Total of the line increments of a table: the last line it can mention is
`first + totalLines tab`. -/
def totalLines : List Nat → Nat
  | _ :: l :: rest => l + totalLines rest
  | _ => 0

end Kajiki.Spec

namespace Kajiki.Props
open Kajiki Kajiki.Lnotab

theorem lookup_eq_lk (tab addr line A) : Spec.lookup tab addr line A = lk tab addr line A := by
  induction tab using bytePairs.induct generalizing addr line with
  | case1 => rfl
  | case2 a => rfl
  | case3 a b rest e he ih | case4 a b rest e he ih => rw [Spec.lookup, lk, ih]

theorem totalLines_eq (tab) : Spec.totalLines tab = lineSum tab := by
  induction tab using bytePairs.induct with
  | case1 => rfl
  | case2 a => rfl
  | case3 a b rest e he ih | case4 a b rest e he ih => rw [Spec.totalLines, lineSum, ih]

theorem monoFrom_of (pairs first b) (h : Spec.Monotone pairs first) (hb : ∀ p ∈ pairs, b ≤ p.1) :
    MonoFrom b first pairs := by
  induction pairs generalizing first b with
  | nil => trivial
  | cons p rest ih =>
    obtain ⟨h1, h2⟩ := h
    obtain ⟨hp, hr⟩ := List.pairwise_cons.1 h1
    exact ⟨hb _ (List.mem_cons_self ..), h2 _ (List.mem_cons_self ..),
      ih _ _ ⟨hr, fun q hq => (hp q hq).2⟩ (fun q hq => (hp q hq).1)⟩

/-- **C49** For every non-empty monotone list of (offset, line) pairs - any jump sizes -
`lnotab_string` succeeds, produces an even number of bytes (each at most 255), and
reading the result with the documented algorithm gives, for *every* address, the line
of the last pair at or before it. -/
theorem C49_lookup_faithful (pairs : List (Nat × Nat)) (first : Nat) (hne : pairs ≠ [])
    (h : Spec.Monotone pairs first) :
    ∃ bs, lnotabString pairs first = .ok bs ∧ bs.length % 2 = 0 ∧ (∀ b ∈ bs, b ≤ 255) ∧
      ∀ A, Spec.lookup bs 0 first A = Spec.lineAt pairs first A := by
  have hm := monoFrom_of pairs first 0 h (fun _ _ => Nat.zero_le _)
  obtain ⟨bs, hbs, hle, hev⟩ := encodeFrom_ok 0 first pairs hm
  refine ⟨bs, ?_, hev, hle, ?_⟩
  · cases pairs with
    | nil => exact absurd rfl hne
    | cons p rest =>
      have : first ≤ p.2 := hm.2.1
      simp only [lnotabString, encode, hbs, if_pos this]
      rw [if_pos]
      simpa using hle
  · intro A
    rw [lookup_eq_lk, lk_encodeFrom _ _ _ _ _ hbs, lkPairs_eq _ 0 _ _ hm]
    rfl

example : Spec.Monotone [(0, 1), (6, 2), (50, 7), (350, 307), (361, 308)] 1 := by
  constructor <;> decide
example : lnotabString [(0, 1), (6, 2), (50, 7), (350, 307), (361, 308)] 1 =
    .ok [0, 0, 6, 1, 44, 5, 255, 0, 45, 255, 0, 45, 11, 1] := by decide

/-- **C49** Decoding what was encoded returns the pairs themselves, for strictly
increasing offsets starting at 0 and strictly increasing lines of any size. -/
theorem C49_decode_encode (first l0 : Nat) (rest : List (Nat × Nat))
    (hb : ((0, l0) :: rest).Pairwise (·.1 < ·.1)) (hl : ((0, l0) :: rest).Pairwise (·.2 < ·.2))
    (hf : first ≤ l0) :
    ∃ bs, lnotabString ((0, l0) :: rest) first = .ok bs ∧
      numbers bs first = .ok ((0, l0) :: rest) := by
  have hmono : Spec.Monotone ((0, l0) :: rest) first := by
    refine ⟨(hb.and hl).imp (fun ⟨a, b⟩ => ⟨by omega, by omega⟩), ?_⟩
    intro p hp
    rcases List.mem_cons.1 hp with rfl | hp
    · exact hf
    · have := (List.pairwise_cons.1 hl).1 p hp
      simp at this
      omega
  have hm := monoFrom_of _ first 0 hmono (fun _ _ => Nat.zero_le _)
  obtain ⟨bs, hbs, hle, hev⟩ := encodeFrom_ok 0 first _ hm
  refine ⟨bs, ?_, ?_⟩
  · simp only [lnotabString, encode, hbs, if_pos hf]
    rw [if_pos]; simpa using hle
  · obtain ⟨ps, hps⟩ := bytePairs_even bs hev
    simp only [numbers, hps]
    rw [bytePairs_nf _ _ hps, nf_encodeFrom _ _ _ _ _ hbs, numsPairs, if_pos rfl,
      numsPairs_eq _ _ _ _ hb, dropRepeats_id _ _ hl]
    simp

example : numbers [0, 0, 6, 1, 44, 5, 255, 0, 45, 255, 0, 45, 11, 1] 1 =
    .ok [(0, 1), (6, 2), (50, 7), (350, 307), (361, 308)] := by decide

/-- **C49** When lines repeat, decoding drops exactly the pairs that repeat the
previous line (nothing a lookup could notice). -/
theorem C49_decode_encode_repeats (first l0 : Nat) (rest : List (Nat × Nat))
    (hb : ((0, l0) :: rest).Pairwise (·.1 < ·.1)) (hl : Spec.Monotone ((0, l0) :: rest) first) :
    ∃ bs ns, lnotabString ((0, l0) :: rest) first = .ok bs ∧ numbers bs first = .ok ns ∧
      ns = dropRepeats none ((0, l0) :: rest) ∧
      ∀ A, Spec.lineAt ns first A = Spec.lineAt ((0, l0) :: rest) first A := by
  have hm := monoFrom_of _ first 0 hl (fun _ _ => Nat.zero_le _)
  obtain ⟨bs, hbs, hle, hev⟩ := encodeFrom_ok 0 first _ hm
  obtain ⟨ps, hps⟩ := bytePairs_even bs hev
  have hns : nf none 0 first bs = dropRepeats none ((0, l0) :: rest) := by
    rw [nf_encodeFrom _ _ _ _ _ hbs, numsPairs, if_pos rfl, numsPairs_eq _ _ _ _ hb]
  refine ⟨bs, nf none 0 first bs, ?_, ?_, hns, ?_⟩
  · have : first ≤ l0 := hm.2.1
    simp only [lnotabString, encode, hbs, if_pos this]
    rw [if_pos]; simpa using hle
  · simp only [numbers, hps, bytePairs_nf _ _ hps]
  · intro A
    have h1 := lk_nf first none 0 first bs A (Nat.zero_le _) (Or.inl rfl)
    rw [lk_encodeFrom _ _ _ _ _ hbs, lkPairs_eq _ 0 _ _ hm,
      lkPairs_eq _ 0 _ _ (nf_mono none 0 first bs)] at h1
    exact h1

/-- **C49 (finding)** Interpreters from CPython 3.6 on read line increments as signed
bytes.  A jump of 128 or more lines in one entry, which `lnotab` writes as one byte, is
then read as a jump backwards. -/
theorem C49_signed_reader_disagrees :
    ∃ bs, lnotabString [(0, 1), (6, 201)] 1 = .ok bs ∧
      Spec.lookup bs 0 1 6 = 201 ∧ Spec.lookupSigned bs 0 1 6 = -55 :=
  ⟨[0, 0, 6, 200], by decide, by decide, by decide⟩

/-- **C50** For every list of recorded node lines (`recorded`, one entry per generated
Python line), every code object line table `tab` with first line `first`: if all lines
the table can mention are lines of the generated text, annotation succeeds, and
afterwards looking up *any* bytecode address gives the template line recorded for the
Python line that the original table gave. -/
theorem C50_annotate_maps_lines (recorded : List (Option Nat)) (tab : List Nat) (first : Nat)
    (hev : tab.length % 2 = 0) (h1 : 1 ≤ first)
    (hN : first + Spec.totalLines tab ≤ recorded.length) :
    ∃ nf nt, annotate (pyLinenos 0 recorded) tab first = .ok (.patched nf nt) ∧
      ∀ A, tplLine (pyLinenos 0 recorded) (Spec.lookup tab 0 first A) =
        some (Spec.lookup nt 0 nf A) := by
  rw [totalLines_eq] at hN
  generalize hL : pyLinenos 0 recorded = L at *
  have hlen : L.length = recorded.length := by rw [← hL, pyLinenos_length]
  have hsort : L.Pairwise (· ≤ ·) := hL ▸ pyLinenos_sorted 0 recorded
  let T : Nat → Nat := fun n => (tplLine L n).getD 0
  have hT : ∀ n, 1 ≤ n → n ≤ recorded.length → tplLine L n = some (T n) := by
    intro n a b
    have : tplLine L n = some L[n - 1] := by
      simp only [tplLine]
      rw [if_neg (by omega), List.getElem?_eq_getElem (by omega)]
    simp only [T, this, Option.getD_some]
  have hTm : ∀ x y, 1 ≤ x → x ≤ y → y ≤ recorded.length → T x ≤ T y := by
    intro x y a b c
    have hx : T x = L[x - 1] := by
      simp only [T, tplLine]
      rw [if_neg (by omega), List.getElem?_eq_getElem (by omega)]; rfl
    have hy : T y = L[y - 1] := by
      simp only [T, tplLine]
      rw [if_neg (by omega), List.getElem?_eq_getElem (by omega)]; rfl
    rw [hx, hy]
    rcases Nat.lt_or_ge x y with h | h
    · exact (List.pairwise_iff_getElem.1 hsort) _ _ _ _ (by omega)
    · have : x = y := by omega
      subst this; exact Nat.le_refl _
  obtain ⟨ps, hps⟩ := bytePairs_even tab hev
  have hnum : numbers tab first = .ok (nf none 0 first tab) := by
    simp only [numbers, hps, bytePairs_nf _ _ hps]
  have hmono := nf_mono none 0 first tab
  have hle := nf_le none 0 first tab
  have hbounds : ∀ p ∈ nf none 0 first tab, 1 ≤ p.2 ∧ p.2 ≤ recorded.length := by
    intro p hp
    refine ⟨?_, by have := hle p hp; omega⟩
    have : ∀ (c m : Nat) (xs : List (Nat × Nat)), MonoFrom c m xs → ∀ q ∈ xs, m ≤ q.2 := by
      intro c m xs
      induction xs generalizing c m with
      | nil => simp
      | cons y ys ihy =>
        intro ⟨_, h2, h3⟩ q hq
        rcases List.mem_cons.1 hq with rfl | hq
        · exact h2
        · have := ihy _ _ h3 q hq; omega
    have := this _ _ _ hmono p hp
    omega
  have hnew : ∀ xs : List (Nat × Nat), (∀ p ∈ xs, 1 ≤ p.2 ∧ p.2 ≤ recorded.length) →
      xs.filterMap (fun (off, lno) => (tplLine L lno).map fun t => (off, t)) =
        xs.map fun p => (p.1, T p.2) := by
    intro xs
    induction xs with
    | nil => intro _; rfl
    | cons y ys ih =>
      intro h
      obtain ⟨y1, y2⟩ := y
      have hy := h _ (List.mem_cons_self ..)
      simp only at hy
      simp only [List.filterMap_cons]
      rw [hT _ hy.1 hy.2, ih (fun q hq => h q (List.mem_cons_of_mem _ hq))]
      rfl
  have hm' := mono_map T 0 first (nf none 0 first tab) recorded.length hmono h1
    (fun p hp => (hbounds p hp).2) hTm
  obtain ⟨bs, hbs, hle255, _⟩ := encodeFrom_ok _ _ _ hm'
  have hne : (nf none 0 first tab).map (fun p => (p.1, T p.2)) ≠ [] := by
    simpa using nf_ne_nil 0 first tab
  have hstr : lnotabString ((nf none 0 first tab).map fun p => (p.1, T p.2)) (T first) = .ok bs := by
    cases hc : (nf none 0 first tab).map (fun p => (p.1, T p.2)) with
    | nil => exact absurd hc hne
    | cons q qs =>
      rw [hc] at hm' hbs
      have : T first ≤ q.2 := hm'.2.1
      simp only [lnotabString, encode, hbs, if_pos this]
      rw [if_pos]; simpa using hle255
  refine ⟨T first, bs, ?_, ?_⟩
  · have hLne : L.isEmpty = false := by
      cases L with
      | nil => simp at hlen; omega
      | cons _ _ => rfl
    simp only [annotate, hLne, hnum, hnew _ hbounds]
    have he : ((nf none 0 first tab).map (fun p => (p.1, T p.2))).isEmpty = false := by
      cases hc : (nf none 0 first tab).map (fun p => (p.1, T p.2)) with
      | nil => exact absurd hc hne
      | cons _ _ => rfl
    have hstr' : lnotabString ((nf none 0 first tab).map fun p => (p.1, T p.2))
      ((tplLine L first).getD 0) = .ok bs := hstr
    simp only [he, hstr', Bool.false_eq_true, if_false]
    rfl
  · intro A
    have e1 : lk tab 0 first A = lkPairs first (nf none 0 first tab) A :=
      (lk_nf first none 0 first tab A (Nat.zero_le _) (Or.inl rfl)).symm
    rw [lookup_eq_lk, lookup_eq_lk, lk_encodeFrom _ _ _ _ _ hbs, lkPairs_map, e1]
    apply hT
    · have : ∀ (m : Nat) (xs : List (Nat × Nat)), 1 ≤ m → (∀ q ∈ xs, 1 ≤ q.2) →
          1 ≤ lkPairs m xs A := by
        intro m xs
        induction xs generalizing m with
        | nil => intro h _; exact h
        | cons y ys ihy =>
          intro h hq
          simp only [lkPairs]
          split
          · exact h
          · exact ihy _ (hq _ (List.mem_cons_self ..)) (fun q h => hq q (List.mem_cons_of_mem _ h))
      exact this _ _ h1 (fun q hq => (hbounds q hq).1)
    · have : ∀ (m : Nat) (xs : List (Nat × Nat)), m ≤ recorded.length →
          (∀ q ∈ xs, q.2 ≤ recorded.length) → lkPairs m xs A ≤ recorded.length := by
        intro m xs
        induction xs generalizing m with
        | nil => intro h _; exact h
        | cons y ys ihy =>
          intro h hq
          simp only [lkPairs]
          split
          · exact h
          · exact ihy _ (hq _ (List.mem_cons_self ..)) (fun q h => hq q (List.mem_cons_of_mem _ h))
      exact this _ _ (by omega) (fun q hq => (hbounds q hq).2)

example : annotate (pyLinenos 0 [none, some 1, some 3, some 9]) [0, 1, 4, 1, 6, 1] 1 =
    .ok (.patched 0 [0, 1, 4, 2, 6, 6]) := by decide

/-- **C51 (partial)** If the node lines recorded for the generated Python lines never
decrease, every generated line is reported at exactly its node's line (lines without
one inherit the previous).  Missing for the full property: recorded lines *do*
decrease, see `C51_line_map_wrong_after_decrease`. -/
theorem C51_line_map_partial (recorded : List Nat) (h : recorded.Pairwise (· ≤ ·)) :
    pyLinenos 0 (recorded.map some) = recorded := by
  have : ∀ last, (∀ x ∈ recorded, last ≤ x) → pyLinenos last (recorded.map some) = recorded := by
    induction recorded with
    | nil => intros; rfl
    | cons l rest ih =>
      intro last hl
      have hle : last ≤ l := hl _ (List.mem_cons_self ..)
      have : max last l = l := by omega
      obtain ⟨h1, h2⟩ := List.pairwise_cons.1 h
      simp only [List.map_cons, pyLinenos, Option.getD_some, this, ih h2 l h1]
  exact this 0 (fun _ _ => Nat.zero_le _)

example : ([1, 1, 4, 7] : List Nat).Pairwise (· ≤ ·) := by decide

/-- **C51 (finding)** Whenever a generated line was recorded at an earlier template line
than some generated line before it - as happens for every `py:def` body, because
`__main__` is generated first - it is reported at the wrong (later) template line. -/
theorem C51_line_map_wrong_after_decrease (before : List (Option Nat)) (l : Nat)
    (after : List (Option Nat)) (b : Nat) (hb : some b ∈ before) (hlt : l < b) :
    ∃ r, (pyLinenos 0 (before ++ some l :: after))[before.length]? = some r ∧ l < r := by
  have : ∀ last, last ≤ last → (some b ∈ before ∨ b ≤ last) →
      ∃ r, (pyLinenos last (before ++ some l :: after))[before.length]? = some r ∧ l < r := by
    clear hb
    induction before with
    | nil =>
      intro last _ h
      rcases h with h | h
      · simp at h
      · exact ⟨max last l, by simp [pyLinenos], by omega⟩
    | cons x xs ih =>
      intro last _ h
      obtain ⟨r, hr, hlt'⟩ := ih (max last (x.getD 0)) (Nat.le_refl _) (by
        rcases h with h | h
        · rcases List.mem_cons.1 h with h | h
          · right; subst h; simp; omega
          · exact Or.inl h
        · right; omega)
      exact ⟨r, by simpa [pyLinenos] using hr, hlt'⟩
  exact this 0 (Nat.le_refl _) (Or.inl hb)

example : pyLinenos 0 [some 10, some 2] = [10, 10] := by decide

end Kajiki.Props
