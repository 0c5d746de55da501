import Verif.Lemmas.TextScan

/-!
# The tokens cover the source
-/

namespace Kajiki.Texts
open Kajiki.Spec.Text

/-- The matches that are left, when the scanner is at `pos`. -/
structure Left (src : Str) (pos : Nat) (ms : List (Nat × Nat × TKind)) : Prop where
  isMatch : ∀ m ∈ ms, IsMatch src m
  sorted : ms.Pairwise fun m m' => m.2.1 ≤ m'.1
  apart : ∀ m ∈ ms, m.1 < pos → m.2.1 < pos
  all : ∀ i, pos ≤ i → Special (bolAt src i) (src.drop i) → ∃ m ∈ ms, m.1 ≤ i ∧ i < m.2.1

theorem Left.tail {src : Str} {pos pos' start stop : Nat} {k : TKind} {ms : List (Nat × Nat × TKind)}
    (h : Left src pos ((start, stop, k) :: ms)) (h1 : pos ≤ pos') (h2 : stop ≤ pos')
    (ha : ∀ m ∈ ms, stop ≤ m.1 → IsMatch src m → m.1 < pos' → m.2.1 < pos') : Left src pos' ms := by
  obtain ⟨hm, hs, hap, hal⟩ := h
  rw [List.pairwise_cons] at hs
  refine ⟨fun m h => hm m (by simp [h]), hs.2,
    fun m h => ha m h (hs.1 m h) (hm m (by simp [h])), fun i hi hsp => ?_⟩
  obtain ⟨m, hmm, hi1, hi2⟩ := hal i (by omega) hsp
  rcases List.mem_cons.1 hmm with rfl | hmm
  · exact absurd hi2 (by simp only; omega)
  · exact ⟨m, hmm, hi1, hi2⟩

theorem Left.tail_self {src : Str} {pos start stop : Nat} {k : TKind} {ms : List (Nat × Nat × TKind)}
    (h : Left src pos ((start, stop, k) :: ms)) (h1 : pos ≤ stop) : Left src stop ms :=
  h.tail h1 (Nat.le_refl _) fun m _ h2 _ h3 => absurd h3 (by omega)

/-- The positions before the first match. -/
theorem Left.none_before {src : Str} {pos start stop : Nat} {k : TKind} {ms : List (Nat × Nat × TKind)}
    (h : Left src pos ((start, stop, k) :: ms)) (i : Nat) (h1 : pos ≤ i) (h2 : i < start) :
    ¬ Special (bolAt src i) (src.drop i) := by
  intro hs
  obtain ⟨m, hm, hi, -⟩ := h.all i h1 hs
  rcases List.mem_cons.1 hm with rfl | hm
  · exact absurd hi (by simp only; omega)
  · have h3 := (List.pairwise_cons.1 h.sorted).1 m hm
    have h4 := (h.isMatch (start, stop, k) (by simp)).2
    simp only at h3 h4
    omega

theorem errorEnd_eq (r : Str) (pos l o : Nat) :
    errorEnd r pos l o = pos + (o + (((splitlines r).take (l - 1)).map (·.length + 1)).sum) := by
  unfold errorEnd
  have : ∀ (ls : List Str) (n : Nat), ls.foldl (fun n l => n + (l.length + 1)) n = n + (ls.map (·.length + 1)).sum := by
    intro ls
    induction ls with
    | nil => simp
    | cons l ls ih => intro n; simp only [List.foldl_cons, ih, List.map_cons, List.sum_cons]; omega
  rw [this]; omega

theorem getElem?_of_drop {src r : Str} {p : Nat} (h : src.drop p = r) (i : Nat) : src[p + i]? = r[i]? := by
  rw [← h, List.getElem?_drop]

/-- A tag `{%…%}` from the position after its name. -/
theorem scanTag_covers {src name : Str} {p ln : Nat} {tok : TTok} {p' ln' : Nat}
    (h : scanTag src name p ln = .ok (tok, p', ln')) :
    p ≤ p' ∧
    (∀ m, IsMatch src m → p ≤ m.1 → m.1 < p' → m.2.1 < p') ∧
    ∃ body, tok = .tag name body ln ∧ ¬ "%}".toList <:+: body ∧
      ((body.getLast? ≠ some '-' ∧ src.drop p = body ++ ['%', '}'] ++ src.drop p') ∨
       ∃ bl, Blank bl ∧ src.drop p = body ++ ['-', '%', '}'] ++ bl ++ src.drop p' ∧
        ∀ x, (src.drop p').head? = some x → x ≠ ' ' ∧ x ≠ '\t') := by
  unfold scanTag at h
  split at h
  · cases h
  · rename_i e he
    obtain ⟨e', he', rfl⟩ := Option.map_eq_some_iff.1 he
    obtain ⟨u, v, hd, hu, hmin⟩ := find_some (by decide) he'
    have hinf : ¬ "%}".toList <:+: u := by
      rintro ⟨a, b, hab⟩
      have := hmin a (b ++ "%}".toList ++ v) (by rw [← hab]; simp)
      have h2 := congrArg List.length hab
      simp at h2; omega
    have hbody : slice src p (e' + p) = u := by
      have h1 := slice_append (src := src) (a := p) (b := e' + p) (by omega)
      have h2 : (slice src p (e' + p)).length = u.length := by
        have := congrArg List.length hd
        simp [slice] at this ⊢; omega
      rw [hd, List.append_assoc] at h1
      exact ((List.append_inj h1 h2.symm).1).symm
    have hclose : src[e' + p + 1]? = some '}' := by
      have := getElem?_of_drop hd (e' + 1)
      rw [show p + (e' + 1) = e' + p + 1 by omega] at this
      rw [this, ← hu, List.getElem?_append_left (by simp), List.getElem?_append_right (by simp)]
      simp
    have hv : src.drop (e' + p + 2) = v := by
      rw [show e' + p + 2 = p + (u ++ "%}".toList).length by simp; omega, ← List.drop_drop, hd, List.drop_left]
    rw [hbody] at h
    dsimp only at h
    rw [hv] at h
    split at h
    · rename_i hlast
      split at h
      · cases h
      · rename_i hn
        simp only [Except.ok.injEq, Prod.mk.injEq] at h
        obtain ⟨rfl, rfl, rfl⟩ := h
        generalize hbl : v.takeWhile (fun c => c == ' ' || c == '\t') = bl at hn ⊢
        have hblank : Blank bl := by
          intro x hx
          rw [← hbl] at hx
          simpa using Doms.mem_takeWhile hx
        have hcat : v = bl ++ v.dropWhile (fun c => c == ' ' || c == '\t') := by
          rw [← hbl, List.takeWhile_append_dropWhile]
        have hv' : src.drop (e' + p + 2 + bl.length) = v.dropWhile (fun c => c == ' ' || c == '\t') := by
          rw [← List.drop_drop, hv]
          conv_lhs => rw [hcat]
          rw [List.drop_left]
        have hu' : u = u.dropLast ++ ['-'] := by
          obtain ⟨ys, hys⟩ := List.getLast?_eq_some_iff.1 hlast
          rw [hys]; simp
        refine ⟨by omega, ?_, u.dropLast, rfl, ?_, .inr ⟨bl, hblank, ?_, ?_⟩⟩
        · rintro ⟨a, b, k⟩ hm h1 h2
          simp only at h1 h2 ⊢
          by_cases ha : a < e' + p + 2
          · have := hm.before_close hclose (by omega)
            omega
          · exfalso
            have hb : bolAt src a = false := by
              obtain ⟨j, rfl⟩ : ∃ j, a = j + 1 := ⟨a - 1, by omega⟩
              show (_ == some '\n') = false
              by_cases hj : j = e' + p + 1
              · subst hj; rw [hclose]; decide
              · have := getElem?_of_drop hv (j - (e' + p + 2))
                rw [show e' + p + 2 + (j - (e' + p + 2)) = j by omega] at this
                have hjb : j - (e' + p + 2) < bl.length := by omega
                rw [this, hcat, List.getElem?_append_left hjb, List.getElem?_eq_getElem hjb]
                rcases hblank _ (List.getElem_mem hjb) with h | h <;> rw [h] <;> decide
            obtain ⟨m, r, hd', -, ht, -, -⟩ := hm.parts
            rw [hb] at ht
            obtain ⟨-, c, m', rfl, hc⟩ := ht.inner
            have hab : a - (e' + p + 2) < bl.length := by omega
            have : src[a]? = some c := by
              have := getElem?_of_drop hd' 0
              simpa using this
            have h3 := getElem?_of_drop hv (a - (e' + p + 2))
            rw [show e' + p + 2 + (a - (e' + p + 2)) = a by omega, this, hcat,
              List.getElem?_append_left hab, List.getElem?_eq_getElem hab] at h3
            have h4 := hblank _ (List.getElem_mem hab)
            rw [← Option.some.inj h3] at h4
            rcases hc with rfl | rfl <;> rcases h4 with h4 | h4 <;> exact absurd h4 (by decide)
        · rintro ⟨a, b, hab⟩
          exact hinf ⟨a, b ++ ['-'], by rw [hu', ← hab]; simp⟩
        · rw [hd, hv']
          conv_lhs => rw [hu', hcat]
          simp
        · intro x hx
          rw [hv'] at hx
          have := Doms.head_dropWhile hx
          simpa using this
    · rename_i hlast
      simp only [Except.ok.injEq, Prod.mk.injEq] at h
      obtain ⟨rfl, rfl, rfl⟩ := h
      refine ⟨by omega, ?_, u, rfl, hinf, .inl ⟨hlast, ?_⟩⟩
      · rintro ⟨a, b, k⟩ hm h1 h2
        have := hm.before_close hclose (by simp only at h2; omega)
        simp only; omega
      · rw [hd, hv]; simp

/-- A tag line from the position after its name. -/
theorem scanBare_covers {src name : Str} {p ln : Nat} (hp : bolAt src p = false) (hpl : p ≤ src.length) :
    ∃ body p' , scanBare src name p ln = (.tag name body (ln + 1), p', ln + 1) ∧ '\n' ∉ body ∧ p ≤ p' ∧
      (∀ m, IsMatch src m → p ≤ m.1 → m.1 < p' → m.2.1 < p') ∧
      (src.drop p = body ++ ['\n'] ++ src.drop p' ∨ (src.drop p = body ∧ src.drop p' = [])) := by
  unfold scanBare
  cases hf : find ['\n'] (src.drop p) with
  | none =>
    have he : (findFrom ['\n'] src p).getD src.length = src.length := by simp [findFrom, hf]
    rw [he]
    have hs : slice src p src.length = src.drop p := by
      have := slice_append (src := src) (a := p) (b := src.length) hpl
      simpa using this.symm
    refine ⟨src.drop p, src.length + 1, by simp only [hs], find_char_none hf, by omega, ?_, .inr ⟨rfl, by simp⟩⟩
    rintro ⟨a, b, k⟩ hm - -
    obtain ⟨m, r, -, -, -, -, h⟩ := hm.parts
    simp only; omega
  | some j =>
    have he : (findFrom ['\n'] src p).getD src.length = j + p := by simp [findFrom, hf]
    rw [he]
    obtain ⟨u, v, hd, hu, hmin⟩ := find_some (by decide) hf
    have hbody : slice src p (j + p) = u := by
      have h1 := slice_append (src := src) (a := p) (b := j + p) (by omega)
      have h2 : (slice src p (j + p)).length = u.length := by
        have := congrArg List.length hd
        simp [slice] at this ⊢; omega
      rw [hd, List.append_assoc] at h1
      exact ((List.append_inj h1 h2.symm).1).symm
    have hnl : '\n' ∉ u := by
      intro hm
      obtain ⟨a, b, hab⟩ := List.append_of_mem hm
      have := hmin a (b ++ ['\n'] ++ v) (by rw [hab]; simp)
      have h2 := congrArg List.length hab
      simp at h2; omega
    have hv : src.drop (j + p + 1) = v := by
      rw [show j + p + 1 = p + (u ++ ['\n']).length by simp; omega, ← List.drop_drop, hd, List.drop_left]
    have hat : src[j + p]? = some '\n' := by
      have := getElem?_of_drop hd j
      rw [show p + j = j + p by omega] at this
      rw [this, ← hu, List.append_assoc, List.getElem?_append_right (by simp)]
      simp
    refine ⟨u, j + p + 1, by simp only [hbody], hnl, by omega, ?_, .inl (by rw [hd, hv])⟩
    rintro ⟨a, b, k⟩ hm h1 h2
    simp only at h1 h2 ⊢
    have hb : bolAt src a = false := by
      by_cases hap : a = p
      · rw [hap]; exact hp
      · obtain ⟨i, rfl⟩ : ∃ i, a = i + 1 := ⟨a - 1, by omega⟩
        show (_ == some '\n') = false
        have h3 := getElem?_of_drop hd (i - p)
        rw [show p + (i - p) = i by omega] at h3
        have hi : i - p < u.length := by omega
        rw [h3, List.append_assoc, List.getElem?_append_left hi, List.getElem?_eq_getElem hi]
        have : u[i - p] ≠ '\n' := fun h => hnl (h ▸ List.getElem_mem hi)
        simpa using this
    obtain ⟨m, r, hd', hbm, ht, -, -⟩ := hm.parts
    rw [hb] at ht
    by_contra hc
    exact ht.inner.1 (mem_of_drop hd' (by omega) (by omega) hat)

theorem scanLoop_covers {py : PyCompile} {src : Str} (hpy : ErrorsAtBraces py src) :
    ∀ (ms : List (Nat × Nat × TKind)) (pos ln : Nat) (toks : List TTok), Left src pos ms →
      scanLoop py src pos ln ms = (toks, none) → Covers toks (src.drop pos) := by
  intro ms
  induction ms with
  | nil =>
    intro pos ln toks hl h
    unfold scanLoop at h
    split at h
    · rename_i hne
      cases h
      have hp : Plain (src.drop pos) := by
        by_cases hpl : pos ≤ src.length
        · have := slice_append (src := src) (a := pos) (b := src.length) hpl
          rw [List.drop_length, List.append_nil] at this
          rw [this]
          refine plain_slice hpl fun i h1 _ hs => ?_
          obtain ⟨m, hm, -⟩ := hl.all i h1 hs
          cases hm
        · rw [List.drop_eq_nil_of_le (by omega)]
          exact ⟨by simp, by rintro ⟨a, b, e⟩; simp at e, fun a b e => by simp at e⟩
      have := Covers.cons (rest := []) (.text hp) .nil (tok := .text (src.drop pos) (ln + countNL (src.drop pos)))
      simpa using this
    · rename_i hne
      cases h
      simp only [ne_eq, not_not] at hne
      rw [hne, List.drop_length]
      exact .nil
  | cons m ms ih =>
    obtain ⟨start, stop, k⟩ := m
    -- without text before the match
    have main : ∀ (pos ln : Nat) (toks : List TTok), Left src pos ((start, stop, k) :: ms) → start ≤ pos →
        (if k = .bareInvalid then Toks.cons [] (scanLoop py src pos ln ms)
          else if k = .exprInvalid ∨ k = .beginInvalid ∨ stop < pos then ([], some .assertion)
          else match scanToken py src k stop ln with
            | .error e => ([], some e)
            | .ok (t, pos, ln) => Toks.cons ([] ++ [t]) (scanLoop py src pos ln ms)) = (toks, none) →
        Covers toks (src.drop pos) := by
      intro pos ln toks hl hsp h
      have hmatch := hl.isMatch _ (List.mem_cons_self)
      obtain ⟨m, r, hd, hstop, ht, hr, hlen⟩ := hmatch.parts
      split at h
      · rename_i hk
        subst hk
        refine ih pos ln toks ?_ h
        refine ⟨fun m h => hl.isMatch m (by simp [h]), (List.pairwise_cons.1 hl.sorted).2,
          fun m h => hl.apart m (by simp [h]), fun i hi hs => ?_⟩
        obtain ⟨m', hm', hi1, hi2⟩ := hl.all i hi hs
        rcases List.mem_cons.1 hm' with rfl | hm'
        · exfalso
          simp only at hi1 hi2
          generalize bolAt src start = bb at ht
          cases ht with
          | bareInvalid hw hr' =>
            rename_i ws
            simp only [List.length_append, List.length_singleton] at hstop
            refine bareInvalid_inside hw hr' (i - start) (by omega) (bolAt src i) ?_
            have : (ws ++ '%' :: r).drop (i - start) = src.drop i := by
              rw [show ws ++ '%' :: r = src.drop start by rw [hd]; simp, List.drop_drop,
                show start + (i - start) = i by omega]
            rw [this]; exact hs
        · exact ⟨m', hm', hi1, hi2⟩
      · split at h
        · cases h
        · rename_i hk hk2
          simp only [not_or] at hk2
          obtain ⟨hk3, hk4, hk5⟩ := hk2
          have hsp' : start = pos := by
            rcases Nat.lt_or_ge start pos with hlt | hge
            · have := hl.apart _ List.mem_cons_self hlt
              exact absurd this hk5
            · omega
          subst hsp'
          -- the rest of the loop
          have step : ∀ (tok : TTok) (p' ln' : Nat), start ≤ stop → stop ≤ p' →
              (∀ m, IsMatch src m → stop ≤ m.1 → m.1 < p' → m.2.1 < p') →
              scanToken py src k stop ln = .ok (tok, p', ln') →
              ∀ piece, src.drop start = piece ++ src.drop p' → Spells tok piece (src.drop p') →
              Covers toks (src.drop start) := by
            intro tok p' ln' hss hp' hap hst piece hpc hspell
            rw [hst] at h
            simp only [List.nil_append, Toks.cons, Prod.mk.injEq] at h
            rw [hpc, ← h.1]
            refine .cons hspell (ih p' ln' _ ?_ (Prod.ext rfl h.2))
            exact hl.tail (by omega) hp' fun m hm h1 h2 h3 => hap m h2 h1 h3
          have hss : start ≤ stop := by omega
          generalize bolAt src start = bb at ht
          cases ht with
          | escaped => exact step _ _ _ hss (Nat.le_refl _) (fun m _ h1 h2 => by omega) rfl _ (by rw [hr]; exact hd) .dollar
          | named hc hcs hrr =>
            rw [← XmlTexts.nameStart_eq] at hc
            rw [← XmlTexts.nameChar_eq] at hcs hrr
            exact step _ _ _ hss (Nat.le_refl _) (fun m _ h1 h2 => by omega) rfl _ (by rw [hr]; exact hd)
              (.name hc hcs (by rw [hr]; exact hrr))
          | exprInvalid => exact absurd rfl hk3
          | beginInvalid => exact absurd rfl hk4
          | bareInvalid => exact absurd rfl hk
          | braced =>
            have hsrc : src = src.take start ++ '$' :: '{' :: r := by
              conv_lhs => rw [← List.take_append_drop start src, hd]
              simp
            cases hc : py (src.drop stop) with
            | none =>
              have hst : scanToken py src .braced stop ln = .ok (.none, stop, ln) := by
                simp [scanToken, scanBraced, hc]
              exact step _ _ _ hss (Nat.le_refl _) (fun m _ h1 h2 => by omega) hst _ (by rw [hr]; exact hd) .never
            | some lo =>
              obtain ⟨l, o⟩ := lo
              have hst : scanToken py src .braced stop ln = .ok
                  (.expr (slice src stop (errorEnd (src.drop stop) stop l o - 1))
                    (ln + countNL (slice src stop (errorEnd (src.drop stop) stop l o - 1))),
                    errorEnd (src.drop stop) stop l o,
                    ln + countNL (slice src stop (errorEnd (src.drop stop) stop l o - 1))) := by
                simp [scanToken, scanBraced, hc]
              rw [hr] at hc
              have hcase := hpy _ _ l o hsrc hc
              simp only at hcase
              rw [errorEnd_eq, hr] at hst
              generalize o + (((splitlines r).take (l - 1)).map (·.length + 1)).sum = off at hcase hst
              have hlr : r.length = src.length - stop := by rw [← hr, List.length_drop]
              by_cases h0 : off = 0
              · subst h0
                have he : slice src stop (stop + 0 - 1) = [] := by
                  unfold slice; apply List.drop_eq_nil_of_le; simp; omega
                rw [he] at hst
                exact step _ _ _ hss (by omega) (fun m _ h1 h2 => by omega) hst ['$', '{'] (by rw [Nat.add_zero, hr]; exact hd)
                  (.unclosed (t := []) (.inl rfl))
              · rcases hcase with hcase | hcase | hcase
                · exact absurd hcase h0
                · have he : slice src stop (stop + off - 1) = r := by
                    rw [← hr]; unfold slice; rw [List.take_of_length_le (by omega)]
                  have hnil : src.drop (stop + off) = [] := List.drop_eq_nil_of_le (by omega)
                  rw [he] at hst
                  refine step _ _ _ hss (by omega) ?_ hst ('$' :: '{' :: r) ?_ ?_
                  · rintro ⟨a, b, k'⟩ hm' - -
                    obtain ⟨_, _, -, -, -, -, hb⟩ := hm'.parts
                    simp only; omega
                  · rw [hnil, hd]; simp
                  · exact .unclosed (.inr hnil)
                · have hat : src[stop + off - 1]? = some '}' := by
                    have := getElem?_of_drop hr (off - 1)
                    rw [← Nat.add_sub_assoc (by omega)] at this
                    rw [this]; exact hcase
                  have h1 := slice_append (src := src) (a := stop) (b := stop + off - 1) (by omega)
                  have h2 : src.drop (stop + off - 1) = '}' :: src.drop (stop + off) := by
                    have hlt : stop + off - 1 < src.length := (List.getElem?_eq_some_iff.1 hat).1
                    rw [List.drop_eq_getElem_cons hlt, show stop + off - 1 + 1 = stop + off by omega]
                    rw [List.getElem?_eq_getElem hlt] at hat
                    rw [Option.some.inj hat]
                  refine step _ _ _ hss (by omega) ?_ hst _ ?_ .braced
                  · rintro ⟨a, b, k'⟩ hm' hs1 hs2
                    have := hm'.before_close hat (by simp only at hs2; omega)
                    simp only; omega
                  · rw [hd, ← hr, h1, h2]; simp
          | bare hw hn =>
            rename_i ws name
            have hb : bolAt src stop = false := by
              obtain ⟨i, rfl⟩ : ∃ i, stop = i + 1 := ⟨stop - 1, by simp at hstop; omega⟩
              show (_ == some '\n') = false
              have h3 := getElem?_of_drop hd (i - start)
              simp only [List.length_append, List.length_cons] at hstop
              rw [show start + (i - start) = i by omega] at h3
              have hl0 := List.length_pos_iff.2 hn.nonempty
              have hi : i - start - ws.length - 1 < name.length := by omega
              rw [h3, List.append_assoc, List.getElem?_append_right (by omega), List.cons_append,
                show i - start - ws.length = (i - start - ws.length - 1) + 1 by omega,
                List.getElem?_cons_succ, List.getElem?_append_left hi, List.getElem?_eq_getElem hi]
              have := (tagChar_ne (hn.letters _ (List.getElem_mem hi))).2.1
              simpa using this
            obtain ⟨body, p', hst, hnl, hpp, hap, hcov⟩ := scanBare_covers (name := name) (ln := ln) hb hlen
            have hst' : scanToken py src (.bare name) stop ln = .ok (.tag name body (ln + 1), p', ln + 1) := by
              simp [scanToken, hst]
            rw [hr] at hcov
            rcases hcov with hcov | ⟨hcov, hnil⟩
            · refine step _ _ _ hss hpp hap hst' (ws ++ '%' :: name ++ body ++ ['\n']) (by rw [hd, hcov]; simp) ?_
              refine .line hw ⟨hn.nonempty, hn.letters, fun x hx => hn.longest x ?_⟩ hnl
              rw [hcov]
              cases body with
              | nil => cases hx
              | cons y ys => exact hx
            · have := step _ _ _ hss hpp hap hst' (ws ++ '%' :: name ++ body) (by rw [hd, hcov, hnil]; simp)
              rw [hnil] at this
              refine this (.lastLine hw ⟨hn.nonempty, hn.letters, fun x hx => hn.longest x ?_⟩ hnl)
              rw [hcov]; exact hx
          | ljust hw hn =>
            rename_i ws name
            cases hst : scanTag src name stop ln with
            | error e => simp [scanToken, hst] at h
            | ok t =>
              obtain ⟨tok, p', ln'⟩ := t
              obtain ⟨hpp, hap, body, rfl, hinf, hcov⟩ := scanTag_covers hst
              have hst' : scanToken py src (.ljust name) stop ln = .ok (.tag name body ln, p', ln') := hst
              rw [hr] at hcov
              rcases hcov with ⟨hl1, hcov⟩ | ⟨bl, hbl, hcov, hrest⟩
              · refine step _ _ _ hss hpp hap hst' (ws ++ '{' :: '%' :: '-' :: name ++ body ++ ['%', '}'])
                  (by rw [hd, hcov]; simp) (.tagL hw ⟨hn.nonempty, hn.letters, fun x hx => hn.longest x ?_⟩ hinf hl1)
                rw [hcov]
                cases body with
                | nil => exact hx
                | cons y ys => exact hx
              · refine step _ _ _ hss hpp hap hst' (ws ++ '{' :: '%' :: '-' :: name ++ body ++ ['-', '%', '}'] ++ bl)
                  (by rw [hd, hcov]; simp) (.tagLR hw ⟨hn.nonempty, hn.letters, fun x hx => hn.longest x ?_⟩ hinf hbl hrest)
                rw [hcov]
                cases body with
                | nil => exact hx
                | cons y ys => exact hx
          | begin_ hn =>
            rename_i name
            cases hst : scanTag src name stop ln with
            | error e => simp [scanToken, hst] at h
            | ok t =>
              obtain ⟨tok, p', ln'⟩ := t
              obtain ⟨hpp, hap, body, rfl, hinf, hcov⟩ := scanTag_covers hst
              have hst' : scanToken py src (.begin_ name) stop ln = .ok (.tag name body ln, p', ln') := hst
              rw [hr] at hcov
              rcases hcov with ⟨hl1, hcov⟩ | ⟨bl, hbl, hcov, hrest⟩
              · refine step _ _ _ hss hpp hap hst' ('{' :: '%' :: name ++ body ++ ['%', '}'])
                  (by rw [hd, hcov]; simp) (.tag ⟨hn.nonempty, hn.letters, fun x hx => hn.longest x ?_⟩ hinf hl1)
                rw [hcov]
                cases body with
                | nil => exact hx
                | cons y ys => exact hx
              · refine step _ _ _ hss hpp hap hst' ('{' :: '%' :: name ++ body ++ ['-', '%', '}'] ++ bl)
                  (by rw [hd, hcov]; simp) (.tagR ⟨hn.nonempty, hn.letters, fun x hx => hn.longest x ?_⟩ hinf hbl hrest)
                rw [hcov]
                cases body with
                | nil => exact hx
                | cons y ys => exact hx
    intro pos ln toks hl h
    unfold scanLoop at h
    by_cases hgt : start > pos
    · simp only [if_pos hgt] at h
      have hl' : Left src start ((start, stop, k) :: ms) :=
        ⟨hl.isMatch, hl.sorted, fun m hm h1 => by
          rcases List.mem_cons.1 hm with rfl | hm
          · simp only at h1; omega
          · have h3 := (List.pairwise_cons.1 hl.sorted).1 m hm
            have h4 := (hl.isMatch (start, stop, k) (by simp)).2
            simp only at h3 h4; omega,
          fun i hi hs => hl.all i (by omega) hs⟩
      have hplain := plain_slice (Nat.le_of_lt hgt) fun i h1 h2 => hl.none_before i h1 h2
      have hm := main start (ln + countNL (slice src pos start)) (toks.tail) hl' (Nat.le_refl _)
      have hcons : ∀ (t : TTok) (ts : List TTok) (R : Toks), Toks.cons (t :: ts) R = Toks.cons [t] (Toks.cons ts R) := by
        intro t ts R; simp [Toks.cons]
      rw [slice_append (Nat.le_of_lt hgt)]
      suffices ∃ ts, toks = .text (slice src pos start) (ln + countNL (slice src pos start)) :: ts ∧
          Covers ts (src.drop start) by
        obtain ⟨ts, rfl, hc⟩ := this
        exact .cons (.text hplain) hc
      refine ⟨toks.tail, ?_, hm ?_⟩
      · split at h
        · simp only [Toks.cons, Prod.mk.injEq] at h
          rw [← h.1]; simp
        · split at h
          · simp at h
          · split at h
            · simp at h
            · simp only [Toks.cons, Prod.mk.injEq] at h
              rw [← h.1]; simp
      · split at h
        · simp only [Toks.cons, Prod.mk.injEq] at h
          rename_i h1
          rw [if_pos h1, ← h.1]; simp [Toks.cons, h.2]
        · split at h
          · simp at h
          · split at h
            · simp at h
            · simp only [Toks.cons, Prod.mk.injEq] at h
              rename_i h1 h2 _ _ _ _ h3
              rw [if_neg h1, if_neg h2, h3, ← h.1]; simp [Toks.cons, h.2]
    · simp only [if_neg hgt] at h
      exact main pos ln toks hl (by omega) h

theorem scan_covers {py : PyCompile} {src : Str} (hpy : ErrorsAtBraces py src) {toks : List TTok}
    (h : scan py src = (toks, none)) : Covers toks src := by
  obtain ⟨h1, h2, h3⟩ := tagMatches_spec src src 0 0 rfl
  refine scanLoop_covers hpy _ 0 1 toks ⟨fun m hm => (h1 m hm).2, h2, fun m _ h => by omega, fun i hi hs => ?_⟩ h
  obtain ⟨k, n, hk, -⟩ := hs
  exact h3 i (by omega) (by rw [hk]; simp)

end Kajiki.Texts
