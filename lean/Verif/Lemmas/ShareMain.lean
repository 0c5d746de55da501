import Verif.Lemmas.Share

/-!
# Any number of renderings, any schedule
-/

namespace Kajiki.Spec.Share
open Kajiki Kajiki.Run

variable {C W : Type}

/-- What holds between turns. -/
structure Inv (fl : Nat → Nat → Nat) (p : Nat → PS C W Unit) (w : Nat → W) (turns : List Nat)
    (x : System (Store C (Nat → W))) (ρ : Nat → Ren) (a : Nat → Store C W) (q : Nat → PS C W Unit) : Prop where
  store : ∀ k, StoreR (fl k) k (ρ k) (a k) x.store
  proc : ∀ k, PRel (fl k) k UnitR (q k) (x.threads k).proc (ρ k)
  apart : ∀ j k, j ≠ k → Apart (ρ j) (ρ k)
  out : ∀ k, ((p k).run (emptyStore C (w k))).out = (x.threads k).out ++ ((q k).run (a k)).out
  val : ∀ k, ((p k).run (emptyStore C (w k))).val = ((q k).run (a k)).val
  st : ∀ k, ((p k).run (emptyStore C (w k))).st = ((q k).run (a k)).st
  steps : ∀ k, (∃ r, q k = .done r) ∨ steps (q k) (a k) + turns.count k = steps (p k) (emptyStore C (w k))

theorem turn_inv {fl : Nat → Nat → Nat} (hfl : ∀ j k, j ≠ k → ∀ a b, fl j a ≠ fl k b) {p : Nat → PS C W Unit}
    {w : Nat → W} {turns : List Nat} {x : System (Store C (Nat → W))} {ρ : Nat → Ren} {a : Nat → Store C W}
    {q : Nat → PS C W Unit} (h : Inv fl p w turns x ρ a q) (k : Nat) :
    ∃ ρ' a' q', Inv fl p w (turns ++ [k]) (x.turn k) ρ' a' q' := by
  have hp := h.proc k
  cases hx : (x.threads k).proc with
  | done r =>
    have e : x.turn k = x := by simp [System.turn, hx]
    rw [e]
    refine ⟨ρ, a, q, h.store, h.proc, h.apart, h.out, h.val, h.st, fun j => ?_⟩
    by_cases hj : j = k
    · subst hj
      cases hq : q j with
      | step o n c => rw [hq, hx] at hp; exact hp.elim
      | done r => exact .inl ⟨r, rfl⟩
    · rcases h.steps j with h2 | h2
      · exact .inl h2
      · refine .inr ?_
        rw [List.count_append, List.count_singleton, beq_false_of_ne (Ne.symm hj)]
        simpa using h2
  | step o' n' c' =>
    rw [hx] at hp
    cases hq : q k with
    | done r => rw [hq] at hp; exact hp.elim
    | step o n c =>
      rw [hq] at hp
      obtain ⟨ho, τ, hle, hs, hm, hr⟩ := hp (ρ k) (a k) x.store (Le.refl _) (h.store k)
      have e : x.turn k = ⟨fun j => if j = k then ⟨(x.threads k).out ++ o' x.store, c' x.store⟩ else x.threads j,
          n' x.store⟩ := by simp [System.turn, hx]
      rw [e]
      refine ⟨fun j => if j = k then τ else ρ j, fun j => if j = k then n (a k) else a j,
        fun j => if j = k then c (a k) else q j, ?_, ?_, ?_, ?_, ?_, ?_, ?_⟩
      · intro j
        by_cases hj : j = k
        · subst hj; simpa using hs
        · simp only [if_neg hj]
          exact ((h.store j).moved hm (h.apart j k hj) hj (hfl j k hj)).1
      · intro j
        by_cases hj : j = k
        · subst hj; simpa using hr
        · simpa only [if_neg hj] using h.proc j
      · intro i j hij
        by_cases hi : i = k
        · have hj : j ≠ k := fun hj => hij (hi.trans hj.symm)
          simp only [if_pos hi, if_neg hj]
          exact ((h.store j).moved hm (h.apart j k hj) hj (hfl j k hj)).2.symm
        · by_cases hj : j = k
          · simp only [if_pos hj, if_neg hi]
            exact ((h.store i).moved hm (h.apart i k hi) hi (hfl i k hi)).2
          · simp only [if_neg hj, if_neg hi]
            exact h.apart i j hij
      · intro j
        by_cases hj : j = k
        · subst hj
          simp only [if_true]
          rw [h.out j, hq, Out.append_assoc, ← ho]
          rfl
        · simpa only [if_neg hj] using h.out j
      · intro j
        by_cases hj : j = k
        · subst hj
          simp only [if_true]
          rw [h.val j, hq]
          rfl
        · simpa only [if_neg hj] using h.val j
      · intro j
        by_cases hj : j = k
        · subst hj
          simp only [if_true]
          rw [h.st j, hq]
          rfl
        · simpa only [if_neg hj] using h.st j
      · intro j
        have h2 := h.steps j
        by_cases hj : j = k
        · subst hj
          rw [hq, Share.steps] at h2
          simp only [if_true, List.count_append, List.count_singleton_self]
          rcases h2 with ⟨r, h2⟩ | h2
          · cases h2
          · exact .inr (by omega)
        · simp only [if_neg hj]
          rcases h2 with h2 | h2
          · exact .inl h2
          · refine .inr ?_
            rw [List.count_append, List.count_singleton, beq_false_of_ne (Ne.symm hj)]
            simpa using h2

theorem play_inv {fl : Nat → Nat → Nat} (hfl : ∀ j k, j ≠ k → ∀ a b, fl j a ≠ fl k b) {p : Nat → PS C W Unit}
    {w : Nat → W} (more : List Nat) : ∀ {turns : List Nat} {x : System (Store C (Nat → W))} {ρ : Nat → Ren}
    {a : Nat → Store C W} {q : Nat → PS C W Unit}, Inv fl p w turns x ρ a q →
    ∃ ρ' a' q', Inv fl p w (turns ++ more) (x.play more) ρ' a' q' := by
  induction more with
  | nil => intro turns x ρ a q h; exact ⟨ρ, a, q, by simpa [System.play] using h⟩
  | cons k more ih =>
    intro turns x ρ a q h
    obtain ⟨ρ', a', q', h'⟩ := turn_inv hfl h k
    obtain ⟨ρ2, a2, q2, h2⟩ := ih h'
    exact ⟨ρ2, a2, q2, by simpa [System.play] using h2⟩

theorem store_start {fl : Nat → Nat} (hfl : Function.Injective fl) (k : Nat) (s : Store C (Nat → W))
    (hs : ∀ a, fl a ∉ s.used) : StoreR fl k Ren.nil (emptyStore C (s.world k)) s where
  flInj := hfl
  inj := ⟨.nil, .nil, .nil⟩
  insts := .nil
  frameLen := rfl
  frames i j h := by simp [Ren.nil] at h
  fns := .nil
  stacks i j h := by simp [Ren.nil] at h
  used id := by simp [hs, emptyStore]
  world := rfl

theorem start_inv {fl : Nat → Nat → Nat} (hinj : ∀ k, Function.Injective (fl k)) (s : Store C (Nat → W))
    (hs : ∀ k a, fl k a ∉ s.used) {p : Nat → PS C W Unit} {p' : Nat → PS C (Nat → W) Unit}
    (hp : ∀ k, PRel (fl k) k UnitR (p k) (p' k) Ren.nil) :
    Inv fl p s.world [] ⟨fun k => ⟨.nil, p' k⟩, s⟩ (fun _ => Ren.nil) (fun k => emptyStore C (s.world k)) p where
  store k := store_start (hinj k) k s (hs k)
  proc := hp
  apart _ _ _ := ⟨fun j h => by simp [Ren.nil] at h, fun j h => by simp [Ren.nil] at h⟩
  out _ := (Out.nil_append _).symm
  val _ := rfl
  st _ := rfl
  steps _ := .inr (by simp)

end Kajiki.Spec.Share
