import Verif.Model.Text

/-!
# The parser of text templates: its step bound is never reached
-/

namespace Kajiki.Texts

/-- What is left after a tag: not more than before, or the `None` put back by `_parse_case`. -/
def Shorter (ts' ts : List TTok) : Prop := ts'.length ≤ ts.length ∨ ts' = [.none]

/-- What is left after a body. -/
def After (stop : Option TTok) (ts' ts : List TTok) : Prop :=
  (stop = none ∧ ts' = []) ∨ (∃ n b l, stop = some (.tag n b l) ∧ ts'.length + 1 ≤ ts.length)

theorem after_le {stop : Option TTok} {ts' ts : List TTok} (h : After stop ts' ts) : ts'.length ≤ ts.length := by
  rcases h with ⟨_, rfl⟩ | ⟨_, _, _, _, h⟩
  · simp
  · omega

theorem map_ok {α β ε : Type} {f : α → β} {x : Except ε α} {b : β} (h : x.map f = .ok b) :
    ∃ a, x = .ok a ∧ b = f a := by
  cases x with
  | error e => cases h
  | ok a => cases h; exact ⟨a, rfl, rfl⟩

theorem parseTag_shorter {env : TEnv} {rec : List Str → List TTok → TState → TBody} {t : TTag} {body : Str}
    {ts : List TTok} {st : TState} {x : Option Ir} {ts' : List TTok} {st' : TState}
    (hr : ∀ stops st xs stop ts' st', rec stops ts st = .ok (xs, stop, ts', st') → After stop ts' ts)
    (h : parseTag env rec t body ts st = .ok (x, ts', st')) : Shorter ts' ts := by
  unfold parseTag at h
  cases t with
  | defn =>
    obtain ⟨⟨xs, stop, ts2, st2⟩, h1, h2⟩ := map_ok h
    have := after_le (hr _ _ _ _ _ _ h1)
    left
    split at h2 <;> cases h2 <;> exact this
  | call =>
    simp only at h
    split at h
    · cases h
    · obtain ⟨⟨xs, stop, ts2, st2⟩, h1, h2⟩ := map_ok h
      cases h2
      exact .inl (after_le (hr _ _ _ _ _ _ h1))
  | ifT =>
    simp only [finishIf] at h
    split at h
    · cases h
    · rename_i h1
      have := hr _ _ _ _ _ _ h1
      rcases this with ⟨h2, _⟩ | ⟨_, _, _, h2, h3⟩
      · cases h2
      · cases h2
        cases h
        left
        split <;> (try simp only [List.length_cons]) <;> omega
    · cases h
  | forT | switch | elseT =>
    obtain ⟨⟨xs, stop, ts2, st2⟩, h1, h2⟩ := map_ok h
    cases h2
    exact .inl (after_le (hr _ _ _ _ _ _ h1))
  | case =>
    simp only [finishCase] at h
    split at h
    · cases h
    · rename_i h1
      have := hr _ _ _ _ _ _ h1
      rcases this with ⟨h2, h3⟩ | ⟨_, _, _, h2, h3⟩
      · subst h2; subst h3; cases h; exact .inr rfl
      · subst h2; cases h; left; simpa using h3
  | «extends» | imp | incl =>
    obtain ⟨_, h1, h2⟩ := map_ok h
    cases h2
    exact .inl (Nat.le_refl _)
  | py =>
    simp only at h
    split at h
    · split at h
      · cases h
      · rename_i h1
        split at h
        · cases h
        · obtain ⟨_, _, h3⟩ := map_ok h
          cases h3
          exact .inl (after_le (hr _ _ _ _ _ _ h1))
    · obtain ⟨_, _, h3⟩ := map_ok h
      cases h3
      exact .inl (Nat.le_refl _)
  | block =>
    simp only at h
    split at h
    · cases h
    · rename_i h1
      obtain ⟨_, _, h3⟩ := map_ok h
      cases h3
      exact .inl (after_le (hr _ _ _ _ _ _ h1))
  | body => cases h; exact .inl (Nat.le_refl _)

theorem cons_ok {x : Option Ir} {r : TBody} {v} (h : r.cons x = .ok v) : ∃ w, r = .ok w ∧ v = (x :: w.1, w.2) := by
  cases r with
  | error e => cases h
  | ok w => cases h; exact ⟨w, rfl, rfl⟩

theorem parseBody_after {env : TEnv} : ∀ (n : Nat) (stops : List Str) (ts : List TTok) (st : TState) (xs stop ts' st'),
    parseBody env n stops ts st = .ok (xs, stop, ts', st') → After stop ts' ts := by
  intro n
  induction n with
  | zero => intro _ _ _ _ _ _ _ h; cases h
  | succ n ih =>
    intro stops ts st xs stop ts' st' h
    unfold parseBody at h
    cases ts with
    | nil =>
      simp only at h
      split at h
      · cases h
      · cases h; exact .inl ⟨rfl, rfl⟩
    | cons t ts =>
      have step : ∀ {x st}, ∀ ts2, TBody.cons x (parseBody env n stops ts2 st) = .ok (xs, stop, ts', st') →
          Shorter ts2 ts → After stop ts' (t :: ts) := by
        intro x st ts2 h hs
        obtain ⟨⟨xs2, stop2, ts3, st3⟩, h1, h2⟩ := cons_ok h
        cases h2
        rcases hs with hs | hs
        · rcases ih _ _ _ _ _ _ _ h1 with h | ⟨a, b, l, h, h'⟩
          · exact .inl h
          · refine .inr ⟨a, b, l, h, ?_⟩
            simp; omega
        · subst hs
          cases n with
          | zero => cases h1
          | succ n => cases h1
      cases t with
      | text u ln =>
        simp only at h
        split at h
        · cases h
        · exact step _ h (.inl (Nat.le_refl _))
      | expr u ln => exact step _ h (.inl (Nat.le_refl _))
      | none => cases h
      | tag name body ln =>
        simp only at h
        split at h
        · cases h; exact .inr ⟨_, _, _, rfl, by simp⟩
        · split at h
          · cases h
          · split at h
            · cases h
            · rename_i h1
              exact step _ h (parseTag_shorter (fun _ _ _ _ _ _ h => ih _ _ _ _ _ _ _ h) h1)

theorem parseTag_congr {env : TEnv} {rec rec' : List Str → List TTok → TState → TBody} {t : TTag} {body : Str}
    {ts : List TTok} {st : TState} (h : ∀ stops st, rec stops ts st = rec' stops ts st) :
    parseTag env rec t body ts st = parseTag env rec' t body ts st := by
  unfold parseTag
  cases t <;> simp only [h]

theorem parseBody_eq {env : TEnv} : ∀ (n m : Nat) (stops : List Str) (ts : List TTok) (st : TState),
    ts.length < n → ts.length < m → parseBody env n stops ts st = parseBody env m stops ts st := by
  intro n
  induction n with
  | zero => intro m _ ts _ h; omega
  | succ n ih =>
    intro m stops ts st hn hm
    obtain ⟨m, rfl⟩ : ∃ k, m = k + 1 := ⟨m - 1, by omega⟩
    unfold parseBody
    cases ts with
    | nil => rfl
    | cons t ts =>
      simp only [List.length_cons] at hn hm
      cases t with
      | text u ln =>
        simp only
        rw [ih m stops ts st (by omega) (by omega)]
      | expr u ln =>
        simp only
        rw [ih m stops ts st (by omega) (by omega)]
      | none => rfl
      | tag name body ln =>
        simp only
        split
        · rfl
        · split
          · rfl
          · rw [parseTag_congr (rec' := parseBody env m) fun stops st => ih m stops ts st (by omega) (by omega)]
            cases hp : parseTag env (parseBody env m) _ body ts st with
            | error e => rfl
            | ok v =>
              obtain ⟨x, ts2, st2⟩ := v
              simp only
              rcases parseTag_shorter (fun _ _ _ _ _ _ h => parseBody_after _ _ _ _ _ _ _ _ h) hp with h | h
              · rw [ih m stops ts2 st2 (by omega) (by omega)]
              · subst h
                cases n with
                | zero => omega
                | succ n =>
                  cases m with
                  | zero => omega
                  | succ m => rfl

/-- The result does not depend on the bound, as soon as it exceeds the number of tokens. -/
theorem parseBody_enough (env : TEnv) (n : Nat) (stops : List Str) (ts : List TTok) (st : TState)
    (h : ts.length < n) : parseBody env n stops ts st = parseBody env (ts.length + 1) stops ts st :=
  parseBody_eq _ _ _ _ _ h (by omega)

end Kajiki.Texts
