import Verif.Model.Dict

/-! Helper lemmas for dictionaries. -/

namespace Kajiki.Dict
variable {α : Type}

@[simp] theorem get_nil (k : Str) : get ([] : Dict α) k = none := rfl

theorem get_cons (k' k : Str) (v : α) (d : Dict α) :
    get ((k', v) :: d) k = if k' = k then some v else get d k := rfl

theorem get_set (d : Dict α) (k k' : Str) (v : α) :
    (d.set k v).get k' = if k = k' then some v else d.get k' := by
  induction d with
  | nil => simp [set, get]
  | cons e d ih =>
    obtain ⟨a, w⟩ := e
    unfold set
    split
    · rename_i h
      subst h
      simp only [get]
      split <;> rfl
    · rename_i h
      simp only [get, ih]
      split
      · rename_i h2; subst h2
        split
        · rename_i h3; exact absurd h3.symm h
        · rfl
      · rfl

@[simp] theorem get_set_same (d : Dict α) (k : Str) (v : α) : (d.set k v).get k = some v := by
  rw [get_set, if_pos rfl]

theorem get_set_other (d : Dict α) {k k' : Str} (v : α) (h : k ≠ k') :
    (d.set k v).get k' = d.get k' := by rw [get_set, if_neg h]

theorem get_del (d : Dict α) (k k' : Str) :
    (d.del k).get k' = if k = k' then none else d.get k' := by
  induction d with
  | nil => simp [del, get]
  | cons e d ih =>
    obtain ⟨a, w⟩ := e
    unfold del at ih ⊢
    by_cases h : a = k
    · subst h
      rw [List.filter_cons_of_neg (by simp)]
      rw [ih]
      simp only [get]
      split
      · rfl
      · rfl
    · rw [List.filter_cons_of_pos (by simpa using h)]
      simp only [get, ih]
      by_cases h2 : k = k'
      · subst h2; simp [h]
      · simp [h2]

theorem get_update (d e : Dict α) (k : Str) :
    (d.update e).get k = match (e.reverse.find? fun kv => kv.1 == k) with
      | some kv => some kv.2
      | none => d.get k := by
  unfold update
  induction e generalizing d with
  | nil => rfl
  | cons kv e ih =>
    rw [List.foldl_cons, ih, List.reverse_cons, List.find?_append]
    cases h : e.reverse.find? (fun kv => kv.1 == k) with
    | some x => simp
    | none =>
      simp only [Option.none_or, get_set]
      by_cases hk : kv.1 = k
      · simp [hk]
      · have : (kv.1 == k) = false := by simpa using hk
        simp [this, hk]

theorem get_none_of_not_mem {d : Dict α} {k : Str} (h : k ∉ d.map (·.1)) : d.get k = none := by
  induction d with
  | nil => rfl
  | cons e d ih =>
    simp only [List.map_cons, List.mem_cons, not_or] at h
    rw [get, if_neg fun hh => h.1 hh.symm, ih h.2]

/-- Updating with a dictionary (whose keys are distinct). -/
theorem get_update_nodup (d e : Dict α) (k : Str) (h : (e.map (·.1)).Nodup) :
    (d.update e).get k = (e.get k).or (d.get k) := by
  unfold update
  induction e generalizing d with
  | nil => rfl
  | cons kv e ih =>
    obtain ⟨a, v⟩ := kv
    simp only [List.map_cons, List.nodup_cons] at h
    rw [List.foldl_cons, ih _ h.2, get_set, get]
    by_cases hk : a = k
    · subst hk; simp [get_none_of_not_mem h.1]
    · simp [hk]

theorem get_eq_some_mem {d : Dict α} {k : Str} {v : α} (h : d.get k = some v) : (k, v) ∈ d := by
  induction d with
  | nil => cases h
  | cons e d ih =>
    obtain ⟨a, w⟩ := e
    unfold get at h
    split at h
    · rename_i hk; subst hk; cases h; simp
    · simp [ih h]

theorem get_eq_find (d : Dict α) (k : Str) :
    d.get k = (d.find? fun e => e.1 == k).map (·.2) := by
  induction d with
  | nil => rfl
  | cons e d ih =>
    obtain ⟨a, w⟩ := e
    unfold get
    by_cases h : a = k
    · simp [h]
    · simp [h, ih]

theorem mem_set {d : Dict α} {k : Str} {v : α} {f : Str × α} (h : f ∈ d.set k v) :
    f = (k, v) ∨ f ∈ d := by
  induction d with
  | nil => simp only [set, List.mem_singleton] at h; exact .inl h
  | cons x d ih =>
    obtain ⟨k', v'⟩ := x
    simp only [set] at h
    split at h
    · next hk =>
      subst hk
      rcases List.mem_cons.1 h with h | h
      · exact .inl h
      · exact .inr (List.mem_cons_of_mem _ h)
    · rcases List.mem_cons.1 h with h | h
      · exact .inr (h ▸ List.mem_cons_self)
      · exact (ih h).imp id (List.mem_cons_of_mem _)

end Kajiki.Dict
