import Verif.Spec.Settings
import Verif.Lemmas.Dict

/-!
# Lemmas on the arguments of templates (C81)
-/

namespace Kajiki.SettingsL
open Kajiki.Settings Kajiki.Spec.Settings

theorem has_append (a b : Dict Opt) (k : Str) : Dict.has (a ++ b) k = (Dict.has a k || Dict.has b k) := by
  induction a with
  | nil => rfl
  | cons e a ih =>
    unfold Dict.has at ih ⊢
    rw [List.cons_append, Dict.get_cons, Dict.get_cons]
    split
    · rfl
    · exact ih

theorem get_append (a b : Dict Opt) (k : Str) : Dict.get (a ++ b) k = (Dict.get a k).or (Dict.get b k) := by
  induction a with
  | nil => rfl
  | cons e a ih =>
    rw [List.cons_append, Dict.get_cons, Dict.get_cons]
    split
    · rfl
    · exact ih

theorem has_of_mem {d : Dict Opt} {e : Str × Opt} (h : e ∈ d) : Dict.has d e.1 = true := by
  induction d with
  | nil => cases h
  | cons x d ih =>
    unfold Dict.has at ih ⊢
    rw [Dict.get_cons]
    split
    · rfl
    · next hx =>
      rcases List.mem_cons.1 h with rfl | h
      · exact absurd rfl hx
      · exact ih h

theorem mem_of_has {d : Dict Opt} {k : Str} (h : Dict.has d k = true) : ∃ e ∈ d, e.1 = k := by
  obtain ⟨v, hv⟩ := Option.isSome_iff_exists.1 h
  exact ⟨(k, v), Dict.get_eq_some_mem hv, rfl⟩

theorem any_has (d : Dict Opt) (p : Str → Bool) :
    (d.any fun e => p e.1) = true ↔ ∃ k, Dict.has d k = true ∧ p k = true := by
  rw [List.any_eq_true]
  constructor
  · rintro ⟨e, he, hp⟩
    exact ⟨e.1, has_of_mem he, hp⟩
  · rintro ⟨k, hk, hp⟩
    obtain ⟨e, he, rfl⟩ := mem_of_has hk
    exact ⟨e, he, hp⟩

/-- A call without positional arguments. -/
theorem call_eq (c : Ctor) (given kw : Dict Opt) (hg : ∀ k, Dict.has given k = true → c.params.has k = true) :
    call c [] given kw =
      if kw.any (fun e => !(c.params.has e.1 && !Dict.has given e.1)) then .error .type
      else .ok (c, c.params.map fun e => (e.1, match Dict.get given e.1 with
        | some v => v
        | none => (Dict.get kw e.1).getD e.2)) := by
  unfold call keywords
  by_cases h1 : (kw.any fun e => Dict.has given e.1) = true
  · rw [if_pos h1, if_pos]
    rw [any_has (p := fun k => Dict.has given k)] at h1
    rw [any_has (p := fun k => !(c.params.has k && !Dict.has given k))]
    obtain ⟨k, a, b⟩ := h1
    exact ⟨k, a, by simp [b]⟩
  · rw [if_neg h1]
    dsimp only
    unfold bindArgs
    rw [if_neg (by simp)]
    simp only [List.length_nil, List.drop_zero, List.take_zero, List.zip_nil_right, List.map_nil, List.nil_append]
    have h2 : ((given ++ kw).any fun e => !Dict.has c.params e.1) = true ↔
        (kw.any (fun e => !(c.params.has e.1 && !Dict.has given e.1))) = true := by
      rw [any_has (p := fun k => !Dict.has c.params k),
        any_has (p := fun k => !(c.params.has k && !Dict.has given k))]
      rw [any_has (p := fun k => Dict.has given k)] at h1
      constructor
      · rintro ⟨k, a, b⟩
        rw [has_append, Bool.or_eq_true] at a
        rcases a with a | a
        · rw [hg k a] at b; cases b
        · exact ⟨k, a, by simp_all⟩
      · rintro ⟨k, a, b⟩
        refine ⟨k, by rw [has_append, a, Bool.or_true], ?_⟩
        by_cases hk : Dict.has given k = true
        · exact absurd ⟨k, a, hk⟩ h1
        · simpa [hk] using b
    by_cases h3 : (kw.any (fun e => !(c.params.has e.1 && !Dict.has given e.1))) = true
    · rw [if_pos h3, if_pos (h2.2 h3)]
    · rw [if_neg h3, if_neg (fun h => h3 (h2.1 h))]
      dsimp only
      refine congrArg (fun x => Except.ok (c, x)) (List.map_congr_left fun e _ => ?_)
      rw [get_append]
      cases Dict.get given e.1 <;> rfl

/-- Two functions that each give some arguments. -/
theorem call_twice (c : Ctor) (g own kw : Dict Opt) (hg : ∀ k, Dict.has (g ++ own) k = true → c.params.has k = true)
    (hd : ∀ k, Dict.has g k = true → Dict.has own k = false) :
    callThrough c [] own g kw = call c [] (g ++ own) kw := by
  rw [call_eq c _ kw hg]
  unfold callThrough keywords
  by_cases h1 : (kw.any fun e => Dict.has g e.1) = true
  · rw [if_pos h1, if_pos]
    rw [any_has (p := fun k => Dict.has g k)] at h1
    rw [any_has (p := fun k => !(c.params.has k && !Dict.has (g ++ own) k))]
    obtain ⟨k, a, b⟩ := h1
    exact ⟨k, a, by simp [has_append, b]⟩
  · rw [if_neg h1]
    dsimp only
    rw [call_eq c own _ fun k hk => hg k (by rw [has_append, hk, Bool.or_true])]
    rw [any_has (p := fun k => Dict.has g k)] at h1
    have h2 : ((g ++ kw).any fun e => !(c.params.has e.1 && !Dict.has own e.1)) = true ↔
        (kw.any fun e => !(c.params.has e.1 && !Dict.has (g ++ own) e.1)) = true := by
      rw [any_has (p := fun k => !(c.params.has k && !Dict.has own k)),
        any_has (p := fun k => !(c.params.has k && !Dict.has (g ++ own) k))]
      constructor
      · rintro ⟨k, a, b⟩
        rw [has_append, Bool.or_eq_true] at a
        rcases a with a | a
        · rw [hg k (by rw [has_append, a, Bool.true_or]), hd k a] at b; cases b
        · refine ⟨k, a, ?_⟩
          rw [has_append]
          by_cases hk : Dict.has g k = true
          · exact absurd ⟨k, a, hk⟩ h1
          · simpa [hk] using b
      · rintro ⟨k, a, b⟩
        refine ⟨k, by rw [has_append, a, Bool.or_true], ?_⟩
        rw [has_append] at b
        by_cases hk : Dict.has g k = true
        · exact absurd ⟨k, a, hk⟩ h1
        · simpa [hk] using b
    by_cases h3 : (kw.any fun e => !(c.params.has e.1 && !Dict.has (g ++ own) e.1)) = true
    · rw [if_pos h3, if_pos (h2.2 h3)]
    · rw [if_neg h3, if_neg (fun h => h3 (h2.1 h))]
      refine congrArg (fun x => Except.ok (c, x)) (List.map_congr_left fun e _ => ?_)
      rw [get_append, get_append]
      cases h4 : Dict.get g e.1 with
      | none => cases Dict.get own e.1 <;> rfl
      | some v =>
        have h5 := hd e.1 (by unfold Dict.has; rw [h4]; rfl)
        unfold Dict.has at h5
        rw [Option.isSome_eq_false_iff, Option.isNone_iff_eq_none] at h5
        rw [h5]
        rfl

/-- The options of a loader and of one load. -/
theorem options_get (o : Cfg) (kw : Dict Opt) (hn : (kw.map (·.1)).Nodup) (k : Str) :
    Dict.get (o.templateOptions.update (Dict.del kw "encoding".toList)) k = option o kw k := by
  rw [Dict.get_update_nodup]
  · unfold option
    rw [Dict.get_del]
    by_cases h : k = "encoding".toList
    · rw [if_pos h, if_pos h.symm]; rfl
    · rw [if_neg h, if_neg fun e => h e.symm]
  · unfold Dict.del
    exact hn.sublist (List.filter_sublist.map _)

end Kajiki.SettingsL
