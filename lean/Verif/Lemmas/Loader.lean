import Verif.Model.Loader
import Verif.Lemmas.Dict

/-! Helper lemmas for the loader. -/

namespace Kajiki.Loader

/-- What a load can do. -/
theorem load_cases (cfg : Cfg) (st : State) (c : Call) :
    (∃ e st', load cfg st c = (.error e, st') ∧ st'.modules = st.modules ∧
        st'.compiled = st.compiled ∧ st.attempts ≤ st'.attempts ∧
        (∀ n, n ≠ c.name → st'.timestamps.get n = st.timestamps.get n)) ∨
    (∃ fn f g kind st', cfg.resolve c.fs2 c.name = .ok (some fn) ∧ c.fs3 fn = some f ∧
        c.fs4 fn = some g ∧ cfg.kindOf fn = .ok kind ∧
        load cfg st c = (.ok ⟨st.attempts, kind, fn, g.content, c.opts⟩, st') ∧
        st'.modules = st.modules ∧ st'.compiled = c.name :: st.compiled ∧
        st'.attempts = st.attempts + 1 ∧
        st'.timestamps = st.timestamps.set c.name f.mtime) := by
  unfold load
  split
  · exact .inl ⟨_, _, rfl, rfl, rfl, Nat.le_refl _, fun _ _ => rfl⟩
  · exact .inl ⟨_, _, rfl, rfl, rfl, Nat.le_refl _, fun _ _ => rfl⟩
  · rename_i fn hfn
    split
    · exact .inl ⟨_, _, rfl, rfl, rfl, Nat.le_refl _, fun _ _ => rfl⟩
    · rename_i f hf
      have hset : ∀ n, n ≠ c.name →
          Dict.get (Dict.set st.timestamps c.name f.mtime) n = st.timestamps.get n :=
        fun n hn => Dict.get_set_other _ _ (Ne.symm hn)
      dsimp only
      split
      · exact .inl ⟨_, _, rfl, rfl, rfl, Nat.le_refl _, hset⟩
      · rename_i kind hk
        split
        · exact .inl ⟨_, _, rfl, rfl, rfl, Nat.le_refl _, hset⟩
        · rename_i g hg
          split
          · exact .inl ⟨_, _, rfl, rfl, rfl, Nat.le_succ _, hset⟩
          · exact .inr ⟨fn, f, g, kind, _, hfn, hf, hg, hk, rfl, rfl, rfl, rfl, rfl⟩

theorem baseImport_hit {cfg : Cfg} {st : State} {c : Call} {mod : Tpl}
    (h : st.modules.get c.name = some mod) : baseImport cfg st c = (.ok mod, st) := by
  unfold baseImport; rw [h]

theorem baseImport_miss {cfg : Cfg} {st : State} {c : Call}
    (h : st.modules.get c.name = none) :
    (∃ e st', baseImport cfg st c = (.error e, st') ∧ st'.modules = st.modules ∧
        st'.compiled = st.compiled ∧ st.attempts ≤ st'.attempts ∧
        (∀ n, n ≠ c.name → st'.timestamps.get n = st.timestamps.get n)) ∨
    (∃ fn f g kind st', cfg.resolve c.fs2 c.name = .ok (some fn) ∧ c.fs3 fn = some f ∧
        c.fs4 fn = some g ∧ cfg.kindOf fn = .ok kind ∧
        baseImport cfg st c = (.ok ⟨st.attempts, kind, fn, g.content, c.opts⟩, st') ∧
        st'.modules = st.modules.set c.name ⟨st.attempts, kind, fn, g.content, c.opts⟩ ∧
        st'.compiled = c.name :: st.compiled ∧
        st'.attempts = st.attempts + 1 ∧
        st'.timestamps = st.timestamps.set c.name f.mtime) := by
  unfold baseImport; rw [h]
  rcases load_cases cfg st c with ⟨e, st', hl, h1, h2, h3, h4⟩ |
    ⟨fn, f, g, kind, st', a, b, d, k, hl, h1, h2, h3, h4⟩
  · left; exact ⟨e, st', by rw [hl], h1, h2, h3, h4⟩
  · right; exact ⟨fn, f, g, kind, { st' with modules := st'.modules.set c.name _ }, a, b, d, k,
      by rw [hl], by rw [h1], h2, h3, h4⟩

/-- The four ways an import can go. -/
theorem importFile_cases (cfg : Cfg) (st : State) (c : Call) :
    (∃ e, importFile cfg st c = (.error e, st)) ∨
    (∃ mod, st.modules.get c.name = some mod ∧ importFile cfg st c = (.ok mod, st) ∧
      (cfg.reload = true → ∃ fn f, cfg.resolve c.fs0 c.name = .ok (some fn) ∧ c.fs1 fn = some f ∧
        f.mtime ≤ (st.timestamps.get c.name).getD 0)) ∨
    (∃ st0 : State, (st0.modules.get c.name = none) ∧
      (∀ n, n ≠ c.name → st0.modules.get n = st.modules.get n) ∧
      st0.timestamps = st.timestamps ∧ st0.attempts = st.attempts ∧ st0.compiled = st.compiled ∧
      ((st.modules.get c.name = none ∧ st0 = st) ∨
        (cfg.reload = true ∧ (∃ mod, st.modules.get c.name = some mod) ∧
          ∃ fn f, cfg.resolve c.fs0 c.name = .ok (some fn) ∧ c.fs1 fn = some f ∧ f.mtime > (st.timestamps.get c.name).getD 0)) ∧
      importFile cfg st c = baseImport cfg st0 c) := by
  unfold importFile
  split
  · exact .inl ⟨_, rfl⟩
  · rename_i filename hres
    by_cases hr : (cfg.reload && st.modules.has c.name) = true
    · rw [if_pos hr]
      rw [Bool.and_eq_true] at hr
      split
      · exact .inl ⟨_, rfl⟩
      · rename_i fn
        split
        · exact .inl ⟨_, rfl⟩
        · rename_i f hf
          split
          · rename_i hgt
            refine .inr (.inr ⟨{ st with modules := st.modules.del c.name }, ?_, ?_, rfl, rfl, rfl,
              .inr ⟨hr.1, Option.isSome_iff_exists.1 hr.2, fn, f, hres, hf, hgt⟩, rfl⟩)
            · show (st.modules.del c.name).get c.name = none
              rw [Dict.get_del, if_pos rfl]
            · intro n hn
              show (st.modules.del c.name).get n = _
              rw [Dict.get_del, if_neg (Ne.symm hn)]
          · rename_i hle
            obtain ⟨mod, hm⟩ := Option.isSome_iff_exists.1 hr.2
            exact .inr (.inl ⟨mod, hm, baseImport_hit hm, fun _ =>
              ⟨fn, f, hres, hf, Nat.le_of_not_gt hle⟩⟩)
    · rw [if_neg hr]
      cases hm : st.modules.get c.name with
      | some mod =>
        refine .inr (.inl ⟨mod, rfl, baseImport_hit hm, fun h => ?_⟩)
        exact absurd (by rw [h, Dict.has, hm]; rfl) hr
      | none =>
        exact .inr (.inr ⟨st, hm, fun _ _ => rfl, rfl, rfl, rfl, .inl ⟨rfl, rfl⟩, rfl⟩)

end Kajiki.Loader
