import Verif.Props.Loader

/-!
# C68: options of a load; C69: the Pyramid renderer
-/

namespace Kajiki.Props
open Kajiki.Loader
open Kajiki.Spec.Loader (Sees)
open Kajiki.Props.Spec.Loader (pyramidRun)

/-! ## Options -/

private theorem step {cfg : Cfg} {st : State} {c : Call} :
    (∀ m, (importFile cfg st c).1 = .ok m → m.opts = c.opts ∨ st.modules.get c.name = some m) ∧
    (∀ n m, (importFile cfg st c).2.modules.get n = some m →
      st.modules.get n = some m ∨ (n = c.name ∧ m.opts = c.opts ∧ (importFile cfg st c).1 = .ok m)) ∧
    (∀ m, (importFile cfg st c).1 = .ok m → st.modules.get c.name = none → m.opts = c.opts) := by
  have key : (∀ m, (importFile cfg st c).1 = .ok m → m.opts = c.opts ∨ st.modules.get c.name = some m) ∧
    (∀ n m, (importFile cfg st c).2.modules.get n = some m →
      st.modules.get n = some m ∨ (n = c.name ∧ m.opts = c.opts ∧ (importFile cfg st c).1 = .ok m)) := by
    rcases importFile_cases cfg st c with ⟨e, h⟩ | ⟨mod, hm, h, _⟩ | ⟨st0, hn, hoth, -, -, -, -, h⟩
    · rw [h]
      exact ⟨fun _ h => (nomatch h), fun _ _ h => .inl h⟩
    · rw [h]
      exact ⟨fun _ h => by cases h; exact .inr hm, fun _ _ h => .inl h⟩
    · rw [h]
      rcases baseImport_miss (cfg := cfg) hn with ⟨e, st', hb, b1, -⟩ | ⟨fn, f, g, kind, st', -, -, -, -, hb, b1, -⟩
      · rw [hb]
        refine ⟨fun _ h => (nomatch h), fun n m h => ?_⟩
        dsimp only at h
        rw [b1] at h
        by_cases he : n = c.name
        · subst he; rw [hn] at h; cases h
        · rw [hoth n he] at h; exact .inl h
      · rw [hb]
        refine ⟨fun _ h => by cases h; exact .inl rfl, fun n m h => ?_⟩
        dsimp only at h
        rw [b1, Dict.get_set] at h
        by_cases he : c.name = n
        · rw [if_pos he] at h
          cases h
          exact .inr ⟨he.symm, rfl, rfl⟩
        · rw [if_neg he, hoth n (Ne.symm he)] at h; exact .inl h
  refine ⟨key.1, key.2, fun m h hn => ?_⟩
  rcases key.1 m h with h | h
  · exact h
  · rw [hn] at h; cases h

private theorem run (cfg : Cfg) (cs : List Call) (st : State) :
    (∀ n m, (n, .ok m) ∈ (runCalls cfg st cs).1 →
      st.modules.get n = some m ∨ ∃ c ∈ cs, c.name = n ∧ m.opts = c.opts) ∧
    (∀ n m, (runCalls cfg st cs).2.modules.get n = some m →
      st.modules.get n = some m ∨ (n, .ok m) ∈ (runCalls cfg st cs).1) := by
  induction cs generalizing st with
  | nil => exact ⟨fun _ _ h => (nomatch h), fun _ _ h => .inl h⟩
  | cons c cs ih =>
    obtain ⟨s1, s2, -⟩ := step (cfg := cfg) (st := st) (c := c)
    obtain ⟨i1, i2⟩ := ih (importFile cfg st c).2
    refine ⟨fun n m h => ?_, fun n m h => ?_⟩
    · rcases List.mem_cons.1 h with h | h
      · obtain ⟨rfl, hm⟩ := Prod.mk.inj h
        rcases s1 m hm.symm with h | h
        · exact .inr ⟨c, List.mem_cons_self, rfl, h⟩
        · exact .inl h
      · rcases i1 n m h with h | ⟨d, hd, h⟩
        · rcases s2 n m h with h | ⟨rfl, h, -⟩
          · exact .inl h
          · exact .inr ⟨c, List.mem_cons_self, rfl, h⟩
        · exact .inr ⟨d, List.mem_cons_of_mem _ hd, h⟩
    · rcases i2 n m h with h | h
      · rcases s2 n m h with h | ⟨rfl, -, h⟩
        · exact .inl h
        · exact .inr (h ▸ List.mem_cons_self)
      · exact .inr (List.mem_cons_of_mem _ h)

/-- **C68.** The options of a template are those of some import of its name, whatever happens in between. -/
theorem C68_options_of_some_import (cfg : Cfg) (cs : List Call) (n : Str) (m : Tpl)
    (h : (n, .ok m) ∈ (runCalls cfg {} cs).1) : ∃ c ∈ cs, c.name = n ∧ m.opts = c.opts := by
  rcases (run cfg cs {}).1 n m h with h | h
  · cases h
  · exact h

/-- **C68.** The first successful import of a name gives a template with the options of that import. -/
theorem C68_first_import_partial (cfg : Cfg) (cs : List Call) (c : Call) (m : Tpl)
    (hnew : ∀ m', (c.name, .ok m') ∉ (runCalls cfg {} cs).1)
    (h : (importFile cfg (runCalls cfg {} cs).2 c).1 = .ok m) : m.opts = c.opts := by
  refine (step (cfg := cfg) (st := (runCalls cfg {} cs).2) (c := c)).2.2 m h ?_
  cases hm : (runCalls cfg {} cs).2.modules.get c.name with
  | none => rfl
  | some m' =>
    rcases (run cfg cs {}).2 _ _ hm with h | h
    · cases h
    · exact absurd h (hnew m')

/-- **C68** (finding).  The full claim is false: while the file does not change, the options of a later import are
ignored, and so always for a loader that does not reload. -/
theorem C68_later_options_ignored (cfg : Cfg) (F : FS) (c d : Call) (hc : Sees F c) (hd : Sees F d)
    (hn : d.name = c.name) (ho : d.opts ≠ c.opts) (m m' : Tpl)
    (h : (runCalls cfg {} [c, d]).1 = [(c.name, .ok m), (d.name, .ok m')]) :
    m' = m ∧ m'.opts = c.opts ∧ m'.opts ≠ d.opts := by
  have e : m' = m := by
    refine (C45_cached_while_unchanged cfg F [c, d] (fun x hx => ?_)).1 c.name m' m ?_ ?_
    · rcases List.mem_cons.1 hx with rfl | hx
      · exact hc
      · rw [List.mem_singleton.1 hx]; exact hd
    · rw [h, hn]
      exact List.mem_cons_of_mem _ List.mem_cons_self
    · rw [h]
      exact List.mem_cons_self
  have h1 : (importFile cfg {} c).1 = .ok m := by
    have h := congrArg (fun l => l.head?) h
    exact (Prod.mk.inj (Option.some.inj h)).2
  have h2 := (step (cfg := cfg) (st := {}) (c := c)).2.2 m h1 rfl
  rw [e]
  exact ⟨rfl, h2, fun h => ho (h ▸ h2)⟩

/-- **C68.** The Pyramid loader with `auto_reload` compiles every time, with the options of the call. -/
theorem C68_pyramid_reload (compile : Compiler) (mode : Str) (cs : List Call) (c : Call)
    (hpos : ∀ f, c.fs1 c.name = some f → 0 < f.mtime) (m : Tpl)
    (h : (pyramidImport compile mode true (pyramidRun compile mode true {} cs).2 c).1 = .ok m) :
    m.opts = c.opts := by
  have hts := pyramid_ts compile mode true cs {}
  generalize (pyramidRun compile mode true {} cs).2 = st at h hts
  have base : ∀ st : State, st.modules.get c.name = none →
      (pyramidBase compile mode st c).1 = .ok m → m.opts = c.opts := by
    intro st hn h
    rcases pyramidBase_cases compile mode st c with ⟨m', hm, h'⟩ | ⟨e, st', h', _, h2⟩ |
      ⟨g, st', _, hg, h', _, h2⟩
    · rw [hn] at hm; cases hm
    · rw [h'] at h; cases h
    · rw [h'] at h; cases h; rfl
  unfold pyramidImport at h
  split at h
  · split at h
    · cases h
    · next f hf =>
      rw [hts] at h
      rw [if_pos (show f.mtime > ((({} : State).timestamps.get c.name).getD 0) from hpos f hf)] at h
      exact base { st with modules := st.modules.del c.name, timestamps := [] } (by
        change (st.modules.del c.name).get c.name = none
        rw [Dict.get_del, if_pos rfl]) h
  · next hm =>
    refine base st ?_ h
    rw [Bool.true_and] at hm
    unfold Dict.has at hm
    cases hg : st.modules.get c.name with
    | none => rfl
    | some x => rw [hg] at hm; exact absurd rfl hm

/-! ## The Pyramid renderer -/

variable (compile : Compiler) (mode : Str) (autoReload : Bool) (abspath : Str → Str)
  (render : Tpl → Dict Val → Except Err Str)

/-- **C69.** A view that returned a dictionary: the template of this name is rendered with a context in which the
names the view returned have the values it returned, and all others those of Pyramid. -/
theorem C69_view_is_rendered (st st' : State) (at_ : Call) (value : Dict Val) (hv : (value.map (·.1)).Nodup)
    (system : System) (name : Str) (isFragment : Bool) (m : Tpl)
    (hn : system.rendererName = some name ∧ name ≠ [] ∨
      (system.rendererName = none ∨ system.rendererName = some []) ∧ system.rendererInfo = some name)
    (hi : pyramidImport compile mode autoReload st
      { at_ with name := abspath name, opts := if isFragment then "is_fragment".toList else [] } = (.ok m, st')) :
    ∃ context, (pyramidCall compile mode autoReload abspath render st at_ (some value) system isFragment) =
        (render m context, st') ∧
      ∀ k, Dict.get context k = (Dict.get value k).or (Dict.get system.names k) := by
  refine ⟨system.names.update value, ?_, fun k => Dict.get_update_nodup _ _ k hv⟩
  have ht : system.template = .ok name := by
    unfold System.template
    rcases hn with ⟨hn, hne⟩ | ⟨hn, hi⟩
    · rw [hn]
      cases name with
      | nil => exact absurd rfl hne
      | cons a as => rfl
    · rcases hn with hn | hn <;> rw [hn, hi]
  unfold pyramidCall
  rw [ht]
  dsimp only
  unfold fragmentOpts
  rw [hi]

/-- **C69.** A view that did not return a dictionary is a `ValueError`, and nothing is rendered. -/
theorem C69_no_dictionary (st st' : State) (at_ : Call) (system : System) (name : Str)
    (isFragment : Bool) (m : Tpl) (hn : system.template = .ok name)
    (hi : pyramidImport compile mode autoReload st
      { at_ with name := abspath name, opts := if isFragment then "is_fragment".toList else [] } = (.ok m, st')) :
    pyramidCall compile mode autoReload abspath render st at_ none system isFragment = (.error .value, st') := by
  unfold pyramidCall
  rw [hn]
  dsimp only
  unfold fragmentOpts
  rw [hi]

/-- **C68** (finding).  In Pyramid without `auto_reload`, a template that was rendered as a page stays a page: as a
fragment it is not compiled as one. -/
theorem C68_page_stays_page (at_ : Call) (name : Str) (hne : name ≠ []) (f : File) (hf : at_.fs4 (abspath name) = some f)
    (hok : ∀ n k fn s o, compile n k fn s o = none) (value dic : Dict Val) (names other : Dict Val) :
    let page := pyramidCall compile mode false abspath render {} at_ (some value) ⟨some name, none, names⟩ false
    let fragment := pyramidFragment compile mode false abspath render page.2 at_ name dic true true other
    ∃ m context, fragment.1 = render m context ∧ m.opts = [] := by
  have ht : ∀ d, (System.mk (some name) none d).template = .ok name := by
    intro d
    unfold System.template
    cases name with
    | nil => exact absurd rfl hne
    | cons a as => rfl
  refine ⟨⟨0, .xml mode, abspath name, f.content, []⟩,
    Dict.update (("renderer_name".toList, .str name) :: other) dic, ?_, rfl⟩
  unfold pyramidFragment
  rw [if_pos (show (true || true) = true from rfl)]
  unfold pyramidCall
  simp [ht, pyramidImport, pyramidBase, pyramidLoad, hf, hok, Dict.get, Dict.set, fragmentOpts]

/-! ### Examples -/

private def shows (m : Tpl) (context : Dict Val) : Except Err Str :=
  .ok (m.content ++ '|' :: m.opts ++ '|' :: (match Dict.get context ['x'] with | some (.str s) => s | _ => []))
private def files : FS := fun p => if p = "/a.html".toList then some ⟨"<a/>".toList, 5⟩ else none
private def call : Call := ⟨[], [], files, files, files, files, files⟩
private def system : System := ⟨none, some "a.html".toList, [("x".toList, .str "s".toList), ("y".toList, .none)]⟩

example : (pyramidCall (fun _ _ _ _ _ => none) [] true ('/' :: ·) shows {} call (some [("x".toList, .str "v".toList)])
    system true).1 = .ok "<a/>|is_fragment|v".toList := by decide +kernel
example : (pyramidCall (fun _ _ _ _ _ => none) [] true ('/' :: ·) shows {} call none system true).1 = .error .value := by
  decide +kernel

private def twice : List Call :=
  [⟨"/a.html".toList, ['1'], files, files, files, files, files⟩, ⟨"/a.html".toList, ['2'], files, files, files, files, files⟩]
example : ((runCalls (fileLoader [] true [] fun _ _ _ _ _ => none) {} twice).1.map fun r => r.2.map (·.opts)) =
    [.ok ['1'], .ok ['1']] := by decide +kernel

end Kajiki.Props
