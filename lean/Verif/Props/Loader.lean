import Verif.Lemmas.Loader

/-!
# Properties of the loaders: C45, C46, C47, C59
-/

namespace Kajiki.Spec.Loader
open Kajiki.Loader

/-- Every access of this import sees the file system `F`. -/
def Sees (F : FS) (c : Call) : Prop :=
  c.fs0 = F ∧ c.fs1 = F ∧ c.fs2 = F ∧ c.fs3 = F ∧ c.fs4 = F

/-- A call with the instants of its five file system accesses. -/
structure TCall where
  name : Str
  opts : Str
  t0 : Nat
  t1 : Nat
  t2 : Nat
  t3 : Nat
  t4 : Nat

/-- The call against a file system that changes with time. -/
def TCall.at (c : TCall) (fs : Nat → FS) : Call :=
  ⟨c.name, c.opts, fs c.t0, fs c.t1, fs c.t2, fs c.t3, fs c.t4⟩

/-- Calls happen one after the other, and inside a call the accesses happen in order; `now` is the
time before which nothing may happen. -/
def Sequential : Nat → List TCall → Prop
  | _, [] => True
  | now, c :: cs =>
    (now ≤ c.t0 ∧ c.t0 ≤ c.t1 ∧ c.t1 ≤ c.t2 ∧ c.t2 ≤ c.t3 ∧ c.t3 ≤ c.t4) ∧ Sequential c.t4 cs

/-- The history of a single file follows the modification time discipline: modification times never
go back, and two different contents never carry the same modification time. -/
def Disciplined (F : Nat → File) : Prop :=
  ∀ s t, s ≤ t → (F s).mtime ≤ (F t).mtime ∧ ((F s).mtime = (F t).mtime → (F s).content = (F t).content)

end Kajiki.Spec.Loader

namespace Kajiki.Props
open Kajiki.Loader Kajiki.Spec.Loader

/-! ## C45 -/

private structure Inv (cfg : Cfg) (F : FS) (st : State) : Prop where
  ts : cfg.reload = true → ∀ n m, st.modules.get n = some m →
    ∃ fn f, cfg.resolve F n = .ok (some fn) ∧ F fn = some f ∧ st.timestamps.get n = some f.mtime
  log : ∀ n, n ∈ st.compiled ↔ (st.modules.get n).isSome
  nodup : st.compiled.Nodup

private theorem inv_step {cfg : Cfg} {F : FS} {st : State} {c : Call} (hi : Inv cfg F st)
    (hc : cfg.reload = true → Sees F c) :
    Inv cfg F (importFile cfg st c).2 ∧
    (∀ n m, st.modules.get n = some m → (importFile cfg st c).2.modules.get n = some m) ∧
    (∀ m, (importFile cfg st c).1 = .ok m →
      (importFile cfg st c).2.modules.get c.name = some m) ∧
    (∀ n, ((importFile cfg st c).2.modules.get n).isSome →
      (st.modules.get n).isSome ∨ (n = c.name ∧ ∃ m, (importFile cfg st c).1 = .ok m)) := by
  rcases importFile_cases cfg st c with ⟨e, h⟩ | ⟨mod, hm, h, _⟩ |
    ⟨st0, hn, hoth, hts, hat, hcomp, hwhy, h⟩
  · rw [h]
    refine ⟨hi, fun n m hnm => hnm, fun m hm => (by cases hm), fun n hn => .inl hn⟩
  · rw [h]
    refine ⟨hi, fun n m hnm => hnm, fun m hm' => by cases hm'; exact hm, fun n hn => .inl hn⟩
  · have hst : st.modules.get c.name = none ∧ st0 = st := by
      rcases hwhy with hw | ⟨hr, ⟨m, hg⟩, fn, f, hres, hf, hgt⟩
      · exact hw
      · exfalso
        obtain ⟨e0, e1, _⟩ := hc hr
        obtain ⟨fn', f', a, b, d⟩ := hi.ts hr _ _ hg
        rw [e0, a] at hres
        cases hres
        rw [e1, b] at hf
        cases hf
        rw [d] at hgt
        exact absurd hgt (Nat.lt_irrefl _)
    obtain ⟨hnone, rfl⟩ := hst
    rw [h]
    rcases baseImport_miss (cfg := cfg) hn with ⟨e, st', hb, b1, b2, b3, b4⟩ |
      ⟨fn, f, g, kind, st', r1, r2, r3, r4, hb, b1, b2, b3, b4⟩
    · rw [hb]
      refine ⟨⟨?_, ?_, ?_⟩, ?_, ?_, ?_⟩
      · intro hr n m hnm
        rw [b1] at hnm
        obtain ⟨fn, f, a, b, d⟩ := hi.ts hr n m hnm
        refine ⟨fn, f, a, b, ?_⟩
        have hne : n ≠ c.name := by
          intro he; subst he; rw [hnone] at hnm; cases hnm
        rw [b4 n hne]; exact d
      · intro n; simp only [b1, b2]; exact hi.log n
      · simp only [b2]; exact hi.nodup
      · intro n m hnm; simp only [b1]; exact hnm
      · intro m hm; cases hm
      · intro n hnm; left; rw [← b1]; exact hnm
    · rw [hb]
      refine ⟨⟨?_, ?_, ?_⟩, ?_, ?_, ?_⟩
      · intro hr n m hnm
        rw [b1, Dict.get_set] at hnm
        obtain ⟨_, _, e2, e3, _⟩ := hc hr
        by_cases he : c.name = n
        · subst he
          exact ⟨fn, f, by rw [← e2]; exact r1, by rw [← e3]; exact r2,
            by rw [b4, Dict.get_set_same]⟩
        · rw [if_neg he] at hnm
          obtain ⟨fn, f, a, b, d⟩ := hi.ts hr n m hnm
          exact ⟨fn, f, a, b, by rw [b4, Dict.get_set_other _ _ he]; exact d⟩
      · intro n
        simp only [b1, b2, Dict.get_set, List.mem_cons]
        by_cases he : c.name = n
        · simp [he]
        · rw [if_neg he, hi.log n]
          constructor
          · rintro (h | h)
            · exact absurd h.symm he
            · exact h
          · exact .inr
      · simp only [b2]
        refine List.nodup_cons.2 ⟨?_, hi.nodup⟩
        rw [hi.log, hnone]; simp
      · intro n m hnm
        simp only [b1]
        rw [Dict.get_set_other]
        · exact hnm
        · intro he; subst he; rw [hnone] at hnm; cases hnm
      · intro m hm; cases hm; simp only [b1, Dict.get_set_same]
      · intro n hnm
        simp only [b1, Dict.get_set] at hnm
        by_cases he : c.name = n
        · exact .inr ⟨he.symm, _, rfl⟩
        · rw [if_neg he] at hnm; exact .inl hnm

private theorem inv_run {cfg : Cfg} {F : FS} (cs : List Call) (st : State) (hi : Inv cfg F st)
    (hc : cfg.reload = true → ∀ c ∈ cs, Sees F c) :
    Inv cfg F (runCalls cfg st cs).2 ∧
    (∀ n m, st.modules.get n = some m → (runCalls cfg st cs).2.modules.get n = some m) ∧
    (∀ n m, (n, .ok m) ∈ (runCalls cfg st cs).1 →
      (runCalls cfg st cs).2.modules.get n = some m) ∧
    (∀ n, ((runCalls cfg st cs).2.modules.get n).isSome →
      (st.modules.get n).isSome ∨ ∃ m, (n, .ok m) ∈ (runCalls cfg st cs).1) := by
  induction cs generalizing st with
  | nil =>
    exact ⟨hi, fun _ _ h => h, fun _ _ h => (by cases h), fun _ h => .inl h⟩
  | cons c cs ih =>
    obtain ⟨s1, s2, s3, s4⟩ := inv_step hi (c := c) (fun hr => hc hr c (by simp))
    obtain ⟨i1, i2, i3, i4⟩ := ih _ s1 (fun hr c' h' => hc hr c' (by simp [h']))
    simp only [runCalls]
    refine ⟨i1, fun n m h => i2 n m (s2 n m h), ?_, ?_⟩
    · intro n m h
      rcases List.mem_cons.1 h with h | h
      · obtain ⟨rfl, hm⟩ := Prod.mk.inj h
        exact i2 _ _ (s3 m hm.symm)
      · exact i3 n m h
    · intro n h
      rcases i4 n h with h | ⟨m, h⟩
      · rcases s4 n h with h | ⟨rfl, m, h⟩
        · exact .inl h
        · exact .inr ⟨m, by rw [h]; simp⟩
      · exact .inr ⟨m, by simp [h]⟩

private theorem cached {cfg : Cfg} {F : FS} (cs : List Call)
    (hc : cfg.reload = true → ∀ c ∈ cs, Sees F c) :
    (∀ n m m', (n, .ok m) ∈ (runCalls cfg {} cs).1 → (n, .ok m') ∈ (runCalls cfg {} cs).1 → m = m') ∧
    (runCalls cfg {} cs).2.compiled.Nodup ∧
    (∀ n, n ∈ (runCalls cfg {} cs).2.compiled ↔ ∃ m, (n, .ok m) ∈ (runCalls cfg {} cs).1) := by
  obtain ⟨i1, i2, i3, i4⟩ := inv_run (cfg := cfg) (F := F) cs {} ⟨by simp, by simp, by simp⟩ hc
  refine ⟨?_, i1.nodup, ?_⟩
  · intro n m m' h h'
    have a := i3 n m h
    rw [i3 n m' h'] at a
    exact (Option.some.inj a).symm
  · intro n
    rw [i1.log]
    constructor
    · intro h
      rcases i4 n h with h | h
      · simp at h
      · exact h
    · rintro ⟨m, h⟩; rw [i3 n m h]; rfl

/-- **C45.** While the file system does not change (every access of every import sees `F`), in any
sequence of imports of any names with any options, on a fresh loader (any search rule, any
constructor choice, any compiler, reload on or off): two successful imports of the same name return
the very same compiled template; no name is compiled successfully twice; and a name has been
compiled exactly when some import of it succeeded. -/
theorem C45_cached_while_unchanged (cfg : Cfg) (F : FS) (cs : List Call) (hF : ∀ c ∈ cs, Sees F c) :
    (∀ n m m', (n, .ok m) ∈ (runCalls cfg {} cs).1 → (n, .ok m') ∈ (runCalls cfg {} cs).1 → m = m') ∧
    (runCalls cfg {} cs).2.compiled.Nodup ∧
    (∀ n, n ∈ (runCalls cfg {} cs).2.compiled ↔ ∃ m, (n, .ok m) ∈ (runCalls cfg {} cs).1) :=
  cached cs (fun _ => hF)

/-- **C45.** With reload off the same holds whatever happens to the file system. -/
theorem C45_cached_without_reload (cfg : Cfg) (hr : cfg.reload = false) (cs : List Call) :
    (∀ n m m', (n, .ok m) ∈ (runCalls cfg {} cs).1 → (n, .ok m') ∈ (runCalls cfg {} cs).1 → m = m') ∧
    (runCalls cfg {} cs).2.compiled.Nodup ∧
    (∀ n, n ∈ (runCalls cfg {} cs).2.compiled ↔ ∃ m, (n, .ok m) ∈ (runCalls cfg {} cs).1) :=
  cached (F := fun _ => none) cs (fun h => by rw [hr] at h; cases h)

/-- A loader over the directories `d1` and `d2`, with reload. -/
private def demo : Cfg := fileLoader "d1;d2".toList true [] fun _ _ _ _ _ => none

private def demoFS : FS := fun p =>
  if p = "d2/a.xml".toList then some ⟨"<a/>".toList, 5⟩ else none

private def demoCall (F : FS) : Call := ⟨"a.xml".toList, [], F, F, F, F, F⟩

/-- The hypotheses are met by two imports, both successful, of one compiled template. -/
example : (∀ c ∈ [demoCall demoFS, demoCall demoFS], Sees demoFS c) ∧
    (runCalls demo {} [demoCall demoFS, demoCall demoFS]).1 =
      [("a.xml".toList, .ok ⟨0, .xml [], "d2/a.xml".toList, "<a/>".toList, []⟩),
       ("a.xml".toList, .ok ⟨0, .xml [], "d2/a.xml".toList, "<a/>".toList, []⟩)] := by
  refine ⟨?_, by decide +kernel⟩
  intro c hc
  have : c = demoCall demoFS := by simpa using hc
  subst this
  exact ⟨rfl, rfl, rfl, rfl, rfl⟩

/-! ## C46 -/

private structure Fresh (name : Str) (F : Nat → File) (now : Nat) (st : State) : Prop where
  src : ∀ m, st.modules.get name = some m → ∃ s r, s ≤ r ∧ r ≤ now ∧
    st.timestamps.get name = some (F s).mtime ∧ m.content = (F r).content

private theorem fresh_step {cfg : Cfg} (hr : cfg.reload = true) {fs : Nat → FS} {name fn : Str}
    {F : Nat → File} (hres : ∀ t, cfg.resolve (fs t) name = .ok (some fn))
    (hF : ∀ t, fs t fn = some (F t)) (hd : Disciplined F) {now : Nat} {st : State}
    (hi : Fresh name F now st) (c : TCall)
    (ht : now ≤ c.t0 ∧ c.t0 ≤ c.t1 ∧ c.t1 ≤ c.t2 ∧ c.t2 ≤ c.t3 ∧ c.t3 ≤ c.t4) :
    Fresh name F c.t4 (importFile cfg st (c.at fs)).2 ∧
    (c.name = name → ∀ m, (importFile cfg st (c.at fs)).1 = .ok m →
      ∃ t, c.t1 ≤ t ∧ t ≤ c.t4 ∧ m.content = (F t).content) := by
  have mono : ∀ m, st.modules.get name = some m → ∃ s r, s ≤ r ∧ r ≤ c.t4 ∧
      st.timestamps.get name = some (F s).mtime ∧ m.content = (F r).content := by
    intro m hm
    obtain ⟨s, r, a, b, d, e⟩ := hi.src m hm
    exact ⟨s, r, a, by omega, d, e⟩
  rcases importFile_cases cfg st (c.at fs) with ⟨e, h⟩ | ⟨mod, hm, h, hwhy⟩ |
    ⟨st0, hn, hoth, hts, hat, hcomp, hwhy, h⟩
  · rw [h]
    exact ⟨⟨mono⟩, fun _ m hm => by cases hm⟩
  · rw [h]
    refine ⟨⟨mono⟩, fun hname m hmod => ?_⟩
    cases hmod
    subst hname
    obtain ⟨fn', f, a, b, d⟩ := hwhy hr
    have hfn : fn' = fn := by
      have := hres c.t0
      change cfg.resolve (fs c.t0) c.name = _ at a
      rw [this] at a; cases a; rfl
    subst hfn
    change fs c.t1 fn' = _ at b
    rw [hF] at b
    cases b
    obtain ⟨s, r, h1, h2, h3, h4⟩ := hi.src mod hm
    change _ ≤ (st.timestamps.get c.name).getD 0 at d
    rw [h3, Option.getD_some] at d
    have x := (hd s r h1).1
    have y := (hd r c.t1 (by omega))
    refine ⟨c.t1, by omega, by omega, ?_⟩
    rw [h4]
    exact y.2 (by omega)
  · rw [h]
    rcases baseImport_miss (cfg := cfg) hn with ⟨e, st', hb, b1, b2, b3, b4⟩ |
      ⟨fn', f, g, kind, st', r1, r2, r3, r4, hb, b1, b2, b3, b4⟩
    · rw [hb]
      refine ⟨⟨?_⟩, fun _ m hm => by cases hm⟩
      intro m hm
      have hne : name ≠ (c.at fs).name := by
        intro he; rw [he, b1, hn] at hm; cases hm
      simp only [b1] at hm
      rw [hoth _ hne] at hm
      obtain ⟨s, r, x1, x2, x3, x4⟩ := mono m hm
      exact ⟨s, r, x1, x2, by rw [b4 _ hne, hts]; exact x3, x4⟩
    · rw [hb]
      have key : c.name = name → f = F c.t3 ∧ g = F c.t4 := by
        intro hname
        subst hname
        change cfg.resolve (fs c.t2) c.name = _ at r1
        rw [hres] at r1
        cases r1
        change fs c.t3 fn = _ at r2
        change fs c.t4 fn = _ at r3
        rw [hF] at r2 r3
        cases r2; cases r3
        exact ⟨rfl, rfl⟩
      refine ⟨⟨?_⟩, ?_⟩
      · intro m hm
        simp only [b1] at hm
        by_cases he : c.name = name
        · obtain ⟨k1, k2⟩ := key he
          have he' : (c.at fs).name = name := he
          rw [he', Dict.get_set_same] at hm
          cases hm
          refine ⟨c.t3, c.t4, ht.2.2.2.2, Nat.le_refl _, ?_, ?_⟩
          · simp only [b4, he', Dict.get_set_same, k1]
          · simp only [k2]
        · have he' : (c.at fs).name ≠ name := he
          rw [Dict.get_set_other _ _ he', hoth _ (Ne.symm he')] at hm
          obtain ⟨s, r, x1, x2, x3, x4⟩ := mono m hm
          exact ⟨s, r, x1, x2, by rw [b4, Dict.get_set_other _ _ he', hts]; exact x3, x4⟩
      · intro hname m hm
        cases hm
        obtain ⟨k1, k2⟩ := key hname
        exact ⟨c.t4, by omega, Nat.le_refl _, by simp only [k2]⟩

private theorem fresh_run {cfg : Cfg} (hr : cfg.reload = true) {fs : Nat → FS} {name fn : Str}
    {F : Nat → File} (hres : ∀ t, cfg.resolve (fs t) name = .ok (some fn))
    (hF : ∀ t, fs t fn = some (F t)) (hd : Disciplined F) (cs : List TCall) (now : Nat) (st : State)
    (hi : Fresh name F now st) (c : TCall) (hs : Sequential now (cs ++ [c]))
    (hname : c.name = name) (m : Tpl)
    (h : (importFile cfg (runCalls cfg st (cs.map (·.at fs))).2 (c.at fs)).1 = .ok m) :
    ∃ t, c.t1 ≤ t ∧ t ≤ c.t4 ∧ m.content = (F t).content := by
  induction cs generalizing st now with
  | nil => exact (fresh_step hr hres hF hd hi c hs.1).2 hname m h
  | cons d cs ih => exact ih d.t4 _ (fresh_step hr hres hF hd hi d hs.1).1 hs.2 h

/-- **C46.** Reload on; a name that always resolves to the file `fn`, whose history `F` follows the
modification time discipline; any sequence of imports of any names before, any interleaving of
modifications with the loader's accesses (the file may change between any two of them, in
particular between `stat` and `read`).  Then a successful import of the name returns a template
compiled from a content the file had *during that import* — never from an older one. -/
theorem C46_fresh (cfg : Cfg) (hr : cfg.reload = true) (fs : Nat → FS) (name fn : Str)
    (F : Nat → File) (hres : ∀ t, cfg.resolve (fs t) name = .ok (some fn))
    (hF : ∀ t, fs t fn = some (F t)) (hd : Disciplined F)
    (cs : List TCall) (c : TCall) (hs : Sequential 0 (cs ++ [c])) (hname : c.name = name) (m : Tpl)
    (h : (importFile cfg (runCalls cfg {} (cs.map (·.at fs))).2 (c.at fs)).1 = .ok m) :
    ∃ t, c.t1 ≤ t ∧ t ≤ c.t4 ∧ m.content = (F t).content :=
  fresh_run hr hres hF hd cs 0 {} ⟨by simp⟩ c hs hname m h

/-- **C46.** In particular, when the file is not modified during the import, the template is
compiled from the file's current content. -/
theorem C46_current (cfg : Cfg) (hr : cfg.reload = true) (fs : Nat → FS) (name fn : Str)
    (F : Nat → File) (hres : ∀ t, cfg.resolve (fs t) name = .ok (some fn))
    (hF : ∀ t, fs t fn = some (F t)) (hd : Disciplined F)
    (cs : List TCall) (c : TCall) (hs : Sequential 0 (cs ++ [c])) (hname : c.name = name) (m : Tpl)
    (hq : ∀ t, c.t1 ≤ t → t ≤ c.t4 → F t = F c.t4)
    (h : (importFile cfg (runCalls cfg {} (cs.map (·.at fs))).2 (c.at fs)).1 = .ok m) :
    m.content = (F c.t4).content := by
  obtain ⟨t, a, b, e⟩ := C46_fresh cfg hr fs name fn F hres hF hd cs c hs hname m h
  rw [e, hq t a b]

/-- A file that is rewritten at time 8. -/
private def demoHist (t : Nat) : File := if t < 8 then ⟨['o'], 5⟩ else ⟨['n'], 9⟩
private def demoFSs (t : Nat) : FS := fun p => if p = "d2/a.xml".toList then some (demoHist t) else none
private def demoCfg : Cfg where
  reload := true
  resolve := fun fs _ => if (fs "d2/a.xml".toList).isSome then .ok (some "d2/a.xml".toList) else .ok none
  kindOf := kindOf []
  compile := fun _ _ _ _ _ => none

/-- The hypotheses of C46 are met by an import at time 0-4, a change at time 8, and an import at
times 7-11 whose accesses straddle the change; the second import gives the new content. -/
example : (∀ t, demoCfg.resolve (demoFSs t) "a.xml".toList = .ok (some "d2/a.xml".toList)) ∧
    (∀ t, demoFSs t "d2/a.xml".toList = some (demoHist t)) ∧ Disciplined demoHist ∧
    Sequential 0 [⟨"a.xml".toList, [], 0, 1, 2, 3, 4⟩, ⟨"a.xml".toList, [], 7, 8, 9, 10, 11⟩] ∧
    (importFile demoCfg (runCalls demoCfg {}
      [TCall.at ⟨"a.xml".toList, [], 0, 1, 2, 3, 4⟩ demoFSs]).2
      (TCall.at ⟨"a.xml".toList, [], 7, 8, 9, 10, 11⟩ demoFSs)).1 =
      .ok ⟨1, .xml [], "d2/a.xml".toList, ['n'], []⟩ := by
  refine ⟨fun t => ?_, fun t => ?_, ?_, ?_, by decide +kernel⟩
  · unfold demoCfg; dsimp only
    rw [show demoFSs t "d2/a.xml".toList = some (demoHist t) from if_pos rfl]
    rfl
  · exact if_pos rfl
  · intro s t hst
    unfold demoHist
    split <;> split <;> simp <;> omega
  · simp [Sequential]

/-- **C46, limit.** The discipline is needed: a file rewritten with the *same* modification time
(as happens within the time stamp granularity of the file system) stays stale. -/
theorem C46_same_mtime_is_stale :
    ∃ (cfg : Cfg) (F G : FS) (c d : Call) (m : Tpl), cfg.reload = true ∧ Sees F c ∧ Sees G d ∧
      c.name = d.name ∧ (∀ p, (F p).map File.mtime = (G p).map File.mtime) ∧
      (∀ p f, G p = some f → f.content = ['n']) ∧
      (importFile cfg (importFile cfg {} c).2 d).1 = .ok m ∧ m.content = ['o'] := by
  refine ⟨demoCfg, fun p => if p = "d2/a.xml".toList then some ⟨['o'], 5⟩ else none,
    fun p => if p = "d2/a.xml".toList then some ⟨['n'], 5⟩ else none,
    ⟨"a.xml".toList, [], _, _, _, _, _⟩, ⟨"a.xml".toList, [], _, _, _, _, _⟩,
    ⟨0, .xml [], "d2/a.xml".toList, ['o'], []⟩, rfl, ⟨rfl, rfl, rfl, rfl, rfl⟩,
    ⟨rfl, rfl, rfl, rfl, rfl⟩, rfl, ?_, ?_, by decide +kernel, rfl⟩
  · intro p; dsimp only; split <;> rfl
  · intro p f h; dsimp only at h; split at h
    · cases h; rfl
    · cases h

/-- **C46, limit.** A file that newly appears in an *earlier* directory of the path takes
precedence, but a cached template of the later directory is still returned when the new file is not
newer. -/
theorem C46_shadowing_is_stale :
    ∃ (F G : FS) (c d : Call) (m : Tpl), Sees F c ∧ Sees G d ∧ c.name = d.name ∧
      (∀ p f, F p = some f → G p = some f) ∧
      filename (splitSemi "d1;d2".toList) G d.name = some "d1/a.xml".toList ∧
      (importFile demo (importFile demo {} c).2 d).1 = .ok m ∧ m.file = "d2/a.xml".toList := by
  refine ⟨demoFS, fun p => if p = "d1/a.xml".toList then some ⟨['n'], 3⟩ else demoFS p,
    demoCall _, demoCall _,
    ⟨0, .xml [], "d2/a.xml".toList, "<a/>".toList, []⟩, ⟨rfl, rfl, rfl, rfl, rfl⟩,
    ⟨rfl, rfl, rfl, rfl, rfl⟩, rfl, ?_, by decide +kernel, by decide +kernel, rfl⟩
  intro p f h
  dsimp only
  split
  · rename_i hp; subst hp
    rw [show demoFS "d1/a.xml".toList = none by decide +kernel] at h
    cases h
  · exact h

/-! ## C47 -/

/-- **C47 (the part that holds).** When an import fails — whatever the reason and at whatever
point, the file system changing arbitrarily meanwhile — no other name's cached template or time
stamp changes, and nothing new is cached: the name itself is afterwards either not cached, or still
holds the template it held before.

Missing from the full claim: "does not cache anything for it" fails when the name was cached before
and the failure is a vanished file, see `C47_deleted_file_keeps_entry`. -/
theorem C47_failure_partial (cfg : Cfg) (st : State) (c : Call) (e : Err)
    (h : (importFile cfg st c).1 = .error e) :
    (∀ n, n ≠ c.name → (importFile cfg st c).2.modules.get n = st.modules.get n ∧
      (importFile cfg st c).2.timestamps.get n = st.timestamps.get n) ∧
    ((importFile cfg st c).2.modules.get c.name = none ∨ (importFile cfg st c).2 = st) ∧
    (importFile cfg st c).2.compiled = st.compiled := by
  rcases importFile_cases cfg st c with ⟨e, h'⟩ | ⟨mod, hm, h', hwhy⟩ |
    ⟨st0, hn, hoth, hts, hat, hcomp, hwhy, h'⟩
  · rw [h']; exact ⟨fun _ _ => ⟨rfl, rfl⟩, .inr rfl, rfl⟩
  · rw [h'] at h; cases h
  · rw [h'] at h ⊢
    rcases baseImport_miss (cfg := cfg) hn with ⟨e, st', hb, b1, b2, b3, b4⟩ |
      ⟨fn', f, g, kind, st', r1, r2, r3, r4, hb, b1, b2, b3, b4⟩
    · rw [hb]
      refine ⟨fun n hne => ⟨?_, ?_⟩, .inl ?_, ?_⟩
      · simp only [b1]; exact hoth n hne
      · simp only [b4 n hne, hts]
      · simp only [b1]; exact hn
      · simp only [b2, hcomp]
    · rw [hb] at h; cases h

/-- **C47.** After a failed compilation (in fact any failure other than a vanished file: the stat in
`import_` succeeds or there was no entry), nothing is cached for the name, so the next import loads
again: the template it returns is compiled by that import, from the content read then. -/
theorem C47_failure_then_retry (cfg : Cfg) (st : State) (c d : Call) (e : Err) (m : Tpl)
    (h : (importFile cfg st c).1 = .error e)
    (hfound : st.modules.get c.name = none ∨
      ∃ fn f, cfg.resolve c.fs0 c.name = .ok (some fn) ∧ c.fs1 fn = some f)
    (hd : d.name = c.name) (h2 : (importFile cfg (importFile cfg st c).2 d).1 = .ok m) :
    m.serial = (importFile cfg st c).2.attempts ∧
    ∃ fn g, cfg.resolve d.fs2 d.name = .ok (some fn) ∧ d.fs4 fn = some g ∧ m.content = g.content := by
  have hnone : (importFile cfg st c).2.modules.get c.name = none ∧
      st.attempts ≤ (importFile cfg st c).2.attempts := by
    rcases importFile_cases cfg st c with ⟨e', h'⟩ | ⟨mod, hm, h', hwhy⟩ |
      ⟨st0, hn, hoth, hts, hat, hcomp, hwhy, h'⟩
    · rw [h']
      refine ⟨?_, Nat.le_refl _⟩
      rcases hfound with hf | ⟨fn, f, a, b⟩
      · exact hf
      · cases hm : st.modules.get c.name with
        | none => rfl
        | some mod =>
          exfalso
          unfold importFile at h'
          rw [a] at h'
          simp only [b, Dict.has, hm, Option.isSome_some, Bool.and_true] at h'
          split at h'
          · split at h'
            · -- loads again: the error comes with the entry removed
              rcases baseImport_miss (cfg := cfg)
                (st := { st with modules := st.modules.del c.name }) (c := c)
                (by show (st.modules.del c.name).get c.name = none
                    rw [Dict.get_del, if_pos rfl]) with
                ⟨e2, st', hb, b1, b2, b3, b4⟩ | ⟨_, _, _, _, st', _, _, _, _, hb, _⟩
              · rw [hb] at h'
                cases h'
                have : st.modules.get c.name = none := by
                  rw [b1]
                  show (st.modules.del c.name).get c.name = none
                  rw [Dict.get_del, if_pos rfl]
                rw [hm] at this; cases this
              · rw [hb] at h'; cases h'
            · rw [baseImport_hit hm] at h'; cases h'
          · rw [baseImport_hit hm] at h'; cases h'
    · rw [h'] at h; cases h
    · rw [h'] at h ⊢
      rcases baseImport_miss (cfg := cfg) hn with ⟨e, st', hb, b1, b2, b3, b4⟩ |
        ⟨fn', f, g, kind, st', r1, r2, r3, r4, hb, b1, b2, b3, b4⟩
      · rw [hb]; exact ⟨by simp only [b1]; exact hn, by simp only; omega⟩
      · rw [hb] at h; cases h
  obtain ⟨h0, hat⟩ := hnone
  rw [← hd] at h0
  rcases importFile_cases cfg (importFile cfg st c).2 d with ⟨e', h'⟩ | ⟨mod, hm, h', hwhy⟩ |
    ⟨st0, hn, hoth, hts, hat', hcomp, hwhy, h'⟩
  · rw [h'] at h2; cases h2
  · rw [h0] at hm; cases hm
  · rw [h'] at h2
    rcases baseImport_miss (cfg := cfg) hn with ⟨e, st', hb, _⟩ |
      ⟨fn', f, g, kind, st', r1, r2, r3, r4, hb, _⟩
    · rw [hb] at h2; cases h2
    · rw [hb] at h2; cases h2; exact ⟨hat', fn', g, r1, r3, rfl⟩

/-- A template with a syntax error: the content `bad` does not compile. -/
private def demoBad : Cfg := { demoCfg with compile := fun _ _ _ s _ => if s = ['b'] then some .syntax else none }
private def badFS : FS := fun p => if p = "d2/a.xml".toList then some ⟨['b'], 5⟩ else none
private def goodFS : FS := fun p => if p = "d2/a.xml".toList then some ⟨['g'], 6⟩ else none

/-- The hypotheses of C47 are met: the first import fails to compile, the second succeeds. -/
example : (importFile demoBad {} (demoCall badFS)).1 = .error .syntax ∧
    (importFile demoBad (importFile demoBad {} (demoCall badFS)).2 (demoCall goodFS)).1 =
      .ok ⟨1, .xml [], "d2/a.xml".toList, ['g'], []⟩ := by decide +kernel

/-- **C47 is false in full.** With reload on, importing a cached template whose file was deleted
fails (with a `TypeError`), keeps the old entry, and once a file with an older modification time is
put back the old template is returned. -/
theorem C47_deleted_file_keeps_entry :
    ∃ (F G H : FS) (c d e : Call) (m : Tpl), Sees F c ∧ Sees G d ∧ Sees H e ∧
      (∀ p, G p = none) ∧ (∀ p f, H p = some f → f.content = ['r']) ∧
      (importFile demo {} c).1 = .ok m ∧
      (importFile demo (importFile demo {} c).2 d).1 = .error .type ∧
      (importFile demo (importFile demo (importFile demo {} c).2 d).2 e).1 = .ok m ∧
      m.content = "<a/>".toList := by
  refine ⟨demoFS, fun _ => none, fun p => if p = "d2/a.xml".toList then some ⟨['r'], 4⟩ else none,
    demoCall _, demoCall _, demoCall _, ⟨0, .xml [], "d2/a.xml".toList, "<a/>".toList, []⟩,
    ⟨rfl, rfl, rfl, rfl, rfl⟩, ⟨rfl, rfl, rfl, rfl, rfl⟩, ⟨rfl, rfl, rfl, rfl, rfl⟩,
    fun _ => rfl, ?_, by decide +kernel, by decide +kernel, by decide +kernel, rfl⟩
  intro p f h; dsimp only at h; split at h
  · cases h; rfl
  · cases h

/-! ## C59 -/

theorem pyramidBase_cases (compile : Compiler) (mode : Str) (st : State) (c : Call) :
    (∃ m, st.modules.get c.name = some m ∧ pyramidBase compile mode st c = (.ok m, st)) ∨
    (∃ e st', pyramidBase compile mode st c = (.error e, st') ∧ st'.modules = st.modules ∧
      st'.timestamps = st.timestamps) ∨
    (∃ g st', st.modules.get c.name = none ∧ c.fs4 c.name = some g ∧
      pyramidBase compile mode st c = (.ok ⟨st.attempts, .xml mode, c.name, g.content, c.opts⟩, st') ∧
      st'.modules = st.modules.set c.name ⟨st.attempts, .xml mode, c.name, g.content, c.opts⟩ ∧
      st'.timestamps = st.timestamps) := by
  unfold pyramidBase
  split
  · rename_i m hm; exact .inl ⟨m, hm, rfl⟩
  · rename_i hn
    unfold pyramidLoad
    cases h : c.fs4 c.name with
    | none => exact .inr (.inl ⟨_, _, rfl, rfl, rfl⟩)
    | some g =>
      dsimp only
      cases hc : compile st.attempts (.xml mode) c.name g.content c.opts with
      | some e => exact .inr (.inl ⟨_, _, rfl, rfl, rfl⟩)
      | none => exact .inr (.inr ⟨g, _, hn, rfl, rfl, rfl, rfl⟩)

/-- A history of Pyramid imports: the results in order and the final state. -/
def Spec.Loader.pyramidRun (compile : Compiler) (mode : Str) (autoReload : Bool) :
    State → List Call → List (Str × Except Err Tpl) × State
  | st, [] => ([], st)
  | st, c :: cs =>
    let r := pyramidImport compile mode autoReload st c
    let rs := Spec.Loader.pyramidRun compile mode autoReload r.2 cs
    ((c.name, r.1) :: rs.1, rs.2)

open Spec.Loader (pyramidRun)

theorem pyramid_ts (compile : Compiler) (mode : Str) (ar : Bool) (cs : List Call) (st : State) :
    (pyramidRun compile mode ar st cs).2.timestamps = st.timestamps := by
  induction cs generalizing st with
  | nil => rfl
  | cons c cs ih =>
    simp only [pyramidRun]
    rw [ih]
    unfold pyramidImport
    have base : ∀ st : State, (pyramidBase compile mode st c).2.timestamps = st.timestamps := by
      intro st
      rcases pyramidBase_cases compile mode st c with ⟨m, _, h⟩ | ⟨e, st', h, _, h2⟩ |
        ⟨g, st', _, _, h, _, h2⟩
      · rw [h]
      · rw [h]; exact h2
      · rw [h]; exact h2
    split
    · split
      · rfl
      · split
        · exact base _
        · exact base _
    · exact base _

/-- **C59.** With `auto_reload` on, whatever was imported before and however the files changed, a
successful import of a file (whose modification time is positive) returns a template compiled from
the content the file has when this import reads it. -/
theorem C59_auto_reload_is_fresh (compile : Compiler) (mode : Str) (cs : List Call) (c : Call)
    (hpos : ∀ f, c.fs1 c.name = some f → 0 < f.mtime) (m : Tpl)
    (h : (pyramidImport compile mode true (pyramidRun compile mode true {} cs).2 c).1 = .ok m) :
    ∃ g, c.fs4 c.name = some g ∧ m.content = g.content := by
  have hts := pyramid_ts compile mode true cs {}
  generalize (pyramidRun compile mode true {} cs).2 = st at h hts
  have base : ∀ st : State, st.modules.get c.name = none →
      (pyramidBase compile mode st c).1 = .ok m → ∃ g, c.fs4 c.name = some g ∧ m.content = g.content := by
    intro st hn h
    rcases pyramidBase_cases compile mode st c with ⟨m', hm, h'⟩ | ⟨e, st', h', _, h2⟩ |
      ⟨g, st', _, hg, h', _, h2⟩
    · rw [hn] at hm; cases hm
    · rw [h'] at h; cases h
    · rw [h'] at h; cases h; exact ⟨g, hg, rfl⟩
  unfold pyramidImport at h
  split at h
  · split at h
    · cases h
    · rename_i f hf
      split at h
      · refine base _ ?_ h
        show (st.modules.del c.name).get c.name = none
        rw [Dict.get_del, if_pos rfl]
      · rename_i hle
        rw [hts] at hle
        exact absurd (hpos f hf) hle
  · rename_i hh
    refine base _ ?_ h
    cases hg : st.modules.get c.name with
    | none => rfl
    | some m => exact absurd (by rw [Dict.has, hg]; rfl) hh

/-- **C59.** With `auto_reload` off, all successful imports of a path return the same template. -/
theorem C59_cached_without_reload (compile : Compiler) (mode : Str) (cs : List Call) (n : Str)
    (m m' : Tpl) (h : (n, .ok m) ∈ (pyramidRun compile mode false {} cs).1)
    (h' : (n, .ok m') ∈ (pyramidRun compile mode false {} cs).1) : m = m' := by
  have step : ∀ (st : State) (c : Call),
      (∀ n m, st.modules.get n = some m →
        (pyramidImport compile mode false st c).2.modules.get n = some m) ∧
      (∀ m, (pyramidImport compile mode false st c).1 = .ok m →
        (pyramidImport compile mode false st c).2.modules.get c.name = some m) := by
    intro st c
    have e : pyramidImport compile mode false st c = pyramidBase compile mode st c := rfl
    rw [e]
    rcases pyramidBase_cases compile mode st c with ⟨m', hm, h'⟩ | ⟨e, st', h', h1, h2⟩ |
      ⟨g, st', hn, hg, h', h1, h2⟩
    · rw [h']; exact ⟨fun _ _ h => h, fun m h => by cases h; exact hm⟩
    · rw [h']; exact ⟨fun _ _ h => by simp only [h1]; exact h, fun m h => by cases h⟩
    · rw [h']
      refine ⟨fun n m h => ?_, fun m h => by cases h; simp only [h1, Dict.get_set_same]⟩
      simp only [h1]
      rw [Dict.get_set_other]
      · exact h
      · intro he; subst he; rw [hn] at h; cases h
  have run : ∀ (cs : List Call) (st : State),
      (∀ n m, st.modules.get n = some m →
        (pyramidRun compile mode false st cs).2.modules.get n = some m) ∧
      (∀ n m, (n, .ok m) ∈ (pyramidRun compile mode false st cs).1 →
        (pyramidRun compile mode false st cs).2.modules.get n = some m) := by
    intro cs
    induction cs with
    | nil => intro st; exact ⟨fun _ _ h => h, fun _ _ h => by cases h⟩
    | cons c cs ih =>
      intro st
      obtain ⟨s1, s2⟩ := step st c
      obtain ⟨i1, i2⟩ := ih (pyramidImport compile mode false st c).2
      simp only [pyramidRun]
      refine ⟨fun n m h => i1 n m (s1 n m h), fun n m h => ?_⟩
      rcases List.mem_cons.1 h with h | h
      · obtain ⟨rfl, hm⟩ := Prod.mk.inj h
        exact i1 _ _ (s2 m hm.symm)
      · exact i2 n m h
  have a := (run cs {}).2 n m h
  rw [(run cs {}).2 n m' h'] at a
  exact (Option.some.inj a).symm

/-- **C59, limit.** With `auto_reload` on nothing is ever served from the cache: two imports of an
unchanged file compile twice and return different templates (the time stamps are never recorded). -/
theorem C59_auto_reload_never_caches (compile : Compiler) (mode : Str) (F : FS) (c : Call)
    (hF : Sees F c) (f : File) (hf : F c.name = some f) (hpos : 0 < f.mtime)
    (hok : ∀ n k fn s o, compile n k fn s o = none) :
    ∃ m m', (pyramidRun compile mode true {} [c, c]).1 = [(c.name, .ok m), (c.name, .ok m')] ∧ m ≠ m' := by
  obtain ⟨e0, e1, e2, e3, e4⟩ := hF
  refine ⟨⟨0, .xml mode, c.name, f.content, c.opts⟩, ⟨1, .xml mode, c.name, f.content, c.opts⟩, ?_,
    by simp⟩
  simp [pyramidRun, pyramidImport, pyramidBase, pyramidLoad, e1, e4, hf, hok, Dict.has, hpos,
    Dict.get, Dict.set, Dict.del]

/-- The hypotheses of C59 are met by two imports around a change. -/
example :
    (pyramidRun (fun _ _ _ _ _ => none) [] true {} [⟨['p'], [], fun _ => some ⟨['o'], 5⟩,
        fun _ => some ⟨['o'], 5⟩, fun _ => some ⟨['o'], 5⟩, fun _ => some ⟨['o'], 5⟩,
        fun _ => some ⟨['o'], 5⟩⟩, ⟨['p'], [], fun _ => some ⟨['n'], 5⟩,
        fun _ => some ⟨['n'], 5⟩, fun _ => some ⟨['n'], 5⟩, fun _ => some ⟨['n'], 5⟩,
        fun _ => some ⟨['n'], 5⟩⟩]).1 =
      [(['p'], .ok ⟨0, .xml [], ['p'], ['o'], []⟩), (['p'], .ok ⟨1, .xml [], ['p'], ['n'], []⟩)] := by
  decide +kernel

end Kajiki.Props
