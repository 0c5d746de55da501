import Verif.Spec.PasteText
import Verif.Lemmas.Paste

/-! Lemmas for C83 and C84 for text templates that include others; see `Verif/Lemmas/Paste.lean`. -/

namespace Kajiki.PasteTextL
open Kajiki.Spec.TextTree (Dir)
open Kajiki.Spec.TextSem (Template tidy tidyAll)
open Kajiki.Spec.Pure (Py Look Vars Shown keeping look)
open Kajiki.Spec.PasteText Kajiki.PasteL Kajiki.SwapL
open Kajiki.Spec.Pure.Shown (done raise put get next)
open Kajiki.Spec.Paste (Ignores)
open Kajiki.Spec.IncludeText (dir dirs choice value shownIn)

/-- No `%case` or `%else`. -/
def noChoice : Dir → Bool
  | .caseD _ _ => false
  | .elseD _ => false
  | _ => true

theorem choice_none {py : Py} {G : Look} {esc : Bool} {v : Val} {d : Dir} {ds : List Dir} (h : noChoice d = true)
    (ρ : Vars) : choice py G esc v (d :: ds) ρ = done ρ := by
  cases d <;> first | (unfold choice; rfl) | cases h

theorem tidy_noChoice {d : Dir} (h : tidy d = true) : noChoice d = true := by
  cases d <;> first | rfl | (unfold tidy at h; cases h)

theorem dirs_append {py : Py} {G : Look} {esc : Bool} : ∀ (xs ys : List Dir) (ρ : Vars),
    dirs py G esc (xs ++ ys) ρ = (dirs py G esc xs ρ).next fun ρ => dirs py G esc ys ρ
  | [], ys, ρ => by
    rw [List.nil_append, dirs]
    exact (done_next _ _).symm
  | x :: xs, ys, ρ => by
    rw [List.cons_append, dirs, dirs]
    dsimp only
    rw [next_assoc]
    congr 1
    funext σ
    exact dirs_append xs ys σ

theorem dirs_one {py : Py} {G : Look} {esc : Bool} (d : Dir) (ρ : Vars) : dirs py G esc [d] ρ = dir py G esc d ρ := by
  rw [dirs]
  have : (fun ρ => dirs py G esc [] ρ) = fun ρ => done ρ := by funext σ; rw [dirs]
  rw [this]
  exact next_done _

theorem get_ok {α : Type} {x : Except Err α} {a : α} (h : (get x).res = .ok a) : x = .ok a := by
  cases x with
  | ok b => cases h; rfl
  | error e => cases h

section
variable {lax : Prop} {glob : Str → Prop} {q : Py} {I I' : Str → Shown Unit} {f : Str → Option (List Dir)}
  {left names : Str → Prop} {G G' : Look} {esc : Bool}

/-- What is pasted shows what is included. -/
def Shows (lax : Prop) (q : Py) (I I' : Str → Shown Unit) (f : Str → Option (List Dir)) (glob left names : Str → Prop)
    (G' : Look) (esc : Bool) : Prop :=
  (∀ file, f file = none → Rel lax (fun _ _ => True) (I file) (I' file)) ∧
  ∀ file r, f file = some r → (∃ d ds, r = d :: ds ∧ noChoice d = true) ∧
    ∀ hid : Str → Prop, (∀ k, left k → hid k) → ∀ ρ ρ', V glob hid names (fun _ => none) ρ ρ' →
      Rel lax (V glob hid names fun _ => none) (keeping ρ (I file)) (dirs { q with incl := I' } G' esc r ρ')

variable (hG : ∀ k, ¬glob k → G k = G' k) (hs : Shows lax q I I' f glob left names G' esc)
include hG hs

set_option linter.unusedSectionVars false in
mutual
theorem dir_rel : ∀ (d : Dir) (hid : Str → Prop) (K : Str → Option Val), (∀ file r, f file = some r → ∀ k, K k = none) →
    Careful q left hid d → Sets q names d → ∀ ρ ρ', V glob hid names K ρ ρ' →
    Rel lax (V glob hid names K) (dir { q with incl := I } G esc d ρ) (dirs { q with incl := I' } G' esc (paste f d) ρ')
  | .text t l, hid, K, hK, hc, hb, ρ, ρ', h => by
    rw [paste, dirs_one, dir, dir] <;> first | exact keeping_rel h rfl | nofun
  | .expr e l, hid, K, hK, hc, hb, ρ, ρ', h => by
    unfold paste
    rw [dirs_one, dir, dir]
    unfold Careful at hc
    refine keeping_rel h ?_
    unfold value
    dsimp only
    rw [hc _ _ (h.look hG)]
  | .ifD e b, hid, K, hK, hc, hb, ρ, ρ', h => by
    unfold Careful at hc
    unfold Sets at hb
    rw [paste, dirs_one, dir, dir]
    dsimp only
    rw [hc.1 _ _ (h.look hG)]
    refine Rel.next' _ fun v _ => ?_
    split
    · exact dirs_rel b hid K hK hc.2 hb ρ ρ' h
    · exact .done h
  | .ifElse e b b', hid, K, hK, hc, hb, ρ, ρ', h => by
    unfold Careful at hc
    unfold Sets at hb
    rw [paste, dirs_one, dir, dir]
    dsimp only
    rw [hc.1 _ _ (h.look hG)]
    refine Rel.next' _ fun v _ => ?_
    split
    · exact dirs_rel b hid K hK hc.2.1 hb.1 ρ ρ' h
    · exact dirs_rel b' hid K hK hc.2.2 hb.2 ρ ρ' h
  | .forD e b, hid, K, hK, hc, hb, ρ, ρ', h => by
    unfold Careful at hc
    unfold Sets at hb
    obtain ⟨hi, sets, hsets, hcb⟩ := hc
    rw [paste, dirs_one, dir, dir]
    dsimp only
    rw [hi _ _ (h.look hG)]
    refine Rel.next' _ fun bs hbs => ?_
    have hbs : q.iter e (look G' ρ') = .ok bs := get_ok hbs
    refine loop_rel (fun x hx σ σ' hσ => ?_) h
    exact (dirs_rel b _ K hK hcb hb.2 _ _ (hσ.bind (hb.1 _ _ hbs x hx) (hsets _ _ hbs x hx))).mono
      fun _ _ hh => hh.weaken fun k hk => hk.1
  | .switchD e b, hid, K, hK, hc, hb, ρ, ρ', h => by
    unfold Careful at hc
    unfold Sets at hb
    rw [paste, dirs_one, dir, dir]
    dsimp only
    rw [hc.1 _ _ (h.look hG)]
    exact Rel.next' _ fun v _ => (choice_rel v b hid K hK hc.2 hb ρ ρ' h).next fun σ σ' hσ =>
      dirs_rel b hid K hK hc.2 hb σ σ' hσ
  | .caseD e b, hid, K, hK, hc, hb, ρ, ρ', h => by
    rw [paste, dirs_one]
    unfold dir
    exact .done h
  | .elseD b, hid, K, hK, hc, hb, ρ, ρ', h => by
    rw [paste, dirs_one]
    unfold dir
    exact .done h
  | .py ml ls, hid, K, hK, hc, hb, ρ, ρ', h => by
    unfold Careful at hc
    unfold Sets at hb
    unfold paste
    rw [dirs_one, dir, dir]
    dsimp only
    split
    · exact .done h
    · rw [hc _ _ (h.look hG)]
      exact Rel.next' _ fun x hx => .done (h.update (hb _ _ (get_ok hx)))
  | .includeD file, hid, K, hK, hc, hb, ρ, ρ', h => by
    unfold Careful at hc
    rw [paste, dir]
    cases hf : f file with
    | none =>
      rw [Option.getD_none, dirs_one, dir]
      exact (hs.1 file hf).next fun _ _ _ => .done h
    | some r =>
      rw [Option.getD_some]
      have hK' : K = fun _ => none := funext (hK file r hf)
      subst hK'
      exact (hs.2 file r hf).2 hid hc ρ ρ' h
  | .blockD _ _, hid, K, hK, hc, hb, ρ, ρ', h => by
    unfold paste
    rw [dirs_one]
    unfold dir
    exact .done h
  | .defD _ _, hid, K, hK, hc, hb, ρ, ρ', h => by
    unfold paste
    rw [dirs_one]
    unfold dir
    exact .done h
  | .callD _ _ _, hid, K, hK, hc, hb, ρ, ρ', h => by
    unfold paste
    rw [dirs_one]
    unfold dir
    exact .done h
  | .extendsD _, hid, K, hK, hc, hb, ρ, ρ', h => by
    unfold paste
    rw [dirs_one]
    unfold dir
    exact .done h
  | .importD _ _, hid, K, hK, hc, hb, ρ, ρ', h => by
    unfold paste
    rw [dirs_one]
    unfold dir
    exact .done h

theorem dirs_rel : ∀ (ds : List Dir) (hid : Str → Prop) (K : Str → Option Val),
    (∀ file r, f file = some r → ∀ k, K k = none) →
    CarefulAll q left hid ds → SetsAll q names ds → ∀ ρ ρ', V glob hid names K ρ ρ' →
    Rel lax (V glob hid names K) (dirs { q with incl := I } G esc ds ρ) (dirs { q with incl := I' } G' esc (pasteAll f ds) ρ')
  | [], hid, K, hK, hc, hb, ρ, ρ', h => by
    unfold pasteAll dirs
    exact .done h
  | d :: ds, hid, K, hK, hc, hb, ρ, ρ', h => by
    unfold CarefulAll at hc
    unfold SetsAll at hb
    unfold pasteAll
    rw [dirs_append, dirs]
    exact (dir_rel d hid K hK hc.1 hb.1 ρ ρ' h).next fun σ σ' hσ => dirs_rel ds hid K hK hc.2 hb.2 σ σ' hσ

theorem choice_rel (v : Val) : ∀ (ds : List Dir) (hid : Str → Prop) (K : Str → Option Val),
    (∀ file r, f file = some r → ∀ k, K k = none) →
    CarefulAll q left hid ds → SetsAll q names ds → ∀ ρ ρ', V glob hid names K ρ ρ' →
    Rel lax (V glob hid names K) (choice { q with incl := I } G esc v ds ρ)
      (choice { q with incl := I' } G' esc v (pasteAll f ds) ρ')
  | [], hid, K, hK, hc, hb, ρ, ρ', h => by
    unfold pasteAll choice
    exact .done h
  | .caseD e b :: ds, hid, K, hK, hc, hb, ρ, ρ', h => by
    unfold CarefulAll Careful at hc
    unfold SetsAll Sets at hb
    rw [pasteAll, paste, List.singleton_append, choice, choice]
    dsimp only
    rw [hc.1.1 _ _ (h.look hG)]
    refine Rel.next' _ fun u _ => ?_
    split
    · exact dirs_rel b hid K hK hc.1.2 hb.1 ρ ρ' h
    · exact choice_rel v ds hid K hK hc.2 hb.2 ρ ρ' h
  | .elseD b :: ds, hid, K, hK, hc, hb, ρ, ρ', h => by
    unfold CarefulAll Careful at hc
    unfold SetsAll Sets at hb
    rw [pasteAll, paste, List.singleton_append, choice, choice]
    exact dirs_rel b hid K hK hc.1 hb.1 ρ ρ' h
  | .includeD file :: ds, hid, K, hK, hc, hb, ρ, ρ', h => by
    rw [choice_none rfl, pasteAll, paste]
    cases hf : f file with
    | none => rw [Option.getD_none, List.singleton_append, choice_none rfl]; exact .done h
    | some r =>
      obtain ⟨⟨d, ds', rfl, hd⟩, -⟩ := hs.2 file r hf
      rw [Option.getD_some, List.cons_append, choice_none hd]
      exact .done h
  | .text _ _ :: ds, hid, K, hK, hc, hb, ρ, ρ', h => by
    rw [choice_none rfl, pasteAll]; unfold paste; rw [List.singleton_append, choice_none rfl]; exact .done h
  | .expr _ _ :: ds, hid, K, hK, hc, hb, ρ, ρ', h => by
    rw [choice_none rfl, pasteAll]; unfold paste; rw [List.singleton_append, choice_none rfl]; exact .done h
  | .ifD _ _ :: ds, hid, K, hK, hc, hb, ρ, ρ', h => by
    rw [choice_none rfl, pasteAll]; unfold paste; rw [List.singleton_append, choice_none rfl]; exact .done h
  | .ifElse _ _ _ :: ds, hid, K, hK, hc, hb, ρ, ρ', h => by
    rw [choice_none rfl, pasteAll]; unfold paste; rw [List.singleton_append, choice_none rfl]; exact .done h
  | .forD _ _ :: ds, hid, K, hK, hc, hb, ρ, ρ', h => by
    rw [choice_none rfl, pasteAll]; unfold paste; rw [List.singleton_append, choice_none rfl]; exact .done h
  | .switchD _ _ :: ds, hid, K, hK, hc, hb, ρ, ρ', h => by
    rw [choice_none rfl, pasteAll]; unfold paste; rw [List.singleton_append, choice_none rfl]; exact .done h
  | .py _ _ :: ds, hid, K, hK, hc, hb, ρ, ρ', h => by
    rw [choice_none rfl, pasteAll]; unfold paste; rw [List.singleton_append, choice_none rfl]; exact .done h
  | .blockD _ _ :: ds, hid, K, hK, hc, hb, ρ, ρ', h => by
    rw [choice_none rfl, pasteAll]; unfold paste; rw [List.singleton_append, choice_none rfl]; exact .done h
  | .defD _ _ :: ds, hid, K, hK, hc, hb, ρ, ρ', h => by
    rw [choice_none rfl, pasteAll]; unfold paste; rw [List.singleton_append, choice_none rfl]; exact .done h
  | .callD _ _ _ :: ds, hid, K, hK, hc, hb, ρ, ρ', h => by
    rw [choice_none rfl, pasteAll]; unfold paste; rw [List.singleton_append, choice_none rfl]; exact .done h
  | .extendsD _ :: ds, hid, K, hK, hc, hb, ρ, ρ', h => by
    rw [choice_none rfl, pasteAll]; unfold paste; rw [List.singleton_append, choice_none rfl]; exact .done h
  | .importD _ _ :: ds, hid, K, hK, hc, hb, ρ, ρ', h => by
    rw [choice_none rfl, pasteAll]; unfold paste; rw [List.singleton_append, choice_none rfl]; exact .done h
end

end

mutual
theorem paste_none : ∀ d : Dir, paste (fun _ => none) d = [d]
  | .ifD _ b => by rw [paste, pasteAll_none b]
  | .ifElse _ b b' => by rw [paste, pasteAll_none b, pasteAll_none b']
  | .forD _ b => by rw [paste, pasteAll_none b]
  | .switchD _ b => by rw [paste, pasteAll_none b]
  | .caseD _ b => by rw [paste, pasteAll_none b]
  | .elseD b => by rw [paste, pasteAll_none b]
  | .includeD _ => by rw [paste]; rfl
  | .text _ _ => by unfold paste; rfl
  | .expr _ _ => by unfold paste; rfl
  | .py _ _ => by unfold paste; rfl
  | .blockD _ _ => by unfold paste; rfl
  | .defD _ _ => by unfold paste; rfl
  | .callD _ _ _ => by unfold paste; rfl
  | .extendsD _ => by unfold paste; rfl
  | .importD _ _ => by unfold paste; rfl

theorem pasteAll_none : ∀ ds : List Dir, pasteAll (fun _ => none) ds = ds
  | [] => by unfold pasteAll; rfl
  | d :: ds => by unfold pasteAll; rw [paste_none d, pasteAll_none ds]; rfl
end

section
variable {ts ts' : List Template} {load : Str → Option Nat} {py : Py} {G : Look}

/-- What included templates show. -/
def incls (ts : List Template) (load : Str → Option Nat) (py : Py) (G : Look) (n : Nat) (file : Str) : Shown Unit :=
  match load file with
  | none => raise .ioError
  | some j => shownIn ts load py G n j

theorem shownIn_eq (n i : Nat) {t : Template} (ht : ts[i]? = some t) :
    shownIn ts load py G (n + 1) i =
      (dirs { py with incl := incls ts load py G n } (Spec.Include.inherited G t.base) t.conf.autoescape t.tree []).next
        fun _ => done () := by
  rw [shownIn, ht]
  rfl

/-- What is pasted shows what is included. -/
theorem fitting_shows {n n' : Nat}
    (ih : ∀ m, m < n → ∀ i, Rel True (fun _ _ => True) (shownIn ts load py G m i) (shownIn ts' load py G n' i))
    {names left : Str → Prop} (hl : ∀ k, left k → names k) {t u : Template} {file : Str} {i : Nat}
    (hload : load file = some i) (hu : ts[i]? = some u) (hf : Fitting py names left t u) (hid : Str → Prop)
    (hh : ∀ k, left k → hid k) (ρ ρ' : Vars) (h : V (fun _ => False) hid names (fun _ => none) ρ ρ') :
    Rel True (V (fun _ => False) hid names fun _ => none) (keeping ρ (incls ts load py G n file))
      (dirs { py with incl := incls ts' load py G n' } (Spec.Include.inherited G t.base) t.conf.autoescape u.tree ρ') := by
  have hin : ∀ n, incls ts load py G n file = shownIn ts load py G n i := fun n => by
    unfold incls
    rw [hload]
  rw [hin]
  cases n with
  | zero => exact .inl ⟨trivial, rfl⟩
  | succ m =>
    rw [shownIn_eq m i hu]
    have hG : Spec.Include.inherited G u.base = Spec.Include.inherited G t.base := by
      funext k
      unfold Spec.Include.inherited
      rw [hf.module k]
    have hs : Shows True py (incls ts load py G m) (incls ts' load py G n') (fun _ => none) (fun _ => False) (fun _ => False)
        left (Spec.Include.inherited G t.base) t.conf.autoescape := by
      refine ⟨fun file' _ => ?_, fun _ _ hh => by cases hh⟩
      unfold incls
      cases load file' with
      | none => exact Rel.refl (fun _ => trivial) _
      | some j => exact ih m (Nat.lt_succ_self m) j
    have key := dirs_rel (fun _ _ => rfl) hs u.tree names (Dict.get ρ') (fun _ _ hh => by cases hh) hf.careful hf.sets
      [] ρ' ⟨fun k hk => (h.2.1 k hk).symm, fun _ _ => rfl, fun _ _ hh => hh.elim⟩
    rw [pasteAll_none] at key
    rw [hf.escapes, hG, ← next_done (dirs { py with incl := incls ts' load py G n' } _ _ _ ρ')]
    unfold keeping
    rw [next_assoc]
    refine Rel.next (S := V (fun _ => False) names left (Dict.get ρ')) key fun σ σ' hσ => ?_
    rw [done_next]
    refine .done ⟨fun k hk => ?_, fun k hk => ?_, fun _ _ hg => hg.elim⟩
    · rw [hσ.2.1 k fun hk' => hk (hh k hk'), h.1 k hk]
    · rw [hσ.2.1 k fun hk' => hk (hl k hk'), h.2.1 k hk]

/-- Templates with others pasted in. -/
theorem shownIn_rel (hP : List.Forall₂ (Pasted py ts load) ts ts') (htidy : ∀ t ∈ ts, tidyAll t.tree = true) :
    ∀ n n' : Nat, n ≤ n' → ∀ i, Rel True (fun _ _ => True) (shownIn ts load py G n i) (shownIn ts' load py G n' i) := by
  intro n
  induction n using Nat.strongRecOn with
  | ind n ih =>
    intro n' hn i
    cases n with
    | zero => exact .inl ⟨trivial, rfl⟩
    | succ m =>
      obtain ⟨m', rfl⟩ : ∃ m', n' = m' + 1 := ⟨n' - 1, by omega⟩
      have hlen := hP.length_eq
      cases ht : ts[i]? with
      | none =>
        have ht' : ts'[i]? = none := by
          rw [List.getElem?_eq_none_iff] at ht ⊢
          omega
        rw [shownIn, shownIn, ht, ht']
        exact Rel.refl (fun _ => trivial) _
      | some t =>
        obtain ⟨hi, rfl⟩ := List.getElem?_eq_some_iff.1 ht
        have hi' : i < ts'.length := by omega
        obtain ⟨⟨f, names, left, hpt, hl, hc, hst, hf⟩⟩ := hP.get hi hi'
        rw [List.get_eq_getElem] at hpt hc hf hst
        rw [List.get_eq_getElem] at hpt
        have ht' : ts'[i]? = some (ts'[i]) := List.getElem?_eq_getElem hi'
        rw [shownIn_eq m i ht, shownIn_eq m' i ht', hpt]
        have hs : Shows True py (incls ts load py G m) (incls ts' load py G m') f (fun _ => False) left names
            (Spec.Include.inherited G (ts[i]).base) (ts[i]).conf.autoescape := by
          refine ⟨fun file _ => ?_, fun file r hh => ?_⟩
          · unfold incls
            cases load file with
            | none => exact Rel.refl (fun _ => trivial) _
            | some j => exact ih m (Nat.lt_succ_self m) m' (by omega) j
          · obtain ⟨j, u, h1, h2, rfl, h3⟩ := hf file r hh
            refine ⟨?_, fun hid hh ρ ρ' hV => ?_⟩
            · have hu := htidy u (List.mem_of_getElem? h2)
              cases hut : u.tree with
              | nil => exact absurd hut h3.something
              | cons d ds =>
                rw [hut] at hu
                unfold tidyAll at hu
                rw [Bool.and_eq_true] at hu
                exact ⟨d, ds, rfl, tidy_noChoice hu.1⟩
            · exact fitting_shows (fun p hp j => ih p (by omega) m' (by omega) j) hl h1 h2 h3 hid hh ρ ρ' hV
        have key := dirs_rel (fun _ _ => rfl) hs (ts[i]).tree left (fun _ => none) (fun _ _ _ _ => rfl) hc hst
          [] [] ⟨fun _ _ => rfl, fun _ _ => rfl, fun _ _ hh => hh.elim⟩
        exact Rel.next (S := V (fun _ => False) left names fun _ => none) key fun _ _ _ => .done trivial

end

mutual
theorem sets_all (py : Py) : ∀ d, Sets py (fun _ => True) d
  | .ifD _ b => by unfold Sets; exact setsAll_all py b
  | .ifElse _ b b' => by unfold Sets; exact ⟨setsAll_all py b, setsAll_all py b'⟩
  | .forD _ b => by unfold Sets; exact ⟨fun _ _ _ _ _ _ h => (h trivial).elim, setsAll_all py b⟩
  | .switchD _ b => by unfold Sets; exact setsAll_all py b
  | .caseD _ b => by unfold Sets; exact setsAll_all py b
  | .elseD b => by unfold Sets; exact setsAll_all py b
  | .py _ _ => by unfold Sets; exact fun _ _ _ _ h => (h trivial).elim
  | .includeD _ => by unfold Sets; trivial
  | .text _ _ => by unfold Sets; trivial
  | .expr _ _ => by unfold Sets; trivial
  | .blockD _ _ => by unfold Sets; trivial
  | .defD _ _ => by unfold Sets; trivial
  | .callD _ _ _ => by unfold Sets; trivial
  | .extendsD _ => by unfold Sets; trivial
  | .importD _ _ => by unfold Sets; trivial
theorem setsAll_all (py : Py) : ∀ ds, SetsAll py (fun _ => True) ds
  | [] => by unfold SetsAll; trivial
  | d :: ds => by unfold SetsAll; exact ⟨sets_all py d, setsAll_all py ds⟩
end

/-! ## Variables that are set before they are looked at -/

section
variable {ts : List Template} {load : Str → Option Nat} {py : Py} {G G' : Look} {hid : Str → Prop}

/-- Global variables with the names of local ones have no influence. -/
theorem shownIn_hidden (hG : ∀ k, ¬hid k → G k = G' k)
    (hc : ∀ t ∈ ts, CarefulAll py (fun _ => False) hid t.tree) :
    ∀ n i : Nat, Rel False (fun _ _ => True) (shownIn ts load py G n i) (shownIn ts load py G' n i)
  | 0, _ => Rel.refl (fun _ => trivial) _
  | n + 1, i => by
    cases ht : ts[i]? with
    | none =>
      rw [shownIn, shownIn, ht]
      exact Rel.refl (fun _ => trivial) _
    | some t =>
      rw [shownIn_eq n i ht, shownIn_eq n i ht]
      have hs : Shows False py (incls ts load py G n) (incls ts load py G' n) (fun _ => none) hid (fun _ => False)
          (fun _ => True) (Spec.Include.inherited G' t.base) t.conf.autoescape := by
        refine ⟨fun file _ => ?_, fun _ _ hh => by cases hh⟩
        unfold incls
        cases load file with
        | none => exact Rel.refl (fun _ => trivial) _
        | some j => exact shownIn_hidden hG hc n j
      have key := dirs_rel (G := Spec.Include.inherited G t.base) (fun k hk => by
          unfold Spec.Include.inherited; rw [hG k hk]) hs t.tree hid (fun _ => none)
        (fun _ _ hh => by cases hh) (hc t (List.mem_of_getElem? ht)) (setsAll_all _ _) [] []
        ⟨fun _ _ => rfl, fun _ _ => rfl, fun k hk hg => absurd hg hk⟩
      rw [pasteAll_none] at key
      exact Rel.next (S := V hid hid (fun _ => True) fun _ => none) key fun _ _ _ => .done trivial

end

/-! ## Templates that stay as they are -/

mutual
theorem careful_nothing (py : Py) : ∀ d, Careful py (fun _ => False) (fun _ => False) d
  | .ifD _ b => by unfold Careful; exact ⟨ignores_nothing _, carefulAll_nothing py b⟩
  | .ifElse _ b b' => by unfold Careful; exact ⟨ignores_nothing _, carefulAll_nothing py b, carefulAll_nothing py b'⟩
  | .forD _ b => by
    unfold Careful
    exact ⟨ignores_nothing _, fun _ => False, fun _ _ _ _ _ _ h => h.elim, by rw [hid_nothing]; exact carefulAll_nothing py b⟩
  | .switchD _ b => by unfold Careful; exact ⟨ignores_nothing _, carefulAll_nothing py b⟩
  | .caseD _ b => by unfold Careful; exact ⟨ignores_nothing _, carefulAll_nothing py b⟩
  | .elseD b => by unfold Careful; exact carefulAll_nothing py b
  | .py _ _ => by unfold Careful; exact ignores_nothing _
  | .includeD _ => by unfold Careful; exact fun _ h => h
  | .text _ _ => by unfold Careful; trivial
  | .expr _ _ => by unfold Careful; exact ignores_nothing _
  | .blockD _ _ => by unfold Careful; trivial
  | .defD _ _ => by unfold Careful; trivial
  | .callD _ _ _ => by unfold Careful; trivial
  | .extendsD _ => by unfold Careful; trivial
  | .importD _ _ => by unfold Careful; trivial
theorem carefulAll_nothing (py : Py) : ∀ ds, CarefulAll py (fun _ => False) (fun _ => False) ds
  | [] => by unfold CarefulAll; trivial
  | d :: ds => by unfold CarefulAll; exact ⟨careful_nothing py d, carefulAll_nothing py ds⟩
end

/-- Nothing need be pasted. -/
theorem pasted_refl (py : Py) (ts : List Template) (load : Str → Option Nat) (t : Template) : Pasted py ts load t t := by
  refine ⟨⟨fun _ => none, fun _ => True, fun _ => False, ?_, fun _ _ => trivial,
    carefulAll_nothing _ _, setsAll_all _ _, fun _ _ h => by cases h⟩⟩
  unfold pasted
  rw [pasteAll_none]

end Kajiki.PasteTextL
