import Verif.Spec.HideText
import Verif.Lemmas.Paste

/-!
# Lemmas for C84: text templates
-/

namespace Kajiki.HideTextL
open Kajiki.Spec.TextTree (Dir)
open Kajiki.Spec.Pure Kajiki.Spec.HideText
open Kajiki.Spec.Pure.Shown
open Kajiki.Spec.Paste (Ignores)
open Kajiki.Spec.Funs (Calls)
open Kajiki.Spec.PureText (Fn fn fnsAll pyWith meaning)

variable {py : Py} {C : Calls}

/-! ## Showing -/

theorem next_congr {α β : Type} {m : Shown α} {f g : α → Shown β} (h : ∀ a, m.res = .ok a → f a = g a) :
    m.next f = m.next g := by
  unfold Shown.next
  cases hm : m.res with
  | error e => rfl
  | ok a => dsimp only; rw [h a hm]

theorem next_ok {α β : Type} {m : Shown α} {f : α → Shown β} {b : β} (h : (m.next f).res = .ok b) :
    ∃ a, m.res = .ok a ∧ (f a).res = .ok b := by
  unfold Shown.next at h
  cases hm : m.res with
  | error e => rw [hm] at h; cases h
  | ok a => rw [hm] at h; exact ⟨a, rfl, h⟩

theorem get_ok {α : Type} {x : Except Err α} {a : α} (h : (get x).res = .ok a) : x = .ok a := by
  cases x with
  | error e => cases h
  | ok b => exact h

theorem keeping_ok {ρ ρ' : Vars} {m : Shown Unit} (h : (keeping ρ m).res = .ok ρ') : ρ' = ρ := by
  obtain ⟨_, -, h⟩ := next_ok h
  cases h
  rfl

/-! ## Variables -/

/-- Local variables that are not hidden are set, if global ones with these names differ. -/
def Ready (glob hid : Str → Prop) (ρ : Vars) : Prop := ∀ k, glob k → ¬hid k → Dict.get ρ k ≠ none

theorem Ready.weaken {glob hid hid' : Str → Prop} {ρ : Vars} (h : Ready glob hid ρ) (hs : ∀ k, hid k → hid' k) :
    Ready glob hid' ρ := fun k hg hk => h k hg fun hh => hk (hs k hh)

theorem Ready.bind {glob hid : Str → Prop} {ρ : Vars} (h : Ready glob hid ρ) {b : Dict Val} {sets : Str → Prop}
    (hs : ∀ k, sets k → Dict.get b k ≠ none) : Ready glob (fun k => hid k ∧ ¬sets k) (ρ.update b) := by
  intro k hg hk
  rw [PasteL.get_update_or]
  by_cases hk' : sets k
  · cases hu : Dict.get (Dict.update [] b) k with
    | none => exact absurd hu (PasteL.get_update_some (hs k hk'))
    | some v => nofun
  · have := h k hg fun hh => hk ⟨hh, hk'⟩
    cases Dict.get (Dict.update [] b) k with
    | none => rw [Option.none_or]; exact this
    | some v => nofun

theorem Ready.update {glob hid : Str → Prop} {ρ : Vars} (h : Ready glob hid ρ) (b : Dict Val) :
    Ready glob hid (ρ.update b) :=
  (h.bind (b := b) (sets := fun _ => False) nofun).weaken fun _ hh => hh.1

mutual
theorem sub : ∀ {hid : Str → Prop} {d : Dir} {hid' : Str → Prop}, Careful py C hid d hid' → ∀ k, hid' k → hid k
  | _, _, _, .text, _, h => h
  | _, _, _, .expr .., _, h => h
  | _, _, _, .ifD .., _, h => h
  | _, _, _, .ifElse _ hb hb', k, h => h.elim (sub_all hb k) (sub_all hb' k)
  | _, _, _, .forD .., _, h => h
  | _, _, _, .switchD _ _ hb, k, h => sub_all hb k h
  | _, _, _, .caseD, _, h => h
  | _, _, _, .elseD, _, h => h
  | _, _, _, .defD, _, h => h
  | _, _, _, .blockD, _, h => h
  | _, _, _, .module, _, h => h
  | _, _, _, .py .., _, h => h.1

theorem sub_all : ∀ {hid : Str → Prop} {ds : List Dir} {hid' : Str → Prop}, CarefulAll py C hid ds hid' →
    ∀ k, hid' k → hid k
  | _, _, _, .nil, _, h => h
  | _, _, _, .cons h hs, k, hh => sub h k (sub_all hs k hh)
end

section
variable {glob : Str → Prop} {G G' : Look} (hG : ∀ k, ¬glob k → G k = G' k)

include hG in
theorem looks {hid : Str → Prop} {ρ : Vars} (h : Ready glob hid ρ) {α : Type} {m : Look → α} (hm : Ignores hid m) :
    m (look G ρ) = m (look G' ρ) := by
  refine hm _ _ fun k hk => ?_
  unfold look
  by_cases hg : glob k
  · cases hl : Dict.get ρ k with
    | none => exact absurd hl (h k hg hk)
    | some v => rfl
  · rw [hG k hg]

variable (fs : List Fn) (esc : Bool) (m : Str → List Val → Shown Unit)

include hG in
theorem value_same {hid : Str → Prop} {ρ : Vars} (hr : Ready glob hid ρ) {e : Str} (h : Ignores hid (py.eval e))
    (ha : ∀ f args, C.callee e = some (f, args) → Ignores hid args) :
    Spec.PureText.value (pyWith fs C py m) esc (look G ρ) e = Spec.PureText.value (pyWith fs C py m) esc (look G' ρ) e := by
  unfold Spec.PureText.value pyWith
  dsimp only
  cases hc : C.callee e with
  | none =>
    dsimp only [Option.bind_none]
    rw [looks hG hr h]
  | some fa =>
    obtain ⟨f, args⟩ := fa
    dsimp only [Option.bind_some]
    cases fn fs f with
    | none => dsimp only [Option.map_none]; rw [looks hG hr h]
    | some d => dsimp only [Option.map_some]; rw [looks hG hr (ha f args hc)]

theorem loop_same {f g : Vars → Shown Vars} {I : Vars → Prop} (bs : List (Dict Val))
    (h : ∀ ρ, I ρ → ∀ b ∈ bs, f (ρ.update b) = g (ρ.update b) ∧ ∀ ρ', (f (ρ.update b)).res = .ok ρ' → I ρ') :
    ∀ ρ, I ρ → Spec.Pure.loop f bs ρ = Spec.Pure.loop g bs ρ ∧ ∀ ρ', (Spec.Pure.loop f bs ρ).res = .ok ρ' → I ρ' := by
  induction bs with
  | nil =>
    intro ρ hρ
    refine ⟨rfl, fun ρ' h => ?_⟩
    cases h
    exact hρ
  | cons b bs ih =>
    intro ρ hρ
    have ih := ih fun ρ hρ b hb => h ρ hρ b (List.mem_cons_of_mem _ hb)
    obtain ⟨h1, h2⟩ := h ρ hρ b List.mem_cons_self
    refine ⟨?_, fun ρ' hh => ?_⟩
    · rw [Spec.Pure.loop, Spec.Pure.loop, ← h1]
      exact next_congr fun a ha => (ih a (h2 a ha)).1
    · obtain ⟨a, ha, hb⟩ := next_ok hh
      exact (ih a (h2 a ha)).2 ρ' hb

/-- The same is shown, and afterwards the variables are set. -/
abbrev Fine (glob : Str → Prop) (hid hid' : Str → Prop) (f g : Vars → Shown Vars) : Prop :=
  ∀ ρ, Ready glob hid ρ → f ρ = g ρ ∧ ∀ ρ', (f ρ).res = .ok ρ' → Ready glob hid' ρ'

theorem Fine.keep {hid : Str → Prop} {f g : Vars → Shown Unit} (h : ∀ ρ, Ready glob hid ρ → f ρ = g ρ) :
    Fine glob hid hid (fun ρ => keeping ρ (f ρ)) fun ρ => keeping ρ (g ρ) := by
  intro ρ hρ
  refine ⟨by dsimp only; rw [h ρ hρ], fun ρ' hh => ?_⟩
  rw [keeping_ok hh]
  exact hρ

theorem Fine.get {α : Type} {hid hid' : Str → Prop} {x y : Vars → Except Err α} {f g : α → Vars → Shown Vars}
    (h : ∀ ρ, Ready glob hid ρ → x ρ = y ρ)
    (hf : ∀ ρ a, Ready glob hid ρ → x ρ = .ok a → f a ρ = g a ρ ∧ ∀ ρ', (f a ρ).res = .ok ρ' → Ready glob hid' ρ') :
    Fine glob hid hid' (fun ρ => (Shown.get (x ρ)).next fun a => f a ρ) fun ρ => (Shown.get (y ρ)).next fun a => g a ρ := by
  intro ρ hρ
  dsimp only
  rw [← h ρ hρ]
  refine ⟨next_congr fun a ha => (hf ρ a hρ (get_ok ha)).1, fun ρ' hh => ?_⟩
  obtain ⟨a, ha, hb⟩ := next_ok hh
  exact (hf ρ a hρ (get_ok ha)).2 ρ' hb

theorem Fine.next {hid hid₁ hid₂ : Str → Prop} {f g f' g' : Vars → Shown Vars} (h : Fine glob hid hid₁ f g)
    (h' : Fine glob hid₁ hid₂ f' g') : Fine glob hid hid₂ (fun ρ => (f ρ).next f') fun ρ => (g ρ).next g' := by
  intro ρ hρ
  obtain ⟨h1, h2⟩ := h ρ hρ
  dsimp only
  rw [← h1]
  refine ⟨next_congr fun a ha => (h' a (h2 a ha)).1, fun ρ' hh => ?_⟩
  obtain ⟨a, ha, hb⟩ := next_ok hh
  exact (h' a (h2 a ha)).2 ρ' hb

theorem Fine.after {hid hid₁ hid₂ : Str → Prop} {f g : Vars → Shown Vars} (h : Fine glob hid hid₁ f g)
    (hs : ∀ k, hid₁ k → hid₂ k) : Fine glob hid hid₂ f g :=
  fun ρ hρ => ⟨(h ρ hρ).1, fun ρ' hh => ((h ρ hρ).2 ρ' hh).weaken hs⟩

theorem Fine.done {hid : Str → Prop} : Fine glob hid hid (fun ρ => done ρ) fun ρ => done ρ := by
  intro ρ hρ
  refine ⟨rfl, fun ρ' h => ?_⟩
  cases h
  exact hρ

set_option linter.unusedSectionVars false in
include hG in
mutual
theorem dir_fine : ∀ {hid : Str → Prop} {d : Dir} {hid' : Str → Prop}, Careful py C hid d hid' →
    Fine glob hid hid' (Spec.PureText.dir (pyWith fs C py m) G esc m d) (Spec.PureText.dir (pyWith fs C py m) G' esc m d)
  | _, _, _, .text => by
    unfold Spec.PureText.dir
    exact Fine.keep fun _ _ => rfl
  | _, _, _, .expr h ha => by
    unfold Spec.PureText.dir
    exact Fine.keep fun ρ hρ => value_same hG fs esc m hρ h ha
  | _, _, _, .ifD h hb => by
    have ih := (dirs_fine hb).after (sub_all hb)
    unfold Spec.PureText.dir
    refine Fine.get (fun ρ hρ => looks hG hρ h) fun ρ a hρ _ => ?_
    split
    · exact ih ρ hρ
    · exact Fine.done ρ hρ
  | _, _, _, .ifElse (hid₁ := hid₁) (hid₂ := hid₂) h hb hb' => by
    have ih := (dirs_fine hb).after (hid₂ := fun k => hid₁ k ∨ hid₂ k) (fun _ => Or.inl)
    have ih' := (dirs_fine hb').after (hid₂ := fun k => hid₁ k ∨ hid₂ k) (fun _ => Or.inr)
    unfold Spec.PureText.dir
    refine Fine.get (fun ρ hρ => looks hG hρ h) fun ρ a hρ _ => ?_
    split
    · exact ih ρ hρ
    · exact ih' ρ hρ
  | _, _, _, .forD sets h hs hb => by
    have ih := dirs_fine hb
    have hsub := sub_all hb
    unfold Spec.PureText.dir
    refine Fine.get (fun ρ hρ => looks hG hρ h) fun ρ bs hρ hbs => ?_
    exact loop_same bs (fun ρ hρ b hb' =>
      ⟨(ih _ (hρ.bind (hs _ bs hbs b hb'))).1,
        fun ρ' hh => ((ih _ (hρ.bind (hs _ bs hbs b hb'))).2 ρ' hh).weaken fun k hk => (hsub k hk).1⟩) ρ hρ
  | _, _, _, .switchD h hc hb => by
    have ih := dirs_fine hb
    have ic := choice_fine hc
    unfold Spec.PureText.dir
    refine Fine.get (fun ρ hρ => looks hG hρ h) fun ρ v hρ _ => ?_
    exact ((ic v).next ih) ρ hρ
  | _, _, _, .caseD => by unfold Spec.PureText.dir; exact Fine.done
  | _, _, _, .elseD => by unfold Spec.PureText.dir; exact Fine.done
  | _, _, _, .defD => by unfold Spec.PureText.dir; exact Fine.done
  | _, _, _, .blockD => by unfold Spec.PureText.dir; exact Fine.keep fun _ _ => rfl
  | _, _, _, .module => by unfold Spec.PureText.dir; exact Fine.done
  | _, _, _, .py (ls := ls) sets h hs hn => by
    have he : ls.isEmpty = false := by simpa using hn
    unfold Spec.PureText.dir
    simp only [he, Bool.or_self, Bool.false_eq_true, if_false]
    refine Fine.get (fun ρ hρ => looks hG hρ h) fun ρ b hρ hb => ⟨rfl, fun ρ' hh => ?_⟩
    cases hh
    exact hρ.bind (hs _ b hb)

theorem dirs_fine : ∀ {hid : Str → Prop} {ds : List Dir} {hid' : Str → Prop}, CarefulAll py C hid ds hid' →
    Fine glob hid hid' (Spec.PureText.dirs (pyWith fs C py m) G esc m ds) (Spec.PureText.dirs (pyWith fs C py m) G' esc m ds)
  | _, _, _, .nil => by unfold Spec.PureText.dirs; exact Fine.done
  | _, _, _, .cons h hs => by
    have h1 := dir_fine h
    have h2 := dirs_fine hs
    unfold Spec.PureText.dirs
    exact h1.next h2

theorem choice_fine : ∀ {hid : Str → Prop} {ds : List Dir}, CarefulChoices py C hid ds → ∀ v,
    Fine glob hid hid (Spec.PureText.choice (pyWith fs C py m) G esc m v ds)
      (Spec.PureText.choice (pyWith fs C py m) G' esc m v ds)
  | _, _, .nil, v => by unfold Spec.PureText.choice; exact Fine.done
  | _, _, .case h hb hs, v => by
    have ih := (dirs_fine hb).after (sub_all hb)
    have ic := choice_fine hs v
    unfold Spec.PureText.choice
    refine Fine.get (fun ρ hρ => looks hG hρ h) fun ρ u hρ _ => ?_
    split
    · exact ih ρ hρ
    · exact ic ρ hρ
  | _, _, .els hb, v => by
    have ih := (dirs_fine hb).after (sub_all hb)
    unfold Spec.PureText.choice
    exact ih
  | _, _, .other (d := d) h h', v => by
    have e (G : Look) (ds : List Dir) :
        Spec.PureText.choice (pyWith fs C py m) G esc m v (d :: ds) = fun ρ => done ρ := by
      cases d with
      | caseD e b => exact absurd rfl (h e b)
      | elseD b => exact absurd rfl (h' b)
      | _ => unfold Spec.PureText.choice; rfl
    rw [e, e]
    exact Fine.done
end

end

theorem fn_mem {fs : List Fn} {f : Str} {d : Fn} (h : fn fs f = some d) : d ∈ fs := List.mem_of_find?_eq_some h

theorem meaning_same {G G' : Look} {glob : Str → Prop} (hG : ∀ k, ¬glob k → G k = G' k) (fs : List Fn) (esc : Bool)
    (hf : ∀ d ∈ fs, ∃ (sets hid' : Str → Prop), (∀ vs ρ, C.bind d.decl vs = .ok ρ → ∀ k, sets k → Dict.get ρ k ≠ none) ∧
      CarefulAll py C (fun k => glob k ∧ ¬sets k) d.body hid') :
    ∀ n : Nat, meaning fs C py G esc n = meaning fs C py G' esc n
  | 0 => by funext f args; rw [meaning, meaning]
  | n + 1 => by
    funext f args
    rw [meaning, meaning, meaning_same hG fs esc hf n]
    cases hd : fn fs f with
    | none => rfl
    | some d =>
      dsimp only
      obtain ⟨sets, hid', h1, h2⟩ := hf d (fn_mem hd)
      refine next_congr fun ρ hρ => ?_
      rw [(dirs_fine hG fs esc _ h2 ρ fun k hg hk => ?_).1]
      exact h1 args ρ (get_ok hρ) k (Classical.not_not.1 fun hn => hk ⟨hg, hn⟩)

theorem shown_hidden {t : Spec.TextSem.Template} {hid : Str → Prop} {G G' : Look} (hG : ∀ k, ¬hid k → G k = G' k)
    (h : CarefulTemplate py C hid t) : ∀ n : Nat, Spec.PureText.shown C py G t n = Spec.PureText.shown C py G' t n
  | 0 => rfl
  | n + 1 => by
    obtain ⟨hid', ht⟩ := h.tree
    rw [Spec.PureText.shown, Spec.PureText.shown, meaning_same hG _ _ h.functions n]
    rw [(dirs_fine hG _ _ _ ht [] fun k hg hk => absurd hg hk).1]

end Kajiki.HideTextL
