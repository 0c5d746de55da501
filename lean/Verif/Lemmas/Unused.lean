import Verif.Lemmas.Swap
import Verif.Lemmas.PureRun
import Verif.Lemmas.PureText

/-!
# Lemmas for C80

Variables that Python does not look at have no influence on what is shown.
-/

namespace Kajiki.Unused
open Kajiki.Spec.Pure Kajiki.SwapL
open Kajiki.Spec.DocSem (Dir dirOf attr script scriptTag plainAttrs special cut)
open Kajiki.Spec.Pure.Shown

variable {py : Py} {c : CEnv}

/-- Python sees no difference. -/
structure Same (py : Py) (L L' : Look) : Prop where
  eval : ∀ e, py.eval e L = py.eval e L'
  iter : ∀ e, py.iter e L = py.iter e L'
  block : ∀ ls, py.block ls L = py.block ls L'
  call : ∀ e m, py.call e = some m → m L = m L'

section
variable {L L' : Look} (h : Same py L L')
include h

theorem value_same (e : Str) : value py L e = value py L' e := by
  unfold value
  cases hc : py.call e with
  | some m => exact h.call e m hc
  | none => dsimp only; rw [h.eval]

theorem text_same (tag d : Str) : Spec.Pure.text py c L tag d = Spec.Pure.text py c L' tag d := by
  unfold Spec.Pure.text
  simp only [value_same h]

theorem script_same (kids : List DNode) : scriptContent py c L kids = scriptContent py c L' kids := by
  unfold scriptContent scriptText
  simp only [value_same h]

theorem tagPart_same (attrs : Dict Str) (m : Shown Unit) : tagPart py L attrs m = tagPart py L' attrs m := by
  unfold tagPart kept
  simp only [h.eval]

theorem parts_same : ∀ xs, parts py L xs = parts py L' xs
  | [] => rfl
  | .inl t :: xs => by rw [parts, parts, parts_same xs]
  | .inr e :: xs => by rw [parts, parts, parts_same xs, h.eval]

theorem startTag_same (tag : Str) (attrs : Dict Str) : startTag py c L tag attrs = startTag py c L' tag attrs := by
  unfold startTag oneAttribute moreAttributes
  simp only [tagPart_same h, parts_same h, h.eval]

end

section
variable {G G' : Look} {over : Str → Option (Shown Unit)} (h : ∀ ρ, Same py (look G ρ) (look G' ρ))
include h

theorem assign_same : ∀ (vs : List (Str × Str)) (ρ : Vars), assign py G vs ρ = assign py G' vs ρ
  | [], _ => rfl
  | (k, e) :: vs, ρ => by
    rw [assign, assign, (h ρ).eval]
    refine congrArg (Shown.next _) (funext fun v => ?_)
    exact assign_same vs _

set_option linter.unusedSectionVars false in
mutual
theorem node_same : ∀ x : DNode,
    (∀ els tag, node py G over c els tag x = node py G' over c els tag x) ∧
    ∀ v rest, choice py G over c v rest x = choice py G' over c v rest x
  | .text d _ _ => by
    refine ⟨fun els tag => ?_, fun v rest => ?_⟩
    · rw [node, node]; funext ρ; rw [text_same (h ρ)]
    · rw [choice, choice] <;> nofun
  | .cdata d _ => by
    refine ⟨fun els tag => ?_, fun v rest => ?_⟩
    · rw [node, node]; funext ρ; rw [text_same (h ρ)]
    · rw [choice, choice] <;> nofun
  | .comment d _ => by
    refine ⟨fun els tag => ?_, fun v rest => ?_⟩
    · rw [node, node]
    · rw [choice, choice] <;> nofun
  | .pi _ d _ => by
    refine ⟨fun els tag => ?_, fun v rest => ?_⟩
    · rw [node, node]; funext ρ; rw [(h ρ).block]
    · rw [choice, choice] <;> nofun
  | .elem t as l kids => by
    obtain ⟨i1, -, i3⟩ := nodes_same kids
    refine ⟨fun els tag => ?_, fun v rest => ?_⟩
    · rw [node, node]
      funext ρ
      cases hd : dirOf t with
      | none =>
        dsimp only
        rw [startTag_same (h ρ)]
        simp only [fun ρ => tagPart_same (h ρ), fun ρ => value_same (h ρ), fun ρ => script_same (c := c) (h ρ), i1]
      | some d =>
        cases d with
        | replace => dsimp only; rw [value_same (h ρ)]
        | forD => dsimp only; rw [(h ρ).iter, i1]
        | withD => dsimp only; rw [assign_same h, i1]
        | switchD => dsimp only; simp only [(h ρ).eval, i3]
        | ifD => dsimp only; rw [(h ρ).eval, i1]
        | nop => dsimp only; rw [i1]
        | block => dsimp only; rw [i1]
        | _ => rfl
    · rw [choice, choice]
      funext ρ
      cases hd : dirOf t with
      | none => rfl
      | some d =>
        cases d with
        | caseD => dsimp only; rw [(h ρ).eval, i1]
        | elseD => dsimp only; rw [i1]
        | nop => dsimp only; rw [i3]
        | _ => rfl
theorem nodes_same : ∀ xs : List DNode,
    (∀ raw tag, nodes py G over c raw tag xs = nodes py G' over c raw tag xs) ∧
    (otherwise py G over c xs = otherwise py G' over c xs) ∧
    ∀ v rest, choices py G over c v rest xs = choices py G' over c v rest xs
  | [] => by
    refine ⟨fun raw tag => ?_, ?_, fun v rest => ?_⟩
    · rw [nodes, nodes]
    · rw [otherwise_not [] rfl, otherwise_not [] rfl]
    · rw [choices, choices]
  | x :: xs => by
    obtain ⟨i1, i2, i3⟩ := nodes_same xs
    obtain ⟨j1, j2⟩ := node_same x
    refine ⟨fun raw tag => ?_, ?_, fun v rest => ?_⟩
    · rw [nodes, nodes, i1, i2]
      funext ρ
      cases x with
      | cdata => cases raw <;> simp only [j1]
      | _ => cases raw <;> simp only [j1]
    · cases x with
      | elem t as l kids =>
        obtain ⟨k1, -, -⟩ := nodes_same kids
        rw [otherwise, otherwise, k1]
      | _ => rw [otherwise_not _ rfl, otherwise_not _ rfl]
    · rw [choices, choices, i3]
      funext ρ
      rw [j2]
end

end

/-- Variables that differ in names Python does not look at. -/
theorem same_of_blind {hid : Str → Prop} (hb : Blind hid py) (hc : ∀ e, py.call e = none) {G G' : Look}
    (h : ∀ k, ¬hid k → G k = G' k) (ρ : Vars) : Same py (look G ρ) (look G' ρ) := by
  have hl : ∀ k, ¬hid k → look G ρ k = look G' ρ k := fun k hk => by unfold look; rw [h k hk]
  exact ⟨fun e => hb.eval e _ _ hl, fun e => hb.iter e _ _ hl, fun ls => hb.block ls _ _ hl,
    fun e m he => by rw [hc] at he; cases he⟩

/-- The global variables that differ, if contexts differ. -/
theorem globals_agree {hid : Str → Prop} (base methods : Dict Val) {context context' : Dict Val}
    (hn : (context.map (·.1)).Nodup) (hn' : (context'.map (·.1)).Nodup)
    (h : ∀ k, ¬hid k → Dict.get context k = Dict.get context' k)
    (hg : Dict.get context "gettext".toList = Dict.get context' "gettext".toList) (k : Str) (hk : ¬hid k) :
    Dict.get (Run.newGlobals 0 base methods context) k = Dict.get (Run.newGlobals 0 base methods context') k := by
  unfold Run.newGlobals
  dsimp only
  by_cases h1 : "value_of".toList = k
  · subst h1; rw [Dict.get_set_same, Dict.get_set_same]
  · rw [Dict.get_set_other _ _ h1, Dict.get_set_other _ _ h1]
    by_cases h2 : ['_'] = k
    · subst h2
      rw [Dict.get_set_same, Dict.get_set_same, Dict.get_update_nodup _ _ _ hn, Dict.get_update_nodup _ _ _ hn', hg]
    · rw [Dict.get_set_other _ _ h2, Dict.get_set_other _ _ h2, Dict.get_update_nodup _ _ _ hn,
        Dict.get_update_nodup _ _ _ hn', h k hk]

theorem doc_globals_agree {hid : Str → Prop} (base : Dict Val) {context context' : Dict Val}
    (hn : (context.map (·.1)).Nodup) (hn' : (context'.map (·.1)).Nodup)
    (h : ∀ k, ¬hid k → Dict.get context k = Dict.get context' k)
    (hg : Dict.get context "gettext".toList = Dict.get context' "gettext".toList) (k : Str) (hk : ¬hid k) :
    PureDoc.globals base context k = PureDoc.globals base context' k :=
  globals_agree base _ hn hn' h hg k hk

/-! ## Text templates -/

section
open Kajiki.Spec.Funs (Calls)
variable {esc : Bool} {m : Str → List Val → Shown Unit} {G G' : Look} (h : ∀ ρ, Same py (look G ρ) (look G' ρ))
include h

set_option linter.unusedSectionVars false in
mutual
theorem dir_same : ∀ d : Spec.TextTree.Dir, Spec.PureText.dir py G esc m d = Spec.PureText.dir py G' esc m d
  | .text t _ => by rw [Spec.PureText.dir, Spec.PureText.dir]
  | .expr e _ => by
    rw [Spec.PureText.dir, Spec.PureText.dir]
    funext ρ
    unfold Spec.PureText.value
    cases hc : py.call e with
    | some q => dsimp only; rw [(h ρ).call e q hc]
    | none => dsimp only; rw [(h ρ).eval]
  | .ifD e b => by
    rw [Spec.PureText.dir, Spec.PureText.dir, (dirs_same b).1]
    funext ρ
    rw [(h ρ).eval]
  | .ifElse e b b' => by
    rw [Spec.PureText.dir, Spec.PureText.dir, (dirs_same b).1, (dirs_same b').1]
    funext ρ
    rw [(h ρ).eval]
  | .forD e b => by
    rw [Spec.PureText.dir, Spec.PureText.dir, (dirs_same b).1]
    funext ρ
    rw [(h ρ).iter]
  | .switchD e b => by
    rw [Spec.PureText.dir, Spec.PureText.dir, (dirs_same b).1]
    funext ρ
    simp only [(h ρ).eval, (dirs_same b).2]
  | .blockD n b => by rw [Spec.PureText.dir, Spec.PureText.dir]
  | .py ml ls => by
    rw [Spec.PureText.dir, Spec.PureText.dir]
    funext ρ
    rw [(h ρ).block]
  | .caseD e b => by unfold Spec.PureText.dir; rfl
  | .elseD b => by unfold Spec.PureText.dir; rfl
  | .defD n b => by unfold Spec.PureText.dir; rfl
  | .callD a f b => by unfold Spec.PureText.dir; rfl
  | .extendsD f => by unfold Spec.PureText.dir; rfl
  | .importD f a => by unfold Spec.PureText.dir; rfl
  | .includeD f => by unfold Spec.PureText.dir; rfl
theorem dirs_same : ∀ ds : List Spec.TextTree.Dir,
    Spec.PureText.dirs py G esc m ds = Spec.PureText.dirs py G' esc m ds ∧
    ∀ v, Spec.PureText.choice py G esc m v ds = Spec.PureText.choice py G' esc m v ds
  | [] => by
    refine ⟨?_, fun v => ?_⟩
    · rw [Spec.PureText.dirs, Spec.PureText.dirs]
    · unfold Spec.PureText.choice; rfl
  | d :: ds => by
    refine ⟨?_, fun v => ?_⟩
    · rw [Spec.PureText.dirs, Spec.PureText.dirs, dir_same d, (dirs_same ds).1]
    · cases d with
      | caseD e b =>
        rw [Spec.PureText.choice, Spec.PureText.choice, (dirs_same b).1, (dirs_same ds).2]
        funext ρ
        rw [(h ρ).eval]
      | elseD b => rw [Spec.PureText.choice, Spec.PureText.choice, (dirs_same b).1]
      | _ => unfold Spec.PureText.choice; rfl
end

end

open Kajiki.Spec.Funs (Calls)
open Kajiki.Spec.PureText (pyWith meaning)

/-- Arguments of calls do not depend on hidden variables. -/
theorem pyWith_same {fs : List Spec.PureText.Fn} {C : Calls} {m : Str → List Val → Shown Unit} {hid : Str → Prop}
    (hb : Blind hid py) (hargs : ∀ e f args, C.callee e = some (f, args) → ∀ L L' : Look,
      (∀ k, ¬hid k → L k = L' k) → args L = args L') {G G' : Look} (h : ∀ k, ¬hid k → G k = G' k) (ρ : Vars) :
    Same (pyWith fs C py m) (look G ρ) (look G' ρ) := by
  have hl : ∀ k, ¬hid k → look G ρ k = look G' ρ k := fun k hk => by unfold look; rw [h k hk]
  refine ⟨fun e => hb.eval e _ _ hl, fun e => hb.iter e _ _ hl, fun ls => hb.block ls _ _ hl, fun e q he => ?_⟩
  unfold pyWith at he
  dsimp only at he
  cases hc : C.callee e with
  | none => rw [hc] at he; cases he
  | some fa =>
    obtain ⟨f, args⟩ := fa
    rw [hc] at he
    change (Spec.PureText.fn fs f).map _ = some q at he
    obtain ⟨d, -, rfl⟩ := Option.map_eq_some_iff.1 he
    dsimp only
    rw [hargs e f args hc _ _ hl]

theorem meaning_same {fs : List Spec.PureText.Fn} {C : Calls} {esc : Bool} {hid : Str → Prop}
    (hb : Blind hid py) (hargs : ∀ e f args, C.callee e = some (f, args) → ∀ L L' : Look,
      (∀ k, ¬hid k → L k = L' k) → args L = args L') {G G' : Look} (h : ∀ k, ¬hid k → G k = G' k) :
    ∀ n : Nat, meaning fs C py G esc n = meaning fs C py G' esc n
  | 0 => by funext f args; rw [meaning, meaning]
  | n + 1 => by
    funext f args
    rw [meaning, meaning, meaning_same hb hargs h n]
    cases Spec.PureText.fn fs f with
    | none => rfl
    | some d => dsimp only; rw [(dirs_same (pyWith_same hb hargs h) d.body).1]

theorem text_shown_same {C : Calls} {t : Spec.TextSem.Template} {hid : Str → Prop}
    (hb : Blind hid py) (hargs : ∀ e f args, C.callee e = some (f, args) → ∀ L L' : Look,
      (∀ k, ¬hid k → L k = L' k) → args L = args L') {G G' : Look} (h : ∀ k, ¬hid k → G k = G' k) :
    ∀ n : Nat, Spec.PureText.shown C py G t n = Spec.PureText.shown C py G' t n
  | 0 => rfl
  | n + 1 => by
    rw [Spec.PureText.shown, Spec.PureText.shown, meaning_same hb hargs h n,
      (dirs_same (pyWith_same hb hargs h) t.tree).1]

end Kajiki.Unused
