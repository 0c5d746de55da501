import Verif.Spec.Sem
import Verif.Lemmas.Rel

/-!
# Rendering a template that has only a `__main__` function
-/

namespace Kajiki.Run
open Kajiki.Spec.Sem

variable {W : Type}

theorem bind_step {S α β : Type} {m : M S α} {f : α → M S β} {s s' : S} {a : α} (h : m s = ⟨.nil, s', .ok a⟩) :
    M.bind m f s = f a s' := by
  unfold M.bind
  rw [h]
  simp

theorem semProcess_main (mp : List (List Str × Nat)) (decl : Str) (hdecl : declName decl = "__main__".toList)
    (body : List Ir) (l : Nat) (base : Dict Val) (load : Str → Option Nat) (aliasFor : Str → Str) (O : Oracle W)
    (n : Nat) (context : Dict Val) (w w' : W) (vars : Dict Val) (ha : O.args decl [] w = (.ok vars, w')) :
    let S : Source := ⟨[(⟨mp, [⟨decl, body, l⟩]⟩, base)], load, aliasFor⟩
    ∃ env s, env.mode = .stream ∧
      semProcess S O (n + 1) 0 context w = semBody (trees S) O (semCall (trees S) O n) env body s := by
  intro S
  have hcls : (trees S).classes[0]? = some ⟨[("__main__".toList, decl, body)], base⟩ := by
    show some (classOf [(decl, body)] base) = _
    simp only [classOf, methodsOf, List.foldl_cons, List.foldl_nil, insertMethod, hdecl]
  unfold semProcess semRender
  generalize trees S = T at *
  obtain ⟨s1, h1, x, hx, hat, hfn, hw⟩ : ∃ s1 : Store (List Ir) W,
      newInst T 0 context (emptyStore _ w) = ⟨.nil, s1, .ok 0⟩ ∧
      ∃ x, s1.insts[0]? = some x ∧ Dict.get x.attrs "__main__".toList = some (.fn 0) ∧
      s1.fns[0]? = some ⟨.code decl body, 0, none, true⟩ ∧ s1.world = w := by
    simp only [newInst, hcls, emptyStore, List.length_nil]
    refine ⟨_, rfl, _, rfl, ?_, rfl, rfl⟩
    simp only [methodDict, Dict.get, if_true]
  rw [bind_step h1]
  unfold emitMain
  have h2 : attrFn 0 "__main__".toList s1 = ⟨.nil, s1, .ok 0⟩ := by
    unfold attrFn
    rw [bind_step (show getInst 0 s1 = ⟨.nil, s1, .ok x⟩ by simp only [getInst, hx]), hat]
    rfl
  rw [bind_step h2]
  simp only [splice, semCall, callWith]
  rw [bind_step (show M.get s1 = ⟨.nil, s1, .ok s1⟩ from rfl), hfn]
  simp only [M.ofOption, M.pure_bind]
  rw [bind_step (m := fun s : Store (List Ir) W => (⟨.nil, { s with world := (O.args decl [] s.world).2 },
      (O.args decl [] s.world).1⟩ : Res (Store (List Ir) W) (Dict Val))) (s := s1) (s' := { s1 with world := w' })
    (a := vars) (by simp only [hw, ha])]
  rw [bind_step (show newFrame _ _ _ = ⟨.nil, _, .ok _⟩ from rfl)]
  rw [bind_step (show getInst 0 _ = ⟨.nil, _, .ok x⟩ by simp only [getInst, hx]; rfl)]
  exact ⟨_, _, rfl, rfl⟩

end Kajiki.Run
