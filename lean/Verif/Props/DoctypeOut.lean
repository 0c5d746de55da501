import Verif.Props.XmlCompile
import Verif.Lemmas.MainOf

/-!
# The DOCTYPE in the output (C34)
-/

namespace Kajiki.Props
open Kajiki.Run Kajiki.XmlComp Kajiki.Spec.XmlCompile

private theorem main_name : declName "__main__()".toList = "__main__".toList := by decide +kernel

variable {W : Type}

private theorem class_at : ∀ {ts : List (Tmpl × Dict Val)} {cs : List (Cls (List Stmt))} (_ : compileAll ts = some cs)
    {i : Nat} {u : Tmpl} {b : Dict Val} (_ : ts[i]? = some (u, b)), ∃ c, fromIr u b = some c ∧ cs[i]? = some c
  | [], _, _, _, _, _, hi => by simp at hi
  | t :: ts, cs, h, i, u, b, hi => by
    simp only [compileAll] at h
    split at h
    · next c cs' hc hcs =>
      cases h
      cases i with
      | zero =>
        simp only [List.getElem?_cons_zero, Option.some.injEq] at hi
        subst hi
        exact ⟨c, hc, rfl⟩
      | succ i => exact class_at hcs (by simpa using hi)
    · cases h

private theorem out_of_call {O : Oracle W} {run : Env → List Stmt → MS (List Stmt) W Unit}
    {call : Mode → Nat → List Val → MS (List Stmt) W Unit} {mode : Mode} {f : Nat} {as : List Val}
    {s : Store (List Stmt) W} {fn : Fn (List Stmt)}
    {decl : Str} {body : List Stmt} (hf : s.fns[f]? = some fn) (hb : fn.body = .code decl body) {x : Inst}
    (hx : s.insts[fn.inst]? = some x) {vars : Dict Val} {w' : W} (ha : O.args decl as s.world = (.ok vars, w'))
    {t : Str} (h : ∀ env s, t <+: (run env body s).out.txt) : t <+: (callWith O run call mode f as s).out.txt := by
  have : ∃ env s', callWith O run call mode f as s = run env body s' := by
    simp only [callWith, M.bind, M.get, hf, M.ofOption, M.pure, hb, ha, newFrame, getInst, hx, Out.nil_append]
    exact ⟨_, _, rfl⟩
  obtain ⟨env, s', e⟩ := this
  rw [e]
  exact h env s'

private theorem reading_out (b : Bool) (m : MS (List Stmt) W Unit) (s : Store (List Stmt) W) :
    (reading b m s).out.txt = (m s).out.txt := by
  unfold reading
  simp only [M.bind]
  cases (m s).val with
  | error e => rfl
  | ok a => cases b <;> simp [M.pure, M.throw]

/-- **C34.** What is shown starts with the DOCTYPE of the source, or without one in html5 mode with that of html5,
when the template is neither a fragment nor has a `py:extends`: whatever the other templates, the context and the
expressions, also when rendering fails later.  (No function of the template is called `__main__`.) -/
theorem C34_rendered (S : Source) (P : Prog (List Stmt)) (h : S.compile = some P) (i : Nat) (u : Tmpl) (base : Dict Val)
    (hi : S.tmpls[i]? = some (u, base)) (env : CEnv) (doc : Doc) (root : DNode)
    (hroot : doc.kids.filter (fun n => !isComment n) = [root]) (hc : compileDoc env doc = .ok u)
    (hf : env.opts.isFragment = false) (he : extendsIn env.opts root = false)
    (hd : ∀ d ∈ u.defs, declName d.decl = "__main__".toList → d.decl = "__main__()".toList)
    (O : Oracle W) (n : Nat) (context vars : Dict Val) (w w' : W)
    (ha : O.args "__main__()".toList [] w = (.ok vars, w')) :
    (doc.dtd ≠ [] → strip doc.dtd ++ "\n".toList <+: (render P O (n + 1) i context w).out.txt) ∧
    (doc.dtd = [] → env.mode = "html5".toList →
      "<!DOCTYPE html>\n".toList <+: (render P O (n + 1) i context w).out.txt) := by
  obtain ⟨body, s, -, ⟨d, hdm, hdd⟩, hall⟩ := C34_doctype env doc u root hroot hc
  have key : ∀ text rest, d.body = .text text none 1 :: rest → text <+: (render P O (n + 1) i context w).out.txt := by
    intro text rest hb
    unfold Source.compile at h
    rw [Option.map_eq_some_iff] at h
    obtain ⟨cs, hcs, rfl⟩ := h
    obtain ⟨c, h1, h2⟩ := class_at hcs hi
    unfold fromIr at h1
    rw [Option.map_eq_some_iff] at h1
    obtain ⟨m, hm, rfl⟩ := h1
    obtain ⟨code, hcode, hout⟩ := C34_output_starts_with_it u m hm d hdm text 1 rest hb
    have huniq : ∀ e ∈ m.defs, declName e.1 = "__main__".toList → e = (d.decl, code) := by
      have hmm := hm
      rw [compilePy_generatePython] at hmm
      split at hmm
      · cases hmm
        have same : ∀ e ∈ (Spec.Code.codeTmpl (Spec.Code.mergedTmpl u)).defs, declName e.1 = "__main__".toList →
            e = (d.decl, Spec.Code.bodyCode (mergedList d.body)) := by
          intro e hem hen
          simp only [Spec.Code.codeTmpl, Spec.Code.mergedTmpl, List.map_map, List.mem_map] at hem
          obtain ⟨d', hd', rfl⟩ := hem
          have e1 := hd d' hd' hen
          simp only [Function.comp, e1, hdd, hall d' hd' e1, hall d hdm hdd]
        have hcd := same _ hcode (by rw [hdd]; exact main_name)
        intro e hem hen
        rw [same e hem hen, hcd]
      · cases hmm
    obtain ⟨st, f, x, hrun, hfn, hins, hw⟩ := run_main (P := ⟨cs, S.load, S.aliasFor⟩) (i := i) (fs := m.defs)
      (base := base) (decl := d.decl) (b := code) h2 (by rw [hdd]; exact main_name) hcode huniq
      (callN ⟨cs, S.load, S.aliasFor⟩ O (n + 1)) context w
    unfold render renderInst
    rw [hrun, callN]
    refine out_of_call hfn rfl (by rw [hins]; rfl) (by rw [hw, hdd]; exact ha) fun env s => ?_
    rw [reading_out]
    exact hout W _ O _ env s
  have hbody := hall d hdm hdd
  constructor
  · intro hne
    rw [if_pos ⟨hf, he⟩, if_pos hne] at hbody
    exact key _ _ hbody
  · intro hnil hmode
    rw [if_pos ⟨hf, he⟩, if_neg (not_not.2 hnil), if_pos hmode] at hbody
    exact key _ _ hbody

/-! ## Example -/

private def env5 : CEnv :=
  ⟨fun _ => none, "html5".toList, ⟨"html5".toList, false, [], true⟩, fun _ => []⟩

private def root5 : DNode := .elem "p".toList [] 1 [.text "a".toList true 1]

/-- `<p>a</p>` in html5 mode, in a set of two templates. -/
example : ∃ u P, compileDoc env5 ⟨[], [root5]⟩ = .ok u ∧
    (Source.mk [(u, []), (u, [])] (fun _ => none) id).compile = some P ∧
    ∀ (O : Oracle Unit), O.args "__main__()".toList [] () = (.ok [], ()) → ∀ context,
      "<!DOCTYPE html>\n".toList <+: (render P O 3 1 context ()).out.txt := by
  obtain ⟨u, hu⟩ : ∃ u, compileDoc env5 ⟨[], [root5]⟩ = .ok u := by
    have : (compileDoc env5 ⟨[], [root5]⟩).isOk = true := by decide +kernel
    cases hc : compileDoc env5 ⟨[], [root5]⟩ with
    | error e => rw [hc] at this; cases this
    | ok u => exact ⟨u, rfl⟩
  have hdefs : (compileDoc env5 ⟨[], [root5]⟩).toOption.map (fun u => u.defs.map (·.decl)) =
      some ["__main__()".toList] := by decide +kernel
  rw [hu] at hdefs
  have hdefs : u.defs.map (·.decl) = ["__main__()".toList] := Option.some.inj hdefs
  have hcomp : (compileDoc env5 ⟨[], [root5]⟩).toOption.bind (fun u =>
      (Source.mk [(u, []), (u, [])] (fun _ => none) id).compile.map fun _ => ()) = some () := by decide +kernel
  rw [hu] at hcomp
  obtain ⟨P, hP⟩ : ∃ P, (Source.mk [(u, []), (u, [])] (fun _ => none) id).compile = some P := by
    cases hp : (Source.mk [(u, []), (u, [])] (fun _ => none) id).compile with
    | none => simp [Except.toOption, hp] at hcomp
    | some P => exact ⟨P, rfl⟩
  refine ⟨u, P, hu, hP, fun O hO context => ?_⟩
  refine (C34_rendered _ P hP 1 u [] rfl env5 ⟨[], [root5]⟩ root5 rfl hu rfl (by decide +kernel) (fun d hd _ => ?_)
    O 2 context [] () () hO).2 rfl rfl
  have := List.mem_map_of_mem (f := (·.decl)) hd
  rw [hdefs] at this
  simpa using this

end Kajiki.Props
