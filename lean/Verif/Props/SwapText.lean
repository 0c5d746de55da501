import Verif.Lemmas.SwapText
import Verif.Props.PureText

/-!
# C89: parts of a text template may be exchanged

`Verif/Spec/SwapText.lean` says when two parts of text templates are alike, and when a template is another one with some
parts exchanged for others that are alike.
-/

namespace Kajiki.Props
open Kajiki.Run Kajiki.Spec.TextSem Kajiki.Spec.TextTree Kajiki.Spec.TextSource Kajiki.Texts
open Kajiki.Spec.SwapText Kajiki.SwapTextL

variable {W : Type}

/-- **C89.** Two sets of text templates.  If every template of the second is the one of the first with some parts exchanged
for others that are alike, then rendering any of them gives the same text, the same exception and the same world. -/
theorem C89_parts_of_text_templates (ts ts' : List Template) (S S' : Source) (P P' : Prog (List Stmt)) (O : Oracle W)
    (hc : List.Forall₂ (fun t u => u = (template t.conf.autoescape t.conf.gen t.tree, t.base)) ts S.tmpls)
    (hc' : List.Forall₂ (fun t u => u = (template t.conf.autoescape t.conf.gen t.tree, t.base)) ts' S'.tmpls)
    (hp : ∀ t ∈ ts, tidyAll t.tree = true) (hp' : ∀ t ∈ ts', tidyAll t.tree = true)
    (h : S.compile = some P) (h' : S'.compile = some P') (hl : S'.load = S.load) (hal : S'.aliasFor = S.aliasFor)
    (hw : List.Forall₂ (Exchanged O) ts ts') (n i : Nat) (context : Dict Val) (w : W) :
    let r := render P O n i context w
    let r' := render P' O n i context w
    r'.out = r.out ∧ r'.val = r.val ∧ r'.st.world = r.st.world := by
  obtain ⟨a1, a2, a3⟩ := C64_rendering_is_tree ts S P O hc hp h n i context w
  obtain ⟨b1, b2, b3⟩ := C64_rendering_is_tree ts' S' P' O hc' hp' h' n i context w
  have hr := SwapTextL.rendered_rel hw S.load S.aliasFor n i context w
  dsimp only
  rw [a1, a2, a3, b1, b2, b3, hl, hal, hr.out, hr.val, hr.st.world]
  exact ⟨rfl, rfl, rfl⟩

/-- **C89.** The same from the sources of the templates. -/
theorem C89_sources_of_text_templates (xs xs' : List File) (ts ts' : List Template) (S S' : Source)
    (P P' : Prog (List Stmt)) (O : Oracle W)
    (hc : List.Forall₂ (fun x u => textTemplate x.py x.gen x.autoescape x.filename x.src = .ok u.1 ∧ u.2 = x.base)
      xs S.tmpls)
    (hc' : List.Forall₂ (fun x u => textTemplate x.py x.gen x.autoescape x.filename x.src = .ok u.1 ∧ u.2 = x.base)
      xs' S'.tmpls)
    (hx : List.Forall₂ Spelled xs ts) (hx' : List.Forall₂ Spelled xs' ts')
    (hp : ∀ t ∈ ts, tidyAll t.tree = true) (hp' : ∀ t ∈ ts', tidyAll t.tree = true)
    (h : S.compile = some P) (h' : S'.compile = some P') (hl : S'.load = S.load) (hal : S'.aliasFor = S.aliasFor)
    (hw : List.Forall₂ (Exchanged O) ts ts') (n i : Nat) (context : Dict Val) (w : W) :
    let r := render P O n i context w
    let r' := render P' O n i context w
    r'.out = r.out ∧ r'.val = r.val ∧ r'.st.world = r.st.world := by
  obtain ⟨a1, a2, a3⟩ := C64_rendering_is_source xs ts S P O hc hx hp h n i context w
  obtain ⟨b1, b2, b3⟩ := C64_rendering_is_source xs' ts' S' P' O hc' hx' hp' h' n i context w
  have hr := SwapTextL.rendered_rel hw S.load S.aliasFor n i context w
  dsimp only
  rw [a1, a2, a3, b1, b2, b3, hl, hal, hr.out, hr.val, hr.st.world]
  exact ⟨rfl, rfl, rfl⟩

/-! ## Parts that are alike -/

section
variable (O : Oracle W) (c : Conf) (p : Spot)

/-- Parts one after another. -/
theorem C89_parts_in_order (us vs xs ys : List Dir) (h : Alike O c p us vs) (h' : Alike O c (afterAll p us) xs ys) :
    Alike O c p (us ++ xs) (vs ++ ys) := by
  refine ⟨fun P call env => ?_, ?_, ?_, ?_, ?_⟩
  · rw [dirs_append, dirs_append, ← h.after, h.does, h'.does]
  · rw [defsAll_append, defsAll_append, ← h.after, h.defines, h'.defines]
  · rw [afterAll_append, afterAll_append, ← h.after, h'.after]
  · rw [silentAll_append, silentAll_append, ← h.after, h.silent, h'.silent]
  · rw [speaksAny_append, speaksAny_append, ← h.after, h.speaks, h'.speaks]

/-- A text cut in two. -/
theorem C89_texts (s t : Str) (l l₁ l₂ : Nat) : Alike O c p [.text (s ++ t) l] [.text s l₁, .text t l₂] := by
  refine ⟨fun P call env => ?_, ?_, ?_, ?_, ?_⟩
  · simp only [dirs, dir, M.bind_pure]
    rfl
  · simp only [defsAll, defs, List.append_nil]
  · simp only [afterAll, after]
  · simp only [silentAll, silent, Bool.and_true, Bool.and_false]
  · simp only [speaksAny, speaks, Bool.or_true, Bool.true_or]

/-- A condition and its negation, if no functions are defined in the parts, and no template is extended or called with
`%call` there. -/
theorem C89_if_not (e e' : Str) (xs ys : List Dir)
    (h : ∀ v w, O.eval e' v w = ((O.eval e v w).1.map fun v => .bool (!truthy v), (O.eval e v w).2))
    (hx : afterAll p xs = p) (hy : afterAll p ys = p) (fx : defsAll c p xs = []) (fy : defsAll c p ys = []) :
    Alike O c p [.ifElse e xs ys] [.ifElse e' ys xs] := by
  refine ⟨fun P call env => ?_, ?_, ?_, ?_, ?_⟩
  · simp only [dirs, dir, hx, hy]
    congr 1
    funext s
    unfold test M.bind evalM ask
    dsimp only
    rw [h]
    cases O.eval e (view env s) s.world with
    | mk r w =>
      cases r with
      | error e => rfl
      | ok v =>
        dsimp only [Except.map]
        have e (b : Bool) : truthy (.bool b) = b := rfl
        rw [e]
        cases truthy v <;> rfl
  · simp only [defsAll, defs, hx, hy, fx, fy]
  · simp only [afterAll, after, hx, hy]
  · simp only [silentAll, silent]
  · simp only [speaksAny, speaks, hx, hy, Bool.or_false]
    exact Bool.or_comm _ _

/-- A condition that always holds, unless there is nothing under it (C65). -/
theorem C89_if_true (e : Str) (xs : List Dir) (h : ∀ v w, ∃ u, truthy u = true ∧ O.eval e v w = (.ok u, w))
    (hs : silentAll p xs = false) : Alike O c p [.ifD e xs] xs := by
  refine ⟨fun P call env => ?_, ?_, ?_, ?_, ?_⟩
  · simp only [dirs, dir, M.bind_pure]
    funext s
    have ht : test O env e s = ⟨.nil, s, .ok true⟩ := by
      obtain ⟨u, h1, h2⟩ := h (view env s) s.world
      unfold test M.bind evalM ask M.pure
      dsimp only
      rw [h2]
      dsimp only
      rw [h1]
      rfl
    unfold M.bind
    rw [ht]
    rfl
  · simp only [defsAll, defs, List.append_nil]
  · simp only [afterAll, after]
  · simp only [silentAll, silent, hs, Bool.false_and]
  · simp only [speaksAny, speaks, Bool.or_false]

private theorem always {O : Oracle W} {e : Str} {v : Val} (h : ∀ u w, O.eval e u w = (.ok v, w)) {env : Env}
    (f : Val → MD W Unit) : M.bind (evalM O env e) f = f v := by
  funext s
  unfold M.bind evalM ask
  dsimp only
  rw [h]
  rfl

private theorem emit_str {call : Mode → Nat → List Val → MD W Unit} (mode : Mode) (t : Str) :
    emit call mode (.str t) = say t := by
  rw [emit]
  · cases mode <;> rfl
  all_goals nofun

/-- An expression that is always the same text. -/
theorem C89_constant_expression (e t : Str) (l l' : Nat) (h : ∀ v w, O.eval e v w = (.ok (.str t), w)) :
    Alike O c p [.expr e l] [.text (if c.autoescape then escapeStr t else t) l'] := by
  refine ⟨fun P call env => ?_, ?_, ?_, ?_, ?_⟩
  · simp only [dirs, dir, M.bind_pure]
    unfold Spec.TextSem.shown
    rw [always h]
    cases c.autoescape
    · exact emit_str env.mode t
    · exact emit_str env.mode (escapeStr t)
  · simp only [defsAll, defs]
  · simp only [afterAll, after]
  · simp only [silentAll, silent]
  · simp only [speaksAny, speaks]

end

/-! ### Examples -/

namespace SwapTextDemo
open PureTextDemo

/-- The example of C75 with texts cut in two. -/
def tree' : List Dir :=
  [.defD " count(n)".toList [.ifD " n".toList [.expr ['n'] 1, .text [] 1, .text [','] 1, .expr "count(n-1)".toList 1]],
   .text "H".toList 1, .text "i ".toList 1, .expr ['t'] 1, .text ":\n".toList 2,
   .blockD " body".toList [.expr "count(x)".toList 3, .text "!".toList 4, .text "\n".toList 4]]

def tmpl' : Template := ⟨⟨true, PureTextDemo.genName⟩, tree', []⟩

theorem exchanged : Exchanged pyth tmpl tmpl' where
  conf := rfl
  base := rfl
  tree := .cons (.defD (.cons (.ifD (.cons (.same _) (.part (us := [_]) (vs := [_, _]) (C89_texts pyth _ _ [] [','] _ _ _)
      (.cons (.same _) .nil)))) .nil)) <|
    .part (us := [_]) (vs := [_, _]) (C89_texts pyth _ _ "H".toList "i ".toList _ _ _) <|
    .cons (.same _) <| .cons (.same _) <|
    .cons (.blockD (.cons (.same _) (.part (us := [_]) (vs := [_, _])
      (C89_texts pyth _ _ "!".toList "\n".toList _ _ _) .nil))) .nil

def site' : Run.Source := ⟨[(template true PureTextDemo.genName tree', [])], fun _ => none, id⟩

example : ∃ P P', site.compile = some P ∧ site'.compile = some P' ∧ ∀ n,
    (render P' pyth n 0 context 0).out.txt = (render P pyth n 0 context 0).out.txt := by
  obtain ⟨P, hP⟩ : ∃ P, site.compile = some P := Option.isSome_iff_exists.1 (by decide +kernel)
  obtain ⟨P', hP'⟩ : ∃ P, site'.compile = some P := Option.isSome_iff_exists.1 (by decide +kernel)
  refine ⟨P, P', hP, hP', fun n => ?_⟩
  rw [(C89_parts_of_text_templates [tmpl] [tmpl'] site site' P P' pyth (.cons rfl .nil) (.cons rfl .nil) (by decide +kernel)
    (by decide +kernel) hP hP' rfl rfl (.cons exchanged .nil) n 0 context 0).1]

/-- Python in which `one` is a text that is always the same, and `yes` always holds. -/
def steady : Oracle Nat := { pyth with
  eval := fun e v w => if e = "one".toList then (.ok (.str "<1>".toList), w) else if e = "yes".toList then (.ok (.bool true), w)
    else if e = "no".toList then (.ok (.bool false), w) else pyth.eval e v w }

example : Alike steady ⟨true, PureTextDemo.genName⟩ .start [.expr "one".toList 1] [.text "&lt;1&gt;".toList 1] :=
  C89_constant_expression steady ⟨true, PureTextDemo.genName⟩ .start _ "<1>".toList 1 1 fun _ _ => rfl

example : Alike steady ⟨true, PureTextDemo.genName⟩ .start [.ifD "yes".toList [.text "a".toList 1]] [.text "a".toList 1] :=
  C89_if_true _ _ _ _ _ (fun _ _ => ⟨_, rfl, rfl⟩) (by decide +kernel)

example : Alike steady ⟨true, PureTextDemo.genName⟩ .start [.ifElse "yes".toList [.text "a".toList 1] [.expr "x".toList 1]]
    [.ifElse "no".toList [.expr "x".toList 1] [.text "a".toList 1]] :=
  C89_if_not _ _ _ _ _ _ _ (fun _ _ => rfl) rfl rfl rfl rfl

end SwapTextDemo

end Kajiki.Props
