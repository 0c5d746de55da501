import Verif.Lemmas.Limit

/-!
# C77: exceptions end rendering

`Verif/Spec/Ends.lean` says what it means that an execution ends earlier than another one, and that the world records
exceptions.
-/

namespace Kajiki.Props
open Kajiki.Run Kajiki.Spec.Ends

variable {W : Type}

/-- **C77.** Nothing catches exceptions.  If Python raises an exception that the world records, while a template is
rendered, then rendering ends with this exception. -/
theorem C77_exceptions_end_rendering (P : Prog (List Stmt)) (O : Oracle W) (failed : W → Option Err) (hO : Recorded failed O)
    (n c : Nat) (context : Dict Val) (w : W) (hw : failed w = none) :
    let r := render P O n c context w
    ∀ x, failed r.st.world = some x → r.val = .error x := by
  intro r x hx
  rcases Limit.render_tells P hO n c context w hw with h | ⟨y, h1, h2⟩
  · rw [show failed r.st.world = none from h] at hx
    cases hx
  · rw [show failed r.st.world = some y from h1] at hx
    cases hx
    exact h2

/-- **C77.** If Python raises `x` in some places, the template shows the same as without, or the beginning of it, up to
where `x` was raised; and then rendering ends with `x`. -/
theorem C77_beginning_is_shown (P : Prog (List Stmt)) (O O' : Oracle W) (x : Err) (hO : Stops x O O') (n c : Nat)
    (context : Dict Val) (w : W) : Earlier x (render P O n c context w) (render P O' n c context w) :=
  Limit.render_stops P hO n c context w

/-- **C77.** A higher limit of nested calls changes nothing if the lower one was not reached; if it was, what was shown
is the beginning of what is shown with the higher one. -/
theorem C77_limit_changes_nothing (P : Prog (List Stmt)) (O : Oracle W) (n m : Nat) (h : n ≤ m) (c : Nat)
    (context : Dict Val) (w : W) : Earlier .recursion (render P O n c context w) (render P O m c context w) :=
  Limit.render_limit P O h c context w

/-! ### Examples -/

namespace EndsDemo

/-- `a$x$y`, where `y` calls the function `f` that shows `b$x`, in an attribute. -/
def P : Prog (List Stmt) :=
  ⟨[⟨[("__main__".toList, "__main__()".toList, [.yieldLit "a".toList, .yieldEscape "x".toList,
        .collect [.yieldCode "y".toList], .attrS "c".toList "xml".toList [], .yieldLit "d".toList]),
      ("f".toList, "f()".toList, [.yieldLit "b".toList, .yieldEscape "x".toList])], []⟩], fun _ => none, id⟩

/-- Python in which `y` is a call of `f`, `x` has the value `bad` gives and fails the second time. -/
def python (bad : Bool) : Oracle (Nat × Option Err) where
  eval e _ w :=
    if e = "y".toList then (.ok (.flatCall 9 1 []), w)
    else if w.1 = 1 ∧ bad then (.error .name, (2, some .name))
    else (.ok (.str "&".toList), (w.1 + 1, w.2))
  iter _ _ w := (.ok [], w)
  py _ _ w := (.ok [], w)
  args _ _ w := (.ok [], w)
  gettext _ t w := (.ok (.str t), w)

example (bad : Bool) : Recorded Prod.snd (python bad) where
  eval e v w h := by
    unfold python
    dsimp only
    split
    · exact .inl h
    · split
      · exact .inr ⟨_, rfl, rfl⟩
      · exact .inl h
  iter _ _ _ h := .inl h
  py _ _ _ h := .inl h
  args _ _ _ h := .inl h
  gettext _ _ _ h := .inl h

example : Stops .name (python true) (python false) where
  eval e v w := by
    unfold python
    dsimp only
    split
    · exact .inl rfl
    · split
      · exact .inr rfl
      · exact .inl (by simp)
  iter _ _ _ := .inl rfl
  py _ _ _ := .inl rfl
  args _ _ _ := .inl rfl
  gettext _ _ _ := .inl rfl

/-- Text, result, and what was recorded. -/
def result (bad : Bool) (n : Nat) : Str × Option Unit × Option Err :=
  let r := render P (python bad) n 0 [] (0, none)
  (r.out.txt, r.val.toOption, r.st.world.2)

example : result false 2 = ("a&amp; c=\"b&amp;amp;\"d".toList, some (), none) ∧
    result true 2 = ("a&amp;".toList, none, some .name) ∧
    result false 1 = ("a&amp;".toList, none, none) ∧ result false 0 = ([], none, none) := by decide +kernel

end EndsDemo

end Kajiki.Props
