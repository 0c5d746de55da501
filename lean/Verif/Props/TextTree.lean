import Verif.Lemmas.TextTree

/-!
# The block structure of text templates: C39
-/

namespace Kajiki.Props
open Kajiki.Spec.TextTree Kajiki.Texts

/-- **C39.** Parsing the tokens of a directive tree gives the template of that tree, at any depth.
Missing: a `%if … %else` directly in a `%if` or `%case` (`C39_nested_else`), and a `%switch` with an `%else`
closed by one `%end` (`C39_switch_else`). -/
theorem C39_parse_reconstructs_partial (ds : List Dir) (toks : List TTok) (h : Written true .free ds toks)
    (autoescape : Bool) (gen : Nat → Str) :
    parseText autoescape gen (toks, none) = .ok (template autoescape gen ds) :=
  parse_template h autoescape gen

/-- The same inside any template: whatever comes before and after, the directives of a body closed by `%end`
are the nodes of that body, and parsing goes on after the `%end`. -/
theorem C39_body_partial (env : TEnv) (ds : List Dir) (toks : List TTok) (h : Written true .free ds toks)
    (b : Str) (l : Nat) (rest : List TTok) (st : TState) :
    ∃ xs, parseBody env ((toks ++ .tag "end".toList b l :: rest).length + 1) ["end".toList]
        (toks ++ .tag "end".toList b l :: rest) st =
      .ok (xs, some (.tag "end".toList b l), rest, (nodes env.autoescape env.gen ds st).2) ∧
      xs.filterMap id = (nodes env.autoescape env.gen ds st).1 := by
  have h1 := @parse_tree env _ _ _ h [endTagName] (.tag endTagName b l :: rest) st (stops_end _)
    (by intro h; cases h)
  rw [pb_stop (by decide +kernel)] at h1
  have h2 : view (pb env [endTagName] (toks ++ .tag endTagName b l :: rest) st) =
      .ok ((nodes env.autoescape env.gen ds st).1, some (.tag endTagName b l), rest,
        (nodes env.autoescape env.gen ds st).2) := by
    rw [h1]; simp [view, pre, present, Except.map]
  exact view_ok h2

/-- The main function and the other functions of a result, for the examples. -/
private def mainOf (r : Except Err Tmpl) : Option (List Ir) :=
  match r with
  | .ok t => (t.defs.find? fun d => d.decl == "__main__()".toList).map (·.body)
  | .error _ => none

private def demoTree : List Dir :=
  [.defD " f(x)".toList [.ifElse " x".toList [.text "a".toList 1] [.expr "x".toList 1]],
   .forD " i in y".toList
    [.switchD " i".toList [.caseD " 1".toList [.ifD " z".toList [.text "b".toList 2]],
      .caseD " 2".toList [], .elseD [.callD "n".toList " f(%caller)".toList [.text "c".toList 3]]]],
   .importD "lib".toList (some "l".toList), .blockD " top".toList [.py false ["q=1".toList]]]

private def demoToks : List TTok :=
  [.tag "def".toList " f(x)".toList 1, .tag "if".toList " x".toList 1, .text "a".toList 1, .tag "else".toList [] 1,
   .expr "x".toList 1, .tag "end".toList [] 1, .tag "end".toList " f".toList 1,
   .tag "for".toList " i in y".toList 1, .tag "switch".toList " i".toList 1, .tag "case".toList " 1".toList 1,
   .tag "if".toList " z".toList 1, .text "b".toList 2, .tag "end".toList [] 2, .tag "case".toList " 2".toList 2,
   .tag "else".toList [] 2, .tag "call".toList " (n) f(%caller)".toList 2, .text "c".toList 3,
   .tag "end".toList [] 3, .tag "end".toList [] 3, .tag "end".toList [] 3, .tag "end".toList [] 3,
   .tag "import".toList " 'lib' as l".toList 3, .tag "block".toList " top".toList 3,
   .tag "py".toList " q=1".toList 3, .tag "end".toList [] 3]

example : Written true .free demoTree demoToks := by
  refine .defD (.ifElse (by simp) (tb := [_]) (.text rfl .nil) (te := [_]) (.expr .nil) .nil) (tb := [_, _, _, _, _]) ?_
  refine .forD (tb := [_, _, _, _, _, _, _, _, _, _, _, _]) (.switchD (tb := [_, _, _, _, _, _, _, _, _, _]) ?_ .nil) ?_
  · refine .caseD (tb := [_, _, _]) (.ifD (tb := [_]) (.text rfl .nil) .nil) ?_ (.inr (.inl rfl))
    refine .caseD (tb := []) .nil ?_ (.inr (.inr (.inl rfl)))
    exact .elseD (tb := [_, _, _]) (.callD (pre := " ".toList) (args := "n".toList) (callee := " f(%caller)".toList)
      (tb := [_]) (by decide +kernel) (by decide +kernel) (.text rfl .nil) .nil)
  · refine .importAs (by decide +kernel) ?_
    exact .blockD (tb := [_]) (by decide +kernel) (.pyLine (by decide +kernel) (by decide +kernel) .nil) .nil

/-- `%if a  %if b  x  %else  y  %end  %end` -/
private def nestedIf : List TTok :=
  [.tag "if".toList "a".toList 1, .tag "if".toList "b".toList 2, .text "x".toList 3, .tag "else".toList [] 3,
   .text "y".toList 4, .tag "end".toList [] 4, .tag "end".toList [] 5]

/-- **C39 fails** for a `%if … %else` in a `%if`: the `%else` also ends the outer `%if`, and its own `%end` is
then taken for the end of that `%else`.  The last `%end` is an `AttributeError`. -/
theorem C39_nested_else (autoescape : Bool) (gen : Nat → Str) :
    Written false .free [.ifD "a".toList [.ifElse "b".toList [.text "x".toList 3] [.text "y".toList 4]]] nestedIf ∧
      parseText autoescape gen (nestedIf, none) = .error .attr := by
  constructor
  · exact .ifD (tb := [_, _, _, _, _])
      (.ifElse (by simp) (tb := [_]) (.text rfl .nil) (te := [_]) (.text rfl .nil) .nil) .nil
  · rfl

/-- The same in a `%for`: the `%else` is read as belonging to the outer `%if`, without any error, and the text
after the outer `%end` is still part of the loop. -/
theorem C39_nested_else_in_for (autoescape : Bool) (gen : Nat → Str) :
    Written false .free
      [.forD "i in s".toList [.ifD "a".toList [.ifElse "b".toList [.text "x".toList 3] [.text "y".toList 4]]]]
      (.tag "for".toList "i in s".toList 1 :: (nestedIf ++ [.tag "end".toList [] 6])) ∧
    parseText autoescape gen (.tag "for".toList "i in s".toList 1 :: nestedIf, none) =
      .ok (template autoescape gen [.forD "i in s".toList
        [.ifElse "a".toList [.ifD "b".toList [.text "x".toList 3]] [.text "y".toList 4]]]) := by
  constructor
  · exact .forD (tb := nestedIf) (C39_nested_else autoescape gen).1 .nil
  · rfl

/-- `%switch v  %case 1  a  %else  b  %end  c` -/
private def switchElse : List TTok :=
  [.tag "switch".toList "v".toList 1, .tag "case".toList "1".toList 1, .text "a".toList 1, .tag "else".toList [] 1,
   .text "b".toList 1, .tag "end".toList [] 1, .text "c".toList 1]

/-- **C39 fails** for a `%switch` with an `%else`: the `%end` ends the `%else` only, and what follows the switch
becomes part of it. -/
theorem C39_switch_else (autoescape : Bool) (gen : Nat → Str) :
    Written false .free
      [.switchD "v".toList [.caseD "1".toList [.text "a".toList 1], .elseD [.text "b".toList 1]], .text "c".toList 1]
      switchElse ∧
    parseText autoescape gen (switchElse, none) =
      .ok (template autoescape gen
        [.switchD "v".toList [.caseD "1".toList [.text "a".toList 1], .elseD [.text "b".toList 1],
          .text "c".toList 1]]) := by
  constructor
  · exact .switchD (tb := [_, _, _, _])
      (.caseD (tb := [_]) (.text rfl .nil) (.elseD (tb := [_]) (l' := 0) (b' := []) (.text rfl .nil)) (.inr (.inr (.inl rfl))))
      (.text rfl .nil)
  · rfl

/-- The two templates of `C39_switch_else` differ. -/
example (autoescape : Bool) (gen : Nat → Str) :
    (mainOf (.ok (template autoescape gen
        [.switchD "v".toList [.caseD "1".toList [.text "a".toList 1], .elseD [.text "b".toList 1]],
          .text "c".toList 1]))).map List.length = some 2 ∧
      (mainOf (parseText autoescape gen (switchElse, none))).map List.length = some 1 := by
  constructor <;> rfl

/-- Missing `%end` tags at the end of the source are accepted for `%for`. -/
example (autoescape : Bool) (gen : Nat → Str) :
    parseText autoescape gen ([.tag "for".toList "i in s".toList 1, .text "x".toList 1], none) =
      .ok (template autoescape gen [.forD "i in s".toList [.text "x".toList 1]]) := rfl

end Kajiki.Props
