import Verif.Model.Text
import Verif.Spec.XmlText

/-!
# Vocabulary for text templates

Used to state C37-C39.
-/

namespace Kajiki.Spec.Text
open Kajiki.Spec.XmlText (nameStart nameChar)

/-- A letter of a tag name (see `nameStart` for the last four). -/
def letter (c : Char) : Bool :=
  "abcdefghijklmnopqrstuvwxyzABCDEFGHIJKLMNOPQRSTUVWXYZ\u0130\u0131\u017f\u212a".toList.contains c

/-- A line that starts a directive: `%` and a letter after white space (which may span lines). -/
def DirectiveLine (s : Str) : Prop :=
  ∃ ws c rest, s = ws ++ '%' :: c :: rest ∧ (∀ x ∈ ws, isSpace x = true) ∧ letter c = true

/-- Text without expressions, escapes, `{%` or lines that start a directive. -/
structure Plain (t : Str) : Prop where
  noDollar : '$' ∉ t
  noBrace : ¬ "{%".toList <:+: t
  noLine : ∀ a b, t = a ++ '\n' :: b → ¬ DirectiveLine b

/-- A tag name and the text after it: the name is as long as possible. -/
structure Named (name body : Str) : Prop where
  nonempty : name ≠ []
  letters : ∀ x ∈ name, letter x = true
  longest : ∀ x, body.head? = some x → letter x = false

/-- Spaces and tabs. -/
def Blank (s : Str) : Prop := ∀ x ∈ s, x = ' ' ∨ x = '\t'

/-- `Spells tok piece rest`: how a token is written in the source, `rest` being what follows. -/
inductive Spells : TTok → Str → Str → Prop
  /-- plain text stands for itself -/
  | text {t ln rest} : Plain t → Spells (.text t ln) t rest
  /-- `$$` -/
  | dollar {ln rest} : Spells (.text ['$'] ln) ['$', '$'] rest
  /-- `$name`, as long as possible -/
  | name {c cs ln rest} : nameStart c = true → (∀ x ∈ cs, nameChar x = true) →
      (∀ x, rest.head? = some x → nameChar x = false) → Spells (.expr (c :: cs) ln) ('$' :: c :: cs) rest
  /-- `${…}` -/
  | braced {t ln rest} : Spells (.expr t ln) ('$' :: '{' :: t ++ ['}']) rest
  /-- `${…` without a closing brace, up to the end of the source, or nothing at all -/
  | unclosed {t ln rest} : t = [] ∨ rest = [] → Spells (.expr t ln) ('$' :: '{' :: t) rest
  /-- `${` that is never closed -/
  | never {rest} : Spells .none ['$', '{'] rest
  /-- a line `%name body` -/
  | line {ws name body ln rest} : (∀ x ∈ ws, isSpace x = true) → Named name body → '\n' ∉ body →
      Spells (.tag name body ln) (ws ++ '%' :: name ++ body ++ ['\n']) rest
  /-- the last line, without a newline -/
  | lastLine {ws name body ln} : (∀ x ∈ ws, isSpace x = true) → Named name body → '\n' ∉ body →
      Spells (.tag name body ln) (ws ++ '%' :: name ++ body) []
  /-- `{%name body%}` -/
  | tag {name body ln rest} : Named name (body ++ ['%']) → ¬ "%}".toList <:+: body →
      body.getLast? ≠ some '-' → Spells (.tag name body ln) ('{' :: '%' :: name ++ body ++ ['%', '}']) rest
  /-- `{%name body-%}` and the blanks after it -/
  | tagR {name body bl ln rest} : Named name (body ++ ['-']) → ¬ "%}".toList <:+: body → Blank bl →
      (∀ x, rest.head? = some x → x ≠ ' ' ∧ x ≠ '\t') →
      Spells (.tag name body ln) ('{' :: '%' :: name ++ body ++ ['-', '%', '}'] ++ bl) rest
  /-- white space and `{%-name body%}` at the start of a line -/
  | tagL {ws name body ln rest} : (∀ x ∈ ws, isSpace x = true) → Named name (body ++ ['%']) →
      ¬ "%}".toList <:+: body → body.getLast? ≠ some '-' →
      Spells (.tag name body ln) (ws ++ '{' :: '%' :: '-' :: name ++ body ++ ['%', '}']) rest
  /-- both -/
  | tagLR {ws name body bl ln rest} : (∀ x ∈ ws, isSpace x = true) → Named name (body ++ ['-']) →
      ¬ "%}".toList <:+: body → Blank bl → (∀ x, rest.head? = some x → x ≠ ' ' ∧ x ≠ '\t') →
      Spells (.tag name body ln) (ws ++ '{' :: '%' :: '-' :: name ++ body ++ ['-', '%', '}'] ++ bl) rest

/-- The source is the tokens written one after the other. -/
inductive Covers : List TTok → Str → Prop
  | nil : Covers [] []
  | cons {tok toks piece rest} : Spells tok piece rest → Covers toks rest → Covers (tok :: toks) (piece ++ rest)

/-- Wherever `${` is followed by something that is not an expression, Python's error is at a closing brace,
at the end of the source or directly after the opening brace. -/
def ErrorsAtBraces (py : PyCompile) (src : Str) : Prop :=
  ∀ before rest lineno offset, src = before ++ '$' :: '{' :: rest → py rest = some (lineno, offset) →
    let stop := offset + (((splitlines rest).take (lineno - 1)).map (·.length + 1)).sum
    stop = 0 ∨ rest.length < stop ∨ rest[stop - 1]? = some '}'

/-- The text written for a text: `$` and `\` doubled. -/
def doubled (t : Str) : Str := t.flatMap fun c => if c = '$' ∨ c = '\\' then [c, c] else [c]

/-- The text written for a text: `$` and `\` doubled, `%` protected. -/
def quoted (t : Str) : Str :=
  t.flatMap fun c => if c = '$' ∨ c = '\\' then [c, c] else if c = '%' then ['\\', '%'] else [c]

/-- What text with escapes stands for. -/
inductive Escaped : Str → Str → Prop
  | nil : Escaped [] []
  /-- other characters stand for themselves -/
  | plain {c s t} : c ≠ '$' → c ≠ '\\' → Escaped s t → Escaped (c :: s) (c :: t)
  /-- a backslash protects the next character -/
  | protect {c s t} : c ≠ '$' → c ≠ '\n' → Escaped s t → Escaped ('\\' :: c :: s) (c :: t)
  /-- a backslash joins lines -/
  | join {s t} : Escaped s t → Escaped ('\\' :: '\n' :: s) t
  /-- `$$` is a dollar sign -/
  | dollar {s t} : Escaped s t → Escaped ('$' :: '$' :: s) ('$' :: t)

/-- No directives: no `{%` and no line that starts a directive. -/
def NoDirective (s : Str) : Prop :=
  ¬ "{%".toList <:+: s ∧ ¬ DirectiveLine s ∧ ∀ a b, s = a ++ '\n' :: b → ¬ DirectiveLine b

end Kajiki.Spec.Text
