import Verif.Spec.Text
import Verif.Spec.XmlText

/-!
# How the tokens of a text template are written

Used to state C37 (completeness) and C64.  `Reads` says how a source is cut into tokens, without mentioning the
scanner: at each position, what is written there and what it is.
-/

namespace Kajiki.Spec.TextSource
open Kajiki.Spec.Text
open Kajiki.Spec.XmlText (nameStart nameChar ErrorAtBrace)

/-- A line starts after `a`, if one started before it exactly when `bol`. -/
def lineStart (bol : Bool) (a : Str) : Bool :=
  match a.getLast? with
  | none => bol
  | some c => c == '\n'

/-- White space only. -/
def Spaces (ws : Str) : Prop := ∀ x ∈ ws, isSpace x = true

/-- Something starts here: `$`, `{%`, or at the start of a line white space and `%` or `{%-` with a letter. -/
def Starts (bol : Bool) (s : Str) : Prop :=
  (∃ r, s = '$' :: r) ∨ (∃ r, s = '{' :: '%' :: r) ∨
    (bol = true ∧ ∃ ws r, Spaces ws ∧
      (s = ws ++ '%' :: r ∨ ∃ c, letter c = true ∧ s = ws ++ '{' :: '%' :: '-' :: c :: r))

/-- Nothing starts inside `t`, if `rest` follows. -/
def Quiet (bol : Bool) (t rest : Str) : Prop :=
  ∀ a b, t = a ++ b → b ≠ [] → ¬ Starts (lineStart bol a) (b ++ rest)

/-- `Reads py bol ln toks s`: the tokens of `s`, which begins at the start of a line if `bol`, and in line `ln` by
the scanner's count (it does not count newlines in white space before a directive). -/
inductive Reads (py : PyCompile) : Bool → Nat → List TTok → Str → Prop
  | nil {bol ln} : Reads py bol ln [] []
  /-- text, up to where something starts -/
  | text {bol ln t toks rest} : t ≠ [] → Quiet bol t rest → rest = [] ∨ Starts (lineStart bol t) rest →
      Reads py (lineStart bol t) (ln + countNL t) toks rest →
      Reads py bol ln (.text t (ln + countNL t) :: toks) (t ++ rest)
  /-- a percent sign at the start of a line that is not a directive, and the text after it -/
  | percent {ln ws t toks rest} : Spaces ws → (∀ x, (t ++ rest).head? = some x → letter x = false) →
      Quiet false t rest → rest = [] ∨ Starts (lineStart false t) rest →
      Reads py (lineStart false t) (ln + countNL (ws ++ '%' :: t)) toks rest →
      Reads py true ln (.text (ws ++ '%' :: t) (ln + countNL (ws ++ '%' :: t)) :: toks) (ws ++ '%' :: (t ++ rest))
  /-- `$$` -/
  | dollar {bol ln toks rest} : Reads py false ln toks rest →
      Reads py bol ln (.text ['$'] ln :: toks) ('$' :: '$' :: rest)
  /-- `$name`, as long as possible -/
  | name {bol ln c cs toks rest} : nameStart c = true → (∀ x ∈ cs, nameChar x = true) →
      (∀ x, rest.head? = some x → nameChar x = false) → Reads py false ln toks rest →
      Reads py bol ln (.expr (c :: cs) ln :: toks) ('$' :: c :: (cs ++ rest))
  /-- `${…}`, with Python's error at the closing brace -/
  | braced {bol ln e toks rest} : ErrorAtBrace py e rest → Quiet false e ('}' :: rest) →
      Reads py false (ln + countNL e) toks rest →
      Reads py bol ln (.expr e (ln + countNL e) :: toks) ('$' :: '{' :: (e ++ '}' :: rest))
  /-- a line `%name body` -/
  | line {ln ws name body toks rest} : Spaces ws → Named name body → '\n' ∉ body → Quiet false body ('\n' :: rest) →
      Reads py true (ln + 1) toks rest →
      Reads py true ln (.tag name body (ln + 1) :: toks) (ws ++ '%' :: (name ++ (body ++ '\n' :: rest)))
  /-- the last line, without a newline: there is an empty text after it -/
  | lastLine {ln ws name body} : Spaces ws → Named name body → '\n' ∉ body → Quiet false body [] →
      Reads py true ln [.tag name body (ln + 1), .text [] (ln + 1)] (ws ++ '%' :: (name ++ body))
  /-- `{%name body%}` -/
  | tag {bol ln name body toks rest} : Named name (body ++ ['%']) → ¬ "%}".toList <:+: body →
      body.getLast? ≠ some '-' → Quiet false (body ++ ['%']) ('}' :: rest) →
      Reads py false (ln + countNL body) toks rest →
      Reads py bol ln (.tag name body ln :: toks) ('{' :: '%' :: (name ++ (body ++ '%' :: '}' :: rest)))
  /-- `{%name body-%}` and the blanks after it -/
  | tagR {bol ln name body bl toks rest} : Named name (body ++ ['-']) → ¬ "%}".toList <:+: body →
      Blank bl → rest ≠ [] → (∀ x, rest.head? = some x → x ≠ ' ' ∧ x ≠ '\t') →
      Quiet false (body ++ ['-', '%']) ('}' :: (bl ++ rest)) →
      Reads py false (ln + countNL body) toks rest →
      Reads py bol ln (.tag name body ln :: toks)
        ('{' :: '%' :: (name ++ (body ++ '-' :: '%' :: '}' :: (bl ++ rest))))
  /-- white space and `{%-name body%}` at the start of a line -/
  | tagL {ln ws name body toks rest} : Spaces ws → Named name (body ++ ['%']) → ¬ "%}".toList <:+: body →
      body.getLast? ≠ some '-' → Quiet false (body ++ ['%']) ('}' :: rest) →
      Reads py false (ln + countNL body) toks rest →
      Reads py true ln (.tag name body ln :: toks)
        (ws ++ '{' :: '%' :: '-' :: (name ++ (body ++ '%' :: '}' :: rest)))
  /-- both -/
  | tagLR {ln ws name body bl toks rest} : Spaces ws → Named name (body ++ ['-']) → ¬ "%}".toList <:+: body →
      Blank bl → rest ≠ [] → (∀ x, rest.head? = some x → x ≠ ' ' ∧ x ≠ '\t') →
      Quiet false (body ++ ['-', '%']) ('}' :: (bl ++ rest)) →
      Reads py false (ln + countNL body) toks rest →
      Reads py true ln (.tag name body ln :: toks)
        (ws ++ '{' :: '%' :: '-' :: (name ++ (body ++ '-' :: '%' :: '}' :: (bl ++ rest))))

end Kajiki.Spec.TextSource
