import Verif.Model.XmlText

/-!
# Vocabulary for text with expressions

Used to state C28 and C29.
-/

namespace Kajiki.Spec.XmlText

/-- Characters that a `$name` can start with: letters and underscore.  (The pattern ignores case, and four other
characters are case variants of ASCII letters for Python.) -/
def nameStart (c : Char) : Bool :=
  "_abcdefghijklmnopqrstuvwxyzABCDEFGHIJKLMNOPQRSTUVWXYZ\u0130\u0131\u017f\u212a".toList.contains c

/-- Characters of a `$name`: also digits and dots. -/
def nameChar (c : Char) : Bool := nameStart c || "0123456789.".toList.contains c

/-- A documented special sequence: `$$`, `${` or `$name`. -/
def Marker (s : Str) : Prop :=
  ∃ c rest, s = '$' :: c :: rest ∧ (c = '$' ∨ c = '{' ∨ nameStart c = true)

/-- A part of the source of a text. -/
inductive Piece
  /-- literal text -/
  | text (t : Str)
  /-- `$$` -/
  | dollar
  /-- `$name` -/
  | name (n : Str)
  /-- `${expr}`, with whitespace after the brace -/
  | expr (ws e : Str)
deriving DecidableEq, Repr

/-- How a piece is written. -/
def Piece.source : Piece → Str
  | .text t => t
  | .dollar => ['$', '$']
  | .name n => '$' :: n
  | .expr ws e => '$' :: '{' :: ws ++ e ++ ['}']

/-- The whole source. -/
def source (ps : List Piece) : Str := (ps.map Piece.source).flatten

/-- What a piece stands for: text to show or an expression to evaluate. -/
def Piece.value : Piece → Sum Str Str
  | .text t => .inl t
  | .dollar => .inl ['$']
  | .name n => .inr n
  | .expr _ e => .inr e

/-- The node for a value: nonblank text is translatable outside attributes and scripts. -/
def node (m : TextMode) (ln : Nat) : Sum Str Str → Ir
  | .inl t => if m.translate = true ∧ strip t ≠ [] then .trans t ln else .text t none ln
  | .inr e => .expr e m.safe ln

/-- The nodes for a list of pieces; the line number counts newlines of the values. -/
def nodes (m : TextMode) (ln : Nat) : List Piece → List Ir
  | [] => []
  | p :: ps => node m ln p.value :: nodes m (ln + countNL (p.value.elim id id)) ps

/-- Literal text. -/
def Piece.isText : Piece → Bool
  | .text _ => true
  | _ => false

/-- The pieces are cut where documented: no special sequence starts inside literal text, neighbouring
literal text is one piece, names are as long as possible, braced texts are valid expressions. -/
def WellCut (py : PyCompile) : List Piece → Prop
  | [] => True
  | p :: ps => WellCut py ps ∧
    match p with
    | .text t => t ≠ [] ∧ (∀ a b, t = a ++ b → b ≠ [] → ¬ Marker (b ++ source ps)) ∧
        (∀ q, ps.head? = some q → q.isText = false)
    | .dollar => True
    | .name n => (∃ c cs, n = c :: cs ∧ nameStart c = true ∧ ∀ x ∈ cs, nameChar x = true) ∧
        (∀ x, (source ps).head? = some x → nameChar x = false)
    | .expr ws e => (∀ x ∈ ws, isSpace x = true) ∧ (∀ x, (e ++ ['}']).head? = some x → isSpace x = false) ∧
        py e = none

/-- No expression of the list contains a dollar sign. -/
def NoDollar (ps : List Piece) : Prop := ∀ ws e, Piece.expr ws e ∈ ps → '$' ∉ e

/-- Python finds the error in `e}…` at the closing brace: that is where the reported line and offset
point to. -/
def ErrorAtBrace (py : PyCompile) (e rest : Str) : Prop :=
  ∃ lineno offset, py (e ++ '}' :: rest) = some (lineno, offset) ∧
    offset + (((splitlines (e ++ '}' :: rest)).take (lineno - 1)).map (·.length + 1)).sum = e.length + 1

/-- Python does so for every expression of the list. -/
def ErrorsAtBraces (py : PyCompile) : List Piece → Prop
  | [] => True
  | .expr _ e :: ps => ErrorAtBrace py e (source ps) ∧ ErrorsAtBraces py ps
  | _ :: ps => ErrorsAtBraces py ps

/-- Every dollar sign doubled. -/
def doubled (t : Str) : Str := t.flatMap fun c => if c = '$' then ['$', '$'] else [c]

/-- The text of nodes that are all plain or translatable text. -/
def plainText : List Ir → Option Str
  | [] => some []
  | .text t none _ :: xs => (plainText xs).map (t ++ ·)
  | .trans t _ :: xs => (plainText xs).map (t ++ ·)
  | _ => none

end Kajiki.Spec.XmlText
