import Verif.Spec.Lines
import Verif.Model.Ir
import Verif.Model.Lnotab

/-!
# Vocabulary for the lines that exceptions are reported on

Used to state C93.
-/

namespace Kajiki.Spec.LinesGen
open Kajiki.Lnotab (tplLine pyLinenos)

mutual
/-- The last line of a node. -/
def lastLine : DNode → Nat
  | .elem _ _ l kids => lastLines l kids
  | .text d _ l => l + countNL d
  | .cdata d l => l + countNL d
  | .comment _ l => l
  | .pi _ _ l => l

/-- The last line of several nodes after the line `lo`. -/
def lastLines (lo : Nat) : List DNode → Nat
  | [] => lo
  | x :: xs => lastLines (lastLine x) xs
end

mutual
/-- Nothing in the node is on a line before what comes before it in the document, up to line `lo`. -/
def InOrder (lo : Nat) : DNode → Prop
  | .elem _ _ l kids => lo ≤ l ∧ InOrders l kids
  | .text _ _ l => lo ≤ l
  | .cdata _ l => lo ≤ l
  | .comment _ l => lo ≤ l
  | .pi _ _ l => lo ≤ l

/-- The same for several nodes. -/
def InOrders (lo : Nat) : List DNode → Prop
  | [] => True
  | x :: xs => InOrder lo x ∧ InOrders (lastLine x) xs
end

/-- The number of `PyLine`s (`kajiki/ir.py` 447-468) of a generated line: decorated functions (146-148) and Python blocks
(416-418) have several. -/
def parts : PLine → Nat
  | .defLine _ _ => 2
  | .pyChunk ls => ls.length
  | _ => 1

/-- The line breaks in it: those of the expressions it was made of.  (Literals have none, Python writes `\n`.) -/
def breaks : PLine → Nat
  | .guardLit g _ => countNL g
  | .yieldCode c | .yieldEscape c | .pushSwitch c | .attrsFor c _ | .forLine c | .ifLine c | .elifCase c => countNL c
  | .assign k v => countNL k + countNL v
  | .popWith ns => (ns.map countNL).sum
  | .defLine _ d => countNL d
  | _ => 0

/-- What `from_ir` records for the `PyLine`s (`l._lineno`, `kajiki/template.py` 313-320). -/
def recorded (ls : List Line) : List (Option Nat) := ls.flatMap fun l => List.replicate (parts l.code) (some l.ln)

/-- The number of lines of Python source (`py_text`, `kajiki/template.py` 314). -/
def height (ls : List Line) : Nat := (ls.map fun l => parts l.code + breaks l.code).sum

/-- The line of the template reported for line `n` (from 0) of the Python source. -/
def reported (ls : List Line) (n : Nat) : Option Nat := tplLine (pyLinenos 0 (recorded ls)) (n + 1)

/-- A function of the template begins. -/
def isFunction (l : Line) : Bool := match l.code with
  | .defLine true _ => true
  | _ => false

/-- The line shows literal text. -/
def isLiteral (l : Line) : Bool := match l.code with
  | .yieldLit _ => true
  | .guardLit _ _ => true
  | _ => false

end Kajiki.Spec.LinesGen
