import Verif.Model.Interp
import Verif.Props.Escaping
import Verif.Spec.DocSem

/-!
# Where what is shown comes from

The texts, messages and expressions of compiled templates, and Python that makes no markup.  Used to
state C78.
-/

namespace Kajiki.Spec.Woven
open Kajiki.Run Kajiki.Spec.DocSem

/-! ## What is in a template -/

/-- What the code of a template consists of: texts and names of attributes, messages that are translated, expressions that
are shown or bound to a name, those that are shown as they are, those of `py:attrs`, headers of loops, Python blocks, and
declarations of functions. -/
inductive Item
  | text (t : Str)
  | message (t : Str)
  | expr (e : Str)
  | raw (e : Str)
  | mapping (e : Str)
  | loop (d : Str)
  | block (ls : List Str)
  | decl (d : Str)

mutual
/-- The parts of a statement.  In an attribute (`inAttr`) no expression is shown as it is, since its value is escaped. -/
def items (inAttr : Bool) : Stmt → List Item
  | .yieldLit t => [.text t]
  | .yieldGettext t => [.message t]
  | .yieldCode e => .expr e :: if inAttr then [] else [.raw e]
  | .yieldEscape e => [.expr e]
  | .assign _ e => [.expr e]
  | .py ls => [.block ls]
  | .attrS n _ els => .text n :: itemsAll inAttr els
  | .attrsS e _ els => .mapping e :: itemsAll inAttr els
  | .fdef d b => .decl d :: itemsAll false b
  | .collect b => itemsAll true b
  | .forS d b els => .loop d :: (itemsAll inAttr b ++ itemsAll inAttr els)
  | .ifS _ b els => itemsAll inAttr b ++ itemsAll inAttr els
  | _ => []

/-- The same of several statements. -/
def itemsAll (inAttr : Bool) : List Stmt → List Item
  | [] => []
  | x :: xs => items inAttr x ++ itemsAll inAttr xs
end

/-- The parts of all templates. -/
def parts (P : Prog (List Stmt)) : List Item :=
  P.classes.flatMap fun c => c.methods.flatMap fun m => .decl m.2.1 :: itemsAll false m.2.2

/-! ## Python -/

/-- No markup, also not inside: no `literal()` and no object with `__html__`.  Results of functions of templates are
allowed. -/
inductive Clean : Val → Prop
  | none : Clean .none
  | bool (b : Bool) : Clean (.bool b)
  | int (i : Int) : Clean (.int i)
  | str (s : Str) : Clean (.str s)
  | obj (t : Nat) (s : Str) (b : Bool) : Clean (.obj t s b)
  | unit : Clean .unit
  | pairs (s : Str) (l : List (Str × Val)) : (∀ kv ∈ l, Clean kv.2) → Clean (.pairs s l)
  | inst (i : Nat) : Clean (.inst i)
  | meth (k : Str) (i : Nat) : Clean (.meth k i)
  | fn (f : Nat) : Clean (.fn f)
  | flatCall (i f : Nat) (as : List Val) : (∀ a ∈ as, Clean a) → Clean (.flatCall i f as)

/-- No value of a dictionary is markup. -/
def CleanDict (d : Dict Val) : Prop := ∀ kv ∈ d, Clean kv.2

/-- Nothing an expression can see is markup. -/
def CleanView (v : View) : Prop :=
  (∀ d ∈ v.locals, CleanDict d) ∧ ∀ i ∈ v.insts, CleanDict i.context ∧ CleanDict i.globals ∧ CleanDict i.attrs

/-- The result of a function of a template, or nothing. -/
def calls : Val → Bool
  | .none => true
  | .flatCall _ _ _ => true
  | _ => false

/-- Attributes that can be written: names without markup, and values that are neither markup nor functions. -/
def Writable (v : Val) : Prop :=
  ∀ i l, v = .pairs i l → ∀ kv ∈ l, Inert kv.1 ∧ (kv.2 = .none ∨ ¬Exempt kv.2)

/-- The Python in the templates makes no markup from values that are none, and messages are translated with `tr`. -/
structure NoMarkup {W : Type} (O : Oracle W) (P : Prog (List Stmt)) (tr : Str → Str) : Prop where
  exprs : ∀ e, .expr e ∈ parts P → ∀ v w x, CleanView v → (O.eval e v w).1 = .ok x → Clean x
  loops : ∀ d, .loop d ∈ parts P → ∀ v w bs, CleanView v → (O.iter d v w).1 = .ok bs → ∀ b ∈ bs, CleanDict b
  blocks : ∀ ls, .block ls ∈ parts P → ∀ v w b, CleanView v → (O.py ls v w).1 = .ok b → CleanDict b
  args : ∀ d, .decl d ∈ parts P → ∀ as w b, (∀ a ∈ as, Clean a) → (O.args d as w).1 = .ok b → CleanDict b
  messages : ∀ m, .message m ∈ parts P → ∀ g w x, (O.gettext g m w).1 = .ok x → x = .str (tr m)
  names : ∀ c ∈ P.classes, CleanDict c.baseGlobals

/-- The expression gives only results of functions of templates. -/
def Calls {W : Type} (O : Oracle W) (e : Str) : Prop :=
  ∀ v w x, CleanView v → (O.eval e v w).1 = .ok x → calls x = true

/-- The expression gives only attributes that can be written. -/
def Attributes {W : Type} (O : Oracle W) (e : Str) : Prop :=
  ∀ v w x, CleanView v → (O.eval e v w).1 = .ok x → Writable x

/-! ## What is shown -/

/-- What templates show of themselves: their texts and translated messages, names of attributes, and the quotes around
values. -/
def Own (P : Prog (List Stmt)) (tr : Str → Str) (t : Str) : Prop :=
  .text t ∈ parts P ∨ (∃ m, .message m ∈ parts P ∧ t = tr m) ∨ t ∈ [" ".toList, "=\"".toList, "\"".toList]

/-- The text is put together from pieces that are the templates' own, and escaped ones. -/
def Woven (own : Str → Prop) (t : Str) : Prop := ∃ ps : List Str, t = ps.flatten ∧ ∀ p ∈ ps, own p ∨ Inert p

/-! ## Documents -/

mutual
/-- The functions of `py:call` in a document. -/
def called : DNode → List Str
  | .elem t as _ ks =>
    (if "py:".toList.isPrefixOf t && "call".toList.isSuffixOf t then [attr as "function"] else []) ++ calledAll ks
  | _ => []

/-- The same of several nodes. -/
def calledAll : List DNode → List Str
  | [] => []
  | x :: xs => called x ++ calledAll xs
end

mutual
/-- The expressions of `py:attrs` in a document. -/
def mapped : DNode → List Str
  | .elem _ as _ ks => (if attr as "py:attrs" = [] then [] else [attr as "py:attrs"]) ++ mappedAll ks
  | _ => []

/-- The same of several nodes. -/
def mappedAll : List DNode → List Str
  | [] => []
  | x :: xs => mapped x ++ mappedAll xs
end

/-- The expression for the function of a `py:call`, with the name made up for its content in place of `%caller`. -/
def callCode (gen : Nat → Str) (k : Nat) (f : Str) : Str :=
  replace "$caller".toList (gen k) (replace "%caller".toList "$caller".toList f)

end Kajiki.Spec.Woven
