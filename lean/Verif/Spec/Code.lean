import Verif.Model.PyCode

/-!
# The block structure a tree stands for

Specification for C10 and C11.  `code` says which nested statements a list of nodes means, `placed`
says when the tree is acceptable.  Neither mentions lines, indentation or token streams.
-/

namespace Kajiki

/-! ## Merging sibling texts of a tree -/

/-- Put a node before a list of siblings, merging it with a following text of the same guard. -/
def consMerge : Ir → List Ir → List Ir
  | .text a g l, .text b g' l' :: xs =>
    if g = g' then .text (a ++ b) g l :: xs else .text a g l :: .text b g' l' :: xs
  | x, xs => x :: xs

mutual
/-- Merge neighbouring texts in the bodies below a node. -/
def merged : Ir → Ir
  | .attr n m g v ln => .attr n m g (mergedList v) ln
  | .innerDef d b ln => .innerDef d (mergedList b) ln
  | .call d c b ln => .call d c (mergedList b) ln
  | .forN d b ln => .forN d (mergedList b) ln
  | .withN vs b ln => .withN vs (mergedList b) ln
  | .switchN e b ln => .switchN e (mergedList b) ln
  | .caseN e b ln => .caseN e (mergedList b) ln
  | .ifN e b ln => .ifN e (mergedList b) ln
  | .elseN b ln => .elseN (mergedList b) ln
  | x => x

/-- Merge neighbouring texts everywhere. -/
def mergedList : List Ir → List Ir
  | [] => []
  | x :: xs => consMerge (merged x) (mergedList xs)
end


namespace Spec.Code

/-! ## Which statements -/

mutual
/-- The statements of one node; `els` is what follows it as `elif`/`else`.  A `case` or `else` gives
no statement of its own: it belongs to the statement before it. -/
def codeOne (els : List Stmt) : Ir → List Stmt
  | .text t g _ =>
    match activeGuard g with
    | some g => [.ifS (.code g) [.yieldLit t] els]
    | none => [.yieldLit t]
  | .trans t _ => if (strip t).isEmpty then [.yieldLit t] else [.yieldGettext t]
  | .expr c safe _ => [if safe then .yieldCode c else .yieldEscape c]
  | .attr n m g v _ =>
    let value := if v.isEmpty then [.yieldLit []] else code v
    match activeGuard g with
    | some g => [.ifS (.code g) [.collect value, .attrS n m []] els]
    | none => [.collect value, .attrS n m els]
  | .attrs c m g _ =>
    match activeGuard g with
    | some g => [.ifS (.code g) [.attrsS c m []] els]
    | none => [.attrsS c m els]
  | .python ls _ => if ls.isEmpty then [] else [.py ls]
  | .imp n a _ => [.importS n a]
  | .incl n _ => [.includeS n]
  | .ext n _ => [.extendS n]
  | .innerDef d b _ => [.fdef d (if b.isEmpty then [.yieldLit []] else code b)]
  | .call d c b _ => [.fdef d (code b), .yieldCode c]
  | .forN d b _ => [.forS d (code b) els]
  | .withN vs b _ =>
    .pushWith (vs.map (·.1)) :: (vs.map fun kv => .assign kv.1 kv.2) ++
      (code b ++ [.popWith (vs.map (·.1))])
  | .switchN e b _ =>
    .pushSwitch e :: .ifS .never [] (elsePart b) :: (code b ++ [.popSwitch])
  | .caseN _ _ _ => []
  | .ifN e b _ => [.ifS (.code e) (code b) els]
  | .elseN _ _ => []
  | .pass _ => [.yieldLit []]

/-- The statements of a list of nodes. -/
def code : List Ir → List Stmt
  | [] => []
  | x :: xs => codeOne (elsePart xs) x ++ code xs

/-- The `else` part that a list of nodes starts with: the `case`s and the `else` directly at its
front. -/
def elsePart : List Ir → List Stmt
  | .caseN e b _ :: xs => [.ifS (.case e) (code b) (elsePart xs)]
  | .elseN b _ :: _ => code b
  | .python [] _ :: xs => elsePart xs
  | _ => []
end

/-! ## When it is acceptable -/

/-- What may directly follow a node: nothing special, an `else`, or a `case` or `else`. -/
inductive Follow
  | nothing
  | els
  | elifOrElse
deriving DecidableEq

/-- The node writes at least one line (only a Python block without lines does not). -/
def writesLines : Ir → Bool
  | .python [] _ => false
  | _ => true

/-- What may follow a node, if `k` was allowed at the node itself. -/
def after (k : Follow) : Ir → Follow
  | .text _ g _ => if (activeGuard g).isSome then .elifOrElse else .nothing
  | .attr _ _ g _ _ => if (activeGuard g).isSome then .elifOrElse else .els
  | .attrs _ _ g _ => if (activeGuard g).isSome then .elifOrElse else .els
  | .python [] _ => k
  | .forN .. => .els
  | .ifN .. => .elifOrElse
  | .caseN .. => .elifOrElse
  | _ => .nothing

mutual
/-- The node is acceptable where `k` is allowed. -/
def placedOne (k : Follow) : Ir → Bool
  | .attr _ _ _ v _ => v.isEmpty || (v.any writesLines && placed .nothing v)
  | .innerDef _ b _ => b.isEmpty || (b.any writesLines && placed .nothing b)
  | .call _ _ b _ => b.any writesLines && placed .nothing b
  | .forN _ b _ => b.any writesLines && placed .nothing b
  | .withN _ b _ => placed .nothing b
  | .switchN _ b _ => placed .elifOrElse b
  | .caseN _ b _ => k = .elifOrElse && (b.any writesLines && placed .nothing b)
  | .ifN _ b _ => b.any writesLines && placed .nothing b
  | .elseN b _ => k ≠ .nothing && (b.any writesLines && placed .nothing b)
  | _ => true

/-- The list of nodes is acceptable where `k` is allowed. -/
def placed (k : Follow) : List Ir → Bool
  | [] => true
  | x :: xs => placedOne k x && placed (after k x) xs
end

/-! ## Templates -/

/-- Merging texts in every function.  (Two functions are never adjacent texts.) -/
def mergedTmpl (t : Tmpl) : Tmpl :=
  { t with defs := t.defs.map fun d => { d with body := mergedList d.body } }

/-- The body of a function; an empty one yields the empty string. -/
def bodyCode (b : List Ir) : List Stmt := if b.isEmpty then [.yieldLit []] else code b

/-- The module a template stands for. -/
def codeTmpl (t : Tmpl) : Module :=
  ⟨(t.modPy.map (·.1)).filter (!·.isEmpty), t.defs.map fun d => (d.decl, bodyCode d.body)⟩

/-- The template is acceptable: it has a function, and every body is acceptable. -/
def placedTmpl (t : Tmpl) : Bool :=
  !t.defs.isEmpty &&
    t.defs.all fun d => d.body.isEmpty || (d.body.any writesLines && placed .nothing d.body)

end Spec.Code

end Kajiki
