import Verif.Model.Runtime

/-!
# Streams (`kajiki/util.py` 45-87, `kajiki/template.py` 96-106, 248-260)
-/

namespace Kajiki.Stream

/-- What a generator yields: a value that is not a flattener, or a flattener over further items.
The items of a flattener are what its (fresh, unshared) iterator will yield. -/
inductive Item
  | chunk (v : Val)
  | flat (items : List Item)

/-- `flattener.__iter__` (`kajiki/util.py` 75-83), the values yielded. -/
def flatIter : List Item → List Val
  | [] => []
  | .chunk .none :: xs => flatIter xs
  | .chunk v :: xs => v :: flatIter xs
  | .flat ys :: xs => (flatIter ys).filter (fun v => match v with | .none => false | _ => true) ++ flatIter xs

/-- Number of items, used for termination only. -/
def Item.count : Item → Nat
  | .chunk _ => 1
  | .flat ys => 1 + countList ys
where
  /-- Number of items in a list. -/
  countList : List Item → Nat
    | [] => 0
    | x :: xs => x.count + countList xs

/-- The loop of `flattener.accumulate_str` (`kajiki/util.py` 56-73): `s` is the string so far and the
list is `iter_stack`, top first.  `s += x` is a `TypeError` unless `x` is a `str`. -/
def accumulate (s : Str) : List (List Item) → Except Err Str
  | [] => .ok s
  | [] :: st => accumulate s st
  | (.flat ys :: xs) :: st => accumulate s (ys :: xs :: st)
  | (.chunk .none :: xs) :: st => accumulate s (xs :: st)
  | (.chunk (.str t) :: xs) :: st => accumulate (s ++ t) (xs :: st)
  | (.chunk _ :: _) :: _ => .error .type
termination_by st => (st.map (fun l => 2 * Item.count.countList l + 1)).sum
decreasing_by
  all_goals simp [Item.count, Item.count.countList]
  all_goals omega

/-- `flattener(iterator).accumulate_str()` -/
def accumulateStr (items : List Item) : Except Err Str := accumulate [] [items]

/-- `_Template.__iter__` and `render` (`kajiki/template.py` 96-106): `''.join` of the `str` of the
flattened chunks. -/
def render (main : List Item) : Str := ((flatIter main).map toStr).flatten

/-- The parts of `_Template._collect` (`kajiki/template.py` 248-260), over the generator `it` (which
is not a flattener, so its items are seen unflattened). -/
def collectParts : List Item → Except Err (List Str)
  | [] => .ok []
  | .chunk .none :: xs => collectParts xs
  | .chunk v :: xs => match collectParts xs with
    | .error e => .error e
    | .ok ps => .ok (toStr v :: ps)
  | .flat ys :: xs => match accumulateStr ys with
    | .error e => .error e
    | .ok s => match collectParts xs with
      | .error e => .error e
      | .ok ps => .ok (s :: ps)

/-- `_Template._collect` (`kajiki/template.py` 248-260). -/
def collect (it : List Item) : Except Err (Option Str) :=
  match collectParts it with
  | .error e => .error e
  | .ok ps => .ok (joinParts ps)

/-! ## Sharing

The iterator of a flattener can be read only once.  Here flatteners are references to iterators in a
heap, so that one flattener can occur several times. -/

/-- An item that may refer to the flattener number `i` of the heap. -/
inductive Ref
  | chunk (v : Val)
  | flat (i : Nat)
deriving Repr

/-- What remains to be read of each iterator. -/
abbrev Heap := List (List Ref)

/-- `next(iterator)`: the item and the heap after it, `none` for `StopIteration`. -/
def next (h : Heap) (i : Nat) : Option (Ref × Heap) :=
  match h[i]? with
  | some (x :: xs) => some (x, h.set i xs)
  | _ => none

/-- All that is left in the heap. -/
def left (h : Heap) : Nat := (h.map List.length).sum

theorem left_set (h : Heap) (i : Nat) (x : Ref) (xs : List Ref) (e : h[i]? = some (x :: xs)) :
    left (h.set i xs) + 1 = left h := by
  induction h generalizing i with
  | nil => simp at e
  | cons l h ih =>
    cases i with
    | zero => simp at e; subst e; simp [left]; omega
    | succ i =>
      simp at e
      have := ih i e
      simp [left] at this ⊢
      omega

theorem next_left {h h' : Heap} {i : Nat} {x : Ref} (e : next h i = some (x, h')) :
    left h' + 1 = left h := by
  unfold next at e
  split at e
  · rename_i x xs hx
    simp only [Option.some.injEq, Prod.mk.injEq] at e
    rw [← e.2]
    exact left_set h i _ xs hx
  · cases e

/-- Reading everything an iterator gives, flattening on the way (`kajiki/util.py` 56-83) with
sharing: the stack holds the iterators being read, top first. Returns the chunks and the heap. -/
def drain (h : Heap) (out : List Val) : List Nat → List Val × Heap
  | [] => (out, h)
  | i :: st =>
    match _hn : next h i with
    | none => drain h out st
    | some (.flat j, h') => drain h' out (j :: i :: st)
    | some (.chunk .none, h') => drain h' out (i :: st)
    | some (.chunk v, h') => drain h' (out ++ [v]) (i :: st)
termination_by st => 2 * left h + st.length
decreasing_by
  all_goals (try have := next_left _hn)
  all_goals simp
  all_goals omega

/-- `literal(text)` / `Markup(text)` (`kajiki/util.py` 86-87): a new iterator over one string. -/
def literal (h : Heap) (text : Str) : Nat × Heap := (h.length, h ++ [[.chunk (.str text)]])

end Kajiki.Stream
