import Verif.Model.PyStr

/-!
# Python dictionaries with string keys

An association list in insertion order.  Facts about Python, part of the trusted base.
-/

namespace Kajiki

/-- A dictionary with string keys, in insertion order. -/
abbrev Dict (α : Type) := List (Str × α)

namespace Dict
variable {α : Type}

/-- `d.get(k)` -/
def get (d : Dict α) (k : Str) : Option α :=
  match d with
  | [] => none
  | (k', v) :: d => if k' = k then some v else get d k

/-- `d[k] = v`: replaces in place, or appends. -/
def set (d : Dict α) (k : Str) (v : α) : Dict α :=
  match d with
  | [] => [(k, v)]
  | (k', v') :: d => if k' = k then (k', v) :: d else (k', v') :: set d k v

/-- `del d[k]` (no error when absent; the code only deletes present keys). -/
def del (d : Dict α) (k : Str) : Dict α := d.filter fun e => e.1 != k

/-- `k in d` -/
def has (d : Dict α) (k : Str) : Bool := (d.get k).isSome

/-- `d.update(e)` -/
def update (d e : Dict α) : Dict α := e.foldl (fun d kv => d.set kv.1 kv.2) d

end Dict
end Kajiki
