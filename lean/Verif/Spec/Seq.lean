/-! # Specification: sequence editing

What each list call means on a mathematical sequence, with the value the call returns.
-/

namespace Comps.Spec
variable {α : Type}

/-- Calls on a plain list (`COMPS_HSList`). -/
inductive HSOp (α : Type) where
  | append (x : α)
  | prepend (x : α)
  /-- insert after the item at position `i` -/
  | insertAfter (i : Nat) (x : α)
  | insertAt (pos : Nat) (x : α)
  | shift
  | pop
  /-- remove the item at position `i` -/
  | remove (i : Nat)

/-- The sequence after the call and the element returned. -/
def HSOp.spec (xs : List α) : HSOp α → List α × Option α
  | .append x => (xs ++ [x], none)
  | .prepend x => (x :: xs, none)
  | .insertAfter i x =>
    if i < xs.length then (xs.take (i + 1) ++ x :: xs.drop (i + 1), none) else (xs, none)
  | .insertAt pos x =>
    if pos ≤ xs.length then (xs.take pos ++ x :: xs.drop pos, none) else (xs, none)
  | .shift => (xs.tail, xs.head?)
  | .pop => (xs.dropLast, xs.getLast?)
  | .remove i => (xs.eraseIdx i, none)

/-- Edits of an object list (`COMPS_ObjList`). -/
inductive Edit (α : Type) where
  | append (x : α)
  | insertAt (pos : Nat) (x : α)
  /-- insert after the iterator at position `i` -/
  | insertAfter (i : Nat) (x : α)
  | removeAt (pos : Nat)
  /-- remove the first element that is the same object -/
  | remove (x : α)
  | set (pos : Nat) (x : α)
  | clear

/-- The sequence after the edit and the value returned. -/
def Edit.spec [BEq α] (xs : List α) : Edit α → List α × Int
  | .append x => (xs ++ [x], 1)
  | .insertAt pos x =>
    if pos ≤ xs.length then (xs.take pos ++ x :: xs.drop pos, 1) else (xs, -1)
  | .insertAfter i x =>
    if i < xs.length then (xs.take (i + 1) ++ x :: xs.drop (i + 1), 1) else (xs, -1)
  | .removeAt pos => if pos < xs.length then (xs.eraseIdx pos, 1) else (xs, 0)
  | .remove x => if xs.contains x then (xs.erase x, 1) else (xs, 0)
  | .set pos x => if pos < xs.length then (xs.set pos x, 0) else (xs, -1)
  | .clear => ([], 0)

/-- Calls on any number of list variables. -/
inductive ListOp (α : Type) where
  | edit (i : Nat) (e : Edit α)
  /-- variable `j` becomes a copy of list `i` (elements copied by `f`) -/
  | copy (j i : Nat) (f : α → α)
  /-- variable `k` becomes the concatenation of lists `i` and `j` -/
  | concat (k i j : Nat)
  /-- the elements of list `j` are appended to list `i` -/
  | concatIn (i j : Nat)
  /-- variable `j` becomes the elements of list `i` satisfying `p` -/
  | filter (j i : Nat) (p : α → Bool)

/-- Function update. -/
def put {β : Type} (f : Nat → β) (i : Nat) (b : β) : Nat → β := fun j => if j = i then b else f j

/-- The sequences after the call and the value returned (0 if the call returns none). -/
def ListOp.spec [BEq α] (s : Nat → List α) : ListOp α → (Nat → List α) × Int
  | .edit i e => (put s i (e.spec (s i)).1, (e.spec (s i)).2)
  | .copy j i f => (put s j ((s i).map f), 0)
  | .concat k i j => (put s k (s i ++ s j), 0)
  | .concatIn i j => (put s i (s i ++ s j), 0)
  | .filter j i p => (put s j ((s i).filter p), 0)

end Comps.Spec
