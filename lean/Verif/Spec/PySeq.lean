import Verif.Model.PySeq

/-! # Specification: Python lists

What indexing, slicing and editing mean for a Python list, written on mathematical sequences.  Only
the types `Slice`, `Exc`, `Ans` are taken from the model.
-/

namespace Comps.Spec.Py
open Comps.PySeq (Slice Exc Ans)
variable {α ι : Type}

/-- The position meant by an index of a list of `n` elements: counted from the end if negative. -/
def place (n : Nat) (i : Int) : Option Nat :=
  if 0 ≤ i ∧ i < n then some i.toNat
  else if -n ≤ i ∧ i < 0 then some (n + i).toNat
  else none

/-- `xs[i]`. -/
def getItem (xs : List α) (i : Int) : Ans α :=
  match (place xs.length i).bind (xs[·]?) with
  | some a => .ok a
  | none => .error .indexError

/-- `del xs[i]`: the list afterwards and the answer. -/
def delItem (xs : List α) (i : Int) : List α × Ans Unit :=
  match place xs.length i with
  | some p => (xs.eraseIdx p, .ok ())
  | none => (xs, .error .indexError)

/-- `xs[i] = x` for a list that holds no id twice: the id may be that of the element replaced, but of
no other element. -/
def setItem [DecidableEq ι] (id : α → ι) (xs : List α) (i : Int) (x : α) : List α × Ans Unit :=
  match place xs.length i with
  | none => (xs, .error .indexError)
  | some p =>
    if id x ∈ (xs.eraseIdx p).map id then (xs, .error .keyError) else (xs.set p x, .ok ())

/-- `xs.append(x)` for a list that holds no id twice and accepts only `good` elements. -/
def append [DecidableEq ι] (id : α → ι) (good : α → Bool) (xs : List α) (x : α) :
    List α × Ans Unit :=
  if id x ∈ xs.map id then (xs, .error .keyError)
  else if good x then (xs ++ [x], .ok ())
  else (xs, .error .valueError)

/-- `xs.append(x)` for a list that accepts only `good` elements. -/
def appendAny (good : α → Bool) (xs : List α) (x : α) : List α × Ans Unit :=
  if good x then (xs ++ [x], .ok ()) else (xs, .error .valueError)

/-- `xs.insert(i, x)`: before the element at place `i`; at the ends if `i` is out of range. -/
def insert (good : α → Bool) (xs : List α) (i : Int) (x : α) : List α × Ans Unit :=
  let p := if i < 0 then (xs.length + i).toNat else min i.toNat xs.length
  if good x then (xs.take p ++ x :: xs.drop p, .ok ()) else (xs, .error .valueError)

/-- `xs.remove(x)`. -/
def remove [BEq α] (xs : List α) (x : α) : List α × Ans Unit :=
  if xs.contains x then (xs.erase x, .ok ()) else (xs, .error .valueError)

/-- A bound of a slice with a positive step. -/
def bound (n : Nat) (dflt : Nat) : Option Int → Nat
  | none => dflt
  | some v => if v < 0 then (n + v).toNat else min v.toNat n

/-- The first element, then every `c`-th. -/
def everyNth (c : Nat) : List α → List α
  | [] => []
  | x :: xs => x :: everyNth c (xs.drop (c - 1))
  termination_by xs => xs.length
  decreasing_by simp only [List.length_drop, List.length_cons]; omega

/-- Number of elements left of a bound of a slice with a negative step. -/
def boundDown (n : Nat) (dflt : Nat) : Option Int → Nat
  | none => dflt
  | some v => if v < 0 then (n + v + 1).toNat else min (v + 1).toNat n

/-- `xs[s]`. -/
def slice (xs : List α) (s : Slice) : Ans (List α) :=
  let c := s.step.getD 1
  if c = 0 then .error .valueError
  else if 0 < c then
    .ok (everyNth c.toNat ((xs.take (bound xs.length xs.length s.stop)).drop
      (bound xs.length 0 s.start)))
  else
    .ok (everyNth (-c).toNat ((xs.take (boundDown xs.length xs.length s.start)).drop
      (boundDown xs.length 0 s.stop)).reverse)

/-- The positions `xs[s]` is taken from. -/
def positions (n : Nat) (s : Slice) : List Nat :=
  match slice (List.range n) s with
  | .ok ps => ps
  | .error _ => []

/-- `del xs[s]`: the elements at the positions of the slice are gone. -/
def delSlice (xs : List α) (s : Slice) : List α :=
  (xs.zipIdx.filter fun e => !(positions xs.length s).contains e.2).map Prod.fst

/-- `xs[a:b] = ys`: the elements of the slice are replaced by `ys`. -/
def setSlice (xs : List α) (start stop : Option Int) (ys : List α) : List α :=
  let a := bound xs.length 0 start
  let b := bound xs.length xs.length stop
  xs.take a ++ ys ++ xs.drop (max a b)

end Comps.Spec.Py
