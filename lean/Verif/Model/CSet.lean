import Verif.Model.Basic

/-!
# `COMPS_Set`

`/repo/libcomps/src/comps_set.c`.  A set is a list of items without two items equal under the
set's function `eqf`.  Items are only appended (`comps_hslist_append`) and removed
(`comps_hslist_remove`), so the list header of a set never has items without `last`; the model
keeps the item list only.

Simplification: `eqf` is a total function.  Comparison of objects of different types is a
fault; it is modelled where objects are compared (`Verif/Model/Obj.lean`).
-/

namespace Comps
namespace CSet
variable {α : Type}

/-- comps_set.c:73-80 `comps_set_in`: `eqf` is called with the stored item first. -/
def mem (eqf : α → α → Bool) : List α → α → Bool
  | [], _ => false
  | y :: ys, x => if eqf y x then true else mem eqf ys x

/-- comps_set.c:82-91 `comps_set_at`; the C result -1 is `none`. -/
def at? (eqf : α → α → Bool) : List α → α → Option Nat
  | [], _ => none
  | y :: ys, x => if eqf y x then some 0 else (at? eqf ys x).map (· + 1)

/-- comps_set.c:93-101 `comps_set_data_at`; the C result NULL is `none`. -/
def dataAt (eqf : α → α → Bool) : List α → α → Option α
  | [], _ => none
  | y :: ys, x => if eqf y x then some y else dataAt eqf ys x

/-- comps_set.c:103-113: the value returned by `comps_set_add`. -/
def addRet (eqf : α → α → Bool) (s : List α) (x : α) : Int :=
  if mem eqf s x then 0 else 1

/-- comps_set.c:103-113 `comps_set_add`: the set afterwards. -/
def add (eqf : α → α → Bool) (s : List α) (x : α) : List α :=
  if mem eqf s x then s else s ++ [x]

/-- comps_set.c:115-129 `comps_set_remove`: the first equal item is taken out; the second
component is the returned pointer. -/
def remove (eqf : α → α → Bool) : List α → α → List α × Option α
  | [], _ => ([], none)
  | y :: ys, x =>
    if eqf y x then (ys, some y) else
      let r := remove eqf ys x
      (y :: r.1, r.2)

/-- comps_set.c:24-26 `comps_set_index_cmp`. -/
def indexCmp (a b : Nat) : Bool := a == b

/-- comps_set.c:163-178: the loop of `comps_set_cmp`.  `xs` is the list from `it` on, `np1` and
`np2` are `not_processed1` and `not_processed2`.  The first component of the result says that
`ret` was set to 2. -/
def cmpLoop (eqf : α → α → Bool) (s2 : List α) :
    List α → Nat → List Nat → List Nat → Bool × List Nat × List Nat
  | [], _, np1, np2 => (false, np1, np2)
  | x :: xs, index, np1, np2 =>
    if np1.isEmpty || np2.isEmpty then (false, np1, np2) else
    match at? eqf s2 x with
    | some i => cmpLoop eqf s2 xs (index + 1) (remove indexCmp np1 index).1 (remove indexCmp np2 i).1
    | none => (true, np1, np2)

/-- comps_set.c:137-194 `comps_set_cmp`. -/
def cmp (eqf : α → α → Bool) (s1 s2 : List α) : Int :=
  let r := cmpLoop eqf s2 s1 0 (List.range s1.length) (List.range s2.length)
  if r.1 then 2 else
  if r.2.1.isEmpty then (if r.2.2.isEmpty then 0 else -1)
  else (if r.2.2.isEmpty then 1 else 2)

/-- comps_set.c:196-198 `comps_set_clear`. -/
def clear (_ : List α) : List α := []

/-- comps_hslist.c:287-309 `comps_hslist_unique`: the items kept (a set is filled in order and
its list taken over).  Destruction of the dropped items is not modelled here. -/
def unique (eqf : α → α → Bool) (l : List α) : List α := l.foldl (add eqf) []

end CSet
end Comps
