import Verif.Spec.PySeq

/-!
# Python programs using a sequence

Histories of calls and a loop over a sequence, as a Python program does them with the methods of
`Verif/Model/PySeq.lean`; and what the histories mean for the sequence of elements.
-/

namespace Comps.Spec.Py
open Comps Comps.Obj Heap ObjHeap
open Comps.PySeq (Kind Item)
variable {α ι : Type}

/-- One call of a Python program on a sequence; exceptions are caught by the program. -/
inductive Call (α : Type) where
  | append (x : α)
  | insert (i : Int) (x : α)
  | set (i : Int) (x : α)
  | del (i : Int)
  | remove (x : α)
  | clear

/-- The call, done by the methods of the sequence. -/
def Call.run [BEq α] (k : Kind α) (h : Heap (Option α)) (l : OL) :
    Call α → Res (Heap (Option α) × OL × PySeq.Ans Unit)
  | .append x => PySeq.append k h l (.obj x)
  | .insert i x => PySeq.insert k h l i (.obj x)
  | .set i x => PySeq.setItem k h l i (.obj x)
  | .del i => PySeq.delItem h l i
  | .remove x => PySeq.remove k h l (.obj x)
  | .clear => PySeq.clear h l

/-- The calls one after the other. -/
def runAll [BEq α] (k : Kind α) : List (Call α) → Heap (Option α) → OL → Res (Heap (Option α) × OL)
  | [], h, l => .ok (h, l)
  | c :: cs, h, l => do
    let (h, l, _) ← c.run k h l
    runAll k cs h l

/-- The numbers in a call are an `int`. -/
def Call.inRange : Call α → Prop
  | .insert i _ | .set i _ | .del i => -2147483648 ≤ i ∧ i < 2147483648
  | _ => True

/-- The objects in a call. -/
def Call.objs : Call α → List α
  | .append x | .insert _ x | .set _ x | .remove x => [x]
  | _ => []

/-- The call is not an insertion. -/
def Call.notInsert : Call α → Prop
  | .insert _ _ => False
  | _ => True

/-- The call is not an assignment. -/
def Call.notSet : Call α → Prop
  | .set _ _ => False
  | _ => True

/-- What a call does to the elements of a list that looks for ids (`append`, assignment). -/
def Call.effect [DecidableEq α] [DecidableEq ι] (id : α → ι) (good : α → Bool) (xs : List α) :
    Call α → List α
  | .append x => (Py.append id good xs x).1
  | .insert i x => (Py.insert good xs i x).1
  | .set i x => if i < 0 ∨ i ≥ xs.length ∨ id x ∈ xs.map id then xs else xs.set i.toNat x
  | .del i => if i < 0 then xs else (Py.delItem xs i).1
  | .remove x => (Py.remove xs x).1
  | .clear => []

/-- `for x in seq: if p(x): seq.remove(x)`, with the objects `x` seen. -/
def forRemove [BEq α] (k : Kind α) (p : α → Bool) :
    Nat → Heap (Option α) → OL → Option Nat → Res (List α × Heap (Option α) × OL)
  | 0, _, _, _ => .error .diverges
  | fuel + 1, h, l, it => do
    match ← PySeq.iterNext h it with
    | (none, _) => .ok ([], h, l)
    | (some x, it) => do
      let (h, l, _) ← if p x then PySeq.remove k h l (.obj x) else .ok (h, l, .ok ())
      let (ys, h, l) ← forRemove k p fuel h l it
      .ok (x :: ys, h, l)

end Comps.Spec.Py
