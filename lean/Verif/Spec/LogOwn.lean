import Verif.Model.LogOwn

/-!
# Who owns the arguments of a log

A log as a client sees it: the values of its own objects, how often it holds each of them, and the
entries, whose arguments are values of their own or objects of the client.
-/

namespace Comps.Spec
open Comps Comps.LogOwn
variable {α : Type}

/-- An argument of an entry: nothing, a value that nobody can change, or the client's object `k`. -/
inductive LArg (α : Type) where
  | null
  | val (v : α)
  | obj (k : Nat)
  deriving DecidableEq

/-- The client's view: the values of its objects, the references it holds, the log. -/
structure LView (α : Type) where
  objs : List α
  mine : List Nat
  log : List (Kind × Nat × List (LArg α))

/-- A new log. -/
def LView.new : LView α := ⟨[], [], []⟩

/-- What the client may do: use and give away what it holds. -/
def LView.Legal (a : LView α) : Op α → Prop
  | .new _ => True
  | .incref k => k ∈ a.mine
  | .drop k => k ∈ a.mine
  | .assign k _ => k ∈ a.mine
  | .copying _ _ args => ∀ k, some k ∈ args → k ∈ a.mine
  | .taking _ _ args => ∀ k, args.count (some k) ≤ a.mine.count k
  | .clear => True

/-- The argument of an entry that copies. -/
def LView.copied (a : LView α) : Option Nat → LArg α
  | none => .null
  | some k => match a.objs[k]? with
    | none => .null
    | some v => .val v

/-- The argument of an entry that takes. -/
def LArg.taken : Option Nat → LArg α
  | none => .null
  | some k => .obj k

/-- The references that are left when some are given away. -/
def giveAway (mine : List Nat) : List (Option Nat) → List Nat
  | [] => mine
  | none :: as => giveAway mine as
  | some k :: as => giveAway (mine.erase k) as

/-- What a call does. -/
def LView.next (a : LView α) : Op α → LView α
  | .new v => { a with objs := a.objs ++ [v], mine := a.objs.length :: a.mine }
  | .incref k => { a with mine := k :: a.mine }
  | .drop k => { a with mine := a.mine.erase k }
  | .assign k v => { a with objs := a.objs.set k v }
  | .copying kd c args => { a with log := a.log ++ [(kd, c, args.map a.copied)] }
  | .taking kd c args =>
    { a with mine := giveAway a.mine args, log := a.log ++ [(kd, c, args.map LArg.taken)] }
  | .clear => { a with log := [] }

/-- A program that keeps to the rules. -/
def LView.Legals (a : LView α) : List (Op α) → Prop
  | [] => True
  | o :: os => a.Legal o ∧ (a.next o).Legals os

/-- What a program does. -/
def LView.after (a : LView α) (os : List (Op α)) : LView α := os.foldl LView.next a

/-- What the log shows in place of an argument. -/
def LView.showArg (a : LView α) : LArg α → Option α
  | .null => none
  | .val v => some v
  | .obj k => a.objs[k]?

/-- What the log shows. -/
def LView.shown (a : LView α) : List (Kind × Nat × List (Option α)) :=
  a.log.map fun e => (e.1, e.2.1, e.2.2.map a.showArg)

/-- How many arguments of the log are the client's object `k`. -/
def LView.given (a : LView α) (k : Nat) : Nat :=
  (a.log.map fun e => e.2.2.countP fun x => match x with
    | .obj j => j == k
    | _ => false).sum

/-- How many owners the object at a place in memory has; 0 when it was destroyed. -/
def ownersAt (m : Own.Mem α) (p : Nat) : Nat :=
  match m[p]? with
  | none => 0
  | some c => c.owners

end Comps.Spec
