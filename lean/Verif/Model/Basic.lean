/-!
# Basic vocabulary of the model

Faults (undefined behaviour or divergence) are values, never mixed with normal results.
-/

namespace Comps

/-- A C string without its terminating NUL (all of `/repo/libcomps/src`).
Bytes are not required to be non-zero: the model never looks for a NUL inside. -/
abbrev Bytes := List UInt8

/-- Byte string literal: `b!"ab"` is `[97, 98]`. -/
syntax:max "b!" str : term

macro_rules
  | `(b! $s:str) => do
    let es ← s.getString.toUTF8.toList.mapM fun c => `($(Lean.quote c.toNat))
    `(([$(es.toArray),*] : Bytes))

/-- Ways in which a C execution leaves the defined behaviour of the program. -/
inductive Fault where
  /-- dereference of a NULL pointer -/
  | nullDeref
  /-- read or write of memory that was freed -/
  | useAfterFree
  /-- read or write outside of an allocated block -/
  | outOfBounds
  /-- an object is used as an object of another type -/
  | typeConfusion
  /-- the loop never ends -/
  | diverges
  /-- read of memory never written -/
  | uninitialised
  /-- conversion of a floating point value that no `int` can hold -/
  | badConversion
  deriving DecidableEq, Repr

/-- Result of a C function that may leave defined behaviour. -/
abbrev Res (α : Type) := Except Fault α

end Comps
