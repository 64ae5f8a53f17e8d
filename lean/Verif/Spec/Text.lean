import Verif.Model.Basic

/-! # What the texts should be, said without the code -/

namespace Comps.Spec

/-- The number a string of decimal digits denotes. -/
def decVal (s : Bytes) : Nat := s.foldl (fun a c => 10 * a + (c.toNat - 48)) 0

/-- `s` is the decimal representation of `n`: digits only, at least one, no leading zero unless it
is the only digit, denoting `n`. -/
structure IsDec (n : Nat) (s : Bytes) : Prop where
  ne : s ≠ []
  digit : ∀ c ∈ s, 48 ≤ c ∧ c ≤ 57
  lead : s.head? = some 48 → s = [48]
  val : decVal s = n

/-- The same for integers, with a minus sign (byte 45) for the negative ones. -/
def IsDecInt (v : Int) (s : Bytes) : Prop :=
  if 0 ≤ v then IsDec v.toNat s else ∃ t, s = 45 :: t ∧ IsDec (-v).toNat t

/-- Number of placeholders `%s` of a format. -/
def placeholders : Bytes → Nat
  | [] => 0
  | [_] => 0
  | c :: d :: fmt =>
    if c = 37 ∧ d = 115 then placeholders fmt + 1 else placeholders (d :: fmt)

/-- `out` is `fmt` with its placeholders `%s` replaced, in order, by `args`, none left over. -/
inductive Renders : Bytes → List Bytes → Bytes → Prop
  | nil : Renders [] [] []
  | lit {c fmt args out} : c ≠ 37 → Renders fmt args out → Renders (c :: fmt) args (c :: out)
  | arg {a fmt args out} : Renders fmt args out → Renders (37 :: 115 :: fmt) (a :: args) (a ++ out)

/-- The element names of the comps format. -/
def vocabulary : List Bytes :=
  [b!"comps", b!"group", b!"id", b!"name", b!"description", b!"default", b!"uservisible",
   b!"biarchonly", b!"packagelist", b!"packagereq", b!"category", b!"grouplist", b!"groupid",
   b!"display_order", b!"langonly", b!"environment", b!"optionlist", b!"langpacks", b!"match",
   b!"blacklist", b!"package", b!"whiteout", b!"ignoredep"]

/-- An architecture name the attribute can carry: not empty, without space (32) and comma (44). -/
def ArchName (s : Bytes) : Prop := s ≠ [] ∧ ∀ c ∈ s, c ≠ 32 ∧ c ≠ 44

end Comps.Spec
