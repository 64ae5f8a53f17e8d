import Verif.Spec.Text
import Verif.Spec.Equiv

/-! # What validation should report -/

namespace Comps.Spec

/-- Position `j` holds a repeated element and `i` is the first position with an equal one. -/
def FirstEq {α : Type} (cmp : α → α → Bool) (l : List α) (i j : Nat) : Prop :=
  i < j ∧ ∃ a b, l[i]? = some a ∧ l[j]? = some b ∧ cmp a b = true ∧
    ∀ k, k < i → ∀ c, l[k]? = some c → cmp c b = false

/-- No element equals a later one. -/
def NoRepeat {α : Type} (cmp : α → α → Bool) (l : List α) : Prop :=
  l.Pairwise fun a b => cmp a b = false

/-- The message about a repeated element, numbers in decimal. -/
def IsDupMsg (i j : Nat) (m : Bytes) : Prop :=
  ∃ s t, IsDec i s ∧ IsDec j t ∧ m = b!"Duplicate items at " ++ s ++ b!" and " ++ t

end Comps.Spec
