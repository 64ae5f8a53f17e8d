import Verif.Spec.FMap

/-!
# Specification: which keys a write may lose
-/

namespace Comps.Spec

/-- `k'` extends `p`, and does not extend `k`. -/
def Lost (p k k' : List UInt8) : Prop := p <+: k' ∧ k' ≠ p ∧ ¬ k <+: k'

instance (p k k' : List UInt8) : Decidable (Lost p k k') := by unfold Lost; infer_instance

end Comps.Spec
