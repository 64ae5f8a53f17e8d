/-!
# Specification: merging and intersecting lists of named entries

Independent of the model.  `key` gives the name of an entry.
-/

namespace Comps.Spec
variable {α κ : Type} [DecidableEq κ]

/-- The entries of `a` in place; the first entry of each name is replaced by `b`'s first entry of
that name, if there is one.  `seen` holds the names met before. -/
def overlay (key : α → κ) (b : List α) : List κ → List α → List α
  | _, [] => []
  | seen, x :: xs =>
    (if key x ∈ seen then x else (b.find? fun y => key y = key x).getD x) ::
      overlay key b (key x :: seen) xs

/-- Merge: `a` overlaid by `b`, then the entries of `b` whose name is not in `a`. -/
def merge (key : α → κ) (a b : List α) : List α :=
  overlay key b [] a ++ b.filter fun y => key y ∉ a.map key

/-- The entries of `b` whose name is in `a`. -/
def common (key : α → κ) (a b : List α) : List α := b.filter fun y => key y ∈ a.map key

/-- No two entries have the same name. -/
def UniqueNames (key : α → κ) (l : List α) : Prop := (l.map key).Nodup

end Comps.Spec
