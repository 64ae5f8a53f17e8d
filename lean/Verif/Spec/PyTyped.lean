import Verif.Spec.PyRound
import Verif.Spec.ValidateDoc

/-!
# Programs that use `libcomps.Comps`

What a Python program can put in a list or dictionary, and the calls that may crash.
-/

namespace Comps.Spec.PyComps
open Comps Comps.Obj Comps.Spec Comps.PyComps Comps.Parse

/-- A list or dictionary that Python can make: its entries were made through the API, and their lists
exist (the setters of `packages`, `group_ids` and `option_ids` take lists only). -/
def Native (lt : UInt8 → UInt8 → Bool) : DocVal → Prop
  | .groups l => ∀ g ∈ l, GroupBuilt lt g ∧ g.packages ≠ none
  | .cats l => ∀ g ∈ l, CategoryBuilt lt g ∧ g.groupIds ≠ none
  | .envs l => ∀ g ∈ l, EnvBuilt lt g ∧ g.groupList ≠ none ∧ g.optionList ≠ none
  | .dict t => LangBuilt lt t
  | .mdict t => MReach t
  | .str _ => False

/-- A call that Python can make. -/
def NativeOp (lt : UInt8 → UInt8 → Bool) : Op → Prop
  | .write _ x => Native lt x
  | .fromStr _ cx _ => cx.lt = lt
  | .fromFile _ cx _ => cx.lt = lt
  | _ => True

/-- The display order of an entry is negative. -/
def NegOrder (t : RTree PVal) : Prop := ∃ n, t.get b!"display_order" = some (.num n) ∧ n < 0

/-- An entry of the document has a negative display order. -/
def NegativeOrder (y : Content) : Prop :=
  (∃ l, y.part .groups = .groups l ∧ ∃ g ∈ l, NegOrder g.props) ∨
  (∃ l, y.part .categories = .cats l ∧ ∃ g ∈ l, NegOrder g.props) ∨
  (∃ l, y.part .environments = .envs l ∧ ∃ g ∈ l, NegOrder g.props)

/-- A list longer than 10^9. -/
def Long {α : Type} (l : Option (List α)) : Prop := ∃ x, l = some x ∧ 10 ^ 9 < x.length

/-- The document has 2^64 entries of a kind, or more than 10^9 members in an entry. -/
def Enormous (y : Content) : Prop :=
  (∃ l, y.part .groups = .groups l ∧ (2 ^ 64 ≤ l.length ∨ ∃ g ∈ l, Long g.packages)) ∨
  (∃ l, y.part .categories = .cats l ∧ (2 ^ 64 ≤ l.length ∨ ∃ g ∈ l, Long g.groupIds)) ∨
  (∃ l, y.part .environments = .envs l ∧
    (2 ^ 64 ≤ l.length ∨ ∃ g ∈ l, Long g.groupList ∨ Long g.optionList))

/-- The program has a document `c` with the content `y`. -/
def Holds (lt : UInt8 → UInt8 → Bool) (st : PyComps.St) (c : Nat) (y : Content) : Prop :=
  answer lt st (.dump c) = .ok (.content y)

/-- The calls that may crash: `del c.groups` and the like, `c == x` with an `x` that is not a
document, loading XML that the parser crashes on (C29), validating an enormous document, writing a
document with a negative display order. -/
def MayCrash (lt : UInt8 → UInt8 → Bool) (st : PyComps.St) : Op → Prop
  | .delAttr c _ => ∃ y, Holds lt st c y
  | .eq c none => ∃ y, Holds lt st c y
  | .fromStr c cx text => (∃ y, Holds lt st c y) ∧ ∃ f, parseStr cx (init (some b!"UTF-8")) text = .error f
  | .fromFile c cx (some cs) => (∃ y, Holds lt st c y) ∧
      ∃ f, parseFile cx (init (some b!"UTF-8")) (some cs) = .error f
  | .validate c => ∃ y, Holds lt st c y ∧ Enormous y
  | .validateNf c => ∃ y, Holds lt st c y ∧ Enormous y
  | .xmlStr c _ _ _ => ∃ y, Holds lt st c y ∧ NegativeOrder y
  | .xmlFile c _ _ _ _ _ => ∃ y, Holds lt st c y ∧ NegativeOrder y
  | _ => False

end Comps.Spec.PyComps
