import Verif.Model.PyElem
import Verif.Spec.Built

/-!
# What single entries should do, said without the code

A Python object with attributes that hold one value each: a record.
-/

namespace Comps.Spec
open Comps Comps.Obj Comps.PyElem

/-- The attributes that hold strings. -/
def isText : Attr → Bool
  | .id => true
  | .name => true
  | .desc => true
  | .langOnly => true
  | _ => false

/-- What should be read after an attribute was given the value; `none` when the value should be
refused.  Strings and the number can be taken back with `None`. -/
def meant (a : Attr) : Arg → Option Val
  | .none => if isText a || a = .displayOrder then some .none else none
  | .str (some b) => if isText a then some (.text b) else none
  | .int n => if a = .displayOrder then some (.num n) else none
  | .bool b =>
    if isText a then none
    else if a = .displayOrder then some (.num (if b then 1 else 0)) else some (.bool b)
  | _ => none

/-- One assignment to a record, with its outcome. -/
def assign {A : Type} [DecidableEq A] (meant : A → Arg → Option Val) (r : A → Val) (a : A)
    (v : Arg) : (A → Val) × Out :=
  match meant a v with
  | some x => (fun b => if b = a then x else r b, .done)
  | none => (r, .exc .typeError)

/-- A sequence of assignments to a record. -/
def assigns {A : Type} [DecidableEq A] (meant : A → Arg → Option Val) (r : A → Val) :
    List (A × Arg) → (A → Val) × List Out
  | [] => (r, [])
  | (a, v) :: rest =>
    let (r, o) := assign meant r a v
    let (r, os) := assigns meant r rest
    (r, o :: os)

/-- The same statements run by the code, given the code of one assignment. -/
def runs {A σ : Type} (set : A → σ → Option Arg → Res (σ × Out)) (s : σ) :
    List (A × Arg) → Res (σ × List Out)
  | [] => .ok (s, [])
  | (a, v) :: rest => do
    let (s, o) ← set a s (some v)
    let (s, os) ← runs set s rest
    return (s, o :: os)

/-- Texts that survive the way to C and back: without NUL, valid UTF-8; numbers that fit. -/
def Carried (utf8 : Bytes → Bool) : Arg → Prop
  | .str (some b) => 0 ∉ b ∧ utf8 b = true
  | .int n => -2 ^ 31 ≤ n ∧ n < 2 ^ 31
  | _ => True

/-- What a package attribute should hold, as `meant`. -/
def meantPkg (a : PkgAttr) : Arg → Option Val
  | .none => match a with
    | .name => some .none
    | .requires => some .none
    | .type => some .none
    | .basearchonly => none
  | .str (some b) => match a with
    | .name => some (.text b)
    | .requires => some (.text b)
    | _ => none
  | .int n => if a = .type then some (.num n) else none
  | .bool b => match a with
    | .type => some (.num (if b then 1 else 0))
    | .basearchonly => some (.bool b)
    | _ => none
  | _ => none

/-- What a group id attribute should hold, as `meant`. -/
def meantGid (a : GidAttr) : Arg → Option Val
  | .none => if a = .name then some .none else none
  | .str (some b) => if a = .name then some (.text b) else none
  | .bool b => if a = .default then some (.bool b) else none
  | _ => none

/-- What a package should answer to a search: the name, if one is asked for, and the type, if one is
asked for. -/
def wanted (name : Option Bytes) (type : Option Int) (p : Pkg) : Bool :=
  (name.all fun n => p.name == some ⟨some n⟩) && (type.all fun t => p.type == t)

/-- The properties of a group, a category or an environment made through the API. -/
def PropsBuilt (lt : UInt8 → UInt8 → Bool) (t : RTree PVal) : Prop :=
  (∃ g, GroupBuilt lt g ∧ t = g.props) ∨ (∃ c, CategoryBuilt lt c ∧ t = c.props) ∨
    (∃ e, EnvBuilt lt e ∧ t = e.props)

/-- A text argument the constructors take: not given, or a string without NUL. -/
def takenText : Option Arg → Bool
  | none => true
  | some (.str (some b)) => !b.contains 0
  | _ => false

/-- A number argument the constructors take: not given, or a number that fits into an `int`. -/
def takenNum : Option Arg → Bool
  | none => true
  | some (.int n) => decide (-2 ^ 31 ≤ n) && decide (n < 2 ^ 31)
  | some (.bool _) => true
  | _ => false

/-- What a text attribute of a new object should read. -/
def newText : Option Arg → Val
  | some (.str (some b)) => .text b
  | _ => .none

/-- What a number attribute of a new object should read, `d` when not given. -/
def newNum (d : Val) : Option Arg → Val
  | some (.int n) => .num n
  | some (.bool b) => .num (if b then 1 else 0)
  | _ => d

/-- What a Boolean attribute of a new object should read, `d` when not given. -/
def newFlag (d : Bool) : Option Arg → Val
  | some (.int n) => .bool (decide (n ≠ 0))
  | some (.bool b) => .bool b
  | _ => .bool d

/-- The text arguments are valid UTF-8, as the encoding of a `str` is. -/
def Encoded (utf8 : Bytes → Bool) (o : Option Arg) : Prop :=
  ∀ b, o = some (.str (some b)) → utf8 b = true

/-- What a new group should read. -/
def newGroup (a : GroupArgs) : Attr → Val
  | .id => newText a.id
  | .name => newText a.name
  | .desc => newText a.desc
  | .langOnly => newText a.langonly
  | .displayOrder => newNum .none a.displayOrder
  | .userVisible => newFlag true a.uservisible
  | .default => newFlag false a.default
  | .biarchOnly => .none

/-- What a new category or environment should read. -/
def newEntry (a : EntryArgs) : Attr → Val
  | .id => newText a.id
  | .name => newText a.name
  | .desc => newText a.desc
  | .displayOrder => newNum .none a.displayOrder
  | _ => .none

/-- What a new package should read; 4 is `PACKAGE_TYPE_UNKNOWN`. -/
def newPkg (a : PkgArgs) : PkgAttr → Val
  | .name => newText a.name
  | .requires => newText a.requires
  | .type => newNum (.num 4) a.type
  | .basearchonly => .none

end Comps.Spec
