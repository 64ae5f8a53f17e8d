import Verif.Model.PyHeap

/-!
# Python programs on documents, entries and lists, without memory management

What a program ought to see: objects are made and changed, and never go away.  There are no reference
counts.  `lost` lists the references that calls forget to give back: it has no influence on anything
the program sees, and says which objects can never be freed.
-/

namespace Comps.PyHeap
open Comps Comps.Obj
open Comps.PyElem (Pkg EKind Attr PkgAttr GidAttr Arg)
open Comps.PyDict (cstr)

/-- All objects ever made, the variables, the references forgotten. -/
structure R where
  objs : List Body
  vars : List (Option Nat)
  lost : List Nat

/-- Before the first call. -/
def R.start : R := ⟨[], [], []⟩

/-- The contents of an object. -/
def look (objs : List Body) (a : Nat) : Res Body :=
  match objs[a]? with
  | some b => .ok b
  | none => .error .outOfBounds

/-- A new object. -/
def R.make (r : R) (b : Body) : R := { r with objs := r.objs ++ [b] }

/-- New contents for an object. -/
def R.put (r : R) (a : Nat) (b : Body) : R := { r with objs := r.objs.set a b }

/-- A new variable. -/
def R.push (r : R) (w : Nat) : R := { r with vars := r.vars ++ [some w] }

/-- A new Python object in a new variable. -/
def R.wrapUp (r : R) (t : PType) (a : Nat) : R :=
  (r.make (.wrap t a none none)).push r.objs.length

/-- A new object with a Python object around it in a new variable. -/
def R.plain (r : R) (t : PType) (b : Body) : R := (r.make b).wrapUp t r.objs.length

/-- A forgotten reference. -/
def R.lose (r : R) (a : Nat) : R := { r with lost := a :: r.lost }

/-- A new entry has empty dictionaries and lists of its own. -/
def R.entry (r : R) (k : EKind) (props : RTree PVal) : R :=
  let n := r.objs.length
  let r := r.make (.dict RTree.create)
  let r := r.make (.dict RTree.create)
  let r := r.make (.list (listType k) [])
  match k with
  | .environment =>
    (r.make (.list .ids [])).plain (.entry k)
      (.entry k props (some n) (some (n + 1)) (some (n + 2)) (some (n + 3)))
  | _ => r.plain (.entry k) (.entry k props (some n) (some (n + 1)) (some (n + 2)) none)

/-- The list attribute of an entry. -/
def Ent.listOf (e : Ent) (options : Bool) : Option Nat := if options then e.options else e.list

/-- The entry with another list. -/
def Ent.withList (e : Ent) (options : Bool) (l : Nat) : Ent :=
  if options then { e with options := some l } else { e with list := some l }

/-- The dictionary attribute of an entry. -/
def Ent.dictOf (e : Ent) (desc : Bool) : Option Nat := if desc then e.descs else e.names

/-- The entry with another dictionary. -/
def Ent.withDict (e : Ent) (desc : Bool) (d : Nat) : Ent :=
  if desc then { e with descs := some d } else { e with names := some d }

/-- Putting an object into a list if it passes the checks. -/
def R.putIn (r : R) (l i a : Nat) : Res (R × Obs) := do
  if ← passes (look r.objs) a then
    let (kind, items) ← asList (look r.objs) l
    return (r.put l (.list kind (items.take i ++ a :: items.drop i)), .none)
  else return (r, .exc .valueError)

/-- `append`. -/
def R.append (r : R) (k : LKind) (l a : Nat) : Res (R × Obs) := do
  let (_, items) ← asList (look r.objs) l
  if ← (if k.keyed then unique (look r.objs) items a else .ok true) then r.putIn l items.length a
  else return (r, .exc .keyError)

/-- Assignment to a member.  One reference to the new member is forgotten, unless it was refused for
its contents. -/
def R.setItem (r : R) (k : LKind) (l i a : Nat) : Res (R × Obs) := do
  let (kind, items) ← asList (look r.objs) l
  if items.length ≤ i then return (r.lose a, .exc .indexError)
  else if k.extra then
    if ← unique (look r.objs) items a then
      return ((r.put l (.list kind (items.set i a))).lose a, .none)
    else return (r, .exc .keyError)
  else
    if ← passes (look r.objs) a then
      return ((r.put l (.list kind (items.set i a))).lose a, .none)
    else return (r, .exc .valueError)

/-- Deleting a member. -/
def R.delItem (r : R) (l i : Nat) : Res (R × Obs) := do
  let (kind, items) ← asList (look r.objs) l
  if i < items.length then return (r.put l (.list kind (items.eraseIdx i)), .none)
  else return (r, .exc .indexError)

/-- `remove`: the first occurrence of the object itself.  One reference to it is forgotten. -/
def R.remove (r : R) (l a : Nat) : Res (R × Obs) := do
  let (kind, items) ← asList (look r.objs) l
  if a ∈ items then return ((r.put l (.list kind (items.erase a))).lose a, .none)
  else return (r.lose a, .exc .valueError)

/-- `packages_match`. -/
def R.packagesMatch (r : R) (a : Nat) (name type : Option Arg) : Res (R × Obs) :=
  match PyElem.parseStr name, PyElem.parseType type with
  | .error e, _ => .ok (r, .exc (.elem e))
  | .ok _, .error e => .ok (r, .exc (.elem e))
  | .ok name, .ok type => do
    let e ← asEnt (look r.objs) a
    let l ← nonNull e.list
    let (_, items) ← asList (look r.objs) l
    let found ← matching (look r.objs) name type items
    return (r.plain (.list .packages) (.list .packages found), .object)

/-- The list of a document, made if there is none. -/
def R.secList (r : R) (a : Nat) (s : DSec) : Res (R × Nat) := do
  let (ls, cs) ← asDoc (look r.objs) a
  match ls.get s with
  | some l => .ok (r, l)
  | none =>
    .ok ((r.make (.list s.kind [])).put a (.doc (ls.set s (some r.objs.length)) cs), r.objs.length)

/-- A list attribute of a document: the Python object is made the first time and kept. -/
def R.getSec (r : R) (a : Nat) (s : DSec) : Res (R × Obs) := do
  let (_, cs) ← asDoc (look r.objs) a
  match cs.get s with
  | some w => .ok (r.push w, .object)
  | none => do
    let (r, l) ← r.secList a s
    let (ls, cs) ← asDoc (look r.objs) a
    return (((r.make (.wrap (.list s.kind) l none none)).put a
      (.doc ls (cs.set s (some r.objs.length)))).push r.objs.length, .object)

/-- Assignment to a list attribute of a document. -/
def R.setSec (r : R) (a : Nat) (s : DSec) (w l : Nat) : Res (R × Obs) := do
  let (ls, cs) ← asDoc (look r.objs) a
  return (r.put a (.doc (ls.set s (some l)) (cs.set s (some w))), .none)

/-- A search. -/
def R.search (r : R) (a : Nat) (s : DSec) (args : SearchArgs) : Res (R × Obs) :=
  match parseQuery args with
  | .error e => .ok (r, .exc (.elem e))
  | .ok q => do
    let (r, l) ← r.secList a s
    let (_, items) ← asList (look r.objs) l
    let found ← matchingEnts (look r.objs) args.fn s q items
    return (r.plain (.list s.kind) (.list s.kind found), .object)

/-- A call with one object. -/
def R.with1 (r : R) (v : Nat)
    (f : Nat → PType → Nat → Option Nat → Option Nat → Res (R × Obs)) : Res (R × Obs) :=
  match var r.vars v with
  | none => .ok (r, .noVar)
  | some w => do
    let (t, a, n, d) ← asWrap (look r.objs) w
    f w t a n d

/-- A call with two objects. -/
def R.with2 (r : R) (v v2 : Nat)
    (f : Nat → PType → Nat → Nat → PType → Nat → Res (R × Obs)) : Res (R × Obs) :=
  r.with1 v fun w t a _ _ => r.with1 v2 fun w2 t2 a2 _ _ => f w t a w2 t2 a2

/-- The type of the object a variable is bound to. -/
def R.typeOf (r : R) (v : Nat) : Option PType :=
  match var r.vars v with
  | none => none
  | some w =>
    match r.objs[w]? with
    | some (.wrap t _ _ _) => some t
    | _ => none

/-- The members of the list a variable is bound to. -/
def R.members (r : R) (v : Nat) : List Nat :=
  match var r.vars v with
  | none => []
  | some w =>
    match r.objs[w]? with
    | some (.wrap _ a _ _) =>
      match r.objs[a]? with
      | some (.list _ items) => items
      | _ => []
    | _ => []

/-- The packages among some objects, in order. -/
def packagesOf (objs : List Body) : List Nat → List Pkg
  | [] => []
  | a :: as =>
    match objs[a]? with
    | some (.pkg p) => p :: packagesOf objs as
    | _ => packagesOf objs as

/-- The packages in the list a variable is bound to. -/
def R.packages (r : R) (v : Nat) : List Pkg := packagesOf r.objs (r.members v)

/-- Two variables are bound to Python objects around the same object.  Python objects around entries
also have what they remember of assigned dictionaries in common. -/
def R.alias (r : R) (x y : Nat) : Prop :=
  ∃ w1 w2 t a n1 d1 n2 d2, var r.vars x = some w1 ∧ var r.vars y = some w2 ∧
    r.objs[w1]? = some (.wrap t a n1 d1) ∧ r.objs[w2]? = some (.wrap t a n2 d2) ∧
    ((∃ k, t = .entry k) → n1 = n2 ∧ d1 = d2)

/-- Two variables are bound to Python objects around the same object, which is not an entry. -/
def R.sharing (r : R) (x y : Nat) : Prop :=
  ∃ w1 w2 t a n1 d1 n2 d2, var r.vars x = some w1 ∧ var r.vars y = some w2 ∧
    r.objs[w1]? = some (.wrap t a n1 d1) ∧ r.objs[w2]? = some (.wrap t a n2 d2) ∧ ∀ k, t ≠ .entry k

/-- The call with other variables. -/
def Op.rename (f : Nat → Nat) : Op → Op
  | .newGroup args => .newGroup args
  | .newEntry env args => .newEntry env args
  | .newPackage args => .newPackage args
  | .newGroupId args => .newGroupId args
  | .newDict => .newDict
  | .newList k => .newList k
  | .dup v => .dup (f v)
  | .del v => .del (f v)
  | .same v w => .same (f v) (f w)
  | .getAttr v a => .getAttr (f v) a
  | .setAttr v a x => .setAttr (f v) a x
  | .getPkg v a => .getPkg (f v) a
  | .setPkg v a x => .setPkg (f v) a x
  | .getGid v a => .getGid (f v) a
  | .setGid v a x => .setGid (f v) a x
  | .getList v o => .getList (f v) o
  | .setList v o w => .setList (f v) o (f w)
  | .getDict v d => .getDict (f v) d
  | .setDict v d w => .setDict (f v) d (f w)
  | .dictSet v k x => .dictSet (f v) k x
  | .dictGet v k => .dictGet (f v) k
  | .len v => .len (f v)
  | .getItem v i => .getItem (f v) i
  | .getById v id => .getById (f v) id
  | .append v w => .append (f v) (f w)
  | .appendStr v s => .appendStr (f v) s
  | .insert v i w => .insert (f v) i (f w)
  | .setItem v i w => .setItem (f v) i (f w)
  | .delItem v i => .delItem (f v) i
  | .remove v w => .remove (f v) (f w)
  | .clear v => .clear (f v)
  | .packagesMatch v n t => .packagesMatch (f v) n t
  | .validate v => .validate (f v)
  | .newComps => .newComps
  | .getSec v s => .getSec (f v) s
  | .setSec v s w => .setSec (f v) s (f w)
  | .delSec v s => .delSec (f v) s
  | .search v s a => .search (f v) s a

/-- One variable for another. -/
def subst (x y v : Nat) : Nat := if v = x then y else v

/-- Calls that do not keep the Python object in the variable itself, but work with the object in
it. -/
def Op.uses (x : Nat) : Op → Bool
  | .dup v => v != x
  | .del v => v != x
  | .same v w => v != x && w != x
  | .setDict v _ w => v != x && w != x
  | .setList _ _ w => w != x
  | .setSec _ _ w => w != x
  | _ => true

/-- Calls that get a Python object around an object that exists. -/
def Op.fetches : Op → Bool
  | .getItem _ _ => true
  | .getById _ _ => true
  | .getList _ _ => true
  | _ => false

/-- The variables stay bound and no dictionary is assigned to an attribute. -/
def Op.leaves (x y : Nat) : Op → Bool
  | .del v => v != x && v != y
  | .setDict _ _ _ => false
  | _ => true

/-- The variables stay bound. -/
def Op.holds (x y : Nat) : Op → Bool
  | .del v => v != x && v != y
  | _ => true

/-- The attribute of a document that a call assigns. -/
def Op.assigns : Op → Option DSec
  | .setSec _ s _ => some s
  | _ => none

/-- Calls of `clear`. -/
def Op.clears : Op → Bool
  | .clear _ => true
  | _ => false

/-- Calls that forget a reference. -/
def Op.forgets : Op → Bool
  | .setItem _ _ _ => true
  | .remove _ _ => true
  | .setList _ _ _ => true
  | _ => false

/-- The objects that can be got at from those given. -/
inductive Reach (objs : List Body) (from' : List Nat) : Nat → Prop where
  | here {a : Nat} : a ∈ from' → Reach objs from' a
  | inside {a c : Nat} {b : Body} : Reach objs from' a → objs[a]? = some b → c ∈ b.children →
      Reach objs from' c

/-- The calls that crash: deleting a number, a flag or a list of a document, and assigning to a
member of a list of packages. -/
def R.crash (r : R) : Op → Option Fault
  | .setAttr v .displayOrder none =>
    match r.typeOf v with
    | some (.entry _) => some .nullDeref
    | _ => none
  | .setPkg v .type none => if r.typeOf v = some .package then some .nullDeref else none
  | .setPkg v .basearchonly none => if r.typeOf v = some .package then some .nullDeref else none
  | .setGid v .default none => if r.typeOf v = some .groupId then some .nullDeref else none
  | .setItem v i w =>
    if r.typeOf v = some (.list .packages) ∧ r.typeOf w = some .package ∧ i < (r.members v).length then
      some .typeConfusion
    else none
  | .delSec v _ => if r.typeOf v = some .comps then some .nullDeref else none
  | _ => none

section
variable (lt : UInt8 → UInt8 → Bool) (utf8 : Bytes → Bool)

/-- One call. -/
def R.step (r : R) : Op → Res (R × Obs)
  | .newGroup args =>
    match PyElem.groupInit lt args with
    | .error e => .ok (r, .exc (.elem e))
    | .ok p => .ok (r.entry .group p, .object)
  | .newEntry env args =>
    match PyElem.entryInit lt args with
    | .error e => .ok (r, .exc (.elem e))
    | .ok p => .ok (r.entry (if env then .environment else .category) p, .object)
  | .newPackage args =>
    match PyElem.pkgInit args with
    | .error e => .ok (r, .exc (.elem e))
    | .ok p => .ok (r.plain .package (.pkg p), .object)
  | .newGroupId args =>
    match PyElem.gidInit args with
    | .error e => .ok (r, .exc (.elem e))
    | .ok g => .ok (r.plain .groupId (.gid g), .object)
  | .newDict => .ok (r.plain .dict (.dict RTree.create), .object)
  | .newList k => .ok (r.plain (.list k) (.list k []), .object)
  | .dup v =>
    match var r.vars v with
    | none => .ok (r, .noVar)
    | some w => .ok (r.push w, .object)
  | .del v =>
    match var r.vars v with
    | none => .ok (r, .noVar)
    | some _ => .ok ({ r with vars := r.vars.set v none }, .none)
  | .same v v2 =>
    match var r.vars v, var r.vars v2 with
    | some w, some w2 => .ok (r, .bool (w == w2))
    | _, _ => .ok (r, .noVar)
  | .getAttr v at' => r.with1 v fun _ t a _ _ =>
    match t with
    | .entry k =>
      if k.has at' then do
        let e ← asEnt (look r.objs) a
        let x ← PyElem.getAttr utf8 at' e.props
        return (r, .val x)
      else .ok (r, .refused)
    | _ => .ok (r, .refused)
  | .setAttr v at' x => r.with1 v fun _ t a _ _ =>
    match t with
    | .entry k =>
      if k.has at' then do
        let e ← asEnt (look r.objs) a
        let (p, o) ← PyElem.setAttr lt at' e.props x
        return (r.put a { e with props := p }.body, .out o)
      else .ok (r, .refused)
    | _ => .ok (r, .refused)
  | .getPkg v at' => r.with1 v fun _ t a _ _ =>
    match t with
    | .package => do
      match ← look r.objs a with
      | .pkg p => do return (r, .val (← p.getAttr utf8 at'))
      | _ => .error .typeConfusion
    | _ => .ok (r, .refused)
  | .setPkg v at' x => r.with1 v fun _ t a _ _ =>
    match t with
    | .package => do
      match ← look r.objs a with
      | .pkg p => do
        let (p, o) ← p.setAttr at' x
        return (r.put a (.pkg p), .out o)
      | _ => .error .typeConfusion
    | _ => .ok (r, .refused)
  | .getGid v at' => r.with1 v fun _ t a _ _ =>
    match t with
    | .groupId => do
      match ← look r.objs a with
      | .gid g => do return (r, .val (← PyElem.gidGetAttr utf8 g at'))
      | _ => .error .typeConfusion
    | _ => .ok (r, .refused)
  | .setGid v at' x => r.with1 v fun _ t a _ _ =>
    match t with
    | .groupId => do
      match ← look r.objs a with
      | .gid g => do
        let (g, o) ← PyElem.gidSetAttr g at' x
        return (r.put a (.gid g), .out o)
      | _ => .error .typeConfusion
    | _ => .ok (r, .refused)
  | .getList v options => r.with1 v fun _ t a _ _ =>
    match t with
    | .entry k =>
      if options && k != .environment then .ok (r, .refused)
      else do
        let e ← asEnt (look r.objs) a
        let l ← nonNull (e.listOf options)
        return (r.wrapUp (.list (listType k)) l, .object)
    | _ => .ok (r, .refused)
  | .setList v options v2 => r.with2 v v2 fun _ t a w2 t2 l =>
    match t with
    | .entry k =>
      if options && k != .environment then .ok (r, .refused)
      else if t2 = .list (listType k) then do
        let e ← asEnt (look r.objs) a
        return ((r.put a (e.withList options l).body).lose w2, .none)
      else .ok (r, .exc .typeError)
    | _ => .ok (r, .refused)
  | .getDict v desc => r.with1 v fun _ t a n d =>
    match t with
    | .entry _ =>
      match if desc then d else n with
      | some w => .ok (r.push w, .object)
      | none => do
        let e ← asEnt (look r.objs) a
        let d ← nonNull (e.dictOf desc)
        return (r.wrapUp .dict d, .object)
    | _ => .ok (r, .refused)
  | .setDict v desc v2 => r.with2 v v2 fun w t a w2 t2 d =>
    match t with
    | .entry _ =>
      if t2 = .dict then do
        let e ← asEnt (look r.objs) a
        let (t, a', n, d') ← asWrap (look r.objs) w
        return ((r.put a (e.withDict desc d).body).put w
          (if desc then .wrap t a' n (some w2) else .wrap t a' (some w2) d'), .none)
      else .ok (r, .exc .typeError)
    | _ => .ok (r, .refused)
  | .dictSet v k x => r.with1 v fun _ t a _ _ =>
    match t with
    | .dict => do
      let d ← asDict (look r.objs) a
      return (r.put a (.dict (d.set lt (cstr k) (some (.str ⟨some (cstr x)⟩)))), .none)
    | _ => .ok (r, .refused)
  | .dictGet v k => r.with1 v fun _ t a _ _ =>
    match t with
    | .dict => do
      let d ← asDict (look r.objs) a
      let x ← PyElem.getStrAttr utf8 (d.get (cstr k))
      return (r, .val x)
    | _ => .ok (r, .refused)
  | .len v => r.with1 v fun _ t a _ _ =>
    match t with
    | .list _ => do
      let (_, items) ← asList (look r.objs) a
      return (r, .num items.length)
    | _ => .ok (r, .refused)
  | .getItem v i => r.with1 v fun _ t l _ _ =>
    match t with
    | .list k => do
      let (_, items) ← asList (look r.objs) l
      match items[i]? with
      | none => return (r, .exc .indexError)
      | some a => return (r.wrapUp k.elem a, .object)
    | _ => .ok (r, .refused)
  | .getById v id => r.with1 v fun _ t l _ _ =>
    match t with
    | .list k =>
      if k.extra then do
        let (_, items) ← asList (look r.objs) l
        match ← findId (look r.objs) id items with
        | none => return (r, .exc .keyError)
        | some a => return (r.wrapUp k.elem a, .object)
      else .ok (r, .exc .typeError)
    | _ => .ok (r, .refused)
  | .append v v2 => r.with2 v v2 fun _ t l _ t2 a =>
    match t with
    | .list k => if t2 = k.elem then r.append k l a else .ok (r, .exc .typeError)
    | _ => .ok (r, .refused)
  | .appendStr v s => r.with1 v fun _ t l _ _ =>
    match t with
    | .list .ids =>
      match s with
      | none => .ok (r, .exc .typeError)
      | some b => do
        let r' := r.make (.gid { GroupId.create with name := some (compsStr (some (cstr b))) })
        let (_, items) ← asList (look r'.objs) l
        r'.putIn l items.length r.objs.length
    | .list _ => .ok (r, .exc .typeError)
    | _ => .ok (r, .refused)
  | .insert v i v2 => r.with2 v v2 fun _ t l _ t2 a =>
    match t with
    | .list k =>
      if t2 = k.elem then do
        let (_, items) ← asList (look r.objs) l
        r.putIn l (min i items.length) a
      else .ok (r, .exc .typeError)
    | _ => .ok (r, .refused)
  | .setItem v i v2 => r.with2 v v2 fun _ t l _ t2 a =>
    match t with
    | .list k => if t2 = k.elem then r.setItem k l i a else .ok (r, .exc .typeError)
    | _ => .ok (r, .refused)
  | .delItem v i => r.with1 v fun _ t l _ _ =>
    match t with
    | .list _ => r.delItem l i
    | _ => .ok (r, .refused)
  | .remove v v2 => r.with2 v v2 fun _ t l _ t2 a =>
    match t with
    | .list k => if t2 = k.elem then r.remove l a else .ok (r, .exc .typeError)
    | _ => .ok (r, .refused)
  | .clear v => r.with1 v fun _ t l _ _ =>
    match t with
    | .list _ => do
      let (kind, _) ← asList (look r.objs) l
      return (r.put l (.list kind []), .none)
    | .comps => do
      let (_, cs) ← asDoc (look r.objs) l
      return (r.put l (.doc Three.none cs), .none)
    | _ => .ok (r, .refused)
  | .packagesMatch v name type => r.with1 v fun _ t a _ _ =>
    match t with
    | .entry .group => r.packagesMatch a name type
    | _ => .ok (r, .refused)
  | .validate v => r.with1 v fun _ t a _ _ =>
    match t with
    | .package | .groupId | .entry _ => do
      return (r, if ← passes (look r.objs) a then .none else .exc .valueError)
    | _ => .ok (r, .refused)
  | .newComps => .ok (r.plain .comps (.doc Three.none Three.none), .object)
  | .getSec v s => r.with1 v fun _ t a _ _ =>
    match t with
    | .comps => r.getSec a s
    | _ => .ok (r, .refused)
  | .setSec v s v2 => r.with2 v v2 fun _ t a w2 t2 l =>
    match t with
    | .comps => if t2 = .list s.kind then r.setSec a s w2 l else .ok (r, .exc .typeError)
    | _ => .ok (r, .refused)
  | .delSec v _ => r.with1 v fun _ t _ _ _ =>
    match t with
    | .comps => .error .nullDeref
    | _ => .ok (r, .refused)
  | .search v s args => r.with1 v fun _ t a _ _ =>
    match t with
    | .comps => r.search a s args
    | _ => .ok (r, .refused)

/-- A program. -/
def R.run : R → List Op → Res (R × List Obs)
  | r, [] => .ok (r, [])
  | r, op :: ops => do
    let (r, o) ← r.step lt utf8 op
    let (r, os) ← R.run r ops
    return (r, o :: os)

end
end Comps.PyHeap
