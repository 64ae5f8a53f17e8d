import Verif.Model.Group

/-!
# Merging lists of objects, with owners

The loops that merge two lists of objects, `comps_docgroup_union` and its like
(`/repo/libcomps/src/comps_docgroup.c`, `comps_doccategory.c`, `comps_docenv.c`, `comps_doc.c`) and
`comps_groups_union` and its like (`/repo/libcomps/src/python/src/pycomps_groups.c`,
`pycomps_categories.c`, `pycomps_envs.c`), on memory in which every object has its number of owners.
`Verif/Model/Group.lean` and `Verif/Model/Doc.lean` have the values only.

Simplified: the memory holds objects of one kind, those in the lists; what an object contains (the
packages of a group, its dictionaries) is its value.  The lists and sets themselves belong to the
function that runs and are given by the pointers in them.
-/

namespace Comps.Own
variable {α : Type}

/-- An object: its value, and its number of owners, which is `ref_count + 1` (comps_mm.c:22-33; 0
when it was destroyed, comps_mm.c:35-42). -/
structure Cell (α : Type) where
  val : α
  owners : Nat

/-- Memory; a pointer is a position.  Positions are not used again. -/
abbrev Mem (α : Type) := List (Cell α)

/-- A read of the object `p`. -/
def load (m : Mem α) (p : Nat) : Res α :=
  match m[p]? with
  | none => .error .outOfBounds
  | some c => if c.owners = 0 then .error .useAfterFree else .ok c.val

/-- comps_obj.c:7-16 `comps_object_create`, 32-41 `comps_object_copy`: a new object with one owner. -/
def create (m : Mem α) (v : α) : Mem α × Nat := (m ++ [⟨v, 1⟩], m.length)

/-- comps_obj.c:74-78 `comps_object_incref`. -/
def incref (m : Mem α) (p : Nat) : Res (Mem α) :=
  match m[p]? with
  | none => .error .outOfBounds
  | some c => if c.owners = 0 then .error .useAfterFree else .ok (m.set p ⟨c.val, c.owners + 1⟩)

/-- comps_obj.c:18-26 `comps_object_destroy`. -/
def destroy (m : Mem α) (p : Nat) : Res (Mem α) :=
  match m[p]? with
  | none => .error .outOfBounds
  | some c => if c.owners = 0 then .error .useAfterFree else .ok (m.set p ⟨c.val, c.owners - 1⟩)

/-- comps_set.c:93-101 `comps_set_data_at` with the object `p`. -/
def dataAt (eqf : α → α → Bool) (m : Mem α) : List Nat → Nat → Res (Option Nat)
  | [], _ => .ok none
  | q :: qs, p => do
    let v ← load m q
    let w ← load m p
    if eqf v w then return some q else dataAt eqf m qs p

/-- comps_set.c:103-113 `comps_set_add`: the set, and whether the object is new in it. -/
def setAdd (eqf : α → α → Bool) (m : Mem α) (s : List Nat) (p : Nat) : Res (List Nat × Bool) := do
  match ← dataAt eqf m s p with
  | some _ => return (s, false)
  | none => return (s ++ [p], true)

/-- comps_set.c:49-53 `comps_set_destroy` of a set with the destructor `comps_object_destroy`. -/
def destroyAll (m : Mem α) : List Nat → Res (Mem α)
  | [] => .ok m
  | p :: ps => do destroyAll (← destroy m p) ps

/-- comps_objlist.c:294-303 `comps_objlist_index`. -/
def index : List Nat → Nat → Int
  | [], _ => -1
  | q :: qs, p => if q = p then 0 else
    match index qs p with
    | .ofNat i => .ofNat (i + 1)
    | .negSucc i => .negSucc i

/-- Memory, the result list and the set of a merge. -/
structure S (α : Type) where
  mem : Mem α
  ret : List Nat
  set : List Nat

section
variable (eqf : α → α → Bool) (copy : α → α)

/-- How the copies of the first list get their second owner.  `both`: always
(comps_docgroup.c:182-186, comps_doccategory.c:141-145, comps_docenv.c:167-171: `comps_object_incref` in the
argument of `comps_set_add`; pycomps_groups.c:396-400, pycomps_categories.c:323-327, pycomps_envs.c:344-348,
pycomps_groups.c:589-593: `comps_objlist_append`).  `ifNew`: when the set took it
(comps_docenv.c:192-201). -/
inductive Count where
  | both
  | ifNew
  deriving DecidableEq, Repr

/-- The loop over the first list (lines as for `Count`): a copy goes to the set and to the result. -/
def firstLoop (c : Count) : List Nat → S α → Res (S α)
  | [], s => .ok s
  | p :: ps, s => do
    let v ← load s.mem p
    let (m, q) := create s.mem (copy v)
    let (set, new) ← setAdd eqf m s.set q
    let m ← if c = .both ∨ new then incref m q else .ok m
    firstLoop c ps ⟨m, s.ret ++ [q], set⟩

/-- comps_objlist.c:250-271 `comps_objlist_remove_at` with the position of `d` in the result: the list, and
memory without this owner of `d`. -/
def takeOut (m : Mem α) (ret : List Nat) (d : Nat) : Res (Mem α × List Nat) := do
  match index ret d with
  | .negSucc _ => return (m, ret)
  | .ofNat i => return (← destroy m d, Obj.removeAt ret (.ofNat i))

/-- The loop over the second list (comps_docgroup.c:190-199, comps_doccategory.c:147-156,
comps_docenv.c:173-182 and 203-212, pycomps_groups.c:401-413, pycomps_categories.c:328-339,
pycomps_envs.c:349-362).  `make m d p` is the object that replaces the copy `d` because of `p`, `extra m p`
what is added for an object not in the set.  comps_objlist.c:233-240 `comps_objlist_insert_at_x` refuses the
position -1; then nobody owns the new object. -/
def secondLoop (make : Mem α → Nat → Nat → Res α) (extra : Mem α → Nat → Res (Mem α × Nat)) :
    List Nat → S α → Res (S α)
  | [], s => .ok s
  | p :: ps, s => do
    match ← dataAt eqf s.mem s.set p with
    | some d =>
      let i := index s.ret d
      let (m, ret) ← takeOut s.mem s.ret d
      let v ← make m d p
      let (m, q) := create m v
      secondLoop make extra ps ⟨m, Obj.insertAt ret i q, s.set⟩
    | none =>
      let (m, q) ← extra s.mem p
      secondLoop make extra ps ⟨m, s.ret ++ [q], s.set⟩

/-- comps_docgroup.c:193-194, comps_doccategory.c:150-151, comps_docenv.c:176-177, 206-207: a copy of the
second list's object. -/
def makeCopy (m : Mem α) (_ p : Nat) : Res α := do return copy (← load m p)

/-- comps_docgroup.c:196-197, comps_doccategory.c:153-154, comps_docenv.c:179-180, 209-210: likewise. -/
def extraCopy (m : Mem α) (p : Nat) : Res (Mem α × Nat) := do return create m (copy (← load m p))

/-- The packages of `comps_docgroup_union` (comps_docgroup.c:178-201), the ids of
`comps_doccategory_union` (comps_doccategory.c:136-157), the ids (comps_docenv.c:163-185,
`both`) and the options (comps_docenv.c:187-214, `ifNew`) of `comps_docenv_union`.  The result is memory
and the new list. -/
def union (c : Count) (m : Mem α) (l1 l2 : List Nat) : Res (Mem α × List Nat) := do
  let s ← firstLoop eqf copy c l1 ⟨m, [], []⟩
  let s ← secondLoop eqf (makeCopy copy) (extraCopy copy) l2 s
  return (← destroyAll s.mem s.set, s.ret)

/-- pycomps_groups.c:405-406, pycomps_categories.c:332-333, pycomps_envs.c:354-355: the union of the two
entries. -/
def makeUnion (mrg : α → α → α) (m : Mem α) (d p : Nat) : Res α := do
  return mrg (← load m d) (← load m p)

/-- pycomps_groups.c:411, pycomps_categories.c:337, pycomps_envs.c:360: the object itself, with one more
owner. -/
def extraShare (m : Mem α) (p : Nat) : Res (Mem α × Nat) := do return (← incref m p, p)

/-- pycomps_groups.c:381-415 `comps_groups_union`, pycomps_categories.c:309-342 `comps_cats_union`,
pycomps_envs.c:329-364 `comps_envs_union`. -/
def sum (mrg : α → α → α) (m : Mem α) (l1 l2 : List Nat) : Res (Mem α × List Nat) := do
  let s ← firstLoop eqf copy .both l1 ⟨m, [], []⟩
  let s ← secondLoop eqf (makeUnion mrg) extraShare l2 s
  return (← destroyAll s.mem s.set, s.ret)

/-- The loop over the second list of `comps_pkgs_union` (pycomps_groups.c:594-601): the copy gets
something of the other object. -/
def setLoop (put : α → α → α) : List Nat → S α → Res (S α)
  | [], s => .ok s
  | p :: ps, s => do
    match ← dataAt eqf s.mem s.set p with
    | some d =>
      let v ← load s.mem d
      let w ← load s.mem p
      match s.mem[d]? with
      | none => .error .outOfBounds
      | some c => setLoop put ps ⟨s.mem.set d ⟨put v w, c.owners⟩, s.ret, s.set⟩
    | none =>
      let (m, q) ← extraShare s.mem p
      setLoop put ps ⟨m, s.ret ++ [q], s.set⟩

/-- pycomps_groups.c:575-604 `comps_pkgs_union`. -/
def sumPkgs (put : α → α → α) (m : Mem α) (l1 l2 : List Nat) : Res (Mem α × List Nat) := do
  let s ← firstLoop eqf copy .both l1 ⟨m, [], []⟩
  let s ← setLoop eqf put l2 s
  return (← destroyAll s.mem s.set, s.ret)

/-- comps_doc.c:293-295, 319-321, 345-349: the set of copies.  A copy that the set refuses is forgotten. -/
def docFirst : List Nat → Mem α → List Nat → Res (Mem α × List Nat)
  | [], m, set => .ok (m, set)
  | p :: ps, m, set => do
    let v ← load m p
    let (m, q) := create m (copy v)
    let (set, _) ← setAdd eqf m set q
    docFirst ps m set

/-- comps_set.c:115-129 `comps_set_remove`: the set without the first object equal to `p`. -/
def setRemove (m : Mem α) : List Nat → Nat → Res (List Nat)
  | [], _ => .ok []
  | q :: qs, p => do
    let v ← load m q
    let w ← load m p
    if eqf v w then return qs else return q :: (← setRemove m qs p)

/-- comps_doc.c:298-311, 324-337, 353-366: the entries of the second document. -/
def docSecond (mrg : α → α → α) : List Nat → Mem α → List Nat → Res (Mem α × List Nat)
  | [], m, set => .ok (m, set)
  | p :: ps, m, set => do
    match ← dataAt eqf m set p with
    | some d =>
      let v ← load m d
      let w ← load m p
      let (m, q) := create m (mrg v w)
      let set ← setRemove eqf m set p
      let m ← destroy m d
      let (set, _) ← setAdd eqf m set q
      docSecond mrg ps m set
    | none =>
      let w ← load m p
      let (m, q) := create m (copy w)
      let (set, _) ← setAdd eqf m set q
      docSecond mrg ps m set

/-- comps_doc.c:290-316, 318-342, 344-372: one kind of entries of `comps_doc_union`; the objects of the set
go to the new document, which takes over their owner (comps_doc.h:141-143, `comps_objlist_append_x`). -/
def docUnion (mrg : α → α → α) (m : Mem α) (l1 l2 : List Nat) : Res (Mem α × List Nat) := do
  let (m, set) ← docFirst eqf copy l1 m []
  docSecond eqf copy mrg l2 m set

end

/-- pycomps_groups.c:596-597 in `comps_pkgs_union`: the type of `w` is put into `v`. -/
def takeType (v w : Obj.Package) : Obj.Package := { v with type := w.type }

end Comps.Own
