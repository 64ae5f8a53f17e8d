import Verif.Model.PyDict
import Verif.Model.Xml

/-!
# Python multi-dictionaries

`/repo/libcomps/src/python/src/pycomps_mdict.c`, that is `libcomps.MDict`, the type of
`Comps.blacklist` and `Comps.whiteout` (pycomps.c:429-499), on top of the multi-dictionary of
`Verif/Model/MRTree.lean`.

`utf8` stands for Python's UTF-8 decoder: which byte strings it accepts.

Simplified: an iterator is consumed at once, as `list(m)` does; a `StrSeq` obtained from `m[k]` is
used in the same expression (`m[k].append(s)`, `n[l] = m[k]`) and not kept; so value lists can be given
by their contents.  The dictionary `copy` makes is not used further.  Left out: the texts of
exceptions, failures of the Python runtime, reference counts (`has_key` keeps a reference to the
value list for ever), comparison with and update by objects that are not an `MDict`, deallocation.
-/

namespace Comps.PyMDict
open Comps Comps.Obj Comps.Text Comps.PyDict Comps.Xml

/-- How a call fails. -/
inductive Exc where
  | py (e : PyDict.Exc)
  | valueError
  /-- no such variable -/
  | nameError
  deriving DecidableEq, Repr

/-- What a call answers. -/
inductive Ans where
  /-- `None`, or a new object that is not looked at -/
  | done
  | exc (e : Exc)
  | bool (b : Bool)
  | num (n : Nat)
  /-- the elements of a list of strings, as read one by one: `none` is `UnicodeDecodeError` -/
  | seq (l : List (Option Bytes))
  | keys (l : List Bytes)
  | items (l : List (Bytes × List (Option Bytes)))
  | text (b : Bytes)
  deriving DecidableEq, Repr

/-- A dictionary: the tree without its `len`, the field `len` (`unsigned int`,
comps_objmradix.h:41-45), and whether the nodes were freed by `clear` (comps_objmradix.c:684-701) and
are still pointed to. -/
structure MD where
  tree : MTree CStr
  len : UInt32
  dead : Bool

/-- pycomps_mdict.c:55-67 `PyCOMPSMDict_new`. -/
def MD.new : MD := ⟨MTree.create, 0, false⟩

/-- comps_objmradix.c:362-460 `__comps_objmrtree_set`: one more in `len`, unless the key is empty. -/
def MD.put (m : MD) (k : Bytes) (v : MVal CStr) : MD :=
  ⟨MTree.setVal m.tree k v, if k.isEmpty then m.len else m.len + 1, m.dead⟩

/-- comps_objmradix.c:507-601 `comps_objmrtree_unset`: the length of the value list goes from
`len`, which wraps around. -/
def MD.cut (m : MD) (k : Bytes) : Res MD :=
  match MTree.unsetLoop k.length false k m.tree.subnodes with
  | .error f => .error f
  | .ok none => .ok m
  | .ok (some (s, d)) => .ok ⟨⟨s, m.tree.len⟩, m.len - UInt32.ofNat d, m.dead⟩

/-- Does the tree hold a node whose key is the whole of `k`, with nodes below it?  Then
comps_objmradix.c:553-557 empties the value list in place; otherwise 547-552 removes the node, and a
reference to the list keeps its elements.  The walk is the one of `unsetLoop`. -/
def inner : Nat → Bytes → HSList (MNode CStr) → Bool
  | 0, _, _ => false
  | _ + 1, [], _ => false
  | fuel + 1, c :: cs, l =>
    match RTree.findAt c l.items with
    | none => false
    | some (_, n) =>
      match RTree.matchKey n.key (c :: cs) with
      | .both _ => n.tail
      | .nodeEnds x => inner fuel ((c :: cs).drop x) n.subnodes
      | .keyEnds _ => false
      | .differ _ => false

/-- pycomps_mdict.c:427-448 `__pycomps_strlist_in`: the new list, and the exception set meanwhile.
A `str` without encoding gives an element with a NULL `val` and sets `TypeError`. -/
def listIn : List Arg → Option (List (MVal CStr)) × Option Exc
  | [] => (some [], none)
  | a :: as =>
    match valueIn a with
    | none => (none, some .valueError)
    | some v =>
      let (r, e) := listIn as
      (r.map (.one ⟨v⟩ :: ·), if e.isSome then e else if v.isNone then some (.py .typeError) else none)

/-- pycomps_mdict.c:244-262 of `PyCOMPSMDict_set`, with the elements of the list `ret`; 251-258 for an
empty one. -/
def MD.assign (m : MD) (k : Bytes) (vs : List (MVal CStr)) : Res MD :=
  if m.dead && !k.isEmpty then .error .useAfterFree else
  match m.cut k with
  | .error f => .error f
  | .ok m =>
    match vs with
    | [] => .ok ⟨MTree.setNull m.tree k, if k.isEmpty then m.len else m.len + 1, m.dead⟩
    | v :: vs => .ok ((v :: vs).foldl (fun m v => m.put k v) m)

/-- pycomps_mdict.c:262-264 of `PyCOMPSMDict_set`: `del m[k]`. -/
def MD.del (m : MD) (k : Bytes) : Res MD :=
  if m.dead && !k.isEmpty then .error .useAfterFree else m.cut k

/-- comps_objmradix.c:467-505 `comps_objmrtree_get`. -/
def MD.look (m : MD) (k : Bytes) : Res (Option (List (MVal CStr))) :=
  MTree.getAfter (if m.dead then none else some m.tree) k

/-- What is assigned: `m[k] = [...]`, `m[k] = n[l]`, or an object of another type. -/
inductive Val where
  | list (l : List Arg)
  | item (d : Nat) (key : Arg)
  | other

/-- The operations of a program on multi-dictionaries.  They are named by position. -/
inductive Op where
  /-- `MDict()` -/
  | new
  /-- `m[k] = v` -/
  | set (i : Nat) (k : Arg) (v : Val)
  /-- `del m[k]` -/
  | del (i : Nat) (k : Arg)
  /-- `m[k]`, `m.get(k)` -/
  | get (i : Nat) (k : Arg)
  /-- `m[k].append(v)` -/
  | append (i : Nat) (k v : Arg)
  | hasKey (i : Nat) (k : Arg)
  | len (i : Nat)
  /-- `list(m)`, `list(m.keys())` -/
  | keys (i : Nat)
  | items (i : Nat)
  | values (i : Nat)
  | str (i : Nat)
  | clear (i : Nat)
  | copy (i : Nat)
  | update (i j : Nat)
  /-- `m == n` -/
  | eq (i j : Nat)

/-- The dictionaries of a program. -/
abbrev St := List MD

section
variable (utf8 : Bytes → Bool)

/-- The elements of a `StrSeq`, as a program reads them: pycomps_utils.c:42-49 `__pycomps_str_out` on
each (`PyCOMPS_StrSeqInfo`, pycomps_mdict.c:597-603). -/
def seqOut (l : List (MVal CStr)) : Res (List (Option Bytes)) := do
  let ts ← mvalTexts l
  return ts.map fun b => if utf8 b then some b else none

/-- pycomps_mdict.c:197-218 `PyCOMPSMDict_get`: `m[k]` and `m.get(k)`. -/
def MD.getItem (m : MD) (key : Arg) : Res (Except Exc (List (MVal CStr))) :=
  match keyIn key with
  | .error e => .ok (.error (.py e))
  | .ok k => do
    match ← m.look k with
    | none => return .error (.py .keyError)
    | some l => return .ok l

/-- pycomps_mdict.c:224-243, what a value and a key give before anything is stored: the elements and the
key, or the exception.  `conv` is the list `ret` with the exception set meanwhile; a conversion of
the key that fails without an exception of its own (for `None`) raises that one. -/
def setArgs (conv : Option (List (MVal CStr)) × Option Exc) (key : Arg) :
    Except Exc (Bytes × List (MVal CStr)) :=
  match keyIn key with
  | .error .noException => .error (conv.2.getD (.py .noException))
  | .error e => .error (.py e)
  | .ok k =>
    match conv.1 with
    | none => .error (.py .typeError)
    | some l => .ok (k, l)

/-- pycomps_mdict.c:69-139 `PyCOMPSMDict_str`: the loop 77-98 and the last pair 99-120; the text of a
value is `comps_objlist_tostr_u`.  A key or value that does not decode makes `__pycomps_lang_decode`
(pycomps_utils.c:175-182) call `PyUnicode_FromObject(NULL)`, which reads the type of NULL.  For an empty
dictionary line 100 reads through the NULL `it`. -/
def strLoop : List (Bytes × List (MVal CStr)) → Res Bytes
  | [] => .error .nullDeref
  | (k, l) :: ps =>
    if utf8 k then do
      let t ← mvalText (.nested l)
      if utf8 t then
        match ps with
        | [] => return k ++ b!" = '" ++ t ++ b!"'"
        | _ :: _ => do
          let rest ← strLoop ps
          return k ++ b!" = '" ++ t ++ b!"', " ++ rest
      else .error .nullDeref
    else .error .nullDeref

/-- pycomps_mdict.c:34-47 `__pycomps_mdict_pair_out` for every pair: `PyTuple_Pack` counts a reference to
the key, which is NULL if it does not decode. -/
def itemsOut : List (Bytes × List (MVal CStr)) → Res (List (Bytes × List (Option Bytes)))
  | [] => .ok []
  | (k, l) :: ps =>
    if utf8 k then do
      let s ← seqOut utf8 l
      let rest ← itemsOut ps
      return (k, s) :: rest
    else .error .nullDeref

/-- The elements `comps_objmrtree_unite` (comps_objmradix.c:281-353) takes from a tree. -/
def count (t : MTree CStr) : Nat := ((MTree.pairs t).map fun e => e.2.length).sum

/-- pycomps_mdict.c:181-195 `PyCOMPSMDict_update`, comps_objmradix.c:281-353 `comps_objmrtree_unite`, for
two different dictionaries: one more in `len` for every element. -/
def MD.update (m n : MD) : Res MD :=
  if n.dead then .error .useAfterFree
  else if count n.tree = 0 then .ok m
  else if m.dead then .error .useAfterFree
  else .ok ⟨MTree.unite m.tree n.tree, m.len + UInt32.ofNat (count n.tree), false⟩

/-- `m.update(m)`: comps_objmradix.c:328-333 adds each element of a value list to the end of that list
while going through it. -/
def MD.updateSelf (m : MD) : Res MD :=
  if m.dead then .error .useAfterFree
  else if count m.tree = 0 then .ok m
  else .error .diverges

/-- One call. -/
def step (st : St) : Op → Res (St × Ans)
  | .new => .ok (st ++ [MD.new], .done)
  | .set i key v =>                              -- pycomps_mdict.c:220-269
    match st[i]? with
    | none => .ok (st, .exc .nameError)
    | some m =>
      match v with
      | .other =>
        match setArgs (none, none) key with
        | .error e => .ok (st, .exc e)
        | .ok _ => .ok (st, .done)
      | .list as =>
        match setArgs (listIn as) key with
        | .error e => .ok (st, .exc e)
        | .ok (k, l) => do
          let m ← m.assign k l
          return (st.set i m, if (listIn as).2.isSome then .exc (.py .pending) else .done)
      | .item j src =>
        match st[j]? with
        | none => .ok (st, .exc .nameError)
        | some n => do
          match ← n.getItem src with
          | .error e => return (st, .exc e)
          | .ok l =>
            match setArgs (some l, none) key with
            | .error e => return (st, .exc e)
            | .ok (k, l) =>
              let l := if i = j ∧ (keyIn src).toOption = some k ∧ inner k.length k m.tree.subnodes then [] else l
              let m ← m.assign k l
              return (st.set i m, .done)
  | .del i key =>                                -- pycomps_mdict.c:220-269 with NULL
    match st[i]? with
    | none => .ok (st, .exc .nameError)
    | some m =>
      match keyIn key with
      | .error e => .ok (st, .exc (.py e))
      | .ok k => do
        let m ← m.del k
        return (st.set i m, .done)
  | .get i key =>                                -- pycomps_mdict.c:197-218
    match st[i]? with
    | none => .ok (st, .exc .nameError)
    | some m => do
      match ← m.getItem key with
      | .error e => return (st, .exc e)
      | .ok l => return (st, .seq (← seqOut utf8 l))
  | .append i key v =>                           -- pycomps_mdict.c:197-218, pycomps_sequence.c:436-453
    match st[i]? with
    | none => .ok (st, .exc .nameError)
    | some m => do
      match ← m.getItem key with
      | .error e => return (st, .exc e)
      | .ok _ =>
        match keyIn key, valueIn v with
        | .ok k, some x =>
          return (st.set i ⟨MTree.setVal m.tree k (.one ⟨x⟩), m.len, m.dead⟩,
            if x.isNone then .exc (.py .pending) else .done)
        | _, _ => return (st, .exc (.py .typeError))
  | .hasKey i key =>                             -- pycomps_mdict.c:322-335
    match st[i]? with
    | none => .ok (st, .exc .nameError)
    | some m =>
      match keyIn key with
      | .error e => .ok (st, .exc (.py e))
      | .ok k => do return (st, .bool (← m.look k).isSome)
  | .len i =>                                    -- pycomps_mdict.c:166-168
    match st[i]? with
    | none => .ok (st, .exc .nameError)
    | some m => .ok (st, .num m.len.toNat)
  | .keys i =>                                   -- pycomps_mdict.c:337-345, 533-544, pycomps_utils.c:26-28
    match st[i]? with
    | none => .ok (st, .exc .nameError)
    | some m =>
      if m.dead then .error .useAfterFree
      else if (MTree.keys m.tree).all utf8 then .ok (st, .keys (MTree.keys m.tree))
      else .ok (st, .exc (.py .unicodeError))
  | .items i =>                                  -- pycomps_mdict.c:347-355, 533-544
    match st[i]? with
    | none => .ok (st, .exc .nameError)
    | some m =>
      if m.dead then .error .useAfterFree
      else do return (st, .items (← itemsOut utf8 (MTree.pairs m.tree)))
  | .values i =>                                 -- pycomps_mdict.c:357-365: 23-32 takes a list as a pair
    match st[i]? with
    | none => .ok (st, .exc .nameError)
    | some m =>
      if m.dead then .error .useAfterFree
      else if (MTree.values m.tree).isEmpty then .ok (st, .seq [])
      else .error .typeConfusion
  | .str i =>                                    -- pycomps_mdict.c:69-139
    match st[i]? with
    | none => .ok (st, .exc .nameError)
    | some m =>
      if m.dead then .error .useAfterFree
      else do return (st, .text (b!"{" ++ (← strLoop utf8 (MTree.pairs m.tree)) ++ b!"}"))
  | .clear i =>                                  -- pycomps_mdict.c:169-172, comps_objmradix.c:684-701
    match st[i]? with
    | none => .ok (st, .exc .nameError)
    | some m =>
      if m.dead then .error .useAfterFree
      else .ok (st.set i { m with dead := (MTree.clear m.tree).isNone }, .done)
  | .copy i =>                                   -- pycomps_mdict.c:173-180, comps_objmradix.c:172-224
    match st[i]? with
    | none => .ok (st, .exc .nameError)
    | some m =>
      if m.dead then .error .useAfterFree
      else do
        let _ ← MTree.copy m.tree
        return (st, .done)
  | .update i j =>                               -- pycomps_mdict.c:181-195
    match st[i]?, st[j]? with
    | some m, some n => do
      let m ← if i = j then m.updateSelf else m.update n
      return (st.set i m, .done)
    | _, _ => .ok (st, .exc .nameError)
  | .eq i j =>                                   -- pycomps_mdict.c:141-164, comps_objmradix.c:711-737
    match st[i]?, st[j]? with
    | some m, some n =>
      if m.dead || n.dead then .error .useAfterFree
      else .ok (st, .bool (MTree.cmp mlistCmp m.tree n.tree))
    | _, _ => .ok (st, .exc .nameError)

/-- A program: the answers in order, until the end or a fault. -/
def run (st : St) : List Op → Res (St × List Ans)
  | [] => .ok (st, [])
  | op :: ops => do
    let (st, a) ← step utf8 st op
    let (st, as) ← run st ops
    return (st, a :: as)

end
end Comps.PyMDict
