import Verif.Model.RTree
import Verif.Model.Obj

/-!
# Python dictionaries of strings

`/repo/libcomps/src/python/src/pycomps_dict.c` with `PyCOMPS_StrDictInfo` (lines 541-547), that is
`libcomps.StrDict`, and the conversions of `pycomps_utils.c`.  A dictionary is a radix tree
(`Verif/Model/RTree.lean`) whose values are addresses of reference-counted `COMPS_Str` objects, so
that an object shared by two dictionaries, or read after it was freed, is visible.

`utf8` stands for Python's UTF-8 decoder: which byte strings it accepts.  A Python string is given
by its UTF-8 encoding, or by `none` when it has none (lone surrogates).

Left out: the texts of exceptions, failures of the Python runtime itself, the memory of tree nodes
and of temporary strings (only `COMPS_Str` objects are counted), subclasses of `str` and `bytes`.
-/

namespace Comps.PyDict
open Comps Comps.Obj

/-- How a call fails. -/
inductive Exc where
  | keyError
  | typeError
  /-- `UnicodeDecodeError`, set by `PyUnicode_FromString` -/
  | unicodeError
  /-- the call reports failure and no exception is set: Python raises `SystemError` -/
  | noException
  /-- the call reports success and an exception is set: it surfaces later, or as `SystemError` -/
  | pending
  deriving DecidableEq, Repr

/-- What a Python program passes as a key or a value. -/
inductive Arg where
  /-- a `str`, by its UTF-8 encoding if it has one -/
  | str (utf8 : Option Bytes)
  | bytes (b : Bytes)
  | none
  | other
  deriving DecidableEq, Repr

/-- What a call answers. -/
inductive Ans where
  /-- `None`, for calls that return nothing else -/
  | done
  | exc (e : Exc)
  /-- `None` as the answer of `get` -/
  | none
  | text (b : Bytes)
  | bool (b : Bool)
  | num (n : Nat)
  | pair (k v : Bytes)
  /-- `StopIteration` -/
  | stop
  /-- a new dictionary or iterator -/
  | object
  deriving DecidableEq, Repr

/-- The bytes C sees: up to the first NUL (`strlen`, pycomps_utils.c:125-126, comps_obj.c:163-171). -/
def cstr (b : Bytes) : Bytes := b.takeWhile (· ≠ 0)

/-- pycomps_utils.c:136-148 `__pycomps_stringable_to_char` with `__pycomps_arg_to_unicode`
(80-95) and `__pycomps_PyUnicode_AsString` (108-134).  For `None` it returns 1 and sets no
exception. -/
def keyIn : Arg → Except Exc Bytes
  | .str (some b) => .ok (cstr b)
  | .str none => .error .typeError
  | .bytes _ => .error .typeError
  | .none => .error .noException
  | .other => .error .typeError

/-- pycomps_dict.c:225-232 with `__pycomps_unicode_in` and `__pycomps_bytes_in`
(pycomps_utils.c:30-40): the `val` of the new `COMPS_Str`; `none` outside when no conversion
applies.  A string without encoding gives an object with a NULL `val`. -/
def valueIn : Arg → Option (Option Bytes)
  | .str (some b) => some (some (cstr b))
  | .str none => some none
  | .bytes b => some (some (cstr b))
  | .none => none
  | .other => none

/-! ## Reference-counted strings -/

/-- A `COMPS_Str` with its `refc->ref_count` (comps_obj.h:74-86, comps_mm.h). -/
structure Str where
  rc : Nat
  val : Option Bytes
  deriving DecidableEq, Repr

/-- The `COMPS_Str` objects by address; `none` once freed. -/
abbrev Store := List (Option Str)

/-- Reading an object. -/
def load (s : Store) (a : Nat) : Res Str :=
  match s[a]? with
  | some (some o) => .ok o
  | _ => .error .useAfterFree

/-- comps_obj.c:163-178 `comps_str`, `comps_str_x`: a new object, with count 0
(comps_mm.c:21-32 `comps_refc_create`). -/
def alloc (s : Store) (v : Option Bytes) : Store × Nat := (s ++ [some ⟨0, v⟩], s.length)

/-- comps_obj.c `comps_object_incref`. -/
def incref (s : Store) (a : Nat) : Res Store := do
  let o ← load s a
  return s.set a (some { o with rc := o.rc + 1 })

/-- comps_obj.c:17-26 `comps_object_destroy`: counts down, frees at count 0. -/
def destroy (s : Store) (a : Nat) : Res Store := do
  let o ← load s a
  match o.rc with
  | 0 => return s.set a none
  | n + 1 => return s.set a (some { o with rc := n })

/-- `comps_object_destroy` on each of several objects. -/
def destroyAll (s : Store) : List Nat → Res Store
  | [] => .ok s
  | a :: as => do destroyAll (← destroy s a) as

/-- `comps_object_incref` on each of several objects. -/
def increfAll (s : Store) : List Nat → Res Store
  | [] => .ok s
  | a :: as => do increfAll (← incref s a) as

/-- comps_obj.c:134-145 `comps_str_tostr`. -/
def tostr (o : Str) : Bytes := o.val.getD []

section
variable (lt : UInt8 → UInt8 → Bool) (utf8 : Bytes → Bool)

/-- pycomps_dict.c:23-29 `__pycomps_dict_val_out`, pycomps_utils.c:42-49 `__pycomps_str_out`:
`PyUnicode_FromString`. -/
def textOut (b : Bytes) : Ans := if utf8 b then .text b else .exc .unicodeError

/-! ## Operations on one dictionary -/

/-- comps_objradix.c:340-445 `__comps_objrtree_set` together with what it does to the object it
replaces: the object found at the key is destroyed (line 388).  In the branch that drops nodes
nothing is destroyed. -/
def treeSet (s : Store) (t : RTree Nat) (k : Bytes) (a : Nat) : Res (Store × RTree Nat) :=
  match t.get k with
  | none => .ok (s, t.set lt k (some a))
  | some o => do
    let s ← destroy s o
    return (s, t.set lt k (some a))

/-- pycomps_dict.c:222-249 `PyCOMPSDict_set`; `none` as value is NULL, which is what Python passes
for `del d[k]`.  Line 226 reads the type of NULL. -/
def setItem (s : Store) (t : RTree Nat) (key : Arg) : Option Arg → Res (Store × RTree Nat × Ans)
  | none => .error .nullDeref
  | some v =>
    match valueIn v with
    | none =>
      match keyIn key with
      | .error e => .ok (s, t, .exc e)
      | .ok _ => .ok (s, t, .exc .typeError)
    | some x =>
      let (s, a) := alloc s x
      match keyIn key with
      | .error e => .ok (s, t, .exc e)
      | .ok k => do
        let (s, t) ← treeSet lt s t k a
        return (s, t, if x.isNone then .exc .pending else .done)

/-- pycomps_dict.c:177-195 `PyCOMPSDict_get`, the subscript `d[k]`. -/
def getItem (s : Store) (t : RTree Nat) (key : Arg) : Res (Store × Ans) :=
  match keyIn key with
  | .error e => .ok (s, .exc e)
  | .ok k =>
    match t.get k with
    | none => .ok (s, .exc .keyError)
    | some a => do
      let s ← incref s a
      let o ← load s a
      let s ← destroy s a
      return (s, textOut utf8 (tostr o))

/-- pycomps_dict.c:197-218 `PyCOMPSDict_get_`, the method `get`. -/
def getMethod (s : Store) (t : RTree Nat) (key : Arg) : Res (Store × Ans) :=
  match keyIn key with
  | .error e => .ok (s, .exc e)
  | .ok k =>
    match t.get k with
    | none => .ok (s, .none)
    | some a => do
      let s ← incref s a
      let o ← load s a
      let s ← destroy s a
      return (s, textOut utf8 (tostr o))

/-- pycomps_dict.c:303-316 `PyCOMPSDict_has_key`: the reference obtained is not given back. -/
def hasKey (s : Store) (t : RTree Nat) (key : Arg) : Res (Store × Ans) :=
  match keyIn key with
  | .error e => .ok (s, .exc e)
  | .ok k =>
    match t.get k with
    | none => .ok (s, .bool false)
    | some a => do
      let s ← incref s a
      return (s, .bool true)

/-- The calls `comps_objrtree_set(rt1, key, data)` of comps_objradix.c:699-740
`comps_objrtree_unite`, in order: the same queue as `RTree.uniteLoop`. -/
def uniteVisits : Nat → List (Bytes × List (Node Nat)) → List (Bytes × Nat)
  | 0, _ => []
  | _ + 1, [] => []
  | fuel + 1, (k, l) :: queue =>
    (l.filterMap fun n => n.data.map fun v => (k ++ n.key, v)) ++
      uniteVisits fuel
        (queue ++ (l.filter fun n => !n.sub.isEmpty).map fun n => (k ++ n.key, n.sub))

/-- The calls of comps_objradix.c:728 carried out: `comps_objrtree_set` (450-452) takes a reference
and stores it. -/
def uniteSets (s : Store) (t : RTree Nat) : List (Bytes × Nat) → Res (Store × RTree Nat)
  | [] => .ok (s, t)
  | (k, a) :: ws => do
    let s ← incref s a
    let (s, t) ← treeSet lt s t k a
    uniteSets s t ws

/-- pycomps_dict.c:161-175 `PyCOMPSDict_update` with a dictionary.  Simplified for `d.update(d)`:
the nodes visited are those present at the start (each call finds its key there and changes only
the value of that node, to what it was). -/
def update (s : Store) (t1 t2 : RTree Nat) : Res (Store × RTree Nat) :=
  uniteSets lt s t1
    (uniteVisits (RTree.listCount t2.subnodes.items + 1) [([], t2.subnodes.items)])

/-- pycomps_dict.c:81-101: the loop of `PyCOMPSDict_str`.  A key or value that does not decode makes
`__pycomps_lang_decode` (pycomps_utils.c:175-182) call `PyUnicode_FromObject(NULL)`, which reads
the type of NULL. -/
def strLoop (s : Store) : List (Bytes × Nat) → Res Bytes
  | [] => .ok []
  | (k, a) :: ps =>
    if utf8 k then do
      let o ← load s a
      if utf8 (tostr o) then do
        let rest ← strLoop s ps
        return k ++ [32, 61, 32, 39] ++ tostr o ++ [39, 44, 32] ++ rest
      else .error .nullDeref
    else .error .nullDeref

/-- pycomps_dict.c:73-119 `PyCOMPSDict_str`. -/
def str (s : Store) (t : RTree Nat) : Res Bytes := do
  let b ← strLoop utf8 s t.pairs
  return [123] ++ b ++ [125]

/-- comps_obj.c:147-154 `comps_str_cmp_u` on two addresses. -/
def strCmp (s : Store) (a b : Nat) : Bool :=
  match load s a, load s b with
  | .ok x, .ok y => CStr.cmp ⟨x.val⟩ ⟨y.val⟩
  | _, _ => false

/-- Reading several objects. -/
def loadAll (s : Store) : List Nat → Res Unit
  | [] => .ok ()
  | a :: as => do
    let _ ← load s a
    loadAll s as

/-- pycomps_dict.c:137-138: `comps_object_cmp` on two dictionaries, that is comps_objradix.c:297-337
`comps_objrtree_cmp`.  Simplified: all values are read first, whether compared or not. -/
def same (s : Store) (t1 t2 : RTree Nat) : Res Bool := do
  loadAll s (t1.values ++ t2.values)
  return RTree.cmp (strCmp s) t1 t2

/-! ## Sessions -/

/-- An iterator (pycomps_dict.c:318-346): what is left of the list made when it was created.  Keys
are copies; values are pointers to objects the iterator holds no reference to. -/
inductive Iter where
  | keys (l : List Bytes)
  | values (l : List Nat)
  | items (l : List (Bytes × Nat))
  deriving Repr

/-- The state of a Python program that uses string dictionaries: objects, dictionaries (`none` once
deallocated), iterators.  Dictionaries and iterators are named by position. -/
structure St where
  store : Store
  dicts : List (Option (RTree Nat))
  iters : List Iter

/-- The comparison operators: `==`, `!=`, and the others. -/
inductive Rel where
  | eq
  | ne
  | order
  deriving DecidableEq, Repr

/-- The operations of a program on string dictionaries. -/
inductive Op where
  /-- `StrDict()` -/
  | new
  /-- `d[k] = v` -/
  | set (i : Nat) (k v : Arg)
  /-- `del d[k]` -/
  | del (i : Nat) (k : Arg)
  /-- `d[k]` -/
  | getItem (i : Nat) (k : Arg)
  /-- `d.get(k)` -/
  | get (i : Nat) (k : Arg)
  | hasKey (i : Nat) (k : Arg)
  | len (i : Nat)
  | clear (i : Nat)
  | copy (i : Nat)
  | update (i j : Nat)
  /-- `d.update(x)` where `x` is not a dictionary -/
  | updateOther (i : Nat)
  /-- `str(d)` -/
  | str (i : Nat)
  | cmp (r : Rel) (i j : Nat)
  /-- comparison with something that is not a dictionary -/
  | cmpOther (r : Rel) (i : Nat)
  /-- the last reference to the dictionary goes away -/
  | drop (i : Nat)
  /-- `iter(d)`, `d.keys()` -/
  | iterKeys (i : Nat)
  | iterValues (i : Nat)
  | iterItems (i : Nat)
  /-- `next(it)` -/
  | next (j : Nat)
  deriving DecidableEq, Repr

/-- The dictionary with a name, if there is one. -/
def dictAt (st : St) (i : Nat) : Option (RTree Nat) := (st.dicts[i]?).join

/-- pycomps_dict.c:469-480 `PyCOMPSDict_iternext` with `__pycomps_dict_key_out`
(pycomps_utils.c:26-28), `__pycomps_dict_val_out` and `__pycomps_dict_pair_out`
(pycomps_dict.c:23-43).  `PyTuple_Pack` with NULL reads NULL. -/
def iterNext (s : Store) : Iter → Res (Iter × Ans)
  | .keys [] => .ok (.keys [], .stop)
  | .keys (k :: l) => .ok (.keys l, textOut utf8 k)
  | .values [] => .ok (.values [], .stop)
  | .values (a :: l) => do
    let o ← load s a
    return (.values l, textOut utf8 (tostr o))
  | .items [] => .ok (.items [], .stop)
  | .items ((k, a) :: l) => do
    let o ← load s a
    if utf8 k && utf8 (tostr o) then return (.items l, .pair k (tostr o))
    else .error .nullDeref

/-- A program naming a dictionary or iterator it does not have; no library code runs. -/
def noObject (st : St) : Res (St × Ans) := .ok (st, .exc .typeError)

/-- One operation. `new`: pycomps_dict.c:51-63; `len`: 146-148; `clear`: 149-152 with
comps_objradix.c:613-617, destroying the values of all nodes; `copy`: 153-160 with
comps_objradix.c:205-260, taking a reference to every value; `update`: 161-175; `cmp`: 121-144;
`drop`: 45-49 `PyCOMPSDict_dealloc`; iterators: 318-346.  Creating operations always add a name,
so that names do not depend on the run. -/
def step (st : St) : Op → Res (St × Ans)
  | .new => .ok ({ st with dicts := st.dicts ++ [some RTree.create] }, .object)
  | .set i k v =>
    match dictAt st i with
    | none => noObject st
    | some t => do
      let (s, t, x) ← setItem lt st.store t k (some v)
      return ({ st with store := s, dicts := st.dicts.set i (some t) }, x)
  | .del i k =>
    match dictAt st i with
    | none => noObject st
    | some t => do
      let (s, t, x) ← setItem lt st.store t k none
      return ({ st with store := s, dicts := st.dicts.set i (some t) }, x)
  | .getItem i k =>
    match dictAt st i with
    | none => noObject st
    | some t => do
      let (s, x) ← getItem utf8 st.store t k
      return ({ st with store := s }, x)
  | .get i k =>
    match dictAt st i with
    | none => noObject st
    | some t => do
      let (s, x) ← getMethod utf8 st.store t k
      return ({ st with store := s }, x)
  | .hasKey i k =>
    match dictAt st i with
    | none => noObject st
    | some t => do
      let (s, x) ← hasKey st.store t k
      return ({ st with store := s }, x)
  | .len i =>
    match dictAt st i with
    | none => noObject st
    | some t => .ok (st, .num t.len)
  | .clear i =>
    match dictAt st i with
    | none => noObject st
    | some t => do
      let s ← destroyAll st.store t.values
      return ({ st with store := s, dicts := st.dicts.set i (some t.clear) }, .done)
  | .copy i =>
    match dictAt st i with
    | none => noObject { st with dicts := st.dicts ++ [none] }
    | some t => do
      let s ← increfAll st.store t.values
      return ({ st with store := s, dicts := st.dicts ++ [some (t.copy id)] }, .object)
  | .update i j =>
    match dictAt st i, dictAt st j with
    | some t1, some t2 => do
      let (s, t) ← update lt st.store t1 t2
      return ({ st with store := s, dicts := st.dicts.set i (some t) }, .done)
    | _, _ => noObject st
  | .updateOther _ => .ok (st, .exc .typeError)
  | .str i =>
    match dictAt st i with
    | none => noObject st
    | some t => do
      let b ← str utf8 st.store t
      return (st, .text b)
  | .cmp r i j =>
    match dictAt st i, dictAt st j with
    | some t1, some t2 =>
      match r with
      | .order => .ok (st, .exc .pending)
      | .eq => do
        let b ← same st.store t1 t2
        return (st, .bool b)
      | .ne => do
        let b ← same st.store t1 t2
        return (st, .bool !b)
    | _, _ => noObject st
  | .cmpOther _ _ => .ok (st, .exc .typeError)
  | .drop i =>
    match dictAt st i with
    | none => noObject st
    | some t => do
      let s ← destroyAll st.store t.values
      return ({ st with store := s, dicts := st.dicts.set i none }, .done)
  | .iterKeys i =>
    match dictAt st i with
    | none => noObject { st with iters := st.iters ++ [.keys []] }
    | some t => .ok ({ st with iters := st.iters ++ [.keys t.keys] }, .object)
  | .iterValues i =>
    match dictAt st i with
    | none => noObject { st with iters := st.iters ++ [.keys []] }
    | some t => .ok ({ st with iters := st.iters ++ [.values t.values] }, .object)
  | .iterItems i =>
    match dictAt st i with
    | none => noObject { st with iters := st.iters ++ [.keys []] }
    | some t => .ok ({ st with iters := st.iters ++ [.items t.pairs] }, .object)
  | .next j =>
    match st.iters[j]? with
    | none => noObject st
    | some it => do
      let (it, x) ← iterNext utf8 st.store it
      return ({ st with iters := st.iters.set j it }, x)

/-- A program: its operations one after the other, with the answers. -/
def run (st : St) : List Op → Res (St × List Ans)
  | [] => .ok (st, [])
  | op :: ops => do
    let (st, x) ← step lt utf8 st op
    let (st, xs) ← run st ops
    return (st, x :: xs)

/-- Before anything happened. -/
def start : St := ⟨[], [], []⟩

end
end Comps.PyDict
