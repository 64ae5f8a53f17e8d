import Verif.Model.CSet
import Verif.Model.Text

/-!
# Validation

`/repo/libcomps/src/comps_validate.c`.  `O` is the type of the objects messages refer to.
-/

namespace Comps.Val
open Text

/-- `COMPS_ValErr`, comps_validate.h:55-59. -/
structure Err (O : Type) where
  obj : O
  msg : Bytes
  deriving DecidableEq, Repr

/-- The two kinds of result created by the library: `COMPS_ValOkResult`, `COMPS_ValErrResult`
(comps_validate.h:44-53).  (`COMPS_ValGenResult` itself is never created.) -/
inductive ValRes (O : Type) where
  | ok
  | err (list : List (Err O))
  deriving DecidableEq, Repr

/-- A rule of a table: its text and what `rule_check` does (comps_validate.h:20-41). -/
structure Rule (O : Type) where
  msg : Bytes
  check : O → Res (ValRes O)

/-- `comps_validate_rule_prop_check` and `comps_validate_rule_list_check2`,
comps_validate.c:76-88, 102-113: get, check. -/
def propRule {O P : Type} (msg : Bytes) (get : O → Res P) (check : O → P → Res (ValRes O)) :
    Rule O :=
  ⟨msg, fun o => do check o (← get o)⟩

/-- `comps_valgenres_prefix`, comps_validate.c:47-64: the buffer of a message is enlarged to
`oldlen + strlen(prefix) + 1` bytes, the message moved behind the prefix. -/
def prefixErr {O : Type} (pre : Bytes) (e : Err O) : Res (Err O) := do
  let b ← Buf.fill (e.msg.length + pre.length + 1) (pre ++ e.msg)
  .ok { e with msg := b.str }

/-- `comps_valgenres_prefix`, comps_validate.c:47-64. -/
def prefixRes {O : Type} (pre : Bytes) : ValRes O → Res (ValRes O)
  | .ok => .ok .ok
  | .err es => do .ok (.err (← es.mapM (prefixErr pre)))

/-- `comps_valgenres_concat`, comps_validate.c:25-45, for an error result `*res1`
(`comps_objlist_concat_in` of two different lists, C49).  A result of the second kind other than an
error has no `err_list`. -/
def concatErr {O : Type} (res1 : List (Err O)) : ValRes O → Res (List (Err O))
  | .ok => .error .typeConfusion
  | .err es => .ok (res1 ++ es)

/-- The loop of `comps_validate_execute`, comps_validate.c:120-130; `none` is `valres == NULL`. -/
def executeLoop {O : Type} (o : O) :
    Option (List (Err O)) → List (Rule O) → Res (Option (List (Err O)))
  | valres, [] => .ok valres
  | valres, r :: rules => do
    let tmp ← r.check o
    match tmp with
    | .ok => executeLoop o valres rules
    | .err es => do
      let v := valres.getD []
      let tmp ← prefixRes r.msg (.err es)
      let v ← concatErr v tmp
      executeLoop o (some v) rules

/-- `comps_validate_execute`, comps_validate.c:115-136. -/
def execute {O : Type} (o : O) (rules : List (Rule O)) : Res (ValRes O) := do
  match ← executeLoop o none rules with
  | none => .ok .ok
  | some es => .ok (.err es)

/-- `comps_empty_check`, comps_validate.c:138-163: `none` is a NULL property, `some none` a string
object without text. -/
def emptyCheck {O : Type} (o : O) : Option (Option Bytes) → Res (ValRes O)
  | none => .ok (.err [⟨o, b!"attr not set"⟩])
  | some v => if strcmp (some []) v then .ok (.err [⟨o, b!"attr empty"⟩]) else .ok .ok

/-- An element of an object list: a pointer and the object it points to (`comps_obj`,
comps_objlist.h). -/
structure Ref (α : Type) where
  addr : Nat
  val : α
  deriving DecidableEq, Repr

/-- `comps_objlist_index`, comps_objlist.c:294-303: pointers are compared. -/
def index {α : Type} : List (Ref α) → Nat → Int
  | [], _ => -1
  | r :: l, a => if r.addr = a then 0 else
    match index l a with
    | .ofNat i => .ofNat (i + 1)
    | .negSucc i => .negSucc i

/-- `digits_count` of an `int` argument, converted to `unsigned int` (comps_validate.c:193-194,
comps_utils.c:62). -/
def digitsCountI : Int → Nat
  | .ofNat n => digitsCount n
  | .negSucc n => digitsCount (4294967295 - n)

/-- What `sprintf` writes for comps_validate.c:174, 195.
Simplification: `%d` applied to a `size_t` prints it, as it does on the supported platforms for
positions below 2^31. -/
def dupMsg (i : Int) (x : Nat) : Bytes :=
  b!"Duplicate items at " ++ decInt i ++ b!" and " ++ dec x

/-- The loop of `comps_objlist_unique_check`, comps_validate.c:179-200, over the rest of the list:
the messages created.  `set` and `x` as in the code.
Simplification: no element of the list is NULL. -/
def uniqueLoop {α : Type} (cmp : α → α → Bool) (l : List (Ref α)) :
    List (Ref α) → Nat → List (Ref α) → Res (List Bytes)
  | _, _, [] => .ok []
  | set, x, it :: its =>
    match CSet.dataAt (fun a b => cmp a.val b.val) set it with
    | none => uniqueLoop cmp l (CSet.add (fun a b => cmp a.val b.val) set it) (x + 1) its
    | some d => do
      let i := index l d.addr
      let b ← Buf.fill (28 - 3 + digitsCount x + digitsCountI i) (dupMsg i x)
      let ms ← uniqueLoop cmp l set (x + 1) its
      .ok (b.str :: ms)

/-- `comps_objlist_unique_check`, comps_validate.c:164-208; `none` is a NULL list. -/
def uniqueCheck {O α : Type} (cmp : α → α → Bool) (o : O) :
    Option (List (Ref α)) → Res (ValRes O)
  | none => .error .nullDeref
  | some l => do
    match ← uniqueLoop cmp l [] 0 l with
    | [] => .ok .ok
    | m :: ms => .ok (.err ((m :: ms).map fun m => ⟨o, m⟩))

/-- `comps_doc_listobjs_validate`, comps_doc.c:886-915, over the rest of the list: validate every
object, prefix the messages with its position and a dot (buffer of comps_doc.c:903). -/
def listLoop {O : Type} (rules : List (Rule O)) :
    Option (List (Err O)) → Nat → List O → Res (Option (List (Err O)))
  | valres, _, [] => .ok valres
  | valres, x, o :: os => do
    match ← execute o rules with
    | .ok => listLoop rules valres (x + 1) os
    | .err es => do
      let v := valres.getD []
      let b ← Buf.fill (digitsCount x * 3) (dec x ++ b!".")
      let tmp ← prefixRes b.str (.err es)
      let v ← concatErr v tmp
      listLoop rules (some v) (x + 1) os

/-- `comps_doc_listobjs_validate`, comps_doc.c:886-915; `none` is a NULL list. -/
def listValidate {O : Type} (rules : List (Rule O)) : Option (List O) → Res (ValRes O)
  | none => .error .nullDeref
  | some l => do
    match ← listLoop rules none 0 l with
    | none => .ok .ok
    | some es => .ok (.err es)

end Comps.Val
