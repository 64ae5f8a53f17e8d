import Verif.Model.PyComps

/-!
# Options in Python

`/repo/libcomps/src/python/src/pycomps.c`: the arguments `xml_options` and `def_options` of `xml_str`,
`xml_f`, `fromxml_str` and `fromxml_f`, and `libcomps.get_xml_default_options()`.

Left out: the memory of the options when a conversion fails (it is lost); that the converters return
`char` and are called as functions that return `int`.
-/

namespace Comps.PyComps
open Comps Comps.Obj Comps.Xml Comps.Parse Comps.Text

/-- A Python object as far as the converters look at it; `int` is also any object with `__index__`. -/
inductive PyVal where
  | bool (b : Bool)
  | int (n : Int)
  | other

/-- A Python dictionary with keys of type `str`. -/
abbrev PyMap := Bytes → Option PyVal

/-- pycomps.c:36-42 `keys` and 44-58 `props`. -/
def xmlKeys : List (Bytes × (Options → Bool → Options)) :=
  [(b!"empty_groups", fun o b => { o with emptyGroups := b }),
   (b!"empty_categories", fun o b => { o with emptyCategories := b }),
   (b!"empty_environments", fun o b => { o with emptyEnvironments := b }),
   (b!"empty_langpacks", fun o b => { o with emptyLangpacks := b }),
   (b!"empty_blacklist", fun o b => { o with emptyBlacklist := b }),
   (b!"empty_whiteout", fun o b => { o with emptyWhiteout := b }),
   (b!"empty_packages", fun o b => { o with emptyPackages := b }),
   (b!"empty_grouplist", fun o b => { o with emptyGrouplist := b }),
   (b!"empty_optionlist", fun o b => { o with emptyOptionlist := b }),
   (b!"uservisible_explicit", fun o b => { o with uservisibleExplicit := b }),
   (b!"biarchonly_explicit", fun o b => { o with biarchonlyExplicit := b }),
   (b!"default_explicit", fun o b => { o with defaultExplicit := b }),
   (b!"gid_default_explicit", fun o b => { o with gidDefaultExplicit := b }),
   (b!"bao_explicit", fun o b => { o with baoExplicit := b }),
   (b!"arch_output", fun o b => { o with archOutput := b })]

/-- pycomps.c:66-74, 109-117: one pass of the loop over the keys. -/
def takeBool {α : Type} (m : PyMap) (o : α) (k : Bytes × (α → Bool → α)) : α :=
  match m k.1 with
  | some (.bool b) => k.2 o b
  | _ => o

/-- pycomps.c:32-78 `__pycomps_dict_to_xml_opts`; the argument `none` is no dictionary, the result
`none` is 0, which Python turns into `TypeError`. -/
def toXmlOpts : Option PyMap → Option Options
  | none => none
  | some m => some (xmlKeys.foldl (takeBool m) Options.standard)

/-- pycomps.c:85-86 `keys2` and 89-91 `props2`. -/
def defKeys : List (Bytes × (Defaults → Bool → Defaults)) :=
  [(b!"default_uservisible", fun o b => { o with uservisible := b }),
   (b!"default_biarchonly", fun o b => { o with biarchonly := b }),
   (b!"default_default", fun o b => { o with dflt := b })]

/-- `PyLong_AsLong`, with the exception it may leave: no integer, or too large for a `long` (64 bits). -/
def asLong : PyVal → Int × Bool
  | .bool b => (if b then 1 else 0, false)
  | .int n => if -9223372036854775808 ≤ n ∧ n < 9223372036854775808 then (n, false) else (-1, true)
  | .other => (-1, true)

/-- pycomps.c:102-107: the numbers of the package types (comps_docpackage.h:36-38). -/
def pkgTypeOf (n : Int) : Option PkgType :=
  if n = 0 then some .default
  else if n = 1 then some .optional
  else if n = 2 then some .conditional
  else if n = 3 then some .mandatory
  else none

/-- pycomps.c:98-108: the only key of `keys1`; the exception of `PyLong_AsLong` stays set. -/
def takeType (m : PyMap) (o : Defaults) : Defaults × Bool :=
  match m b!"default_pkgtype" with
  | none => (o, false)
  | some v =>
    (match pkgTypeOf (asLong v).1 with
      | some t => { o with pkgtype := t }
      | none => o, (asLong v).2)

/-- pycomps.c:80-121 `__pycomps_dict_to_def_opts`, with the exception left set. -/
def toDefOpts : Option PyMap → Option (Defaults × Bool)
  | none => none
  | some m =>
    let (o, e) := takeType m Defaults.standard
    some (defKeys.foldl (takeBool m) o, e)

/-- An optional argument; the outer `none` is an argument not given. -/
def optional {α β : Type} (f : α → Option β) : Option α → Option (Option β)
  | none => some none
  | some x => (f x).map some

/-- The answer of a call that may have been left with an exception: one it raises itself replaces it,
a result together with it is `SystemError` (`_Py_CheckFunctionResult`). -/
def finish (pending : Bool) (a : Ans) : Ans :=
  match pending, a with
  | true, .exc e => .exc e
  | true, _ => .exc .systemError
  | false, a => a

/-- The exception left by the second converter. -/
def pendingOf : Option (Defaults × Bool) → Bool
  | none => false
  | some x => x.2

variable (lt : UInt8 → UInt8 → Bool)

/-- pycomps.c:173-195 `xml_str(xml_options=xo, def_options=df)`. -/
def callXmlStr (st : St) (c : Nat) (xo df : Option (Option PyMap)) (fails : Nat → Bool) :
    Res (Ans × St) :=
  match optional toXmlOpts xo, optional toDefOpts df with
  | some o, some d => do
    let (a, st) ← step lt st (.xmlStr c o (d.map (·.1)) fails)
    return (finish (pendingOf d) a, st)
  | _, _ => .ok (.exc .typeError, st)

/-- pycomps.c:123-171 `xml_f(name, xml_options=xo, def_options=df)`. -/
def callXmlFile (st : St) (c : Nat) (name : Bytes) (xo df : Option (Option PyMap))
    (fails : Nat → Bool) (saved : Bool) : Res (Ans × St) :=
  match optional toXmlOpts xo, optional toDefOpts df with
  | some o, some d => do
    let (a, st) ← step lt st (.xmlFile c name o (d.map (·.1)) fails saved)
    return (finish (pendingOf d) a, st)
  | _, _ => .ok (.exc .typeError, st)

/-- comps_parse.c:213-216, 252-255: the options of the parser. -/
def withOpts (cx : Ctx) (d : Option (Defaults × Bool)) : Ctx :=
  { cx with opts := (d.map (·.1)).getD Defaults.standard }

/-- pycomps.c:327-380 `fromxml_str(text, options=df)`; the options in `cx` are not used. -/
def callFromStr (st : St) (c : Nat) (cx : Ctx) (text : Chunk) (df : Option (Option PyMap)) :
    Res (Ans × St) :=
  match optional toDefOpts df with
  | some d => do
    let (a, st) ← step lt st (.fromStr c (withOpts cx d) text)
    return (finish (pendingOf d) a, st)
  | none => .ok (.exc .typeError, st)

/-- pycomps.c:213-278 `fromxml_f(name, options=df)`. -/
def callFromFile (st : St) (c : Nat) (cx : Ctx) (file : Option (List Chunk))
    (df : Option (Option PyMap)) : Res (Ans × St) :=
  match optional toDefOpts df with
  | some d => do
    let (a, st) ← step lt st (.fromFile c (withOpts cx d) file)
    return (finish (pendingOf d) a, st)
  | none => .ok (.exc .typeError, st)

/-- pycomps.c:932-972 `get_xml_default_options()`: `props[x]` is a pointer, never NULL. -/
def xmlDefault : PyMap := fun k =>
  if k ∈ (xmlKeys.map (·.1)).take 14 then some (.bool true) else none

end Comps.PyComps
