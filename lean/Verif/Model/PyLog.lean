import Verif.Model.Xml

/-!
# Texts of the log

`/repo/libcomps/src/comps_log.c:164-193` and `get_last_log`, `get_last_errors` of
`/repo/libcomps/src/python/src/pycomps.c`.  `utf8` says which texts Python's UTF-8 decoder takes.
-/

namespace Comps.PyLog
open Comps Comps.Obj Comps.Text

/-- comps_obj.c:64-73 `comps_object_tostr` on an argument; NULL gives the empty text. -/
def argText : Option PVal → Res Bytes
  | none => .ok []
  | some v => Xml.valText v

/-- comps_log.c:164-175 `__comps_log_entry_out`: the texts of the arguments. -/
def argTexts : List (Option PVal) → Res (List Bytes)
  | [] => .ok []
  | a :: as => do return (← argText a) :: (← argTexts as)

/-- comps_log.c:177-193 `comps_log_entry_str`. -/
def entryText (e : LogEntry) : Res Bytes := do
  let args ← argTexts e.args
  return (← entryStr e.code args).str

/-- The entries whose type is `COMPS_LOG_ENTRY_WAR`.  The type is not kept in the model, but can be told:
`comps_log_warning_x` is called at comps_elem.c:781, 807, 823 (code 5), comps_parse.c:465 (code 27) and
comps_elem.c:855 (code 3), the last with `elem->name`, which is NULL there (comps_elem.c:903-911), unlike
the name at comps_elem.c:430, where code 3 is an error.  All other entries are errors. -/
def isWarning (e : LogEntry) : Bool :=
  e.code == 5 || e.code == 27 || (e.code == 3 && e.args.head? == some (some (.str ⟨none⟩)))

variable (utf8 : Bytes → Bool)

/-- pycomps.c:319-321, 297-299: the text as a Python string in the list.  If it cannot be decoded,
`PyList_Append(ret, NULL)` is an error that is not looked at, and `Py_DECREF(NULL)` reads NULL. -/
def appendText (ret : List Bytes) (e : LogEntry) : Res (List Bytes) := do
  let t ← entryText e
  if utf8 t then return ret ++ [t] else .error .nullDeref

/-- pycomps.c:305-324 `PyCOMPS_get_last_log`. -/
def lastLog (log : List LogEntry) : Res (List Bytes) := log.foldlM (appendText utf8) []

/-- pycomps.c:280-303 `PyCOMPS_get_last_errors`. -/
def lastErrors (log : List LogEntry) : Res (List Bytes) :=
  log.foldlM (fun ret e => if isWarning e then .ok ret else appendText utf8 ret e) []

end Comps.PyLog
