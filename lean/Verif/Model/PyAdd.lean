import Verif.Model.Basic

/-!
# The operator `+` of the Python types

The functions in the `nb_add` slots (`/repo/libcomps/src/python/src/pycomps.c`, `pycomps_groups.c`,
`pycomps_categories.c`, `pycomps_envs.c`), as far as they look at the types of the operands.  What they
compute is in `Verif/Model/Own.lean`, `Verif/Model/Group.lean` and `Verif/Model/Doc.lean`.

The choice of the function is Python's (`PyNumber_Add`): the slot of the left operand's type is called first;
if the type has none, or if the answer is `NotImplemented`, and the types differ, the slot of the right
operand's type is called, *with the operands in the same order*.  Simplified: classes derived from the types
of libcomps are left out, as are left operands of foreign classes that accept objects of libcomps.
-/

namespace Comps.PyAdd

/-- The types with an `nb_add` slot: pycomps.c:882, pycomps_groups.c:306, 504, 650,
pycomps_categories.c:234, 372, pycomps_envs.c:254, 395. -/
inductive Ty where
  | comps | group | groups | packages | category | categories | environment | environments
  deriving DecidableEq, Repr

/-- An operand of `+`: an object of one of these types, or anything else (`None`, numbers, strings, lists, the
other types of libcomps), whose type has no `nb_add` slot or one that answers `NotImplemented`. -/
inductive Operand where
  | ours (t : Ty)
  | other
  deriving DecidableEq, Repr

/-- The end of `a + b`: a new object of the type, `TypeError` raised by libcomps, or left to Python (which
raises `TypeError` itself, or concatenates sequences). -/
inductive Answer where
  | sum (t : Ty)
  | typeError
  | python
  deriving DecidableEq, Repr

/-- The slot of the type `t`: `PyCOMPS_union` (pycomps.c:846-864), `PyCOMPSGroup_union`
(pycomps_groups.c:23-39), `PyCOMPSGroups_union` (pycomps_groups.c:461-479), `PyCOMPSPacks_union`
(pycomps_groups.c:604-621), `PyCOMPSCat_union` (pycomps_categories.c:23-40), `PyCOMPSCats_union`
(pycomps_categories.c:343-360), `PyCOMPSEnv_union` (pycomps_envs.c:24-42), `PyCOMPSEnvs_union`
(pycomps_envs.c:365-382).  The type of `b` is compared; then `a` is used as an object of the type. -/
def slot (t : Ty) (a b : Operand) : Res Answer :=
  if b ≠ .ours t then .ok .typeError else
  if a ≠ .ours t then .error .typeConfusion else .ok (.sum t)

/-- `a + b`: the order of the slots as `PyNumber_Add` has it. -/
def add : Operand → Operand → Res Answer
  | .ours t, b => slot t (.ours t) b
  | .other, .ours t => slot t .other (.ours t)
  | .other, .other => .ok .python

end Comps.PyAdd
