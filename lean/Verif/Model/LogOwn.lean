import Verif.Model.Own

/-!
# Arguments of log entries and their owners

`/repo/libcomps/src/comps_log.c`, on memory in which every object has its number of owners
(`Verif/Model/Own.lean`), together with the calls by which a client makes, keeps, changes and drops the
objects it gives to the log (`/repo/libcomps/src/comps_obj.c`).

Simplified: the memory holds the argument objects only; the log and its entries belong to the caller
and to the log.  The variable arguments are a list of the right length.  Printing (`std_out`) is left
out; `PyLog` has the texts.
-/

namespace Comps.LogOwn
open Comps.Own
variable {α : Type}

/-- comps_log.h `COMPS_LOG_ENTRY_ERR`, `COMPS_LOG_ENTRY_WAR`. -/
inductive Kind where
  | err | war
  deriving DecidableEq

/-- comps_log.h `COMPS_LogEntry`; an argument may be NULL. -/
structure Entry where
  kind : Kind
  code : Nat
  args : List (Option Nat)

/-- comps_log.c:109-110 with comps_obj.c:32-41 `comps_object_copy`: NULL is copied as NULL. -/
def copyArg (m : Mem α) : Option Nat → Res (Mem α × Option Nat)
  | none => .ok (m, none)
  | some p => do
    let v ← load m p
    let r := create m v
    .ok (r.1, some r.2)

/-- comps_log.c:108-111: the loop over the arguments. -/
def copyArgs (m : Mem α) : List (Option Nat) → Res (Mem α × List (Option Nat))
  | [] => .ok (m, [])
  | a :: as => do
    let r ← copyArg m a
    let rs ← copyArgs r.1 as
    .ok (rs.1, r.2 :: rs.2)

/-- comps_log.c:82-84 with comps_obj.c:18-26 `comps_object_destroy`, which does nothing for NULL. -/
def destroyArgs (m : Mem α) : List (Option Nat) → Res (Mem α)
  | [] => .ok m
  | none :: as => destroyArgs m as
  | some p :: as => do
    let m ← destroy m p
    destroyArgs m as

/-- comps_hslist.c:254-272 `comps_hslist_clear` of the entries with comps_log.c:81-87
`comps_log_entry_destroy`; called by comps_log.c:66-68 `comps_log_destroy` through
`comps_hslist_destroy`, and by comps_parse.c:105. -/
def clear (m : Mem α) : List Entry → Res (Mem α)
  | [] => .ok m
  | e :: es => do
    let m ← destroyArgs m e.args
    clear m es

/-- The memory, the pointers the client got for the objects it made, in order, and the entries of the
log (comps_log.h `COMPS_Log`). -/
structure St (α : Type) where
  mem : Mem α
  ptr : List Nat
  entries : List Entry

/-- What a client does.  An object is named by its number among those the client made. -/
inductive Op (α : Type) where
  /-- `comps_str`, `comps_num` -/
  | new (v : α)
  /-- `comps_object_incref` -/
  | incref (k : Nat)
  /-- `comps_object_destroy` -/
  | drop (k : Nat)
  /-- `comps_str_set` -/
  | assign (k : Nat) (v : α)
  /-- `comps_log_error`, `comps_log_warning` -/
  | copying (kd : Kind) (code : Nat) (args : List (Option Nat))
  /-- `comps_log_error_x`, `comps_log_warning_x` -/
  | taking (kd : Kind) (code : Nat) (args : List (Option Nat))
  /-- the entries are cleared, or the log is destroyed -/
  | clear

/-- The pointer of an object of the client (see `St`, comps_log.h). -/
def at' (s : St α) (k : Nat) : Res Nat :=
  match s.ptr[k]? with
  | none => .error .outOfBounds
  | some p => .ok p

/-- The variable arguments (comps_log.c:109, 127). -/
def argsOf (s : St α) : List (Option Nat) → Res (List (Option Nat))
  | [] => .ok []
  | none :: as => do
    let rs ← argsOf s as
    .ok (none :: rs)
  | some k :: as => do
    let p ← at' s k
    let rs ← argsOf s as
    .ok (some p :: rs)

/-- comps_obj.c:177-181 `comps_str_set` on the object `p`. -/
def assign (m : Mem α) (p : Nat) (v : α) : Res (Mem α) :=
  match m[p]? with
  | none => .error .outOfBounds
  | some c => if c.owners = 0 then .error .useAfterFree else .ok (m.set p ⟨v, c.owners⟩)

/-- One call (comps_obj.c:18-26, 74-78, 157-176, comps_log.c:66-157). -/
def step (s : St α) : Op α → Res (St α)
  | .new v => .ok { s with mem := (create s.mem v).1, ptr := s.ptr ++ [(create s.mem v).2] }
  | .incref k => do
    let p ← at' s k
    let m ← Own.incref s.mem p
    .ok { s with mem := m }
  | .drop k => do
    let p ← at' s k
    let m ← Own.destroy s.mem p
    .ok { s with mem := m }
  | .assign k v => do
    let p ← at' s k
    let m ← assign s.mem p v
    .ok { s with mem := m }
  | .copying kd c args => do
    let ps ← argsOf s args
    let r ← copyArgs s.mem ps
    .ok { s with mem := r.1, entries := s.entries ++ [⟨kd, c, r.2⟩] }
  | .taking kd c args => do
    let ps ← argsOf s args
    .ok { s with entries := s.entries ++ [⟨kd, c, ps⟩] }
  | .clear => do
    let m ← LogOwn.clear s.mem s.entries
    .ok { s with mem := m, entries := [] }

/-- Calls one after another (comps_log.c). -/
def run (s : St α) : List (Op α) → Res (St α)
  | [] => .ok s
  | o :: os => do
    let s ← step s o
    run s os

/-- A new log and no objects (comps_log.c:52-61 `comps_log_create`). -/
def start : St α := ⟨[], [], []⟩

/-- What a reader of an entry sees in place of an argument (comps_log.c:170-171
`comps_object_tostr`): nothing for NULL, otherwise the value. -/
def showArg (m : Mem α) : Option Nat → Res (Option α)
  | none => .ok none
  | some p => do
    let v ← load m p
    .ok (some v)

/-- The arguments of an entry (comps_log.c:165-176 `__comps_log_entry_out`). -/
def showArgs (m : Mem α) : List (Option Nat) → Res (List (Option α))
  | [] => .ok []
  | a :: as => do
    let v ← showArg m a
    let vs ← showArgs m as
    .ok (v :: vs)

/-- All entries (comps_log.c:210-215 `comps_log_print`). -/
def showLog (m : Mem α) : List Entry → Res (List (Kind × Nat × List (Option α)))
  | [] => .ok []
  | e :: es => do
    let vs ← showArgs m e.args
    let r ← showLog m es
    .ok ((e.kind, e.code, vs) :: r)

end Comps.LogOwn
