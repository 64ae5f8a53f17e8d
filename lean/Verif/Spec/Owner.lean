import Verif.Model.RefC

/-!
# The ownership discipline of a client

A client program owns references (`hands`: one entry per reference).  Creating or retaining an
object gives it one, releasing an object or handing it to a list takes one away.  The calls a
client is entitled to make are those on objects it owns a reference to.
-/

namespace Comps.RefC

/-- The calls of a client (comps_obj.h, comps_objlist.h). -/
inductive Call where
  | create
  | retain (o : Nat)
  | release (o : Nat)
  | append (l o : Nat)
  | appendX (l o : Nat)
  | removeAt (l i : Nat)
  | get (l i : Nat)
  | setAt (l i o : Nat)
  | clear (l : Nat)
  | concatIn (l l2 : Nat)
  | concat (l1 l2 : Nat)
  deriving DecidableEq, Repr

/-- Memory, the references of the client and the destructors run so far. -/
structure St where
  heap : Heap
  hands : List Nat
  log : List Nat
  deriving DecidableEq, Repr

/-- The state before the first call. -/
def St.init : St := ⟨[], [], []⟩

/-- The client owns the references the call needs.  Nothing is asked about the objects inside. -/
def Call.allowed (s : St) : Call → Prop
  | .create => True
  | .retain o => o ∈ s.hands
  | .release o => o ∈ s.hands
  | .append l o => l ∈ s.hands ∧ o ∈ s.hands
  | .appendX l o => l ∈ s.hands ∧ o ∈ s.hands
  | .removeAt l _ => l ∈ s.hands
  | .get l _ => l ∈ s.hands
  | .setAt l _ o => l ∈ s.hands ∧ o ∈ s.hands
  | .clear l => l ∈ s.hands
  | .concatIn l l2 => l ∈ s.hands ∧ l2 ∈ s.hands ∧ l ≠ l2
  | .concat l1 l2 => l1 ∈ s.hands ∧ l2 ∈ s.hands

instance (s : St) (c : Call) : Decidable (c.allowed s) := by
  cases c <;> simp only [Call.allowed] <;> infer_instance

/-- The call, with its effect on what the client owns. -/
def Call.run (s : St) : Call → Res St
  | .create => .ok { s with heap := (RefC.create s.heap).1, hands := (RefC.create s.heap).2 :: s.hands }
  | .retain o => do .ok { s with heap := ← incref s.heap o, hands := o :: s.hands }
  | .release o => do
      let (h, log) ← destroy s.heap s.log o
      .ok ⟨h, s.hands.erase o, log⟩
  | .append l o => do .ok { s with heap := ← RefC.append s.heap l o }
  | .appendX l o => do .ok { s with heap := ← RefC.appendX s.heap l o, hands := s.hands.erase o }
  | .removeAt l i => do
      let (h, log) ← RefC.removeAt s.heap s.log l i
      .ok ⟨h, s.hands, log⟩
  | .get l i => do
      let (h, r) ← RefC.get s.heap l i
      .ok ⟨h, r.toList ++ s.hands, s.log⟩
  | .setAt l i o => do
      let (h, log) ← RefC.setAt s.heap s.log l i o
      .ok ⟨h, s.hands, log⟩
  | .clear l => do
      let (h, log) ← RefC.clear s.heap s.log l
      .ok ⟨h, s.hands, log⟩
  | .concatIn l l2 => do .ok { s with heap := ← RefC.concatIn s.heap l l2 }
  | .concat l1 l2 => do
      let (h, r) ← RefC.concat s.heap l1 l2
      .ok ⟨h, r :: s.hands, s.log⟩

/-- A program: each call is made by a client that owns what it needs at that moment. -/
inductive Runs : St → List Call → Res St → Prop where
  | done (s : St) : Runs s [] (.ok s)
  | step {s s' : St} {c : Call} {cs : List Call} {r : Res St}
      (ha : c.allowed s) (hr : c.run s = .ok s') (rest : Runs s' cs r) : Runs s (c :: cs) r
  | fault {s : St} {c : Call} {cs : List Call} {e : Fault}
      (ha : c.allowed s) (hr : c.run s = .error e) : Runs s (c :: cs) (.error e)

/-- The object was created and not freed yet. -/
def Heap.alive (h : Heap) (o : Nat) : Prop := ∃ ob, h[o]? = some (some ob)

/-- How many references to `o` exist: those of the client and those inside objects in memory. -/
def St.refs (s : St) (o : Nat) : Nat :=
  s.hands.count o + (s.heap.map fun c => (match c with | some ob => ob.owned | none => []).count o).sum

/-- Object `o` can be reached from object `p` through owned references of objects in memory. -/
inductive Heap.Reaches (h : Heap) : Nat → Nat → Prop where
  | refl (o : Nat) : Reaches h o o
  | step {p q o : Nat} {ob : Obj} (hp : h[p]? = some (some ob)) (hq : q ∈ ob.owned)
      (rest : Reaches h q o) : Reaches h p o

end Comps.RefC
