import Verif.Model.PyMDict
import Verif.Spec.MDict
import Verif.Spec.Xml

/-!
# Specification: programs that use Python multi-dictionaries

What each call does, exactly, in terms of what reads answer: a map from keys to lists of elements, a
counter, and whether the dictionary was cleared while it had keys.  Only the vocabulary of programs
(`Op`, `Arg`, `Val`, `Ans`, `Exc`) and of elements (`MVal`) is shared with the model.
-/

namespace Comps.Spec.PyM
open Comps Comps.Obj Comps.Spec Comps.PyMDict
open Comps.PyDict (Arg)

/-- A dictionary as reads see it. -/
structure SD where
  map : Bytes → Option (List (MVal CStr))
  len : UInt32
  dead : Bool

/-- An empty dictionary. -/
def SD.new : SD := ⟨fun _ => none, 0, false⟩

/-- The dictionaries of a program. -/
abbrev World := List SD

/-- The outcome of a call. -/
abbrev Out := Res (World × Ans)

/-- What the C code sees of a string: the bytes before the first NUL. -/
def upTo0 : Bytes → Bytes
  | [] => []
  | b :: bs => if b = 0 then [] else b :: upTo0 bs

/-- What a key converts to. -/
def keyOf : Arg → Except PyDict.Exc Bytes
  | .str (some b) => .ok (upTo0 b)
  | .none => .error .noException
  | _ => .error .typeError

/-- What an element converts to, if it is a string. -/
def elemOf : Arg → Option CStr
  | .str (some b) => some ⟨some (upTo0 b)⟩
  | .str none => some ⟨none⟩
  | .bytes b => some ⟨some (upTo0 b)⟩
  | _ => none

/-- Is it a `str` that has no UTF-8 encoding? -/
def Unencodable (a : Arg) : Prop := a = .str none

/-- `l` lists the keys with their values, each once. -/
def Listing (g : Bytes → Option (List (MVal CStr))) (l : List (Bytes × List (MVal CStr))) : Prop :=
  l.Pairwise (fun a b => a.1 ≠ b.1) ∧ ∀ k v, (k, v) ∈ l ↔ g k = some v

/-- Some value list is not empty. -/
def HasElem (g : Bytes → Option (List (MVal CStr))) : Prop := ∃ k v vs, g k = some (v :: vs)

/-- A sequence of writes of one element. -/
inductive Writes : (Bytes → Option (List (MVal CStr))) → List (Bytes × MVal CStr) →
    (Bytes → Option (List (MVal CStr))) → Prop
  | nil (g) : Writes g [] g
  | cons {g g1 g' k v ws} : Wrote g k [v] g1 → Writes g1 ws g' → Writes g ((k, v) :: ws) g'

/-- The elements of a listing, each with its key. -/
def elements (l : List (Bytes × List (MVal CStr))) : List (Bytes × MVal CStr) :=
  l.flatMap fun e => e.2.map fun v => (e.1, v)

section
variable (utf8 : Bytes → Bool)

/-- What a program reads of a list of strings. -/
def shown (l : List (MVal CStr)) : List (Option Bytes) :=
  (mvalueTexts l).map fun b => if utf8 b then some b else none

/-- The call is about dictionary `i`. -/
def onD (w : World) (i : Nat) (r : Out) (p : SD → Prop) : Prop :=
  match w[i]? with
  | none => r = .ok (w, .exc .nameError)
  | some d => p d

/-- A read of key `k`: `p` is what happens then. -/
def reads (d : SD) (k : Bytes) (r : Out) (p : Option (List (MVal CStr)) → Prop) : Prop :=
  if k = [] then p none else if d.dead then r = .error .useAfterFree else p (d.map k)

/-- The key is taken away, and `q` says what happens then.  The program crashes if the key is the only
one that extends some other key. -/
def takes (d : SD) (k : Bytes) (r : Out) (q : (Bytes → Option (List (MVal CStr))) → Prop) : Prop :=
  if d.dead then r = .error .useAfterFree
  else (OnlyChild d.map k ∧ r = .error .useAfterFree) ∨
    (¬ OnlyChild d.map k ∧ ∃ g, Removed d.map k g ∧ q g)

/-- `vs` is stored under `k` and the call answers `a`.  The counter goes down by the number of elements
that were there and up by the number stored, and by one for an empty list. -/
def stores (w : World) (i : Nat) (d : SD) (k : Bytes) (vs : List (MVal CStr)) (a : Ans) (r : Out) : Prop :=
  if k = [] then r = .ok (w, a)
  else takes d k r fun g => ∃ g', Wrote g k vs g' ∧
    r = .ok (w.set i ⟨g', d.len - UInt32.ofNat ((d.map k).getD []).length +
      UInt32.ofNat (if vs = [] then 1 else vs.length), false⟩, a)

/-- The exact outcome of a call. -/
def Does (w : World) (r : Out) : Op → Prop
  | .new => r = .ok (w ++ [SD.new], .done)
  | .set i key (.list as) => onD w i r fun d =>
      match keyOf key with
      | .error .noException =>
          ((∃ a ∈ as, elemOf a = none) → r = .ok (w, .exc .valueError)) ∧
          ((∀ a ∈ as, elemOf a ≠ none) → (∃ a ∈ as, Unencodable a) → r = .ok (w, .exc (.py .typeError))) ∧
          ((∀ a ∈ as, elemOf a ≠ none) → (∀ a ∈ as, ¬ Unencodable a) → r = .ok (w, .exc (.py .noException)))
      | .error e => r = .ok (w, .exc (.py e))
      | .ok k =>
          ((∃ a ∈ as, elemOf a = none) → r = .ok (w, .exc (.py .typeError))) ∧
          ∀ vs : List CStr, as.map elemOf = vs.map some →
            ((∃ a ∈ as, Unencodable a) → stores w i d k (vs.map .one) (.exc (.py .pending)) r) ∧
            ((∀ a ∈ as, ¬ Unencodable a) → stores w i d k (vs.map .one) .done r)
  | .set i key (.item j src) => onD w i r fun d => onD w j r fun n =>
      match keyOf src with
      | .error e => r = .ok (w, .exc (.py e))
      | .ok l => reads n l r fun
        | none => r = .ok (w, .exc (.py .keyError))
        | some vs =>
          match keyOf key with
          | .error e => r = .ok (w, .exc (.py e))
          | .ok k =>
            (i = j ∧ k = l ∧ (∃ q, (d.map q).isSome = true ∧ k <+: q ∧ q ≠ k) → stores w i d k [] .done r) ∧
            (¬ (i = j ∧ k = l ∧ ∃ q, (d.map q).isSome = true ∧ k <+: q ∧ q ≠ k) →
              stores w i d k vs .done r)
  | .set i key .other => onD w i r fun _ =>
      match keyOf key with
      | .error e => r = .ok (w, .exc (.py e))
      | .ok _ => r = .ok (w, .exc (.py .typeError))
  | .del i key => onD w i r fun d =>
      match keyOf key with
      | .error e => r = .ok (w, .exc (.py e))
      | .ok k =>
        if k = [] then r = .ok (w, .done)
        else takes d k r fun g =>
          r = .ok (w.set i ⟨g, d.len - UInt32.ofNat ((d.map k).getD []).length, false⟩, .done)
  | .get i key => onD w i r fun d =>
      match keyOf key with
      | .error e => r = .ok (w, .exc (.py e))
      | .ok k => reads d k r fun
        | none => r = .ok (w, .exc (.py .keyError))
        | some l => r = .ok (w, .seq (shown utf8 l))
  | .append i key v => onD w i r fun d =>
      match keyOf key with
      | .error e => r = .ok (w, .exc (.py e))
      | .ok k => reads d k r fun
        | none => r = .ok (w, .exc (.py .keyError))
        | some l =>
          match elemOf v with
          | none => r = .ok (w, .exc (.py .typeError))
          | some x => ∃ g', g' k = some (l ++ [.one x]) ∧ (∀ q, q ≠ k → g' q = d.map q) ∧
              (Unencodable v → r = .ok (w.set i ⟨g', d.len, false⟩, .exc (.py .pending))) ∧
              (¬ Unencodable v → r = .ok (w.set i ⟨g', d.len, false⟩, .done))
  | .hasKey i key => onD w i r fun d =>
      match keyOf key with
      | .error e => r = .ok (w, .exc (.py e))
      | .ok k => reads d k r fun o => r = .ok (w, .bool o.isSome)
  | .len i => onD w i r fun d => r = .ok (w, .num d.len.toNat)
  | .keys i => onD w i r fun d =>
      if d.dead then r = .error .useAfterFree
      else ∃ l, Listing d.map l ∧
        ((∀ e ∈ l, utf8 e.1 = true) → r = .ok (w, .keys (l.map Prod.fst))) ∧
        ((∃ e ∈ l, utf8 e.1 = false) → r = .ok (w, .exc (.py .unicodeError)))
  | .items i => onD w i r fun d =>
      if d.dead then r = .error .useAfterFree
      else ∃ l, Listing d.map l ∧
        ((∀ e ∈ l, utf8 e.1 = true) → r = .ok (w, .items (l.map fun e => (e.1, shown utf8 e.2)))) ∧
        ((∃ e ∈ l, utf8 e.1 = false) → r = .error .nullDeref)
  | .values i => onD w i r fun d =>
      if d.dead then r = .error .useAfterFree
      else ((∀ k, d.map k = none) → r = .ok (w, .seq [])) ∧
        ((∃ k v, d.map k = some v) → r = .error .typeConfusion)
  | .str i => onD w i r fun d =>
      if d.dead then r = .error .useAfterFree
      else ∃ l, Listing d.map l ∧
        (l = [] ∨ (∃ e ∈ l, utf8 e.1 = false ∨ utf8 (listText (mvalueTexts e.2)) = false) →
          r = .error .nullDeref) ∧
        (l ≠ [] → (∀ e ∈ l, utf8 e.1 = true ∧ utf8 (listText (mvalueTexts e.2)) = true) →
          r = .ok (w, .text (b!"{" ++ List.intercalate b!", " (l.map fun e =>
            e.1 ++ b!" = '" ++ listText (mvalueTexts e.2) ++ b!"'") ++ b!"}")))
  | .clear i => onD w i r fun d =>
      if d.dead then r = .error .useAfterFree
      else ((∀ k, d.map k = none) → r = .ok (w, .done)) ∧
        ((∃ k v, d.map k = some v) → r = .ok (w.set i ⟨d.map, d.len, true⟩, .done))
  | .copy i => onD w i r fun d =>
      if d.dead then r = .error .useAfterFree
      else ((∀ k, d.map k = none) → r = .ok (w, .done)) ∧
        ((∃ k v, d.map k = some v) → r = .error .typeConfusion)
  | .update i j =>
      match w[i]?, w[j]? with
      | some d, some n =>
        if n.dead then r = .error .useAfterFree
        else (¬ HasElem n.map → r = .ok (w, .done)) ∧
          (HasElem n.map → i = j → r = .error .diverges) ∧
          (HasElem n.map → i ≠ j → if d.dead then r = .error .useAfterFree
            else ∃ l g', Listing n.map l ∧ (l.Pairwise fun a b => ¬ b.1 <+: a.1) ∧
              Writes d.map (elements l) g' ∧
              r = .ok (w.set i ⟨g', d.len + UInt32.ofNat (elements l).length, false⟩, .done))
      | _, _ => r = .ok (w, .exc .nameError)
  | .eq i j =>
      match w[i]?, w[j]? with
      | some d, some n =>
        if d.dead ∨ n.dead then r = .error .useAfterFree
        else ∃ b, r = .ok (w, .bool b) ∧ (b = true ↔ ∀ k, (d.map k).isSome = (n.map k).isSome)
      | _, _ => r = .ok (w, .exc .nameError)

/-- The outcome of a program: the answers in order, until the end or a fault. -/
inductive Runs : World → List Op → Res (World × List Ans) → Prop
  | nil (w) : Runs w [] (.ok (w, []))
  | fault {w op ops f} : Does utf8 w (.error f) op → Runs w (op :: ops) (.error f)
  | step {w w' a op ops w'' as} : Does utf8 w (.ok (w', a)) op → Runs w' ops (.ok (w'', as)) →
      Runs w (op :: ops) (.ok (w'', a :: as))
  | later {w w' a op ops f} : Does utf8 w (.ok (w', a)) op → Runs w' ops (.error f) →
      Runs w (op :: ops) (.error f)

end
end Comps.Spec.PyM
