import Verif.Model.PyDict
import Verif.Spec.FMap

/-!
# Specification: programs that use dictionaries of strings

What the operations should do, in terms of finite maps from text to text.  Only the vocabulary of
programs (`Op`, `Arg`, `Ans`) is shared with the model.
-/

namespace Comps.Spec.PyD
open Comps Comps.Spec Comps.PyDict

/-- A dictionary: the map, the keys ever written into it since it was created or cleared, and
whether it was made by the constructor (or emptied since) rather than by `copy`. -/
structure Dict where
  map : FMap Bytes
  past : List Bytes
  counted : Bool

/-- The three kinds of iterators. -/
inductive Kind where
  | keys
  | values
  | items
  deriving DecidableEq

/-- An iterator: its dictionary, its kind, whether the dictionary was changed or dropped since. -/
structure It where
  dict : Nat
  kind : Kind
  stale : Bool

/-- The dictionaries and iterators of a program. -/
structure World where
  dicts : List (Option Dict)
  iters : List It

/-- Nothing yet. -/
def World.start : World := ⟨[], []⟩

/-- The dictionary with a name. -/
def World.dict (w : World) (i : Nat) : Option Dict := (w.dicts[i]?).join

/-- The text of a `str` without NUL. -/
def keyText : Arg → Option Bytes
  | .str (some b) => if 0 ∈ b then none else some b
  | _ => none

/-- The text of a `str` or `bytes` without NUL. -/
def valText : Arg → Option Bytes
  | .str (some b) => if 0 ∈ b then none else some b
  | .bytes b => if 0 ∈ b then none else some b
  | _ => none

/-- Iterators of dictionary `i` become stale. -/
def touch (i : Nat) (its : List It) : List It :=
  its.map fun it => if it.dict = i then { it with stale := true } else it

/-- The iterators after an operation. -/
def itersAfter (its : List It) : Op → List It
  | .set i _ _ => touch i its
  | .clear i => touch i its
  | .update i _ => touch i its
  | .drop i => touch i its
  | .iterKeys i => its ++ [⟨i, .keys, false⟩]
  | .iterValues i => its ++ [⟨i, .values, false⟩]
  | .iterItems i => its ++ [⟨i, .items, false⟩]
  | _ => its

/-- The dictionaries after an operation. -/
def dictsAfter (w : World) : Op → List (Option Dict)
  | .new => w.dicts ++ [some ⟨FMap.none, [], true⟩]
  | .set i k v =>
    match w.dict i, keyText k, valText v with
    | some d, some k, some v => w.dicts.set i (some ⟨d.map.upd k (some v), k :: d.past, d.counted⟩)
    | _, _, _ => w.dicts
  | .clear i =>
    match w.dict i with
    | some _ => w.dicts.set i (some ⟨FMap.none, [], true⟩)
    | none => w.dicts
  | .copy i =>
    match w.dict i with
    | some d => w.dicts ++ [some ⟨d.map, d.past, false⟩]
    | none => w.dicts ++ [none]
  | .update i j =>
    match w.dict i, w.dict j with
    | some d, some e =>
      w.dicts.set i (some ⟨d.map.merge e.map, e.past ++ d.past, d.counted⟩)
    | _, _ => w.dicts
  | .drop i =>
    match w.dict i with
    | some _ => w.dicts.set i none
    | none => w.dicts
  | _ => w.dicts

/-- The world after an operation. -/
def World.after (w : World) (op : Op) : World := ⟨dictsAfter w op, itersAfter w.iters op⟩

/-- The programs for which dictionaries are claimed to act as maps.  Keys and values are text; a
key written is there already, or is no proper prefix of one written before; nothing is deleted; iterators over
values are not advanced once stale. -/
def Permitted (utf8 : Bytes → Bool) (w : World) : Op → Prop
  | .set i k v => ∃ kb vb, keyText k = some kb ∧ valText v = some vb ∧ kb ≠ [] ∧
      utf8 kb = true ∧ utf8 vb = true ∧
      ∀ d, w.dict i = some d → d.map kb ≠ none ∨ ∀ s ∈ d.past, ¬ ProperPrefix kb s
  | .del _ _ => False
  | .getItem _ k => keyText k ≠ none
  | .get _ k => keyText k ≠ none
  | .hasKey _ k => keyText k ≠ none
  | .update i j => i ≠ j → ∀ d e, w.dict i = some d → w.dict j = some e →
      ∀ k, e.map k ≠ none → d.map k ≠ none ∨ ∀ s ∈ d.past, ¬ ProperPrefix k s
  | .next j => ∀ it, w.iters[j]? = some it → it.kind = .keys ∨ it.stale = false
  | _ => True

/-- `ks` lists the keys of a map, each once. -/
def Lists (ks : List Bytes) (m : FMap Bytes) : Prop := ks.Nodup ∧ ∀ k, k ∈ ks ↔ m k ≠ none

/-- The text `{k = 'v', …}` of a map, with the keys in the order given. -/
def render (m : FMap Bytes) (ks : List Bytes) : Bytes :=
  "{".toUTF8.data.toList ++
    (ks.flatMap fun k => k ++ " = '".toUTF8.data.toList ++ (m k).getD [] ++ "', ".toUTF8.data.toList) ++
    "}".toUTF8.data.toList

/-- The answer for a name that no dictionary has. -/
def missing (x : Ans) : Prop := x = .exc .typeError

/-- What an operation on a dictionary may answer. -/
def onDict (w : World) (i : Nat) (p : Dict → Prop) (x : Ans) : Prop :=
  match w.dict i with
  | some d => p d
  | none => missing x

/-- What a finite map answers.  Nothing is said here of lengths, iterators, comparisons of order
and operands that are not dictionaries. -/
def Answer (w : World) (x : Ans) : Op → Prop
  | .new => x = .object
  | .set i _ _ => onDict w i (fun _ => x = .done) x
  | .getItem i k => onDict w i (fun d => ∀ kb, keyText k = some kb →
      x = match d.map kb with
        | some v => .text v
        | none => .exc .keyError) x
  | .get i k => onDict w i (fun d => ∀ kb, keyText k = some kb →
      x = match d.map kb with
        | some v => .text v
        | none => .none) x
  | .hasKey i k => onDict w i (fun d => ∀ kb, keyText k = some kb →
      x = .bool (d.map kb).isSome) x
  | .clear i => onDict w i (fun _ => x = .done) x
  | .copy i => onDict w i (fun _ => x = .object) x
  | .update i j => onDict w i (fun _ => onDict w j (fun _ => x = .done) x) x
  | .str i => onDict w i (fun d => ∃ ks, Lists ks d.map ∧ x = .text (render d.map ks)) x
  | .cmp .eq i j => onDict w i (fun d => onDict w j (fun e =>
      ∃ b, x = .bool b ∧ (b = true ↔ d.map = e.map)) x) x
  | .cmp .ne i j => onDict w i (fun d => onDict w j (fun e =>
      ∃ b, x = .bool b ∧ (b = true ↔ d.map ≠ e.map)) x) x
  | .drop i => onDict w i (fun _ => x = .done) x
  | .iterKeys i => onDict w i (fun _ => x = .object) x
  | .iterValues i => onDict w i (fun _ => x = .object) x
  | .iterItems i => onDict w i (fun _ => x = .object) x
  | _ => True

/-- What `len` answers: the number of keys, for dictionaries not made by `copy`. -/
def LenAnswer (w : World) (x : Ans) : Op → Prop
  | .len i => onDict w i (fun d => d.counted = true →
      ∃ ks, Lists ks d.map ∧ x = .num ks.length) x
  | _ => True

/-- A program all of whose operations are permitted. -/
def PermittedRun (utf8 : Bytes → Bool) (w : World) : List Op → Prop
  | [] => True
  | op :: ops => Permitted utf8 w op ∧ PermittedRun utf8 (w.after op) ops

/-- The answers of a program satisfy `A`. -/
def Answers (A : World → Ans → Op → Prop) (w : World) : List Op → List Ans → Prop
  | [], [] => True
  | op :: ops, x :: xs => A w x op ∧ Answers A (w.after op) ops xs
  | _, _ => False

/-- The world after a program. -/
def World.afterAll (w : World) : List Op → World
  | [] => w
  | op :: ops => (w.after op).afterAll ops

/-! ### Memory safety -/

/-- The text of a string or of bytes decodes, as far as C sees it. -/
def Decodes (utf8 : Bytes → Bool) : Arg → Prop
  | .str (some b) => ∀ p q, b = p ++ q → 0 ∉ p → (q = [] ∨ q.head? = some 0) → utf8 p = true
  | .bytes b => ∀ p q, b = p ++ q → 0 ∉ p → (q = [] ∨ q.head? = some 0) → utf8 p = true
  | _ => True

/-- The operations claimed to be safe: no deletion, keys and values that decode, and no advancing
of an iterator over values or items that is stale. -/
def Careful (utf8 : Bytes → Bool) (its : List It) : Op → Prop
  | .set _ k v => Decodes utf8 k ∧ Decodes utf8 v
  | .del _ _ => False
  | .next j => ∀ it, its[j]? = some it → it.kind = .keys ∨ it.stale = false
  | _ => True

/-- A program all of whose operations are careful. -/
def CarefulRun (utf8 : Bytes → Bool) (its : List It) : List Op → Prop
  | [] => True
  | op :: ops => Careful utf8 its op ∧ CarefulRun utf8 (itersAfter its op) ops

/-- The answers given to `next(it)` for one iterator. -/
def nextAnswers (j : Nat) (ops : List Op) (xs : List Ans) : List Ans :=
  (ops.zip xs).filterMap fun e => if e.1 = .next j then some e.2 else none

end Comps.Spec.PyD
