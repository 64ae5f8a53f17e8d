import Verif.Lemmas.Validate

/-! # Properties of validation: C34, C35 -/

namespace Comps.Props
open Val Spec

/-! ## C34 execution of a rule table -/

/-- **C34.** For every object and every rule table: the result is OK exactly when every rule
passes; otherwise its errors are those of the failing rules, in rule order, each message preceded
by the text of its rule.  (`res` is what the rules answer, each checked once.) -/
theorem C34_execute {O : Type} (o : O) (rules : List (Rule O)) (res : Rule O → ValRes O)
    (h : ∀ r ∈ rules, r.check o = .ok (res r)) :
    ∃ v, execute o rules = .ok v ∧
      (v = .ok ↔ ∀ r ∈ rules, res r = .ok) ∧
      (∀ es, v = .err es → es = rules.flatMap fun r => match res r with
        | .ok => []
        | .err es => es.map fun e => ⟨e.obj, r.msg ++ e.msg⟩) := by
  refine ⟨_, execute_ok o res rules h, ?_, ?_⟩
  · cases e : rules.all (fun r => (res r).isOk) with
    | true =>
      simp only [List.all_eq_true, ValRes.isOk_iff] at e
      simpa using e
    | false =>
      simp only [Bool.false_eq_true, if_false, reduceCtorEq, false_iff]
      intro h'
      have : rules.all (fun r => (res r).isOk) = true := by
        simp only [List.all_eq_true, ValRes.isOk_iff]; exact h'
      rw [e] at this; simp at this
  · intro es hes
    cases e : rules.all (fun r => (res r).isOk) with
    | true => rw [e] at hes; simp at hes
    | false =>
      rw [e] at hes
      simp only [Bool.false_eq_true, if_false, ValRes.err.injEq] at hes
      rw [← hes]
      congr 1

/-- Two rules: the first fails on odd numbers, the second on numbers above 9, twice. -/
def demoRules : List (Rule Nat) :=
  [⟨b!"odd: ", fun n => .ok (if n % 2 = 0 then .ok else .err [⟨n, b!"is odd"⟩])⟩,
   ⟨b!"size: ", fun n => .ok (if n < 10 then .ok else .err [⟨n, b!"big"⟩, ⟨0, b!"too big"⟩])⟩]

example : execute 4 demoRules = .ok .ok ∧
    execute 11 demoRules =
      .ok (.err [⟨11, b!"odd: is odd"⟩, ⟨11, b!"size: big"⟩, ⟨0, b!"size: too big"⟩]) :=
  ⟨rfl, rfl⟩

/-- **C34.** A rule that faults makes the validation fault: nothing is reported as valid or
invalid. -/
theorem C34_fault {O : Type} (o : O) (rules : List (Rule O)) (v : ValRes O)
    (h : execute o rules = .ok v) : ∀ r ∈ rules, ∃ w, r.check o = .ok w := by
  have key : ∀ (rules : List (Rule O)) (a : Option (List (Err O))) b,
      executeLoop o a rules = .ok b → ∀ r ∈ rules, ∃ w, r.check o = .ok w := by
    intro rules
    induction rules with
    | nil => intro a b _ r hr; simp at hr
    | cons r0 rules ih =>
      intro a b hb r hr
      rw [executeLoop] at hb
      cases e : r0.check o with
      | error f => rw [e] at hb; simp [bind, Except.bind] at hb
      | ok w =>
        rcases List.mem_cons.mp hr with rfl | hr
        · exact ⟨w, e⟩
        · rw [e] at hb
          simp only [bind, Except.bind] at hb
          cases w with
          | ok => exact ih _ _ hb r hr
          | err es =>
            simp only [prefixRes_err, concatErr] at hb
            exact ih _ _ hb r hr
  unfold execute at h
  cases e : executeLoop o none rules with
  | error f => rw [e] at h; simp [bind, Except.bind] at h
  | ok b => exact key rules none b e

example : execute 0 [⟨b!"x", fun _ => .error .nullDeref⟩] = .error (ε := Fault) (α := ValRes Nat)
    .nullDeref := rfl

/-- **C34.** The rule used for names and ids: it passes exactly for a property that is set to
something other than the empty text (a string object without text passes), and otherwise reports one
error on the object saying which of the two it was. -/
theorem C34_empty_check {O : Type} (o : O) (prop : Option (Option Bytes)) :
    ∃ v, emptyCheck o prop = .ok v ∧
      (v = .ok ↔ ∃ t, prop = some t ∧ t ≠ some []) ∧
      (prop = none → v = .err [⟨o, b!"attr not set"⟩]) ∧
      (prop = some (some []) → v = .err [⟨o, b!"attr empty"⟩]) := by
  cases prop with
  | none => exact ⟨_, rfl, by simp, by simp, by simp⟩
  | some t =>
    cases t with
    | none => exact ⟨_, rfl, by simp, by simp, by simp⟩
    | some s =>
      cases s with
      | nil => exact ⟨_, rfl, by simp, by simp, by simp⟩
      | cons x xs => exact ⟨_, rfl, by simp, by simp, by simp⟩

example : emptyCheck () (some (some b!"x")) = .ok .ok := rfl

/-- **C34.** The lists of groups, categories and environments of a document are valid exactly when
all their members are; otherwise the errors are those of the members, in order, each message
preceded by the position of the member and a dot. -/
theorem C34_list {O : Type} (rules : List (Rule O)) (l : List O) (res : O → ValRes O)
    (h : ∀ o ∈ l, execute o rules = .ok (res o)) (hl : l.length < 2 ^ 64) :
    ∃ v, listValidate rules (some l) = .ok v ∧
      (v = .ok ↔ ∀ o ∈ l, res o = .ok) ∧
      (∀ es, v = .err es → ∃ num : Nat → Bytes, (∀ n, IsDec n (num n)) ∧
        es = l.zipIdx.flatMap fun p => match res p.1 with
          | .ok => []
          | .err es => es.map fun e => ⟨e.obj, num p.2 ++ b!"." ++ e.msg⟩) := by
  simp only [listValidate]
  rw [listLoop_ok rules res l h 0 (by omega),
    collect_fold (fun p : O × Nat => Text.dec p.2 ++ b!".") (fun p => res p.1)]
  cases e : l.zipIdx.all (fun p => (res p.1).isOk) with
  | true =>
    refine ⟨.ok, rfl, ?_, fun es h => by simp at h⟩
    simp only [List.all_eq_true, ValRes.isOk_iff] at e
    refine ⟨fun _ o ho => ?_, fun _ => rfl⟩
    obtain ⟨i, hi, rfl⟩ := List.getElem_of_mem ho
    exact e (l[i], i) (List.mem_zipIdx_iff_getElem?.mpr (by simp))
  | false =>
    refine ⟨_, rfl, ?_, ?_⟩
    · simp only [reduceCtorEq, false_iff]
      intro h'
      have : l.zipIdx.all (fun p => (res p.1).isOk) = true := by
        simp only [List.all_eq_true, ValRes.isOk_iff]
        rintro ⟨o, i⟩ hp
        exact h' o (List.mem_of_getElem? (List.mem_zipIdx_iff_getElem?.mp hp))
      rw [e] at this; simp at this
    · intro es hes
      refine ⟨Text.dec, Text.dec_isDec, ?_⟩
      simp only [ValRes.err.injEq] at hes
      rw [← hes]
      simp only [Option.getD_none, List.nil_append]
      congr 1

example : ∃ v, listValidate demoRules (some [4, 3]) = .ok v ∧ v ≠ .ok := by
  obtain ⟨v, h1, h2, -⟩ := C34_list demoRules [4, 3]
    (fun o => if o = 4 then .ok else .err [⟨3, b!"odd: is odd"⟩]) (by
      intro o ho
      simp at ho
      rcases ho with rfl | rfl <;> rfl) (by decide)
  exact ⟨v, h1, fun h => absurd (h2.mp h 3 (by simp)) (by decide)⟩

/-! ## C35 duplicates -/

/-- **C35.** Whatever the comparison: if the check returns, its result is OK exactly when no
element equals a later one. -/
theorem C35_ok_iff {O α : Type} (cmp : α → α → Bool) (o : O) (l : List (Ref α)) (v : ValRes O)
    (h : uniqueCheck cmp o (some l) = .ok v) : v = .ok ↔ NoRepeat cmp (l.map Ref.val) := by
  simp only [uniqueCheck] at h
  cases e : uniqueLoop cmp l [] 0 l with
  | error f => rw [e] at h; simp [bind, Except.bind] at h
  | ok ms =>
    rw [e] at h
    have := uniqueLoop_nil cmp l l [] 0 ms e (by simp [NoRepeat])
    rw [List.nil_append] at this
    rw [← this]
    cases ms with
    | nil => simp [bind, Except.bind] at h; simp [← h]
    | cons m ms => simp [bind, Except.bind] at h; simp [← h]

/-- **C35.** Below a thousand million elements the check returns, whatever the comparison. -/
theorem C35_safe {O α : Type} (cmp : α → α → Bool) (o : O) (l : List (Ref α))
    (hl : l.length ≤ 10 ^ 9) : ∃ v, uniqueCheck cmp o (some l) = .ok v := by
  obtain ⟨ms, h⟩ := uniqueLoop_ok cmp l hl l [] 0 (by simp) (by simp) (fun r hr => hr)
  simp only [uniqueCheck]
  rw [h]
  cases ms <;> exact ⟨_, rfl⟩

/-- **C35**, short of its claim on memory: under an equivalence, with the elements repeated given
by `ps` (position of the first equal element, position), in increasing order of position.  If all
positions are below a thousand million there is one message for each, with the right positions;
otherwise a message is written past its buffer.  Missing: the longer lists, for which the claim is
false.  (`hc`: the same pointer twice is the same object twice.) -/
theorem C35_messages_partial {O α : Type} (cmp : α → α → Bool) (he : IsEquiv cmp) (o : O)
    (l : List (Ref α))
    (hc : ∀ r ∈ l, ∀ r' ∈ l, r.addr = r'.addr → r.val = r'.val) :
    ∃ ps : List (Nat × Nat), ps.Pairwise (fun p q => p.2 < q.2) ∧
      (∀ i j, (i, j) ∈ ps ↔ FirstEq cmp (l.map Ref.val) i j) ∧
      ((∃ p ∈ ps, 10 ^ 9 ≤ p.2) → uniqueCheck cmp o (some l) = .error .outOfBounds) ∧
      ((∀ p ∈ ps, p.2 < 10 ^ 9) → ∃ msg : Nat × Nat → Bytes, (∀ p, IsDupMsg p.1 p.2 (msg p)) ∧
        uniqueCheck cmp o (some l) =
          .ok (if ps = [] then .ok else .err (ps.map fun p => ⟨o, msg p⟩))) := by
  obtain ⟨ps, h1, h2, h3⟩ := uniqueLoop_pairs he l hc l [] [] rfl
    ⟨fun p hp => by simp at hp, fun s hs => by simp at hs⟩
  have h3 : ∀ i j, (i, j) ∈ ps ↔ FirstEq cmp (l.map Ref.val) i j := by
    intro i j; rw [h3]; simp
  have h1 : uniqueLoop cmp l [] 0 l = _ := h1
  refine ⟨ps, h2, h3, ?_, ?_⟩
  · rintro ⟨p, hp, hx⟩
    have : ps.all (fun p => p.2 < 1000000000) = false := by
      rw [List.all_eq_false]; exact ⟨p, hp, by simp; omega⟩
    simp only [uniqueCheck]
    rw [h1, this]; rfl
  · intro hx
    refine ⟨fun p => dupMsg (.ofNat p.1) p.2, fun p => dupMsg_spec p.1 p.2, ?_⟩
    have : ps.all (fun p => p.2 < 1000000000) = true := by
      rw [List.all_eq_true]; intro p hp; simpa using hx p hp
    simp only [uniqueCheck]
    rw [h1, this]
    cases ps with
    | nil => rfl
    | cons p ps => simp [bind, Except.bind]

/-- `b, a, b, b` where the first and the last are the same object. -/
def demoList : List (Ref Nat) := [⟨100, 7⟩, ⟨101, 8⟩, ⟨102, 7⟩, ⟨100, 7⟩]

example : uniqueCheck (· == ·) () (some demoList) =
    .ok (.err [⟨(), b!"Duplicate items at 0 and 2"⟩, ⟨(), b!"Duplicate items at 0 and 3"⟩]) := by
  have h : ∀ n, n < 10 → Text.dec n = [48 + n.toUInt8] := fun n hn => by rw [Text.dec, if_pos hn]
  simp [uniqueCheck, uniqueLoop, demoList, CSet.dataAt, CSet.add, CSet.mem, index, dupMsg,
    Text.decInt, h, Text.Buf.fill, Text.digitsCount, digitsCountI, bind, Except.bind]

example : (∀ r ∈ demoList, ∀ r' ∈ demoList, r.addr = r'.addr → r.val = r'.val) := by decide

/-- **C35** is false for lists of more than a thousand million elements: the position of a
repeated element takes ten digits, for which nine are allotted. -/
theorem C35_false : ∃ l : List (Ref Nat),
    uniqueCheck (· == ·) () (some l) = .error .outOfBounds := by
  refine ⟨List.replicate (10 ^ 9 + 1) ⟨0, 0⟩, ?_⟩
  obtain ⟨ps, -, h1, h2, -⟩ := C35_messages_partial (· == ·)
    ⟨fun x => by simp, fun x y => by simp; exact Eq.symm, fun x y z => by simp; exact Eq.trans⟩
    () (List.replicate (10 ^ 9 + 1) (⟨0, 0⟩ : Ref Nat)) (by
      intro r hr r' hr' _
      rw [List.eq_of_mem_replicate hr, List.eq_of_mem_replicate hr'])
  refine h2 ⟨(0, 10 ^ 9), (h1 _ _).mpr ⟨by omega, 0, 0, ?_, ?_, by simp, ?_⟩, Nat.le_refl _⟩
  · rw [List.map_replicate, List.getElem?_replicate, if_pos (by omega)]
  · rw [List.map_replicate, List.getElem?_replicate, if_pos (by omega)]
  · intro k hk; omega

end Comps.Props

section
open Comps.Props
#print axioms C34_execute
#print axioms C34_fault
#print axioms C34_empty_check
#print axioms C34_list
#print axioms C35_ok_iff
#print axioms C35_safe
#print axioms C35_messages_partial
#print axioms C35_false
end
