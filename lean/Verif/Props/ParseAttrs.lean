import Verif.Lemmas.ParseAttrs
import Verif.Props.Parse

/-!
# Properties of attributes in files (C113, C114)
-/

namespace Comps.Props.ParseAttrs
open Comps Comps.Obj Comps.Text Comps.Spec Comps.Parse Comps.Props
open Comps.Xml (Defaults)

/-- What XML asks of the attributes of an element: names are not empty and differ. -/
def XmlAttrs (attrs : List (Bytes × Bytes)) : Prop :=
  [] ∉ attrs.map (·.1) ∧ (attrs.map (·.1)).Nodup

/-! ## C113 -/

/-- **C113, partial.**  Two files that differ in the order of attributes and in attributes comps does
not define are read alike, for any options, any order of `char`, and whatever lies behind the
attribute tables: the same document and the same messages but for the ones about unknown attributes,
or the same fault.
Missing: elements where an attribute name is a proper prefix of the name of an attribute before it
(`C113_false`). -/
theorem C113_partial (cx : Ctx) (enc : Option Bytes) {es es' : List (Pos × Event)}
    (h : SameSaid AttrsOk es es') :
    (∀ s, steps cx (init enc) es = .ok s → ∃ s', steps cx (init enc) es' = .ok s' ∧
      s'.doc = s.doc ∧ otherMessages s'.log = otherMessages s.log) ∧
    (∀ f, steps cx (init enc) es = .error f → steps cx (init enc) es' = .error f) ∧
    (∀ c s, parseStr cx (init enc) ⟨es, none⟩ = .ok (c, s) →
      ∃ c' s', parseStr cx (init enc) ⟨es', none⟩ = .ok (c', s') ∧ s'.doc = s.doc ∧
        otherMessages s'.log = otherMessages s.log) := by
  have key := steps_near cx h (near_refl_init enc)
  cases h1 : steps cx (init enc) es with
  | error f =>
    cases h2 : steps cx (init enc) es' with
    | error g =>
      rw [h1, h2] at key
      cases (show f = g from key)
      refine ⟨fun s e => (by cases e), fun f e => (by cases e; rfl), fun c s e => ?_⟩
      simp only [parseStr, feed, h1, bind, Except.bind] at e
      cases e
    | ok t => rw [h1, h2] at key; exact key.elim
  | ok s =>
    cases h2 : steps cx (init enc) es' with
    | error g => rw [h1, h2] at key; exact key.elim
    | ok t =>
      rw [h1, h2] at key
      have key : Near s t := key
      refine ⟨fun s' e => ?_, fun f e => (by cases e), fun c s' e => ?_⟩
      · cases e
        exact ⟨t, rfl, key.doc.symm, key.log.symm⟩
      · simp only [parseStr, feed, h1, h2, bind, Except.bind] at e ⊢
        have ha : ∀ x, afterParse s = .ok x → ∃ y, afterParse t = .ok y ∧ y.doc = x.doc ∧
            otherMessages y.log = otherMessages x.log := by
          intro x hx
          unfold afterParse at hx ⊢
          rw [← key.name, ← key.sysid, ← key.pubid, ← key.doc]
          split at hx
          · rename_i hc
            cases hx
            rw [if_pos hc]
            exact ⟨t, rfl, key.doc.symm, key.log.symm⟩
          · rename_i hc
            rw [if_neg hc]
            cases hd : s.doc with
            | null =>
              rw [hd] at hx; cases hx
              exact ⟨t, rfl, key.doc.symm, key.log.symm⟩
            | freed => rw [hd] at hx; cases hx
            | live d =>
              rw [hd] at hx; cases hx
              exact ⟨_, rfl, rfl, key.log.symm⟩
        cases hx : afterParse s with
        | error f => rw [hx] at e; cases e
        | ok x =>
          rw [hx] at e
          obtain ⟨y, hy, h3, h4⟩ := ha x hx
          cases e
          rw [hy]
          exact ⟨_, y, rfl, h3, h4⟩

/-- A group with one package. -/
def onePackage (attrs : List (Bytes × Bytes)) : List (Pos × Event) :=
  fileEvents none (inGroup [el b!"packagelist" [] [el b!"packagereq" attrs [tx b!"bash"]]])

/-- The types of the packages of the first group. -/
def types (r : Res Parsed) : Option (List PkgType) :=
  match r with
  | .ok s => match s.doc with
    | .live d => match d.getObj byteLt groupsSlot with
      | .ok r => r.1.head?.bind fun g => g.packages.map fun l => l.map (·.type)
      | .error _ => none
    | _ => none
  | .error _ => none

/-- The attributes of one package, changed. -/
theorem onePackage_same {ok : List (Bytes × Bytes) → Prop} {a b : List (Bytes × Bytes)} (ha : ok a)
    (hb : ok b) (hk : ∀ k ∈ definedAttrs b!"packagereq", attrOf a k = attrOf b k) :
    SameSaid ok (onePackage a) (onePackage b) :=
  .call _ (.call _ (.call _ (.attrs _ _ _ _ ha hb hk
    (.call _ (.call _ (.call _ (.call _ (.call _ .nil))))))))

/-- `type`, `basearchonly` and an attribute comps does not define, in two orders and without it. -/
example : SameSaid AttrsOk
      (onePackage [(b!"x", b!"1"), (b!"type", b!"optional"), (b!"basearchonly", b!"true")])
      (onePackage [(b!"basearchonly", b!"true"), (b!"type", b!"optional")]) ∧
    types (steps plainReading.ctx (init none)
      (onePackage [(b!"basearchonly", b!"true"), (b!"type", b!"optional")])) = some [.optional] := by
  refine ⟨onePackage_same ?_ ?_ (by decide), by decide +kernel⟩
  · refine ⟨by simp, ?_⟩
    simp only [List.pairwise_cons, List.mem_cons, List.not_mem_nil, or_false, forall_eq_or_imp,
      forall_eq, List.Pairwise.nil, and_true, false_implies, implies_true, ProperPrefix]
    refine ⟨⟨⟨by decide, ?_⟩, by decide, ?_⟩, by decide, ?_⟩ <;> rintro ⟨x, xs, h⟩ <;> simp at h
  · refine ⟨by simp, ?_⟩
    simp only [List.pairwise_cons, List.mem_cons, List.not_mem_nil, or_false,
      forall_eq, List.Pairwise.nil, and_true, false_implies, implies_true, ProperPrefix]
    refine ⟨by decide, ?_⟩
    rintro ⟨x, xs, h⟩
    simp at h

/-- **C113, false**: an attribute `b` behind `basearchonly` and `type` makes the type of the package
mandatory; in front of them, or left out, it does not. -/
theorem C113_false :
    SameSaid XmlAttrs
      (onePackage [(b!"basearchonly", b!"true"), (b!"type", b!"optional"), (b!"b", b!"1")])
      (onePackage [(b!"b", b!"1"), (b!"basearchonly", b!"true"), (b!"type", b!"optional")]) ∧
    SameSaid XmlAttrs
      (onePackage [(b!"basearchonly", b!"true"), (b!"type", b!"optional"), (b!"b", b!"1")])
      (onePackage [(b!"basearchonly", b!"true"), (b!"type", b!"optional")]) ∧
    types (steps plainReading.ctx (init none) (onePackage
      [(b!"basearchonly", b!"true"), (b!"type", b!"optional"), (b!"b", b!"1")])) =
        some [.mandatory] ∧
    types (steps plainReading.ctx (init none) (onePackage
      [(b!"b", b!"1"), (b!"basearchonly", b!"true"), (b!"type", b!"optional")])) =
        some [.optional] ∧
    types (steps plainReading.ctx (init none) (onePackage
      [(b!"basearchonly", b!"true"), (b!"type", b!"optional")])) = some [.optional] :=
  ⟨onePackage_same (by unfold XmlAttrs; decide) (by unfold XmlAttrs; decide) (by decide),
    onePackage_same (by unfold XmlAttrs; decide) (by unfold XmlAttrs; decide) (by decide),
    by decide +kernel, by decide +kernel, by decide +kernel⟩

/-! ## C114 -/

/-- **C114, partial.**  Whatever the handler calls, if they are survived then the messages about
unknown attributes are exactly one for each attribute that its element does not know, with its name,
the element and the position.  `extra` are the names found behind the tables of `<name>` and
`<description>`.
Missing: elements where an attribute name is a proper prefix of the name of an attribute before it
(`C114_false`). -/
theorem C114_partial (lt : UInt8 → UInt8 → Bool) (opts : Defaults) (extra : Bytes → List Bytes)
    (enc : Option Bytes) {es : List (Pos × Event)} (hes : AllAttrs AttrsOk es) {s : Parsed}
    (h : steps (Reading.plain lt opts extra).ctx (init enc) es = .ok s) :
    (attrMessages s.log).Perm (attrsToReport extra es) :=
  steps_messages lt opts extra hes h

/-- Two unknown attributes of an unknown element and one of `<group>`. -/
example : attrsToReport (fun _ => [])
      [(⟨1, 2⟩, .start b!"junk" [(b!"a", b!"1"), (b!"arch", b!"2")]),
       (⟨3, 4⟩, .start b!"group" [(b!"arch", b!"2"), (b!"ar", b!"2")])] =
    [⟨27, [some (.str ⟨some b!"a"⟩), some (.str ⟨some b!"???"⟩), some (.num 1), some (.num 2)]⟩,
     ⟨27, [some (.str ⟨some b!"arch"⟩), some (.str ⟨some b!"???"⟩), some (.num 1), some (.num 2)]⟩,
     ⟨27, [some (.str ⟨some b!"ar"⟩), some (.str ⟨some b!"group"⟩), some (.num 3), some (.num 4)]⟩] := by
  decide +kernel

/-- The messages about attributes after a run. -/
def reported (r : Res Parsed) : Option (List LogEntry) :=
  match r with
  | .ok s => some (attrMessages s.log)
  | .error _ => none

/-- A file that meets the conditions of `C114_partial`, with its messages. -/
example : AllAttrs AttrsOk [(⟨1, 1⟩, .start b!"comps" [(b!"b", b!"1"), (b!"a", b!"1")])] ∧
    reported (steps plainReading.ctx (init none)
      [(⟨1, 1⟩, .start b!"comps" [(b!"b", b!"1"), (b!"a", b!"1")])]) =
    some [⟨27, [some (.str ⟨some b!"a"⟩), some (.str ⟨some b!"comps"⟩), some (.num 1), some (.num 1)]⟩,
      ⟨27, [some (.str ⟨some b!"b"⟩), some (.str ⟨some b!"comps"⟩), some (.num 1), some (.num 1)]⟩] := by
  refine ⟨?_, by decide +kernel⟩
  intro e he n attrs hn
  rw [List.mem_singleton] at he
  subst he
  cases hn
  refine ⟨by simp, ?_⟩
  simp only [List.pairwise_cons, List.mem_cons, List.not_mem_nil, or_false,
    forall_eq, List.Pairwise.nil, and_true, false_implies, implies_true, ProperPrefix]
  refine ⟨by decide, ?_⟩
  rintro ⟨x, xs, h⟩
  simp at h

/-- **C114, false**: of three unknown attributes two are reported. -/
theorem C114_false :
    AllAttrs XmlAttrs
      [(⟨1, 1⟩, .start b!"comps" [(b!"ab", b!"1"), (b!"c", b!"1"), (b!"a", b!"1")])] ∧
    (attrsToReport (fun _ => [])
      [(⟨1, 1⟩, .start b!"comps" [(b!"ab", b!"1"), (b!"c", b!"1"), (b!"a", b!"1")])]).length = 3 ∧
    (reported (steps plainReading.ctx (init none)
      [(⟨1, 1⟩, .start b!"comps" [(b!"ab", b!"1"), (b!"c", b!"1"), (b!"a", b!"1")])])).map
        List.length = some 2 := by
  refine ⟨?_, by decide +kernel, by decide +kernel⟩
  intro e he n attrs hn
  rw [List.mem_singleton] at he
  subst he
  cases hn
  unfold XmlAttrs
  decide

end Comps.Props.ParseAttrs

section
open Comps.Props.ParseAttrs
#print axioms C113_partial
#print axioms C113_false
#print axioms C114_partial
#print axioms C114_false
end
