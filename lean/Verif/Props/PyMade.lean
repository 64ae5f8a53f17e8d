import Verif.Props.PyTyped

/-!
# Comparing and saving the documents of Python programs (C96, C97)

The theorems of Props/PyRound for documents whose entries were made through the API, stated for every
program that Python can write: by C140 its documents are of that kind.
-/

namespace Comps.Props.PyC
open Comps Comps.Obj Comps.Spec Comps.Spec.PyComps Comps.PyComps Comps.Props
open Comps.Xml (Options Defaults)

variable (lt : UInt8 → UInt8 → Bool)

/-! ## C97 comparing documents -/

/-- **C97.**  For every program that Python can write and all its documents: `a == b` answers, says `True`
exactly if the documents have the same parts as `SamePy` says, and `==` is an equivalence.  Missing: the
values of black list and whiteout (`C97_false`). -/
theorem C97_program_partial {ops : List Op} {as : List Ans} {st : PyComps.St} (hn : ∀ o ∈ ops, NativeOp lt o)
    (h : run lt start ops = .ok (as, st)) :
    (∀ a b y z, Holds lt st a y → Holds lt st b z → ∃ v cy cz, Made lt y cy ∧ Made lt z cz ∧
      answer lt st (.eq a (some b)) = .ok (.bool v) ∧ (v = true ↔ SamePy y z cy cz)) ∧
    (∀ a y, Holds lt st a y → answer lt st (.eq a (some a)) = .ok (.bool true)) ∧
    (∀ a b y z, Holds lt st a y → Holds lt st b z → answer lt st (.eq a (some b)) = .ok (.bool true) →
      answer lt st (.eq b (some a)) = .ok (.bool true)) ∧
    ∀ a b c x y z, Holds lt st a x → Holds lt st b y → Holds lt st c z →
      answer lt st (.eq a (some b)) = .ok (.bool true) → answer lt st (.eq b (some c)) = .ok (.bool true) →
      answer lt st (.eq a (some c)) = .ok (.bool true) := by
  refine ⟨fun a b y z hy hz => ?_, fun a y hy => ?_, fun a b y z hy hz => ?_,
    fun a b c x y z hx hy hz => ?_⟩
  · obtain ⟨cy, my, -⟩ := C140_made lt hn h hy
    obtain ⟨cz, mz, -⟩ := C140_made lt hn h hz
    obtain ⟨v, e, hv⟩ := C97_partial lt h hy hz my mz
    exact ⟨v, cy, cz, my, mz, e, hv⟩
  · obtain ⟨cy, my, -⟩ := C140_made lt hn h hy
    exact (C97_laws lt h hy hy hy my my my).1
  · obtain ⟨cy, my, -⟩ := C140_made lt hn h hy
    obtain ⟨cz, mz, -⟩ := C140_made lt hn h hz
    exact (C97_laws lt h hy hz hz my mz mz).2.1
  · obtain ⟨cx, mx, -⟩ := C140_made lt hn h hx
    obtain ⟨cy, my, -⟩ := C140_made lt hn h hy
    obtain ⟨cz, mz, -⟩ := C140_made lt hn h hz
    exact (C97_laws lt h hx hy hz mx my mz).2.2

/-- A document with a group compared with itself. -/
example : ∃ as st y, run asc start (orderedOps 7) = .ok (as, st) ∧ Holds asc st 0 y ∧
    answer asc st (.eq 0 (some 0)) = .ok (.bool true) :=
  ⟨_, _, _, rfl, rfl, (C97_program_partial asc (orderedOps_native 7) rfl).2.1 0 _ rfl⟩

/-! ## C96 saving documents -/

/-- The entries of a document are determined by its content. -/
theorem made_unique {y : Content} {c c' : DocContent} (h : Made lt y c) (h' : Made lt y c') : c' = c := by
  obtain ⟨-, -, -, -, ⟨g1, -⟩, ⟨c1, -⟩, ⟨e1, -⟩, ⟨l1, -⟩, ⟨b1, -⟩, ⟨w1, -⟩⟩ := h
  obtain ⟨-, -, -, -, ⟨g2, -⟩, ⟨c2, -⟩, ⟨e2, -⟩, ⟨l2, -⟩, ⟨b2, -⟩, ⟨w2, -⟩⟩ := h'
  cases c; cases c'
  simp only at *
  have hg := g1.symm.trans g2
  have hc := c1.symm.trans c2
  have he := e1.symm.trans e2
  have hl := l1.symm.trans l2
  have hb := b1.symm.trans b2
  have hw := w1.symm.trans w2
  injection hg; injection hc; injection he; injection hl; injection hb; injection hw
  subst_vars
  rfl

/-- **C96.**  The document `y` of a program that Python can write, if its encoding is UTF-8, its document
type can be written, its content `c` meets the conditions of C28 and no call of the libxml2 writer fails,
comes back from `xml_str()` and `fromxml_str()`, into any document of the program, and compares equal.
Missing: documents that do not meet these conditions (`C96_false`). -/
theorem C96_program_partial {ops : List Op} {as : List Ans} {st : PyComps.St} (hn : ∀ o ∈ ops, NativeOp lt o)
    (h : run lt start ops = .ok (as, st)) {a b : Nat} {y z : Content} (hy : Holds lt st b y)
    (hz : Holds lt st a z) (he : y.encoding = some ⟨some b!"UTF-8"⟩) (ht : DoctypeOk (y.toDoc lt))
    (o : Option Options) (df : Option Defaults) {fails : Nat → Bool} (hf : ∀ n, fails n = false)
    (extra : Bytes → List Bytes) :
    ∃ c, Made lt y c ∧ (∀ c', Made lt y c' → c' = c) ∧ (Counted c → RoundTrips (o.getD .standard) c →
      ∃ w st1, step lt st (.xmlStr b o df fails) = .ok (.xml w, st1) ∧
        (∃ dt root, Transmits NoBlank (w.map (·.1)) dt root) ∧
        ∀ dt root, Transmits NoBlank (w.map (·.1)) dt root → ∃ n st2,
          step lt st1 (.fromStr a (Reading.plain lt (df.getD .standard) extra).ctx
            ⟨fileEvents dt root, none⟩) = .ok (.num n, st2) ∧
          Again lt st2 a y c ∧ answer lt st2 (.eq b (some a)) = .ok (.bool true)) := by
  obtain ⟨c, hm, -⟩ := C140_made lt hn h hy
  refine ⟨c, hm, fun c' h' => made_unique lt hm h', fun hc hr => ?_⟩
  obtain ⟨w, st1, k1, -, -, k2, k3⟩ := C96_str_partial lt h hy hz hm he ht hc o df hr hf extra
  refine ⟨w, st1, k1, k2, fun dt root hd => ?_⟩
  obtain ⟨n, st2, j1, -, j2, j3, -⟩ := k3 dt root hd
  exact ⟨n, st2, j1, j2, j3⟩

theorem fullOps_native : ∀ o ∈ fullOps, NativeOp asc o := by
  simp only [fullOps, List.forall_mem_cons, List.not_mem_nil, false_implies, implies_true, NativeOp,
    and_true, true_and]
  refine ⟨?_, ?_, ?_, ?_⟩
  · intro g hg
    rw [List.mem_singleton.1 (show g ∈ [_] from hg)]
    exact ⟨setGrp_built _ _, nofun⟩
  · intro g hg
    rw [List.mem_singleton.1 (show g ∈ [_] from hg)]
    exact ⟨setCat_built _ _, nofun⟩
  · exact LangBuilt.set _ _ .create
  · exact MReach.set _ _ .create

/-- A document with a group, a category, a language pack and a black list comes back. -/
example : ∃ as st w st1, run asc start fullOps = .ok (as, st) ∧
    step asc st (.xmlStr 0 none none fun _ => false) = .ok (.xml w, st1) ∧
    ∃ dt root n st2, step asc st1 (.fromStr 1 (Reading.plain asc .standard fun _ => []).ctx
      ⟨fileEvents dt root, none⟩) = .ok (.num n, st2) ∧
      answer asc st2 (.eq 0 (some 1)) = .ok (.bool true) := by
  obtain ⟨as, st, y, z, h, hy, hz, hm, he, ht, hn⟩ := full_run
  obtain ⟨c, -, hu, k⟩ := C96_program_partial asc fullOps_native h hy hz he ht none none
    (fails := fun _ => false) (fun _ => rfl) fun _ => []
  cases hu _ hm
  obtain ⟨w, st1, k1, ⟨dt, root, k2⟩, k3⟩ := k hn full_trips
  obtain ⟨n, st2, j1, -, j2⟩ := k3 dt root k2
  exact ⟨as, st, w, st1, h, k1, dt, root, n, st2, j1, j2⟩

/-- For `C96_false`: a document with a group that has a package of no type. -/
def untypedOps : List Op :=
  [.new b!"UTF-8", .new b!"UTF-8", .get 0 .groups,
    .write 0 (.groups [setGrp (texts b!"D" ++ flags) [{ Package.create with name := some (cs b!"p") }]])]

/-- For `C96_false`: what is written. -/
def untypedTree : List Tree := grpTree b!"D" b!"default" []

/-- For `C96_false`: what the parser is given. -/
def untypedEvents : List (Parse.Pos × Parse.Event) :=
  fileEvents (some (⟨1, 1⟩, b!"comps", some b!"comps.dtd", some b!"-//Red Hat, Inc.//DTD Comps info//EN"))
    (.elem ⟨1, 1⟩ b!"comps" [] (deliveredAll whole untypedTree) ⟨1, 1⟩)

/-- For `C96_false`: whether the calls of the writer are those of the tree and the document read compares
equal. -/
def untypedTrip : Option Bool :=
  match run asc start untypedOps with
  | .error _ => none
  | .ok (_, st) =>
    match step asc st (.xmlStr 0 none none fun _ => false) with
    | .ok (.xml w, st1) =>
      if w = ((.startDocument b!"UTF-8" ::
          .startDTD (some b!"comps") (some b!"-//Red Hat, Inc.//DTD Comps info//EN")
            (some b!"comps.dtd") :: .endDTD ::
          ((Tree.elem b!"comps" [] untypedTree).calls ++ [.endDocument])).map fun c => (c, true)) then
        match step asc st1 (.fromStr 1 (Reading.plain asc .standard fun _ => []).ctx ⟨untypedEvents, none⟩) with
        | .ok (.num _, st2) =>
          match answer asc st2 (.eq 0 (some 1)) with
          | .ok (.bool v) => some v
          | _ => none
        | _ => none
      else none
    | _ => none

/-- **C96, false**: a group with a package made without a type does not come back: the package is written
as "default", and the document read from `xml_str()` is not equal to the one written. -/
theorem C96_false : (∀ o ∈ untypedOps, NativeOp asc o) ∧
    ∃ as st w st1 dt root n st2, run asc start untypedOps = .ok (as, st) ∧
      step asc st (.xmlStr 0 none none fun _ => false) = .ok (.xml w, st1) ∧ (∀ x ∈ w, x.2 = true) ∧
      Transmits (fun l => l.length ≤ 1) (w.map (·.1)) dt root ∧
      step asc st1 (.fromStr 1 (Reading.plain asc .standard fun _ => []).ctx
        ⟨fileEvents dt root, none⟩) = .ok (.num n, st2) ∧
      answer asc st2 (.eq 0 (some 1)) = .ok (.bool false) := by
  refine ⟨?_, ?_⟩
  · simp only [untypedOps, List.forall_mem_cons, List.not_mem_nil, false_implies, implies_true, NativeOp,
      and_true, true_and]
    intro g hg
    rw [List.mem_singleton.1 hg]
    exact ⟨setGrp_built _ _, nofun⟩
  have h : untypedTrip = some false := by decide +kernel
  unfold untypedTrip at h
  split at h
  · cases h
  · rename_i as st h1
    split at h
    · rename_i w st1 h2
      split at h
      · rename_i h3
        split at h
        · rename_i n st2 h4
          split at h
          · rename_i v h5
            cases h
            refine ⟨as, st, w, st1, _, _, n, st2, h1, h2, ?_, ?_, h4, h5⟩
            · intro x hx
              rw [h3] at hx
              obtain ⟨_, _, rfl⟩ := List.mem_map.1 hx; rfl
            · refine ⟨b!"UTF-8", _, _, _, _, _, _, untypedTree, _, _, _, ?_, rfl, rfl,
                delivered_reads whole_flatten whole_one untypedTree⟩
              rw [h3, List.map_map]; exact List.map_id _
          · cases h
        · cases h
      · cases h
    · cases h

end Comps.Props.PyC

section
open Comps.Props.PyC
#print axioms C97_program_partial
#print axioms C96_program_partial
#print axioms C96_false
end
