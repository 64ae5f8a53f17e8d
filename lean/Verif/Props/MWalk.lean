import Verif.Model.MWalk
import Verif.Props.MDict

/-!
# C164: walking the values of a multi-dictionary
-/

namespace Comps.Props
open Comps Comps.Spec Comps.MTree
variable {V : Type}

theorem walkLists_empty : ∀ {ls : List (List (MVal V))}, (∀ l ∈ ls, l = []) → MTree.walkLists ls = .ok []
  | [], _ => rfl
  | l :: ls, h => by
    have h1 := h l (.head _)
    subst h1
    simp only [MTree.walkLists, MTree.walkCells, walkLists_empty fun l hl => h l (.tail _ hl), bind,
      Except.bind, List.append_nil]

theorem walkLists_fault : ∀ {ls : List (List (MVal V))}, (∃ l ∈ ls, l ≠ []) →
    MTree.walkLists ls = .error .typeConfusion
  | [], h => by obtain ⟨l, hl, -⟩ := h; cases hl
  | l :: ls, h => by
    cases l with
    | cons x xs => rfl
    | nil =>
      have : ∃ l ∈ ls, l ≠ [] := by
        obtain ⟨l, hl, hn⟩ := h
        rcases List.mem_cons.1 hl with rfl | hl
        · exact absurd rfl hn
        · exact ⟨l, hl, hn⟩
      simp only [MTree.walkLists, MTree.walkCells, walkLists_fault this, bind, Except.bind]

theorem mem_walk {t : MTree V} (h : MReach t) (l : List (MVal V)) :
    l ∈ RTree.valuesWalk t ↔ ∃ k, MTree.get t k = some l := by
  rw [(RTree.valuesWalk_perm t).mem_iff, List.mem_map]
  constructor
  · rintro ⟨⟨k, l'⟩, hm, rfl⟩
    exact ⟨k, (RTree.mem_pairs (mreach_ok h).wf k l').1 hm⟩
  · rintro ⟨k, hk⟩
    exact ⟨(k, l), (RTree.mem_pairs (mreach_ok h).wf k l).2 hk, rfl⟩

/-- C164 is false: as soon as any key lists anything, in every reachable state, the walk takes an object
for a cell of a list. -/
theorem C164_false {t : MTree V} (h : MReach t) (k : Bytes) (x : MVal V) (xs : List (MVal V))
    (hk : MTree.get t k = some (x :: xs)) : MTree.valuesWalk t = .error .typeConfusion :=
  walkLists_fault ⟨x :: xs, (mem_walk h _).2 ⟨k, hk⟩, by simp⟩

/-- So it is for everything that was only written to. -/
theorem C164_false_written (ws : List (Bytes × V)) (hw : ∃ w ∈ ws, w.1 ≠ []) :
    MTree.valuesWalk (mrun ws) = .error .typeConfusion := by
  obtain ⟨w, hw, hk⟩ := hw
  have ho := C10_objects_partial ws w.1 hk
  have hm : w.2 ∈ written ws w.1 := by
    simp only [written, List.mem_filterMap]
    exact ⟨w, hw, by simp⟩
  cases hg : MTree.get (mrun ws) w.1 with
  | none => rw [hg] at ho; rw [← ho] at hm; simp [objects, flatL] at hm
  | some l =>
    cases l with
    | nil => rw [hg] at ho; rw [← ho] at hm; simp [objects, flatL] at hm
    | cons x xs => exact C164_false (mrun_reach ws) _ x xs hg

example : MTree.valuesWalk (mrun [([97], 1), ([97, 98], 2)]) = .error .typeConfusion :=
  C164_false_written _ ⟨_, .head _, by simp⟩

/-- C164, part that holds: if no key lists anything, the walk comes to an end and passes nothing.
Missing: every multi-dictionary with an object. -/
theorem C164_partial {t : MTree V} (h : MReach t) (hk : ∀ k l, MTree.get t k = some l → l = []) :
    MTree.valuesWalk t = .ok [] :=
  walkLists_empty fun l hl => by
    obtain ⟨k, hg⟩ := (mem_walk h l).1 hl
    exact hk k l hg

/-- A multi-dictionary whose only object was removed. -/
example : ∃ t : MTree Nat, MTree.unset (mrun [([97], 1)]) [97] = .ok t ∧ MTree.valuesWalk t = .ok [] :=
  ⟨_, rfl, C164_partial (MReach.unset [97] (mrun_reach [([97], 1)]) rfl) (by
    intro k l hk
    rw [MTree.get_eq (mreach_ok (MReach.unset [97] (mrun_reach [([97], 1)]) rfl)).wf] at hk
    cases hk)⟩

end Comps.Props

section
open Comps.Props
#print axioms C164_false
#print axioms C164_false_written
#print axioms C164_partial
end
