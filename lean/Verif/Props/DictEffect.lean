import Verif.Lemmas.RTreeEffect
import Verif.Spec.DictHist
import Verif.Props.Dict

/-!
# What writes and removals do to the other keys, in every state (C02, C03, C05)
-/

namespace Comps.Props
open Comps Comps.Spec Comps.RTree

variable {V : Type} {lt : UInt8 → UInt8 → Bool}

/-- **C02, exact effect.**  In every reachable dictionary, a write changes no other key, or the key is a
proper prefix of one written before and there is a proper prefix `p` of the key such that of the other keys
those are lost that properly extend `p` and do not extend the key; all others read as before. -/
theorem C02_effect {S : List Bytes} {t : RTree V} (h : Reach lt S t) (k : Bytes) (v : Option V) :
    (∀ k', k' ≠ k → (t.set lt k v).get k' = t.get k') ∨
    ((∃ s ∈ S, ProperPrefix k s) ∧ ∃ p, ProperPrefix p k ∧
      ∀ k', k' ≠ k → (t.set lt k v).get k' = if Lost p k k' then none else t.get k') := by
  by_cases hS : ∃ s ∈ S, ProperPrefix k s
  · have w := (reach_inv h).wf
    rcases setLoop_effect lt v k.length k t.subnodes w with he | ⟨p, hp, he⟩
    · left
      intro k' hk'
      rw [get_eq (set_wf lt w k v), get_eq w]
      exact he k' hk'
    · right
      refine ⟨hS, p, hp, fun k' hk' => ?_⟩
      rw [get_eq (set_wf lt w k v), get_eq w]
      exact he k' hk'
  · left
    intro k' hk'
    exact C02_frame_partial h k v (fun s hs hp => hS ⟨s, hs, hp⟩) k' hk'

/-- The second case, with `p` empty: "c" is lost and "ab" is kept when "a" is written. -/
example : (exTree.set ult [97] (some 3)).get [99] = none ∧ Lost [] [97] [99] ∧
    (exTree.set ult [97] (some 3)).get [97, 98] = some 1 ∧ ¬ Lost [] [97] [97, 98] := by decide

example := C02_effect exTree_reach [97] (some 3)

/-- **C05, partial.**  Whenever a removal returns, either no other key changes, or exactly the keys that
extend the removed one are lost with it.
Missing: absence of faults (`C05_false_fault`), and that longer keys stay (`C05_false_descendant`). -/
theorem C05_effect_partial {S : List Bytes} {t t' : RTree V} (h : Reach lt S t) (k : Bytes)
    (hu : t.unset k = .ok t') : t'.get k = none ∧
    ((∀ k', k' ≠ k → t'.get k' = t.get k') ∨
      (∀ k', k' ≠ k → t'.get k' = if k <+: k' then none else t.get k')) := by
  refine ⟨C05_removed_partial h k hu, ?_⟩
  have w := (reach_inv h).wf
  simp only [RTree.unset] at hu
  split at hu
  · simp at hu
  · simp at hu
    subst hu
    exact Or.inl fun _ _ => rfl
  · rename_i s hs
    simp at hu
    subst hu
    have ws := (unsetLoop_found _ _ _ _ _ w hs).1
    rcases unsetLoop_effect _ _ _ _ _ w hs with he | he
    · left
      intro k' hk'
      rw [get_eq ws, get_eq w]
      exact he k' hk'
    · right
      intro k' hk'
      rw [get_eq ws, get_eq w]
      exact he k' hk'

/-- Removing "a" from {"a", "ab", "b"} takes "ab" with it and leaves "b". -/
def exTree3 : RTree Nat :=
  ((RTree.create.set ult [97] (some 1)).set ult [97, 98] (some 2)).set ult [98] (some 3)

theorem exTree3_reach : Reach ult [[98], [97, 98], [97]] exTree3 := .set _ _ (.set _ _ (.set _ _ .create))

example : ∃ t', exTree3.unset [97] = .ok t' ∧ exTree3.get [97, 98] = some 2 ∧ t'.get [97, 98] = none ∧
    t'.get [98] = some 3 := ⟨⟨⟨[.mk [98] (some 3) [] false], false⟩, 3⟩, by rfl, by decide, by decide, by decide⟩

/-- **C03, for every history.**  After any calls of set with non-empty keys, unset and clear that do not
fault, reading a key gives NULL or the value last written to it and not removed since: no read ever gives an
old value or the value of another key. -/
theorem C03_sound (ops : List (DictOp V)) (hne : ∀ k v, DictOp.set k v ∈ ops → k ≠ []) {t : RTree V}
    (hr : dictRun lt RTree.create ops = .ok t) (k : Bytes) :
    t.get k = none ∨ t.get k = FMap.none.run ops k := by
  have key : ∀ (ops : List (DictOp V)) (S : List Bytes) (t0 : RTree V) (m : FMap V),
      (∀ k v, DictOp.set k v ∈ ops → k ≠ []) → Reach lt S t0 → (∀ k, t0.get k = none ∨ t0.get k = m k) →
      dictRun lt t0 ops = .ok t → ∀ k, t.get k = none ∨ t.get k = m.run ops k := by
    intro ops
    induction ops with
    | nil =>
      intro S t0 m _ _ hm hr
      injection hr with hr
      subst hr
      exact hm
    | cons o ops ih =>
      intro S t0 m hne h hm hr
      have hne' : ∀ k v, DictOp.set k v ∈ ops → k ≠ [] := fun k v hk => hne k v (by simp [hk])
      cases o with
      | set k v =>
        have hk := hne k v (by simp)
        refine ih _ (t0.set lt k v) (m.upd k v) hne' (.set k v h) (fun k' => ?_) hr
        by_cases e : k' = k
        · subst e
          right
          simp [FMap.upd, C01_read_after_write h k' hk v]
        · have hu : m.upd k v k' = m k' := by simp [FMap.upd, e]
          rw [hu]
          rcases C02_effect h k v with he | ⟨-, p, -, he⟩
          · rw [he k' e]; exact hm k'
          · rw [he k' e]
            split
            · exact Or.inl rfl
            · exact hm k'
      | unset k =>
        simp only [dictRun] at hr
        cases hu : t0.unset k with
        | error f => simp [hu] at hr
        | ok t1 =>
          simp only [hu] at hr
          refine ih _ t1 (m.upd k none) hne' (.unset k h hu) (fun k' => ?_) hr
          obtain ⟨h0, h1⟩ := C05_effect_partial h k hu
          by_cases e : k' = k
          · subst e; exact Or.inl h0
          · have hmu : m.upd k none k' = m k' := by simp [FMap.upd, e]
            rw [hmu]
            rcases h1 with h1 | h1
            · rw [h1 k' e]; exact hm k'
            · rw [h1 k' e]
              split
              · exact Or.inl rfl
              · exact hm k'
      | clear =>
        refine ih _ t0.clear FMap.none hne' (.clear h) (fun k' => Or.inl ?_) hr
        rw [get_eq (reach_inv (Reach.clear h)).wf]
        simp [RTree.clear, listLk]
  refine key ops [] RTree.create FMap.none hne .create (fun k => Or.inl ?_) hr k
  rw [get_eq wf_empty]
  simp [RTree.create, listLk]

/-- A history with a lost key, a removal and a clearing; "ab" is read back after it. -/
example : ∃ t, dictRun ult RTree.create [.set [120] (some 9), .clear, .set [97, 98] (some 1), .set [99] (some 2),
      .set [97] (some 3), .set [97, 98] (some 4), .unset [97]] = .ok t ∧
    t.get [97, 98] = some 4 ∧ t.get [99] = none ∧ t.get [97] = none := by
  refine ⟨⟨⟨[.mk [97] none [.mk [98] (some 4) [] false] true], true⟩, 3⟩, by rfl, by decide, by decide, by decide⟩

end Comps.Props

section
open Comps.Props
#print axioms C02_effect
#print axioms C03_sound
#print axioms C05_effect_partial
end
