import Verif.Lemmas.OwnDoc
import Verif.Props.Doc

/-! # Lemmas: for the properties of merges with owners -/

namespace Comps.Own
open Comps Comps.Obj Comps.Spec Comps.Spec.Own

set_option linter.unusedSectionVars false
set_option linter.unusedSimpArgs false

variable {α κ : Type} [DecidableEq κ] {key : α → κ}

/-- The objects `left` stay behind: otherwise everything has the owners it had. -/
structure Leaves (m m' : Mem α) (left : List Nat) : Prop where
  new : ∀ p ∈ left, m.length ≤ p
  distinct : left.Nodup
  owners : ∀ p, own m' p = own m p + if p ∈ left then 1 else 0

theorem Done.leaves {m m' : Mem α} {A X lost : List Nat} {vs : List α} (h : Done m m' A X lost vs) :
    ∃ m'', destroyAll m' (A ++ X) = .ok m'' ∧ Leaves m m'' lost := by
  obtain ⟨m'', r, -, -, led⟩ := destroyAll_ok (m := m') (s := A ++ X) fun p => by
    rw [h.ledger]; omega
  refine ⟨m'', r, h.lostB, h.lostNodup, fun p => ?_⟩
  have h1 := led p
  have h2 := h.ledger p
  have h3 : lost.count p = if p ∈ lost then 1 else 0 := by
    split
    · rename_i hm
      have := List.nodup_iff_count.1 h.lostNodup p
      have := List.count_pos_iff.2 hm
      omega
    · rename_i hm
      exact List.count_eq_zero.2 hm
  omega

theorem overlay_copy (b : List α) (seen : List κ) (a : List α) :
    overlayWith key (withFirst fun _ y => y) b seen a = overlay key b seen a := by
  induction a generalizing seen with
  | nil => rfl
  | cons x xs ih =>
    rw [overlayWith, overlay, ih, withFirst_filter]
    congr 1
    split
    · rfl
    · cases b.find? fun y => decide (key y = key x) <;> rfl

theorem repeatsIn_zero {seen ks : List κ} (h : ks.Nodup) (hd : ∀ k ∈ ks, k ∉ seen) :
    repeatsIn seen ks = 0 := by
  induction ks generalizing seen with
  | nil => rfl
  | cons k ks ih =>
    have h' := List.nodup_cons.1 h
    rw [repeatsIn, if_neg (hd k (by simp)), ih h'.2]
    intro x hx
    rw [List.mem_cons, not_or]
    exact ⟨fun e => h'.1 (e ▸ hx), hd x (by simp [hx])⟩

theorem repeats_zero {ks : List κ} (h : ks.Nodup) : repeats ks = 0 := repeatsIn_zero h (by simp)

theorem shared_nodup {a b : List α} (h : (b.map key).Nodup) : (shared key a b).Nodup :=
  h.sublist List.filter_sublist

/-- Overlaying copies gives objects like those of the overlay. -/
theorem overlay_alike {R : α → α → Prop} {copy : α → α} {mrg : α → α → α} {a b : List α}
    (hc : ∀ x ∈ a, key (copy x) = key x) (hR : ∀ x ∈ a, R (copy x) x)
    (hm : ∀ x ∈ a, ∀ y ∈ b, R (mrg (copy x) y) (mrg x y)) :
    Alike R (overlayWith key (withFirst mrg) b [] (a.map copy)) (overlayWith key (withFirst mrg) b [] a) := by
  refine ⟨by simp [overlayWith_length], fun i x y hx hy => ?_⟩
  rw [overlayWith_get, List.getElem?_map] at hx
  rw [overlayWith_get] at hy
  have hkeys : (a.map copy).map key = a.map key := by
    rw [List.map_map]
    exact List.map_congr_left fun v hv => hc v hv
  cases hz : a[i]? with
  | none => rw [hz] at hy; simp at hy
  | some z =>
    have hzm := List.mem_of_getElem? hz
    rw [hz] at hx hy
    simp only [Option.map_some, hkeys, hc z hzm, List.not_mem_nil, false_or, Option.some.injEq,
      withFirst_filter] at hx hy
    split at hx
    · rename_i h
      rw [if_pos h] at hy
      rw [← hx, ← hy]
      exact hR z hzm
    · rename_i h
      rw [if_neg h] at hy
      cases hf : b.find? (fun w => decide (key w = key z)) with
      | none =>
        rw [hf] at hx hy
        rw [← hx, ← hy]
        exact hR z hzm
      | some w =>
        rw [hf] at hx hy
        rw [← hx, ← hy]
        exact hm z hzm w (List.mem_of_find?_eq_some hf)

theorem overlayWith_keys {join : α → List α → α} {b : List α} (hj : ∀ x, ∀ l : List α, (∀ y ∈ l, y ∈ b) →
    (∀ y ∈ l, key y = key x) → key (join x l) = key x) (seen : List κ) (a : List α) :
    (overlayWith key join b seen a).map key = a.map key := by
  induction a generalizing seen with
  | nil => rfl
  | cons x xs ih =>
    rw [overlayWith, List.map_cons, ih, List.map_cons]
    congr 1
    split
    · rfl
    · exact hj x _ (fun y hy => (List.mem_filter.1 hy).1) fun y hy => by
        simpa using (List.mem_filter.1 hy).2

end Comps.Own
