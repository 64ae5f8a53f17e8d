/-! # Lemmas about lists missing from the core library -/

namespace Comps

theorem pigeonhole {α : Type} [DecidableEq α] : ∀ (l1 l2 : List α), l1.Nodup →
    (∀ x ∈ l1, x ∈ l2) → l1.length ≤ l2.length
  | [], _, _, _ => Nat.zero_le _
  | x :: xs, l2, hn, hs => by
    rw [List.nodup_cons] at hn
    have hx : x ∈ l2 := hs x (by simp)
    have := pigeonhole xs (l2.erase x) hn.2 (fun y hy => by
      rw [List.mem_erase_of_ne]
      · exact hs y (by simp [hy])
      · rintro rfl; exact hn.1 hy)
    rw [List.length_erase_of_mem hx] at this
    have hpos : 0 < l2.length := List.length_pos_of_mem hx
    simp only [List.length_cons]
    omega

theorem pigeonhole_eq {α : Type} [DecidableEq α] (l1 l2 : List α) (hn : l1.Nodup)
    (hs : ∀ x ∈ l1, x ∈ l2) (hlen : l2.length ≤ l1.length) : ∀ x ∈ l2, x ∈ l1 := by
  intro x hx
  refine Decidable.byContradiction fun hc => ?_
  have := pigeonhole l1 (l2.erase x) hn (fun y hy => by
    rw [List.mem_erase_of_ne]
    · exact hs y hy
    · rintro rfl; exact hc hy)
  rw [List.length_erase_of_mem hx] at this
  have hpos : 0 < l2.length := List.length_pos_of_mem hx
  omega

end Comps
