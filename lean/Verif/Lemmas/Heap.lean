import Verif.Model.Heap

/-! # Linked segments of a heap -/

namespace Comps
open Heap
variable {α : Type}

/-- The cells `as` (address and data) are linked from `p` and end in `q`. -/
def LSeg (c : Nat → Option (Cell α)) : Option Nat → List (Nat × α) → Option Nat → Prop
  | p, [], q => p = q
  | p, (a, x) :: r, q => p = some a ∧ ∃ n, c a = some ⟨n, x⟩ ∧ LSeg c n r q

/-- The addresses of cells. -/
abbrev addrs (as : List (Nat × α)) : List Nat := as.map Prod.fst

theorem lseg_append {c : Nat → Option (Cell α)} {p q : Option Nat} {as bs : List (Nat × α)} :
    LSeg c p (as ++ bs) q ↔ ∃ m, LSeg c p as m ∧ LSeg c m bs q := by
  induction as generalizing p with
  | nil => simp [LSeg]
  | cons e r ih =>
    obtain ⟨a, x⟩ := e
    simp only [List.cons_append, LSeg]
    constructor
    · rintro ⟨rfl, n, hc, hs⟩
      obtain ⟨m, h1, h2⟩ := ih.1 hs
      exact ⟨m, ⟨rfl, n, hc, h1⟩, h2⟩
    · rintro ⟨m, ⟨rfl, n, hc, h1⟩, h2⟩
      exact ⟨rfl, n, hc, ih.2 ⟨m, h1, h2⟩⟩

theorem lseg_congr {c c' : Nat → Option (Cell α)} {p q : Option Nat} {as : List (Nat × α)}
    (h : ∀ a ∈ addrs as, c' a = c a) (hs : LSeg c p as q) : LSeg c' p as q := by
  induction as generalizing p with
  | nil => exact hs
  | cons e r ih =>
    obtain ⟨a, x⟩ := e
    obtain ⟨rfl, n, hc, hs⟩ := hs
    refine ⟨rfl, n, ?_, ih (fun b hb => h b (by simp at hb ⊢; exact .inr hb)) hs⟩
    rw [h a (by simp)]; exact hc

theorem lseg_single {c : Nat → Option (Cell α)} {p q : Option Nat} {a : Nat} {x : α} :
    LSeg c p [(a, x)] q ↔ p = some a ∧ c a = some ⟨q, x⟩ := by
  simp only [LSeg]
  constructor
  · rintro ⟨rfl, n, hc, rfl⟩; exact ⟨rfl, hc⟩
  · rintro ⟨rfl, hc⟩; exact ⟨rfl, q, hc, rfl⟩

/-- A proper list: linked to NULL, no address twice, all addresses allocated before. -/
structure IsList (h : Heap α) (p : Option Nat) (as : List (Nat × α)) : Prop where
  seg : LSeg h.cells p as none
  nodup : (addrs as).Nodup
  bnd : ∀ a ∈ addrs as, a < h.fresh

/-- Nothing outside of `as` changed. -/
structure Frame (h h' : Heap α) (as : List (Nat × α)) : Prop where
  fresh : h.fresh ≤ h'.fresh
  same : ∀ b, b < h.fresh → b ∉ addrs as → h'.cells b = h.cells b

theorem Frame.refl (h : Heap α) (as : List (Nat × α)) : Frame h h as :=
  ⟨Nat.le_refl _, fun _ _ _ => rfl⟩

theorem Frame.isList {h h' : Heap α} {as bs : List (Nat × α)} {p : Option Nat}
    (f : Frame h h' as) (hb : IsList h p bs) (hd : ∀ b ∈ addrs bs, b ∉ addrs as) :
    IsList h' p bs :=
  ⟨lseg_congr (fun b hm => f.same b (hb.bnd b hm) (hd b hm)) hb.seg, hb.nodup,
    fun b hm => Nat.lt_of_lt_of_le (hb.bnd b hm) f.fresh⟩

theorem IsList.head {h : Heap α} {p : Option Nat} {as : List (Nat × α)} (hl : IsList h p as) :
    p = as.head?.map Prod.fst := by
  cases as with
  | nil => exact hl.seg
  | cons e r => exact hl.seg.1

theorem IsList.nil {h : Heap α} : IsList h none ([] : List (Nat × α)) :=
  ⟨rfl, by simp, by simp⟩

theorem IsList.nil_iff {h : Heap α} {as : List (Nat × α)} (hl : IsList h none as) : as = [] := by
  cases as with
  | nil => rfl
  | cons e r => exact absurd hl.seg.1 (by simp)

/-- The list from a cell on. -/
theorem IsList.suffix {h : Heap α} {p : Option Nat} {pre as : List (Nat × α)}
    (hl : IsList h p (pre ++ as)) : ∃ m, LSeg h.cells p pre m ∧ IsList h m as := by
  obtain ⟨m, h1, h2⟩ := lseg_append.1 hl.seg
  have hn := hl.nodup
  simp only [addrs, List.map_append, List.nodup_append] at hn
  exact ⟨m, h1, h2, hn.2.1, fun a ha => hl.bnd a (by
    simp only [addrs, List.map_append, List.mem_append]; exact .inr ha)⟩

theorem IsList.cons_inv {h : Heap α} {p : Option Nat} {a : Nat} {x : α} {r : List (Nat × α)}
    (hl : IsList h p ((a, x) :: r)) :
    p = some a ∧ ∃ n, h.cells a = some ⟨n, x⟩ ∧ IsList h n r ∧ a ∉ addrs r := by
  obtain ⟨rfl, n, hc, hs⟩ := hl.seg
  have hn := hl.nodup
  simp only [addrs, List.map_cons, List.nodup_cons] at hn
  exact ⟨rfl, n, hc, ⟨hs, hn.2, fun b hb => hl.bnd b (by simp at hb ⊢; exact .inr hb)⟩, hn.1⟩

theorem deref_ok {h : Heap α} {a : Nat} {c : Cell α} (hc : h.cells a = some c) :
    h.deref (some a) = .ok c := by simp [deref, hc]

theorem setNext_ok {h : Heap α} {a : Nat} {c : Cell α} (q : Option Nat)
    (hc : h.cells a = some c) : h.setNext (some a) q = .ok (h.write a ⟨q, c.data⟩) := by
  simp [setNext, hc]

@[simp] theorem write_cells (h : Heap α) (a : Nat) (c : Cell α) (b : Nat) :
    (h.write a c).cells b = if b = a then some c else h.cells b := (rfl)
@[simp] theorem write_fresh (h : Heap α) (a : Nat) (c : Cell α) :
    (h.write a c).fresh = h.fresh := (rfl)
@[simp] theorem alloc_cells (h : Heap α) (c : Cell α) (b : Nat) :
    (h.alloc c).1.cells b = if b = h.fresh then some c else h.cells b := (rfl)
@[simp] theorem alloc_fresh (h : Heap α) (c : Cell α) : (h.alloc c).1.fresh = h.fresh + 1 := (rfl)
@[simp] theorem alloc_addr (h : Heap α) (c : Cell α) : (h.alloc c).2 = h.fresh := (rfl)
@[simp] theorem free_cells (h : Heap α) (a b : Nat) :
    (h.free a).cells b = if b = a then none else h.cells b := (rfl)
@[simp] theorem free_fresh (h : Heap α) (a : Nat) : (h.free a).fresh = h.fresh := (rfl)

theorem frame_alloc (h : Heap α) (c : Cell α) (as : List (Nat × α)) :
    Frame h (h.alloc c).1 as :=
  ⟨by simp, fun b hb _ => by
    simp only [alloc_cells]; rw [if_neg (by omega)]⟩

theorem isList_alloc {h : Heap α} {p : Option Nat} {as : List (Nat × α)} (c : Cell α)
    (hl : IsList h p as) : IsList (h.alloc c).1 p as :=
  (frame_alloc h c []).isList hl (by simp)

/-- Cell `i` of a list, found by its position. -/
theorem split_at_pos {as : List (Nat × α)} {i : Nat} (hi : i < as.length) :
    ∃ pre a x post, as = pre ++ (a, x) :: post ∧ pre.length = i := by
  refine ⟨as.take i, as[i].1, as[i].2, as.drop (i + 1), ?_, by simp; omega⟩
  rw [← List.drop_eq_getElem_cons hi]
  exact (List.take_append_drop i as).symm

theorem IsList.nodup_mid {h : Heap α} {p : Option Nat} {pre post : List (Nat × α)} {a : Nat} {x : α}
    (hl : IsList h p (pre ++ (a, x) :: post)) :
    a ∉ addrs pre ∧ a ∉ addrs post ∧ (∀ b ∈ addrs pre, b ∉ addrs post) ∧ (addrs pre).Nodup ∧
    (addrs post).Nodup ∧ a < h.fresh := by
  have hn := hl.nodup
  simp only [addrs, List.map_append, List.map_cons, List.nodup_append, List.nodup_cons,
    List.mem_cons] at hn
  refine ⟨fun hm => hn.2.2 a hm a (.inl rfl) rfl, hn.2.1.1, fun b hb hb' => hn.2.2 b hb b (.inr hb') rfl,
    hn.1, hn.2.1.2, hl.bnd a (by simp)⟩

/-- Relinking: cell `a` gets another rest `post'`. -/
theorem isList_relink {h h' : Heap α} {p q : Option Nat} {pre post post' : List (Nat × α)} {a : Nat}
    {x : α} (hl : IsList h p (pre ++ (a, x) :: post))
    (hpre : ∀ b ∈ addrs pre, h'.cells b = h.cells b) (ha : h'.cells a = some ⟨q, x⟩)
    (hpost : IsList h' q post') (hfr : h.fresh ≤ h'.fresh)
    (hd : ∀ b ∈ addrs post', b ∉ addrs pre ∧ b ≠ a) :
    IsList h' p (pre ++ (a, x) :: post') := by
  obtain ⟨n1, n2, n3, n4, n5, n6⟩ := hl.nodup_mid
  obtain ⟨m, h1, h2⟩ := lseg_append.1 hl.seg
  refine ⟨lseg_append.2 ⟨m, lseg_congr hpre h1, h2.1, q, ha, hpost.seg⟩, ?_, ?_⟩
  · simp only [addrs, List.map_append, List.map_cons, List.nodup_append, List.nodup_cons,
      List.mem_cons]
    refine ⟨n4, ⟨fun hm => (hd a hm).2 rfl, hpost.nodup⟩, ?_⟩
    rintro b hb c (rfl | hc) rfl
    · exact n1 hb
    · exact (hd b hc).1 hb
  · intro b hb
    simp only [addrs, List.map_append, List.map_cons, List.mem_append, List.mem_cons] at hb
    rcases hb with hb | rfl | hb
    · exact Nat.lt_of_lt_of_le (hl.bnd b (by
        simp only [addrs, List.map_append, List.mem_append]; exact .inl hb)) hfr
    · omega
    · exact hpost.bnd b hb

theorem IsList.length_le {h : Heap α} {p : Option Nat} {as : List (Nat × α)} (hl : IsList h p as) :
    as.length ≤ h.fresh := by
  have : ∀ (l : List Nat) (n : Nat), l.Nodup → (∀ a ∈ l, a < n) → l.length ≤ n := by
    intro l n
    induction n generalizing l with
    | zero =>
      intro _ hb
      cases l with
      | nil => simp
      | cons a r => exact absurd (hb a (by simp)) (by omega)
    | succ n ih =>
      intro hn hb
      by_cases hm : n ∈ l
      · have h1 := ih (l.erase n) (hn.erase n) (fun a ha => by
          have h2 := hb a (List.mem_of_mem_erase ha)
          have : a ≠ n := by
            rintro rfl
            exact (hn.mem_erase_iff.1 ha).1 rfl
          omega)
        rw [List.length_erase_of_mem hm] at h1
        omega
      · have := ih l hn (fun a ha => by
          have h2 := hb a ha
          have : a ≠ n := by rintro rfl; exact hm ha
          omega)
        omega
  have h1 := this (addrs as) h.fresh hl.nodup hl.bnd
  simpa using h1

/-- A new cell is linked in after cell `a`. -/
theorem isList_insert {h h2 : Heap α} {p n : Option Nat} {pre post : List (Nat × α)} {a : Nat}
    {x y : α} (hL : IsList h p (pre ++ (a, y) :: post)) (hc : h.cells a = some ⟨n, y⟩)
    (hf : h2.fresh = h.fresh + 1) (h2a : h2.cells a = some ⟨some h.fresh, y⟩)
    (h2n : h2.cells h.fresh = some ⟨n, x⟩)
    (h2o : ∀ b, b ≠ a → b ≠ h.fresh → h2.cells b = h.cells b) :
    IsList h2 p (pre ++ (a, y) :: (h.fresh, x) :: post) ∧ Frame h h2 (pre ++ (a, y) :: post) := by
  obtain ⟨n1, n2, n3, n4, n5, n6⟩ := hL.nodup_mid
  obtain ⟨m, h1, h2'⟩ := hL.suffix
  obtain ⟨-, n', hc', h3, -⟩ := h2'.cons_inv
  rw [hc] at hc'
  simp only [Option.some.injEq, Cell.mk.injEq, and_true] at hc'
  subst hc'
  constructor
  · refine isList_relink hL ?_ h2a (q := some h.fresh) ?_ (by omega) ?_
    · intro b hb
      have : b < h.fresh := hL.bnd b (by simp only [addrs, List.map_append, List.mem_append]; exact .inl hb)
      exact h2o b (by rintro rfl; exact n1 hb) (by omega)
    · refine ⟨⟨rfl, n, h2n, lseg_congr ?_ h3.seg⟩, ?_, ?_⟩
      · intro b hb
        have := h3.bnd b hb
        exact h2o b (by rintro rfl; exact n2 hb) (by omega)
      · simp only [addrs, List.map_cons, List.nodup_cons]
        exact ⟨fun hm => absurd (h3.bnd _ hm) (by omega), n5⟩
      · intro b hb
        simp only [addrs, List.map_cons, List.mem_cons] at hb
        rcases hb with rfl | hb
        · omega
        · have := h3.bnd b hb; omega
    · intro b hb
      simp only [addrs, List.map_cons, List.mem_cons] at hb
      rcases hb with rfl | hb
      · exact ⟨fun hm => absurd (hL.bnd h.fresh (by
          simp only [addrs, List.map_append, List.mem_append]; exact .inl hm)) (by omega), by omega⟩
      · exact ⟨fun hm => n3 b hm hb, by rintro rfl; exact n2 hb⟩
  · exact ⟨by omega, fun b hb hn => h2o b (by rintro rfl; simp at hn) (by omega)⟩

/-- A new cell is put in front. -/
theorem isList_push {h h2 : Heap α} {p : Option Nat} {as : List (Nat × α)} {x : α}
    (hL : IsList h p as) (hf : h2.fresh = h.fresh + 1) (h2n : h2.cells h.fresh = some ⟨p, x⟩)
    (h2o : ∀ b, b ≠ h.fresh → h2.cells b = h.cells b) :
    IsList h2 (some h.fresh) ((h.fresh, x) :: as) ∧ Frame h h2 [] := by
  refine ⟨⟨⟨rfl, p, h2n, lseg_congr ?_ hL.seg⟩, ?_, ?_⟩, by omega, fun b hb _ => h2o b (by omega)⟩
  · intro b hb
    have := hL.bnd b hb
    exact h2o b (by omega)
  · simp only [addrs, List.map_cons, List.nodup_cons]
    exact ⟨fun hm => absurd (hL.bnd _ hm) (by omega), hL.nodup⟩
  · intro b hb
    simp only [addrs, List.map_cons, List.mem_cons] at hb
    rcases hb with rfl | hb
    · omega
    · have := hL.bnd b hb; omega

/-- Cell `a` is taken out after cell `b`. -/
theorem isList_unlink {h h2 : Heap α} {p n : Option Nat} {pre post : List (Nat × α)} {a b : Nat}
    {y z : α} (hL : IsList h p (pre ++ (b, z) :: (a, y) :: post)) (hc : h.cells a = some ⟨n, y⟩)
    (hf : h2.fresh = h.fresh) (h2b : h2.cells b = some ⟨n, z⟩)
    (h2o : ∀ c, c ≠ a → c ≠ b → h2.cells c = h.cells c) :
    IsList h2 p (pre ++ (b, z) :: post) ∧ Frame h h2 (pre ++ (b, z) :: (a, y) :: post) := by
  obtain ⟨k1, k2, k3, k4, k5, k6⟩ := hL.nodup_mid
  obtain ⟨m, h1, h2'⟩ := hL.suffix
  obtain ⟨-, nb, hcb, h4, -⟩ := h2'.cons_inv
  obtain ⟨-, n', hc', h3, hna⟩ := h4.cons_inv
  rw [hc] at hc'
  simp only [Option.some.injEq, Cell.mk.injEq, and_true] at hc'
  subst hc'
  have hab : a ≠ b := by rintro rfl; exact k2 (by simp)
  constructor
  · refine isList_relink hL ?_ h2b (q := n) (post' := post) ?_ (by omega) ?_
    · intro c hcm
      exact h2o c (by rintro rfl; exact k3 c hcm (by simp)) (by rintro rfl; exact k1 hcm)
    · refine ⟨lseg_congr ?_ h3.seg, h3.nodup, fun c hcm => by rw [hf]; exact h3.bnd c hcm⟩
      intro c hcm
      refine h2o c (by rintro rfl; exact hna hcm) ?_
      rintro rfl
      exact k2 (by simp only [addrs, List.map_cons, List.mem_cons]; exact .inr hcm)
    · intro c hcm
      have hcm' : c ∈ addrs ((a, y) :: post) := by
        simp only [addrs, List.map_cons, List.mem_cons]; exact .inr hcm
      exact ⟨fun hp => k3 c hp hcm', by rintro rfl; exact k2 hcm'⟩
  · refine ⟨by omega, fun c hcb hn => h2o c ?_ ?_⟩ <;> rintro rfl <;> simp at hn

/-- The first cell is taken out. -/
theorem isList_pop_front {h h2 : Heap α} {p n : Option Nat} {post : List (Nat × α)} {a : Nat} {y : α}
    (hL : IsList h p ((a, y) :: post)) (hc : h.cells a = some ⟨n, y⟩) (hf : h2.fresh = h.fresh)
    (h2o : ∀ c, c ≠ a → h2.cells c = h.cells c) :
    IsList h2 n post ∧ Frame h h2 ((a, y) :: post) := by
  obtain ⟨-, n', hc', h3, hna⟩ := hL.cons_inv
  rw [hc] at hc'
  simp only [Option.some.injEq, Cell.mk.injEq, and_true] at hc'
  subst hc'
  refine ⟨⟨lseg_congr ?_ h3.seg, h3.nodup, fun c hcm => by rw [hf]; exact h3.bnd c hcm⟩, by omega,
    fun c _ hn => h2o c (by rintro rfl; simp at hn)⟩
  intro c hcm
  exact h2o c (by rintro rfl; exact hna hcm)

/-- Data of cell `a` is replaced. -/
theorem isList_setData {h h2 : Heap α} {p n : Option Nat} {pre post : List (Nat × α)} {a : Nat}
    {x y : α} (hL : IsList h p (pre ++ (a, y) :: post)) (hc : h.cells a = some ⟨n, y⟩)
    (hf : h2.fresh = h.fresh) (h2a : h2.cells a = some ⟨n, x⟩)
    (h2o : ∀ c, c ≠ a → h2.cells c = h.cells c) :
    IsList h2 p (pre ++ (a, x) :: post) ∧ Frame h h2 (pre ++ (a, y) :: post) := by
  obtain ⟨n1, n2, n3, n4, n5, n6⟩ := hL.nodup_mid
  obtain ⟨m, h1, h2'⟩ := lseg_append.1 hL.seg
  obtain ⟨rfl, n', hc', h3⟩ := h2'
  rw [hc] at hc'
  simp only [Option.some.injEq, Cell.mk.injEq, and_true] at hc'
  subst hc'
  refine ⟨⟨lseg_append.2 ⟨some a, lseg_congr ?_ h1, rfl, n, h2a, lseg_congr ?_ h3⟩, ?_, ?_⟩, by omega,
    fun c _ hn => h2o c (by rintro rfl; simp at hn)⟩
  · intro b hb; exact h2o b (by rintro rfl; exact n1 hb)
  · intro b hb; exact h2o b (by rintro rfl; exact n2 hb)
  · have := hL.nodup
    simpa only [addrs, List.map_append, List.map_cons] using this
  · have := hL.bnd
    rw [hf]
    simpa only [addrs, List.map_append, List.map_cons] using this

theorem IsList.mid_cell {h : Heap α} {p : Option Nat} {pre post : List (Nat × α)} {a : Nat} {y : α}
    (hL : IsList h p (pre ++ (a, y) :: post)) :
    ∃ n, h.cells a = some ⟨n, y⟩ ∧ IsList h n post := by
  obtain ⟨m, h1, h2'⟩ := hL.suffix
  obtain ⟨-, n', hc', h3, -⟩ := h2'.cons_inv
  exact ⟨n', hc', h3⟩

end Comps
