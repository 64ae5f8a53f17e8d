import Verif.Model.HSHeap
import Verif.Model.HSList
import Verif.Lemmas.Heap

/-! # Plain lists at pointer level: each operation on a represented list -/

namespace Comps.HSHeap
open Comps Heap
variable {α : Type}

/-- The header `l` represents the cells `as`; `last` is the last cell (`ts`) or NULL. -/
structure Rep (h : Heap α) (l : Hdr) (as : List (Nat × α)) (ts : Bool) : Prop where
  list : IsList h l.first as
  last : l.last = if ts then as.getLast?.map Prod.fst else none
  ne : ts = true → as ≠ []

theorem rep_init (h : Heap α) : Rep h init [] false := ⟨IsList.nil, rfl, by simp⟩

theorem append_false {h : Heap α} {l : Hdr} {as : List (Nat × α)} (r : Rep h l as false) (x : α) :
    ∃ h' l', append h l x = .ok (h', l') ∧ Rep h' l' [(h.fresh, x)] true ∧ Frame h h' [] := by
  have hl := r.last
  simp only [Bool.false_eq_true, if_false] at hl
  refine ⟨(h.alloc ⟨none, x⟩).1, ⟨some h.fresh, some h.fresh⟩, by simp [append, hl],
    ⟨⟨?_, by simp, by simp⟩, by simp, by simp⟩, frame_alloc _ _ _⟩
  exact ⟨rfl, none, by simp, rfl⟩

theorem append_true {h : Heap α} {l : Hdr} {as : List (Nat × α)} (r : Rep h l as true) (x : α) :
    ∃ h' l', append h l x = .ok (h', l') ∧ Rep h' l' (as ++ [(h.fresh, x)]) true ∧ Frame h h' as := by
  have hl := r.last
  simp only [if_true] at hl
  rcases List.eq_nil_or_concat as with h0 | ⟨pre, ⟨t, y⟩, rfl⟩
  · exact absurd h0 (r.ne rfl)
  simp only [List.concat_eq_append] at *
  simp only [List.getLast?_append, List.getLast?_singleton, Option.some_or, Option.map_some] at hl
  have hL := r.list
  obtain ⟨n1, n2, n3, n4, n5, n6⟩ := hL.nodup_mid
  obtain ⟨m, h1, h2⟩ := hL.suffix
  obtain ⟨-, n, hc, h3, -⟩ := h2.cons_inv
  have hne : t ≠ h.fresh := by omega
  have hca : (h.alloc ⟨none, x⟩).1.cells t = some ⟨n, y⟩ := by
    simp only [alloc_cells]; rw [if_neg hne]; exact hc
  refine ⟨(h.alloc ⟨none, x⟩).1.write t ⟨some h.fresh, y⟩, ⟨l.first, some h.fresh⟩, ?_,
    ⟨?_, by simp, by simp⟩, ?_⟩
  · simp only [append, hl]
    rw [show ((h.alloc ⟨none, x⟩) : Heap α × Nat) = ((h.alloc ⟨none, x⟩).1, h.fresh) from rfl]
    simp only [setNext_ok _ hca, bind, Except.bind]
    rw [deref_ok (c := ⟨some h.fresh, y⟩) (by simp)]
  · simp only [List.append_assoc, List.singleton_append]
    refine isList_relink (q := some h.fresh) (h := h) (by simpa using hL) ?_ (by simp) ?_ (by simp) ?_
    · intro b hb
      have : b < h.fresh := hL.bnd b (by simp only [addrs, List.map_append, List.mem_append]; exact .inl hb)
      simp only [write_cells, alloc_cells]
      rw [if_neg (by rintro rfl; exact n1 hb), if_neg (by omega)]
    · refine ⟨⟨rfl, none, ?_, rfl⟩, by simp, by simp⟩
      simp only [write_cells, alloc_cells]
      rw [if_neg (by omega), if_pos trivial]
    · intro b hb
      simp at hb; subst hb
      refine ⟨fun hm => ?_, by omega⟩
      exact absurd (hL.bnd h.fresh (by
        simp only [addrs, List.map_append, List.mem_append]; exact .inl hm)) (by omega)
  · refine ⟨by simp, fun b hb hn => ?_⟩
    simp only [write_cells, alloc_cells]
    rw [if_neg (by rintro rfl; simp at hn), if_neg (by omega)]

theorem prepend_rep {h : Heap α} {l : Hdr} {as : List (Nat × α)} {ts : Bool} (r : Rep h l as ts)
    (x : α) : ∃ h' l', prepend h l x = .ok (h', l') ∧ Rep h' l' ((h.fresh, x) :: as) ts ∧
      Frame h h' [] := by
  refine ⟨(h.alloc ⟨l.first, x⟩).1, ⟨some h.fresh, l.last⟩, rfl, ⟨⟨?_, ?_, ?_⟩, ?_, by simp⟩,
    frame_alloc _ _ _⟩
  · exact ⟨rfl, l.first, by simp, (isList_alloc _ r.list).seg⟩
  · simp only [addrs, List.map_cons, List.nodup_cons]
    exact ⟨fun hm => absurd (r.list.bnd _ hm) (by omega), r.list.nodup⟩
  · intro b hb
    simp only [addrs, List.map_cons, List.mem_cons] at hb
    rcases hb with rfl | hb
    · simp
    · have := r.list.bnd b hb; simp; omega
  · rw [r.last]
    cases ts with
    | false => rfl
    | true =>
      simp only [if_true]
      cases as with
      | nil => exact absurd rfl (r.ne rfl)
      | cons e es => simp [List.getLast?_cons_cons]

theorem insertAfter_rep {h : Heap α} {l : Hdr} {pre post : List (Nat × α)} {a : Nat} {y : α}
    {ts : Bool} (r : Rep h l (pre ++ (a, y) :: post) ts) (x : α) :
    ∃ h' l', insertAfter h l (some a) x = .ok (h', l') ∧
      Rep h' l' (pre ++ (a, y) :: (h.fresh, x) :: post) ts ∧
      Frame h h' (pre ++ (a, y) :: post) := by
  have hL := r.list
  obtain ⟨n1, n2, n3, n4, n5, n6⟩ := hL.nodup_mid
  obtain ⟨m, h1, h2⟩ := hL.suffix
  obtain ⟨-, n, hc, h3, -⟩ := h2.cons_inv
  have hca : (h.alloc ⟨n, x⟩).1.cells a = some ⟨n, y⟩ := by
    simp only [alloc_cells]; rw [if_neg (by omega)]; exact hc
  refine ⟨(h.alloc ⟨n, x⟩).1.write a ⟨some h.fresh, y⟩,
    ⟨l.first, if some a = l.last then some h.fresh else l.last⟩, ?_, ⟨?_, ?_, by simp⟩, ?_⟩
  · simp only [insertAfter, deref_ok hc, bind, Except.bind]
    rw [show ((h.alloc ⟨n, x⟩) : Heap α × Nat) = ((h.alloc ⟨n, x⟩).1, h.fresh) from rfl]
    simp only [setNext_ok _ hca]
  · refine isList_relink hL ?_ (by simp) (q := some h.fresh) ?_ (by simp) ?_
    · intro b hb
      have : b < h.fresh := hL.bnd b (by simp only [addrs, List.map_append, List.mem_append]; exact .inl hb)
      simp only [write_cells, alloc_cells]
      rw [if_neg (by rintro rfl; exact n1 hb), if_neg (by omega)]
    · refine ⟨⟨rfl, n, ?_, ?_⟩, ?_, ?_⟩
      · simp only [write_cells, alloc_cells]
        rw [if_neg (by omega), if_pos trivial]
      · refine lseg_congr ?_ h3.seg
        intro b hb
        have := h3.bnd b hb
        simp only [write_cells, alloc_cells]
        rw [if_neg (by rintro rfl; exact n2 hb), if_neg (by omega)]
      · simp only [addrs, List.map_cons, List.nodup_cons]
        exact ⟨fun hm => absurd (h3.bnd _ hm) (by omega), n5⟩
      · intro b hb
        simp only [addrs, List.map_cons, List.mem_cons] at hb
        rcases hb with rfl | hb
        · simp
        · have := h3.bnd b hb; simp; omega
    · intro b hb
      simp only [addrs, List.map_cons, List.mem_cons] at hb
      rcases hb with rfl | hb
      · exact ⟨fun hm => absurd (hL.bnd h.fresh (by
          simp only [addrs, List.map_append, List.mem_append]; exact .inl hm)) (by omega), by omega⟩
      · exact ⟨fun hm => n3 b hm hb, by rintro rfl; exact n2 hb⟩
  · simp only [r.last]
    cases ts with
    | false => simp
    | true =>
      simp only [if_true]
      rcases List.eq_nil_or_concat post with rfl | ⟨post', ⟨t, z⟩, rfl⟩
      · simp
      · simp only [List.concat_eq_append] at *
        have e1 : pre ++ (a, y) :: (post' ++ [(t, z)]) = (pre ++ (a, y) :: post') ++ [(t, z)] := by simp
        have e2 : pre ++ (a, y) :: (h.fresh, x) :: (post' ++ [(t, z)]) =
            (pre ++ (a, y) :: (h.fresh, x) :: post') ++ [(t, z)] := by simp
        rw [e1, e2, List.getLast?_concat, List.getLast?_concat]
        simp only [Option.map_some, Option.some.injEq]
        rw [if_neg]
        rintro rfl
        exact n2 (by simp)
  · refine ⟨by simp, fun b hb hn => ?_⟩
    simp only [write_cells, alloc_cells]
    rw [if_neg (by rintro rfl; simp at hn), if_neg (by omega)]

theorem shift_rep {h : Heap α} {l : Hdr} {a : Nat} {x : α} {r' : List (Nat × α)} {ts : Bool}
    (r : Rep h l ((a, x) :: r') ts) :
    ∃ h' l', shift h l = .ok (h', l', some x) ∧ Rep h' l' r' (ts && !r'.isEmpty) ∧
      Frame h h' [(a, x)] := by
  obtain ⟨hf, n, hc, h3, hna⟩ := r.list.cons_inv
  refine ⟨h.free a, ⟨n, if n = none then none else l.last⟩, ?_, ⟨?_, ?_, ?_⟩, ?_⟩
  · simp [shift, hf, deref_ok hc, bind, Except.bind]
  · refine ⟨lseg_congr ?_ h3.seg, h3.nodup, fun b hb => by simpa using h3.bnd b hb⟩
    intro b hb
    simp only [free_cells]
    rw [if_neg (by rintro rfl; exact hna hb)]
  · simp only [r.last]
    cases r' with
    | nil =>
      have : n = none := h3.seg
      simp [this]
    | cons e es =>
      have : n = some e.1 := h3.seg.1
      cases ts <;> simp [this, List.getLast?_cons_cons]
  · intro ht
    simp at ht
    exact ht.2
  · refine ⟨by simp, fun b hb hn => ?_⟩
    simp only [free_cells]
    rw [if_neg (by rintro rfl; simp at hn)]

theorem shift_empty {h : Heap α} {l : Hdr} {ts : Bool} (r : Rep h l [] ts) :
    shift h l = .ok (h, l, none) := by
  have : l.first = none := r.list.seg
  simp [shift, this]

theorem pop_empty {h : Heap α} {l : Hdr} {ts : Bool} (r : Rep h l [] ts) :
    pop h l = .ok (h, l, none) := by
  have : l.first = none := r.list.seg
  simp [pop, this]

/-- Following `next` from `it2`'s cell on until `last`. -/
theorem popLoop_spec {h : Heap α} {t : Nat} {y : α} (fuel : Nat) (as : List (Nat × α)) :
    ∀ (it it2 : Option Nat), IsList h it (as ++ [(t, y)]) → as.length < fuel →
      popLoop h (some t) fuel it it2 =
        .ok (some t, if as = [] then it2 else as.getLast?.map Prod.fst) := by
  induction fuel generalizing as with
  | zero => intro it it2 _ hf; omega
  | succ fuel ih =>
    intro it it2 hl hf
    cases as with
    | nil =>
      have : it = some t := hl.seg.1
      simp [popLoop, this]
    | cons e es =>
      obtain ⟨a, x⟩ := e
      obtain ⟨rfl, n, hc, h3, hna⟩ := IsList.cons_inv hl
      have hat : a ≠ t := by rintro rfl; exact hna (by simp)
      simp only [popLoop, Option.some.injEq]
      rw [if_neg hat]
      simp only [deref_ok hc, bind, Except.bind]
      rw [ih es n (some a) h3 (by simp at hf; omega)]
      cases es with
      | nil => simp
      | cons e2 es2 => simp [List.getLast?_cons_cons]

theorem pop_rep {h : Heap α} {l : Hdr} {as : List (Nat × α)} {t : Nat} {y : α}
    (r : Rep h l (as ++ [(t, y)]) true) :
    ∃ h' l', pop h l = .ok (h', l', some y) ∧ Rep h' l' as (!as.isEmpty) ∧
      Frame h h' (as ++ [(t, y)]) := by
  have hL := r.list
  have hlast := r.last
  simp only [if_true, List.getLast?_append, List.getLast?_singleton, Option.some_or,
    Option.map_some] at hlast
  obtain ⟨n1, n2, n3, n4, n5, n6⟩ := IsList.nodup_mid (post := []) hL
  have hle := hL.length_le
  simp only [List.length_append, List.length_cons, List.length_nil] at hle
  obtain ⟨m, h1, h2⟩ := hL.suffix
  obtain ⟨-, n, hc, h3, -⟩ := h2.cons_inv
  rcases List.eq_nil_or_concat as with rfl | ⟨pre, ⟨b, z⟩, rfl⟩
  · have hf : l.first = some t := hL.seg.1
    have := popLoop_spec (h := h) (t := t) (y := y) (h.fresh + 1) [] (some t) none (hf ▸ hL) (by simp)
    refine ⟨h.free t, ⟨none, none⟩, ?_, ⟨⟨rfl, by simp, by simp⟩, rfl, by simp⟩, ?_⟩
    · simp only [pop, hf, hlast, this, bind, Except.bind]
      simp [deref_ok hc]
    · refine ⟨by simp, fun b hb hn => ?_⟩
      simp only [free_cells]
      rw [if_neg (by rintro rfl; simp at hn)]
  · simp only [List.concat_eq_append] at *
    have hne : pre ++ [(b, z)] ≠ [] := by simp
    have hfi : ∃ f, l.first = some f := by
      rw [hL.head]
      cases pre <;> simp
    obtain ⟨f, hf⟩ := hfi
    have hpl := popLoop_spec (h := h) (t := t) (y := y) (h.fresh + 1) (pre ++ [(b, z)]) (some f) none
      (hf ▸ hL) (by simp at hle ⊢; omega)
    rw [if_neg hne, List.getLast?_concat] at hpl
    have hL' : IsList h l.first (pre ++ (b, z) :: [(t, y)]) := by simpa using hL
    obtain ⟨k1, k2, k3, k4, k5, k6⟩ := hL'.nodup_mid
    obtain ⟨m', g1, g2⟩ := hL'.suffix
    obtain ⟨-, nb, hcb, -, -⟩ := g2.cons_inv
    have hbt : t ≠ b := by rintro rfl; exact k2 (by simp)
    refine ⟨(h.write b ⟨none, z⟩).free t, ⟨l.first, some b⟩, ?_, ⟨?_, by simp, by simp⟩, ?_⟩
    · simp only [pop, hf, hlast, hpl, bind, Except.bind, Option.map_some]
      simp only [setNext_ok _ hcb]
      rw [deref_ok (c := ⟨n, y⟩)]
      simp only [write_cells]
      rw [if_neg hbt]
      exact hc
    · refine isList_relink (post' := []) hL' ?_ ?_ (q := none) IsList.nil (by simp) (by simp)
      · intro c hcm
        simp only [free_cells, write_cells]
        rw [if_neg, if_neg]
        · rintro rfl; exact k1 hcm
        · rintro rfl; exact k3 _ hcm (by simp)
      · simp only [free_cells, write_cells]
        rw [if_neg (Ne.symm hbt), if_pos trivial]
    · refine ⟨by simp, fun c hcb hn => ?_⟩
      simp only [free_cells, write_cells]
      rw [if_neg (by rintro rfl; simp at hn), if_neg (by rintro rfl; simp at hn)]

theorem removeLoop_spec {h : Heap α} {a : Nat} {y : α} {post : List (Nat × α)} (fuel : Nat)
    (pre : List (Nat × α)) : ∀ (it prev : Option Nat), IsList h it (pre ++ (a, y) :: post) →
      pre.length < fuel →
      removeLoop h a fuel it prev =
        .ok (some a, if pre = [] then prev else pre.getLast?.map Prod.fst) := by
  induction fuel generalizing pre with
  | zero => intro it it2 _ hf; omega
  | succ fuel ih =>
    intro it prev hl hf
    cases pre with
    | nil =>
      have : it = some a := hl.seg.1
      simp [removeLoop, this]
    | cons e es =>
      obtain ⟨b, x⟩ := e
      obtain ⟨rfl, n, hc, h3, hna⟩ := IsList.cons_inv hl
      have hat : b ≠ a := by rintro rfl; exact hna (by simp)
      simp only [removeLoop, Option.some.injEq, reduceCtorEq, false_or]
      rw [if_neg hat]
      simp only [deref_ok hc, bind, Except.bind]
      rw [ih es n (some b) h3 (by simp at hf; omega)]
      cases es with
      | nil => simp
      | cons e2 es2 => simp [List.getLast?_cons_cons]

theorem remove_rep {h : Heap α} {l : Hdr} {pre post : List (Nat × α)} {a : Nat} {y : α} {ts : Bool}
    (r : Rep h l (pre ++ (a, y) :: post) ts) :
    ∃ h' l', remove h l (some a) = .ok (h', l') ∧
      Rep h' l' (pre ++ post) (ts && !(pre ++ post).isEmpty) ∧
      Frame h h' (pre ++ (a, y) :: post) := by
  have hL := r.list
  obtain ⟨n1, n2, n3, n4, n5, n6⟩ := hL.nodup_mid
  have hle := hL.length_le
  simp only [List.length_append, List.length_cons] at hle
  obtain ⟨m, h1, h2⟩ := hL.suffix
  obtain ⟨-, n, hc, h3, -⟩ := h2.cons_inv
  have hrl := removeLoop_spec (h := h) (a := a) (y := y) (post := post) (h.fresh + 1) pre l.first none
    hL (by omega)
  rcases List.eq_nil_or_concat pre with rfl | ⟨pre', ⟨b, z⟩, rfl⟩
  · have hf : l.first = some a := hL.seg.1
    simp only [if_true] at hrl
    refine ⟨h, ⟨n, if l.first = l.last then n else l.last⟩, ?_, ⟨by simpa using h3, ?_, ?_⟩,
      Frame.refl _ _⟩
    · simp only [remove, hrl, bind, Except.bind]
      simp [hf, deref_ok hc]
    · simp only [r.last, hf, List.nil_append]
      cases post with
      | nil =>
        have : n = none := h3.seg
        cases ts <;> simp [this]
      | cons e es =>
        have hn : n = some e.1 := h3.seg.1
        cases ts with
        | false => simp
        | true =>
          simp only [List.getLast?_cons_cons, if_true, List.isEmpty_cons, Bool.not_false,
            Bool.and_self]
          rw [if_neg]
          intro hcon
          have hm := hcon.symm
          simp only [Option.map_eq_some_iff] at hm
          obtain ⟨w, hw, hw2⟩ := hm
          exact n2 (hw2 ▸ List.mem_map_of_mem (List.mem_of_getLast? hw))
    · intro ht; simp at ht; simpa using ht.2
  · simp only [List.concat_eq_append] at *
    have hL' : IsList h l.first (pre' ++ (b, z) :: (a, y) :: post) := by simpa using hL
    obtain ⟨k1, k2, k3, k4, k5, k6⟩ := hL'.nodup_mid
    obtain ⟨m', g1, g2⟩ := hL'.suffix
    obtain ⟨-, nb, hcb, -, -⟩ := g2.cons_inv
    have hab : a ≠ b := by rintro rfl; exact k2 (by simp)
    rw [if_neg (by simp), List.getLast?_concat] at hrl
    have key : IsList (h.write b ⟨n, z⟩) l.first (pre' ++ [(b, z)] ++ post) := by
      have : IsList (h.write b ⟨n, z⟩) l.first (pre' ++ (b, z) :: post) := by
        refine isList_relink hL' ?_ (by simp) (q := n) (post' := post) ?_ (by simp) ?_
        · intro c hcm
          simp only [write_cells]
          rw [if_neg]; rintro rfl; exact k1 hcm
        · refine ⟨lseg_congr ?_ h3.seg, n5, fun c hcm => by simpa using h3.bnd c hcm⟩
          intro c hcm
          simp only [write_cells]
          rw [if_neg]; rintro rfl
          exact k2 (by simp only [addrs, List.map_cons, List.mem_cons]; exact .inr hcm)
        · intro c hcm
          have hcm' : c ∈ addrs ((a, y) :: post) := by
            simp only [addrs, List.map_cons, List.mem_cons]; exact .inr hcm
          exact ⟨fun hp => k3 c hp hcm', by rintro rfl; exact k2 hcm'⟩
      simpa using this
    have fr : Frame h (h.write b ⟨n, z⟩) (pre' ++ [(b, z)] ++ (a, y) :: post) := by
      refine ⟨by simp, fun c hcb hn => ?_⟩
      simp only [write_cells]
      rw [if_neg (by rintro rfl; simp at hn)]
    by_cases hlast : some a = l.last
    · have hfl : ¬ l.first = l.last := by
        rw [← hlast, hL.head]
        cases pre' with
        | nil => simp; exact fun e => hab e.symm
        | cons e es =>
          simp only [List.cons_append, List.head?_cons, Option.map_some, Option.some.injEq]
          rintro rfl
          exact n1 (by simp)
      refine ⟨h.write b ⟨n, z⟩, ⟨l.first, some b⟩, ?_, ⟨key, ?_, ?_⟩, fr⟩
      · simp only [remove, hrl, bind, Except.bind, Option.map_some]
        simp only [ne_eq, not_true, if_false, deref_ok hc, setNext_ok _ hcb]
        rw [if_pos hlast, if_neg hfl]
      · have hl2 := r.last
        rw [← hlast] at hl2
        cases ts with
        | false => simp at hl2
        | true =>
          simp only [if_true] at hl2
          have hpost : post = [] := by
            rcases List.eq_nil_or_concat post with h0 | ⟨q, ⟨w, v⟩, rfl⟩
            · exact h0
            · exfalso
              simp only [List.concat_eq_append] at *
              have e1 : pre' ++ [(b, z)] ++ (a, y) :: (q ++ [(w, v)]) =
                (pre' ++ [(b, z)] ++ (a, y) :: q) ++ [(w, v)] := by simp
              rw [e1, List.getLast?_concat] at hl2
              simp at hl2
              subst hl2
              exact n2 (by simp)
          subst hpost
          simp
      · intro _; simp
    · refine ⟨h.write b ⟨n, z⟩, l, ?_, ⟨key, ?_, ?_⟩, fr⟩
      · simp only [remove, hrl, bind, Except.bind, Option.map_some]
        simp only [ne_eq, not_true, if_false, deref_ok hc, setNext_ok _ hcb]
        rw [if_neg hlast]
      · rw [r.last]
        cases ts with
        | false => simp
        | true =>
          have hl2 := r.last
          simp only [if_true] at hl2
          rcases List.eq_nil_or_concat post with rfl | ⟨q, ⟨w, v⟩, rfl⟩
          · rw [List.getLast?_concat] at hl2
            exact absurd hl2.symm hlast
          · simp only [List.concat_eq_append]
            have e1 : pre' ++ [(b, z)] ++ (a, y) :: (q ++ [(w, v)]) =
                (pre' ++ [(b, z)] ++ (a, y) :: q) ++ [(w, v)] := by simp
            have e2 : pre' ++ [(b, z)] ++ (q ++ [(w, v)]) =
                (pre' ++ [(b, z)] ++ q) ++ [(w, v)] := by simp
            rw [e1, e2, List.getLast?_concat, List.getLast?_concat]
            simp
      · intro _; simp

theorem insertAtLoop_spec {h : Heap α} (fuel : Nat) (as : List (Nat × α)) :
    ∀ (pos n : Nat) (it old : Option Nat), IsList h it as → as.length < fuel →
      insertAtLoop h (n + pos) fuel n it old =
        .ok (n + min pos as.length,
          if min pos as.length = 0 then old else (as.take pos).getLast?.map Prod.fst) := by
  induction fuel generalizing as with
  | zero => intro pos n it old _ hf; omega
  | succ fuel ih =>
    intro pos n it old hl hf
    cases pos with
    | zero => simp [insertAtLoop]
    | succ pos =>
      cases as with
      | nil =>
        have : it = none := hl.seg
        simp [insertAtLoop, this]
      | cons e es =>
        obtain ⟨b, x⟩ := e
        obtain ⟨rfl, m, hc, h3, hna⟩ := IsList.cons_inv hl
        have hne : ¬ (n = n + (pos + 1) ∨ some b = none) := by
          rintro (h | h)
          · omega
          · simp at h
        simp only [insertAtLoop]
        rw [if_neg hne]
        simp only [deref_ok hc, bind, Except.bind]
        have := ih es pos (n + 1) m (some b) h3 (by simp at hf; omega)
        rw [show n + (pos + 1) = n + 1 + pos by omega, this]
        simp only [List.length_cons, List.take_succ_cons, Except.ok.injEq, Prod.mk.injEq]
        refine ⟨by omega, ?_⟩
        rw [if_neg (show ¬ min (pos + 1) (es.length + 1) = 0 by omega)]
        cases es with
        | nil => simp
        | cons e2 es2 =>
          cases pos with
          | zero => simp
          | succ pos =>
            rw [if_neg (by simp)]
            simp [List.getLast?_cons_cons]

theorem insertAt_zero {h : Heap α} {l : Hdr} {as : List (Nat × α)} {ts : Bool} (r : Rep h l as ts)
    (x : α) (hts : ts = !as.isEmpty) : ∃ h' l', insertAt h l 0 x = .ok (h', l') ∧
      Rep h' l' ((h.fresh, x) :: as) true ∧ Frame h h' [] := by
  have hil := insertAtLoop_spec (h := (h.alloc ⟨none, x⟩).1) (h.fresh + 1 + 1) as 0 0 l.first none
    (isList_alloc _ r.list) (by have := r.list.length_le; omega)
  simp only [Nat.zero_add, Nat.zero_min, if_true] at hil
  refine ⟨(h.alloc ⟨none, x⟩).1.write h.fresh ⟨l.first, x⟩,
    ⟨some h.fresh, if l.last = none then some h.fresh else l.last⟩, ?_, ⟨⟨?_, ?_, ?_⟩, ?_, by simp⟩, ?_⟩
  · simp only [insertAt, hil, bind, Except.bind, alloc_fresh, alloc_addr]
    rw [setNext_ok (c := ⟨none, x⟩) _ (by simp)]
    simp
  · refine ⟨rfl, l.first, by simp, lseg_congr ?_ r.list.seg⟩
    intro b hb
    have := r.list.bnd b hb
    simp only [write_cells, alloc_cells]
    rw [if_neg (by omega), if_neg (by omega)]
  · simp only [addrs, List.map_cons, List.nodup_cons]
    exact ⟨fun hm => absurd (r.list.bnd _ hm) (by omega), r.list.nodup⟩
  · intro b hb
    simp only [addrs, List.map_cons, List.mem_cons] at hb
    rcases hb with rfl | hb
    · simp
    · have := r.list.bnd b hb; simp; omega
  · simp only [r.last]
    subst hts
    cases as with
    | nil => simp
    | cons e es =>
      simp only [List.isEmpty_cons, Bool.not_false, if_true, List.getLast?_cons_cons]
      rw [if_neg]
      simp
  · refine ⟨by simp, fun c hcb hn => ?_⟩
    simp only [write_cells, alloc_cells]
    rw [if_neg (by omega), if_neg (by omega)]

/-- Insertion after at least one cell; `last` is left as it is. -/
theorem insertAt_succ {h : Heap α} {l : Hdr} {pre post : List (Nat × α)} {a : Nat} {y : α}
    {ts : Bool} (r : Rep h l (pre ++ (a, y) :: post) ts) (x : α) (hpost : ts = true → post ≠ []) :
    ∃ h' l', insertAt h l (pre.length + 1) x = .ok (h', l') ∧
      Rep h' l' (pre ++ (a, y) :: (h.fresh, x) :: post) ts ∧
      Frame h h' (pre ++ (a, y) :: post) := by
  have hL := r.list
  obtain ⟨n1, n2, n3, n4, n5, n6⟩ := hL.nodup_mid
  obtain ⟨m, h1, h2⟩ := hL.suffix
  obtain ⟨-, n, hc, h3, -⟩ := h2.cons_inv
  have hil := insertAtLoop_spec (h := (h.alloc ⟨none, x⟩).1) (h.fresh + 1 + 1) _ (pre.length + 1) 0
    l.first none (isList_alloc _ r.list) (by have := r.list.length_le; omega)
  have e1 : min (pre.length + 1) (pre ++ (a, y) :: post).length = pre.length + 1 := by simp
  have e2 : (pre ++ (a, y) :: post).take (pre.length + 1) = pre ++ [(a, y)] := by
    rw [List.take_append]
    simp [List.take_of_length_le]
  rw [e1, e2, if_neg (by omega), List.getLast?_concat] at hil
  simp only [Nat.zero_add, Option.map_some] at hil
  have hca : ((h.alloc ⟨none, x⟩).1.write h.fresh ⟨n, x⟩).cells a = some ⟨n, y⟩ := by
    simp only [write_cells, alloc_cells]; rw [if_neg (by omega), if_neg (by omega)]; exact hc
  have hca0 : (h.alloc ⟨none, x⟩).1.cells a = some ⟨n, y⟩ := by
    simp only [alloc_cells]; rw [if_neg (by omega)]; exact hc
  refine ⟨((h.alloc ⟨none, x⟩).1.write h.fresh ⟨n, x⟩).write a ⟨some h.fresh, y⟩, l, ?_,
    ⟨?_, ?_, by simp⟩, ?_⟩
  · simp only [insertAt, alloc_fresh, alloc_addr, hil, bind, Except.bind]
    rw [if_neg (by omega), if_pos trivial]
    simp only [deref_ok hca0]
    rw [setNext_ok (c := ⟨none, x⟩) _ (by simp)]
    simp only [setNext_ok _ hca]
  · refine isList_relink hL ?_ (by simp) (q := some h.fresh) ?_ (by simp) ?_
    · intro b hb
      have : b < h.fresh := hL.bnd b (by simp only [addrs, List.map_append, List.mem_append]; exact .inl hb)
      simp only [write_cells, alloc_cells]
      rw [if_neg (by rintro rfl; exact n1 hb), if_neg (by omega), if_neg (by omega)]
    · refine ⟨⟨rfl, n, ?_, ?_⟩, ?_, ?_⟩
      · simp only [write_cells]
        rw [if_neg (by omega), if_pos trivial]
      · refine lseg_congr ?_ h3.seg
        intro b hb
        have := h3.bnd b hb
        simp only [write_cells, alloc_cells]
        rw [if_neg (by rintro rfl; exact n2 hb), if_neg (by omega), if_neg (by omega)]
      · simp only [addrs, List.map_cons, List.nodup_cons]
        exact ⟨fun hm => absurd (h3.bnd _ hm) (by omega), n5⟩
      · intro b hb
        simp only [addrs, List.map_cons, List.mem_cons] at hb
        rcases hb with rfl | hb
        · simp
        · have := h3.bnd b hb; simp; omega
    · intro b hb
      simp only [addrs, List.map_cons, List.mem_cons] at hb
      rcases hb with rfl | hb
      · exact ⟨fun hm => absurd (hL.bnd h.fresh (by
          simp only [addrs, List.map_append, List.mem_append]; exact .inl hm)) (by omega), by omega⟩
      · exact ⟨fun hm => n3 b hm hb, by rintro rfl; exact n2 hb⟩
  · rw [r.last]
    cases ts with
    | false => simp
    | true =>
      rcases List.eq_nil_or_concat post with rfl | ⟨post', ⟨t, z⟩, rfl⟩
      · exact absurd rfl (hpost rfl)
      · simp only [List.concat_eq_append] at *
        have e1 : pre ++ (a, y) :: (post' ++ [(t, z)]) = (pre ++ (a, y) :: post') ++ [(t, z)] := by simp
        have e2 : pre ++ (a, y) :: (h.fresh, x) :: (post' ++ [(t, z)]) =
            (pre ++ (a, y) :: (h.fresh, x) :: post') ++ [(t, z)] := by simp
        rw [e1, e2, List.getLast?_concat, List.getLast?_concat]
  · refine ⟨by simp, fun b hb hn => ?_⟩
    simp only [write_cells, alloc_cells]
    rw [if_neg (by rintro rfl; simp at hn), if_neg (by omega), if_neg (by omega)]

theorem insertAt_out {h : Heap α} {l : Hdr} {as : List (Nat × α)} {ts : Bool} (r : Rep h l as ts)
    (x : α) (pos : Nat) (hp : as.length < pos) :
    ∃ h', insertAt h l pos x = .ok (h', l) ∧ Rep h' l as ts ∧ Frame h h' [] := by
  have hil := insertAtLoop_spec (h := (h.alloc ⟨none, x⟩).1) (h.fresh + 1 + 1) as pos 0 l.first none
    (isList_alloc _ r.list) (by have := r.list.length_le; omega)
  rw [show min pos as.length = as.length by omega] at hil
  simp only [Nat.zero_add] at hil
  have fr : Frame h ((h.alloc ⟨none, x⟩).1.free h.fresh) [] := by
    refine ⟨by simp, fun b hb _ => ?_⟩
    simp only [free_cells, alloc_cells]
    rw [if_neg (by omega), if_neg (by omega)]
  refine ⟨(h.alloc ⟨none, x⟩).1.free h.fresh, ?_, ⟨fr.isList r.list (by simp), r.last, r.ne⟩, fr⟩
  simp only [insertAt, alloc_fresh, alloc_addr, hil, bind, Except.bind]
  rw [if_neg (by omega), if_neg (by omega)]

theorem dataAtLoop_spec {h : Heap α} (fuel : Nat) (as : List (Nat × α)) :
    ∀ (k i : Nat) (it : Option Nat), IsList h it as → as.length < fuel →
      dataAtLoop h (i + k) fuel i it = .ok (as[k]?.map Prod.fst) := by
  induction fuel generalizing as with
  | zero => intro k i it _ hf; omega
  | succ fuel ih =>
    intro k i it hl hf
    cases as with
    | nil =>
      have : it = none := hl.seg
      simp [dataAtLoop, this]
    | cons e es =>
      obtain ⟨b, x⟩ := e
      obtain ⟨rfl, m, hc, h3, hna⟩ := IsList.cons_inv hl
      cases k with
      | zero => simp [dataAtLoop]
      | succ k =>
        simp only [dataAtLoop]
        rw [if_neg (by simp)]
        simp only [deref_ok hc, bind, Except.bind]
        rw [show i + (k + 1) = i + 1 + k by omega, ih es k (i + 1) m h3 (by simp at hf; omega)]
        simp

theorem dataAt_rep {h : Heap α} {l : Hdr} {as : List (Nat × α)} (hl : IsList h l.first as) (k : Nat) :
    dataAt h l k = .ok (as[k]?.map Prod.snd) := by
  have h1 := dataAtLoop_spec (h := h) (h.fresh + 1) as k 0 l.first hl
    (by have := hl.length_le; omega)
  rw [Nat.zero_add] at h1
  simp only [dataAt, h1, bind, Except.bind]
  cases hk : as[k]? with
  | none => rfl
  | some e =>
    obtain ⟨a, x⟩ := e
    have hlt : k < as.length := by
      rcases Nat.lt_or_ge k as.length with h | h
      · exact h
      · rw [List.getElem?_eq_none h] at hk; simp at hk
    obtain ⟨pre, a', x', post, rfl, rfl⟩ := split_at_pos hlt
    obtain ⟨m, -, h2⟩ := hl.suffix
    obtain ⟨-, n, hc, -, -⟩ := h2.cons_inv
    simp at hk
    obtain ⟨rfl, rfl⟩ := hk
    simp [deref_ok hc]

theorem clearLoop_spec : ∀ (fuel : Nat) (as : List (Nat × α)) (h : Heap α) (o : Nat) (y : α)
    (n : Option Nat), h.cells o = some ⟨n, y⟩ → IsList h n as → o ∉ addrs as → as.length < fuel →
    ∃ h' t, clearLoop fuel h n (some o) = .ok (h', some t) ∧
      t ∈ addrs ((o, y) :: as) ∧ (h'.cells t).isSome ∧ h'.fresh = h.fresh ∧
      (∀ b, b ∉ addrs ((o, y) :: as) → h'.cells b = h.cells b) ∧
      (∀ b ∈ addrs ((o, y) :: as), b ≠ t → h'.cells b = none)
  | 0, _, _, _, _, _, _, _, _, hf => by omega
  | fuel + 1, [], h, o, y, n, hc, hl, hno, hf => by
    have : n = none := hl.seg
    subst this
    exact ⟨h, o, by simp [clearLoop], by simp, by simp [hc], rfl, by simp, by simp⟩
  | fuel + 1, (a, x) :: as, h, o, y, n, hc, hl, hno, hf => by
    obtain ⟨rfl, m, hca, h3, hna⟩ := hl.cons_inv
    have hao : a ≠ o := by rintro rfl; exact hno (by simp)
    have hc2 : (h.free o).cells a = some ⟨m, x⟩ := by
      simp only [free_cells]; rw [if_neg hao]; exact hca
    have hno' : o ∉ addrs as := fun hm => hno (by simp only [addrs, List.map_cons, List.mem_cons]; exact .inr hm)
    have h3' : IsList (h.free o) m as := by
      refine ⟨lseg_congr ?_ h3.seg, h3.nodup, fun b hb => by simpa using h3.bnd b hb⟩
      intro b hb
      simp only [free_cells]
      rw [if_neg (by rintro rfl; exact hno' hb)]
    obtain ⟨h', t, e, ht, hts, hfr, hout, hin⟩ := clearLoop_spec fuel as (h.free o) a x m hc2 h3' hna
      (by simp at hf; omega)
    refine ⟨h', t, ?_, ?_, hts, by simpa using hfr, ?_, ?_⟩
    · simp only [clearLoop, deref_ok hc, deref_ok hc2, bind, Except.bind]
      exact e
    · simp only [addrs, List.map_cons, List.mem_cons] at ht ⊢; exact .inr ht
    · intro b hb
      simp only [addrs, List.map_cons, List.mem_cons, not_or] at hb hout
      rw [hout b hb.2]
      simp only [free_cells]
      rw [if_neg hb.1]
    · intro b hb hbt
      simp only [addrs, List.map_cons, List.mem_cons] at hb hout hin
      rcases hb with rfl | hb
      · rw [hout b (by
          rintro (h | h)
          · exact hao h.symm
          · exact hno' h)]
        simp
      · exact hin b hb hbt

theorem clear_rep {h : Heap α} {l : Hdr} {as : List (Nat × α)} (hl : IsList h l.first as) :
    ∃ h', clear h l = .ok (h', ⟨none, none⟩) ∧ Frame h h' as ∧ ∀ a ∈ addrs as, h'.cells a = none := by
  cases as with
  | nil =>
    have : l.first = none := hl.seg
    exact ⟨h, by simp [clear, this, clearLoop, bind, Except.bind], Frame.refl _ _, by simp⟩
  | cons e es =>
    obtain ⟨a, x⟩ := e
    obtain ⟨hf, n, hc, h3, hna⟩ := hl.cons_inv
    have hle := hl.length_le
    simp only [List.length_cons] at hle
    obtain ⟨h', t, e, ht, hts, hfr, hout, hin⟩ := clearLoop_spec (h.fresh + 1) es h a x n hc h3 hna
      (by omega)
    obtain ⟨ct, hct⟩ := Option.isSome_iff_exists.1 hts
    refine ⟨h'.free t, ?_, ⟨by simp [hfr], fun b hb hn => ?_⟩, ?_⟩
    · simp only [clear, hf, deref_ok hc, bind, Except.bind, e, deref_ok hct]
    · simp only [free_cells]
      rw [if_neg (by rintro rfl; exact hn ht), hout b hn]
    · intro b hb
      simp only [free_cells]
      by_cases hbt : b = t
      · rw [if_pos hbt]
      · rw [if_neg hbt]; exact hin b hb hbt

theorem cloneLoop_spec (f : α → α) : ∀ (fuel : Nat) (as : List (Nat × α)) (h : Heap α)
    (it : Option Nat) (ret : Hdr) (bs : List (Nat × α)), IsList h it as →
    Rep h ret bs (!bs.isEmpty) → (∀ b ∈ addrs as, b ∉ addrs bs) → as.length < fuel →
    ∃ h' ret' cs, cloneLoop f fuel h it ret = .ok (h', ret') ∧
      Rep h' ret' (bs ++ cs) (!(bs ++ cs).isEmpty) ∧
      cs.map Prod.snd = as.map (fun e => f e.2) ∧ Frame h h' bs ∧ ∀ b ∈ addrs cs, h.fresh ≤ b
  | 0, _, _, _, _, _, _, _, _, hf => by omega
  | fuel + 1, [], h, it, ret, bs, hl, hr, hd, hf => by
    have : it = none := hl.seg
    exact ⟨h, ret, [], by simp [cloneLoop, this], by simpa using hr, rfl, Frame.refl _ _, by simp⟩
  | fuel + 1, (a, x) :: as, h, it, ret, bs, hl, hr, hd, hf => by
    obtain ⟨rfl, n, hc, h3, hna⟩ := hl.cons_inv
    have happ : ∃ h' l', append h ret (f x) = .ok (h', l') ∧ Rep h' l' (bs ++ [(h.fresh, f x)]) true ∧
        Frame h h' bs := by
      cases bs with
      | nil =>
        obtain ⟨h', l', e1, e2, e3⟩ := append_false (as := []) (by simpa using hr) (f x)
        exact ⟨h', l', e1, by simpa using e2, e3⟩
      | cons b bs => exact append_true (by simpa using hr) (f x)
    obtain ⟨h1, ret1, e1, r1, fr1⟩ := happ
    have hc1 : h1.cells a = some ⟨n, x⟩ := by
      rw [fr1.same a (hl.bnd a (by simp)) (hd a (by simp))]; exact hc
    have h3' : IsList h1 n as := fr1.isList h3 (fun b hb => hd b (by
      simp only [addrs, List.map_cons, List.mem_cons]; exact .inr hb))
    obtain ⟨h', ret', cs, e2, r2, hcs, fr2, hge⟩ := cloneLoop_spec f fuel as h1 n ret1
      (bs ++ [(h.fresh, f x)]) h3' (by
        rw [show (!(bs ++ [(h.fresh, f x)]).isEmpty) = true by simp]; exact r1) (by
        intro b hb
        simp only [addrs, List.map_append, List.map_cons, List.map_nil, List.mem_append,
          List.mem_singleton]
        rintro (hm | rfl)
        · exact hd b (by simp only [addrs, List.map_cons, List.mem_cons]; exact .inr hb) hm
        · exact absurd (h3.bnd _ hb) (by omega)) (by simp at hf; omega)
    have hlt : h.fresh < h1.fresh := r1.list.bnd _ (by simp)
    refine ⟨h', ret', (h.fresh, f x) :: cs, ?_, by simpa using r2, by simp [hcs], ?_, ?_⟩
    · simp only [cloneLoop, deref_ok hc, e1, deref_ok hc1, bind, Except.bind]
      exact e2
    · refine ⟨Nat.le_trans fr1.fresh fr2.fresh, fun b hb hn => ?_⟩
      rw [fr2.same b (by omega), fr1.same b hb hn]
      simp only [addrs, List.map_append, List.map_cons, List.map_nil, List.mem_append,
          List.mem_singleton]
      rintro (hm | rfl)
      · exact hn hm
      · omega
    · intro b hb
      simp only [addrs, List.map_cons, List.mem_cons] at hb
      rcases hb with rfl | hb
      · exact Nat.le_refl _
      · have := hge b hb; omega

theorem clone_rep (f : α → α) {h : Heap α} {l : Hdr} {as : List (Nat × α)}
    (hl : IsList h l.first as) :
    ∃ h' l' cs, clone f h l = .ok (h', l') ∧ Rep h' l' cs (!cs.isEmpty) ∧
      cs.map Prod.snd = as.map (fun e => f e.2) ∧ Frame h h' [] ∧ ∀ b ∈ addrs cs, h.fresh ≤ b := by
  obtain ⟨h', l', cs, e, r, hcs, fr, hge⟩ := cloneLoop_spec f (h.fresh + 1) as h l.first init [] hl
    (rep_init h) (by simp) (by have := hl.length_le; omega)
  exact ⟨h', l', cs, e, by simpa using r, hcs, fr, hge⟩

theorem valuesEqualLoop_spec (cmpf : α → α → Bool) (h : Heap α) : ∀ (fuel : Nat)
    (as bs : List (Nat × α)) (p q : Option Nat), IsList h p as → IsList h q bs → as.length < fuel →
    valuesEqualLoop cmpf h fuel p q = .ok (decide (as.length = bs.length) &&
      (as.zip bs).all fun e => cmpf e.1.2 e.2.2)
  | 0, _, _, _, _, _, _, hf => by omega
  | fuel + 1, [], [], p, q, hp, hq, hf => by
    have h1 : p = none := hp.seg
    have h2 : q = none := hq.seg
    simp [valuesEqualLoop, h1, h2]
  | fuel + 1, [], (b, y) :: bs, p, q, hp, hq, hf => by
    have h1 : p = none := hp.seg
    have h2 : q = some b := hq.seg.1
    simp [valuesEqualLoop, h1, h2]
  | fuel + 1, (a, x) :: as, [], p, q, hp, hq, hf => by
    have h1 : p = some a := hp.seg.1
    have h2 : q = none := hq.seg
    simp [valuesEqualLoop, h1, h2]
  | fuel + 1, (a, x) :: as, (b, y) :: bs, p, q, hp, hq, hf => by
    obtain ⟨rfl, n, hc, h3, -⟩ := hp.cons_inv
    obtain ⟨rfl, m, hc', h3', -⟩ := hq.cons_inv
    simp only [valuesEqualLoop, deref_ok hc, deref_ok hc', bind, Except.bind]
    rw [valuesEqualLoop_spec cmpf h fuel as bs n m h3 h3' (by simp at hf; omega)]
    cases hxy : cmpf x y <;> simp [hxy]

end Comps.HSHeap
