import Verif.Model.ObjHeap
import Verif.Lemmas.Heap

/-! # Object lists at pointer level: each operation on a represented list -/

namespace Comps.ObjHeap
open Comps Heap
variable {α : Type}

/-- The header `l` represents the cells `as`. -/
structure Rep (h : Heap α) (l : OL) (as : List (Nat × α)) : Prop where
  list : IsList h l.first as
  last : l.last = as.getLast?.map Prod.fst
  len : l.len = as.length

theorem rep_create (h : Heap α) : Rep h create [] := ⟨IsList.nil, rfl, rfl⟩

theorem getLast?_mid_ne {pre post : List (Nat × α)} {a : Nat} {y : α} (hp : post ≠ []) :
    (pre ++ (a, y) :: post).getLast? = post.getLast? := by
  cases post with
  | nil => exact absurd rfl hp
  | cons e es => rw [List.getLast?_append, List.getLast?_cons_cons]; simp [List.getLast?_cons]

theorem append_rep {h : Heap α} {l : OL} {as : List (Nat × α)} (r : Rep h l as) (x : α) :
    ∃ h' l', append h l x = .ok (h', l') ∧ Rep h' l' (as ++ [(h.fresh, x)]) ∧ Frame h h' as ∧
      h'.fresh = h.fresh + 1 := by
  rcases List.eq_nil_or_concat as with rfl | ⟨pre, ⟨t, y⟩, rfl⟩
  · have hf : l.first = none := r.list.seg
    refine ⟨(h.alloc ⟨none, x⟩).1, ⟨some h.fresh, some h.fresh, l.len + 1⟩, by simp [append, hf],
      ⟨⟨⟨rfl, none, by simp, rfl⟩, by simp, by simp⟩, by simp, by simp [r.len]⟩, frame_alloc _ _ _, by simp⟩
  simp only [List.concat_eq_append] at *
  have hl := r.last
  rw [List.getLast?_concat] at hl
  simp only [Option.map_some] at hl
  have hf : l.first ≠ none := by
    rw [r.list.head]; cases pre <;> simp
  obtain ⟨n, hc, h3⟩ := IsList.mid_cell (post := []) r.list
  have hn : n = none := h3.seg
  subst hn
  have hlt : t < h.fresh := r.list.bnd t (by simp)
  have hca : (h.alloc ⟨none, x⟩).1.cells t = some ⟨none, y⟩ := by
    simp only [alloc_cells]; rw [if_neg (by omega)]; exact hc
  obtain ⟨i1, i2⟩ := isList_insert (post := []) (x := x) r.list hc
    (h2 := (h.alloc ⟨none, x⟩).1.write t ⟨some h.fresh, y⟩) (by simp) (by simp)
    (by simp only [write_cells, alloc_cells]; rw [if_neg (by omega), if_pos trivial])
    (by intro b h1 h2; simp only [write_cells, alloc_cells]; rw [if_neg h1, if_neg h2])
  refine ⟨_, ⟨l.first, some h.fresh, l.len + 1⟩, ?_, ⟨by simpa using i1, by simp, by simp [r.len]⟩, i2, by simp⟩
  simp only [append, alloc_addr]
  rw [if_neg hf, hl, setNext_ok _ hca]
  simp only [bind, Except.bind]
  rw [deref_ok (c := ⟨some h.fresh, y⟩) (by simp)]

theorem insertAfter_rep {h : Heap α} {l : OL} {pre post : List (Nat × α)} {a : Nat} {y : α}
    (r : Rep h l (pre ++ (a, y) :: post)) (x : α) :
    ∃ h' l', insertAfter h l (some a) x = .ok (h', l', 1) ∧
      Rep h' l' (pre ++ (a, y) :: (h.fresh, x) :: post) ∧ Frame h h' (pre ++ (a, y) :: post) := by
  obtain ⟨n1, n2, n3, n4, n5, n6⟩ := r.list.nodup_mid
  obtain ⟨n, hc, h3⟩ := r.list.mid_cell
  have hca0 : (h.alloc ⟨none, x⟩).1.cells a = some ⟨n, y⟩ := by
    simp only [alloc_cells]; rw [if_neg (by omega)]; exact hc
  have hca : ((h.alloc ⟨none, x⟩).1.write h.fresh ⟨n, x⟩).cells a = some ⟨n, y⟩ := by
    simp only [write_cells]; rw [if_neg (by omega)]; exact hca0
  obtain ⟨i1, i2⟩ := isList_insert (x := x) r.list hc
    (h2 := ((h.alloc ⟨none, x⟩).1.write h.fresh ⟨n, x⟩).write a ⟨some h.fresh, y⟩) (by simp) (by simp)
    (by simp only [write_cells]; rw [if_neg (by omega), if_pos trivial])
    (by intro b h1 h2; simp only [write_cells, alloc_cells]; rw [if_neg h1, if_neg h2, if_neg h2])
  refine ⟨_, ⟨l.first, if some a = l.last then some h.fresh else l.last, l.len + 1⟩, ?_,
    ⟨i1, ?_, by simp [r.len]; omega⟩, i2⟩
  · simp only [insertAfter, alloc_addr]
    rw [deref_ok hca0]
    simp only [bind, Except.bind]
    rw [setNext_ok (c := ⟨none, x⟩) _ (by simp)]
    simp only
    rw [setNext_ok _ hca]
  · simp only [r.last]
    rcases List.eq_nil_or_concat post with rfl | ⟨q, ⟨t, z⟩, rfl⟩
    · simp
    · simp only [List.concat_eq_append] at *
      rw [getLast?_mid_ne (post := q ++ [(t, z)]) (by simp),
        getLast?_mid_ne (post := (h.fresh, x) :: (q ++ [(t, z)])) (by simp)]
      rw [show (h.fresh, x) :: (q ++ [(t, z)]) = ((h.fresh, x) :: q) ++ [(t, z)] by simp]
      rw [List.getLast?_concat, List.getLast?_concat, if_neg]
      simp only [Option.map_some, Option.some.injEq]
      rintro rfl
      exact n2 (by simp)

theorem insertAtLoop_spec {h : Heap α} (fuel : Nat) (as : List (Nat × α)) :
    ∀ (pos i : Nat) (it old : Option Nat), IsList h it as → as.length < fuel →
      insertAtLoop h (i + pos) fuel i it old =
        .ok (if min pos as.length = 0 then old else (as.take pos).getLast?.map Prod.fst) := by
  induction fuel generalizing as with
  | zero => intro pos n it old _ hf; omega
  | succ fuel ih =>
    intro pos n it old hl hf
    cases pos with
    | zero => simp [insertAtLoop]
    | succ pos =>
      cases as with
      | nil =>
        have : it = none := hl.seg
        simp [insertAtLoop, this]
      | cons e es =>
        obtain ⟨b, x⟩ := e
        obtain ⟨rfl, m, hc, h3, hna⟩ := IsList.cons_inv hl
        simp only [insertAtLoop]
        rw [if_neg (by simp)]
        simp only [deref_ok hc, bind, Except.bind]
        have := ih es pos (n + 1) m (some b) h3 (by simp at hf; omega)
        rw [show n + (pos + 1) = n + 1 + pos by omega, this]
        simp only [List.length_cons, List.take_succ_cons, Except.ok.injEq]
        rw [if_neg (show ¬ min (pos + 1) (es.length + 1) = 0 by omega)]
        cases es with
        | nil => simp
        | cons e2 es2 =>
          cases pos with
          | zero => simp
          | succ pos =>
            rw [if_neg (by simp)]
            simp [List.getLast?_cons_cons]

theorem insertAt_rep {h : Heap α} {l : OL} {as : List (Nat × α)} (r : Rep h l as) (x : α)
    (pos : Nat) (hpos : pos ≤ as.length) :
    ∃ h' l', insertAt h l pos x = .ok (h', l', 1) ∧
      Rep h' l' (as.take pos ++ (h.fresh, x) :: as.drop pos) ∧ Frame h h' as := by
  have hng : ¬ pos > l.len := by rw [r.len]; omega
  by_cases h0 : pos = 0
  · subst h0
    obtain ⟨i1, i2⟩ := isList_push (x := x) r.list
      (h2 := (h.alloc ⟨none, x⟩).1.write h.fresh ⟨l.first, x⟩) (by simp) (by simp)
      (by intro b hb; simp only [write_cells, alloc_cells]; rw [if_neg hb, if_neg hb])
    refine ⟨_, ⟨some h.fresh, if l.last = none then some h.fresh else l.last, l.len + 1⟩, ?_,
      ⟨by simpa using i1, ?_, by simp [r.len]⟩, i2.fresh, fun b hb _ => i2.same b hb (by simp)⟩
    · simp only [insertAt, alloc_addr]
      rw [if_neg hng, if_pos trivial, setNext_ok (c := ⟨none, x⟩) _ (by simp)]
      rfl
    · simp only [r.last]
      cases as with
      | nil => simp
      | cons e es =>
        simp only [List.take_zero, List.drop_zero, List.nil_append, List.getLast?_cons_cons]
        rw [if_neg]; simp
  · by_cases hl : pos = as.length
    · subst hl
      rcases List.eq_nil_or_concat as with rfl | ⟨pre, ⟨t, y⟩, rfl⟩
      · simp at h0
      simp only [List.concat_eq_append] at *
      have hla := r.last
      rw [List.getLast?_concat] at hla
      simp only [Option.map_some] at hla
      obtain ⟨n, hc, h3⟩ := IsList.mid_cell (post := []) r.list
      have hn : n = none := h3.seg
      subst hn
      have hlt : t < h.fresh := r.list.bnd t (by simp)
      have hca : ((h.alloc ⟨none, x⟩).1.write h.fresh ⟨none, x⟩).cells t = some ⟨none, y⟩ := by
        simp only [write_cells, alloc_cells]; rw [if_neg (by omega), if_neg (by omega)]; exact hc
      obtain ⟨i1, i2⟩ := isList_insert (post := []) (x := x) r.list hc
        (h2 := ((h.alloc ⟨none, x⟩).1.write h.fresh ⟨none, x⟩).write t ⟨some h.fresh, y⟩)
        (by simp) (by simp)
        (by simp only [write_cells]; rw [if_neg (by omega), if_pos trivial])
        (by intro b h1 h2; simp only [write_cells, alloc_cells]; rw [if_neg h1, if_neg h2, if_neg h2])
      have e : (pre ++ [(t, y)]).take (pre ++ [(t, y)]).length ++
          (h.fresh, x) :: (pre ++ [(t, y)]).drop (pre ++ [(t, y)]).length =
          pre ++ (t, y) :: [(h.fresh, x)] := by
        rw [List.take_length, List.drop_length]; simp
      rw [e]
      refine ⟨_, ⟨l.first, some h.fresh, l.len + 1⟩, ?_, ⟨i1, ?_, by simp [r.len]⟩, i2⟩
      · simp only [insertAt, alloc_addr]
        rw [if_neg hng, if_neg h0, if_pos r.len.symm, setNext_ok (c := ⟨none, x⟩) _ (by simp)]
        simp only [bind, Except.bind]
        rw [hla, setNext_ok _ hca]
      · rw [show pre ++ (t, y) :: [(h.fresh, x)] = (pre ++ [(t, y)]) ++ [(h.fresh, x)] by simp]
        rw [List.getLast?_concat]; rfl
    · obtain ⟨p, rfl⟩ : ∃ p, pos = p + 1 := ⟨pos - 1, by omega⟩
      obtain ⟨pre, a, y, post, e, rfl⟩ := split_at_pos (show p < as.length by omega)
      subst e
      have hpost : post ≠ [] := by
        rintro rfl; simp at hl
      have e2 : (pre ++ (a, y) :: post).take (pre.length + 1) = pre ++ [(a, y)] := by
        rw [List.take_append]
        simp [List.take_of_length_le]
      have e3 : (pre ++ (a, y) :: post).drop (pre.length + 1) = post := by
        rw [List.drop_append]
        simp
      have hil := insertAtLoop_spec (h := (h.alloc ⟨none, x⟩).1) (h.fresh + 1 + 1) _ (pre.length + 1) 0
        l.first none (isList_alloc _ r.list) (by have := r.list.length_le; omega)
      rw [e2, if_neg (by simp), List.getLast?_concat] at hil
      simp only [Nat.zero_add, Option.map_some] at hil
      obtain ⟨n1, n2, n3, n4, n5, n6⟩ := r.list.nodup_mid
      obtain ⟨n, hc, h3⟩ := r.list.mid_cell
      have hca0 : (h.alloc ⟨none, x⟩).1.cells a = some ⟨n, y⟩ := by
        simp only [alloc_cells]; rw [if_neg (by omega)]; exact hc
      have hca : ((h.alloc ⟨none, x⟩).1.write h.fresh ⟨n, x⟩).cells a = some ⟨n, y⟩ := by
        simp only [write_cells]; rw [if_neg (by omega)]; exact hca0
      obtain ⟨i1, i2⟩ := isList_insert (x := x) r.list hc
        (h2 := ((h.alloc ⟨none, x⟩).1.write h.fresh ⟨n, x⟩).write a ⟨some h.fresh, y⟩) (by simp) (by simp)
        (by simp only [write_cells]; rw [if_neg (by omega), if_pos trivial])
        (by intro b h1 h2; simp only [write_cells, alloc_cells]; rw [if_neg h1, if_neg h2, if_neg h2])
      rw [e2, e3, show pre ++ [(a, y)] ++ (h.fresh, x) :: post = pre ++ (a, y) :: (h.fresh, x) :: post by simp]
      refine ⟨_, ⟨l.first, l.last, l.len + 1⟩, ?_, ⟨i1, ?_, by simp [r.len]; omega⟩, i2⟩
      · simp only [insertAt, alloc_addr, alloc_fresh]
        rw [if_neg hng, if_neg h0, if_neg (by rw [r.len]; exact hl), hil]
        simp only [bind, Except.bind]
        rw [deref_ok hca0]
        simp only
        rw [setNext_ok (c := ⟨none, x⟩) _ (by simp)]
        simp only
        rw [setNext_ok _ hca]
      · simp only [r.last]
        rw [getLast?_mid_ne hpost, getLast?_mid_ne (by simp)]
        cases post with
        | nil => exact absurd rfl hpost
        | cons e es => rw [List.getLast?_cons_cons]

theorem insertAt_out {h : Heap α} {l : OL} {as : List (Nat × α)} (r : Rep h l as) (x : α)
    (pos : Nat) (hpos : as.length < pos) : insertAt h l pos x = .ok (h, l, -1) := by
  simp only [insertAt]
  rw [if_pos (by rw [r.len]; exact hpos)]

theorem removeAtLoop_spec {h : Heap α} (fuel : Nat) (as : List (Nat × α)) :
    ∀ (k i : Nat) (it prev : Option Nat), IsList h it as → as.length < fuel →
      removeAtLoop h (i + k) fuel i it prev =
        .ok (as[k]?.map Prod.fst,
          if min k as.length = 0 then prev else (as.take k).getLast?.map Prod.fst) := by
  induction fuel generalizing as with
  | zero => intro pos n it old _ hf; omega
  | succ fuel ih =>
    intro pos n it old hl hf
    cases as with
    | nil =>
      have : it = none := hl.seg
      simp [removeAtLoop, this]
    | cons e es =>
      obtain ⟨b, x⟩ := e
      obtain ⟨rfl, m, hc, h3, hna⟩ := IsList.cons_inv hl
      cases pos with
      | zero => simp [removeAtLoop]
      | succ pos =>
        simp only [removeAtLoop]
        rw [if_neg (by simp)]
        simp only [deref_ok hc, bind, Except.bind]
        have := ih es pos (n + 1) m (some b) h3 (by simp at hf; omega)
        rw [show n + (pos + 1) = n + 1 + pos by omega, this]
        simp only [List.length_cons, List.take_succ_cons, Except.ok.injEq, Prod.mk.injEq,
          List.getElem?_cons_succ, true_and]
        rw [if_neg (show ¬ min (pos + 1) (es.length + 1) = 0 by omega)]
        cases es with
        | nil => simp
        | cons e2 es2 =>
          cases pos with
          | zero => simp
          | succ pos =>
            rw [if_neg (by simp)]
            simp [List.getLast?_cons_cons]

theorem unlink_rep {h : Heap α} {l : OL} {pre post : List (Nat × α)} {a : Nat} {y : α}
    (r : Rep h l (pre ++ (a, y) :: post)) :
    ∃ h' l', unlink h l (some a) (pre.getLast?.map Prod.fst) = .ok (h', l', 1) ∧
      Rep h' l' (pre ++ post) ∧ Frame h h' (pre ++ (a, y) :: post) ∧ h'.cells a = none := by
  obtain ⟨n1, n2, n3, n4, n5, n6⟩ := r.list.nodup_mid
  obtain ⟨n, hc, h3⟩ := r.list.mid_cell
  rcases List.eq_nil_or_concat pre with rfl | ⟨pre', ⟨b, z⟩, rfl⟩
  · obtain ⟨i1, i2⟩ := isList_pop_front (h2 := h.free a) r.list hc (by simp)
      (by intro c hne; simp only [free_cells]; rw [if_neg hne])
    refine ⟨h.free a, ⟨n, if some a = l.last then none else l.last, l.len - 1⟩, ?_,
      ⟨by simpa using i1, ?_, by simp [r.len]⟩, i2, by simp⟩
    · simp only [unlink, List.getLast?_nil, Option.map_none, deref_ok hc, bind, Except.bind]
    · simp only [r.last, List.nil_append]
      rcases List.eq_nil_or_concat post with rfl | ⟨q, ⟨t, w⟩, rfl⟩
      · simp
      · simp only [List.concat_eq_append] at *
        rw [show (a, y) :: (q ++ [(t, w)]) = ((a, y) :: q) ++ [(t, w)] by simp]
        rw [List.getLast?_concat, List.getLast?_concat, if_neg]
        simp only [Option.map_some, Option.some.injEq]
        rintro rfl
        exact n2 (by simp)
  · simp only [List.concat_eq_append] at *
    have hL' : IsList h l.first (pre' ++ (b, z) :: (a, y) :: post) := by simpa using r.list
    obtain ⟨nb, hcb, -⟩ := hL'.mid_cell
    have hab : b ≠ a := by rintro rfl; exact n1 (by simp)
    obtain ⟨i1, i2⟩ := isList_unlink (h2 := (h.write b ⟨n, z⟩).free a) hL' hc (by simp)
      (by simp only [free_cells, write_cells]; rw [if_neg hab, if_pos trivial])
      (by intro c h1 h2; simp only [free_cells, write_cells]; rw [if_neg h1, if_neg h2])
    refine ⟨(h.write b ⟨n, z⟩).free a, ⟨l.first, if some a = l.last then some b else l.last, l.len - 1⟩,
      ?_, ⟨by simpa using i1, ?_, by simp [r.len]⟩, by simpa using i2, by simp⟩
    · simp only [unlink, List.getLast?_concat, Option.map_some, deref_ok hc, bind, Except.bind]
      rw [setNext_ok _ hcb]
    · simp only [r.last]
      rcases List.eq_nil_or_concat post with rfl | ⟨q, ⟨t, w⟩, rfl⟩
      · simp
      · simp only [List.concat_eq_append] at *
        rw [getLast?_mid_ne (by simp)]
        rw [List.getLast?_append, List.getLast?_append, List.getLast?_singleton, if_neg]
        · simp
        simp only [Option.some_or, Option.map_some, Option.some.injEq]
        rintro rfl
        exact n2 (by simp)

theorem removeAt_rep {h : Heap α} {l : OL} {as : List (Nat × α)} (r : Rep h l as) (k : Nat)
    (hk : k < as.length) :
    ∃ h' l', removeAt h l k = .ok (h', l', 1) ∧ Rep h' l' (as.eraseIdx k) ∧ Frame h h' as := by
  have h1 := removeAtLoop_spec (h := h) (h.fresh + 1) as k 0 l.first none r.list
    (by have := r.list.length_le; omega)
  obtain ⟨pre, a, y, post, rfl, rfl⟩ := split_at_pos hk
  obtain ⟨h', l', e, r', f, -⟩ := unlink_rep r
  refine ⟨h', l', ?_, ?_, f⟩
  · rw [Nat.zero_add] at h1
    simp only [removeAt, h1, bind, Except.bind]
    rw [← e]
    congr 1
    · simp
    · cases pre with
      | nil => simp
      | cons e es => rw [if_neg (by simp)]; simp
  · rwa [List.eraseIdx_append_of_length_le (by simp), Nat.sub_self, List.eraseIdx_cons_zero]

theorem removeAt_out {h : Heap α} {l : OL} {as : List (Nat × α)} (r : Rep h l as) (k : Nat)
    (hk : as.length ≤ k) : removeAt h l k = .ok (h, l, 0) := by
  have h1 := removeAtLoop_spec (h := h) (h.fresh + 1) as k 0 l.first none r.list
    (by have := r.list.length_le; omega)
  rw [Nat.zero_add, List.getElem?_eq_none hk] at h1
  simp only [removeAt, h1, bind, Except.bind, Option.map_none, unlink]

theorem removeLoop_some [BEq α] [LawfulBEq α] {h : Heap α} {a : Nat} {x : α}
    {post : List (Nat × α)} (fuel : Nat) (pre : List (Nat × α)) :
    ∀ (it prev : Option Nat), IsList h it (pre ++ (a, x) :: post) → (∀ e ∈ pre, e.2 ≠ x) →
      pre.length < fuel →
      removeLoop h x fuel it prev =
        .ok (some a, if pre = [] then prev else pre.getLast?.map Prod.fst) := by
  induction fuel generalizing pre with
  | zero => intro it prev _ _ hf; omega
  | succ fuel ih =>
    intro it prev hl hp hf
    cases pre with
    | nil =>
      obtain ⟨rfl, m, hc, -, -⟩ := IsList.cons_inv hl
      simp [removeLoop, deref_ok hc, bind, Except.bind]
    | cons e es =>
      obtain ⟨b, z⟩ := e
      obtain ⟨rfl, m, hc, h3, hna⟩ := IsList.cons_inv hl
      have hzx : (z == x) = false := by
        have := hp (b, z) (by simp); simpa using this
      simp only [removeLoop, deref_ok hc, bind, Except.bind, hzx, Bool.false_eq_true, if_false]
      rw [ih es m (some b) h3 (fun e he => hp e (by simp [he])) (by simp at hf; omega)]
      cases es with
      | nil => simp
      | cons e2 es2 => simp [List.getLast?_cons_cons]

theorem removeLoop_none [BEq α] [LawfulBEq α] {h : Heap α} {x : α} (fuel : Nat)
    (as : List (Nat × α)) : ∀ (it prev : Option Nat), IsList h it as → (∀ e ∈ as, e.2 ≠ x) →
      as.length < fuel → ∃ p, removeLoop h x fuel it prev = .ok (none, p) := by
  induction fuel generalizing as with
  | zero => intro it prev _ _ hf; omega
  | succ fuel ih =>
    intro it prev hl hp hf
    cases as with
    | nil =>
      have : it = none := hl.seg
      exact ⟨prev, by simp [removeLoop, this]⟩
    | cons e es =>
      obtain ⟨b, z⟩ := e
      obtain ⟨rfl, m, hc, h3, hna⟩ := IsList.cons_inv hl
      have hzx : (z == x) = false := by
        have := hp (b, z) (by simp); simpa using this
      simp only [removeLoop, deref_ok hc, bind, Except.bind, hzx, Bool.false_eq_true, if_false]
      exact ih es m (some b) h3 (fun e he => hp e (by simp [he])) (by simp at hf; omega)

theorem remove_some [BEq α] [LawfulBEq α] {h : Heap α} {l : OL} {a : Nat} {x : α}
    {pre post : List (Nat × α)} (r : Rep h l (pre ++ (a, x) :: post)) (hp : ∀ e ∈ pre, e.2 ≠ x) :
    ∃ h' l', remove h l x = .ok (h', l', 1) ∧ Rep h' l' (pre ++ post) ∧
      Frame h h' (pre ++ (a, x) :: post) := by
  have hle := r.list.length_le
  have h1 := removeLoop_some (h := h) (h.fresh + 1) pre l.first none r.list hp (by simp at hle; omega)
  obtain ⟨h', l', e, r', f, -⟩ := unlink_rep r
  refine ⟨h', l', ?_, r', f⟩
  simp only [remove, h1, bind, Except.bind]
  rw [← e]
  cases pre <;> simp

theorem remove_none [BEq α] [LawfulBEq α] {h : Heap α} {l : OL} {x : α} {as : List (Nat × α)}
    (r : Rep h l as) (hp : ∀ e ∈ as, e.2 ≠ x) : remove h l x = .ok (h, l, 0) := by
  have hle := r.list.length_le
  obtain ⟨p, h1⟩ := removeLoop_none (h := h) (h.fresh + 1) as l.first none r.list hp (by omega)
  simp only [remove, h1, bind, Except.bind, unlink]

theorem indexLoop_spec [BEq α] [LawfulBEq α] {h : Heap α} {x : α} (fuel : Nat)
    (as : List (Nat × α)) : ∀ (n : Nat) (it : Option Nat), IsList h it as → as.length < fuel →
      indexLoop h x fuel n it = .ok (if x ∈ as.map Prod.snd then
        Int.ofNat (n + (as.map Prod.snd).idxOf x) else -1) := by
  induction fuel generalizing as with
  | zero => intro it prev _ hf; omega
  | succ fuel ih =>
    intro n it hl hf
    cases as with
    | nil =>
      have : it = none := hl.seg
      simp [indexLoop, this]
    | cons e es =>
      obtain ⟨b, z⟩ := e
      obtain ⟨rfl, m, hc, h3, hna⟩ := IsList.cons_inv hl
      simp only [indexLoop, deref_ok hc, bind, Except.bind]
      by_cases hzx : z = x
      · subst hzx
        simp
      · have hb : (z == x) = false := by simpa using hzx
        simp only [hb, Bool.false_eq_true, if_false]
        rw [ih es (n + 1) m h3 (by simp at hf; omega)]
        have hidx : List.idxOf x (List.map Prod.snd ((b, z) :: es)) =
            List.idxOf x (List.map Prod.snd es) + 1 := by
          simp only [List.map_cons, List.idxOf_cons, hb, cond_false]
        by_cases hm : x ∈ List.map Prod.snd es
        · rw [if_pos hm, if_pos (by rw [List.map_cons]; exact List.mem_cons_of_mem _ hm), hidx]
          rw [show n + 1 + List.idxOf x (List.map Prod.snd es) =
            n + (List.idxOf x (List.map Prod.snd es) + 1) by omega]
        · rw [if_neg hm, if_neg]
          rw [List.map_cons, List.mem_cons]
          rintro (h | h)
          · exact hzx h.symm
          · exact hm h

theorem index_rep [BEq α] [LawfulBEq α] {h : Heap α} {l : OL} {as : List (Nat × α)}
    (r : Rep h l as) (x : α) : index h l x = .ok (if x ∈ as.map Prod.snd then
        Int.ofNat ((as.map Prod.snd).idxOf x) else -1) := by
  have := indexLoop_spec (h := h) (x := x) (h.fresh + 1) as 0 l.first r.list
    (by have := r.list.length_le; omega)
  rw [Nat.zero_add] at this
  exact this

theorem walkTo_spec {h : Heap α} (fuel : Nat) (as : List (Nat × α)) :
    ∀ (k i : Nat) (it : Option Nat), IsList h it as → as.length < fuel →
      walkTo h (i + k) fuel i it = .ok (as[k]?.map Prod.fst, i + min k as.length) := by
  induction fuel generalizing as with
  | zero => intro k i it _ hf; omega
  | succ fuel ih =>
    intro k i it hl hf
    cases as with
    | nil =>
      have : it = none := hl.seg
      simp [walkTo, this]
    | cons e es =>
      obtain ⟨b, x⟩ := e
      obtain ⟨rfl, m, hc, h3, hna⟩ := IsList.cons_inv hl
      cases k with
      | zero => simp [walkTo]
      | succ k =>
        simp only [walkTo]
        rw [if_neg (by simp)]
        simp only [deref_ok hc, bind, Except.bind]
        rw [show i + (k + 1) = i + 1 + k by omega, ih es k (i + 1) m h3 (by simp at hf; omega)]
        simp only [List.getElem?_cons_succ, List.length_cons, Except.ok.injEq, Prod.mk.injEq, true_and]
        omega

theorem walkTo_rep {h : Heap α} {l : OL} {as : List (Nat × α)} (r : Rep h l as) (k : Nat) :
    walkTo h k (h.fresh + 1) 0 l.first = .ok (as[k]?.map Prod.fst, min k as.length) := by
  have h1 := walkTo_spec (h := h) (h.fresh + 1) as k 0 l.first r.list
    (by have := r.list.length_le; omega)
  rwa [Nat.zero_add, Nat.zero_add] at h1

theorem get_rep {h : Heap α} {l : OL} {as : List (Nat × α)} (r : Rep h l as) (k : Nat) :
    get h l k = .ok (as[k]?.map Prod.snd) := by
  simp only [get, walkTo_rep r, bind, Except.bind]
  rcases Nat.lt_or_ge k as.length with hk | hk
  · obtain ⟨pre, a, y, post, rfl, rfl⟩ := split_at_pos hk
    obtain ⟨n, hc, -⟩ := r.list.mid_cell
    rw [if_neg (by simp)]
    simp [deref_ok hc]
  · rw [List.getElem?_eq_none hk]
    simp

theorem getIt_rep {h : Heap α} {l : OL} {as : List (Nat × α)} (r : Rep h l as) (k : Nat) :
    getIt h l k = .ok none := by
  simp only [getIt, walkTo_rep r, bind, Except.bind]
  split
  · rfl
  · rename_i hne
    rw [List.getElem?_eq_none (by omega)]
    rfl

theorem set_rep {h : Heap α} {l : OL} {as : List (Nat × α)} (r : Rep h l as) (k : Nat) (x : α)
    (hk : k < as.length) : ∃ h', set h l k x = .ok (h', 0) ∧
      Rep h' l (as.set k (as[k].1, x)) ∧ Frame h h' as := by
  simp only [set, walkTo_rep r, bind, Except.bind]
  obtain ⟨pre, a, y, post, rfl, rfl⟩ := split_at_pos hk
  obtain ⟨n, hc, -⟩ := r.list.mid_cell
  obtain ⟨i1, i2⟩ := isList_setData (x := x) (h2 := h.write a ⟨n, x⟩) r.list hc (by simp) (by simp)
    (by intro c hne; simp only [write_cells]; rw [if_neg hne])
  refine ⟨h.write a ⟨n, x⟩, ?_, ⟨by simpa using i1, ?_, by simpa using r.len⟩, i2⟩
  · simp [deref_ok hc]
  · rw [r.last]
    rcases List.eq_nil_or_concat post with rfl | ⟨q, ⟨t, w⟩, rfl⟩
    · simp
    · simp only [List.concat_eq_append, List.set_append, Nat.lt_irrefl, if_false, Nat.sub_self,
        List.set_cons_zero, List.getElem_append_right, Nat.le_refl, List.getElem_cons_zero]
      rw [getLast?_mid_ne (post := q ++ [(t, w)]) (by simp),
        getLast?_mid_ne (post := q ++ [(t, w)]) (by simp)]

theorem set_out {h : Heap α} {l : OL} {as : List (Nat × α)} (r : Rep h l as) (k : Nat) (x : α)
    (hk : as.length ≤ k) : set h l k x = .ok (h, -1) := by
  simp only [set, walkTo_rep r, bind, Except.bind, List.getElem?_eq_none hk, Option.map_none]

theorem destroyLoop_spec : ∀ (fuel : Nat) (as : List (Nat × α)) (h : Heap α) (it : Option Nat),
    IsList h it as → as.length < fuel → ∃ h', destroyLoop fuel h it = .ok h' ∧ Frame h h' as ∧
      h'.fresh = h.fresh ∧ ∀ a ∈ addrs as, h'.cells a = none
  | 0, _, _, _, _, hf => by omega
  | fuel + 1, [], h, it, hl, hf => by
    have : it = none := hl.seg
    exact ⟨h, by simp [destroyLoop, this], Frame.refl _ _, rfl, by simp⟩
  | fuel + 1, (a, x) :: as, h, it, hl, hf => by
    obtain ⟨rfl, n, hc, h3, hna⟩ := hl.cons_inv
    obtain ⟨i1, i2⟩ := isList_pop_front (h2 := h.free a) hl hc (by simp)
      (by intro c hne; simp only [free_cells]; rw [if_neg hne])
    obtain ⟨h', e, f, hfr, hno⟩ := destroyLoop_spec fuel as (h.free a) n i1 (by simp at hf; omega)
    refine ⟨h', by simp only [destroyLoop, deref_ok hc, bind, Except.bind]; exact e, ⟨by simpa using f.fresh, ?_⟩,
      by simpa using hfr, ?_⟩
    · intro b hb hn
      simp only [addrs, List.map_cons, List.mem_cons, not_or] at hn
      rw [f.same b (by simpa using hb) hn.2]
      simp only [free_cells]
      rw [if_neg hn.1]
    · intro b hb
      simp only [addrs, List.map_cons, List.mem_cons] at hb
      rcases hb with rfl | hb
      · rw [f.same b (by simpa using hl.bnd b (by simp)) hna]
        simp
      · exact hno b hb

theorem clear_rep {h : Heap α} {l : OL} {as : List (Nat × α)} (r : Rep h l as) :
    ∃ h' l', clear h l = .ok (h', l') ∧ Rep h' l' [] ∧ Frame h h' as ∧
      ∀ a ∈ addrs as, h'.cells a = none := by
  obtain ⟨h', e, f, -, hno⟩ := destroyLoop_spec (h.fresh + 1) as h l.first r.list
    (by have := r.list.length_le; omega)
  exact ⟨h', create, by simp only [clear, e, bind, Except.bind], rep_create h', f, hno⟩

theorem appendLoop_spec (f : α → α) : ∀ (fuel : Nat) (as : List (Nat × α)) (h : Heap α)
    (it : Option Nat) (ret : OL) (bs : List (Nat × α)), IsList h it as →
    Rep h ret bs → (∀ b ∈ addrs as, b ∉ addrs bs) → as.length < fuel →
    ∃ h' ret' cs, appendLoop f fuel h it ret = .ok (h', ret') ∧
      Rep h' ret' (bs ++ cs) ∧ cs.map Prod.snd = as.map (fun e => f e.2) ∧ Frame h h' bs ∧
      ∀ b ∈ addrs cs, h.fresh ≤ b
  | 0, _, _, _, _, _, _, _, _, hf => by omega
  | fuel + 1, [], h, it, ret, bs, hl, hr, hd, hf => by
    have : it = none := hl.seg
    exact ⟨h, ret, [], by simp [appendLoop, this], by simpa using hr, rfl, Frame.refl _ _, by simp⟩
  | fuel + 1, (a, x) :: as, h, it, ret, bs, hl, hr, hd, hf => by
    obtain ⟨rfl, n, hc, h3, hna⟩ := hl.cons_inv
    obtain ⟨h1, ret1, e1, r1, fr1, hlt⟩ := append_rep hr (f x)
    have hc1 : h1.cells a = some ⟨n, x⟩ := by
      rw [fr1.same a (hl.bnd a (by simp)) (hd a (by simp))]; exact hc
    have h3' : IsList h1 n as := fr1.isList h3 (fun b hb => hd b (by
      simp only [addrs, List.map_cons, List.mem_cons]; exact .inr hb))
    obtain ⟨h', ret', cs, e2, r2, hcs, fr2, hge⟩ := appendLoop_spec f fuel as h1 n ret1
      (bs ++ [(h.fresh, f x)]) h3' r1 (by
        intro b hb
        simp only [addrs, List.map_append, List.map_cons, List.map_nil, List.mem_append,
          List.mem_singleton]
        rintro (hm | rfl)
        · exact hd b (by simp only [addrs, List.map_cons, List.mem_cons]; exact .inr hb) hm
        · exact absurd (h3.bnd _ hb) (by omega)) (by simp at hf; omega)
    refine ⟨h', ret', (h.fresh, f x) :: cs, ?_, by simpa using r2, by simp [hcs], ?_, ?_⟩
    · simp only [appendLoop, deref_ok hc, e1, deref_ok hc1, bind, Except.bind]
      exact e2
    · refine ⟨Nat.le_trans fr1.fresh fr2.fresh, fun b hb hn => ?_⟩
      rw [fr2.same b (by omega), fr1.same b hb hn]
      simp only [addrs, List.map_append, List.map_cons, List.map_nil, List.mem_append,
          List.mem_singleton]
      rintro (hm | rfl)
      · exact hn hm
      · omega
    · intro b hb
      simp only [addrs, List.map_cons, List.mem_cons] at hb
      rcases hb with rfl | hb
      · exact Nat.le_refl _
      · have := hge b hb; omega

theorem filterLoop_spec (p : α → Bool) : ∀ (as : List (Nat × α)) (h : Heap α)
    (it : Option Nat) (ret : OL) (bs : List (Nat × α)), IsList h it as →
    Rep h ret bs → (∀ b ∈ addrs as, b ∉ addrs bs) →
    ∃ h' ret' cs, filterLoop p as.length h it ret = .ok (h', ret') ∧
      Rep h' ret' (bs ++ cs) ∧ cs.map Prod.snd = (as.map Prod.snd).filter p ∧ Frame h h' bs ∧
      ∀ b ∈ addrs cs, h.fresh ≤ b
  | [], h, it, ret, bs, hl, hr, hd =>
    ⟨h, ret, [], rfl, by simpa using hr, rfl, Frame.refl _ _, by simp⟩
  | (a, x) :: as, h, it, ret, bs, hl, hr, hd => by
    obtain ⟨rfl, n, hc, h3, hna⟩ := hl.cons_inv
    cases hp : p x with
    | false =>
      obtain ⟨h', ret', cs, e2, r2, hcs, fr2, hge⟩ := filterLoop_spec p as h n ret bs h3 hr
        (fun b hb => hd b (by simp only [addrs, List.map_cons, List.mem_cons]; exact .inr hb))
      refine ⟨h', ret', cs, ?_, r2, by simp [hcs, hp], fr2, hge⟩
      simp only [List.length_cons, filterLoop, deref_ok hc, bind, Except.bind, hp,
        Bool.false_eq_true, if_false]
      exact e2
    | true =>
      obtain ⟨h1, ret1, e1, r1, fr1, hlt⟩ := append_rep hr x
      have hc1 : h1.cells a = some ⟨n, x⟩ := by
        rw [fr1.same a (hl.bnd a (by simp)) (hd a (by simp))]; exact hc
      have h3' : IsList h1 n as := fr1.isList h3 (fun b hb => hd b (by
        simp only [addrs, List.map_cons, List.mem_cons]; exact .inr hb))
      obtain ⟨h', ret', cs, e2, r2, hcs, fr2, hge⟩ := filterLoop_spec p as h1 n ret1
        (bs ++ [(h.fresh, x)]) h3' r1 (by
          intro b hb
          simp only [addrs, List.map_append, List.map_cons, List.map_nil, List.mem_append,
            List.mem_singleton]
          rintro (hm | rfl)
          · exact hd b (by simp only [addrs, List.map_cons, List.mem_cons]; exact .inr hb) hm
          · exact absurd (h3.bnd _ hb) (by omega))
      refine ⟨h', ret', (h.fresh, x) :: cs, ?_, by simpa using r2, by simp [hcs, hp], ?_, ?_⟩
      · simp only [List.length_cons, filterLoop, deref_ok hc, bind, Except.bind, hp, if_true, e1,
          deref_ok hc1]
        exact e2
      · refine ⟨Nat.le_trans fr1.fresh fr2.fresh, fun b hb hn => ?_⟩
        rw [fr2.same b (by omega), fr1.same b hb hn]
        simp only [addrs, List.map_append, List.map_cons, List.map_nil, List.mem_append,
            List.mem_singleton]
        rintro (hm | rfl)
        · exact hn hm
        · omega
      · intro b hb
        simp only [addrs, List.map_cons, List.mem_cons] at hb
        rcases hb with rfl | hb
        · exact Nat.le_refl _
        · have := hge b hb; omega

theorem copy_rep (f : α → α) {h : Heap α} {l : OL} {as : List (Nat × α)} (r : Rep h l as) :
    ∃ h' l' cs, copy f h l = .ok (h', l') ∧ Rep h' l' cs ∧
      cs.map Prod.snd = as.map (fun e => f e.2) ∧ Frame h h' [] ∧ ∀ b ∈ addrs cs, h.fresh ≤ b := by
  obtain ⟨h', l', cs, e, r', hcs, fr, hge⟩ := appendLoop_spec f (h.fresh + 1) as h l.first create []
    r.list (rep_create h) (by simp) (by have := r.list.length_le; omega)
  exact ⟨h', l', cs, e, by simpa using r', hcs, fr, hge⟩

theorem filter_rep (p : α → Bool) {h : Heap α} {l : OL} {as : List (Nat × α)} (r : Rep h l as) :
    ∃ h' l' cs, filter p h l = .ok (h', l') ∧ Rep h' l' cs ∧
      cs.map Prod.snd = (as.map Prod.snd).filter p ∧ Frame h h' [] ∧ ∀ b ∈ addrs cs, h.fresh ≤ b := by
  obtain ⟨h', l', cs, e, r', hcs, fr, hge⟩ := filterLoop_spec p as h l.first create []
    r.list (rep_create h) (by simp)
  refine ⟨h', l', cs, ?_, by simpa using r', hcs, fr, hge⟩
  simp only [filter, r.len]; exact e

/-- Disjoint lists: the second list survives the append loop. -/
theorem concatIn_rep {h : Heap α} {l1 l2 : OL} {as bs : List (Nat × α)} (r1 : Rep h l1 as)
    (r2 : Rep h l2 bs) (hd : ∀ b ∈ addrs bs, b ∉ addrs as) :
    ∃ h' l' cs, concatIn h l1 l2 = .ok (h', l') ∧ Rep h' l' (as ++ cs) ∧
      cs.map Prod.snd = bs.map Prod.snd ∧ Frame h h' as ∧ Rep h' l2 bs := by
  obtain ⟨h', l', cs, e, r', hcs, fr, hge⟩ := appendLoop_spec id (h.fresh + 1) bs h l2.first l1 as
    r2.list r1 hd (by have := r2.list.length_le; omega)
  exact ⟨h', l', cs, e, r', by simpa using hcs, fr, ⟨fr.isList r2.list hd, r2.last, r2.len⟩⟩

theorem concat_rep {h : Heap α} {l1 l2 : OL} {as bs : List (Nat × α)} (r1 : Rep h l1 as)
    (r2 : Rep h l2 bs) :
    ∃ h' l' cs, concat h l1 l2 = .ok (h', l') ∧ Rep h' l' cs ∧
      cs.map Prod.snd = as.map Prod.snd ++ bs.map Prod.snd ∧ Frame h h' [] := by
  obtain ⟨h1, l', cs, e, r', hcs, fr, hge⟩ := appendLoop_spec id (h.fresh + 1) as h l1.first create []
    r1.list (rep_create h) (by simp) (by have := r1.list.length_le; omega)
  have hb1 : IsList h1 l2.first bs := fr.isList r2.list (by simp)
  obtain ⟨h2, l'', ds, e2, r'', hds, fr2, hge2⟩ := appendLoop_spec id (h1.fresh + 1) bs h1 l2.first l' ([] ++ cs)
    hb1 r' (by
      intro b hb hm
      have h1 := r2.list.bnd b hb
      have h2 := hge b (by simpa using hm)
      omega) (by have := hb1.length_le; omega)
  refine ⟨h2, l'', cs ++ ds, ?_, by simpa using r'', by simp [hcs, hds], ?_⟩
  · simp only [concat, e, bind, Except.bind]; exact e2
  · refine ⟨Nat.le_trans fr.fresh fr2.fresh, fun b hb _ => ?_⟩
    have := fr.fresh
    rw [fr2.same b (by omega), fr.same b hb (by simp)]
    intro hm
    have := hge b (by simpa using hm)
    omega

/-- One step of a copying loop over `(a, x) :: as` into `bs`. -/
theorem append_step {h : Heap α} {a : Nat} {x y : α} {as bs : List (Nat × α)} {it : Option Nat}
    {ret : OL} (hl : IsList h it ((a, x) :: as)) (hr : Rep h ret bs)
    (hd : ∀ b ∈ addrs ((a, x) :: as), b ∉ addrs bs) :
    ∃ h1 ret1 n, it = some a ∧ h.deref (some a) = .ok ⟨n, x⟩ ∧ append h ret y = .ok (h1, ret1) ∧
      h1.deref (some a) = .ok ⟨n, x⟩ ∧ IsList h1 n as ∧ Rep h1 ret1 (bs ++ [(h.fresh, y)]) ∧
      (∀ b ∈ addrs as, b ∉ addrs (bs ++ [(h.fresh, y)])) ∧ Frame h h1 bs ∧
      h1.fresh = h.fresh + 1 := by
  obtain ⟨rfl, n, hc, h3, hna⟩ := hl.cons_inv
  obtain ⟨h1, ret1, e1, r1, fr1, hlt⟩ := append_rep hr y
  refine ⟨h1, ret1, n, rfl, deref_ok hc, e1, deref_ok ?_, ?_, r1, ?_, fr1, hlt⟩
  · rw [fr1.same a (hl.bnd a (by simp)) (hd a (by simp))]; exact hc
  · exact fr1.isList h3 (fun b hb => hd b (by
      simp only [addrs, List.map_cons, List.mem_cons]; exact .inr hb))
  · intro b hb
    simp only [addrs, List.map_append, List.map_cons, List.map_nil, List.mem_append,
      List.mem_singleton]
    rintro (hm | rfl)
    · exact hd b (by simp only [addrs, List.map_cons, List.mem_cons]; exact .inr hb) hm
    · exact absurd (h3.bnd _ hb) (by omega)

theorem sublistItLoop_spec : ∀ (fuel : Nat) (as rest : List (Nat × α)) (h : Heap α)
    (it : Option Nat) (ret : OL) (bs : List (Nat × α)),
    IsList h it (as ++ rest) → Rep h ret bs → (∀ b ∈ addrs (as ++ rest), b ∉ addrs bs) →
    as.length < fuel →
    ∃ h' ret' cs, sublistItLoop fuel h it (rest.head?.map Prod.fst) ret = .ok (h', ret') ∧
      Rep h' ret' (bs ++ cs) ∧ cs.map Prod.snd = as.map Prod.snd
  | 0, _, _, _, _, _, _, _, _, _, hf => by omega
  | fuel + 1, [], rest, h, it, ret, bs, hl, hr, hd, hf => by
    have : it = rest.head?.map Prod.fst := hl.head
    exact ⟨h, ret, [], by simp [sublistItLoop, this], by simpa using hr, rfl⟩
  | fuel + 1, (a, x) :: as, rest, h, it, ret, bs, hl, hr, hd, hf => by
    obtain ⟨h1, ret1, n, rfl, d1, e1, d2, l1, r1, hd1, -, -⟩ := append_step (y := x) hl hr hd
    obtain ⟨h', ret', cs, e2, r2, hcs⟩ := sublistItLoop_spec fuel as rest h1 n ret1 _ l1 r1 hd1
      (by simp at hf; omega)
    have hne : ¬ some a = rest.head?.map Prod.fst := by
      have hn := hl.nodup
      cases rest with
      | nil => simp
      | cons e es =>
        simp only [List.head?_cons, Option.map_some, Option.some.injEq]
        rintro rfl
        simp at hn
    refine ⟨h', ret', (h.fresh, x) :: cs, ?_, by simpa using r2, by simp [hcs]⟩
    simp only [sublistItLoop]
    rw [if_neg hne]
    simp only [d1, e1, d2, bind, Except.bind]
    exact e2

/-- The second loop of `comps_objlist_sublist_indexed` copies up to `k` elements, but never the last
one of the list. -/
theorem sublistIdxLoop_spec (k : Nat) : ∀ (fuel : Nat) (as : List (Nat × α)) (z : Nat × α) (h : Heap α)
    (it : Option Nat) (pos : Nat) (ret : OL) (bs : List (Nat × α)),
    IsList h it (as ++ [z]) → Rep h ret bs → (∀ b ∈ addrs (as ++ [z]), b ∉ addrs bs) →
    as.length < fuel →
    ∃ h' ret' cs, sublistIdxLoop (pos + k) fuel h it pos ret = .ok (h', ret') ∧
      Rep h' ret' (bs ++ cs) ∧ cs.map Prod.snd = (as.take k).map Prod.snd := by
  intro fuel
  induction fuel generalizing k with
  | zero => intro as z h it pos ret bs _ _ _ hf; omega
  | succ fuel ih =>
    intro as z h it pos ret bs hl hr hd hf
    cases as with
    | nil =>
      obtain ⟨z1, z2⟩ := z
      obtain ⟨rfl, n, hc, h3, -⟩ := IsList.cons_inv hl
      have hn : n = none := h3.seg
      subst hn
      exact ⟨h, ret, [], by simp [sublistIdxLoop, deref_ok hc, bind, Except.bind], by simpa using hr, by simp⟩
    | cons e as =>
      obtain ⟨a, x⟩ := e
      obtain ⟨h1, ret1, n, rfl, d1, e1, d2, l1, r1, hd1, -, -⟩ := append_step (y := x) hl hr hd
      cases k with
      | zero =>
        exact ⟨h, ret, [], by simp [sublistIdxLoop, d1, bind, Except.bind], by simpa using hr, by simp⟩
      | succ k =>
        obtain ⟨h', ret', cs, e2, r2, hcs⟩ := ih k as z h1 n (pos + 1) ret1 _ l1 r1 hd1
          (by simp at hf; omega)
        have hn : n ≠ none := by
          rw [l1.head]; cases as <;> simp
        refine ⟨h', ret', (h.fresh, x) :: cs, ?_, by simpa using r2, by simp [hcs]⟩
        simp only [sublistIdxLoop, d1, bind, Except.bind]
        rw [if_neg (by simp [hn])]
        simp only [e1, d2]
        rw [show pos + (k + 1) = pos + 1 + k by omega]
        exact e2

theorem sublistIdx_rep {h : Heap α} {l : OL} {as : List (Nat × α)} (r : Rep h l as)
    (start fin : Nat) (hsf : start ≤ fin) :
    ∃ h' l' cs, sublistIdx h l start fin = .ok (h', l') ∧ Rep h' l' cs ∧
      cs.map Prod.snd = ((as.dropLast.drop start).take (fin - start)).map Prod.snd := by
  simp only [sublistIdx, walkTo_rep r, bind, Except.bind]
  rcases Nat.lt_or_ge start as.length with hk | hk
  · obtain ⟨pre, a, y, post, rfl, rfl⟩ := split_at_pos hk
    obtain ⟨m, -, h2⟩ := r.list.suffix
    have hm : m = some a := h2.cons_inv.1
    subst hm
    simp only [List.length_append, List.length_cons]
    rw [show min pre.length (pre.length + (post.length + 1)) = pre.length by omega]
    have hg : (pre ++ (a, y) :: post)[pre.length]?.map Prod.fst = some a := by simp
    rw [hg]
    simp only
    rcases List.eq_nil_or_concat ((a, y) :: post) with h0 | ⟨as', z, h0⟩
    · simp at h0
    · rw [List.concat_eq_append] at h0
      rw [h0] at h2
      have hle := h2.length_le
      simp at hle
      obtain ⟨h', l', cs, e, r', hcs⟩ := sublistIdxLoop_spec (fin - pre.length) (h.fresh + 1) as' z h
        (some a) pre.length create [] h2 (rep_create h) (by simp) (by omega)
      rw [show pre.length + (fin - pre.length) = fin by omega] at e
      refine ⟨h', l', cs, e, by simpa using r', ?_⟩
      rw [hcs, h0, ← List.append_assoc, List.dropLast_concat, List.drop_append]
      simp
  · rw [List.getElem?_eq_none hk]
    refine ⟨h, create, [], rfl, rep_create h, ?_⟩
    rw [List.drop_of_length_le]
    · simp
    · simp; omega

theorem cmpLoop_spec (cmpf : α → α → Bool) (h : Heap α) : ∀ (fuel : Nat)
    (as bs : List (Nat × α)) (p q : Option Nat), IsList h p as → IsList h q bs → as.length < fuel →
    cmpLoop cmpf h fuel p q = .ok (decide (as.length = bs.length) &&
      (as.zip bs).all fun e => cmpf e.1.2 e.2.2)
  | 0, _, _, _, _, _, _, hf => by omega
  | fuel + 1, [], [], p, q, hp, hq, hf => by
    have h1 : p = none := hp.seg
    have h2 : q = none := hq.seg
    simp [cmpLoop, h1, h2]
  | fuel + 1, [], (b, y) :: bs, p, q, hp, hq, hf => by
    have h1 : p = none := hp.seg
    have h2 : q = some b := hq.seg.1
    simp [cmpLoop, h1, h2]
  | fuel + 1, (a, x) :: as, [], p, q, hp, hq, hf => by
    have h1 : p = some a := hp.seg.1
    have h2 : q = none := hq.seg
    simp [cmpLoop, h1, h2]
  | fuel + 1, (a, x) :: as, (b, y) :: bs, p, q, hp, hq, hf => by
    obtain ⟨rfl, n, hc, h3, -⟩ := hp.cons_inv
    obtain ⟨rfl, m, hc', h3', -⟩ := hq.cons_inv
    simp only [cmpLoop, deref_ok hc, deref_ok hc', bind, Except.bind]
    rw [cmpLoop_spec cmpf h fuel as bs n m h3 h3' (by simp at hf; omega)]
    cases hxy : cmpf x y <;> simp [hxy]

end Comps.ObjHeap
