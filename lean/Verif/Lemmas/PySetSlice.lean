import Verif.Lemmas.PySlice

/-! # Lemmas: slice assignment -/

namespace Comps.PySeq
open Comps Comps.Obj Heap ObjHeap
variable {α : Type}

/-- The list `l` holds `xs` in the cells `as`. -/
structure HoldsAt (h : Heap (Option α)) (l : OL) (as : List (Nat × Option α)) (xs : List α) :
    Prop where
  rep : Rep h l as
  vals : as.map Prod.snd = xs.map some

theorem HoldsAt.holds {h : Heap (Option α)} {l : OL} {as : List (Nat × Option α)} {xs : List α}
    (H : HoldsAt h l as xs) : Holds h l xs := ⟨as, H.rep, H.vals⟩

theorem HoldsAt.length {h : Heap (Option α)} {l : OL} {as : List (Nat × Option α)} {xs : List α}
    (H : HoldsAt h l as xs) : as.length = xs.length := by
  simpa using congrArg List.length H.vals

theorem checkAll_spec (k : Kind α) {id : α → Option CStr} {h : Heap (Option α)} {l : OL}
    {xs : List α} (H : Holds h l xs) (hid : ∀ a ∈ xs, k.ident a = .ok (id a)) :
    ∀ (fuel : Nat) (bs : List (Nat × Option α)) (ys : List α) (it : Option Nat),
      (∀ y ∈ ys, k.ident y = .ok (id y)) → IsList h it bs → bs.map Prod.snd = ys.map some →
      bs.length < fuel →
      checkAll k h l fuel it = .ok (decide (∀ y ∈ ys, id y ∉ xs.map id))
  | 0, _, _, _, _, _, _, hf => by omega
  | fuel + 1, [], ys, it, hy, hl, e, hf => by
    have : it = none := hl.seg
    subst this
    cases ys with
    | nil => simp [checkAll]
    | cons y ys => simp at e
  | fuel + 1, (b, d) :: bs, ys, it, hy, hl, e, hf => by
    obtain ⟨rfl, n, hc, h3, hna⟩ := hl.cons_inv
    cases ys with
    | nil => simp at e
    | cons y ys =>
      simp only [List.map_cons, List.cons.injEq] at e
      obtain ⟨rfl, e⟩ := e
      have hu := uniqueCheck_holds k H hid y (hy y (by simp))
      simp only [checkAll, deref_ok hc, bind, Except.bind, hu]
      by_cases hm : id y ∈ xs.map id
      · rw [if_neg (by simpa using hm)]
        rw [decide_eq_false]
        intro hall
        exact hall y (by simp) hm
      · rw [if_pos (by simpa using hm)]
        rw [checkAll_spec k H hid fuel bs ys n (fun z hz => hy z (by simp [hz])) h3 e
          (by simp at hf; omega)]
        have hm' : ∀ x ∈ xs, ¬ id x = id y := by simpa using hm
        simp
        intro _
        exact hm'

theorem Rep.setCells {h h' : Heap (Option α)} {l : OL} {as as' : List (Nat × Option α)}
    (r : Rep h l as) (i : IsList h' l.first as') (e : addrs as' = addrs as) : Rep h' l as' := by
  refine ⟨i, ?_, ?_⟩
  · rw [r.last, ← List.getLast?_map, ← List.getLast?_map]
    exact congrArg _ e.symm
  · rw [r.len, addrs_length e]

/-- Replacing objects while there are both cells and new objects. -/
theorem overwrite_spec {l : OL} : ∀ (fuel : Nat) (h : Heap (Option α))
    (pre cs ds : List (Nat × Option α)) (it it2 : Option Nat) (i : Nat),
    Rep h l (pre ++ cs) → IsList h it cs → IsList h it2 ds →
    (∀ b ∈ addrs ds, b ∉ addrs (pre ++ cs)) → cs.length < fuel →
    ∃ h' it' it2' cs', overwrite fuel h it it2 i =
        .ok (h', it', it2', i + min cs.length ds.length) ∧
      Rep h' l (pre ++ cs') ∧ addrs cs' = addrs cs ∧
      cs'.map Prod.snd = (ds.take cs.length).map Prod.snd ++ (cs.drop ds.length).map Prod.snd ∧
      IsList h' it' (cs'.drop ds.length) ∧ IsList h' it2' (ds.drop cs.length) ∧
      Frame h h' (pre ++ cs)
  | 0, _, _, _, _, _, _, _, _, _, _, _, hf => by omega
  | fuel + 1, h, pre, [], ds, it, it2, i, r, hl, hl2, hd, hf => by
    have : it = none := hl.seg
    subst this
    refine ⟨h, none, it2, [], ?_, r, rfl, by simp, by simpa using hl, by simpa using hl2,
      Frame.refl _ _⟩
    simp only [overwrite]
    simp
  | fuel + 1, h, pre, (a, x) :: cs, [], it, it2, i, r, hl, hl2, hd, hf => by
    have : it2 = none := hl2.seg
    subst this
    exact ⟨h, it, none, (a, x) :: cs, by simp [overwrite], r, rfl, by simp, by simpa using hl,
      by simpa using hl2, Frame.refl _ _⟩
  | fuel + 1, h, pre, (a, x) :: cs, (b, y) :: ds, it, it2, i, r, hl, hl2, hd, hf => by
    obtain ⟨rfl, n, hc, h3, hna⟩ := hl.cons_inv
    obtain ⟨rfl, n2, hc2, h32, hna2⟩ := hl2.cons_inv
    have hba : b ≠ a := by
      rintro rfl
      exact hd b (by simp [addrs]) (by simp [addrs])
    obtain ⟨i1, f1⟩ := isList_setData (x := y) (h2 := h.write a ⟨n, y⟩) r.list hc (by simp)
      (by simp) (by intro c hne; simp only [write_cells]; rw [if_neg hne])
    have ea : addrs (pre ++ (a, y) :: cs) = addrs (pre ++ (a, x) :: cs) := by simp [addrs]
    have r1 := Rep.setCells r i1 ea
    have l2 := f1.isList hl2 hd
    obtain ⟨-, n2', hc2', h32', -⟩ := l2.cons_inv
    have hca' : (h.write a ⟨n, y⟩).cells a = some ⟨n, y⟩ := by simp
    have hla : IsList (h.write a ⟨n, y⟩) n cs := by
      obtain ⟨m, hm, h5⟩ := i1.mid_cell
      rw [hca'] at hm
      cases hm
      exact h5
    obtain ⟨h', it', it2', cs', e, r', ha', hv, hl', hl2', f⟩ := overwrite_spec fuel
      (h.write a ⟨n, y⟩) (pre ++ [(a, y)]) cs ds n n2' (i + 1) (by simpa using r1) hla h32' (by
        intro c hcm
        have := hd c (by simp only [addrs, List.map_cons, List.mem_cons]; exact .inr hcm)
        rwa [List.append_assoc, List.singleton_append, ea]) (by simp at hf; omega)
    refine ⟨h', it', it2', (a, y) :: cs', ?_, by simpa using r', ?_, ?_, by simpa using hl',
      by simpa using hl2', ?_⟩
    · simp only [overwrite, deref_ok hc2, deref_ok hc, deref_ok hc2', deref_ok hca', bind,
        Except.bind, e, List.length_cons]
      rw [show i + 1 + min cs.length ds.length = i + min (cs.length + 1) (ds.length + 1) by omega]
    · have ha'' : cs'.map Prod.fst = cs.map Prod.fst := ha'
      simp [addrs, ha'']
    · simp [hv]
    · refine ⟨Nat.le_trans f1.fresh f.fresh, fun c hc1 hc2 => ?_⟩
      rw [f.same c (by simpa using hc1) (by rwa [List.append_assoc, List.singleton_append, ea]),
        f1.same c hc1 hc2]

theorem removeTimes_spec : ∀ (k : Nat) (h : Heap (Option α)) (l : OL)
    (as : List (Nat × Option α)) (i : Nat), Rep h l as → i + k ≤ as.length →
    ∃ h' l', removeTimes i k h l = .ok (h', l') ∧ Rep h' l' (as.take i ++ as.drop (i + k)) ∧
      Frame h h' as
  | 0, h, l, as, i, r, hk => ⟨h, l, rfl, by simpa using r, Frame.refl _ _⟩
  | k + 1, h, l, as, i, r, hk => by
    obtain ⟨h1, l1, e1, r1, f1⟩ := removeAt_rep r i (by omega)
    obtain ⟨h', l', e, r', f⟩ := removeTimes_spec k h1 l1 _ i r1 (by
      rw [List.length_eraseIdx_of_lt (by omega)]; omega)
    refine ⟨h', l', by simp only [removeTimes, e1, bind, Except.bind, e], ?_, ?_⟩
    · have : as.eraseIdx i = as.take i ++ as.drop (i + 1) := List.eraseIdx_eq_take_drop_succ as i
      rw [this] at r'
      rw [List.take_append_of_le_length (by simp; omega), List.take_take, Nat.min_self,
        List.drop_append, List.drop_of_length_le (by simp; omega), List.nil_append,
        List.drop_drop, List.length_take, Nat.min_eq_left (by omega)] at r'
      rw [show i + 1 + (i + k - i) = i + (k + 1) by omega] at r'
      exact r'
    · refine ⟨Nat.le_trans f1.fresh f.fresh, fun c hc1 hc2 => ?_⟩
      rw [f.same c (Nat.lt_of_lt_of_le hc1 f1.fresh) (fun hm => hc2 ?_), f1.same c hc1 hc2]
      rw [addrs, List.mem_map] at hm ⊢
      obtain ⟨p, hp, he⟩ := hm
      exact ⟨p, List.mem_of_mem_eraseIdx hp, he⟩

theorem Frame.rep {h h' : Heap (Option α)} {as bs : List (Nat × Option α)} {l : OL}
    (f : Frame h h' as) (r : Rep h l bs) (hd : ∀ b ∈ addrs bs, b ∉ addrs as) : Rep h' l bs :=
  ⟨f.isList r.list hd, r.last, r.len⟩

theorem cnt_one (m : Nat) : cnt 1 m = m := by
  unfold cnt
  split
  · omega
  · rw [Nat.div_one]; omega

theorem setIndices_some {s : Slice} {n : Nat} (h1 : s.step.getD 1 = 1)
    (hlt : Spec.Py.bound n 0 s.start < Spec.Py.bound n n s.stop) :
    setIndices s n = .ok ((Spec.Py.bound n 0 s.start : Nat), (Spec.Py.bound n n s.stop : Nat), 1,
      (Spec.Py.bound n n s.stop - Spec.Py.bound n 0 s.start : Nat)) := by
  have h := indices_pos (s := s) (n := n) (by omega)
  rw [h1, show (1 : Int).toNat = 1 from rfl, cnt_one] at h
  simp only [setIndices, h, bind, Except.bind]
  rw [if_neg (by omega)]

theorem setIndices_end {s : Slice} {n : Nat} (h1 : s.step.getD 1 = 1)
    (he : Spec.Py.bound n 0 s.start = n) :
    ∃ a b c : Nat, setIndices s n = .ok ((a : Nat), (b : Nat), 1, (c : Nat)) ∧ n ≤ a := by
  have h := indices_pos (s := s) (n := n) (by omega)
  have hb := bound_le n n (Nat.le_refl _) s.stop
  have h2 := indices_pos (s := s) (n := n + n) (by omega)
  rw [h1, show (1 : Int).toNat = 1 from rfl, cnt_one] at h h2
  refine ⟨Spec.Py.bound (n + n) 0 s.start, Spec.Py.bound (n + n) (n + n) s.stop,
    Spec.Py.bound (n + n) (n + n) s.stop - Spec.Py.bound (n + n) 0 s.start, ?_, ?_⟩
  · simp only [setIndices, h, bind, Except.bind]
    rw [if_pos (by omega), he, ← Int.natCast_add]
    exact h2
  · revert he
    cases s.start with
    | none => simp [Spec.Py.bound]; omega
    | some v =>
      simp only [Spec.Py.bound]
      intro he
      split at he <;> split <;> omega

/-- Slice assignment where it does what a Python list does. -/
theorem setSlice_holds (k : Kind α) {nm : α → Option CStr} {h : Heap (Option α)} {l val : OL}
    {as bs : List (Nat × Option α)} {xs ys : List α} (H : HoldsAt h l as xs)
    (Hv : HoldsAt h val bs ys) (hd : ∀ b ∈ addrs bs, b ∉ addrs as)
    (hid : ∀ a ∈ xs, k.ident a = .ok (nm a)) (hiy : ∀ y ∈ ys, k.ident y = .ok (nm y))
    (hnew : ∀ y ∈ ys, nm y ∉ xs.map nm) (s : Slice) (h1 : s.step.getD 1 = 1)
    (hc : (Spec.Py.bound xs.length 0 s.start < Spec.Py.bound xs.length xs.length s.stop ∧
        (ys.length ≤ Spec.Py.bound xs.length xs.length s.stop - Spec.Py.bound xs.length 0 s.start ∨
          Spec.Py.bound xs.length xs.length s.stop = xs.length)) ∨
      Spec.Py.bound xs.length 0 s.start = xs.length) :
    ∃ h' l', setSlice k h l s val = .ok (h', l', .ok ()) ∧
      Holds h' l' (Spec.Py.setSlice xs s.start s.stop ys) ∧ Holds h' val ys := by
  have hn := H.length
  have hm := Hv.length
  have hll : l.len = xs.length := by rw [H.rep.len, hn]
  have hchk : checkAll k h l (h.fresh + 1) val.first = .ok true := by
    rw [checkAll_spec k H.holds hid (h.fresh + 1) bs ys val.first hiy Hv.rep.list Hv.vals
      (by have := Hv.rep.list.length_le; omega)]
    simp only [Except.ok.injEq, decide_eq_true_eq]
    exact hnew
  have hb := bound_le xs.length xs.length (Nat.le_refl _) s.stop
  have hend : ∀ (h1 : Heap (Option α)) (as1 ds : List (Nat × Option α)) (it2 : Option Nat),
      Rep h1 l as1 → Rep h1 val bs → IsList h1 it2 ds → (∀ b ∈ addrs bs, b ∉ addrs as1) →
      (∀ b ∈ addrs ds, b ∉ addrs as1) →
      ∃ h' l', appendLoop id (h1.fresh + 1) h1 it2 l = .ok (h', l') ∧
        (∃ cs, Rep h' l' (as1 ++ cs) ∧ cs.map Prod.snd = ds.map Prod.snd) ∧ Rep h' val bs := by
    intro h1 as1 ds it2 r1 r2 hl2 hd1 hd2
    obtain ⟨h', l', cs, e, r', hcs, fr, -⟩ := appendLoop_spec id
      (h1.fresh + 1) ds h1 it2 l as1 hl2 r1 hd2 (by have := hl2.length_le; omega)
    exact ⟨h', l', e, ⟨cs, r', hcs⟩, Frame.rep fr r2 hd1⟩
  have hset : Spec.Py.setSlice xs s.start s.stop ys = xs.take (Spec.Py.bound xs.length 0 s.start) ++
      ys ++ xs.drop (max (Spec.Py.bound xs.length 0 s.start)
        (Spec.Py.bound xs.length xs.length s.stop)) := rfl
  rw [hset]
  by_cases he : Spec.Py.bound xs.length 0 s.start = xs.length
  · obtain ⟨a, b, c, hi, ha⟩ := setIndices_end h1 he
    obtain ⟨it, ew, hl⟩ := walkMax_spec a as l.first H.rep.list
    rw [List.drop_of_length_le (by omega)] at hl
    have : it = none := hl.seg
    subst this
    obtain ⟨h', l', e', ⟨cs, r', hcs⟩, rv⟩ := hend h as bs val.first H.rep Hv.rep Hv.rep.list hd hd
    refine ⟨h', l', ?_, ?_, ⟨bs, rv, Hv.vals⟩⟩
    · simp only [setSlice, hll, hi, bind, Except.bind, hchk, ew, Int.toNat_natCast]
      simp [overwrite, e']
    · rw [he, List.take_length, List.drop_of_length_le (by omega), List.append_nil]
      exact ⟨as ++ cs, r', by rw [List.map_append, H.vals, hcs, Hv.vals, List.map_append]⟩
  · rcases hc with ⟨hlt, hc⟩ | hc
    rotate_left
    · exact absurd hc he
    have hi := setIndices_some h1 hlt
    generalize Spec.Py.bound xs.length 0 s.start = a at *
    generalize Spec.Py.bound xs.length xs.length s.stop = b at *
    obtain ⟨it, ew, hl⟩ := walkMax_spec a as l.first H.rep.list
    rw [show a - as.length = 0 by omega] at ew
    obtain ⟨h2, it', it2', cs', eo, r2, ha2, hv2, hl2, hl22, f2⟩ := overwrite_spec (l := l)
      (h.fresh + 1) h (as.take a) (as.drop a) bs it val.first a
      (by rw [List.take_append_drop]; exact H.rep) hl Hv.rep.list
      (by rw [List.take_append_drop]; exact hd)
      (by have := H.rep.list.length_le; simp; omega)
    rw [List.take_append_drop] at f2
    have rv2 : Rep h2 val bs := Frame.rep f2 Hv.rep hd
    have hcl : cs'.length = as.length - a := by
      have := addrs_length ha2
      simpa using this
    have ea : addrs (as.take a ++ cs') = addrs as := by
      have h5 : addrs (as.take a ++ cs') = addrs (as.take a) ++ addrs cs' := by simp [addrs]
      rw [h5, ha2]
      have h6 : addrs (as.take a) ++ addrs (as.drop a) = addrs (as.take a ++ as.drop a) := by
        simp [addrs]
      rw [h6, List.take_append_drop]
    have hvx : ∀ j, (as.take j).map Prod.snd = (xs.take j).map some ∧
        (as.drop j).map Prod.snd = (xs.drop j).map some := by
      intro j
      rw [List.map_take, List.map_drop, H.vals, List.map_take, List.map_drop]
      exact ⟨rfl, rfl⟩
    by_cases hlong : as.length - a ≤ bs.length
    · rw [List.drop_of_length_le (by omega)] at hl2
      have : it' = none := hl2.seg
      subst this
      obtain ⟨h', l', e', ⟨cs, r', hcs⟩, rv⟩ := hend h2 _ _ it2' r2 rv2 hl22
        (by rw [ea]; exact hd) (by
          rw [ea]
          intro c hcm
          refine hd c ?_
          rw [addrs, List.mem_map] at hcm ⊢
          obtain ⟨p, hp, hpe⟩ := hcm
          exact ⟨p, List.mem_of_mem_drop hp, hpe⟩)
      refine ⟨h', l', ?_, ?_, ⟨bs, rv, Hv.vals⟩⟩
      · simp only [setSlice, hll, hi, bind, Except.bind, hchk, ew, Int.toNat_natCast]
        simp [eo, e']
      · refine ⟨_, r', ?_⟩
        have hbn : b = xs.length := by omega
        rw [List.map_append, List.map_append, (hvx a).1, hv2, hcs,
          List.drop_of_length_le (l := as.drop a) (by simp; omega), List.map_nil, List.append_nil,
          List.append_assoc, ← List.map_append, List.take_append_drop, Hv.vals,
          List.drop_of_length_le (l := xs) (by omega), List.append_nil, List.map_append]
    · have hne : ¬ it' = none := by
        intro hno
        subst hno
        have h5 := congrArg List.length hl2.nil_iff
        simp at h5
        omega
      obtain ⟨u, rfl⟩ := Option.ne_none_iff_exists'.1 hne
      have hmin : min (as.drop a).length bs.length = bs.length := by simp; omega
      rw [hmin] at eo
      obtain ⟨h', l', e', r', f'⟩ := removeTimes_spec (b - (a + bs.length)) h2 l _ (a + bs.length) r2
        (by simp; omega)
      refine ⟨h', l', ?_, ?_, ⟨bs, Frame.rep f' rv2 (by rw [ea]; exact hd), Hv.vals⟩⟩
      · have h6 : ((b : Int) - ((a + bs.length : Nat) : Int)).toNat = b - (a + bs.length) := by omega
        simp only [setSlice, hll, hi, bind, Except.bind, hchk, ew, Int.toNat_natCast]
        simp only [ne_eq, not_true_eq_false, false_and, if_false, Nat.sub_zero, eo, h6, e', if_true]
      · refine ⟨_, r', ?_⟩
        have hmax : max a b = b := by omega
        have hsum : a + bs.length + (b - (a + bs.length)) = b := by omega
        have hcs : (as.take a ++ cs').map Prod.snd =
            (xs.take a ++ (ys ++ xs.drop (a + bs.length))).map some := by
          rw [List.map_append, (hvx a).1, hv2, List.take_of_length_le (l := bs) (by simp; omega),
            Hv.vals, List.drop_drop, (hvx _).2, List.map_append, List.map_append]
        have h7 : (xs.take a ++ ys).length = a + bs.length := by simp; omega
        rw [hmax, hsum, List.map_append, List.map_take, List.map_drop, hcs, ← List.map_take,
          ← List.map_drop, ← List.map_append, ← List.append_assoc (xs.take a), ← h7, List.take_left,
          List.drop_append, List.drop_of_length_le (by omega), List.nil_append, List.drop_drop, h7,
          show a + bs.length + (b - (a + bs.length)) = b by omega]

end Comps.PySeq
