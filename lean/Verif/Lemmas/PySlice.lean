import Verif.Lemmas.PySeq

/-! # Python sequences: slices -/

namespace Comps.PySeq
open Comps Comps.Obj Heap ObjHeap
variable {α : Type}

theorem walk_spec {h : Heap (Option α)} : ∀ (k : Nat) (as : List (Nat × Option α))
    (it : Option Nat), IsList h it as → k ≤ as.length →
    ∃ it', walk h k it = .ok it' ∧ IsList h it' (as.drop k)
  | 0, as, it, hl, _ => ⟨it, rfl, hl⟩
  | k + 1, [], it, hl, hk => by simp at hk
  | k + 1, (a, x) :: as, it, hl, hk => by
    obtain ⟨rfl, n, hc, h3, -⟩ := hl.cons_inv
    obtain ⟨it', e, h4⟩ := walk_spec k as n h3 (by simpa using hk)
    exact ⟨it', by simp only [walk, deref_ok hc, bind, Except.bind]; exact e, by simpa using h4⟩

/-- Going on inside the list. -/
theorem cycle_in {h : Heap (Option α)} (first : Option Nat) : ∀ (k : Nat)
    (as : List (Nat × Option α)) (it : Option Nat), IsList h it as → k < as.length →
    ∃ it', cycle h first k it = .ok it' ∧ IsList h it' (as.drop k)
  | 0, [], _, _, hk => by simp at hk
  | 0, (a, x) :: as, it, hl, _ => by
    obtain ⟨rfl, -⟩ := hl.cons_inv
    exact ⟨some a, by rw [cycle], hl⟩
  | k + 1, [], it, hl, hk => by simp at hk
  | k + 1, (a, x) :: as, it, hl, hk => by
    obtain ⟨rfl, n, hc, h3, -⟩ := hl.cons_inv
    obtain ⟨it', e, h4⟩ := cycle_in first k as n h3 (by simpa using hk)
    exact ⟨it', by simp only [cycle, deref_ok hc, bind, Except.bind]; exact e, by simpa using h4⟩

/-- Going on never leaves the list. -/
theorem cycle_ok {h : Heap (Option α)} {first : Option Nat} {all : List (Nat × Option α)}
    (hf : IsList h first all) (hne : all ≠ []) : ∀ (k : Nat)
    (as : List (Nat × Option α)) (it : Option Nat), IsList h it as → ∃ it',
      cycle h first k it = .ok it'
  | 0, as, it, hl => by cases it <;> exact ⟨_, by rw [cycle]⟩
  | k + 1, [], it, hl => by
    have : it = none := hl.seg
    subst this
    cases all with
    | nil => exact absurd rfl hne
    | cons e es =>
      obtain ⟨a, x⟩ := e
      obtain ⟨rfl, n, hc, h3, -⟩ := hf.cons_inv
      obtain ⟨it', e⟩ := cycle_ok hf hne k es n h3
      exact ⟨it', by simp only [cycle, deref_ok hc, bind, Except.bind]; exact e⟩
  | k + 1, (a, x) :: as, it, hl => by
    obtain ⟨rfl, n, hc, h3, -⟩ := hl.cons_inv
    obtain ⟨it', e⟩ := cycle_ok hf hne k as n h3
    exact ⟨it', by simp only [cycle, deref_ok hc, bind, Except.bind]; exact e⟩

theorem everyNth_map {β : Type} (f : α → β) (c : Nat) : ∀ (xs : List α),
    Spec.Py.everyNth c (xs.map f) = (Spec.Py.everyNth c xs).map f
  | [] => by simp [Spec.Py.everyNth]
  | x :: xs => by
    rw [List.map_cons, Spec.Py.everyNth, Spec.Py.everyNth, List.map_cons, ← List.map_drop,
      everyNth_map f c (xs.drop (c - 1))]
  termination_by xs => xs.length
  decreasing_by simp only [List.length_drop, List.length_cons]; omega

/-- Number of elements taken of `m` when every `c`-th is taken. -/
def cnt (c m : Nat) : Nat := if m = 0 then 0 else (m - 1) / c + 1

theorem cnt_step {c m : Nat} (hc : 0 < c) (hm : c < m) : cnt c m = cnt c (m - c) + 1 := by
  unfold cnt
  rw [if_neg (by omega), if_neg (by omega)]
  have : (m - 1) / c = (m - c - 1) / c + 1 := by
    rw [show m - 1 = (m - c - 1) + c by omega, Nat.add_div_right _ hc]
  omega

theorem cnt_last {c m : Nat} (hm : 0 < m) (h : m ≤ c) : cnt c m = 1 := by
  unfold cnt
  rw [if_neg (by omega), Nat.div_eq_of_lt (by omega)]

theorem getSliceLoop_spec {first : Option Nat} {istep : Int} (hc : 0 < istep)
    (hs : istep < 2147483648) : ∀ (k : Nat) (m : Nat) (all as : List (Nat × Option α))
    (h : Heap (Option α)) (it : Option Nat) (ret : OL) (bs : List (Nat × Option α)),
    k = cnt istep.toNat m → m ≤ as.length → IsList h first all → all ≠ [] → IsList h it as →
    (∀ b ∈ addrs as, b ∈ addrs all) → Rep h ret bs →
    (∀ b ∈ addrs all, b ∉ addrs bs) →
    ∃ h' ret' cs, getSliceLoop first istep k h it ret = .ok (h', ret') ∧ Rep h' ret' (bs ++ cs) ∧
      cs.map Prod.snd = Spec.Py.everyNth istep.toNat ((as.take m).map Prod.snd) ∧ Frame h h' bs ∧
      ∀ b ∈ addrs cs, h.fresh ≤ b := by
  intro k
  induction k with
  | zero =>
    intro m all as h it ret bs hk hm hf hne hl hsub hr hd
    have : m = 0 := by
      unfold cnt at hk
      split at hk
      · assumption
      · exact absurd hk.symm (Nat.succ_ne_zero _)
    subst this
    exact ⟨h, ret, [], rfl, by simpa using hr, by simp [Spec.Py.everyNth], Frame.refl _ _, by simp⟩
  | succ k ih =>
    intro m all as h it ret bs hk hm hf hne hl hsub hr hd
    have hm0 : m ≠ 0 := by
      rintro rfl
      simp [cnt] at hk
    obtain ⟨m, rfl⟩ : ∃ m', m = m' + 1 := ⟨m - 1, by omega⟩
    cases as with
    | nil => simp at hm
    | cons e as =>
      obtain ⟨a, x⟩ := e
      have hdas : ∀ b ∈ addrs ((a, x) :: as), b ∉ addrs bs := fun b hb => hd b (hsub b hb)
      obtain ⟨rfl, n, hca, h3, -⟩ := hl.cons_inv
      obtain ⟨h1, ret1, e1, r1, fr1, hlt⟩ := append_rep hr x
      have hl1 : IsList h1 (some a) ((a, x) :: as) := fr1.isList hl hdas
      have hf1 : IsList h1 first all := fr1.isList hf hd
      have hd1 : ∀ b ∈ addrs all, b ∉ addrs (bs ++ [(h.fresh, x)]) := by
        intro b hb
        simp only [addrs, List.map_append, List.map_cons, List.map_nil, List.mem_append,
          List.mem_singleton]
        rintro (hm' | rfl)
        · exact hd b hb hm'
        · exact absurd (hf.bnd _ hb) (by omega)
      simp only [getSliceLoop, deref_ok hca, e1, bind, Except.bind]
      rw [if_neg (by omega)]
      by_cases hlast : istep.toNat < m + 1
      · obtain ⟨it', e2, hl2⟩ := cycle_in (h := h1) first istep.toNat _ _ hl1 (by simp at hm ⊢; omega)
        have hk' : k = cnt istep.toNat (m + 1 - istep.toNat) := by
          have := cnt_step (c := istep.toNat) (by omega) hlast
          omega
        obtain ⟨h', ret', cs, e3, r3, hcs, fr3, hge⟩ := ih (m + 1 - istep.toNat) all
          (((a, x) :: as).drop istep.toNat) h1 it' ret1 (bs ++ [(h.fresh, x)]) hk'
          (by simp at hm ⊢; omega) hf1 hne hl2
          (fun b hb => hsub b (by
            simp only [addrs, List.map_drop] at hb
            exact List.mem_of_mem_drop hb)) r1 hd1
        refine ⟨h', ret', (h.fresh, x) :: cs, ?_, by simpa using r3, ?_, ?_, ?_⟩
        · rw [e2]; exact e3
        · obtain ⟨c, hcc⟩ : ∃ c, istep.toNat = c + 1 := ⟨istep.toNat - 1, by omega⟩
          simp only [List.map_cons, List.take_succ_cons, Spec.Py.everyNth, hcs, hcc,
            List.drop_succ_cons]
          rw [← List.map_drop, List.drop_take]
          congr 4
          omega
        · refine ⟨Nat.le_trans fr1.fresh fr3.fresh, fun b hb hn => ?_⟩
          rw [fr3.same b (by omega), fr1.same b hb hn]
          simp only [addrs, List.map_append, List.map_cons, List.map_nil, List.mem_append,
              List.mem_singleton]
          rintro (hm' | rfl)
          · exact hn hm'
          · omega
        · intro b hb
          simp only [addrs, List.map_cons, List.mem_cons] at hb
          rcases hb with rfl | hb
          · exact Nat.le_refl _
          · have := hge b hb; omega
      · obtain ⟨it', e2⟩ := cycle_ok hf1 hne istep.toNat _ _ hl1
        have hk0 : k = 0 := by
          have := cnt_last (c := istep.toNat) (m := m + 1) (by omega) (by omega)
          omega
        subst hk0
        refine ⟨h1, ret1, [(h.fresh, x)], by rw [e2]; rfl, r1, ?_, fr1, by simp⟩
        simp only [List.take_succ_cons, List.map_cons, Spec.Py.everyNth, List.map_nil]
        rw [List.drop_eq_nil_of_le (by simp; omega)]
        simp [Spec.Py.everyNth]

/-- The bounds of a slice with a positive step are those of the specification. -/
theorem indices_pos {s : Slice} {n : Nat} (hc : 0 < s.step.getD 1) :
    indices s n = .ok ((Spec.Py.bound n 0 s.start : Nat), (Spec.Py.bound n n s.stop : Nat),
      s.step.getD 1,
      (cnt (s.step.getD 1).toNat (Spec.Py.bound n n s.stop - Spec.Py.bound n 0 s.start) : Nat)) := by
  have hb : ∀ (v : Int) (d : Nat), adjust n (s.step.getD 1) v = (Spec.Py.bound n d (some v) : Nat) := by
    intro v d
    simp only [adjust, Spec.Py.bound]
    split
    · split
      · rw [if_neg (by omega)]; omega
      · omega
    · split
      · rw [if_neg (by omega)]; omega
      · omega
  have h1 : startOf n (s.step.getD 1) s.start = ((Spec.Py.bound n 0 s.start : Nat) : Int) := by
    cases s.start with
    | none => simp only [startOf]; rw [if_neg (by omega)]; rfl
    | some v => exact hb v 0
  have h2 : stopOf n (s.step.getD 1) s.stop = ((Spec.Py.bound n n s.stop : Nat) : Int) := by
    cases s.stop with
    | none => simp only [stopOf]; rw [if_neg (by omega)]; rfl
    | some v => exact hb v n
  unfold indices
  simp only
  rw [if_neg (by omega), h1, h2, if_neg (by omega)]
  congr 4
  generalize Spec.Py.bound n 0 s.start = a
  generalize Spec.Py.bound n n s.stop = b
  unfold cnt
  split
  · rw [if_neg (by omega)]
    obtain ⟨c, hcc⟩ := Int.eq_ofNat_of_zero_le (Int.le_of_lt hc)
    rw [hcc, Int.toNat_natCast, show ((b : Int) - a - 1) = ((b - a - 1 : Nat) : Int) by omega]
    simp
  · rw [if_pos (by omega)]; rfl

theorem bound_le (n d : Nat) (hd : d ≤ n) (v : Option Int) : Spec.Py.bound n d v ≤ n := by
  cases v with
  | none => exact hd
  | some v =>
    simp only [Spec.Py.bound]
    split <;> omega

theorem getSlice_holds {h : Heap (Option α)} {l : OL} {xs : List α} (H : Holds h l xs) (s : Slice)
    (hc : 0 < s.step.getD 1) (hs : s.step.getD 1 < 2147483648) :
    ∃ h' l' ys, getSlice h l s = .ok (h', .ok l') ∧ Spec.Py.slice xs s = .ok ys ∧ Holds h' l' ys ∧
      Holds h' l xs ∧ Frame h h' [] := by
  have hlen := H.len
  obtain ⟨as, r, e⟩ := H
  have hla : as.length = xs.length := by simpa using congrArg List.length e
  simp only [getSlice, hlen, indices_pos hc, Spec.Py.slice]
  rw [if_neg (by omega), if_pos hc]
  have ha := bound_le xs.length 0 (by omega) s.start
  have hb := bound_le xs.length xs.length (by omega) s.stop
  generalize Spec.Py.bound xs.length 0 s.start = a at *
  generalize Spec.Py.bound xs.length xs.length s.stop = b at *
  cases as with
  | nil =>
    have hf : l.first = none := r.list.seg
    have hx : xs = [] := by simpa using e.symm
    subst hx
    rw [hf]
    exact ⟨h, create, [], rfl, by simp [Spec.Py.everyNth], holds_create h, ⟨[], r, rfl⟩, Frame.refl _ _⟩
  | cons e0 es =>
    have hf : ∃ a0, l.first = some a0 := by
      rw [r.list.head]; exact ⟨_, rfl⟩
    obtain ⟨a0, hf⟩ := hf
    simp only [hf, bind, Except.bind, Int.toNat_natCast]
    obtain ⟨it, e1, hl1⟩ := walk_spec a _ _ r.list (by omega)
    rw [hf] at e1
    have hrl := r.list
    rw [hf] at hrl
    obtain ⟨h', ret, cs, e2, r2, hcs, fr, hge⟩ := getSliceLoop_spec hc hs _ (b - a) (e0 :: es)
      ((e0 :: es).drop a) h it create [] rfl (by simp at hla ⊢; omega) hrl (by simp) hl1
      (fun b hb => by
        simp only [addrs, List.map_drop] at hb
        exact List.mem_of_mem_drop hb) (rep_create h) (by simp)
    simp only [e1, e2]
    refine ⟨h', ret, _, rfl, rfl, ⟨[] ++ cs, r2, ?_⟩, ⟨e0 :: es, ⟨fr.isList r.list (by simp), r.last, r.len⟩, e⟩, fr⟩
    rw [List.nil_append, hcs, ← everyNth_map]
    congr 1
    rw [List.map_take, List.map_drop, e, List.map_drop, List.map_take, List.drop_take]

end Comps.PySeq

namespace Comps.PySeq
open Comps Comps.Obj Heap ObjHeap
variable {α : Type}

/-- Removing a cell frees it. -/
theorem removeAt_free {h : Heap (Option α)} {l : OL} {pre post : List (Nat × Option α)} {a : Nat}
    {y : Option α} (r : Rep h l (pre ++ (a, y) :: post)) :
    ∃ h' l', ObjHeap.removeAt h l pre.length = .ok (h', l', 1) ∧ Rep h' l' (pre ++ post) ∧
      Frame h h' (pre ++ (a, y) :: post) ∧ h'.cells a = none := by
  have h1 := removeAtLoop_spec (h := h) (h.fresh + 1) (pre ++ (a, y) :: post) pre.length 0 l.first
    none r.list (by have := r.list.length_le; omega)
  obtain ⟨h', l', e, r', f, hfree⟩ := unlink_rep r
  refine ⟨h', l', ?_, r', f, hfree⟩
  rw [Nat.zero_add] at h1
  simp only [ObjHeap.removeAt, h1, bind, Except.bind]
  rw [← e]
  congr 1
  · simp
  · cases pre with
    | nil => simp
    | cons e es => rw [if_neg (by simp)]; simp

theorem walkMax_spec {h : Heap (Option α)} : ∀ (k : Nat) (as : List (Nat × Option α))
    (it : Option Nat), IsList h it as → ∃ it', walkMax h k it = .ok (it', k - as.length) ∧
      IsList h it' (as.drop k)
  | 0, as, it, hl => ⟨it, by simp [walkMax], hl⟩
  | k + 1, [], it, hl => by
    have : it = none := hl.seg
    subst this
    exact ⟨none, by simp [walkMax], by simpa using hl⟩
  | k + 1, (a, x) :: as, it, hl => by
    obtain ⟨rfl, n, hc, h3, -⟩ := hl.cons_inv
    obtain ⟨it', e, h4⟩ := walkMax_spec k as n h3
    exact ⟨it', by simp only [walkMax, deref_ok hc, bind, Except.bind]; simpa using e, by simpa using h4⟩

/-- A walk that ends without a fault ends in the list. -/
theorem walk_any {h : Heap (Option α)} : ∀ (k : Nat) (as : List (Nat × Option α))
    (it it' : Option Nat), IsList h it as → walk h k it = .ok it' → IsList h it' (as.drop k)
  | 0, as, it, it', hl, e => by
    cases e
    exact hl
  | k + 1, [], it, it', hl, e => by
    have : it = none := hl.seg
    subst this
    cases e
  | k + 1, (a, x) :: as, it, it', hl, e => by
    obtain ⟨rfl, n, hc, h3, -⟩ := hl.cons_inv
    simp only [walk, deref_ok hc, bind, Except.bind] at e
    simpa using walk_any k as n it' h3 e

/-- The pointer is at some place of the list. -/
def At (h : Heap (Option α)) (all : List (Nat × Option α)) (it : Option Nat) : Prop :=
  ∃ pre suf, all = pre ++ suf ∧ IsList h it suf

theorem at_drop {h : Heap (Option α)} {all suf : List (Nat × Option α)} {pre : List (Nat × Option α)}
    {it : Option Nat} (e : all = pre ++ suf) {k : Nat} (hl : IsList h it (suf.drop k)) :
    At h all it :=
  ⟨pre ++ suf.take k, suf.drop k, by rw [List.append_assoc, List.take_append_drop, e], hl⟩

theorem wrapOnce_at {h : Heap (Option α)} {first : Option Nat} {all : List (Nat × Option α)}
    (hf : IsList h first all) {istep : Int} {it it' : Option Nat} (ha : At h all it)
    (e : wrapOnce h first istep it = .ok it') : At h all it' := by
  obtain ⟨pre, suf, rfl, hl⟩ := ha
  obtain ⟨it1, e1, hl1⟩ := walkMax_spec istep.toNat suf it hl
  simp only [wrapOnce, e1, bind, Except.bind] at e
  split at e
  · exact at_drop (pre := []) rfl (walk_any _ _ _ _ hf e)
  · have := walk_any _ _ _ _ hl1 e
    rw [List.drop_drop] at this
    exact at_drop rfl this

/-- Emptying the objects of cells leaves the cells. -/
theorem delMark_spec {first : Option Nat} {istep : Int} : ∀ (k : Nat) (h h' : Heap (Option α))
    (it : Option Nat) (all : List (Nat × Option α)), IsList h first all → At h all it →
    delMark first istep k h it = .ok (h', .ok ()) →
    ∃ all', IsList h' first all' ∧ addrs all' = addrs all ∧ h'.fresh = h.fresh ∧
      (∀ a, (a, none) ∈ all → (a, none) ∈ all') ∧
      (0 < k → ∃ a, it = some a ∧ (a, none) ∈ all')
  | 0, h, h', it, all, hf, ha, e => by
    cases e
    exact ⟨all, hf, rfl, rfl, fun a h => h, fun h => absurd h (by omega)⟩
  | k + 1, h, h', it, all, hf, ha, e => by
    cases it with
    | none => cases e
    | some i =>
      obtain ⟨pre, suf, rfl, hl⟩ := ha
      cases suf with
      | nil =>
        have := hl.seg
        cases this
      | cons c suf =>
        obtain ⟨i', x⟩ := c
        obtain ⟨hi, n, hc, h3, hna⟩ := hl.cons_inv
        cases hi
        obtain ⟨i1, -⟩ := isList_setData (x := none) (h2 := h.write i ⟨n, none⟩) hf hc (by simp)
          (by simp) (by intro c hne; simp only [write_cells]; rw [if_neg hne])
        simp only [delMark, deref_ok hc, bind, Except.bind] at e
        cases hw : wrapOnce (h.write i ⟨n, none⟩) first istep (some i) with
        | error f => rw [hw] at e; cases e
        | ok it' =>
          rw [hw] at e
          simp only at e
          have ha' : At (h.write i ⟨n, none⟩) (pre ++ (i, none) :: suf) (some i) := by
            obtain ⟨m, h1, h2⟩ := i1.suffix
            have := h2.cons_inv.1
            subst this
            exact ⟨pre, _, rfl, h2⟩
          obtain ⟨all', h4, h5, h6, h7, h8⟩ := delMark_spec k _ h' it' _ i1 (wrapOnce_at i1 ha' hw) e
          refine ⟨all', h4, by rw [h5]; simp [addrs], by rw [h6]; simp, ?_, ?_⟩
          · intro a hm
            apply h7
            simp only [List.mem_append, List.mem_cons, Prod.mk.injEq] at hm ⊢
            rcases hm with hm | ⟨rfl, rfl⟩ | hm
            · exact .inl hm
            · exact .inr (.inl (by simp))
            · exact .inr (.inr hm)
          · intro _
            exact ⟨i, rfl, h7 i (by simp)⟩

/-- With the positions of a slice with a positive step the first loop does not run off the list. -/
theorem delMark_no_exc {first : Option Nat} {istep : Int} (hs : 0 < istep) : ∀ (k m : Nat)
    (h h' : Heap (Option α)) (it : Option Nat) (pre suf : List (Nat × Option α)) (x : Exc),
    k = cnt istep.toNat m → m ≤ suf.length → IsList h first (pre ++ suf) → IsList h it suf →
    delMark first istep k h it ≠ .ok (h', .error x)
  | 0, m, h, h', it, pre, suf, x, hk, hm, hf, hl, e => by cases e
  | k + 1, m, h, h', it, pre, suf, x, hk, hm, hf, hl, e => by
    cases suf with
    | nil =>
      have : m = 0 := by simpa using hm
      subst this
      simp [cnt] at hk
    | cons c suf =>
      obtain ⟨i, y⟩ := c
      obtain ⟨rfl, n, hc, h3, hna⟩ := hl.cons_inv
      obtain ⟨i1, -⟩ := isList_setData (x := none) (h2 := h.write i ⟨n, none⟩) hf hc (by simp)
        (by simp) (by intro c hne; simp only [write_cells]; rw [if_neg hne])
      simp only [delMark, deref_ok hc, bind, Except.bind] at e
      cases hw : wrapOnce (h.write i ⟨n, none⟩) first istep (some i) with
      | error f => rw [hw] at e; cases e
      | ok it' =>
        rw [hw] at e
        simp only at e
        have hl' : IsList (h.write i ⟨n, none⟩) (some i) ((i, none) :: suf) := by
          obtain ⟨q, h1, h2⟩ := i1.suffix
          have := h2.cons_inv.1
          subst this
          exact h2
        by_cases hlast : istep.toNat < m
        · obtain ⟨it1, e1, hl1⟩ := walkMax_spec istep.toNat _ _ hl'
          have h0 : istep.toNat - ((i, none) :: suf).length = 0 := by simp at hm ⊢; omega
          rw [h0] at e1
          simp only [wrapOnce, e1, bind, Except.bind, walk] at hw
          have hne : ¬ it1 = none := by
            intro hno
            subst hno
            have h1 := congrArg List.length hl1.nil_iff
            simp at h1 hm
            omega
          rw [if_neg hne] at hw
          cases hw
          have hk' : k = cnt istep.toNat (m - istep.toNat) := by
            have := cnt_step (c := istep.toNat) (by omega) hlast
            omega
          refine delMark_no_exc hs k (m - istep.toNat) _ h' it'
            (pre ++ ((i, none) :: suf).take istep.toNat) (((i, none) :: suf).drop istep.toNat) x hk'
            (by simp at hm ⊢; omega) ?_ hl1 e
          rw [List.append_assoc, List.take_append_drop]
          exact i1
        · have hk0 : k = 0 := by
            have hm0 : m ≠ 0 := by rintro rfl; simp [cnt] at hk
            have := cnt_last (c := istep.toNat) (m := m) (by omega) (by omega)
            omega
          subst hk0
          cases e

/-- The sweep: it takes the cell after an emptied one and then reads it. -/
theorem delSweep_spec {l : OL} : ∀ (fuel : Nat) (h : Heap (Option α)) (pre suf : List (Nat × Option α))
    (it : Option Nat), Rep h l (pre ++ suf) → IsList h it suf → suf.length < fuel →
    (∀ e ∈ pre.dropLast, e.2 ≠ none) →
    delSweep fuel h l pre.length it (pre.getLast?.map Prod.fst) =
      if ∃ e ∈ (pre ++ suf).dropLast, e.2 = none then .error .useAfterFree
      else .ok (h, l, (pre ++ suf).length, (pre ++ suf).getLast?.map Prod.fst)
  | 0, _, _, _, _, _, _, hf, _ => by omega
  | fuel + 1, h, pre, [], it, r, hl, hf, hp => by
    have : it = none := hl.seg
    subst this
    rw [if_neg]
    · simp [delSweep]
    · rintro ⟨e, he, hn⟩
      rw [List.append_nil] at he
      exact hp e he hn
  | fuel + 1, h, pre, (a, x) :: suf, it, r, hl, hf, hp => by
    obtain ⟨rfl, n, hc, h3, hna⟩ := hl.cons_inv
    rcases List.eq_nil_or_concat pre with rfl | ⟨p, ⟨t, y⟩, rfl⟩
    · have hem : isEmptied h (([] : List (Nat × Option α)).getLast?.map Prod.fst) = .ok false := rfl
      simp only [delSweep, hem, bind, Except.bind, Bool.false_eq_true, if_false,
        deref_ok hc, List.length_nil, Nat.zero_add, List.nil_append]
      have := delSweep_spec fuel h [(a, x)] suf n (by simpa using r) h3 (by simp at hf; omega)
        (by simp)
      simpa using this
    · simp only [List.concat_eq_append] at *
      have hem : isEmptied h ((p ++ [(t, y)]).getLast?.map Prod.fst) = .ok y.isNone := by
        have h5 := r.list
        rw [List.append_assoc, List.singleton_append] at h5
        obtain ⟨q, hq, -⟩ := h5.mid_cell
        simp [isEmptied, deref_ok hq, bind, Except.bind]
      simp only [delSweep, hem, bind, Except.bind]
      cases hy : y.isNone
      · simp only [Bool.false_eq_true, if_false, deref_ok hc]
        have := delSweep_spec fuel h (p ++ [(t, y)] ++ [(a, x)]) suf n (by simpa using r) h3
          (by simp at hf; omega) (by
            intro e he
            rw [List.dropLast_concat] at he
            rcases List.mem_append.1 he with he | he
            · exact hp e (by rw [List.dropLast_concat]; exact he)
            · simp only [List.mem_singleton] at he
              subst he
              rintro rfl
              simp at hy)
        rw [List.append_assoc (p ++ [(t, y)]), List.singleton_append] at this
        rw [← this]
        simp
      · simp only [if_true]
        obtain ⟨h', l', e', -, -, hfree⟩ := removeAt_free r
        rw [e']
        simp only
        rw [show h'.deref (some a) = .error .useAfterFree by simp [deref, hfree]]
        rw [if_pos]
        refine ⟨(t, y), ?_, by simpa using hy⟩
        rw [List.dropLast_append_of_ne_nil (by simp)]
        simp

end Comps.PySeq

namespace Comps.PySeq
open Comps Comps.Obj Heap ObjHeap
variable {α : Type}

theorem addrs_length {as bs : List (Nat × Option α)} (e : addrs as = addrs bs) :
    as.length = bs.length := by
  have := congrArg List.length e
  simpa [addrs] using this

/-- A slice deletion never makes the list shorter. -/
theorem delSlice_len {h : Heap (Option α)} {l : OL} {as : List (Nat × Option α)} (r : Rep h l as)
    (s : Slice) {h' : Heap (Option α)} {l' : OL} (e : delSlice h l s = .ok (h', l', .ok ())) :
    l' = l ∧ ∃ as', Rep h' l as' ∧ as'.length = as.length := by
  unfold delSlice at e
  cases hi : setIndices s l.len with
  | error x => rw [hi] at e; cases e
  | ok q =>
    obtain ⟨istart, istop, istep, ilen⟩ := q
    rw [hi] at e
    obtain ⟨it, ew, hl⟩ := walkMax_spec istart.toNat as l.first r.list
    simp only [ew, bind, Except.bind] at e
    cases hm : delMark l.first istep ilen.toNat h it with
    | error f => rw [hm] at e; cases e
    | ok q =>
      obtain ⟨h1, a⟩ := q
      rw [hm] at e
      cases a with
      | error x => cases e
      | ok u =>
        obtain ⟨all', i1, i2, i3, i4, i5⟩ := delMark_spec _ h h1 it as r.list
          ⟨as.take istart.toNat, _, (List.take_append_drop _ _).symm, hl⟩ hm
        have r1 : Rep h1 l all' := by
          refine ⟨i1, ?_, ?_⟩
          · rw [r.last, ← List.getLast?_map, ← List.getLast?_map]
            exact congrArg _ i2.symm
          · rw [r.len, addrs_length i2]
        have hs := delSweep_spec (h1.fresh + 1) h1 [] all' l.first (by simpa using r1) i1
          (by have := i1.length_le; omega) (by simp)
        simp only [List.length_nil, List.getLast?_nil, Option.map_none, List.nil_append] at hs
        simp only at e
        rw [hs] at e
        by_cases hc : ∃ e ∈ all'.dropLast, e.2 = none
        · rw [if_pos hc] at e
          cases e
        · rw [if_neg hc] at e
          simp only at e
          cases hem : isEmptied h1 (all'.getLast?.map Prod.fst) with
          | error f => rw [hem] at e; cases e
          | ok b =>
            rw [hem] at e
            cases b with
            | false => cases e; exact ⟨rfl, all', r1, addrs_length i2⟩
            | true =>
              simp only [if_true] at e
              rw [removeAt_out r1 _ (Nat.le_refl _)] at e
              cases e
              exact ⟨rfl, all', r1, addrs_length i2⟩

/-- A slice deletion whose first position is not the last of the list is undefined behaviour. -/
theorem delSlice_crash {h : Heap (Option α)} {l : OL} {as : List (Nat × Option α)} (r : Rep h l as)
    (s : Slice) (hs : 0 < s.step.getD 1)
    (hlt : Spec.Py.bound as.length 0 s.start < Spec.Py.bound as.length as.length s.stop)
    (hl1 : Spec.Py.bound as.length 0 s.start + 1 < as.length) :
    ∃ f, delSlice h l s = .error f := by
  have hb := bound_le as.length as.length (Nat.le_refl _) s.stop
  generalize ha : Spec.Py.bound as.length 0 s.start = a at *
  generalize hbb : Spec.Py.bound as.length as.length s.stop = b at *
  generalize hst : s.step.getD 1 = c at *
  have hk : 0 < cnt c.toNat (b - a) := by
    unfold cnt
    rw [if_neg (by omega)]
    exact Nat.succ_pos _
  have hi : setIndices s l.len = .ok ((a : Nat), (b : Nat), c, (cnt c.toNat (b - a) : Nat)) := by
    have h1 := indices_pos (s := s) (n := as.length) (by rw [hst]; exact hs)
    rw [ha, hbb, hst] at h1
    simp only [setIndices, r.len, h1, bind, Except.bind]
    rw [if_neg (by omega)]
  obtain ⟨it, ew, hl⟩ := walkMax_spec a as l.first r.list
  rw [show a - as.length = 0 by omega] at ew
  unfold delSlice
  simp only [hi, Int.toNat_natCast, ew, bind, Except.bind]
  cases hm : delMark l.first c (cnt c.toNat (b - a)) h it with
  | error f => exact ⟨f, rfl⟩
  | ok q =>
    obtain ⟨h1, x⟩ := q
    cases x with
    | error x =>
      exact absurd hm (delMark_no_exc hs _ (b - a) h h1 it (as.take a) (as.drop a) x rfl
        (by simp; omega) (by rw [List.take_append_drop]; exact r.list) hl)
    | ok u =>
      obtain ⟨all', i1, i2, i3, i4, i5⟩ := delMark_spec _ h h1 it as r.list
        ⟨as.take a, _, (List.take_append_drop _ _).symm, hl⟩ hm
      obtain ⟨t, rfl, hmem⟩ := i5 hk
      have r1 : Rep h1 l all' := by
        refine ⟨i1, ?_, ?_⟩
        · rw [r.last, ← List.getLast?_map, ← List.getLast?_map]
          exact congrArg _ i2.symm
        · rw [r.len, addrs_length i2]
      have hsw := delSweep_spec (h1.fresh + 1) h1 [] all' l.first (by simpa using r1) i1
        (by have := i1.length_le; omega) (by simp)
      simp only [List.length_nil, List.getLast?_nil, Option.map_none, List.nil_append] at hsw
      simp only [hsw]
      rw [if_pos]
      · exact ⟨_, rfl⟩
      · refine ⟨(t, none), ?_, rfl⟩
        have hn := addrs_length i2
        have hp : (addrs as)[a]? = some t := by
          have hd : as.drop a = as[a] :: as.drop (a + 1) := List.drop_eq_getElem_cons (by omega)
          rw [hd] at hl
          have h5 := hl.cons_inv.1
          cases h5
          rw [addrs, List.getElem?_map, List.getElem?_eq_getElem (by omega)]
          rfl
        obtain ⟨j, hj, hjt⟩ := List.getElem_of_mem hmem
        have hj2 : (addrs all')[j]? = some t := by
          simp [addrs, hj, hjt]
        rw [i2] at hj2
        have hnd := r.list.nodup
        have hja : j = a := by
          have hla : a < (addrs as).length := by simp [addrs]; omega
          have hlj : j < (addrs as).length := by simp [addrs]; omega
          rw [List.getElem?_eq_getElem hla] at hp
          rw [List.getElem?_eq_getElem hlj] at hj2
          have hpw := List.pairwise_iff_getElem.1 hnd
          rcases Nat.lt_trichotomy j a with hlt | heq | hlt
          · exact absurd (by simp_all) (hpw j a hlj hla hlt)
          · exact heq
          · exact absurd (by simp_all) (hpw a j hla hlj hlt)
        subst hja
        rw [← hjt]
        have : all'.dropLast[j]'(by simp; omega) = all'[j] := by simp
        rw [← this]
        exact List.getElem_mem _

end Comps.PySeq
