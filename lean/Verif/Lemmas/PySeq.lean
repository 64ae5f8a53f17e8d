import Verif.Spec.PySeq
import Verif.Lemmas.ObjHeap

/-! # Python sequences: single calls -/

namespace Comps.PySeq
open Comps Comps.Obj Heap ObjHeap
variable {α : Type}

/-- The list holds the objects `xs` (no cell is emptied). -/
def Holds (h : Heap (Option α)) (l : OL) (xs : List α) : Prop :=
  ∃ as, Rep h l as ∧ as.map Prod.snd = xs.map some

theorem holds_create (h : Heap (Option α)) : Holds h create [] := ⟨[], rep_create h, rfl⟩

theorem Holds.len {h : Heap (Option α)} {l : OL} {xs : List α} (H : Holds h l xs) :
    l.len = xs.length := by
  obtain ⟨as, r, e⟩ := H
  rw [r.len]
  simpa using congrArg List.length e

theorem toInt_id {i : Int} (h1 : -2147483648 ≤ i) (h2 : i < 2147483648) : toInt i = i := by
  unfold toInt; omega

theorem toUnsigned_nonneg {i : Int} (h1 : 0 ≤ i) (h2 : i < 2147483648) : toUnsigned i = i.toNat := by
  unfold toUnsigned; omega

theorem toUnsigned_neg {i : Int} (h1 : i < 0) (h2 : -2147483648 ≤ i) :
    2147483648 ≤ toUnsigned i := by
  unfold toUnsigned; omega

theorem Holds.get {h : Heap (Option α)} {l : OL} {xs : List α} (H : Holds h l xs) (k : Nat) :
    ObjHeap.get h l k = .ok (xs[k]?.map some) := by
  obtain ⟨as, r, e⟩ := H
  rw [get_rep r]
  have := congrArg (·[k]?) e
  simp only [List.getElem?_map] at this
  rw [this]

theorem getItem_holds {h : Heap (Option α)} {l : OL} {xs : List α} (H : Holds h l xs)
    (hn : xs.length < 2147483648) {i : Int} (h1 : -2147483648 ≤ i) (h2 : i < 2147483648) :
    getItem h l i = .ok (Spec.Py.getItem xs i) := by
  have hl := H.len
  simp only [getItem, Spec.Py.getItem, Spec.Py.place]
  by_cases hi : i < 0
  · rw [if_pos hi, toInt_id (by omega) (by omega)]
    by_cases hj : 0 ≤ (l.len : Int) + i
    · rw [toUnsigned_nonneg hj (by omega), H.get]
      rw [if_neg (by omega), if_pos ⟨by omega, hi⟩]
      have : ((l.len : Int) + i).toNat < xs.length := by omega
      simp only [bind, Except.bind, hl] at *
      simp [this]
    · rw [H.get]
      have := toUnsigned_neg (i := (l.len : Int) + i) (by omega) (by omega)
      rw [List.getElem?_eq_none (by omega), if_neg (by omega), if_neg (by omega)]
      rfl
  · rw [if_neg hi, toInt_id (by omega) h2, toUnsigned_nonneg (by omega) h2, H.get]
    by_cases hj : i < xs.length
    · rw [if_pos ⟨by omega, hj⟩]
      have : i.toNat < xs.length := by omega
      simp [this, bind, Except.bind]
    · rw [List.getElem?_eq_none (by omega), if_neg (by omega), if_neg (by omega)]
      rfl

theorem map_set_some {as : List (Nat × Option α)} {xs : List α}
    (e : as.map Prod.snd = xs.map some) {k : Nat} (x : α) (hk : k < as.length) :
    (as.set k (as[k].1, some x)).map Prod.snd = (xs.set k x).map some := by
  rw [List.map_set, List.map_set, e]

theorem map_erase_some {as : List (Nat × Option α)} {xs : List α}
    (e : as.map Prod.snd = xs.map some) (k : Nat) :
    (as.eraseIdx k).map Prod.snd = (xs.eraseIdx k).map some := by
  have hm : ∀ {β γ : Type} (f : β → γ) (l : List β) (k : Nat),
      (l.eraseIdx k).map f = (l.map f).eraseIdx k := by
    intro β γ f l
    induction l with
    | nil => intro k; rfl
    | cons a t ih => intro k; cases k <;> simp [ih]
  rw [hm, hm, e]

theorem Holds.set {h : Heap (Option α)} {l : OL} {xs : List α} (H : Holds h l xs) (k : Nat) (x : α)
    (hk : k < xs.length) : ∃ h', ObjHeap.set h l k (some x) = .ok (h', 0) ∧
      Holds h' l (xs.set k x) := by
  have hl := H.len
  obtain ⟨as, r, e⟩ := H
  have hk' : k < as.length := by rw [← r.len]; omega
  obtain ⟨h', e', r', -⟩ := set_rep r k (some x) hk'
  exact ⟨h', e', _, r', map_set_some e x hk'⟩

theorem Holds.set_out {h : Heap (Option α)} {l : OL} {xs : List α} (H : Holds h l xs) (k : Nat)
    (x : Option α) (hk : xs.length ≤ k) : ObjHeap.set h l k x = .ok (h, -1) := by
  have hl := H.len
  obtain ⟨as, r, e⟩ := H
  exact ObjHeap.set_out r k x (by rw [← r.len]; omega)

theorem Holds.removeAt {h : Heap (Option α)} {l : OL} {xs : List α} (H : Holds h l xs) (k : Nat)
    (hk : k < xs.length) : ∃ h' l', ObjHeap.removeAt h l k = .ok (h', l', 1) ∧
      Holds h' l' (xs.eraseIdx k) := by
  have hl := H.len
  obtain ⟨as, r, e⟩ := H
  obtain ⟨h', l', e', r', -⟩ := removeAt_rep r k (by rw [← r.len]; omega)
  exact ⟨h', l', e', _, r', map_erase_some e k⟩

theorem Holds.removeAt_out {h : Heap (Option α)} {l : OL} {xs : List α} (H : Holds h l xs) (k : Nat)
    (hk : xs.length ≤ k) : ObjHeap.removeAt h l k = .ok (h, l, 0) := by
  have hl := H.len
  obtain ⟨as, r, e⟩ := H
  exact ObjHeap.removeAt_out r k (by rw [← r.len]; omega)

theorem Holds.append {h : Heap (Option α)} {l : OL} {xs : List α} (H : Holds h l xs) (x : α) :
    ∃ h' l', ObjHeap.append h l (some x) = .ok (h', l') ∧ Holds h' l' (xs ++ [x]) := by
  obtain ⟨as, r, e⟩ := H
  obtain ⟨h', l', e', r', -⟩ := append_rep r (some x)
  exact ⟨h', l', e', _, r', by simp [e]⟩

theorem Holds.clear {h : Heap (Option α)} {l : OL} {xs : List α} (H : Holds h l xs) :
    ∃ h' l', ObjHeap.clear h l = .ok (h', l') ∧ Holds h' l' [] := by
  obtain ⟨as, r, e⟩ := H
  obtain ⟨h', l', e', r', -⟩ := clear_rep r
  exact ⟨h', l', e', [], r', rfl⟩

theorem Holds.insertAt {h : Heap (Option α)} {l : OL} {xs : List α} (H : Holds h l xs) (k : Nat)
    (x : α) (hk : k ≤ xs.length) : ∃ h' l' c, ObjHeap.insertAt h l k (some x) = .ok (h', l', c) ∧
      Holds h' l' (xs.take k ++ x :: xs.drop k) := by
  have hl := H.len
  obtain ⟨as, r, e⟩ := H
  obtain ⟨h', l', e', r', -⟩ := insertAt_rep r (some x) k (by rw [← r.len]; omega)
  exact ⟨h', l', _, e', _, r', by simp [e, List.map_take, List.map_drop]⟩

theorem cmp_eq (a b : Option CStr) : objCmp CStr.cmp a b = decide (a = b) := by
  cases a with
  | none => cases b <;> simp [objCmp]
  | some a =>
    cases b with
    | none => simp [objCmp]
    | some b =>
      obtain ⟨a⟩ := a
      obtain ⟨b⟩ := b
      cases a <;> cases b <;> simp [objCmp, CStr.cmp, Bool.beq_eq_decide_eq]

theorem uniqueLoop_spec (k : Kind α) {id : α → Option CStr} {h : Heap (Option α)}
    (x : Option CStr) : ∀ (fuel : Nat) (as : List (Nat × Option α)) (xs : List α)
      (it : Option Nat), (∀ a ∈ xs, k.ident a = .ok (id a)) → IsList h it as →
      as.map Prod.snd = xs.map some → as.length < fuel →
      uniqueLoop k h x fuel it = .ok (decide (x ∉ xs.map id))
  | 0, _, _, _, _, _, _, hf => by omega
  | fuel + 1, [], xs, it, hid, hl, e, hf => by
    have : it = none := hl.seg
    have : xs = [] := by simpa using e.symm
    simp [uniqueLoop, *]
  | fuel + 1, (a, d) :: as, xs, it, hid, hl, e, hf => by
    obtain ⟨rfl, n, hc, h3, -⟩ := hl.cons_inv
    cases xs with
    | nil => simp at e
    | cons y ys =>
      simp only [List.map_cons, List.cons.injEq] at e
      obtain ⟨rfl, e⟩ := e
      simp only [uniqueLoop, deref_ok hc, bind, Except.bind, identOf, hid y (by simp), cmp_eq]
      by_cases hx : x = id y
      · simp [hx]
      · rw [if_neg (by simpa using hx), uniqueLoop_spec k x fuel as ys n
          (fun a ha => hid a (by simp [ha])) h3 e (by simp at hf; omega)]
        simp [hx]

theorem uniqueCheck_holds (k : Kind α) {id : α → Option CStr} {h : Heap (Option α)} {l : OL}
    {xs : List α} (H : Holds h l xs) (hid : ∀ a ∈ xs, k.ident a = .ok (id a)) (x : α)
    (hx : k.ident x = .ok (id x)) :
    uniqueCheck k h l (some x) = .ok (decide (id x ∉ xs.map id)) := by
  obtain ⟨as, r, e⟩ := H
  simp only [uniqueCheck, identOf, hx, bind, Except.bind]
  exact uniqueLoop_spec k _ _ as xs _ hid r.list e (by have := r.list.length_le; omega)

/-- `append` on a list with unique ids. -/
theorem append_unique (k : Kind α) {id : α → Option CStr} {good : α → Bool}
    {h : Heap (Option α)} {l : OL} {xs : List α} (H : Holds h l xs) (hu : k.appendUnique = true)
    (hid : ∀ a ∈ xs, k.ident a = .ok (id a)) (x : α)
    (hx : k.ident x = .ok (id x)) (hg : k.passes x = .ok (good x)) :
    ∃ h' l', append k h l (.obj x) = .ok (h', l', (Spec.Py.append id good xs x).2) ∧
      Holds h' l' (Spec.Py.append id good xs x).1 := by
  simp only [append, convert, hu, if_true, uniqueCheck_holds k H hid x hx, bind, Except.bind,
    Spec.Py.append]
  by_cases hm : id x ∈ xs.map id
  · simp only [hm, not_true_eq_false, decide_false, Bool.false_eq_true, if_false, if_true]
    exact ⟨_, _, rfl, H⟩
  · simp only [hm, not_false_eq_true, decide_true, if_true, if_false, hg]
    cases hgx : good x
    · simp only [Bool.false_eq_true, if_false]
      exact ⟨_, _, rfl, H⟩
    · obtain ⟨h', l', e, H'⟩ := H.append x
      simp only [if_true, e]
      exact ⟨_, _, rfl, H'⟩

/-- `append` on another list. -/
theorem append_any (k : Kind α) {good : α → Bool}
    {h : Heap (Option α)} {l : OL} {xs : List α} (H : Holds h l xs) (hu : k.appendUnique = false)
    (x : α) (hg : k.passes x = .ok (good x)) :
    ∃ h' l', append k h l (.obj x) = .ok (h', l', (Spec.Py.appendAny good xs x).2) ∧
      Holds h' l' (Spec.Py.appendAny good xs x).1 := by
  simp only [append, convert, hu, if_true, bind, Except.bind, Spec.Py.appendAny, hg,
    Bool.false_eq_true, if_false]
  cases hgx : good x
  · simp only [Bool.false_eq_true, if_false]
    exact ⟨_, _, rfl, H⟩
  · obtain ⟨h', l', e, H'⟩ := H.append x
    simp only [if_true, e]
    exact ⟨_, _, rfl, H'⟩

theorem len_pred {l : OL} {xs : List α} (hl : l.len = xs.length) (hn : xs.length < 2147483648) :
    toInt ((l.len : Int) - 1) = (xs.length : Int) - 1 := by
  rw [hl, toInt_id (by omega) (by omega)]

/-- `del seq[i]`: with an index that is not negative as for a Python list, with a negative one
nothing. -/
theorem delItem_holds {h : Heap (Option α)} {l : OL} {xs : List α} (H : Holds h l xs)
    (hn : xs.length < 2147483648) {i : Int} (h1 : -2147483648 ≤ i) (h2 : i < 2147483648) :
    ∃ h' l', delItem h l i = .ok (h', l', if 0 ≤ i then (Spec.Py.delItem xs i).2 else .ok ()) ∧
      Holds h' l' (if 0 ≤ i then (Spec.Py.delItem xs i).1 else xs) := by
  simp only [delItem, toInt_id h1 h2, len_pred H.len hn, Spec.Py.delItem, Spec.Py.place]
  by_cases hi : 0 ≤ i
  · simp only [hi, if_true, true_and]
    by_cases hj : i < xs.length
    · rw [if_neg (by omega), if_pos hj, toUnsigned_nonneg hi h2]
      obtain ⟨h', l', e, H'⟩ := H.removeAt i.toNat (by omega)
      simp only [e, bind, Except.bind]
      exact ⟨_, _, rfl, H'⟩
    · rw [if_pos (by omega), if_neg hj, if_neg (by omega)]
      exact ⟨_, _, rfl, H⟩
  · rw [if_neg (by omega), if_neg hi, if_neg hi]
    have := toUnsigned_neg (i := i) (by omega) h1
    rw [H.removeAt_out _ (by omega)]
    exact ⟨_, _, rfl, H⟩

/-- `seq[i] = x` on a list with unique ids. -/
theorem setItem_unique (k : Kind α) {id : α → Option CStr} {h : Heap (Option α)} {l : OL}
    {xs : List α} (H : Holds h l xs) (hu : k.extra = true) (hn : xs.length < 2147483648)
    (hid : ∀ a ∈ xs, k.ident a = .ok (id a)) (x : α) (hx : k.ident x = .ok (id x))
    {i : Int} (h1 : -2147483648 ≤ i) (h2 : i < 2147483648) :
    ∃ h', setItem k h l i (.obj x) = .ok (h', l,
        if i ≥ xs.length then .error .indexError
        else if id x ∈ xs.map id then .error .keyError else .ok ()) ∧
      Holds h' l (if i ≥ xs.length ∨ id x ∈ xs.map id ∨ i < 0 then xs else xs.set i.toNat x) := by
  simp only [setItem, convert, toInt_id h1 h2, len_pred H.len hn]
  by_cases hj : i < xs.length
  · rw [if_neg (by omega), if_pos hu, if_neg (by omega), uniqueCheck_holds k H hid x hx]
    simp only [bind, Except.bind]
    by_cases hm : id x ∈ xs.map id
    · simp only [hm, not_true_eq_false, decide_false, Bool.false_eq_true, if_false, if_true,
        true_or, or_true]
      exact ⟨_, rfl, H⟩
    · simp only [hm, not_false_eq_true, decide_true, if_true, if_false, false_or]
      by_cases hi : 0 ≤ i
      · rw [toUnsigned_nonneg hi h2, if_neg (by omega)]
        obtain ⟨h', e, H'⟩ := H.set i.toNat x (by omega)
        simp only [e]
        exact ⟨_, rfl, H'⟩
      · have := toUnsigned_neg (i := i) (by omega) h1
        rw [H.set_out _ _ (by omega), if_pos (by omega)]
        exact ⟨_, rfl, H⟩
  · rw [if_pos (by omega), if_pos (by omega), if_pos (.inl (by omega))]
    exact ⟨_, rfl, H⟩

/-- `seq[i] = x` on another list. -/
theorem setItem_any (k : Kind α) {good : α → Bool} {h : Heap (Option α)} {l : OL}
    {xs : List α} (H : Holds h l xs) (hu : k.extra = false) (hn : xs.length < 2147483648)
    (x : α) (hx : k.passes x = .ok (good x))
    {i : Int} (h1 : -2147483648 ≤ i) (h2 : i < 2147483648) :
    ∃ h', setItem k h l i (.obj x) = .ok (h', l,
        if i ≥ xs.length then .error .indexError
        else if good x then .ok () else .error .valueError) ∧
      Holds h' l (if i ≥ xs.length ∨ good x = false ∨ i < 0 then xs else xs.set i.toNat x) := by
  simp only [setItem, convert, toInt_id h1 h2, len_pred H.len hn]
  by_cases hj : i < xs.length
  · rw [if_neg (by omega), if_neg (by simp [hu]), if_neg (by omega), hx]
    simp only [bind, Except.bind]
    cases hm : good x
    · simp only [Bool.false_eq_true, if_false, if_true, true_or, or_true]
      exact ⟨_, rfl, H⟩
    · simp only [if_true, reduceCtorEq, false_or]
      by_cases hi : 0 ≤ i
      · rw [toUnsigned_nonneg hi h2, if_neg (by omega)]
        obtain ⟨h', e, H'⟩ := H.set i.toNat x (by omega)
        simp only [e]
        exact ⟨_, rfl, H'⟩
      · have := toUnsigned_neg (i := i) (by omega) h1
        rw [H.set_out _ _ (by omega), if_pos (by omega)]
        exact ⟨_, rfl, H⟩
  · rw [if_pos (by omega), if_pos (by omega), if_pos (.inl (by omega))]
    exact ⟨_, rfl, H⟩

theorem insertPos_eq {l : OL} {n : Nat} (hl : l.len = n) (hn : n < 2147483648) {i : Int}
    (h1 : -2147483648 ≤ i) (h2 : i < 2147483648) :
    insertPos l i = (if i < 0 then ((n : Int) + i).toNat else min i.toNat n : Nat) := by
  unfold insertPos
  rw [hl, toInt_id (i := (n : Int)) (by omega) (by omega)]
  by_cases hi : i < 0
  · rw [if_pos hi, if_pos hi, toInt_id (i := i + n) (by omega) (by omega)]
    simp only
    split <;> omega
  · rw [if_neg hi, if_neg hi]
    split <;> omega

/-- `seq.insert(i, x)`. -/
theorem insert_holds (k : Kind α) {good : α → Bool} {h : Heap (Option α)} {l : OL}
    {xs : List α} (H : Holds h l xs) (hn : xs.length < 2147483648) (x : α)
    (hx : k.passes x = .ok (good x)) {i : Int} (h1 : -2147483648 ≤ i) (h2 : i < 2147483648) :
    ∃ h' l', insert k h l i (.obj x) = .ok (h', l', (Spec.Py.insert good xs i x).2) ∧
      Holds h' l' (Spec.Py.insert good xs i x).1 := by
  simp only [insert, convert, hx, bind, Except.bind, insertPos_eq H.len hn h1 h2, Spec.Py.insert]
  cases hg : good x
  · simp only [Bool.false_eq_true, if_false]
    exact ⟨_, _, rfl, H⟩
  · simp only [if_true]
    have hp : (if i < 0 then ((xs.length : Int) + i).toNat else min i.toNat xs.length) ≤ xs.length := by
      split <;> omega
    rw [toUnsigned_nonneg (by omega) (by omega), Int.toNat_natCast]
    obtain ⟨h', l', c, e, H'⟩ := H.insertAt _ x hp
    simp only [e]
    exact ⟨_, _, rfl, H'⟩

theorem split_some : ∀ {as : List (Nat × Option α)} {pre post : List α} {x : α},
    as.map Prod.snd = (pre ++ x :: post).map some → ∃ p a q, as = p ++ (a, some x) :: q ∧
      p.map Prod.snd = pre.map some ∧ q.map Prod.snd = post.map some
  | [], pre, post, x, e => by simp at e
  | (a, d) :: as, [], post, x, e => by
    simp only [List.map_cons, List.nil_append, List.cons.injEq] at e
    obtain ⟨rfl, e⟩ := e
    exact ⟨[], a, as, rfl, rfl, e⟩
  | (a, d) :: as, y :: pre, post, x, e => by
    simp only [List.map_cons, List.cons_append, List.cons.injEq] at e
    obtain ⟨rfl, e⟩ := e
    obtain ⟨p, b, q, rfl, h1, h2⟩ := split_some e
    exact ⟨(a, some y) :: p, b, q, rfl, by simp [h1], h2⟩

/-- `seq.remove(x)`: the first occurrence of the object is taken out. -/
theorem Holds.remove [BEq α] [LawfulBEq α] {h : Heap (Option α)} {l : OL} {xs : List α}
    (H : Holds h l xs) (x : α) : ∃ h' l', ObjHeap.remove h l (some x) =
        .ok (h', l', if xs.contains x then 1 else 0) ∧ Holds h' l' (xs.erase x) := by
  obtain ⟨as, r, e⟩ := H
  by_cases hm : x ∈ xs
  · obtain ⟨pre, post, rfl, hpre⟩ := List.eq_append_cons_of_mem hm
    obtain ⟨p, a, q, rfl, hp, hq⟩ := split_some e
    obtain ⟨h', l', e', r', -⟩ := remove_some r (by
      intro e he hx
      have : e.2 ∈ p.map Prod.snd := List.mem_map_of_mem he
      rw [hp, hx] at this
      exact hpre (by simpa using this))
    refine ⟨h', l', by rw [e']; simp, p ++ q, r', ?_⟩
    rw [List.erase_append_right _ (by simpa using hpre)]
    simp [hp, hq]
  · rw [remove_none r (by
      intro e' he hx
      have : e'.2 ∈ as.map Prod.snd := List.mem_map_of_mem he
      rw [e, hx] at this
      exact hm (by simpa using this))]
    refine ⟨h, l, by simp [hm], as, r, ?_⟩
    rw [List.erase_of_not_mem hm, e]

theorem remove_holds [BEq α] [LawfulBEq α] (k : Kind α) {h : Heap (Option α)} {l : OL} {xs : List α}
    (H : Holds h l xs) (x : α) :
    ∃ h' l', remove k h l (.obj x) = .ok (h', l', (Spec.Py.remove xs x).2) ∧
      Holds h' l' (Spec.Py.remove xs x).1 := by
  obtain ⟨h', l', e, H'⟩ := H.remove x
  simp only [remove, convert, e, bind, Except.bind, Spec.Py.remove]
  by_cases hm : xs.contains x = true
  · simp only [hm, if_true]
    exact ⟨_, _, rfl, H'⟩
  · rw [List.erase_of_not_mem (by simpa using hm)] at H'
    simp only [hm, Bool.false_eq_true, if_false, if_true]
    exact ⟨_, _, rfl, H'⟩

end Comps.PySeq
