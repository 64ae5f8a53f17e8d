import Verif.Model.Group
import Verif.Spec.Merge
import Verif.Lemmas.CSet

/-! # Lemmas: list merging -/

namespace Comps.Obj
open Comps Comps.Spec Comps.CSet

set_option linter.unusedSectionVars false
set_option linter.unusedSimpArgs false

variable {α κ : Type} [DecidableEq κ]

/-- `eqf` compares names. -/
def ByKey (eqf : α → α → Bool) (key : α → κ) : Prop := ∀ a b, eqf a b = true ↔ key a = key b

theorem dataAt_or (eqf : α → α → Bool) (s : List α) (y : α) :
    dataAt eqf s y = s.find? fun x => eqf x y := by
  induction s with
  | nil => rfl
  | cons z zs ih =>
    simp only [dataAt, List.find?_cons]
    by_cases h : eqf z y = true
    · simp [h]
    · simp [h, ih]

theorem find_foldl_add {eqf : α → α → Bool}
    (htr : ∀ a b c, eqf a b = true → eqf b c = true → eqf a c = true) (l s : List α) (y : α) :
    (l.foldl (add eqf) s).find? (fun x => eqf x y) =
      (s ++ l).find? (fun x => eqf x y) := by
  induction l generalizing s with
  | nil => simp
  | cons x xs ih =>
    rw [List.foldl_cons, ih]
    unfold add
    by_cases hm : mem eqf s x = true
    · rw [if_pos hm, List.find?_append, List.find?_append]
      cases hs : s.find? (fun x => eqf x y) with
      | some d => simp
      | none =>
        have : ¬ eqf x y = true := by
          intro hxy
          obtain ⟨z, hz, hzx⟩ := (mem_iff eqf s x).1 hm
          have := List.find?_eq_none.1 hs z hz
          exact this (htr _ _ _ hzx hxy)
        simp [List.find?_cons, this]
    · rw [if_neg hm]
      simp

theorem unionFirst_length (copy : α → α) (n : Nat) (l : List α) :
    (unionFirst copy n l).length = l.length := by
  induction l generalizing n with
  | nil => rfl
  | cons x xs ih => simp [unionFirst, ih]

theorem unionFirst_get (copy : α → α) (n : Nat) (l : List α) (i : Nat) :
    (unionFirst copy n l)[i]? = (l[i]?).map fun x => ⟨n + i, copy x⟩ := by
  induction l generalizing n i with
  | nil => simp [unionFirst]
  | cons x xs ih =>
    cases i with
    | zero => simp [unionFirst]
    | succ i =>
      simp only [unionFirst, List.getElem?_cons_succ, ih]
      have : n + 1 + i = n + (i + 1) := by omega
      rw [this]

theorem replace_eq {β : Type} (l : List β) (i : Nat) (x : β) (h : i < l.length) :
    insertAt (removeAt l (.ofNat i)) (.ofNat i) x = l.set i x := by
  have hr : removeAt l (.ofNat i) = l.eraseIdx i := rfl
  rw [hr]
  simp only [insertAt]
  rw [if_neg (by simp [List.length_eraseIdx, h]; omega)]
  apply List.ext_getElem?
  intro j
  rw [List.getElem?_append]
  simp only [List.length_take, List.length_eraseIdx, h, if_true]
  have hmin : min i (l.length - 1) = i := by omega
  rw [hmin]
  by_cases hj : j < i
  · simp [hj, List.getElem?_take, List.getElem?_eraseIdx, List.getElem?_set]
    intro h2; omega
  · simp only [hj, if_false]
    by_cases hji : j = i
    · subst hji
      simp [h]
    · obtain ⟨k, hk⟩ : ∃ k, j - i = k + 1 := ⟨j - i - 1, by omega⟩
      rw [hk, List.getElem?_cons_succ, List.getElem?_drop, List.getElem?_eraseIdx,
        if_neg (by omega), List.getElem?_set, if_neg (by omega)]
      congr 1
      omega

theorem index_eq {l : List (Val.Ref α)} {i a : Nat} (hi : (l[i]?).map Val.Ref.addr = some a)
    (hb : ∀ (j : Nat) (r : Val.Ref α), j < i → l[j]? = some r → r.addr ≠ a) :
    Val.index l a = .ofNat i := by
  induction l generalizing i with
  | nil => simp at hi
  | cons r rs ih =>
    cases i with
    | zero =>
      simp at hi
      simp [Val.index, hi]
    | succ i =>
      have h0 : r.addr ≠ a := hb 0 r (by omega) (by simp)
      have := ih (i := i) (by simpa using hi) (fun j r' hj hr' => hb (j + 1) r' (by omega) (by simpa using hr'))
      simp only [Val.index, if_neg h0, this]

theorem index_none {l : List (Val.Ref α)} {a : Nat} (h : ∀ r ∈ l, r.addr ≠ a) :
    Val.index l a = -1 := by
  induction l with
  | nil => rfl
  | cons r rs ih =>
    simp only [Val.index, if_neg (h r (by simp))]
    rw [ih fun r' hr' => h r' (by simp [hr'])]
    rfl

/-! ## The merge loop -/

/-- Value at position `i` after the entries `done` of the second operand. -/
def entry (key : α → κ) (a : List α) (done : List α) (i : Nat) (x : α) : α :=
  if key x ∈ (a.take i).map key then x else (done.find? fun y => key y = key x).getD x

/-- Position `i` was replaced by an entry of `done`. -/
def Replaced (key : α → κ) (a : List α) (done : List α) (i : Nat) : Prop :=
  ∃ x, a[i]? = some x ∧ key x ∉ (a.take i).map key ∧ ∃ y ∈ done, key y = key x

structure LoopInv (key : α → κ) (a done : List α) (res : List (Val.Ref α)) : Prop where
  len : a.length ≤ res.length
  val : ∀ (i : Nat) (x : α), a[i]? = some x → (res[i]?).map Val.Ref.val = some (entry key a done i x)
  tail : (res.drop a.length).map Val.Ref.val = done.filter fun y => key y ∉ a.map key
  fresh : ∀ (i : Nat) (r : Val.Ref α), i < a.length → res[i]? = some r → ¬ Replaced key a done i → r.addr = i
  old : ∀ (i : Nat) (r : Val.Ref α), i < a.length → res[i]? = some r → Replaced key a done i →
    a.length ≤ r.addr
  app : ∀ (i : Nat) (r : Val.Ref α), a.length ≤ i → res[i]? = some r → a.length ≤ r.addr

theorem find_unionFirst {eqf : α → α → Bool} {key : α → κ} (hk : ByKey eqf key) (a : List α)
    (y : α) (n m : Nat) :
    (unionFirst id m a).find? (fun r => refEq eqf r ⟨n, y⟩) =
      ((a.zipIdx m).find? (fun p => key p.1 = key y)).map fun p => ⟨p.2, p.1⟩ := by
  induction a generalizing m with
  | nil => rfl
  | cons x xs ih =>
    simp only [unionFirst, List.zipIdx_cons, List.find?_cons, refEq, id]
    by_cases h : key x = key y
    · have := (hk x y).2 h
      simp [this, h]
    · have : eqf x y = false := by
        cases he : eqf x y with
        | false => rfl
        | true => exact absurd ((hk x y).1 he) h
      simp only [this, h, decide_false]
      exact ih (m + 1)

theorem find_zipIdx_some {key : α → κ} {a : List α} {y x : α} {i : Nat}
    (h : (a.zipIdx 0).find? (fun p => key p.1 = key y) = some (x, i)) :
    a[i]? = some x ∧ key x = key y ∧ key y ∉ (a.take i).map key := by
  have h1 := List.find?_some h
  have h2 := List.mem_of_find?_eq_some h
  obtain ⟨_, as, bs, h3, h4⟩ := List.find?_eq_some_iff_append.1 h
  have hx : a[i]? = some x := by
    have := List.mem_zipIdx h2
    rw [List.getElem?_eq_some_iff]
    exact ⟨by omega, by simpa using this.2.2.symm⟩
  refine ⟨hx, by simpa using h1, ?_⟩
  have hlen : as.length = i := by
    have : (a.zipIdx 0)[as.length]? = some (x, i) := by rw [h3]; simp
    rw [List.getElem?_zipIdx] at this
    simp only [Option.map_eq_some_iff] at this
    obtain ⟨z, -, hz⟩ := this
    have := congrArg Prod.snd hz
    simpa using this
  intro hm
  obtain ⟨z, hz, hzk⟩ := List.mem_map.1 hm
  obtain ⟨j, hj⟩ := List.mem_iff_getElem?.1 hz
  rw [List.getElem?_take] at hj
  split at hj
  · rename_i hji
    have hza : (z, j) ∈ as := by
      have : (a.zipIdx 0)[j]? = some (z, j) := by
        rw [List.getElem?_zipIdx, hj]; simp
      rw [h3, List.getElem?_append_left (by omega)] at this
      exact List.mem_of_getElem? this
    have := h4 _ hza
    simp [hzk] at this
  · simp at hj

theorem find_zipIdx_none {key : α → κ} {a : List α} {y : α}
    (h : (a.zipIdx 0).find? (fun p => key p.1 = key y) = none) : key y ∉ a.map key := by
  intro hm
  obtain ⟨z, hz, hzk⟩ := List.mem_map.1 hm
  obtain ⟨j, hj⟩ := List.mem_iff_getElem?.1 hz
  have : (a.zipIdx 0)[j]? = some (z, j) := by rw [List.getElem?_zipIdx, hj]; simp
  have := List.find?_eq_none.1 h _ (List.mem_of_getElem? this)
  simp [hzk] at this

theorem replaced_snoc {key : α → κ} {a done : List α} {y : α} {i : Nat} :
    Replaced key a (done ++ [y]) i ↔ Replaced key a done i ∨
      ∃ x, a[i]? = some x ∧ key x ∉ (a.take i).map key ∧ key y = key x := by
  constructor
  · rintro ⟨x, h1, h2, z, hz, h3⟩
    rcases List.mem_append.1 hz with hz | hz
    · exact .inl ⟨x, h1, h2, z, hz, h3⟩
    · rw [List.mem_singleton] at hz; subst hz
      exact .inr ⟨x, h1, h2, h3⟩
  · rintro (⟨x, h1, h2, z, hz, h3⟩ | ⟨x, h1, h2, h3⟩)
    · exact ⟨x, h1, h2, z, by simp [hz], h3⟩
    · exact ⟨x, h1, h2, y, by simp, h3⟩

theorem entry_snoc (key : α → κ) (a done : List α) (y x : α) (i : Nat) :
    entry key a (done ++ [y]) i x =
      if key x ∉ (a.take i).map key ∧ (∀ z ∈ done, key z ≠ key x) ∧ key y = key x then y
      else entry key a done i x := by
  unfold entry
  by_cases h1 : key x ∈ (a.take i).map key
  · rw [if_pos h1, if_pos h1, if_neg (fun hc => hc.1 h1)]
  · rw [if_neg h1, if_neg h1, List.find?_append]
    cases hf : done.find? (fun y => decide (key y = key x)) with
    | some d =>
      have : ∃ z ∈ done, key z = key x :=
        ⟨d, List.mem_of_find?_eq_some hf, by simpa using List.find?_some hf⟩
      rw [if_neg]
      · simp
      · rintro ⟨-, h2, -⟩
        obtain ⟨z, hz, e⟩ := this
        exact h2 z hz e
    | none =>
      have h2 : ∀ z ∈ done, key z ≠ key x := by
        intro z hz e
        have := List.find?_eq_none.1 hf z hz
        simp [e] at this
      by_cases hy : key y = key x
      · rw [if_pos ⟨h1, h2, hy⟩]; simp [hy]
      · rw [if_neg (by simp [hy])]; simp [hy]

/-- Two first occurrences of one name are at one position. -/
theorem first_unique {key : α → κ} {a : List α} {i j : Nat} {x z : α} (hi : a[i]? = some x)
    (hj : a[j]? = some z) (hxz : key x = key z) (fi : key x ∉ (a.take i).map key)
    (fj : key z ∉ (a.take j).map key) : i = j := by
  rcases Nat.lt_trichotomy i j with h | h | h
  · exact absurd (List.mem_map.2 ⟨x, List.mem_iff_getElem?.2 ⟨i, by rw [List.getElem?_take, if_pos h, hi]⟩, hxz⟩) fj
  · exact h
  · exact absurd (List.mem_map.2 ⟨z, List.mem_iff_getElem?.2 ⟨j, by rw [List.getElem?_take, if_pos h, hj]⟩, hxz.symm⟩) fi

theorem unionLoop_inv {eqf : α → α → Bool} {key : α → κ} (hk : ByKey eqf key) (a : List α)
    (ys : List α) (done : List α) (n : Nat) (res : List (Val.Ref α)) (hn : a.length ≤ n)
    (h : LoopInv key a done res) :
    LoopInv key a (done ++ ys)
      (unionLoop eqf id ((unionFirst id 0 a).foldl (add (refEq eqf)) []) n ys res) := by
  induction ys generalizing done n res with
  | nil => simpa [unionLoop] using h
  | cons y ys ih =>
    have hcons : done ++ y :: ys = (done ++ [y]) ++ ys := by simp
    rw [hcons]
    simp only [unionLoop, id]
    have htr : ∀ p q r : Val.Ref α, refEq eqf p q = true → refEq eqf q r = true →
        refEq eqf p r = true := by
      intro p q r h1 h2
      exact (hk _ _).2 (((hk _ _).1 h1).trans ((hk _ _).1 h2))
    rw [dataAt_or, find_foldl_add htr, List.nil_append, find_unionFirst hk]
    cases hf : (a.zipIdx 0).find? (fun p => decide (key p.1 = key y)) with
    | none =>
      simp only [Option.map_none]
      have hny := find_zipIdx_none hf
      have hfr : ∀ (i : Nat) (x : α), a[i]? = some x → key y ≠ key x := by
        intro i x hx e
        exact hny (List.mem_map.2 ⟨x, List.mem_of_getElem? hx, e.symm⟩)
      have hrep : ∀ i, Replaced key a (done ++ [y]) i ↔ Replaced key a done i := by
        intro i
        rw [replaced_snoc]
        constructor
        · rintro (h | ⟨x, hx, -, e⟩)
          · exact h
          · exact absurd e (hfr i x hx)
        · exact .inl
      apply ih (done ++ [y]) (n + 1) _ (by omega)
      refine ⟨by simp; have := h.len; omega, ?_, ?_, ?_, ?_, ?_⟩
      · intro i x hx
        have hil : i < a.length := by
          rw [List.getElem?_eq_some_iff] at hx; exact hx.1
        rw [List.getElem?_append_left (by have := h.len; omega), h.val i x hx, entry_snoc,
          if_neg (by intro hc; exact hfr i x hx hc.2.2)]
      · rw [List.drop_append_of_le_length h.len, List.map_append, h.tail, List.filter_append]
        congr 1
        rw [List.filter_cons_of_pos (by simpa using hny)]
        simp
      · intro i r hi hr hR
        rw [List.getElem?_append_left (by have := h.len; omega)] at hr
        exact h.fresh i r hi hr (fun hc => hR ((hrep i).2 hc))
      · intro i r hi hr hR
        rw [List.getElem?_append_left (by have := h.len; omega)] at hr
        exact h.old i r hi hr ((hrep i).1 hR)
      · intro i r hi hr
        rw [List.getElem?_append] at hr
        split at hr
        · exact h.app i r hi hr
        · cases hj : i - res.length with
          | zero => rw [hj] at hr; simp at hr; subst hr; exact hn
          | succ j => rw [hj] at hr; simp at hr
    | some p =>
      obtain ⟨x, i⟩ := p
      simp only [Option.map_some]
      obtain ⟨hx, hxy, hfi⟩ := find_zipIdx_some hf
      have hil : i < a.length := by
        rw [List.getElem?_eq_some_iff] at hx; exact hx.1
      have hyin : key y ∈ a.map key :=
        List.mem_map.2 ⟨x, List.mem_of_getElem? hx, hxy⟩
      have hires : i < res.length := by have := h.len; omega
      obtain ⟨r, hr⟩ : ∃ r, res[i]? = some r := ⟨res[i], by rw [List.getElem?_eq_getElem hires]⟩
      by_cases hR : Replaced key a done i
      · -- already replaced: nothing happens
        have hidx : Val.index res i = -1 := by
          apply index_none
          intro r' hr'
          obtain ⟨j, hj⟩ := List.mem_iff_getElem?.1 hr'
          by_cases hja : j < a.length
          · by_cases hRj : Replaced key a done j
            · have := h.old j r' hja hj hRj; omega
            · have := h.fresh j r' hja hj hRj
              intro e
              have : j = i := by omega
              subst this; exact hRj hR
          · have := h.app j r' (by omega) hj; omega
        rw [hidx]
        apply ih (done ++ [y]) (n + 1) _ (by omega)
        have hid : insertAt (removeAt res (-1)) (-1) (⟨n, y⟩ : Val.Ref α) = res := rfl
        rw [hid]
        have hex : ∃ z ∈ done, key z = key y := by
          obtain ⟨x', hx', -, z, hz, hzk⟩ := hR
          rw [hx] at hx'; cases hx'
          exact ⟨z, hz, hzk.trans hxy⟩
        refine ⟨h.len, ?_, ?_, ?_, ?_, h.app⟩
        · intro j w hw
          rw [h.val j w hw, entry_snoc, if_neg]
          rintro ⟨-, h2, h3⟩
          obtain ⟨z, hz, e⟩ := hex
          exact h2 z hz (e.trans h3)
        · rw [h.tail, List.filter_append, List.filter_cons_of_neg (by simpa using hyin)]
          simp
        · intro j r' hj hr' hRj
          exact h.fresh j r' hj hr' (fun hc => hRj (replaced_snoc.2 (.inl hc)))
        · intro j r' hj hr' hRj
          rcases replaced_snoc.1 hRj with hc | ⟨w, hw, hfw, e⟩
          · exact h.old j r' hj hr' hc
          · refine h.old j r' hj hr' ?_
            obtain ⟨z, hz, e'⟩ := hex
            exact ⟨w, hw, hfw, z, hz, e'.trans e⟩
      · have hradd : r.addr = i := h.fresh i r hil hr hR
        have hidx : Val.index res i = .ofNat i := by
          apply index_eq
          · rw [hr]; simp [hradd]
          · intro j r' hj hr' e
            by_cases hRj : Replaced key a done j
            · have := h.old j r' (by omega) hr' hRj; omega
            · have := h.fresh j r' (by omega) hr' hRj; omega
        rw [hidx, replace_eq _ _ _ hires]
        apply ih (done ++ [y]) (n + 1) _ (by omega)
        have hnone : ∀ z ∈ done, key z ≠ key x := by
          intro z hz e
          exact hR ⟨x, hx, by rw [hxy]; exact hfi, z, hz, e⟩
        refine ⟨by simpa using h.len, ?_, ?_, ?_, ?_, ?_⟩
        · intro j w hw
          by_cases hij : i = j
          · subst hij
            rw [hx] at hw; cases hw
            rw [entry_snoc, if_pos ⟨by rw [hxy]; exact hfi, hnone, hxy.symm⟩]
            simp [hires]
          · rw [List.getElem?_set, if_neg hij, h.val j w hw, entry_snoc, if_neg]
            rintro ⟨h1, -, h3⟩
            exact hij (first_unique hx hw (hxy.trans h3) (by rw [hxy]; exact hfi) h1)
        · rw [List.drop_set, if_pos hil, h.tail, List.filter_append,
            List.filter_cons_of_neg (by simpa using hyin)]
          simp
        · intro j r' hj hr' hRj
          by_cases hij : i = j
          · subst hij
            exact absurd (replaced_snoc.2 (.inr ⟨x, hx, by rw [hxy]; exact hfi, hxy.symm⟩)) hRj
          · rw [List.getElem?_set, if_neg hij] at hr'
            exact h.fresh j r' hj hr' (fun hc => hRj (replaced_snoc.2 (.inl hc)))
        · intro j r' hj hr' hRj
          by_cases hij : i = j
          · subst hij
            simp [hires] at hr'
            subst hr'; exact hn
          · rw [List.getElem?_set, if_neg hij] at hr'
            rcases replaced_snoc.1 hRj with hc | ⟨w, hw, hfw, e⟩
            · exact h.old j r' hj hr' hc
            · exact absurd (first_unique hx hw (hxy.trans e) (by rw [hxy]; exact hfi) hfw) hij
        · intro j r' hj hr'
          rw [List.getElem?_set, if_neg (by omega)] at hr'
          exact h.app j r' hj hr'

theorem overlay_get (key : α → κ) (b seenl : List α) (a : List α) (i : Nat) :
    (overlay key b (seenl.map key) a)[i]? = (a[i]?).map fun x =>
      if key x ∈ seenl.map key ∨ key x ∈ (a.take i).map key then x
      else (b.find? fun y => key y = key x).getD x := by
  induction a generalizing seenl i with
  | nil => simp [overlay]
  | cons z zs ih =>
    cases i with
    | zero => simp [overlay]
    | succ i =>
      simp only [overlay, List.getElem?_cons_succ]
      have := ih (z :: seenl) i
      rw [List.map_cons] at this
      rw [this]
      cases hz : zs[i]? with
      | none => rfl
      | some x =>
        simp only [Option.map_some, List.take_succ_cons, List.map_cons, List.mem_cons]
        congr 1
        have : ((key x = key z ∨ key x ∈ seenl.map key) ∨ key x ∈ (zs.take i).map key) ↔
          (key x ∈ seenl.map key ∨ key x = key z ∨ key x ∈ (zs.take i).map key) := by
          rw [or_assoc]; exact or_left_comm
        simp only [this]

theorem overlay_length (key : α → κ) (b : List α) (seen : List κ) (a : List α) :
    (overlay key b seen a).length = a.length := by
  induction a generalizing seen with
  | nil => rfl
  | cons x xs ih => simp [overlay, ih]

theorem unionFirst_id (copy : α → α) (hc : ∀ x, copy x = x) : copy = id := funext hc

/-- The list merge of the code is the specified merge. -/
theorem unionList_eq {eqf : α → α → Bool} {key : α → κ} {copy : α → α} (hk : ByKey eqf key)
    (hc : ∀ x, copy x = x) (l1 l2 : Option (List α)) :
    unionList eqf copy l1 l2 = merge key (l1.getD []) (l2.getD []) := by
  have hcid := unionFirst_id copy hc
  subst hcid
  generalize ha : l1.getD [] = a
  generalize hb : l2.getD [] = b
  simp only [unionList, ha, hb]
  have h0 : LoopInv key a [] (unionFirst id 0 a) := by
    have hnR : ∀ i, ¬ Replaced key a [] i := by
      rintro i ⟨x, -, -, y, hy, -⟩; simp at hy
    refine ⟨by simp [unionFirst_length], ?_, ?_, ?_, ?_, ?_⟩
    · intro i x hx
      rw [unionFirst_get, hx]; simp [entry]
    · rw [List.drop_eq_nil_of_le (by simp [unionFirst_length])]; simp
    · intro i r _ hr _
      rw [unionFirst_get] at hr
      simp only [Option.map_eq_some_iff] at hr
      obtain ⟨x, -, e⟩ := hr
      rw [← e]; simp
    · intro i r _ _ hR; exact absurd hR (hnR i)
    · intro i r hi hr
      rw [unionFirst_get, List.getElem?_eq_none hi] at hr
      simp at hr
  have h := unionLoop_inv hk a b [] (unionFirst id 0 a).length (unionFirst id 0 a)
    (by simp [unionFirst_length]) h0
  rw [List.nil_append] at h
  generalize unionLoop eqf id ((unionFirst id 0 a).foldl (add (refEq eqf)) [])
    (unionFirst id 0 a).length b (unionFirst id 0 a) = res at h ⊢
  rw [← List.take_append_drop a.length res, List.map_append, h.tail, merge]
  congr 1
  apply List.ext_getElem?
  intro i
  have ho := overlay_get key b [] a i
  simp only [List.map_nil, List.not_mem_nil, false_or] at ho
  rw [ho, List.getElem?_map, List.getElem?_take]
  by_cases hi : i < a.length
  · rw [if_pos hi]
    have hx : a[i]? = some a[i] := List.getElem?_eq_getElem hi
    rw [h.val i _ hx, hx]
    rfl
  · rw [if_neg hi, List.getElem?_eq_none (by omega)]
    rfl

theorem mem_foldl_add {eqf : α → α → Bool} {key : α → κ} (hk : ByKey eqf key) (a : List α) (y : α) :
    mem eqf (a.foldl (add eqf) []) y = decide (key y ∈ a.map key) := by
  have h1 : (mem eqf (a.foldl (add eqf) []) y = true) ↔
      ((a.foldl (add eqf) []).find? (fun x => eqf x y)).isSome = true := by
    rw [mem_iff, List.find?_isSome]
  have h2 := find_foldl_add (eqf := eqf)
    (fun a b c h1 h2 => (hk _ _).2 (((hk _ _).1 h1).trans ((hk _ _).1 h2))) a [] y
  rw [h2, List.nil_append, List.find?_isSome] at h1
  rw [Bool.eq_iff_iff, h1, decide_eq_true_iff, List.mem_map]
  constructor
  · rintro ⟨x, hx, e⟩; exact ⟨x, hx, (hk _ _).1 e⟩
  · rintro ⟨x, hx, e⟩; exact ⟨x, hx, (hk _ _).2 e⟩

theorem intersectList_eq {eqf : α → α → Bool} {key : α → κ} {copy : α → α} (hk : ByKey eqf key)
    (hc : ∀ x, copy x = x) (a b : List α) :
    intersectList eqf copy (some a) (some b) = .ok (common key a b) := by
  have hcid := unionFirst_id copy hc
  subst hcid
  simp only [intersectList, common, List.map_id]
  congr 2
  funext y
  exact mem_foldl_add hk a y

theorem intersectListSet_eq {eqf : α → α → Bool} {key : α → κ} {copy : α → α} (hk : ByKey eqf key)
    (hc : ∀ x, copy x = x) (a b : List α) :
    intersectListSet eqf copy (some a) (some b) = .ok (CSet.unique eqf (common key a b)) := by
  have hcid := unionFirst_id copy hc
  subst hcid
  simp only [intersectListSet, common, List.map_id, CSet.unique]
  congr 3
  funext y
  exact mem_foldl_add hk a y

end Comps.Obj
