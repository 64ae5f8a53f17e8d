import Verif.Model.Own
import Verif.Spec.Own
import Verif.Lemmas.Merge

/-! # Lemmas: merging with owners -/

namespace Comps.Own
open Comps Comps.Obj Comps.Spec.Own

set_option linter.unusedSectionVars false
set_option linter.unusedSimpArgs false

variable {α κ : Type} [DecidableEq κ]

/-- The number of owners of `p`. -/
def own (m : Mem α) (p : Nat) : Nat := (m[p]?.map Cell.owners).getD 0

/-- The value of `p`. -/
def valAt (m : Mem α) (p : Nat) : Option α := m[p]?.map Cell.val

/-- `p` has an owner and the value `v`. -/
def Live (m : Mem α) (p : Nat) (v : α) : Prop := valAt m p = some v ∧ 0 < own m p

theorem Live.cell {m : Mem α} {p : Nat} {v : α} (h : Live m p v) : ∃ n, m[p]? = some ⟨v, n + 1⟩ ∧
    own m p = n + 1 := by
  obtain ⟨h1, h2⟩ := h
  unfold valAt at h1
  unfold own at h2 ⊢
  cases hc : m[p]? with
  | none => rw [hc] at h1; simp at h1
  | some c =>
    obtain ⟨w, k⟩ := c
    rw [hc] at h1 h2
    simp at h1 h2
    subst h1
    exact ⟨k - 1, by simp; omega, by simp; omega⟩

theorem Live.lt {m : Mem α} {p : Nat} {v : α} (h : Live m p v) : p < m.length := by
  obtain ⟨n, h1, -⟩ := h.cell
  exact (List.getElem?_eq_some_iff.1 h1).1

theorem own_ge {m : Mem α} {p : Nat} (h : m.length ≤ p) : own m p = 0 := by
  simp [own, List.getElem?_eq_none h]

theorem valAt_lt {m : Mem α} {p : Nat} {v : α} (h : valAt m p = some v) : p < m.length := by
  unfold valAt at h
  cases hc : m[p]? with
  | none => rw [hc] at h; simp at h
  | some c => exact (List.getElem?_eq_some_iff.1 hc).1

theorem live_of_own {m : Mem α} {p : Nat} (h : 0 < own m p) : ∃ v, Live m p v := by
  unfold own at h
  cases hc : m[p]? with
  | none => rw [hc] at h; simp at h
  | some c => exact ⟨c.val, by simp [valAt, hc], by simpa [own, hc] using h⟩

theorem load_ok {m : Mem α} {p : Nat} {v : α} (h : Live m p v) : load m p = .ok v := by
  obtain ⟨n, h1, -⟩ := h.cell
  simp [load, h1]

theorem incref_ok {m : Mem α} {p : Nat} {v : α} (h : Live m p v) : ∃ m', incref m p = .ok m' ∧
    m'.length = m.length ∧ (∀ q, valAt m' q = valAt m q) ∧
    ∀ q, own m' q = own m q + [p].count q := by
  obtain ⟨n, h1, h2⟩ := h.cell
  have hl := h.lt
  refine ⟨m.set p ⟨v, n + 1 + 1⟩, by simp [incref, h1], by simp, fun q => ?_, fun q => ?_⟩
  · unfold valAt
    rw [List.getElem?_set]
    by_cases hq : p = q
    · subst hq; rw [if_pos rfl, if_pos hl, h1]; simp
    · rw [if_neg hq]
  · unfold own at h2 ⊢
    rw [List.getElem?_set]
    by_cases hq : p = q
    · subst hq; rw [if_pos rfl, if_pos hl, h1]; simp
    · rw [if_neg hq]
      simp [List.count_cons, hq]

theorem destroy_ok {m : Mem α} {p : Nat} {v : α} (h : Live m p v) : ∃ m', destroy m p = .ok m' ∧
    m'.length = m.length ∧ (∀ q, valAt m' q = valAt m q) ∧
    ∀ q, own m' q + [p].count q = own m q := by
  obtain ⟨n, h1, h2⟩ := h.cell
  have hl := h.lt
  refine ⟨m.set p ⟨v, n⟩, by simp [destroy, h1], by simp, fun q => ?_, fun q => ?_⟩
  · unfold valAt
    rw [List.getElem?_set]
    by_cases hq : p = q
    · subst hq; rw [if_pos rfl, if_pos hl, h1]; simp
    · rw [if_neg hq]
  · unfold own at h2 ⊢
    rw [List.getElem?_set]
    by_cases hq : p = q
    · subst hq; rw [if_pos rfl, if_pos hl, h1]; simp
    · rw [if_neg hq]
      simp [List.count_cons, hq]

theorem create_val (m : Mem α) (v : α) (q : Nat) :
    valAt (m ++ [⟨v, 1⟩]) q = if q = m.length then some v else valAt m q := by
  unfold valAt
  by_cases h : q = m.length
  · subst h; simp
  · rw [if_neg h]
    rcases Nat.lt_or_gt_of_ne h with h | h
    · rw [List.getElem?_append_left h]
    · rw [List.getElem?_eq_none (by simp; omega), List.getElem?_eq_none (by omega)]

theorem create_own (m : Mem α) (v : α) (q : Nat) :
    own (m ++ [⟨v, 1⟩]) q = own m q + [m.length].count q := by
  unfold own
  by_cases h : q = m.length
  · subst h; simp
  · have hc : [m.length].count q = 0 := by simp [List.count_cons, Ne.symm h]
    rw [hc]
    rcases Nat.lt_or_gt_of_ne h with h | h
    · rw [List.getElem?_append_left h]; simp
    · rw [List.getElem?_eq_none (by simp; omega), List.getElem?_eq_none (by omega)]; simp

theorem Live.of_create {m : Mem α} {p : Nat} {v w : α} (h : Live m p v) :
    Live (m ++ [⟨w, 1⟩]) p v := by
  have := h.lt
  refine ⟨?_, ?_⟩
  · rw [create_val, if_neg (by omega)]; exact h.1
  · rw [create_own]; have := h.2; omega

theorem live_create (m : Mem α) (w : α) : Live (m ++ [⟨w, 1⟩]) m.length w := by
  refine ⟨by rw [create_val, if_pos rfl], ?_⟩
  rw [create_own]; simp

/-- The set of pointers `s` with the values `f`. -/
def Holds (m : Mem α) (s : List Nat) (f : Nat → α) : Prop := ∀ q ∈ s, Live m q (f q)

theorem dataAt_ok {eqf : α → α → Bool} {m : Mem α} {s : List Nat} {f : Nat → α} (hs : Holds m s f)
    {p : Nat} {w : α} (hp : Live m p w) :
    dataAt eqf m s p = .ok (s.find? fun q => eqf (f q) w) := by
  induction s with
  | nil => rfl
  | cons q qs ih =>
    rw [dataAt, load_ok (hs q (by simp)), load_ok hp]
    simp only [bind, Except.bind, pure, Except.pure]
    rw [List.find?_cons]
    cases h : eqf (f q) w with
    | true => simp
    | false =>
      simp only [Bool.false_eq_true, if_false]
      exact ih fun q hq => hs q (by simp [hq])

theorem setAdd_ok {eqf : α → α → Bool} {m : Mem α} {s : List Nat} {f : Nat → α} (hs : Holds m s f)
    {p : Nat} {w : α} (hp : Live m p w) :
    setAdd eqf m s p = .ok (if ∃ q ∈ s, eqf (f q) w = true then (s, false) else (s ++ [p], true)) := by
  rw [setAdd, dataAt_ok hs hp]
  simp only [bind, Except.bind]
  cases h : s.find? fun q => eqf (f q) w with
  | some d =>
    rw [if_pos ⟨d, List.mem_of_find?_eq_some h,
      by have := List.find?_some h; simpa using this⟩]; rfl
  | none =>
    rw [if_neg (by
      rintro ⟨q, hq, e⟩
      exact List.find?_eq_none.1 h q hq e)]; rfl

theorem destroyAll_ok {s : List Nat} : ∀ {m : Mem α}, (∀ p, s.count p ≤ own m p) →
    ∃ m', destroyAll m s = .ok m' ∧ m'.length = m.length ∧ (∀ q, valAt m' q = valAt m q) ∧
      ∀ q, own m' q + s.count q = own m q := by
  induction s with
  | nil => intro m _; exact ⟨m, rfl, rfl, fun _ => rfl, fun _ => by simp⟩
  | cons p ps ih =>
    intro m h
    obtain ⟨v, hv⟩ := live_of_own (m := m) (p := p) (by have := h p; simp at this; omega)
    obtain ⟨m1, d1, l1, v1, o1⟩ := destroy_ok hv
    obtain ⟨m2, d2, l2, v2, o2⟩ := ih (m := m1) fun q => by
      have h1 := h q
      have h2 := o1 q
      have : (p :: ps).count q = [p].count q + ps.count q := by
        rw [← List.count_append]; rfl
      omega
    refine ⟨m2, ?_, by omega, fun q => by rw [v2, v1], fun q => ?_⟩
    · rw [destroyAll, d1]; exact d2
    · have h1 := o1 q
      have h2 := o2 q
      have : (p :: ps).count q = [p].count q + ps.count q := by
        rw [← List.count_append]; rfl
      omega

/-! ## The first list -/

/-- The positions, counted from `n`, where a name occurs for the first time. -/
def firsts (n : Nat) : List κ → List κ → List Nat
  | _, [] => []
  | seen, k :: ks => if k ∈ seen then firsts (n + 1) (k :: seen) ks
    else n :: firsts (n + 1) (k :: seen) ks

theorem idxOf_cons_ne {k k' : κ} {ks : List κ} (h : k ≠ k') :
    (k :: ks).idxOf k' = ks.idxOf k' + 1 := by
  rw [List.idxOf_cons]
  simp [beq_false_of_ne h]

theorem firsts_mem {n : Nat} {seen ks : List κ} {q : Nat} : q ∈ firsts n seen ks ↔
    ∃ i k, q = n + i ∧ ks[i]? = some k ∧ k ∉ seen ∧ ks.idxOf k = i := by
  induction ks generalizing n seen with
  | nil => simp [firsts]
  | cons k ks ih =>
    have key : q ∈ firsts (n + 1) (k :: seen) ks ↔
        ∃ i k', q = n + (i + 1) ∧ ks[i]? = some k' ∧ k' ∉ seen ∧ (k :: ks).idxOf k' = i + 1 := by
      rw [ih]
      constructor
      · rintro ⟨i, k', h1, h2, h3, h4⟩
        simp only [List.mem_cons, not_or] at h3
        refine ⟨i, k', by omega, h2, h3.2, ?_⟩
        rw [idxOf_cons_ne (Ne.symm h3.1), h4]
      · rintro ⟨i, k', h1, h2, h3, h4⟩
        have hne : k ≠ k' := by
          rintro rfl
          simp at h4
        refine ⟨i, k', by omega, h2, by simp [Ne.symm hne, h3], ?_⟩
        rw [idxOf_cons_ne hne] at h4
        omega
    rw [firsts]
    by_cases hk : k ∈ seen
    · rw [if_pos hk, key]
      constructor
      · rintro ⟨i, k', h1, h2, h3, h4⟩
        exact ⟨i + 1, k', h1, by simpa using h2, h3, h4⟩
      · rintro ⟨i, k', h1, h2, h3, h4⟩
        cases i with
        | zero => simp at h2; subst h2; exact absurd hk h3
        | succ i => exact ⟨i, k', h1, by simpa using h2, h3, h4⟩
    · rw [if_neg hk, List.mem_cons, key]
      constructor
      · rintro (h | ⟨i, k', h1, h2, h3, h4⟩)
        · exact ⟨0, k, by omega, by simp, hk, by simp⟩
        · exact ⟨i + 1, k', h1, by simpa using h2, h3, h4⟩
      · rintro ⟨i, k', h1, h2, h3, h4⟩
        cases i with
        | zero => left; omega
        | succ i => exact .inr ⟨i, k', h1, by simpa using h2, h3, h4⟩

theorem firsts_ge {n : Nat} {seen ks : List κ} {q : Nat} (h : q ∈ firsts n seen ks) :
    n ≤ q ∧ q < n + ks.length := by
  obtain ⟨i, k, h1, h2, -, -⟩ := firsts_mem.1 h
  have := (List.getElem?_eq_some_iff.1 h2).1
  omega

theorem firsts_nodup {n : Nat} {seen ks : List κ} : (firsts n seen ks).Nodup := by
  induction ks generalizing n seen with
  | nil => simp [firsts]
  | cons k ks ih =>
    rw [firsts]
    split
    · exact ih
    · refine List.nodup_cons.2 ⟨fun h => ?_, ih⟩
      have := firsts_ge h
      omega

/-- What the set finds: the first object of the name. -/
theorem firsts_find {n : Nat} {ks : List κ} {g : Nat → κ}
    (hg : ∀ i, i < ks.length → ks[i]? = some (g (n + i))) (k : κ) :
    (firsts n [] ks).find? (fun q => decide (g q = k)) = if k ∈ ks then some (n + ks.idxOf k) else none := by
  by_cases hk : k ∈ ks
  · rw [if_pos hk]
    have hlt : ks.idxOf k < ks.length := List.idxOf_lt_length_iff.2 hk
    have hm : n + ks.idxOf k ∈ firsts n [] ks := firsts_mem.2
      ⟨ks.idxOf k, k, rfl, by simp [List.getElem?_eq_getElem hlt], by simp, rfl⟩
    have hgk : g (n + ks.idxOf k) = k := by
      have := hg _ hlt
      rw [List.getElem?_eq_getElem hlt] at this
      simpa using this.symm
    cases hf : (firsts n [] ks).find? (fun q => decide (g q = k)) with
    | none => exact absurd hgk (by simpa using List.find?_eq_none.1 hf _ hm)
    | some q =>
      have h1 := List.mem_of_find?_eq_some hf
      have h2 : g q = k := by simpa using List.find?_some hf
      obtain ⟨i, k', e1, e2, -, e4⟩ := firsts_mem.1 h1
      have := hg i (List.getElem?_eq_some_iff.1 e2).1
      rw [e2] at this
      have h3 : k' = k := by
        rw [← h2, e1]; simpa using this
      subst h3
      rw [e1, e4]
  · rw [if_neg hk]
    refine List.find?_eq_none.2 fun q hq => ?_
    obtain ⟨i, k', e1, e2, -, e4⟩ := firsts_mem.1 hq
    have := hg i (List.getElem?_eq_some_iff.1 e2).1
    rw [e2] at this
    have h3 : k' = g q := by rw [e1]; simpa using this
    simp only [decide_eq_true_eq]
    intro h
    exact hk (h ▸ h3 ▸ List.mem_of_getElem? e2)

/-- The pointers `l` have the values `vs` and owners. -/
def Lives (m : Mem α) (l : List Nat) (vs : List α) : Prop :=
  l.length = vs.length ∧ ∀ (i p : Nat) (v : α), l[i]? = some p → vs[i]? = some v → Live m p v

theorem Lives.mono {m m' : Mem α} {l : List Nat} {vs : List α} (h : Lives m l vs)
    (hm : ∀ p v, Live m p v → Live m' p v) : Lives m' l vs :=
  ⟨h.1, fun i p v h1 h2 => hm _ _ (h.2 i p v h1 h2)⟩

theorem Lives.cons {m : Mem α} {p : Nat} {l : List Nat} {vs : List α} (h : Lives m (p :: l) vs) :
    ∃ v ws, vs = v :: ws ∧ Live m p v ∧ Lives m l ws := by
  cases vs with
  | nil => simp [Lives] at h
  | cons v ws =>
    refine ⟨v, ws, rfl, h.2 0 p v rfl rfl, by simpa using h.1, fun i q w h1 h2 => ?_⟩
    exact h.2 (i + 1) q w (by simpa using h1) (by simpa using h2)

theorem count_cons_eq (p : Nat) (l : List Nat) (q : Nat) :
    (p :: l).count q = [p].count q + l.count q := by rw [← List.count_append]; rfl

section
variable {eqf : α → α → Bool} {copy : α → α} {key : α → κ} (hk : ByKey eqf key)
include hk

theorem firstLoop_ok (c : Count) {l : List Nat} : ∀ {vs : List α} {s : S α} {seen : List κ}
    {f : Nat → α}, Lives s.mem l vs → (∀ v ∈ vs, key (copy v) = key v) → Holds s.mem s.set f →
    (∀ k, k ∈ seen ↔ ∃ q ∈ s.set, key (f q) = k) →
    ∃ (s' : S α) (lost : List Nat), firstLoop eqf copy c l s = .ok s' ∧
      s'.mem.length = s.mem.length + l.length ∧
      (∀ p, p < s.mem.length → valAt s'.mem p = valAt s.mem p) ∧
      (∀ i, i < l.length → valAt s'.mem (s.mem.length + i) = (vs[i]?).map copy) ∧
      s'.ret = s.ret ++ List.range' s.mem.length l.length ∧
      s'.set = s.set ++ firsts s.mem.length seen (vs.map key) ∧
      (∀ p, own s'.mem p = own s.mem p + (List.range' s.mem.length l.length).count p +
        (firsts s.mem.length seen (vs.map key)).count p + lost.count p) ∧
      lost.length = (if c = .both then repeatsIn seen (vs.map key) else 0) ∧
      lost.Nodup ∧ ∀ p ∈ lost, s.mem.length ≤ p ∧ p < s'.mem.length := by
  induction l with
  | nil =>
    intro vs s seen f hl _ _ _
    have : vs = [] := by
      have := hl.1
      exact List.length_eq_zero_iff.1 (by simpa using this.symm)
    subst this
    exact ⟨s, [], rfl, rfl, fun _ _ => rfl, fun i hi => by simp at hi, by simp, by simp [firsts],
      fun p => by simp [firsts], by simp [repeatsIn], by simp, by simp⟩
  | cons p l ih =>
    intro vs s seen f hl hc hs hseen
    obtain ⟨v, ws, rfl, hp, hl'⟩ := hl.cons
    have hq : Live (s.mem ++ [⟨copy v, 1⟩]) s.mem.length (copy v) := live_create _ _
    have hs1 : Holds (s.mem ++ [⟨copy v, 1⟩]) s.set f := fun q hq => (hs q hq).of_create
    have hkv : key (copy v) = key v := hc v (by simp)
    have hiff : (∃ q ∈ s.set, eqf (f q) (copy v) = true) ↔ key v ∈ seen := by
      rw [hseen]
      constructor
      · rintro ⟨q, h1, h2⟩; exact ⟨q, h1, ((hk _ _).1 h2).trans hkv⟩
      · rintro ⟨q, h1, h2⟩; exact ⟨q, h1, (hk _ _).2 (h2.trans hkv.symm)⟩
    -- memory after the reference is counted
    obtain ⟨m2, hm2, len2, val2, own2⟩ : ∃ m2,
        (if c = .both ∨ key v ∉ seen then incref (s.mem ++ [⟨copy v, 1⟩]) s.mem.length
          else .ok (s.mem ++ [⟨copy v, 1⟩])) = .ok m2 ∧
        m2.length = s.mem.length + 1 ∧
        (∀ q, valAt m2 q = valAt (s.mem ++ [⟨copy v, 1⟩]) q) ∧
        (∀ q, own m2 q = own s.mem q + [s.mem.length].count q +
          (if c = .both ∨ key v ∉ seen then [s.mem.length].count q else 0)) := by
      by_cases hb : c = .both ∨ key v ∉ seen
      · obtain ⟨m2, e1, e2, e3, e4⟩ := incref_ok hq
        refine ⟨m2, by rw [if_pos hb, e1], by rw [e2]; simp, e3, fun q => ?_⟩
        rw [e4, create_own, if_pos hb]
      · exact ⟨_, by rw [if_neg hb], by simp, fun _ => rfl, fun q => by
          rw [create_own, if_neg hb]; simp⟩
    have live2 : ∀ q w, Live s.mem q w → Live m2 q w := by
      intro q w h
      refine ⟨?_, ?_⟩
      · rw [val2]; exact h.of_create.1
      · rw [own2]; have := h.2; omega
    have hnew2 : Live m2 s.mem.length (copy v) := by
      refine ⟨by rw [val2]; exact hq.1, ?_⟩
      rw [own2]
      have : [s.mem.length].count s.mem.length = 1 := by simp
      omega
    let f' : Nat → α := fun q => if q = s.mem.length then copy v else f q
    have hsset : Holds m2 (s.set ++ if key v ∈ seen then [] else [s.mem.length]) f' := by
      intro q hq'
      rw [List.mem_append] at hq'
      by_cases e : q = s.mem.length
      · subst e
        simp only [f', if_pos]
        exact hnew2
      · rcases hq' with h | h
        · simp only [f', if_neg e]
          exact live2 _ _ (hs q h)
        · split at h <;> simp at h
          exact absurd h e
    have hseen' : ∀ k, k ∈ key v :: seen ↔
        ∃ q ∈ s.set ++ if key v ∈ seen then [] else [s.mem.length], key (f' q) = k := by
      intro k
      have hold : ∀ q ∈ s.set, f' q = f q := by
        intro q hq'
        have := (hs q hq').lt
        simp only [f', if_neg (Nat.ne_of_lt this)]
      rw [List.mem_cons, hseen]
      constructor
      · rintro (rfl | ⟨q, h1, h2⟩)
        · by_cases hm : key v ∈ seen
          · obtain ⟨q, h1, h2⟩ := (hseen _).1 hm
            exact ⟨q, by simp [h1], by rw [hold q h1, h2]⟩
          · exact ⟨s.mem.length, by simp [hm], by simp [f', hkv]⟩
        · exact ⟨q, by simp [h1], by rw [hold q h1, h2]⟩
      · rintro ⟨q, h1, h2⟩
        rw [List.mem_append] at h1
        rcases h1 with h1 | h1
        · exact .inr ⟨q, h1, by rw [← hold q h1, h2]⟩
        · left
          split at h1 <;> simp at h1
          subst h1
          rw [← h2]
          simp [f', hkv]
    obtain ⟨s', lost, r, len', val', new', ret', set', own', ll, ln, lb⟩ := ih (vs := ws)
      (s := ⟨m2, s.ret ++ [s.mem.length], s.set ++ if key v ∈ seen then [] else [s.mem.length]⟩)
      (seen := key v :: seen) (f := f') (hl'.mono live2) (fun w hw => hc w (by simp [hw])) hsset hseen'
    simp only [len2] at len' val' new' ret' set' own' lb
    refine ⟨s', (if c = .both ∧ key v ∈ seen then [s.mem.length] else []) ++ lost,
      ?_, ?_, ?_, ?_, ?_, ?_, ?_, ?_, ?_, ?_⟩
    · rw [firstLoop, load_ok hp]
      simp only [bind, Except.bind, create]
      rw [setAdd_ok hs1 hq]
      simp only [hiff]
      by_cases hm : key v ∈ seen
      · simp only [if_pos hm, Bool.false_eq_true, or_false]
        rw [if_pos hm, List.append_nil] at r
        by_cases hcb : c = .both
        · simp only [hcb, true_or, if_true] at hm2
          simp only [if_pos hcb, hm2]
          exact r
        · simp only [hm, hcb, not_true, or_false, if_false] at hm2
          simp only [if_neg hcb]
          cases hm2
          exact r
      · simp only [if_neg hm, or_true]
        simp only [hm, not_false_eq_true, or_true, if_true] at hm2
        simp only [if_true, hm2]
        rw [if_neg hm] at r
        exact r
    · simp [len']; omega
    · intro q hq'
      rw [val' q (by omega), val2, create_val, if_neg (by omega)]
    · intro i hi
      cases i with
      | zero =>
        rw [Nat.add_zero, val' _ (by omega), val2, create_val, if_pos rfl]
        rfl
      | succ i =>
        have := new' i (by simpa using hi)
        rw [show s.mem.length + (i + 1) = s.mem.length + 1 + i by omega, this]
        simp
    · rw [ret', List.append_assoc]; rfl
    · rw [set', List.append_assoc, List.map_cons, firsts]
      by_cases hm : key v ∈ seen <;> simp [hm]
    · intro q
      rw [own' q, own2 q, List.map_cons, firsts, List.count_append]
      have hr : (List.range' s.mem.length (p :: l).length).count q =
          [s.mem.length].count q + (List.range' (s.mem.length + 1) l.length).count q := by
        rw [← List.count_append]; rfl
      rw [hr]
      by_cases hm : key v ∈ seen
      · by_cases hcb : c = .both
        · simp only [if_pos hm, hcb, true_or, if_true, hm, and_self]
          omega
        · simp only [hcb, hm, not_true, or_self, if_true, if_false, and_true, and_self,
            List.count_nil]
          omega
      · have := count_cons_eq s.mem.length (firsts (s.mem.length + 1) (key v :: seen) (ws.map key)) q
        simp only [if_neg hm, hm, not_false_eq_true, or_true, if_true, and_false, if_false,
          List.count_nil, this]
        omega
    · rw [List.length_append, ll, List.map_cons, repeatsIn]
      by_cases hcb : c = .both <;> by_cases hm : key v ∈ seen <;> simp [hcb, hm]
    · rw [List.nodup_append]
      refine ⟨by split <;> simp, ln, ?_⟩
      intro a ha b hb
      split at ha <;> simp at ha
      subst ha
      have := lb b hb
      omega
    · intro q hq'
      rw [List.mem_append] at hq'
      rcases hq' with h | h
      · split at h <;> simp at h
        subst h
        omega
      · have := lb q h
        omega

end

end Comps.Own
