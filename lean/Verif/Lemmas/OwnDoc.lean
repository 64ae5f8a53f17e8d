import Verif.Lemmas.OwnUse
import Verif.Lemmas.Doc

/-! # Lemmas: the union of documents with owners -/

namespace Comps.Own
open Comps Comps.Obj Comps.Spec.Own

set_option linter.unusedSectionVars false
set_option linter.unusedSimpArgs false

variable {α κ : Type} [DecidableEq κ]
variable {eqf : α → α → Bool} {copy : α → α} {key : α → κ} {mrg : α → α → α} {P : α → Prop}

/-- The set of pointers `s`, with the values `vs`. -/
structure At (m0 m : Mem α) (s : List Nat) (vs : List α) (lost : List Nat) : Prop where
  len : m0.length ≤ m.length
  old : ∀ p, p < m0.length → valAt m p = valAt m0 p
  vals : s.map (valAt m) = vs.map some
  new : ∀ q ∈ s, m0.length ≤ q
  nodup : s.Nodup
  ledger : ∀ p, own m p = own m0 p + s.count p + lost.count p
  lostNodup : lost.Nodup
  lostB : ∀ p ∈ lost, m0.length ≤ p ∧ p < m.length

theorem At.lives {m0 m : Mem α} {s lost : List Nat} {vs : List α} (h : At m0 m s vs lost) :
    Lives m s vs := by
  have hl : s.length = vs.length := by simpa using congrArg List.length h.vals
  refine ⟨hl, fun i p v h1 h2 => ⟨?_, ?_⟩⟩
  · have := congrArg (fun l => l[i]?) h.vals
    simp only [List.getElem?_map, h1, h2, Option.map_some] at this
    exact Option.some.inj this
  · rw [h.ledger]
    have : 0 < s.count p := List.count_pos_iff.2 (List.mem_of_getElem? h1)
    omega

theorem At.lt {m0 m : Mem α} {s lost : List Nat} {vs : List α} (h : At m0 m s vs lost) {q : Nat}
    (hq : q ∈ s) : q < m.length := by
  have : 0 < own m q := by
    rw [h.ledger]
    have : 0 < s.count q := List.count_pos_iff.2 hq
    omega
  obtain ⟨v, hv⟩ := live_of_own this
  exact hv.lt

theorem At.live_old {m0 m : Mem α} {s lost : List Nat} {vs : List α} (h : At m0 m s vs lost) {p : Nat}
    {v : α} (hp : Live m0 p v) : Live m p v := by
  refine ⟨by rw [h.old p hp.lt]; exact hp.1, ?_⟩
  rw [h.ledger]
  have := hp.2
  omega

theorem dataAt_lives {m : Mem α} {s : List Nat} : ∀ {vs : List α}, Lives m s vs → ∀ {p : Nat} {w : α},
    Live m p w → (CSet.dataAt eqf vs w = none ∧ dataAt eqf m s p = .ok none) ∨
      ∃ i d v, s[i]? = some d ∧ vs[i]? = some v ∧ eqf v w = true ∧ CSet.dataAt eqf vs w = some v ∧
        dataAt eqf m s p = .ok (some d) ∧ setRemove eqf m s p = .ok (s.eraseIdx i) ∧
        (CSet.remove eqf vs w).1 = vs.eraseIdx i := by
  induction s with
  | nil =>
    intro vs h p w _
    have : vs = [] := List.length_eq_zero_iff.1 (by simpa using h.1.symm)
    subst this
    exact .inl ⟨rfl, rfl⟩
  | cons q qs ih =>
    intro vs h p w hp
    obtain ⟨v, ws, rfl, hq, h'⟩ := h.cons
    simp only [CSet.dataAt, dataAt, load_ok hq, load_ok hp, bind, Except.bind, pure, Except.pure, setRemove,
      CSet.remove]
    cases he : eqf v w with
    | true =>
      right
      exact ⟨0, q, v, rfl, rfl, he, by simp, by simp, by simp, by simp⟩
    | false =>
      simp only [Bool.false_eq_true, if_false]
      rcases ih h' hp with ⟨e1, e2⟩ | ⟨i, d, u, e1, e2, e3, e4, e5, e6, e7⟩
      · exact .inl ⟨e1, e2⟩
      · exact .inr ⟨i + 1, d, u, by simpa using e1, by simpa using e2, e3, e4, e5, by rw [e6]; rfl, by
          rw [e7]; rfl⟩

theorem add_none {vs : List α} {w : α} (h : CSet.dataAt eqf vs w = none) : CSet.add eqf vs w = vs ++ [w] := by
  rw [dataAt_or] at h
  rw [CSet.add, if_neg]
  intro hm
  obtain ⟨z, hz, e⟩ := (CSet.mem_iff eqf vs w).1 hm
  exact List.find?_eq_none.1 h z hz e

theorem add_some {vs : List α} {w v : α} (h : CSet.dataAt eqf vs w = some v) : CSet.add eqf vs w = vs := by
  rw [dataAt_or] at h
  rw [CSet.add, if_pos]
  exact (CSet.mem_iff eqf vs w).2 ⟨v, List.mem_of_find?_eq_some h, by
    have := List.find?_some h; simpa using this⟩

/-- A new object that goes to the set. -/
theorem At.push {m0 m : Mem α} {s lost : List Nat} {vs : List α} (h : At m0 m s vs lost) (w : α) :
    At m0 (m ++ [⟨w, 1⟩]) (s ++ [m.length]) (vs ++ [w]) lost := by
  have hlen := h.len
  refine ⟨by simp; omega, fun p hp => by rw [create_val, if_neg (by omega)]; exact h.old p hp, ?_, ?_, ?_, ?_,
    h.lostNodup, ?_⟩
  · rw [List.map_append, List.map_append, ← h.vals]
    congr 1
    · exact List.map_congr_left fun q hq => by rw [create_val, if_neg (Nat.ne_of_lt (h.lt hq))]
    · simp [create_val]
  · intro q hq
    rcases List.mem_append.1 hq with hq | hq
    · exact h.new q hq
    · simp at hq; omega
  · rw [List.nodup_append]
    refine ⟨h.nodup, by simp, fun x hx y hy => ?_⟩
    simp at hy
    have := h.lt hx
    omega
  · intro p
    rw [create_own, h.ledger, List.count_append]
    omega
  · intro p hp
    have := h.lostB p hp
    simp; omega

/-- A new object that the set refuses. -/
theorem At.lose {m0 m : Mem α} {s lost : List Nat} {vs : List α} (h : At m0 m s vs lost) (w : α) :
    At m0 (m ++ [⟨w, 1⟩]) s vs (m.length :: lost) := by
  have hlen := h.len
  refine ⟨by simp; omega, fun p hp => by rw [create_val, if_neg (by omega)]; exact h.old p hp, ?_, h.new,
    h.nodup, ?_, ?_, ?_⟩
  · rw [← h.vals]
    exact List.map_congr_left fun q hq => by rw [create_val, if_neg (Nat.ne_of_lt (h.lt hq))]
  · intro p
    rw [create_own, h.ledger, count_cons_eq m.length lost]
    omega
  · refine List.nodup_cons.2 ⟨fun hm => ?_, h.lostNodup⟩
    have := h.lostB _ hm
    omega
  · intro p hp
    simp only [List.length_append, List.length_singleton]
    rcases List.mem_cons.1 hp with rfl | hp
    · omega
    · have := h.lostB p hp; omega

theorem dataAt_key (hk : ByKey eqf key) {vs : List α} {w : α} :
    CSet.dataAt eqf vs w = none ↔ key w ∉ vs.map key := by
  rw [dataAt_or, List.find?_eq_none]
  constructor
  · intro h hm
    obtain ⟨z, hz, e⟩ := List.mem_map.1 hm
    exact h z hz ((hk _ _).2 e)
  · intro h z hz e
    exact h (List.mem_map.2 ⟨z, hz, (hk _ _).1 e⟩)

theorem setAdd_create {m0 m : Mem α} {s lost : List Nat} {vs : List α} (h : At m0 m s vs lost) (w : α) :
    setAdd eqf (m ++ [⟨w, 1⟩]) s m.length = .ok (match CSet.dataAt eqf vs w with
      | some _ => (s, false)
      | none => (s ++ [m.length], true)) := by
  have hl : Lives (m ++ [⟨w, 1⟩]) s vs := h.lives.mono fun p v hv => hv.of_create
  rw [setAdd]
  rcases dataAt_lives (eqf := eqf) hl (live_create m w) with ⟨e1, e2⟩ | ⟨i, d, v, -, -, -, e4, e5, -, -⟩
  · rw [e1, e2]; rfl
  · rw [e4, e5]; rfl

theorem docFirst_ok (hk : ByKey eqf key) {m0 : Mem α} {f : Nat → α} {l : List Nat} :
    ∀ {m : Mem α} {s lost : List Nat} {vs : List α} {seen : List κ}, At m0 m s vs lost →
    (∀ p ∈ l, Live m0 p (f p)) → (∀ p ∈ l, key (copy (f p)) = key (f p)) →
    (∀ k, k ∈ seen ↔ k ∈ vs.map key) →
    ∃ (m' : Mem α) (s' lost' : List Nat), docFirst eqf copy l m s = .ok (m', s') ∧
      At m0 m' s' ((l.map f).foldl (fun s x => CSet.add eqf s (copy x)) vs) lost' ∧
      lost'.length = lost.length + repeatsIn seen ((l.map f).map key) := by
  induction l with
  | nil => intro m s lost vs seen h _ _ _; exact ⟨m, s, lost, rfl, h, by simp [repeatsIn]⟩
  | cons p ps ih =>
    intro m s lost vs seen h hl hc hseen
    have hp := h.live_old (hl p (by simp))
    have hcp := hc p (by simp)
    cases hd : CSet.dataAt eqf vs (copy (f p)) with
    | some v =>
      have hin : key (f p) ∈ seen := by
        rw [hseen]
        refine Classical.byContradiction fun hn => ?_
        rw [← hcp, ← dataAt_key hk] at hn
        rw [hn] at hd; cases hd
      obtain ⟨m', s', lost', r, i, ll⟩ := ih (h.lose (copy (f p))) (seen := key (f p) :: seen)
        (fun q hq => hl q (by simp [hq])) (fun q hq => hc q (by simp [hq])) fun k => by
          rw [← hseen, List.mem_cons]
          constructor
          · rintro (rfl | h)
            · exact hin
            · exact h
          · exact .inr
      refine ⟨m', s', lost', ?_, ?_, ?_⟩
      · rw [docFirst, load_ok hp]
        simp only [bind, Except.bind, create, setAdd_create h, hd]
        exact r
      · rw [List.map_cons, List.foldl_cons, add_some hd]; exact i
      · simp only [ll, List.length_cons, List.map_cons, repeatsIn, if_pos hin]
        omega
    | none =>
      have hin : key (f p) ∉ seen := by
        rw [hseen, ← hcp]
        exact (dataAt_key hk).1 hd
      obtain ⟨m', s', lost', r, i, ll⟩ := ih (h.push (copy (f p))) (seen := key (f p) :: seen)
        (fun q hq => hl q (by simp [hq])) (fun q hq => hc q (by simp [hq])) fun k => by
          rw [List.map_append, List.mem_append, ← hseen, List.mem_cons]
          simp only [List.map_cons, List.map_nil, hcp, List.mem_singleton]
          exact Or.comm
      refine ⟨m', s', lost', ?_, ?_, ?_⟩
      · rw [docFirst, load_ok hp]
        simp only [bind, Except.bind, create, setAdd_create h, hd]
        exact r
      · rw [List.map_cons, List.foldl_cons, add_none hd]; exact i
      · simp only [ll, List.map_cons, repeatsIn, if_neg hin]
        omega

theorem map_eraseIdx {β γ : Type} (g : β → γ) (l : List β) (i : Nat) :
    (l.eraseIdx i).map g = (l.map g).eraseIdx i := by
  induction l generalizing i with
  | nil => rfl
  | cons x xs ih => cases i <;> simp [ih]

theorem count_eraseIdx {l : List Nat} {i d : Nat} (h : l[i]? = some d) (q : Nat) :
    (l.eraseIdx i).count q + [d].count q = l.count q := by
  induction l generalizing i with
  | nil => simp at h
  | cons x xs ih =>
    cases i with
    | zero =>
      simp at h
      subst h
      rw [List.eraseIdx_cons_zero, count_cons_eq x xs]
      omega
    | succ i =>
      have := ih (i := i) (by simpa using h)
      rw [List.eraseIdx_cons_succ, count_cons_eq x (xs.eraseIdx i), count_cons_eq x xs]
      omega

/-- An object of the set is replaced by a new one: first the new object is made, then the old one is taken
out. -/
theorem At.replace {m0 m : Mem α} {s lost : List Nat} {vs : List α} (h : At m0 m s vs lost) {i d : Nat}
    (hd : s[i]? = some d) (w : α) : ∃ m', destroy (m ++ [⟨w, 1⟩]) d = .ok m' ∧
      m'.length = m.length + 1 ∧ (∀ q, valAt m' q = valAt (m ++ [⟨w, 1⟩]) q) ∧
      At m0 m' (s.eraseIdx i ++ [m.length]) (vs.eraseIdx i ++ [w]) lost := by
  have hdm := List.mem_of_getElem? hd
  have hlt := h.lt hdm
  have hvd : ∃ v, Live (m ++ [⟨w, 1⟩]) d v := by
    have h1 := h.lives
    obtain ⟨v, hv⟩ : ∃ v, vs[i]? = some v := by
      have := (List.getElem?_eq_some_iff.1 hd).1
      rw [h1.1] at this
      exact ⟨_, List.getElem?_eq_getElem this⟩
    exact ⟨v, (h1.2 i d v hd hv).of_create⟩
  obtain ⟨v, hv⟩ := hvd
  obtain ⟨m', e1, e2, e3, e4⟩ := destroy_ok hv
  have hlen := h.len
  have hp := h.push w
  refine ⟨m', e1, by simpa using e2, e3, ?_, ?_, ?_, ?_, ?_, ?_, h.lostNodup, ?_⟩
  · rw [e2]; simp; omega
  · intro p hp'
    rw [e3, create_val, if_neg (by omega)]
    exact h.old p hp'
  · rw [List.map_append, List.map_append, map_eraseIdx, map_eraseIdx]
    have hm : s.map (valAt m') = vs.map some := by
      rw [← h.vals]
      exact List.map_congr_left fun q hq => by
        rw [e3, create_val, if_neg (Nat.ne_of_lt (h.lt hq))]
    rw [hm]
    congr 1
    simp [e3, create_val]
  · intro q hq
    rcases List.mem_append.1 hq with hq | hq
    · exact h.new q (List.mem_of_mem_eraseIdx hq)
    · simp at hq; omega
  · rw [List.nodup_append]
    refine ⟨h.nodup.sublist (List.eraseIdx_sublist _ _), by simp, fun x hx y hy => ?_⟩
    simp at hy
    have := h.lt (List.mem_of_mem_eraseIdx hx)
    omega
  · intro p
    have h1 := e4 p
    have h2 := create_own m w p
    have h3 := h.ledger p
    have h4 := count_eraseIdx hd p
    rw [List.count_append]
    omega
  · intro p hp'
    have := h.lostB p hp'
    rw [e2]; simp; omega

theorem Lives.left {m : Mem α} {s t : List Nat} {vs ws : List α} (h : Lives m (s ++ t) (vs ++ ws))
    (hl : s.length = vs.length) : Lives m s vs := by
  refine ⟨hl, fun i p v h1 h2 => h.2 i p v ?_ ?_⟩
  · rw [List.getElem?_append_left (List.getElem?_eq_some_iff.1 h1).1]; exact h1
  · rw [List.getElem?_append_left (List.getElem?_eq_some_iff.1 h2).1]; exact h2

theorem At.last {m0 m : Mem α} {s lost : List Nat} {vs : List α} {q : Nat} {w : α}
    (h : At m0 m (s ++ [q]) (vs ++ [w]) lost) : Lives m s vs ∧ Live m q w := by
  have hl : s.length = vs.length := by simpa using congrArg List.length h.vals
  refine ⟨h.lives.left hl, h.lives.2 s.length q w (by simp) (by rw [hl]; simp)⟩

theorem unique_erase {vs : List α} (hu : (vs.map key).Nodup) {i : Nat} {v : α} (hv : vs[i]? = some v) :
    key v ∉ (vs.eraseIdx i).map key := by
  induction vs generalizing i with
  | nil => simp at hv
  | cons x xs ih =>
    have hu' := List.nodup_cons.1 hu
    cases i with
    | zero =>
      simp at hv
      subst hv
      exact hu'.1
    | succ i =>
      have hv' : xs[i]? = some v := by simpa using hv
      rw [List.eraseIdx_cons_succ, List.map_cons, List.mem_cons, not_or]
      refine ⟨fun e => hu'.1 ?_, ih hu'.2 hv'⟩
      exact e ▸ List.mem_map.2 ⟨v, List.mem_of_getElem? hv', rfl⟩

theorem setAdd_new (hk : ByKey eqf key) {m0 m : Mem α} {s lost : List Nat} {vs : List α} {q : Nat} {w : α}
    (h : At m0 m (s ++ [q]) (vs ++ [w]) lost) (hn : key w ∉ vs.map key) :
    setAdd eqf m s q = .ok (s ++ [q], true) := by
  obtain ⟨h1, h2⟩ := h.last
  rw [setAdd]
  rcases dataAt_lives (eqf := eqf) h1 h2 with ⟨-, e2⟩ | ⟨i, d, v, -, -, -, e4, -, -, -⟩
  · rw [e2]; rfl
  · rw [(dataAt_key hk).2 hn] at e4
    cases e4

theorem docSecond_ok (hk : ByKey eqf key) (hm : MergeOk key copy mrg P) {m0 : Mem α} {f : Nat → α}
    {l : List Nat} : ∀ {m : Mem α} {s lost : List Nat} {vs : List α}, At m0 m s vs lost →
    (vs.map key).Nodup → (∀ v ∈ vs, P v) → (∀ p ∈ l, Live m0 p (f p)) → (∀ p ∈ l, P (f p)) →
    ∃ (m' : Mem α) (s' : List Nat), docSecond eqf copy mrg l m s = .ok (m', s') ∧
      At m0 m' s' ((l.map f).foldl (docUnionStep eqf copy mrg) vs) lost := by
  induction l with
  | nil => intro m s lost vs h _ _ _ _; exact ⟨m, s, rfl, h⟩
  | cons p ps ih =>
    intro m s lost vs h hu hP hl hlP
    have hp := h.live_old (hl p (by simp))
    have hPp := hlP p (by simp)
    obtain ⟨u1, u2, -⟩ := docUnionStep_ok hk hm hu hP hPp
    rcases dataAt_lives (eqf := eqf) h.lives hp with ⟨e1, e2⟩ | ⟨i, d, v, e1, e2, e3, e4, e5, e6, e7⟩
    · have hn : key (copy (f p)) ∉ vs.map key := by
        rw [hm.copy_key _ hPp]
        exact (dataAt_key hk).1 e1
      have hstep : docUnionStep eqf copy mrg vs (f p) = vs ++ [copy (f p)] := by
        rw [docUnionStep, e1]
        exact add_none ((dataAt_key hk).2 hn)
      rw [hstep] at u1 u2
      have hq := h.push (copy (f p))
      obtain ⟨m', s', r, i'⟩ := ih hq u1 u2 (fun q hq => hl q (by simp [hq])) fun q hq => hlP q (by simp [hq])
      refine ⟨m', s', ?_, ?_⟩
      · rw [docSecond, e2]
        simp only [bind, Except.bind, load_ok hp, create, setAdd_new hk hq hn]
        exact r
      · rw [List.map_cons, List.foldl_cons, hstep]; exact i'
    · have hkv : key v = key (f p) := (hk _ _).1 e3
      have hPv := hP v (List.mem_of_getElem? e2)
      have hkm : key (mrg v (f p)) = key v := (hm.mrg_key _ _ hPv hPp hkv).trans hkv.symm
      have hn : key (mrg v (f p)) ∉ (vs.eraseIdx i).map key := by
        rw [hkm]
        exact unique_erase hu e2
      have hstep : docUnionStep eqf copy mrg vs (f p) = vs.eraseIdx i ++ [mrg v (f p)] := by
        rw [docUnionStep, e4]
        simp only [e7]
        exact add_none ((dataAt_key hk).2 hn)
      rw [hstep] at u1 u2
      obtain ⟨m1, x1, x2, x3, x4⟩ := h.replace e1 (mrg v (f p))
      have hd : Live m d v := h.lives.2 i d v e1 e2
      have hrem : setRemove eqf (m ++ [⟨mrg v (f p), 1⟩]) s p = .ok (s.eraseIdx i) := by
        have hl' : Lives (m ++ [⟨mrg v (f p), 1⟩]) s vs := h.lives.mono fun p v hv => hv.of_create
        rcases dataAt_lives (eqf := eqf) hl' hp.of_create with
          ⟨y1, -⟩ | ⟨j, d', v', y1, y2, y3, -, -, y6, -⟩
        · rw [y1] at e4; cases e4
        · have : j = i := by
            have k1 : key v' = key v := ((hk _ _).1 y3).trans hkv.symm
            have n1 : (vs.map key)[j]? = some (key v) := by rw [List.getElem?_map, y2, Option.map_some, k1]
            have n2 : (vs.map key)[i]? = some (key v) := by rw [List.getElem?_map, e2]; rfl
            have hj := (List.getElem?_eq_some_iff.1 n1).1
            exact (List.getElem?_inj hj hu).1 (n1.trans n2.symm)
          rw [this] at y6
          exact y6
      obtain ⟨m', s', r, i'⟩ := ih x4 u1 u2 (fun q hq => hl q (by simp [hq])) fun q hq => hlP q (by simp [hq])
      refine ⟨m', s', ?_, ?_⟩
      · rw [docSecond, e5]
        simp only [bind, Except.bind, load_ok hp, load_ok hd, create, hrem, x1, setAdd_new hk x4 hn]
        exact r
      · rw [List.map_cons, List.foldl_cons, hstep]; exact i'

/-- comps_doc_union, one kind of entries. -/
theorem docUnion_done (hk : ByKey eqf key) (hm : MergeOk key copy mrg P) {m : Mem α} {f : Nat → α}
    {l1 l2 : List Nat} (h1 : ∀ p ∈ l1, Live m p (f p)) (h2 : ∀ p ∈ l2, Live m p (f p))
    (p1 : ∀ p ∈ l1, P (f p)) (p2 : ∀ p ∈ l2, P (f p)) :
    ∃ m' ret lost, docUnion eqf copy mrg m l1 l2 = .ok (m', ret) ∧
      Done m m' ret [] lost (docUnionList eqf copy mrg (l1.map f) (l2.map f)) ∧
      lost.length = repeats ((l1.map f).map key) := by
  have h0 : At m m [] [] [] := ⟨Nat.le_refl _, fun _ _ => rfl, rfl, by simp, by simp, by simp, by simp,
    by simp⟩
  obtain ⟨m1, s1, lost, r1, i1, ll⟩ := docFirst_ok (copy := copy) hk h0 (seen := []) h1
    (fun p hp => hm.copy_key _ (p1 p hp)) (by simp)
  obtain ⟨u, q, -⟩ := docSet_ok (copy := copy) hk hm (l := l1.map f) (by
    intro x hx
    obtain ⟨p, hp, rfl⟩ := List.mem_map.1 hx
    exact p1 p hp)
  obtain ⟨m2, s2, r2, i2⟩ := docSecond_ok hk hm i1 u q h2 p2
  refine ⟨m2, s2, lost, ?_, ?_, by simpa [repeats] using ll⟩
  · rw [docUnion, r1]
    exact r2
  · refine ⟨i2.old, by rw [List.append_nil]; exact i2.vals, i2.nodup, i2.new, by simpa using i2.ledger, i2.lostNodup,
      fun p hp => (i2.lostB p hp).1⟩

end Comps.Own
