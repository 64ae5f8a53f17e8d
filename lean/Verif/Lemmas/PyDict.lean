import Verif.Lemmas.RTreeBack
import Verif.Spec.PyDict

/-!
# Lemmas: dictionaries of strings as Python sees them
-/

namespace Comps.PyDict
open Comps Comps.RTree Comps.Spec Comps.Spec.PyD

/-! ### Objects -/

/-- How many references an object counts; 0 when it is not there. -/
def holders (s : Store) (a : Nat) : Nat :=
  match s[a]? with
  | some (some o) => o.rc + 1
  | _ => 0

/-- The text of an object. -/
def valAt (s : Store) (a : Nat) : Option Bytes :=
  match s[a]? with
  | some (some o) => o.val
  | _ => none

theorem load_ok {s : Store} {a : Nat} (h : 0 < holders s a) :
    ∃ o, load s a = .ok o ∧ s[a]? = some (some o) ∧ o.val = valAt s a := by
  unfold holders at h
  unfold load valAt
  split at h
  · rename_i o ho; exact ⟨o, by rw [ho], ho, rfl⟩
  · omega

theorem holders_lt {s : Store} {a : Nat} (h : 0 < holders s a) : a < s.length := by
  obtain ⟨o, -, ho, -⟩ := load_ok h
  exact (List.getElem?_eq_some_iff.1 ho).1

theorem incref_ok {s : Store} {a : Nat} (h : 0 < holders s a) :
    ∃ s', incref s a = .ok s' ∧ (∀ b, holders s' b = holders s b + one (b = a)) ∧
      (∀ b, valAt s' b = valAt s b) ∧ s'.length = s.length := by
  obtain ⟨o, ho, hs, -⟩ := load_ok h
  have hlt := holders_lt h
  refine ⟨s.set a (some { o with rc := o.rc + 1 }), by simp [incref, ho, bind, Except.bind, pure, Except.pure], ?_, ?_, by simp⟩
  · intro b
    unfold holders one
    by_cases hb : b = a
    · subst hb; rw [List.getElem?_set_self hlt, hs]; simp
    · rw [List.getElem?_set_ne (Ne.symm hb)]; simp [hb]
  · intro b
    unfold valAt
    by_cases hb : b = a
    · subst hb; rw [List.getElem?_set_self hlt, hs]
    · rw [List.getElem?_set_ne (Ne.symm hb)]

theorem destroy_ok {s : Store} {a : Nat} (h : 0 < holders s a) :
    ∃ s', destroy s a = .ok s' ∧ (∀ b, holders s' b + one (b = a) = holders s b) ∧
      (∀ b, 0 < holders s' b → valAt s' b = valAt s b) ∧ s'.length = s.length := by
  obtain ⟨o, ho, hs, -⟩ := load_ok h
  have hlt := holders_lt h
  cases hrc : o.rc with
  | zero =>
    refine ⟨s.set a none, by simp [destroy, ho, hrc, bind, Except.bind, pure, Except.pure], ?_, ?_, by simp⟩
    · intro b
      unfold holders one
      by_cases hb : b = a
      · subst hb; rw [List.getElem?_set_self hlt, hs]; simp [hrc]
      · rw [List.getElem?_set_ne (Ne.symm hb)]; simp [hb]
    · intro b hb0
      unfold holders at hb0
      unfold valAt
      by_cases hb : b = a
      · subst hb; rw [List.getElem?_set_self hlt] at hb0; simp at hb0
      · rw [List.getElem?_set_ne (Ne.symm hb)]
  | succ n =>
    refine ⟨s.set a (some { o with rc := n }), by simp [destroy, ho, hrc, bind, Except.bind, pure, Except.pure], ?_, ?_, by simp⟩
    · intro b
      unfold holders one
      by_cases hb : b = a
      · subst hb; rw [List.getElem?_set_self hlt, hs]; simp [hrc]
      · rw [List.getElem?_set_ne (Ne.symm hb)]; simp [hb]
    · intro b _
      unfold valAt
      by_cases hb : b = a
      · subst hb; rw [List.getElem?_set_self hlt, hs]
      · rw [List.getElem?_set_ne (Ne.symm hb)]

theorem one_comm {a b : Nat} : one (a = b) = one (b = a) := by
  unfold one
  by_cases h : a = b
  · subst h; rfl
  · rw [if_neg h, if_neg fun e => h e.symm]

theorem count_cons_one (a b : Nat) (l : List Nat) : (a :: l).count b = one (b = a) + l.count b := by
  rw [List.count_cons, Nat.add_comm, ← one_comm]
  unfold one
  simp

theorem destroyAll_ok (l : List Nat) : ∀ {s : Store}, (∀ b, l.count b ≤ holders s b) →
    ∃ s', destroyAll s l = .ok s' ∧ (∀ b, holders s' b + l.count b = holders s b) ∧
      (∀ b, 0 < holders s' b → valAt s' b = valAt s b) ∧ s'.length = s.length := by
  induction l with
  | nil => intro s _; exact ⟨s, rfl, by simp, by simp, rfl⟩
  | cons a l ih =>
    intro s h
    have ha := h a
    rw [count_cons_one] at ha
    have h1 : one (a = a) = 1 := by simp [one]
    obtain ⟨s1, e1, c1, v1, l1⟩ := destroy_ok (s := s) (a := a) (by omega)
    obtain ⟨s2, e2, c2, v2, l2⟩ := ih (s := s1) (by
      intro b
      have := h b
      rw [count_cons_one] at this
      have := c1 b
      omega)
    refine ⟨s2, by simp [destroyAll, e1, e2, bind, Except.bind], ?_, ?_, by omega⟩
    · intro b
      have := c1 b
      have := c2 b
      rw [count_cons_one]
      omega
    · intro b hb
      rw [v2 b hb, v1 b]
      have := c2 b
      omega

theorem increfAll_ok (l : List Nat) : ∀ {s : Store}, (∀ b ∈ l, 0 < holders s b) →
    ∃ s', increfAll s l = .ok s' ∧ (∀ b, holders s' b = holders s b + l.count b) ∧
      (∀ b, valAt s' b = valAt s b) ∧ s'.length = s.length := by
  induction l with
  | nil => intro s _; exact ⟨s, rfl, by simp, by simp, rfl⟩
  | cons a l ih =>
    intro s h
    obtain ⟨s1, e1, c1, v1, l1⟩ := incref_ok (h a (by simp))
    obtain ⟨s2, e2, c2, v2, l2⟩ := ih (s := s1) (by
      intro b hb
      have := h b (by simp [hb])
      have := c1 b
      omega)
    refine ⟨s2, by simp [increfAll, e1, e2, bind, Except.bind], ?_, ?_, by omega⟩
    · intro b
      have := c1 b
      have := c2 b
      rw [count_cons_one]
      omega
    · intro b
      rw [v2 b, v1 b]

theorem alloc_spec (s : Store) (v : Option Bytes) :
    (alloc s v).2 = s.length ∧
    (∀ b, holders (alloc s v).1 b = holders s b + one (b = s.length)) ∧
    (∀ b, valAt (alloc s v).1 b = if b = s.length then v else valAt s b) ∧
    (alloc s v).1.length = s.length + 1 := by
  refine ⟨rfl, ?_, ?_, by simp [alloc]⟩
  · intro b
    unfold holders one alloc
    rcases Nat.lt_trichotomy b s.length with h | h | h
    · rw [List.getElem?_append_left h, if_neg (by omega)]; rfl
    · subst h; simp
    · rw [List.getElem?_eq_none (by simp; omega), List.getElem?_eq_none (by omega),
        if_neg (by omega)]
  · intro b
    unfold valAt alloc
    rcases Nat.lt_trichotomy b s.length with h | h | h
    · rw [List.getElem?_append_left h, if_neg (by omega)]
    · subst h; simp
    · rw [List.getElem?_eq_none (by simp; omega), List.getElem?_eq_none (by omega),
        if_neg (by omega)]

theorem holders_fresh (s : Store) : holders s s.length = 0 := by
  unfold holders; simp

/-! ### References held by dictionaries -/

/-- How many references the dictionaries hold to an object. -/
def total : List (Option (RTree Nat)) → Nat → Nat
  | [], _ => 0
  | none :: ds, a => total ds a
  | some t :: ds, a => t.uses a + total ds a

theorem total_append (ds es : List (Option (RTree Nat))) (a : Nat) :
    total (ds ++ es) a = total ds a + total es a := by
  induction ds with
  | nil => simp [total]
  | cons d ds ih => cases d <;> simp [total, ih]; omega

theorem total_none {ds : List (Option (RTree Nat))} (h : ∀ d ∈ ds, d = none) (a : Nat) :
    total ds a = 0 := by
  induction ds with
  | nil => rfl
  | cons d ds ih =>
    have := h d (by simp)
    subst this
    exact ih fun d hd => h d (by simp [hd])

theorem total_set {ds : List (Option (RTree Nat))} {i : Nat} {t : RTree Nat}
    (h : (ds[i]?).join = some t) (t' : RTree Nat) (a : Nat) :
    total (ds.set i (some t')) a + t.uses a = total ds a + t'.uses a := by
  induction ds generalizing i with
  | nil => simp at h
  | cons d ds ih =>
    cases i with
    | zero =>
      simp at h
      subst h
      simp [total]
      omega
    | succ i =>
      simp at h
      have := ih (i := i) (by simpa using h)
      cases d <;> simp [total] <;> omega

theorem total_drop {ds : List (Option (RTree Nat))} {i : Nat} {t : RTree Nat}
    (h : (ds[i]?).join = some t) (a : Nat) :
    total (ds.set i none) a + t.uses a = total ds a := by
  induction ds generalizing i with
  | nil => simp at h
  | cons d ds ih =>
    cases i with
    | zero =>
      simp at h
      subst h
      simp [total]
      omega
    | succ i =>
      simp at h
      have := ih (i := i) (by simpa using h)
      cases d <;> simp [total] <;> omega

theorem uses_le_total {ds : List (Option (RTree Nat))} {i : Nat} {t : RTree Nat}
    (h : (ds[i]?).join = some t) (a : Nat) : t.uses a ≤ total ds a := by
  have := total_drop h a
  omega

theorem uses_le_total2 {ds : List (Option (RTree Nat))} {i j : Nat} {t u : RTree Nat}
    (h : (ds[i]?).join = some t) (h2 : (ds[j]?).join = some u) (hij : i ≠ j) (a : Nat) :
    t.uses a + u.uses a ≤ total ds a := by
  have h1 := total_drop h a
  have : ((ds.set i none)[j]?).join = some u := by
    rw [List.getElem?_set_ne hij]; exact h2
  have := uses_le_total this a
  omega

/-! ### Writing one key -/

theorem treeSet_ok (lt : UInt8 → UInt8 → Bool) {s : Store} {t : RTree Nat} (k : Bytes) (a : Nat)
    (h : ∀ o, t.get k = some o → 0 < holders s o) :
    ∃ s', treeSet lt s t k a = .ok (s', t.set lt k (some a)) ∧
      (∀ b, holders s' b + one (t.get k = some b) = holders s b) ∧
      (∀ b, 0 < holders s' b → valAt s' b = valAt s b) ∧ s'.length = s.length := by
  unfold treeSet
  cases hg : t.get k with
  | none => exact ⟨s, rfl, by simp [one], fun b _ => rfl, rfl⟩
  | some o =>
    obtain ⟨s1, e1, c1, v1, l1⟩ := destroy_ok (h o hg)
    refine ⟨s1, by simp [e1, bind, Except.bind, pure, Except.pure], ?_, v1, l1⟩
    intro b
    rw [← c1 b]
    congr 1
    unfold one
    simp only [Option.some.injEq]
    by_cases hb : b = o
    · subst hb; simp
    · rw [if_neg hb, if_neg fun e => hb e.symm]

/-- The calls of `comps_objrtree_set` with references held elsewhere. -/
theorem uniteSets_ok (lt : UInt8 → UInt8 → Bool) (E : Nat → Nat) (ws : List (Bytes × Nat)) :
    ∀ {s : Store} {t : RTree Nat}, WF t.subnodes → (∀ b, t.uses b + E b ≤ holders s b) →
      (∀ e ∈ ws, 0 < E e.2) →
      ∃ s' t', uniteSets lt s t ws = .ok (s', t') ∧ t' = setAll lt t (asWrites ws) ∧
        WF t'.subnodes ∧ (∀ b, t'.uses b + E b ≤ holders s' b) ∧
        (∀ b, holders s b + t'.uses b ≤ holders s' b + t.uses b) ∧
        (∀ b, 0 < holders s' b → 0 < holders s b ∧ valAt s' b = valAt s b) ∧ s'.length = s.length ∧
        (∀ k ∈ t'.keys, k ∈ t.keys ∨ ∃ e ∈ ws, e.1 = k) := by
  induction ws with
  | nil =>
    intro s t hw hb _
    exact ⟨s, t, rfl, rfl, hw, hb, fun _ => by omega, fun _ h => ⟨h, rfl⟩, rfl, fun k hk => .inl hk⟩
  | cons e ws ih =>
    intro s t hw hb hE
    obtain ⟨k, a⟩ := e
    have hEa : 0 < E a := hE (k, a) (by simp)
    have := hb a
    obtain ⟨s1, e1, c1, v1, l1⟩ := incref_ok (s := s) (a := a) (by omega)
    obtain ⟨s2, e2, c2, v2, l2⟩ := treeSet_ok lt (s := s1) (t := t) k a (by
      intro o ho
      have := uses_pos hw ho
      have := hb o
      have := c1 o
      omega)
    have hstep : ∀ b, (t.set lt k (some a)).uses b + holders s b ≤ holders s2 b + t.uses b := by
      intro b
      have h1 := uses_set_le lt hw k a b
      have h2 := c1 b
      have h3 := c2 b
      have h4 : one (a = b) = one (b = a) := one_comm
      omega
    obtain ⟨s3, t3, e3, g3, w3, b3, m3, v3, l3, k3⟩ := ih (s := s2) (t := t.set lt k (some a))
      (set_wf lt hw _ _) (by
        intro b
        have := hstep b
        have := hb b
        omega) (fun e he => hE e (by simp [he]))
    refine ⟨s3, t3, by simp [uniteSets, e1, e2, e3, bind, Except.bind], ?_, w3, b3, ?_, ?_, by omega, ?_⟩
    · rw [g3]; rfl
    · intro b
      have := m3 b
      have := hstep b
      omega
    · intro b hb3
      obtain ⟨p2, q2⟩ := v3 b hb3
      have h2 := c2 b
      have h1 := c1 b
      refine ⟨?_, by rw [q2, v2 b p2, v1 b]⟩
      by_cases hba : b = a
      · subst hba; omega
      · have : one (b = a) = 0 := by simp [one, hba]
        omega
    · intro k' hk'
      rcases k3 k' hk' with h | ⟨e, he, rfl⟩
      · rcases mem_keys_set lt hw h with rfl | h
        · exact .inr ⟨(k', a), by simp, rfl⟩
        · exact .inl h
      · exact .inr ⟨e, by simp [he], rfl⟩

/-- `d.update(d)`: every call stores what is there. -/
theorem uniteSets_self (lt : UInt8 → UInt8 → Bool) (ws : List (Bytes × Nat)) :
    ∀ {s : Store} {t : RTree Nat}, WF t.subnodes → (∀ b, t.uses b ≤ holders s b) →
      (∀ e ∈ ws, t.get e.1 = some e.2) →
      ∃ s' t', uniteSets lt s t ws = .ok (s', t') ∧ t' = setAll lt t (asWrites ws) ∧
        WF t'.subnodes ∧ (∀ k, t'.get k = t.get k) ∧
        (∀ b, holders s' b = holders s b) ∧
        (∀ b, 0 < holders s' b → 0 < holders s b ∧ valAt s' b = valAt s b) ∧
        s'.length = s.length := by
  induction ws with
  | nil =>
    intro s t hw hb _
    exact ⟨s, t, rfl, rfl, hw, fun _ => rfl, fun _ => rfl, fun _ h => ⟨h, rfl⟩, rfl⟩
  | cons e ws ih =>
    intro s t hw hb hE
    obtain ⟨k, a⟩ := e
    have hk : t.get k = some a := hE (k, a) (by simp)
    have hne : k ≠ [] := by rintro rfl; rw [get_nil] at hk; simp at hk
    have hg : ∀ k', (t.set lt k (some a)).get k' = t.get k' := by
      intro k'
      by_cases h : k' = k
      · subst h; rw [set_get lt hw _ hne, hk]
      · exact set_hit lt hw _ (by rw [hk]; simp) h
    have hu := uses_congr hw (set_wf lt hw k (some a)) hg
    have := uses_pos hw hk
    have := hb a
    obtain ⟨s1, e1, c1, v1, l1⟩ := incref_ok (s := s) (a := a) (by omega)
    obtain ⟨s2, e2, c2, v2, l2⟩ := treeSet_ok lt (s := s1) (t := t) k a (by
      intro o ho
      have := uses_pos hw ho
      have := hb o
      have := c1 o
      omega)
    have hh : ∀ b, holders s2 b = holders s b := by
      intro b
      have h1 := c1 b
      have h2 := c2 b
      rw [hk] at h2
      have : one (some a = some b) = one (b = a) := by
        simp only [Option.some.injEq]; exact one_comm
      omega
    obtain ⟨s3, t3, e3, g3, w3, k3, h3, v3, l3⟩ := ih (s := s2) (t := t.set lt k (some a))
      (set_wf lt hw _ _) (fun b => by rw [hu, hh]; exact hb b)
      (fun e he => by rw [hg]; exact hE e (by simp [he]))
    refine ⟨s3, t3, by simp [uniteSets, e1, e2, e3, bind, Except.bind], by rw [g3]; rfl, w3,
      fun k' => by rw [k3, hg], fun b => by rw [h3, hh], ?_, by omega⟩
    intro b hb3
    obtain ⟨p2, q2⟩ := v3 b hb3
    exact ⟨by rw [← hh]; exact p2, by rw [q2, v2 b p2, v1 b]⟩

theorem uniteVisits_eq (fuel : Nat) (q : List (Bytes × List (Node Nat))) :
    uniteVisits fuel q = uniteCalls fuel q := by
  induction fuel generalizing q with
  | zero => rfl
  | succ fuel ih =>
    cases q with
    | nil => rfl
    | cons e es =>
      simp only [uniteVisits, uniteCalls, ih]
      congr 1
      obtain ⟨k, l⟩ := e
      simp only
      induction l with
      | nil => rfl
      | cons n l ihl =>
        rw [List.filterMap_cons, List.flatMap_cons, ← ihl]
        cases n.data <;> rfl

theorem update_eq (lt : UInt8 → UInt8 → Bool) (s : Store) (t1 t2 : RTree Nat) :
    update lt s t1 t2 = uniteSets lt s t1 (uniteWrites t2) := by
  unfold update uniteWrites
  rw [uniteVisits_eq]

/-! ### The invariant -/

/-- What an iterator may still read. -/
def ItOk (st : St) : Iter → It → Prop
  | .keys _, _ => True
  | .values l, it => it.kind = .values ∧ (it.stale = false → ∃ t, dictAt st it.dict = some t ∧
      ∀ a ∈ l, a ∈ t.values)
  | .items l, it => it.kind = .items ∧ (it.stale = false → ∃ t, dictAt st it.dict = some t ∧
      ∀ e ∈ l, e ∈ t.pairs)

/-- What holds between the operations of a careful program. -/
structure Inv (utf8 : Bytes → Bool) (st : St) (its : List It) : Prop where
  good : ∀ i t, dictAt st i = some t → WF t.subnodes ∧ ∀ k ∈ t.keys, utf8 k = true
  bal : ∀ a, total st.dicts a ≤ holders st.store a
  txt : ∀ a, 0 < holders st.store a → utf8 ((valAt st.store a).getD []) = true
  ilen : st.iters.length = its.length
  its : ∀ (j : Nat) (x : Iter) (it : It), st.iters[j]? = some x → its[j]? = some it → ItOk st x it

/-- No reference held by a dictionary is lost track of: the surplus of counts never shrinks. -/
def Mono (st st' : St) : Prop := ∀ a, holders st.store a + total st'.dicts a ≤
  holders st'.store a + total st.dicts a

theorem ItOk.mono {st st' : St} {x : Iter} {it : It}
    (h : it.stale = false → ∀ t, dictAt st it.dict = some t → dictAt st' it.dict = some t)
    (hi : ItOk st x it) : ItOk st' x it := by
  cases x with
  | keys l => trivial
  | values l =>
    refine ⟨hi.1, fun hs => ?_⟩
    obtain ⟨t, ht, hl⟩ := hi.2 hs
    exact ⟨t, h hs t ht, hl⟩
  | items l =>
    refine ⟨hi.1, fun hs => ?_⟩
    obtain ⟨t, ht, hl⟩ := hi.2 hs
    exact ⟨t, h hs t ht, hl⟩

variable {utf8 : Bytes → Bool} {st : St} {its : List It}

theorem Inv.live (h : Inv utf8 st its) {i : Nat} {t : RTree Nat} (ht : dictAt st i = some t)
    {a : Nat} (ha : a ∈ t.values) : 0 < holders st.store a := by
  have h1 := h.bal a
  have h2 := uses_le_total ht a
  have h3 : 0 < t.uses a := List.count_pos_iff.2 ha
  omega

theorem mem_values {t : RTree Nat} (hw : WF t.subnodes) {k : Bytes} {a : Nat}
    (h : t.get k = some a) : a ∈ t.values := List.count_pos_iff.1 (uses_pos hw h)

/-- Changing only the objects. -/
theorem Inv.store (h : Inv utf8 st its) {s' : Store}
    (h1 : ∀ b, holders st.store b ≤ holders s' b)
    (h2 : ∀ b, 0 < holders s' b → 0 < holders st.store b ∧ valAt s' b = valAt st.store b) :
    Inv utf8 { st with store := s' } its where
  good := h.good
  bal a := Nat.le_trans (h.bal a) (h1 a)
  txt a ha := by
    obtain ⟨p, q⟩ := h2 a ha
    simp only [q]
    exact h.txt a p
  ilen := h.ilen
  its := h.its

theorem touch_get {i : Nat} {its : List It} {j : Nat} {it : It}
    (h : (touch i its)[j]? = some it) : ∃ it0, its[j]? = some it0 ∧
      it = (if it0.dict = i then { it0 with stale := true } else it0) := by
  unfold touch at h
  rw [List.getElem?_map] at h
  cases h0 : its[j]? with
  | none => rw [h0] at h; simp at h
  | some it0 => rw [h0] at h; exact ⟨it0, rfl, by simpa using h.symm⟩

theorem dictAt_set {st : St} {i : Nat} {t : RTree Nat} (ht : dictAt st i = some t)
    (s : Store) (d : Option (RTree Nat)) (i' : Nat) :
    dictAt ⟨s, st.dicts.set i d, st.iters⟩ i' = if i' = i then d else dictAt st i' := by
  unfold dictAt at *
  have hlt : i < st.dicts.length := by
    rcases Nat.lt_or_ge i st.dicts.length with h | h
    · exact h
    · rw [List.getElem?_eq_none h] at ht; simp at ht
  by_cases hi : i' = i
  · subst hi; rw [if_pos rfl]; simp only; rw [List.getElem?_set_self hlt]; rfl
  · rw [if_neg hi]; simp only; rw [List.getElem?_set_ne (Ne.symm hi)]

theorem dictAt_append (st : St) (s : Store) (its : List Iter) (d : Option (RTree Nat)) (i' : Nat) :
    dictAt ⟨s, st.dicts ++ [d], its⟩ i' =
      if i' = st.dicts.length then d else dictAt st i' := by
  unfold dictAt
  simp only
  rcases Nat.lt_trichotomy i' st.dicts.length with h | h | h
  · rw [List.getElem?_append_left h, if_neg (by omega)]
  · subst h; simp
  · rw [List.getElem?_eq_none (by simp; omega), List.getElem?_eq_none (by omega),
      if_neg (by omega)]

/-- Changing one dictionary and the objects. -/
theorem Inv.put (h : Inv utf8 st its) {i : Nat} {t : RTree Nat} (ht : dictAt st i = some t)
    {s' : Store} {d : Option (RTree Nat)}
    (hg : ∀ t', d = some t' → WF t'.subnodes ∧ ∀ k ∈ t'.keys, utf8 k = true)
    (hb : ∀ a, total (st.dicts.set i d) a ≤ holders s' a)
    (htx : ∀ a, 0 < holders s' a → utf8 ((valAt s' a).getD []) = true) :
    Inv utf8 { st with store := s', dicts := st.dicts.set i d } (touch i its) where
  good i' t' h' := by
    rw [dictAt_set ht] at h'
    split at h'
    · exact hg t' h'
    · exact h.good i' t' h'
  bal := hb
  txt := htx
  ilen := by simp [touch, h.ilen]
  its j x it hj hit := by
    obtain ⟨it0, h0, rfl⟩ := touch_get hit
    have := h.its j x it0 hj h0
    by_cases hi : it0.dict = i
    · rw [if_pos hi]
      cases x with
      | keys l => trivial
      | values l => exact ⟨this.1, by simp⟩
      | items l => exact ⟨this.1, by simp⟩
    · rw [if_neg hi]
      refine this.mono fun _ t' h' => ?_
      rw [dictAt_set ht, if_neg hi]
      exact h'

/-- Adding a dictionary. -/
theorem Inv.add (h : Inv utf8 st its) {s' : Store} {d : Option (RTree Nat)}
    (hg : ∀ t', d = some t' → WF t'.subnodes ∧ ∀ k ∈ t'.keys, utf8 k = true)
    (hb : ∀ a, total (st.dicts ++ [d]) a ≤ holders s' a)
    (htx : ∀ a, 0 < holders s' a → utf8 ((valAt s' a).getD []) = true) :
    Inv utf8 { st with store := s', dicts := st.dicts ++ [d] } its where
  good i' t' h' := by
    rw [dictAt_append] at h'
    split at h'
    · exact hg t' h'
    · exact h.good i' t' h'
  bal := hb
  txt := htx
  ilen := h.ilen
  its j x it hj hit := by
    refine (h.its j x it hj hit).mono fun _ t' h' => ?_
    rw [dictAt_append, if_neg]
    · exact h'
    · intro e
      rw [e] at h'
      simp [dictAt] at h'

/-- Adding an iterator. -/
theorem Inv.addIter (h : Inv utf8 st its) {x : Iter} {it : It} (hx : ItOk st x it) :
    Inv utf8 { st with iters := st.iters ++ [x] } (its ++ [it]) where
  good := h.good
  bal := h.bal
  txt := h.txt
  ilen := by simp [h.ilen]
  its j y i hj hi := by
    have hl := h.ilen
    simp only at hj
    rcases Nat.lt_trichotomy j st.iters.length with hlt | heq | hgt
    · rw [List.getElem?_append_left hlt] at hj
      rw [List.getElem?_append_left (by omega)] at hi
      exact h.its j y i hj hi
    · subst heq
      rw [hl] at hi
      simp at hj hi
      subst hj hi
      exact hx
    · rw [List.getElem?_eq_none (by simp; omega)] at hj
      simp at hj

theorem Inv.touched (h : Inv utf8 st its) (i : Nat) : Inv utf8 st (touch i its) where
  good := h.good
  bal := h.bal
  txt := h.txt
  ilen := by simp [touch, h.ilen]
  its j x it hj hit := by
    obtain ⟨it0, h0, rfl⟩ := touch_get hit
    have := h.its j x it0 hj h0
    by_cases hi : it0.dict = i
    · rw [if_pos hi]
      cases x with
      | keys l => trivial
      | values l => exact ⟨this.1, by simp⟩
      | items l => exact ⟨this.1, by simp⟩
    · rw [if_neg hi]; exact this

/-! ### One operation of a careful program -/

theorem cstr_split (b : Bytes) : ∃ q, b = cstr b ++ q ∧ 0 ∉ cstr b ∧ (q = [] ∨ q.head? = some 0) := by
  refine ⟨b.dropWhile (· ≠ 0), (List.takeWhile_append_dropWhile).symm, ?_, ?_⟩
  · intro h
    have := List.all_eq_true.1 (List.all_takeWhile (p := fun x : UInt8 => decide (x ≠ 0)) (l := b)) _ h
    simp at this
  · induction b with
    | nil => exact .inl rfl
    | cons x xs ih =>
      rw [List.dropWhile_cons]
      split
      · exact ih
      · rename_i hx
        right
        simpa using hx

theorem decodes_key {k : Arg} {kb : Bytes} (hd : Decodes utf8 k) (hk : keyIn k = .ok kb) :
    utf8 kb = true := by
  cases k with
  | str o =>
    cases o with
    | none => simp [keyIn] at hk
    | some b =>
      simp only [keyIn, Except.ok.injEq] at hk
      obtain ⟨q, h1, h2, h3⟩ := cstr_split b
      rw [← hk]
      exact hd _ _ h1 h2 h3
  | bytes b => simp [keyIn] at hk
  | none => simp [keyIn] at hk
  | other => simp [keyIn] at hk

theorem decodes_val {v : Arg} {x : Option Bytes} (h0 : utf8 [] = true) (hd : Decodes utf8 v)
    (hk : valueIn v = some x) : utf8 (x.getD []) = true := by
  cases v with
  | str o =>
    cases o with
    | none => simp only [valueIn, Option.some.injEq] at hk; subst hk; exact h0
    | some b =>
      simp only [valueIn, Option.some.injEq] at hk
      obtain ⟨q, h1, h2, h3⟩ := cstr_split b
      rw [← hk]
      exact hd _ _ h1 h2 h3
  | bytes b =>
    simp only [valueIn, Option.some.injEq] at hk
    obtain ⟨q, h1, h2, h3⟩ := cstr_split b
    rw [← hk]
    exact hd _ _ h1 h2 h3
  | none => simp [valueIn] at hk
  | other => simp [valueIn] at hk

/-- Reading a value: the reference taken is given back. -/
theorem read_ok (h : Inv utf8 st its) {i : Nat} {t : RTree Nat} (ht : dictAt st i = some t)
    {k : Bytes} {a : Nat} (hk : t.get k = some a) :
    ∃ s1 o s2, incref st.store a = .ok s1 ∧ load s1 a = .ok o ∧ destroy s1 a = .ok s2 ∧
      tostr o = (valAt st.store a).getD [] ∧ (∀ b, holders s2 b = holders st.store b) ∧
      (∀ b, 0 < holders s2 b → 0 < holders st.store b ∧ valAt s2 b = valAt st.store b) := by
  have hl := h.live ht (mem_values (h.good i t ht).1 hk)
  obtain ⟨s1, e1, c1, v1, -⟩ := incref_ok hl
  have hl1 : 0 < holders s1 a := by rw [c1]; omega
  obtain ⟨o, ho, -, hv⟩ := load_ok hl1
  obtain ⟨s2, e2, c2, v2, -⟩ := destroy_ok hl1
  have hh : ∀ b, holders s2 b = holders st.store b := by
    intro b
    have := c1 b
    have := c2 b
    omega
  refine ⟨s1, o, s2, e1, ho, e2, by rw [tostr, hv, v1], hh, fun b hb => ⟨by rw [← hh]; exact hb, ?_⟩⟩
  rw [v2 b hb, v1]

theorem getItem_ok (h : Inv utf8 st its) {i : Nat} {t : RTree Nat} (ht : dictAt st i = some t)
    (key : Arg) : ∃ s' x, getItem utf8 st.store t key = .ok (s', x) ∧
      (∀ b, holders s' b = holders st.store b) ∧
      (∀ b, 0 < holders s' b → 0 < holders st.store b ∧ valAt s' b = valAt st.store b) ∧
      x = match keyIn key with
        | .error e => .exc e
        | .ok k => match t.get k with
          | none => .exc .keyError
          | some a => .text ((valAt st.store a).getD []) := by
  unfold getItem
  cases hkey : keyIn key with
  | error e => exact ⟨_, _, rfl, fun _ => rfl, fun _ h => ⟨h, rfl⟩, rfl⟩
  | ok k =>
    simp only
    cases hg : t.get k with
    | none => exact ⟨_, _, rfl, fun _ => rfl, fun _ h => ⟨h, rfl⟩, rfl⟩
    | some a =>
      obtain ⟨s1, o, s2, e1, e2, e3, ho, hh, hv⟩ := read_ok h ht hg
      refine ⟨s2, _, by simp only [e1, e2, e3, bind, Except.bind]; rfl, hh, hv, ?_⟩
      have := h.txt a (h.live ht (mem_values (h.good i t ht).1 hg))
      rw [textOut, ho, if_pos this]

theorem getMethod_ok (h : Inv utf8 st its) {i : Nat} {t : RTree Nat} (ht : dictAt st i = some t)
    (key : Arg) : ∃ s' x, getMethod utf8 st.store t key = .ok (s', x) ∧
      (∀ b, holders s' b = holders st.store b) ∧
      (∀ b, 0 < holders s' b → 0 < holders st.store b ∧ valAt s' b = valAt st.store b) ∧
      x = match keyIn key with
        | .error e => .exc e
        | .ok k => match t.get k with
          | none => .none
          | some a => .text ((valAt st.store a).getD []) := by
  unfold getMethod
  cases hkey : keyIn key with
  | error e => exact ⟨_, _, rfl, fun _ => rfl, fun _ h => ⟨h, rfl⟩, rfl⟩
  | ok k =>
    simp only
    cases hg : t.get k with
    | none => exact ⟨_, _, rfl, fun _ => rfl, fun _ h => ⟨h, rfl⟩, rfl⟩
    | some a =>
      obtain ⟨s1, o, s2, e1, e2, e3, ho, hh, hv⟩ := read_ok h ht hg
      refine ⟨s2, _, by simp only [e1, e2, e3, bind, Except.bind]; rfl, hh, hv, ?_⟩
      have := h.txt a (h.live ht (mem_values (h.good i t ht).1 hg))
      rw [textOut, ho, if_pos this]

theorem hasKey_ok (h : Inv utf8 st its) {i : Nat} {t : RTree Nat} (ht : dictAt st i = some t)
    (key : Arg) : ∃ s' x, hasKey st.store t key = .ok (s', x) ∧
      (∀ b, holders s' b = holders st.store b +
        match keyIn key with
        | .error _ => 0
        | .ok k => one (t.get k = some b)) ∧
      (∀ b, 0 < holders s' b → 0 < holders st.store b ∧ valAt s' b = valAt st.store b) ∧
      x = match keyIn key with
        | .error e => .exc e
        | .ok k => .bool (t.get k).isSome := by
  unfold hasKey
  cases hkey : keyIn key with
  | error e => exact ⟨_, _, rfl, fun _ => rfl, fun _ h => ⟨h, rfl⟩, rfl⟩
  | ok k =>
    simp only
    cases hg : t.get k with
    | none => exact ⟨_, _, rfl, fun _ => by simp [one], fun _ h => ⟨h, rfl⟩, rfl⟩
    | some a =>
      have hl := h.live ht (mem_values (h.good i t ht).1 hg)
      obtain ⟨s1, e1, c1, v1, -⟩ := incref_ok hl
      refine ⟨s1, _, by simp only [e1, bind, Except.bind]; rfl, ?_, ?_, rfl⟩
      · intro b
        rw [c1 b]
        simp only [Option.some.injEq]
        rw [one_comm]
      · intro b hb
        refine ⟨?_, v1 b⟩
        have := c1 b
        by_cases hba : b = a
        · subst hba; exact hl
        · have : one (b = a) = 0 := by simp [one, hba]
          omega

theorem strLoop_ok {s : Store} (ps : List (Bytes × Nat))
    (h : ∀ e ∈ ps, utf8 e.1 = true ∧ 0 < holders s e.2 ∧ utf8 ((valAt s e.2).getD []) = true) :
    strLoop utf8 s ps = .ok (ps.flatMap fun e =>
      e.1 ++ [32, 61, 32, 39] ++ (valAt s e.2).getD [] ++ [39, 44, 32]) := by
  induction ps with
  | nil => rfl
  | cons e ps ih =>
    obtain ⟨k, a⟩ := e
    obtain ⟨h1, h2, h3⟩ := h (k, a) (by simp)
    obtain ⟨o, ho, -, hv⟩ := load_ok h2
    have ht : tostr o = (valAt s a).getD [] := by rw [tostr, hv]
    simp only at h1
    simp only [strLoop, h1, ho, ht, h3, ih fun e he => h e (by simp [he]), bind, Except.bind,
      pure, Except.pure, if_true, List.flatMap_cons]

theorem loadAll_ok {s : Store} (l : List Nat) (h : ∀ a ∈ l, 0 < holders s a) :
    loadAll s l = .ok () := by
  induction l with
  | nil => rfl
  | cons a l ih =>
    obtain ⟨o, ho, -, -⟩ := load_ok (h a (by simp))
    simp [loadAll, ho, ih fun b hb => h b (by simp [hb]), bind, Except.bind]

theorem Inv.pairs_live (h : Inv utf8 st its) {i : Nat} {t : RTree Nat} (ht : dictAt st i = some t) :
    ∀ e ∈ t.pairs, utf8 e.1 = true ∧ 0 < holders st.store e.2 ∧
      utf8 ((valAt st.store e.2).getD []) = true := by
  intro e he
  have hl := h.live ht (a := e.2) (List.mem_map.2 ⟨e, he, rfl⟩)
  exact ⟨(h.good i t ht).2 e.1 (List.mem_map.2 ⟨e, he, rfl⟩), hl, h.txt _ hl⟩

theorem mono_store {st : St} {s' : Store} {d : List Iter}
    (h : ∀ b, holders st.store b ≤ holders s' b) :
    Mono st ⟨s', st.dicts, d⟩ := by
  intro a
  have := h a
  simp only
  omega

theorem mono_refl (st : St) (d : List Iter) : Mono st ⟨st.store, st.dicts, d⟩ := by
  intro a
  simp only
  omega

theorem mono_put {st : St} {i : Nat} {t t' : RTree Nat} (ht : dictAt st i = some t) {s' : Store}
    {d : List Iter} (h : ∀ b, holders st.store b + t'.uses b ≤ holders s' b + t.uses b) :
    Mono st ⟨s', st.dicts.set i (some t'), d⟩ := by
  intro a
  have h1 := total_set ht t' a
  have h2 := h a
  have h3 := uses_le_total ht a
  simp only
  omega

theorem Mono.bal {st st' : St} (h : Mono st st')
    (hb : ∀ a, total st.dicts a ≤ holders st.store a) : ∀ a, total st'.dicts a ≤ holders st'.store a := by
  intro a
  have := h a
  have := hb a
  omega

theorem setItem_ok (lt : UInt8 → UInt8 → Bool) (h0 : utf8 [] = true) (h : Inv utf8 st its)
    {i : Nat} {t : RTree Nat} (ht : dictAt st i = some t) {k v : Arg} (hk : Decodes utf8 k)
    (hv : Decodes utf8 v) : ∃ s' t' x, setItem lt st.store t k (some v) = .ok (s', t', x) ∧
      WF t'.subnodes ∧ (∀ k ∈ t'.keys, utf8 k = true) ∧
      (∀ b, holders st.store b + t'.uses b ≤ holders s' b + t.uses b) ∧
      (∀ b, 0 < holders s' b → utf8 ((valAt s' b).getD []) = true) := by
  obtain ⟨hw, hkeys⟩ := h.good i t ht
  simp only [setItem]
  cases hval : valueIn v with
  | none =>
    cases hkey : keyIn k with
    | error e => exact ⟨_, _, _, rfl, hw, hkeys, fun _ => Nat.le_refl _, h.txt⟩
    | ok kb => exact ⟨_, _, _, rfl, hw, hkeys, fun _ => Nat.le_refl _, h.txt⟩
  | some y =>
    obtain ⟨ha, hah, hav, hal⟩ := alloc_spec st.store y
    have htx : ∀ b, 0 < holders (alloc st.store y).1 b →
        utf8 ((valAt (alloc st.store y).1 b).getD []) = true := by
      intro b hb
      rw [hav]
      split
      · exact decodes_val h0 hv hval
      · rename_i hne
        rw [hah] at hb
        have : one (b = st.store.length) = 0 := by simp [one, hne]
        exact h.txt b (by omega)
    simp only
    cases hkey : keyIn k with
    | error e =>
      exact ⟨_, _, _, rfl, hw, hkeys, fun b => by rw [hah]; omega, htx⟩
    | ok kb =>
      simp only
      obtain ⟨s2, e2, c2, v2, -⟩ := treeSet_ok lt (s := (alloc st.store y).1) (t := t) kb
        (alloc st.store y).2 (by
          intro o ho
          have := h.live ht (mem_values hw ho)
          rw [hah]
          omega)
      refine ⟨s2, _, _, by simp only [e2, bind, Except.bind]; rfl, set_wf lt hw _ _, ?_, ?_, ?_⟩
      · intro k' hk'
        rcases mem_keys_set lt hw hk' with rfl | h'
        · exact decodes_key hk hkey
        · exact hkeys _ h'
      · intro b
        have h1 := uses_set_le lt hw kb (alloc st.store y).2 b
        have h2 := c2 b
        have h3 := hah b
        have h4 : one ((alloc st.store y).2 = b) = one (b = st.store.length) := by
          rw [ha]; exact one_comm
        omega
      · intro b hb
        rw [v2 b hb]
        exact htx b (by have := c2 b; omega)

theorem mem_uniteWrites {t : RTree Nat} (hw : WF t.subnodes) {e : Bytes × Nat}
    (he : e ∈ uniteWrites t) : t.get e.1 = some e.2 :=
  (mem_pairs hw _ _).1 ((uniteWrites_perm t).mem_iff.1 he)

theorem update_ok (lt : UInt8 → UInt8 → Bool) (h : Inv utf8 st its)
    {i j : Nat} {t u : RTree Nat} (ht : dictAt st i = some t) (hu : dictAt st j = some u) :
    ∃ s' t', update lt st.store t u = .ok (s', t') ∧ t' = setAll lt t (asWrites (uniteWrites u)) ∧
      WF t'.subnodes ∧ (∀ k ∈ t'.keys, utf8 k = true) ∧
      (∀ b, holders st.store b + t'.uses b ≤ holders s' b + t.uses b) ∧
      (∀ b, 0 < holders s' b → 0 < holders st.store b ∧ valAt s' b = valAt st.store b) ∧
      (i = j → (∀ k, t'.get k = t.get k) ∧ ∀ b, holders s' b = holders st.store b) := by
  obtain ⟨hw, hkeys⟩ := h.good i t ht
  obtain ⟨hwu, hkeysu⟩ := h.good j u hu
  rw [update_eq]
  by_cases hij : i = j
  · subst hij
    rw [ht] at hu
    cases hu
    obtain ⟨s', t', e, g, w, k, hh, hv, -⟩ := uniteSets_self lt (uniteWrites t) hw
      (fun b => Nat.le_trans (uses_le_total ht b) (h.bal b)) fun e he => mem_uniteWrites hw he
    refine ⟨s', t', e, g, w, ?_, ?_, hv, fun _ => ⟨k, hh⟩⟩
    · intro k' hk'
      apply hkeys
      rw [mem_keys hw, ← k, ← mem_keys w]
      exact hk'
    · intro b
      rw [hh, uses_congr hw w k]
      exact Nat.le_refl _
  · obtain ⟨s', t', e, g, w, hb, hm, hv, -, hk⟩ := uniteSets_ok lt (u.uses ·) (uniteWrites u)
      (s := st.store) hw
      (fun b => Nat.le_trans (uses_le_total2 ht hu hij b) (h.bal b))
      fun e he => uses_pos hwu (mem_uniteWrites hwu he)
    refine ⟨s', t', e, g, w, ?_, hm, hv, fun e => absurd e hij⟩
    intro k' hk'
    rcases hk k' hk' with h1 | ⟨e, he, rfl⟩
    · exact hkeys _ h1
    · apply hkeysu
      rw [mem_keys hwu, mem_uniteWrites hwu he]
      simp

theorem clear_uses (t : RTree Nat) (a : Nat) : t.clear.uses a = 0 := rfl

theorem copy_spec {t : RTree Nat} (hw : WF t.subnodes) : WF (t.copy id).subnodes ∧
    (∀ k, (t.copy id).get k = t.get k) ∧ (t.copy id).pairs = t.pairs := by
  have wp : WF (t.copy id).subnodes := by rw [copy_subnodes]; exact cloneHS_wf id hw
  refine ⟨wp, fun k => ?_, ?_⟩
  · rw [get_eq wp, get_eq hw, copy_subnodes]
    exact (listLk_clone id hw k).trans (by simp)
  · rw [pairs_eq, pairs_eq, copy_subnodes]
    exact (preL_clone id hw []).trans (by simp)

theorem clear_wf (t : RTree Nat) : WF t.clear.subnodes := wf_empty

/-- A careful operation does not fault and keeps the invariant. -/
theorem step_safe (lt : UInt8 → UInt8 → Bool) (h0 : utf8 [] = true) (h : Inv utf8 st its) (op : Op)
    (hc : Careful utf8 its op) : ∃ st' x, step lt utf8 st op = .ok (st', x) ∧
      Inv utf8 st' (itersAfter its op) ∧ Mono st st' := by
  cases op with
  | new =>
    refine ⟨_, _, rfl, h.add (s' := st.store) ?_ ?_ h.txt, ?_⟩
    · rintro t' ⟨⟩; exact ⟨wf_empty, by intro k hk; simp [RTree.keys, RTree.pairs, RTree.create, HSList.empty, allLoop, listCount] at hk⟩
    · intro a; rw [total_append]; exact h.bal a
    · intro a; simp only; rw [total_append]; simp [total, RTree.uses, RTree.values, RTree.pairs, RTree.create, HSList.empty, allLoop, listCount]
  | set i k v =>
    simp only [step]
    cases ht : dictAt st i with
    | none => exact ⟨_, _, rfl, h.touched i, mono_refl st _⟩
    | some t =>
      obtain ⟨s', t', x, e, w, hk, hm, htx⟩ := setItem_ok lt h0 h ht hc.1 hc.2
      have m := mono_put (d := st.iters) ht hm
      exact ⟨_, _, by simp only [e, bind, Except.bind]; rfl,
        h.put ht (by rintro _ ⟨⟩; exact ⟨w, hk⟩) (m.bal h.bal) htx, m⟩
  | del i k => exact absurd hc (by simp [Careful])
  | getItem i k =>
    simp only [step]
    cases ht : dictAt st i with
    | none => exact ⟨_, _, rfl, h, mono_refl st _⟩
    | some t =>
      obtain ⟨s', x, e, hh, hv, -⟩ := getItem_ok h ht k
      exact ⟨_, _, by simp only [e, bind, Except.bind]; rfl,
        h.store (fun b => Nat.le_of_eq (hh b).symm) hv, mono_store fun b => Nat.le_of_eq (hh b).symm⟩
  | get i k =>
    simp only [step]
    cases ht : dictAt st i with
    | none => exact ⟨_, _, rfl, h, mono_refl st _⟩
    | some t =>
      obtain ⟨s', x, e, hh, hv, -⟩ := getMethod_ok h ht k
      exact ⟨_, _, by simp only [e, bind, Except.bind]; rfl,
        h.store (fun b => Nat.le_of_eq (hh b).symm) hv, mono_store fun b => Nat.le_of_eq (hh b).symm⟩
  | hasKey i k =>
    simp only [step]
    cases ht : dictAt st i with
    | none => exact ⟨_, _, rfl, h, mono_refl st _⟩
    | some t =>
      obtain ⟨s', x, e, hh, hv, -⟩ := hasKey_ok h ht k
      exact ⟨_, _, by simp only [e, bind, Except.bind]; rfl,
        h.store (fun b => by rw [hh]; omega) hv, mono_store fun b => by rw [hh]; omega⟩
  | len i =>
    simp only [step]
    cases ht : dictAt st i with
    | none => exact ⟨_, _, rfl, h, mono_refl st _⟩
    | some t => exact ⟨_, _, rfl, h, mono_refl st _⟩
  | clear i =>
    simp only [step]
    cases ht : dictAt st i with
    | none => exact ⟨_, _, rfl, h.touched i, mono_refl st _⟩
    | some t =>
      obtain ⟨s', e, hh, hv, -⟩ := destroyAll_ok t.values (s := st.store) fun b =>
        Nat.le_trans (uses_le_total ht b) (h.bal b)
      have m := mono_put (d := st.iters) (t' := t.clear) (s' := s') ht (fun b => by
        have := hh b
        rw [clear_uses]
        change _ ≤ _ + t.values.count b
        omega)
      refine ⟨_, _, by simp only [e, bind, Except.bind]; rfl, h.put ht ?_ (m.bal h.bal) ?_, m⟩
      · rintro _ ⟨⟩
        exact ⟨clear_wf t, by intro k hk; simp [RTree.keys, RTree.pairs, RTree.clear, HSList.empty, allLoop, listCount] at hk⟩
      · intro a ha
        rw [hv a ha]
        exact h.txt a (by have := hh a; simp only at ha; omega)
  | copy i =>
    simp only [step]
    cases ht : dictAt st i with
    | none =>
      refine ⟨_, _, rfl, h.add (s' := st.store) (by simp) ?_ h.txt, ?_⟩
      · intro a; rw [total_append]; exact h.bal a
      · intro a; simp only; rw [total_append]; simp [total]
    | some t =>
      obtain ⟨hw, hkeys⟩ := h.good i t ht
      obtain ⟨w', g', p'⟩ := copy_spec hw
      obtain ⟨s', e, hh, hv, -⟩ := increfAll_ok t.values (s := st.store) fun b hb => h.live ht hb
      have hu : ∀ a, (t.copy id).uses a = t.values.count a := by
        intro a; rw [uses_eq, p']; rfl
      refine ⟨_, _, by simp only [e, bind, Except.bind]; rfl, h.add ?_ ?_ ?_, ?_⟩
      · rintro _ ⟨⟩
        refine ⟨w', ?_⟩
        unfold RTree.keys
        rw [p']
        exact hkeys
      · intro a
        rw [total_append, hh]
        have := h.bal a
        simp only [total, hu]
        omega
      · intro a ha
        rw [hv]
        apply h.txt
        rw [hh] at ha
        by_cases hz : t.values.count a = 0
        · omega
        · exact h.live ht (List.count_pos_iff.1 (by omega))
      · intro a
        simp only
        rw [total_append, hh]
        simp only [total, hu]
        omega
  | update i j =>
    simp only [step]
    cases ht : dictAt st i with
    | none => exact ⟨_, _, rfl, h.touched i, mono_refl st _⟩
    | some t =>
      cases hu : dictAt st j with
      | none => exact ⟨_, _, rfl, h.touched i, mono_refl st _⟩
      | some u =>
        obtain ⟨s', t', e, -, w, hk, hm, hv, -⟩ := update_ok lt h ht hu
        have m := mono_put (d := st.iters) ht hm
        refine ⟨_, _, by simp only [e, bind, Except.bind]; rfl,
          h.put ht (by rintro _ ⟨⟩; exact ⟨w, hk⟩) (m.bal h.bal) ?_, m⟩
        intro a ha
        obtain ⟨p, q⟩ := hv a ha
        rw [q]
        exact h.txt a p
  | updateOther i => exact ⟨_, _, rfl, h, mono_refl st _⟩
  | str i =>
    simp only [step]
    cases ht : dictAt st i with
    | none => exact ⟨_, _, rfl, h, mono_refl st _⟩
    | some t =>
      refine ⟨_, _, by simp only [str, strLoop_ok _ (h.pairs_live ht), bind, Except.bind]; rfl, h, mono_refl st _⟩
  | cmp r i j =>
    simp only [step]
    cases ht : dictAt st i with
    | none => exact ⟨_, _, rfl, h, mono_refl st _⟩
    | some t =>
      cases hu : dictAt st j with
      | none => exact ⟨_, _, rfl, h, mono_refl st _⟩
      | some u =>
        have hl : loadAll st.store (t.values ++ u.values) = .ok () := loadAll_ok _ fun a ha => by
          rcases List.mem_append.1 ha with ha | ha
          · exact h.live ht ha
          · exact h.live hu ha
        cases r with
        | order => exact ⟨_, _, rfl, h, mono_refl st _⟩
        | eq => exact ⟨_, _, by simp only [same, hl, bind, Except.bind]; rfl, h, mono_refl st _⟩
        | ne => exact ⟨_, _, by simp only [same, hl, bind, Except.bind]; rfl, h, mono_refl st _⟩
  | cmpOther r i => exact ⟨_, _, rfl, h, mono_refl st _⟩
  | drop i =>
    simp only [step]
    cases ht : dictAt st i with
    | none => exact ⟨_, _, rfl, h.touched i, mono_refl st _⟩
    | some t =>
      obtain ⟨s', e, hh, hv, -⟩ := destroyAll_ok t.values (s := st.store) fun b =>
        Nat.le_trans (uses_le_total ht b) (h.bal b)
      have m : Mono st ⟨s', st.dicts.set i none, st.iters⟩ := by
        intro a
        have h1 := total_drop ht a
        have h2 := hh a
        have h3 : t.uses a = t.values.count a := rfl
        simp only
        omega
      refine ⟨_, _, by simp only [e, bind, Except.bind]; rfl, h.put ht (by simp) (m.bal h.bal) ?_, m⟩
      intro a ha
      rw [hv a ha]
      exact h.txt a (by have := hh a; simp only at ha; omega)
  | iterKeys i =>
    simp only [step]
    cases ht : dictAt st i with
    | none => exact ⟨_, _, rfl, h.addIter (by trivial), mono_refl st _⟩
    | some t => exact ⟨_, _, rfl, h.addIter (by trivial), mono_refl st _⟩
  | iterValues i =>
    simp only [step]
    cases ht : dictAt st i with
    | none => exact ⟨_, _, rfl, h.addIter (by trivial), mono_refl st _⟩
    | some t =>
      exact ⟨_, _, rfl, h.addIter ⟨rfl, fun _ => ⟨t, ht, fun a ha => ha⟩⟩, mono_refl st _⟩
  | iterItems i =>
    simp only [step]
    cases ht : dictAt st i with
    | none => exact ⟨_, _, rfl, h.addIter (by trivial), mono_refl st _⟩
    | some t =>
      exact ⟨_, _, rfl, h.addIter ⟨rfl, fun _ => ⟨t, ht, fun a ha => ha⟩⟩, mono_refl st _⟩
  | next j =>
    simp only [step]
    cases hj : st.iters[j]? with
    | none => exact ⟨_, _, rfl, h, mono_refl st _⟩
    | some it =>
      obtain ⟨k, hk⟩ : ∃ k, its[j]? = some k := by
        have := (List.getElem?_eq_some_iff.1 hj).1
        rw [h.ilen] at this
        exact ⟨_, List.getElem?_eq_getElem this⟩
      have hit := h.its j it k hj hk
      have hc' := hc k hk
      obtain ⟨it', x, e, hi'⟩ : ∃ it' x, iterNext utf8 st.store it = .ok (it', x) ∧ ItOk st it' k := by
        cases it with
        | keys l => cases l <;> exact ⟨_, _, rfl, by trivial⟩
        | values l =>
          cases l with
          | nil => exact ⟨_, _, rfl, hit⟩
          | cons a l =>
            have hs : k.stale = false := by
              rcases hc' with h1 | h1
              · rw [hit.1] at h1; simp at h1
              · exact h1
            obtain ⟨t, ht, hl⟩ := hit.2 hs
            obtain ⟨o, ho, -, -⟩ := load_ok (h.live ht (hl a (by simp)))
            refine ⟨.values l, _, by simp only [iterNext, ho, bind, Except.bind]; rfl, hit.1,
              fun _ => ⟨t, ht, fun b hb => hl b (by simp [hb])⟩⟩
        | items l =>
          cases l with
          | nil => exact ⟨_, _, rfl, hit⟩
          | cons p l =>
            obtain ⟨kk, a⟩ := p
            have hs : k.stale = false := by
              rcases hc' with h1 | h1
              · rw [hit.1] at h1; simp at h1
              · exact h1
            obtain ⟨t, ht, hl⟩ := hit.2 hs
            obtain ⟨p1, p2, p3⟩ := h.pairs_live ht (kk, a) (hl _ (by simp))
            obtain ⟨o, ho, -, hv⟩ := load_ok p2
            simp only at p1 ho
            have h3 : utf8 (tostr o) = true := by rw [tostr, hv]; exact p3
            refine ⟨.items l, _, by simp only [iterNext, ho, p1, h3, bind, Except.bind]; rfl, hit.1,
              fun _ => ⟨t, ht, fun b hb => hl b (by simp [hb])⟩⟩
      refine ⟨_, _, by simp only [e, bind, Except.bind]; rfl, ?_, mono_refl st _⟩
      exact {
        good := h.good
        bal := h.bal
        txt := h.txt
        ilen := by simp [h.ilen, itersAfter]
        its := by
          intro j' y i' hy hi2
          simp only [itersAfter] at hi2 hy
          by_cases hjj : j' = j
          · subst hjj
            rw [List.getElem?_set_self (List.getElem?_eq_some_iff.1 hj).1] at hy
            cases hy
            rw [hk] at hi2
            cases hi2
            exact hi'
          · rw [List.getElem?_set_ne (Ne.symm hjj)] at hy
            exact h.its j' y i' hy hi2 }

theorem inv_start : Inv utf8 start [] where
  good i t h := by simp [dictAt, start] at h
  bal a := by simp [start, total]
  txt a h := by simp [start, holders] at h
  ilen := rfl
  its j x it h := by simp [start] at h

theorem run_safe (lt : UInt8 → UInt8 → Bool) (h0 : utf8 [] = true) (ops : List Op) :
    ∀ {st : St} {its : List It}, Inv utf8 st its → CarefulRun utf8 its ops →
      ∃ st' xs, run lt utf8 st ops = .ok (st', xs) ∧ xs.length = ops.length ∧ Mono st st' := by
  induction ops with
  | nil => intro st its h _; exact ⟨st, [], rfl, rfl, mono_refl st _⟩
  | cons op ops ih =>
    intro st its h hc
    obtain ⟨st1, x, e1, i1, m1⟩ := step_safe lt h0 h op hc.1
    obtain ⟨st2, xs, e2, l2, m2⟩ := ih i1 hc.2
    refine ⟨st2, x :: xs, by simp [run, e1, e2, bind, Except.bind, pure, Except.pure], by simp [l2], ?_⟩
    intro a
    have := m1 a
    have := m2 a
    omega

end Comps.PyDict
