import Verif.Spec.LogOwn

namespace Comps.LogOwn
open Comps Comps.Own Comps.Spec
variable {α : Type}

/-- The value at a place, whether destroyed or not. -/
def valAt (m : Mem α) (p : Nat) : Option α := m[p]?.map (·.val)

/-- How often a place occurs among the arguments of a log. -/
def occ (es : List Entry) (p : Nat) : Nat := (es.map fun e => e.args.count (some p)).sum

theorem occ_append (es : List Entry) (e : Entry) (p : Nat) :
    occ (es ++ [e]) p = occ es p + e.args.count (some p) := by simp [occ]

theorem own_lt {m : Mem α} {p : Nat} (h : 0 < ownersAt m p) : p < m.length := by
  unfold ownersAt at h
  cases hm : m[p]? with
  | none => rw [hm] at h; simp at h
  | some c => exact (List.getElem?_eq_some_iff.1 hm).1

theorem val_lt {m : Mem α} {p : Nat} {v : α} (h : valAt m p = some v) : p < m.length := by
  unfold valAt at h
  cases hm : m[p]? with
  | none => rw [hm] at h; cases h
  | some c => exact (List.getElem?_eq_some_iff.1 hm).1

theorem load_ok {m : Mem α} {p : Nat} {v : α} (hv : valAt m p = some v) (ho : 0 < ownersAt m p) :
    load m p = .ok v := by
  unfold load
  unfold valAt at hv
  unfold ownersAt at ho
  cases hm : m[p]? with
  | none => rw [hm] at hv; cases hv
  | some c =>
    rw [hm] at hv ho
    cases hv
    have ho : 0 < c.owners := ho
    simp only
    rw [if_neg (by omega)]

theorem create_own (m : Mem α) (v : α) (q : Nat) :
    ownersAt (create m v).1 q = ownersAt m q + if q = m.length then 1 else 0 := by
  unfold ownersAt create
  simp only
  rcases Nat.lt_trichotomy q m.length with h | h | h
  · rw [List.getElem?_append_left h, if_neg (by omega)]; simp
  · subst h; simp
  · rw [List.getElem?_eq_none (by simp; omega), List.getElem?_eq_none (by omega), if_neg (by omega)]

theorem create_val (m : Mem α) (v : α) {q : Nat} {w : α} (h : valAt m q = some w) :
    valAt (create m v).1 q = some w := by
  have := val_lt h
  unfold valAt create at *
  simp only
  rw [List.getElem?_append_left this]; exact h

theorem create_new (m : Mem α) (v : α) : valAt (create m v).1 m.length = some v := by
  unfold valAt create
  simp

theorem set_own {m : Mem α} {p : Nat} {c : Cell α} (hc : m[p]? = some c) (w : α) (n q : Nat) :
    ownersAt (m.set p ⟨w, n⟩) q = if q = p then n else ownersAt m q := by
  have hp := (List.getElem?_eq_some_iff.1 hc).1
  unfold ownersAt
  by_cases h : q = p
  · subst h; rw [if_pos rfl]; simp [hp]
  · rw [if_neg h, List.getElem?_set_ne (Ne.symm h)]

theorem set_val {m : Mem α} {p : Nat} {c : Cell α} (hc : m[p]? = some c) (w : α) (n q : Nat) :
    valAt (m.set p ⟨w, n⟩) q = if q = p then some w else valAt m q := by
  have hp := (List.getElem?_eq_some_iff.1 hc).1
  unfold valAt
  by_cases h : q = p
  · subst h; rw [if_pos rfl]; simp [hp]
  · rw [if_neg h, List.getElem?_set_ne (Ne.symm h)]

theorem own_some {m : Mem α} {p : Nat} (h : 0 < ownersAt m p) :
    ∃ c, m[p]? = some c ∧ c.owners = ownersAt m p ∧ valAt m p = some c.val := by
  unfold ownersAt valAt at *
  cases hm : m[p]? with
  | none => rw [hm] at h; simp at h
  | some c => exact ⟨c, rfl, rfl, rfl⟩

theorem incref_ok {m : Mem α} {p : Nat} (h : 0 < ownersAt m p) :
    ∃ m', Own.incref m p = .ok m' ∧ (∀ q, ownersAt m' q = ownersAt m q + if q = p then 1 else 0) ∧
      ∀ q, valAt m' q = valAt m q := by
  obtain ⟨c, hc, ho, hv⟩ := own_some h
  refine ⟨m.set p ⟨c.val, c.owners + 1⟩, ?_, fun q => ?_, fun q => ?_⟩
  · simp only [Own.incref, hc]
    rw [if_neg (by omega)]
  · rw [set_own hc]
    by_cases e : q = p
    · subst e; simp [ho]
    · simp [e]
  · rw [set_val hc]
    by_cases e : q = p
    · subst e; simp [hv]
    · simp [e]

theorem destroy_ok {m : Mem α} {p : Nat} (h : 0 < ownersAt m p) :
    ∃ m', Own.destroy m p = .ok m' ∧ (∀ q, ownersAt m' q + (if q = p then 1 else 0) = ownersAt m q) ∧
      ∀ q, valAt m' q = valAt m q := by
  obtain ⟨c, hc, ho, hv⟩ := own_some h
  refine ⟨m.set p ⟨c.val, c.owners - 1⟩, ?_, fun q => ?_, fun q => ?_⟩
  · simp only [Own.destroy, hc]
    rw [if_neg (by omega)]
  · rw [set_own hc]
    by_cases e : q = p
    · subst e; simp; omega
    · simp [e]
  · rw [set_val hc]
    by_cases e : q = p
    · subst e; simp [hv]
    · simp [e]

theorem assign_ok {m : Mem α} {p : Nat} (h : 0 < ownersAt m p) (v : α) :
    ∃ m', assign m p v = .ok m' ∧ (∀ q, ownersAt m' q = ownersAt m q) ∧
      ∀ q, valAt m' q = if q = p then some v else valAt m q := by
  obtain ⟨c, hc, ho, hv⟩ := own_some h
  refine ⟨m.set p ⟨v, c.owners⟩, ?_, fun q => ?_, fun q => ?_⟩
  · simp only [assign, hc]
    rw [if_neg (by omega)]
  · rw [set_own hc]
    by_cases e : q = p
    · subst e; simp [ho]
    · simp [e]
  · rw [set_val hc]

theorem destroyArgs_ok : ∀ {as : List (Option Nat)} {m : Mem α},
    (∀ q, as.count (some q) ≤ ownersAt m q) →
    ∃ m', destroyArgs m as = .ok m' ∧ (∀ q, ownersAt m' q + as.count (some q) = ownersAt m q) ∧
      ∀ q, valAt m' q = valAt m q
  | [], m, _ => ⟨m, rfl, fun _ => rfl, fun _ => rfl⟩
  | none :: as, m, h => by
    have e : ∀ q, (none :: as).count (some q) = as.count (some q) := by
      intro q; simp
    simp only [e] at h ⊢
    exact destroyArgs_ok (as := as) h
  | some p :: as, m, h => by
    have e : ∀ q, (some p :: as).count (some q) = as.count (some q) + if q = p then 1 else 0 := by
      intro q
      rw [List.count_cons]
      by_cases hq : q = p
      · subst hq; simp
      · simp [hq, Ne.symm hq]
    simp only [e] at h ⊢
    have hp : 0 < ownersAt m p := by
      have := h p; simp at this; omega
    obtain ⟨m1, h1, h2, h3⟩ := destroy_ok hp
    obtain ⟨m2, k1, k2, k3⟩ := destroyArgs_ok (as := as) (m := m1) (by
      intro q
      have a := h q; have b := h2 q
      omega)
    refine ⟨m2, ?_, fun q => ?_, fun q => (k3 q).trans (h3 q)⟩
    · simp only [destroyArgs, h1, bind, Except.bind]; exact k1
    · have a := k2 q; have b := h2 q
      omega

theorem clear_ok : ∀ {es : List Entry} {m : Mem α}, (∀ q, occ es q ≤ ownersAt m q) →
    ∃ m', clear m es = .ok m' ∧ (∀ q, ownersAt m' q + occ es q = ownersAt m q) ∧
      ∀ q, valAt m' q = valAt m q
  | [], m, _ => ⟨m, rfl, fun _ => rfl, fun _ => rfl⟩
  | e :: es, m, h => by
    have e' : ∀ q, occ (e :: es) q = e.args.count (some q) + occ es q := by intro q; simp [occ]
    simp only [e'] at h ⊢
    obtain ⟨m1, h1, h2, h3⟩ := destroyArgs_ok (as := e.args) (m := m) (fun q => by
      have := h q; omega)
    obtain ⟨m2, k1, k2, k3⟩ := clear_ok (es := es) (m := m1) (fun q => by
      have a := h q; have b := h2 q; omega)
    refine ⟨m2, ?_, fun q => ?_, fun q => (k3 q).trans (h3 q)⟩
    · simp only [clear, h1, bind, Except.bind]; exact k1
    · have a := k2 q; have b := h2 q
      omega

/-! ## the invariant -/

/-- An argument in memory is what the client thinks. -/
def ArgIs (ptr : List Nat) (m : Mem α) : Option Nat → LArg α → Prop
  | none, .null => True
  | some p, .val v => p ∉ ptr ∧ valAt m p = some v
  | some p, .obj k => ptr[k]? = some p
  | _, _ => False

/-- So are all arguments of an entry. -/
def ArgsAre (ptr : List Nat) (m : Mem α) : List (Option Nat) → List (LArg α) → Prop
  | [], [] => True
  | a :: as, x :: xs => ArgIs ptr m a x ∧ ArgsAre ptr m as xs
  | _, _ => False

/-- So are all entries. -/
def LogIs (ptr : List Nat) (m : Mem α) : List Entry → List (Kind × Nat × List (LArg α)) → Prop
  | [], [] => True
  | e :: es, x :: xs => (e.kind = x.1 ∧ e.code = x.2.1 ∧ ArgsAre ptr m e.args x.2.2) ∧ LogIs ptr m es xs
  | _, _ => False

/-- The places the client holds. -/
def heldAt (ptr mine : List Nat) (p : Nat) : Nat := (mine.filterMap (fun k => ptr[k]?)).count p

structure Inv (a : LView α) (s : St α) : Prop where
  len : s.ptr.length = a.objs.length
  nodup : s.ptr.Nodup
  vals : ∀ (k p : Nat), s.ptr[k]? = some p → valAt s.mem p = a.objs[k]?
  mine : ∀ k ∈ a.mine, k < a.objs.length
  log : LogIs s.ptr s.mem s.entries a.log
  owners : ∀ p, ownersAt s.mem p = heldAt s.ptr a.mine p + occ s.entries p

theorem argIs_mono {ptr ptr' : List Nat} {m m' : Mem α} {a : Option Nat} {x : LArg α}
    (hp : ∀ (k p : Nat), ptr[k]? = some p → ptr'[k]? = some p)
    (hv : ∀ p v, p ∉ ptr → valAt m p = some v → p ∉ ptr' ∧ valAt m' p = some v)
    (h : ArgIs ptr m a x) : ArgIs ptr' m' a x := by
  cases a with
  | none => cases x <;> exact h
  | some p =>
    cases x with
    | null => exact h
    | val v => exact hv p v h.1 h.2
    | obj k => exact hp k p h

theorem argsAre_mono {ptr ptr' : List Nat} {m m' : Mem α}
    (hp : ∀ (k p : Nat), ptr[k]? = some p → ptr'[k]? = some p)
    (hv : ∀ p v, p ∉ ptr → valAt m p = some v → p ∉ ptr' ∧ valAt m' p = some v) :
    ∀ {as : List (Option Nat)} {xs : List (LArg α)}, ArgsAre ptr m as xs → ArgsAre ptr' m' as xs
  | [], [], _ => trivial
  | [], _ :: _, h => h
  | _ :: _, [], h => h
  | _ :: _, _ :: _, h => ⟨argIs_mono hp hv h.1, argsAre_mono hp hv h.2⟩

theorem logIs_mono {ptr ptr' : List Nat} {m m' : Mem α}
    (hp : ∀ (k p : Nat), ptr[k]? = some p → ptr'[k]? = some p)
    (hv : ∀ p v, p ∉ ptr → valAt m p = some v → p ∉ ptr' ∧ valAt m' p = some v) :
    ∀ {es : List Entry} {xs : List (Kind × Nat × List (LArg α))}, LogIs ptr m es xs →
      LogIs ptr' m' es xs
  | [], [], _ => trivial
  | [], _ :: _, h => h
  | _ :: _, [], h => h
  | _ :: _, _ :: _, h => ⟨⟨h.1.1, h.1.2.1, argsAre_mono hp hv h.1.2.2⟩, logIs_mono hp hv h.2⟩

theorem logIs_append {ptr : List Nat} {m : Mem α} {e : Entry} {x : Kind × Nat × List (LArg α)}
    (he : e.kind = x.1 ∧ e.code = x.2.1 ∧ ArgsAre ptr m e.args x.2.2) :
    ∀ {es : List Entry} {xs : List (Kind × Nat × List (LArg α))}, LogIs ptr m es xs →
      LogIs ptr m (es ++ [e]) (xs ++ [x])
  | [], [], _ => ⟨he, trivial⟩
  | [], _ :: _, h => h.elim
  | _ :: _, [], h => h.elim
  | _ :: _, _ :: _, h => ⟨h.1, logIs_append he h.2⟩

theorem held_cons {ptr mine : List Nat} {k p : Nat} (hk : ptr[k]? = some p) (q : Nat) :
    heldAt ptr (k :: mine) q = heldAt ptr mine q + if q = p then 1 else 0 := by
  simp only [heldAt, List.filterMap_cons, hk, List.count_cons]
  by_cases h : q = p
  · subst h; simp
  · simp [h, Ne.symm h]

theorem held_erase {ptr mine : List Nat} {k p : Nat} (hm : k ∈ mine) (hk : ptr[k]? = some p) (q : Nat) :
    heldAt ptr (mine.erase k) q + (if q = p then 1 else 0) = heldAt ptr mine q := by
  rw [← held_cons hk]
  exact ((List.perm_cons_erase hm).filterMap _).symm.count_eq q

theorem held_pos {ptr mine : List Nat} {k p : Nat} (hm : k ∈ mine) (hk : ptr[k]? = some p) :
    0 < heldAt ptr mine p := by
  have := held_erase hm hk p
  simp at this; omega

variable {a : LView α} {s : St α}

theorem Inv.ptrOf (h : Inv a s) {k : Nat} (hk : k ∈ a.mine) : ∃ p, s.ptr[k]? = some p ∧
    0 < ownersAt s.mem p := by
  have hl := h.mine k hk
  rw [← h.len] at hl
  refine ⟨s.ptr[k], List.getElem?_eq_getElem hl, ?_⟩
  rw [h.owners]
  have := held_pos (ptr := s.ptr) hk (List.getElem?_eq_getElem hl)
  omega

theorem nodup_ptr (h : Inv a s) {j k p : Nat} (hj : s.ptr[j]? = some p) (hk : s.ptr[k]? = some p) :
    j = k := by
  obtain ⟨lj, ej⟩ := List.getElem?_eq_some_iff.1 hj
  obtain ⟨lk, ek⟩ := List.getElem?_eq_some_iff.1 hk
  have hn := List.pairwise_iff_getElem.1 h.nodup
  rcases Nat.lt_trichotomy j k with hlt | heq | hgt
  · exact absurd (ej.trans ek.symm) (hn j k lj lk hlt)
  · exact heq
  · exact absurd (ek.trans ej.symm) (hn k j lk lj hgt)

theorem argsOf_ok (h : Inv a s) : ∀ {args : List (Option Nat)}, (∀ k, some k ∈ args → k ∈ a.mine) →
    ∃ ps, argsOf s args = .ok ps ∧ ArgsAre s.ptr s.mem ps (args.map (LArg.taken (α := α))) ∧
      ∀ p, some p ∈ ps → ∃ k, some k ∈ args ∧ s.ptr[k]? = some p
  | [], _ => ⟨[], rfl, trivial, fun _ h => by cases h⟩
  | none :: as, hm => by
    obtain ⟨ps, h1, h2, h3⟩ := argsOf_ok h (args := as) (fun k hk => hm k (.tail _ hk))
    refine ⟨none :: ps, by simp only [argsOf, h1, bind, Except.bind], ⟨trivial, h2⟩, ?_⟩
    intro p hp
    rcases List.mem_cons.1 hp with e | hp
    · cases e
    · obtain ⟨k, k1, k2⟩ := h3 p hp
      exact ⟨k, .tail _ k1, k2⟩
  | some k :: as, hm => by
    obtain ⟨ps, h1, h2, h3⟩ := argsOf_ok h (args := as) (fun k hk => hm k (.tail _ hk))
    obtain ⟨p, hp, -⟩ := h.ptrOf (hm k (.head _))
    refine ⟨some p :: ps, by simp only [argsOf, at', hp, h1, bind, Except.bind], ⟨hp, h2⟩, ?_⟩
    intro q hq
    rcases List.mem_cons.1 hq with e | hq
    · cases e; exact ⟨k, .head _, hp⟩
    · obtain ⟨j, k1, k2⟩ := h3 q hq
      exact ⟨j, .tail _ k1, k2⟩

theorem give_ok (ptr : List Nat) : ∀ {args : List (Option Nat)} {mine : List Nat} {ps : List (Option Nat)},
    (∀ k, args.count (some k) ≤ mine.count k) → argsOf (⟨[], ptr, []⟩ : St α) args = .ok ps →
    (∀ q, heldAt ptr (giveAway mine args) q + ps.count (some q) = heldAt ptr mine q) ∧
    ∀ k ∈ giveAway mine args, k ∈ mine
  | [], mine, ps, _, h => by cases h; exact ⟨fun _ => rfl, fun _ h => h⟩
  | none :: as, mine, ps, hc, h => by
    simp only [argsOf, bind, Except.bind] at h
    cases h1 : argsOf (⟨[], ptr, []⟩ : St α) as with
    | error f => rw [h1] at h; cases h
    | ok rs =>
      rw [h1] at h
      cases h
      obtain ⟨k1, k2⟩ := give_ok ptr (mine := mine) (fun k => by simpa using hc k) h1
      refine ⟨fun q => ?_, k2⟩
      have := k1 q
      simpa [List.count_cons, giveAway] using this
  | some k :: as, mine, ps, hc, h => by
    simp only [argsOf, at', bind, Except.bind] at h
    cases hp : ptr[k]? with
    | none => simp only [hp] at h; cases h
    | some p =>
      simp only [hp] at h
      cases h1 : argsOf (⟨[], ptr, []⟩ : St α) as with
      | error f => rw [h1] at h; cases h
      | ok rs =>
        rw [h1] at h
        cases h
        have hk : k ∈ mine := by
          have := hc k
          rw [List.count_cons] at this
          simp at this
          exact List.count_pos_iff.1 (by omega)
        obtain ⟨k1, k2⟩ := give_ok ptr (mine := mine.erase k) (fun j => by
          have := hc j
          rw [List.count_cons] at this
          by_cases e : j = k
          · subst e
            rw [List.count_erase_self]
            simp at this
            omega
          · rw [List.count_erase_of_ne e]
            simp [Ne.symm e] at this
            omega) h1
        refine ⟨fun q => ?_, fun j hj => List.mem_of_mem_erase (k2 j hj)⟩
        have a := k1 q
        have b := held_erase hk hp q
        rw [List.count_cons]
        simp only [giveAway]
        by_cases e : q = p
        · subst e; simp at b ⊢; omega
        · simp [e, Ne.symm e] at b ⊢; omega

/-- The arguments are copied. -/
theorem copyArgs_ok {ptr : List Nat} (hlen : ∀ (q : Nat), q ∈ ptr → ∃ v, valAt s.mem q = some v) :
    ∀ {ps : List (Option Nat)} {m : Mem α} {xs : List (LArg α)},
    (∀ q, ownersAt s.mem q ≤ ownersAt m q) → (∀ q v, valAt s.mem q = some v → valAt m q = some v) →
    s.mem.length ≤ m.length →
    xs = ps.map (fun o => match o with
      | none => .null
      | some p => match valAt s.mem p with
        | none => .null
        | some v => .val v) →
    (∀ p, some p ∈ ps → 0 < ownersAt s.mem p) →
    ∃ m' rs, copyArgs m ps = .ok (m', rs) ∧ ArgsAre ptr m' rs xs ∧
      (∀ q, ownersAt m' q = ownersAt m q + rs.count (some q)) ∧
      (∀ q v, valAt m q = some v → valAt m' q = some v)
  | [], m, xs, _, _, _, hx, _ => by
    subst hx
    exact ⟨m, [], rfl, trivial, fun _ => rfl, fun _ _ h => h⟩
  | none :: as, m, xs, h1, h2, h3, hx, hp => by
    subst hx
    obtain ⟨m', rs, k1, k2, k3, k4⟩ := copyArgs_ok hlen (ps := as) (m := m) h1 h2 h3 rfl
      (fun p h => hp p (.tail _ h))
    refine ⟨m', none :: rs, ?_, ⟨trivial, k2⟩, fun q => ?_, k4⟩
    · simp only [copyArgs, copyArg, bind, Except.bind, k1]
    · rw [k3]; simp
  | some p :: as, m, xs, h1, h2, h3, hx, hp => by
    subst hx
    have ho := hp p (.head _)
    obtain ⟨c, -, -, hv⟩ := own_some ho
    have hl : load m p = .ok c.val := load_ok (h2 _ _ hv) (Nat.lt_of_lt_of_le ho (h1 p))
    obtain ⟨m', rs, k1, k2, k3, k4⟩ := copyArgs_ok hlen (ps := as) (m := (create m c.val).1)
      (fun q => by rw [create_own]; exact Nat.le_trans (h1 q) (by omega))
      (fun q v h => create_val _ _ (h2 q v h)) (by simp [create]; omega) rfl
      (fun p h => hp p (.tail _ h))
    refine ⟨m', some m.length :: rs, ?_, ⟨?_, k2⟩, fun q => ?_, fun q v h => k4 _ _ (create_val _ _ h)⟩
    · simp only [copyArgs, copyArg, bind, Except.bind, hl]
      rw [k1]
      rfl
    · simp only [hv]
      refine ⟨fun hm => ?_, k4 _ _ (create_new m c.val)⟩
      obtain ⟨v, hv⟩ := hlen _ hm
      have := val_lt hv
      omega
    · rw [k3, create_own, List.count_cons]
      by_cases e : q = m.length
      · subst e; simp; omega
      · simp [e, Ne.symm e]

theorem logIs_val (h : Inv a s) {m' : Mem α} (hv : ∀ q v, valAt s.mem q = some v → valAt m' q = some v) :
    LogIs s.ptr m' s.entries a.log :=
  logIs_mono (fun _ _ h => h) (fun p v hp hh => ⟨hp, hv p v hh⟩) h.log

/-- Every legal call comes to an end and keeps the invariant. -/
theorem step_ok (h : Inv a s) {o : Op α} (ho : a.Legal o) : ∃ s', step s o = .ok s' ∧ Inv (a.next o) s' := by
  have hin : ∀ q, q ∈ s.ptr → ∃ v, valAt s.mem q = some v := by
    intro q hq
    obtain ⟨k, hk, rfl⟩ := List.mem_iff_getElem.1 hq
    have := h.vals k _ (List.getElem?_eq_getElem hk)
    rw [List.getElem?_eq_getElem (h.len ▸ hk)] at this
    exact ⟨_, this⟩
  cases o with
  | new v =>
    refine ⟨_, rfl, ?_, ?_, ?_, ?_, ?_, ?_⟩
    · simp [LView.next, h.len]
    · refine List.nodup_append.2 ⟨h.nodup, by simp, ?_⟩
      intro x hx y hy
      simp only [create, List.mem_singleton] at hy
      subst hy
      rintro rfl
      obtain ⟨w, hw⟩ := hin _ hx
      exact absurd (val_lt hw) (Nat.lt_irrefl _)
    · intro k p hk
      simp only [LView.next]
      rcases Nat.lt_or_ge k s.ptr.length with hlt | hge
      · rw [List.getElem?_append_left hlt] at hk
        rw [List.getElem?_append_left (h.len ▸ hlt)]
        have := h.vals k p hk
        rw [List.getElem?_eq_getElem (h.len ▸ hlt)] at this ⊢
        exact create_val _ _ this
      · rw [List.getElem?_append_right hge] at hk
        have e : k = s.ptr.length := by
          cases hz : k - s.ptr.length with
          | zero => omega
          | succ n => rw [hz] at hk; simp at hk
        subst e
        simp only [Nat.sub_self, List.getElem?_cons_zero, Option.some.injEq, create] at hk
        subst hk
        rw [h.len]
        simp only [Nat.le_refl, List.getElem?_append_right, Nat.sub_self, List.getElem?_cons_zero]
        exact create_new _ _
    · intro k hk
      simp only [LView.next, List.mem_cons, List.length_append, List.length_singleton] at hk ⊢
      rcases hk with rfl | hk
      · omega
      · have := h.mine k hk; omega
    · refine logIs_mono (ptr := s.ptr) (m := s.mem) ?_ ?_ h.log
      · intro k p hk
        rw [List.getElem?_append_left (List.getElem?_eq_some_iff.1 hk).1]; exact hk
      · intro p v hp hv
        refine ⟨?_, create_val _ _ hv⟩
        intro hm
        rcases List.mem_append.1 hm with hm | hm
        · exact hp hm
        · simp only [create, List.mem_singleton] at hm
          subst hm
          exact absurd (val_lt hv) (Nat.lt_irrefl _)
    · intro p
      simp only [LView.next]
      have hz : (s.ptr ++ [(create s.mem v).2])[a.objs.length]? = some s.mem.length := by
        rw [← h.len]; simp [create]
      rw [held_cons hz, create_own, h.owners]
      have : heldAt (s.ptr ++ [(create s.mem v).2]) a.mine p = heldAt s.ptr a.mine p := by
        unfold heldAt
        congr 1
        have hm := h.mine
        generalize a.mine = mine at hm
        induction mine with
        | nil => rfl
        | cons k ks ih =>
          simp only [List.filterMap_cons]
          rw [List.getElem?_append_left (by rw [h.len]; exact hm k (.head _)),
            ih fun k hk => hm k (.tail _ hk)]
      rw [this]
      omega
  | incref k =>
    obtain ⟨p, hp, hpos⟩ := h.ptrOf ho
    obtain ⟨m', h1, h2, h3⟩ := incref_ok hpos
    refine ⟨{ s with mem := m' }, by simp only [step, at', hp, bind, Except.bind, h1], h.len, h.nodup,
      fun j q hj => (h3 q).trans (h.vals j q hj), ?_, ?_, fun q => ?_⟩
    · intro j hj
      rcases List.mem_cons.1 hj with rfl | hj
      · exact h.mine _ ho
      · exact h.mine _ hj
    · exact logIs_val h (fun q v hv => (h3 q).trans hv)
    · show ownersAt m' q = heldAt s.ptr (k :: a.mine) q + occ s.entries q
      rw [h2, held_cons hp, h.owners]; omega
  | drop k =>
    obtain ⟨p, hp, hpos⟩ := h.ptrOf ho
    obtain ⟨m', h1, h2, h3⟩ := destroy_ok hpos
    refine ⟨{ s with mem := m' }, by simp only [step, at', hp, bind, Except.bind, h1], h.len, h.nodup,
      fun j q hj => (h3 q).trans (h.vals j q hj), fun j hj => h.mine j (List.mem_of_mem_erase hj), ?_,
      fun q => ?_⟩
    · exact logIs_val h (fun q v hv => (h3 q).trans hv)
    · show ownersAt m' q = heldAt s.ptr (a.mine.erase k) q + occ s.entries q
      have e1 := h2 q
      have e2 := held_erase ho hp q
      rw [h.owners] at e1
      omega
  | assign k v =>
    obtain ⟨p, hp, hpos⟩ := h.ptrOf ho
    obtain ⟨m', h1, h2, h3⟩ := assign_ok hpos v
    have hpm : p ∈ s.ptr := List.mem_of_getElem? hp
    refine ⟨{ s with mem := m' }, by simp only [step, at', hp, bind, Except.bind, h1], ?_, h.nodup,
      ?_, ?_, ?_, fun q => (h2 q).trans (h.owners q)⟩
    · simp [LView.next, h.len]
    · intro j q hj
      show valAt m' q = (a.objs.set k v)[j]?
      rw [h3]
      by_cases e : j = k
      · subst e
        rw [hp] at hj
        cases hj
        rw [if_pos rfl, List.getElem?_set_self (h.mine _ ho)]
      · have hne : q ≠ p := by
          rintro rfl
          exact e (nodup_ptr h hj hp)
        rw [if_neg hne, List.getElem?_set_ne (Ne.symm e)]
        exact h.vals j q hj
    · intro j hj
      simpa [LView.next] using h.mine j hj
    · refine logIs_mono (fun _ _ h => h) ?_ h.log
      intro q w hq hw
      refine ⟨hq, ?_⟩
      rw [h3, if_neg (by rintro rfl; exact hq hpm)]
      exact hw
  | copying kd c args =>
    obtain ⟨ps, h1, -, h2⟩ := argsOf_ok h (args := args) ho
    have hx : args.map a.copied = ps.map (fun o => match o with
        | none => .null
        | some p => match valAt s.mem p with
          | none => .null
          | some v => .val v) := by
      clear h2
      induction args generalizing ps with
      | nil => cases h1; rfl
      | cons x xs ih =>
        have ho' : ∀ k, some k ∈ xs → k ∈ a.mine := fun k hk => ho k (.tail _ hk)
        obtain ⟨rs, e1, -, -⟩ := argsOf_ok h (args := xs) ho'
        cases x with
        | none =>
          simp only [argsOf, e1, bind, Except.bind] at h1
          cases h1
          simp only [List.map_cons, ih ho' _ e1]
          rfl
        | some k =>
          obtain ⟨p, hp, -⟩ := h.ptrOf (ho k (.head _))
          simp only [argsOf, at', hp, e1, bind, Except.bind] at h1
          cases h1
          simp only [List.map_cons, ih ho' _ e1, h.vals k p hp]
          rfl
    have hpos : ∀ p, some p ∈ ps → 0 < ownersAt s.mem p := by
      intro p hp
      obtain ⟨k, hk, hkp⟩ := h2 p hp
      obtain ⟨q, hq, hqo⟩ := h.ptrOf (ho k hk)
      rw [hq] at hkp; cases hkp; exact hqo
    obtain ⟨m', rs, k1, k2, k3, k4⟩ := copyArgs_ok (s := s) (ptr := s.ptr) hin (m := s.mem)
      (fun _ => Nat.le_refl _) (fun _ _ h => h) (Nat.le_refl _) hx hpos
    refine ⟨⟨m', s.ptr, s.entries ++ [⟨kd, c, rs⟩]⟩, by simp only [step, h1, bind, Except.bind, k1], h.len, h.nodup, ?_, h.mine, ?_, fun q => ?_⟩
    · intro j q hj
      have := h.vals j q hj
      have hl : j < a.objs.length := by rw [← h.len]; exact (List.getElem?_eq_some_iff.1 hj).1
      show valAt m' q = a.objs[j]?
      rw [List.getElem?_eq_getElem hl] at this ⊢
      exact k4 _ _ this
    · exact logIs_append (x := (kd, c, args.map a.copied)) ⟨rfl, rfl, k2⟩ (logIs_val h k4)
    · show ownersAt m' q = heldAt s.ptr a.mine q + occ (s.entries ++ [⟨kd, c, rs⟩]) q
      rw [k3, occ_append, h.owners]; simp only; omega
  | taking kd c args =>
    have hmem : ∀ k, some k ∈ args → k ∈ a.mine := by
      intro k hk
      have := List.count_pos_iff.2 hk
      exact List.count_pos_iff.1 (Nat.lt_of_lt_of_le this (ho k))
    obtain ⟨ps, h1, h2, -⟩ := argsOf_ok h (args := args) hmem
    have h1' : argsOf (⟨[], s.ptr, []⟩ : St α) args = .ok ps := by
      rw [← h1]
      clear h1 h2 hmem ho
      induction args with
      | nil => rfl
      | cons x xs ih => cases x <;> simp only [argsOf, ih, at']
    obtain ⟨k1, k2⟩ := give_ok s.ptr ho h1'
    refine ⟨⟨s.mem, s.ptr, s.entries ++ [⟨kd, c, ps⟩]⟩, by simp only [step, h1, bind, Except.bind], h.len, h.nodup, h.vals,
      fun k hk => h.mine k (k2 k hk), ?_, fun q => ?_⟩
    · exact logIs_append (x := (kd, c, args.map LArg.taken)) ⟨rfl, rfl, h2⟩ h.log
    · show ownersAt s.mem q = heldAt s.ptr (giveAway a.mine args) q + occ (s.entries ++ [⟨kd, c, ps⟩]) q
      rw [occ_append, h.owners]
      have := k1 q
      simp only at this ⊢
      omega
  | clear =>
    obtain ⟨m', h1, h2, h3⟩ := clear_ok (es := s.entries) (m := s.mem) (fun q => by
      rw [h.owners]; omega)
    refine ⟨⟨m', s.ptr, []⟩, by simp only [step, h1, bind, Except.bind], h.len, h.nodup,
      fun j q hj => (h3 q).trans (h.vals j q hj), h.mine, trivial, fun q => ?_⟩
    show ownersAt m' q = heldAt s.ptr a.mine q + 0
    have e := h2 q
    rw [h.owners] at e
    omega

theorem run_ok : ∀ {os : List (Op α)} {a : LView α} {s : St α}, Inv a s → a.Legals os →
    ∃ s', run s os = .ok s' ∧ Inv (a.after os) s'
  | [], a, s, h, _ => ⟨s, rfl, h⟩
  | o :: os, a, s, h, hl => by
    obtain ⟨s1, h1, h2⟩ := step_ok h hl.1
    obtain ⟨s2, k1, k2⟩ := run_ok h2 hl.2
    exact ⟨s2, by simp only [run, h1, bind, Except.bind]; exact k1, k2⟩

theorem start_inv : Inv (LView.new (α := α)) start :=
  ⟨rfl, .nil, fun k p h => by simp [start] at h, nofun, trivial, fun p => by
    simp [start, ownersAt, heldAt, occ, LView.new]⟩

/-! ## what the log shows, and counts -/

theorem showArgs_ok (h : Inv a s) : ∀ {as : List (Option Nat)} {xs : List (LArg α)},
    ArgsAre s.ptr s.mem as xs → (∀ p, some p ∈ as → 0 < ownersAt s.mem p) →
    showArgs s.mem as = .ok (xs.map a.showArg)
  | [], [], _, _ => rfl
  | [], _ :: _, h, _ => h.elim
  | _ :: _, [], h, _ => h.elim
  | x :: as, y :: ys, hh, hp => by
    have ih := showArgs_ok h hh.2 (fun p hp' => hp p (.tail _ hp'))
    have h1 : showArg s.mem x = .ok (a.showArg y) := by
      have hx := hh.1
      cases x with
      | none => cases y <;> first | rfl | exact hx.elim
      | some p =>
        have ho := hp p (.head _)
        cases y with
        | null => exact hx.elim
        | val v => simp only [showArg, load_ok hx.2 ho, bind, Except.bind]; rfl
        | obj k =>
          obtain ⟨c, -, -, hv⟩ := own_some ho
          simp only [showArg, load_ok hv ho, bind, Except.bind]
          have := h.vals k p hx
          rw [hv] at this
          simp only [LView.showArg, ← this]
    simp only [showArgs, h1, ih, bind, Except.bind]
    rfl

theorem occ_pos : ∀ {es : List Entry} {e : Entry} {p : Nat}, e ∈ es → some p ∈ e.args → 0 < occ es p
  | e' :: es, e, p, he, hp => by
    have hc : occ (e' :: es) p = e'.args.count (some p) + occ es p := by simp [occ]
    rw [hc]
    rcases List.mem_cons.1 he with rfl | he
    · have := List.count_pos_iff.2 hp; omega
    · have := occ_pos he hp; omega

theorem showLog_ok (h : Inv a s) : showLog s.mem s.entries = .ok a.shown := by
  have : ∀ {es : List Entry} {xs : List (Kind × Nat × List (LArg α))}, LogIs s.ptr s.mem es xs →
      (∀ e ∈ es, ∀ p, some p ∈ e.args → 0 < ownersAt s.mem p) →
      showLog s.mem es = .ok (xs.map fun e => (e.1, e.2.1, e.2.2.map a.showArg)) := by
    intro es
    induction es with
    | nil =>
      intro xs hx _
      cases xs with
      | nil => rfl
      | cons => exact hx.elim
    | cons e es ih =>
      intro xs hx hp
      cases xs with
      | nil => exact hx.elim
      | cons x xs =>
        have h1 := showArgs_ok h hx.1.2.2 (hp e (.head _))
        have h2 := ih hx.2 (fun e he => hp e (.tail _ he))
        simp only [showLog, h1, h2, bind, Except.bind, List.map_cons, hx.1.1, hx.1.2.1]
  refine this h.log fun e he p hp => ?_
  rw [h.owners]
  have := occ_pos he hp
  omega

theorem args_count (h : Inv a s) {k p : Nat} (hk : s.ptr[k]? = some p) :
    ∀ {as : List (Option Nat)} {xs : List (LArg α)}, ArgsAre s.ptr s.mem as xs →
    as.count (some p) = xs.countP fun x => match x with
      | .obj j => j == k
      | _ => false
  | [], [], _ => rfl
  | [], _ :: _, h => h.elim
  | _ :: _, [], h => h.elim
  | x :: as, y :: ys, hh => by
    rw [List.count_cons, List.countP_cons, args_count h hk hh.2]
    congr 1
    have hx := hh.1
    cases x with
    | none => cases y <;> first | rfl | exact hx.elim
    | some q =>
      cases y with
      | null => exact hx.elim
      | val v =>
        have : q ≠ p := by
          rintro rfl
          exact hx.1 (List.mem_of_getElem? hk)
        simp [this]
      | obj j =>
        by_cases e : j = k
        · subst e
          have : s.ptr[j]? = some q := hx
          rw [hk] at this; cases this
          simp
        · have : q ≠ p := by
            rintro rfl
            exact e (nodup_ptr h hx hk)
          simp [this, e]

theorem occ_given (h : Inv a s) {k p : Nat} (hk : s.ptr[k]? = some p) :
    occ s.entries p = a.given k := by
  have : ∀ {es : List Entry} {xs : List (Kind × Nat × List (LArg α))}, LogIs s.ptr s.mem es xs →
      occ es p = (xs.map fun e => e.2.2.countP fun x => match x with
        | .obj j => j == k
        | _ => false).sum := by
    intro es
    induction es with
    | nil =>
      intro xs hx
      cases xs with
      | nil => rfl
      | cons => exact hx.elim
    | cons e es ih =>
      intro xs hx
      cases xs with
      | nil => exact hx.elim
      | cons x xs =>
        have h1 := args_count h hk hx.1.2.2
        have h2 := ih hx.2
        simp only [occ, List.map_cons, List.sum_cons] at h2 ⊢
        rw [h1, h2]
  exact this h.log

theorem held_count (h : Inv a s) {k p : Nat} (hk : s.ptr[k]? = some p) :
    heldAt s.ptr a.mine p = a.mine.count k := by
  have : ∀ mine : List Nat, heldAt s.ptr mine p = mine.count k := by
    intro mine
    induction mine with
    | nil => rfl
    | cons j mine ih =>
      rw [List.count_cons, ← ih]
      cases hj : s.ptr[j]? with
      | none =>
        have e : j ≠ k := by rintro rfl; rw [hk] at hj; cases hj
        simp [heldAt, hj, e]
      | some q =>
        rw [held_cons hj]
        by_cases e : j = k
        · subst e; rw [hk] at hj; cases hj; simp
        · have : p ≠ q := by rintro rfl; exact e (nodup_ptr h hj hk)
          simp [this, e]
  exact this _

end Comps.LogOwn
