import Verif.Spec.Owner

/-! # Lemmas about reference counting -/

namespace Comps.RefC

/-- Number of references to `o` held by objects in memory. -/
def ecount (h : Heap) (o : Nat) : Nat := (edges h).count o

theorem edges_set (h : Heap) (i : Nat) (c v : Option Obj) (hc : h[i]? = some c) (o : Nat) :
    ecount (h.set i v) o + (ownedOf c).count o = ecount h o + (ownedOf v).count o := by
  unfold ecount edges
  induction h generalizing i with
  | nil => simp at hc
  | cons a as ih =>
    cases i with
    | zero =>
      simp at hc; subst hc
      simp only [List.set_cons_zero, List.flatMap_cons, List.count_append]; omega
    | succ i =>
      simp at hc
      have := ih i hc
      simp only [List.set_cons_succ, List.flatMap_cons, List.count_append]
      omega

theorem edges_len_set (h : Heap) (i : Nat) (c v : Option Obj) (hc : h[i]? = some c) :
    (edges (h.set i v)).length + (ownedOf c).length = (edges h).length + (ownedOf v).length := by
  unfold edges
  induction h generalizing i with
  | nil => simp at hc
  | cons a as ih =>
    cases i with
    | zero =>
      simp at hc; subst hc
      simp only [List.set_cons_zero, List.flatMap_cons, List.length_append]; omega
    | succ i =>
      simp at hc
      have := ih i hc
      simp only [List.set_cons_succ, List.flatMap_cons, List.length_append]
      omega

/-- The count of an object is one less than the number of references to it; nothing refers to
anything else. -/
def Inv (h : Heap) (ext : List Nat) : Prop :=
  ∀ o, (∃ ob, h[o]? = some (some ob) ∧ ob.rc + 1 = ext.count o + ecount h o) ∨
    ((∀ ob, h[o]? ≠ some (some ob)) ∧ ext.count o = 0 ∧ ecount h o = 0)

theorem Inv.perm {h : Heap} {a b : List Nat} (hab : a.Perm b) (hi : Inv h a) : Inv h b := by
  intro o
  rw [← hab.count_eq o]; exact hi o

theorem Inv.live {h : Heap} {ext : List Nat} (hi : Inv h ext) {o : Nat}
    (hp : 0 < ext.count o + ecount h o) :
    ∃ ob, h[o]? = some (some ob) ∧ ob.rc + 1 = ext.count o + ecount h o := by
  rcases hi o with h1 | ⟨-, h2, h3⟩
  · exact h1
  · omega

theorem Inv.of_live {h : Heap} {ext : List Nat} (hi : Inv h ext) {o : Nat} {ob : Obj}
    (hl : h[o]? = some (some ob)) : ob.rc + 1 = ext.count o + ecount h o := by
  rcases hi o with ⟨ob', h1, h2⟩ | ⟨h1, -, -⟩
  · rw [hl] at h1; injection h1 with h1; injection h1 with h1; subst h1; exact h2
  · exact absurd hl (h1 ob)

theorem Inv.mem {h : Heap} {ext : List Nat} (hi : Inv h ext) {o : Nat} (hm : o ∈ ext) :
    ∃ ob, h[o]? = some (some ob) ∧ ob.rc + 1 = ext.count o + ecount h o :=
  hi.live (by have := List.count_pos_iff.2 hm; omega)

theorem load_ok {h : Heap} {o : Nat} {ob : Obj} (hl : h[o]? = some (some ob)) :
    load h o = .ok ob := by simp [load, hl]

theorem get_set {h : Heap} {i : Nat} {c : Option Obj} (hc : h[i]? = some c) (v : Option Obj)
    (o : Nat) : (h.set i v)[o]? = if i = o then some v else h[o]? := by
  have hlt : i < h.length := by
    rcases Nat.lt_or_ge i h.length with h1 | h1
    · exact h1
    · rw [List.getElem?_eq_none h1] at hc; simp at hc
  rw [List.getElem?_set]
  by_cases e : i = o
  · subst e; simp [hlt]
  · simp [e]

/-- Change the references held: overwrite one object, moving references in or out of it. -/
theorem Inv.set {h : Heap} {ext ext' : List Nat} (hi : Inv h ext) {i : Nat} {ob ob' : Obj}
    (hl : h[i]? = some (some ob))
    (hcnt : ∀ o, ext'.count o + ob'.owned.count o + (if o = i then ob.rc else 0) =
      ext.count o + ob.owned.count o + (if o = i then ob'.rc else 0)) :
    Inv (h.set i (some ob')) ext' := by
  intro o
  have he := edges_set h i (some ob) (some ob') hl o
  have hc := hcnt o
  simp only [ownedOf] at he
  by_cases e : o = i
  · subst e
    left
    refine ⟨ob', by rw [get_set hl]; simp, ?_⟩
    have := hi.of_live hl
    simp at hc
    omega
  · simp only [if_neg e] at hc
    have e' : ¬ i = o := fun h => e h.symm
    rcases hi o with ⟨ob2, h1, h2⟩ | ⟨h1, h2, h3⟩
    · left
      refine ⟨ob2, by rw [get_set hl, if_neg e']; exact h1, by omega⟩
    · right
      refine ⟨fun ob2 => by rw [get_set hl, if_neg e']; exact h1 ob2, ?_⟩
      omega

theorem Inv.free {h : Heap} {ext : List Nat} {o : Nat} {ob : Obj} (hi : Inv h (o :: ext))
    (hl : h[o]? = some (some ob)) (hz : ob.rc = 0) : Inv (h.set o none) (ob.owned ++ ext) := by
  have hcnt := hi.of_live hl
  intro p
  have he := edges_set h o (some ob) none hl p
  simp only [ownedOf, List.count_nil, Nat.add_zero] at he
  simp only [List.count_append]
  by_cases e : p = o
  · subst e
    right
    simp only [List.count_cons_self] at hcnt
    refine ⟨fun ob2 => by rw [get_set hl]; simp, ?_⟩
    omega
  · have e' : ¬ o = p := fun h => e h.symm
    rcases hi p with ⟨ob2, h1, h2⟩ | ⟨h1, h2, h3⟩
    · left
      refine ⟨ob2, by rw [get_set hl, if_neg e']; exact h1, ?_⟩
      rw [List.count_cons_of_ne e'] at h2; omega
    · right
      refine ⟨fun ob2 => by rw [get_set hl, if_neg e']; exact h1 ob2, ?_⟩
      rw [List.count_cons_of_ne e'] at h2; omega

theorem Inv.dec {h : Heap} {ext : List Nat} {o : Nat} {ob : Obj} (hi : Inv h (o :: ext))
    (hl : h[o]? = some (some ob)) (hz : ob.rc ≠ 0) :
    Inv (h.set o (some { ob with rc := ob.rc - 1 })) ext := by
  refine hi.set hl ?_
  intro p
  by_cases e : p = o
  · subst e; simp; omega
  · have e' : ¬ o = p := fun h => e h.symm
    rw [List.count_cons_of_ne e']; simp [e]

/-- The log lists every freed object once. -/
def LogOk (h : Heap) (log : List Nat) : Prop := log.Nodup ∧ ∀ o, o ∈ log ↔ h[o]? = some none

theorem LogOk.set_some {h : Heap} {log : List Nat} (hl : LogOk h log) {i : Nat} {ob ob' : Obj}
    (hi : h[i]? = some (some ob)) : LogOk (h.set i (some ob')) log := by
  refine ⟨hl.1, fun o => ?_⟩
  rw [hl.2 o, get_set hi]
  by_cases e : i = o
  · subst e; simp [hi]
  · simp [e]

theorem LogOk.free {h : Heap} {log : List Nat} (hl : LogOk h log) {i : Nat} {ob : Obj}
    (hi : h[i]? = some (some ob)) : LogOk (h.set i none) (log ++ [i]) := by
  have hni : i ∉ log := by rw [hl.2, hi]; simp
  refine ⟨?_, fun o => ?_⟩
  · rw [List.nodup_append]
    refine ⟨hl.1, by simp, ?_⟩
    intro a ha b hb
    simp at hb; subst hb
    exact fun e => hni (e ▸ ha)
  · rw [List.mem_append, hl.2 o, get_set hi]
    by_cases e : i = o
    · subst e; simp
    · have : ¬ o = i := fun h => e h.symm
      simp [e, this]

/-- Releasing only frees objects and lowers counts. -/
def Shrinks (h h' : Heap) : Prop :=
  h'.length = h.length ∧ ∀ (o : Nat) (ob' : Obj), h'[o]? = some (some ob') →
    ∃ ob : Obj, h[o]? = some (some ob) ∧ ob'.owned = ob.owned

theorem Shrinks.refl (h : Heap) : Shrinks h h := ⟨rfl, fun _ ob' hb => ⟨ob', hb, rfl⟩⟩

theorem Shrinks.trans {a b c : Heap} (h1 : Shrinks a b) (h2 : Shrinks b c) : Shrinks a c := by
  refine ⟨h2.1.trans h1.1, fun o ob' hb => ?_⟩
  obtain ⟨ob, hb1, e1⟩ := h2.2 o ob' hb
  obtain ⟨ob0, hb0, e0⟩ := h1.2 o ob hb1
  exact ⟨ob0, hb0, e1.trans e0⟩

theorem shrinks_set {h : Heap} {i : Nat} {ob : Obj} (hi : h[i]? = some (some ob)) (v : Option Obj)
    (hv : ∀ ob', v = some ob' → ob'.owned = ob.owned) : Shrinks h (h.set i v) := by
  refine ⟨by simp, fun o ob' hb => ?_⟩
  rw [get_set hi] at hb
  by_cases e : i = o
  · subst e
    simp at hb
    exact ⟨ob, hi, hv ob' hb⟩
  · simp [e] at hb
    exact ⟨ob', hb, rfl⟩

theorem destroyAll_ok (fuel : Nat) (h : Heap) (log todo ext : List Nat) (hi : Inv h (todo ++ ext))
    (hlog : LogOk h log) (hf : todo.length + (edges h).length ≤ fuel) :
    ∃ h' log', destroyAll fuel h log todo = .ok (h', log') ∧ Inv h' ext ∧ LogOk h' log' ∧
      Shrinks h h' := by
  induction fuel generalizing h log todo with
  | zero =>
    have : todo = [] := by cases todo <;> simp_all
    subst this
    exact ⟨h, log, by simp [destroyAll], by simpa using hi, hlog, .refl h⟩
  | succ fuel ih =>
    cases todo with
    | nil => exact ⟨h, log, by simp [destroyAll], by simpa using hi, hlog, .refl h⟩
    | cons o todo =>
      obtain ⟨ob, hl, hc⟩ := hi.mem (o := o) (by simp)
      simp only [destroyAll, load_ok hl]
      simp only [List.length_cons] at hf
      by_cases hz : ob.rc = 0
      · rw [if_pos hz]
        have hlen := edges_len_set h o (some ob) none hl
        simp only [ownedOf, List.length_nil] at hlen
        obtain ⟨h', log', e, h1, h2, h3⟩ := ih (h.set o none) (log ++ [o]) (ob.owned ++ todo)
          (by rw [List.append_assoc]; exact Inv.free hi hl hz) (hlog.free hl)
          (by rw [List.length_append]; omega)
        exact ⟨h', log', e, h1, h2, (shrinks_set hl none (by simp)).trans h3⟩
      · rw [if_neg hz]
        have hlen := edges_len_set h o (some ob) (some { ob with rc := ob.rc - 1 }) hl
        simp only [ownedOf] at hlen
        obtain ⟨h', log', e, h1, h2, h3⟩ := ih (h.set o (some { ob with rc := ob.rc - 1 })) log todo
          (Inv.dec hi hl hz) (hlog.set_some hl) (by omega)
        exact ⟨h', log', e, h1, h2,
          (shrinks_set hl _ (by rintro _ ⟨⟩; rfl)).trans h3⟩

theorem destroy_ok (h : Heap) (log : List Nat) (o : Nat) (ext : List Nat) (hi : Inv h (o :: ext))
    (hlog : LogOk h log) :
    ∃ h' log', destroy h log o = .ok (h', log') ∧ Inv h' ext ∧ LogOk h' log' ∧ Shrinks h h' :=
  destroyAll_ok _ h log [o] ext hi hlog (by simp; omega)

theorem ecount_append_new (h : Heap) (o : Nat) : ecount (h ++ [some ⟨0, []⟩]) o = ecount h o := by
  simp [ecount, edges, ownedOf]

theorem Inv.create {h : Heap} {ext : List Nat} (hi : Inv h ext) :
    Inv (RefC.create h).1 ((RefC.create h).2 :: ext) := by
  intro o
  simp only [RefC.create, ecount_append_new]
  by_cases e : o = h.length
  · subst e
    left
    refine ⟨⟨0, []⟩, by simp, ?_⟩
    rcases hi h.length with ⟨ob, h1, -⟩ | ⟨-, h2, h3⟩
    · simp at h1
    · simp [h2, h3]
  · have e' : ¬ h.length = o := fun h => e h.symm
    rw [List.count_cons_of_ne e']
    have hge : (h ++ [some (⟨0, []⟩ : Obj)])[o]? = h[o]? := by
      rw [List.getElem?_append]
      split
      · rfl
      · rename_i hlt
        rw [List.getElem?_eq_none (by simp; omega), List.getElem?_eq_none (by omega)]
    rw [hge]; exact hi o

theorem LogOk.create {h : Heap} {log : List Nat} (hl : LogOk h log) :
    LogOk (RefC.create h).1 log := by
  refine ⟨hl.1, fun o => ?_⟩
  rw [hl.2 o]
  simp only [RefC.create]
  rw [List.getElem?_append]
  split
  · rfl
  · rename_i hlt
    rw [List.getElem?_eq_none (by omega : h.length ≤ o)]
    cases hk : o - h.length with
    | zero => simp
    | succ k => simp

/-- Only new references appear: the objects and what they own are as before. -/
theorem incref_ok {h : Heap} {ext log : List Nat} (hi : Inv h ext) (hlog : LogOk h log) {o : Nat}
    {ob : Obj} (hl : h[o]? = some (some ob)) :
    ∃ h', incref h o = .ok h' ∧ Inv h' (o :: ext) ∧ LogOk h' log ∧ h'.length = h.length ∧
      (∀ (p : Nat) (ob' : Obj), h[p]? = some (some ob') → ∃ ob'' : Obj, h'[p]? = some (some ob'') ∧
        ob''.owned = ob'.owned) := by
  refine ⟨h.set o (some { ob with rc := ob.rc + 1 }), ?_, ?_, hlog.set_some hl, by simp, ?_⟩
  · simp [incref, load_ok hl]; rfl
  · refine hi.set hl ?_
    intro p
    by_cases e : p = o
    · subst e; simp; omega
    · have e' : ¬ o = p := fun h => e h.symm
      rw [List.count_cons_of_ne e']; simp [e]
  · intro p ob' hp
    rw [get_set hl]
    by_cases e : o = p
    · subst e
      rw [hl] at hp; injection hp with hp; injection hp with hp; subst hp
      exact ⟨_, if_pos rfl, rfl⟩
    · exact ⟨ob', by rw [if_neg e]; exact hp, rfl⟩

theorem appendX_ok {h : Heap} {ext log : List Nat} {l o : Nat} (hi : Inv h (o :: ext))
    (hlog : LogOk h log) {ob : Obj} (hl : h[l]? = some (some ob)) :
    ∃ h', appendX h l o = .ok h' ∧ Inv h' ext ∧ LogOk h' log ∧ h'.length = h.length ∧
      h'[l]? = some (some { ob with owned := ob.owned ++ [o] }) ∧
      (∀ p, p ≠ l → h'[p]? = h[p]?) := by
  refine ⟨h.set l (some { ob with owned := ob.owned ++ [o] }), ?_, ?_, hlog.set_some hl, by simp,
    ?_, ?_⟩
  · simp [appendX, load_ok hl]; rfl
  · refine hi.set hl ?_
    intro p
    simp only [List.count_append, List.count_cons, List.count_nil]; omega
  · rw [get_set hl, if_pos rfl]
  · intro p hp
    rw [get_set hl, if_neg (fun e => hp e.symm)]

theorem append_ok {h : Heap} {ext log : List Nat} {l o : Nat} (hi : Inv h ext)
    (hlog : LogOk h log) {ob obo : Obj} (hl : h[l]? = some (some ob))
    (ho : h[o]? = some (some obo)) :
    ∃ h', append h l o = .ok h' ∧ Inv h' ext ∧ LogOk h' log ∧ h'.length = h.length ∧
      (∃ ob' : Obj, h'[l]? = some (some ob') ∧ ob'.owned = ob.owned ++ [o]) ∧
      (∀ (p : Nat) (ob' : Obj), p ≠ l → h[p]? = some (some ob') → ∃ ob'' : Obj, h'[p]? = some (some ob'') ∧
        ob''.owned = ob'.owned) := by
  obtain ⟨h1, e1, i1, l1, n1, k1⟩ := incref_ok hi hlog ho
  obtain ⟨ob1, hl1, ow1⟩ := k1 l ob hl
  obtain ⟨h2, e2, i2, l2, n2, g2, k2⟩ := appendX_ok i1 l1 hl1
  refine ⟨h2, ?_, i2, l2, n2.trans n1, ⟨_, g2, by simp [ow1]⟩, ?_⟩
  · simp only [append, e1]; exact e2
  · intro p ob' hp hpp
    rw [k2 p hp]; exact k1 p ob' hpp

theorem appendAll_ok (os : List Nat) {h : Heap} {ext log : List Nat} {l : Nat} (hi : Inv h ext)
    (hlog : LogOk h log) {ob : Obj} (hl : h[l]? = some (some ob))
    (hos : ∀ o ∈ os, Heap.alive h o) :
    ∃ h', appendAll h l os = .ok h' ∧ Inv h' ext ∧ LogOk h' log ∧ h'.length = h.length ∧
      (∃ ob' : Obj, h'[l]? = some (some ob') ∧ ob'.owned = ob.owned ++ os) ∧
      (∀ (p : Nat) (ob' : Obj), p ≠ l → h[p]? = some (some ob') → ∃ ob'' : Obj, h'[p]? = some (some ob'') ∧
        ob''.owned = ob'.owned) := by
  induction os generalizing h ob with
  | nil => exact ⟨h, rfl, hi, hlog, rfl, ⟨ob, hl, by simp⟩, fun p ob' _ hp => ⟨ob', hp, rfl⟩⟩
  | cons o os ih =>
    obtain ⟨obo, ho⟩ := hos o (by simp)
    obtain ⟨h1, e1, i1, l1, n1, ⟨ob1, g1, w1⟩, k1⟩ := append_ok hi hlog hl ho
    obtain ⟨h2, e2, i2, l2, n2, ⟨ob2, g2, w2⟩, k2⟩ := ih i1 l1 g1 (by
      intro p hp
      obtain ⟨obp, hpp⟩ := hos p (by simp [hp])
      by_cases e : p = l
      · subst e; exact ⟨ob1, g1⟩
      · obtain ⟨ob'', hx, -⟩ := k1 p obp e hpp
        exact ⟨ob'', hx⟩)
    refine ⟨h2, ?_, i2, l2, n2.trans n1, ⟨ob2, g2, by simp [w2, w1]⟩, ?_⟩
    · simp only [appendAll, e1]; exact e2
    · intro p ob' hp hpp
      obtain ⟨ob'', hx, wx⟩ := k1 p ob' hp hpp
      obtain ⟨ob3, hy, wy⟩ := k2 p ob'' hp hx
      exact ⟨ob3, hy, wy.trans wx⟩

/-- Everything an object in memory owns is in memory. -/
theorem Inv.owned_alive {h : Heap} {ext : List Nat} (hi : Inv h ext) {l o : Nat} {ob : Obj}
    (hl : h[l]? = some (some ob)) (ho : o ∈ ob.owned) : Heap.alive h o := by
  have hc : 0 < ecount h o := by
    rw [ecount, List.count_pos_iff, edges, List.mem_flatMap]
    exact ⟨some ob, List.mem_of_getElem? hl, ho⟩
  obtain ⟨ob', h1, -⟩ := hi.live (o := o) (by omega)
  exact ⟨ob', h1⟩

theorem concatIn_ok {h : Heap} {ext log : List Nat} {l l2 : Nat} (hi : Inv h ext)
    (hlog : LogOk h log) {ob ob2 : Obj} (hl : h[l]? = some (some ob))
    (hl2 : h[l2]? = some (some ob2)) :
    ∃ h', concatIn h l l2 = .ok h' ∧ Inv h' ext ∧ LogOk h' log ∧ h'.length = h.length ∧
      (∃ ob' : Obj, h'[l]? = some (some ob') ∧ ob'.owned = ob.owned ++ ob2.owned) ∧
      (∀ (p : Nat) (ob' : Obj), p ≠ l → h[p]? = some (some ob') → ∃ ob'' : Obj, h'[p]? = some (some ob'') ∧
        ob''.owned = ob'.owned) := by
  obtain ⟨h', e, r⟩ := appendAll_ok ob2.owned hi hlog hl (fun o ho => hi.owned_alive hl2 ho)
  refine ⟨h', ?_, r⟩
  simp only [concatIn, load_ok hl2]; exact e

/-- The invariant of the whole client state. -/
def Good (s : St) : Prop := Inv s.heap s.hands ∧ LogOk s.heap s.log

theorem count_eraseIdx {l : List Nat} {i a : Nat} (h : l[i]? = some a) (p : Nat) :
    (l.eraseIdx i).count p + (if p = a then 1 else 0) = l.count p := by
  induction l generalizing i with
  | nil => simp at h
  | cons x xs ih =>
    cases i with
    | zero =>
      simp at h; subst h
      simp only [List.eraseIdx_cons_zero, List.count_cons]
      by_cases e : p = x
      · subst e; simp
      · have : ¬ x = p := fun h => e h.symm
        simp [e, this]
    | succ i =>
      simp at h
      have := ih h
      simp only [List.eraseIdx_cons_succ, List.count_cons]
      omega

/-- Taking an element out of a list moves its reference to the caller. -/
theorem Inv.unlink {h : Heap} {ext : List Nat} (hi : Inv h ext) {l i o : Nat} {ob : Obj}
    (hl : h[l]? = some (some ob)) (ho : ob.owned[i]? = some o) :
    Inv (h.set l (some { ob with owned := ob.owned.eraseIdx i })) (o :: ext) := by
  refine hi.set hl ?_
  intro p
  have := count_eraseIdx ho p
  simp only [List.count_cons]
  by_cases e : p = o
  · subst e; simp at this ⊢; omega
  · have e' : ¬ o = p := fun h => e h.symm
    simp [e, e'] at this ⊢; omega

theorem step_ok {s : St} (hg : Good s) {c : Call} (ha : c.allowed s) :
    ∃ s', c.run s = .ok s' ∧ Good s' := by
  obtain ⟨hi, hlog⟩ := hg
  cases c with
  | create =>
    exact ⟨_, rfl, hi.create, hlog.create⟩
  | retain o =>
    obtain ⟨ob, hl, -⟩ := hi.mem ha
    obtain ⟨h', e, i', l', -, -⟩ := incref_ok hi hlog hl
    exact ⟨_, by simp only [Call.run, e]; rfl, i', l'⟩
  | release o =>
    obtain ⟨h', log', e, i', l', -⟩ := destroy_ok s.heap s.log o (s.hands.erase o)
      (hi.perm (List.perm_cons_erase ha)) hlog
    exact ⟨_, by simp only [Call.run, e]; rfl, i', l'⟩
  | append l o =>
    obtain ⟨ob, hl, -⟩ := hi.mem ha.1
    obtain ⟨obo, ho, -⟩ := hi.mem ha.2
    obtain ⟨h', e, i', l', -⟩ := append_ok hi hlog hl ho
    exact ⟨_, by simp only [Call.run, e]; rfl, i', l'⟩
  | appendX l o =>
    obtain ⟨ob, hl, -⟩ := hi.mem ha.1
    obtain ⟨h', e, i', l', -⟩ := appendX_ok (hi.perm (List.perm_cons_erase ha.2)) hlog hl
    exact ⟨_, by simp only [Call.run, e]; rfl, i', l'⟩
  | removeAt l i =>
    obtain ⟨ob, hl, -⟩ := hi.mem ha
    cases ho : ob.owned[i]? with
    | none =>
      refine ⟨s, ?_, hi, hlog⟩
      simp only [Call.run, RefC.removeAt, load_ok hl, bind, Except.bind, ho]
    | some o =>
      obtain ⟨h', log', e, i', l', -⟩ := destroy_ok _ s.log o s.hands (hi.unlink hl ho)
        (hlog.set_some hl)
      refine ⟨⟨h', s.hands, log'⟩, ?_, i', l'⟩
      simp only [Call.run, RefC.removeAt, load_ok hl, bind, Except.bind, ho, e]
  | get l i =>
    obtain ⟨ob, hl, -⟩ := hi.mem ha
    cases ho : ob.owned[i]? with
    | none =>
      refine ⟨s, ?_, hi, hlog⟩
      simp only [Call.run, RefC.get, load_ok hl, bind, Except.bind, ho]; rfl
    | some o =>
      obtain ⟨obo, hoo⟩ := hi.owned_alive hl (List.mem_of_getElem? ho)
      obtain ⟨h', e, i', l', -, -⟩ := incref_ok hi hlog hoo
      refine ⟨⟨h', o :: s.hands, s.log⟩, ?_, i', l'⟩
      simp only [Call.run, RefC.get, load_ok hl, bind, Except.bind, ho, e]; rfl
  | setAt l i o =>
    obtain ⟨ob, hl, -⟩ := hi.mem ha.1
    cases ho : ob.owned[i]? with
    | none =>
      refine ⟨s, ?_, hi, hlog⟩
      simp only [Call.run, RefC.setAt, load_ok hl, bind, Except.bind, ho]
    | some old =>
      obtain ⟨h', log', e, i', l', -⟩ := destroy_ok _ s.log old s.hands (hi.unlink hl ho)
        (hlog.set_some hl)
      obtain ⟨obo, hoo, -⟩ := i'.mem ha.2
      obtain ⟨h2, e2, i2, l2, -, -⟩ := incref_ok i' l' hoo
      obtain ⟨obl, hll, -⟩ := i2.mem (List.mem_cons_of_mem o ha.1)
      refine ⟨⟨h2.set l (some { obl with owned := obl.owned.take i ++ o :: obl.owned.drop i }),
        s.hands, log'⟩, ?_, ?_, l2.set_some hll⟩
      · simp only [Call.run, RefC.setAt, load_ok hl, bind, Except.bind, ho, e, e2, load_ok hll]
      · refine i2.set hll ?_
        intro p
        have : (obl.owned.take i).count p + (obl.owned.drop i).count p = obl.owned.count p := by
          rw [← List.count_append, List.take_append_drop]
        simp only [List.count_append, List.count_cons]
        omega
  | clear l =>
    obtain ⟨ob, hl, -⟩ := hi.mem ha
    have hlen := edges_len_set s.heap l (some ob) (some { ob with owned := [] }) hl
    simp only [ownedOf, List.length_nil] at hlen
    obtain ⟨h', log', e, i', l', -⟩ := destroyAll_ok ((edges s.heap).length + 1)
      (s.heap.set l (some { ob with owned := [] })) s.log ob.owned s.hands
      (hi.set hl (by intro p; simp only [List.count_append, List.count_nil]; omega))
      (hlog.set_some hl) (by omega)
    refine ⟨⟨h', s.hands, log'⟩, ?_, i', l'⟩
    simp only [Call.run, RefC.clear, load_ok hl, bind, Except.bind, e]
  | concatIn l l2 =>
    obtain ⟨ob, hl, -⟩ := hi.mem ha.1
    obtain ⟨ob2, hl2, -⟩ := hi.mem ha.2.1
    obtain ⟨h', e, i', l', -⟩ := concatIn_ok hi hlog hl hl2
    exact ⟨_, by simp only [Call.run, e]; rfl, i', l'⟩
  | concat l1 l2 =>
    have ic := hi.create
    have lc := hlog.create
    obtain ⟨obr, hr, -⟩ := ic.mem (o := (RefC.create s.heap).2) (by simp)
    obtain ⟨ob1, hl1, -⟩ := ic.mem (List.mem_cons_of_mem _ ha.1)
    obtain ⟨h1, e1, i1, g1, -⟩ := concatIn_ok ic lc hr hl1
    obtain ⟨obr', hr', -⟩ := i1.mem (o := (RefC.create s.heap).2) (by simp)
    obtain ⟨ob2, hl2, -⟩ := i1.mem (List.mem_cons_of_mem _ ha.2)
    obtain ⟨h2, e2, i2, g2, -⟩ := concatIn_ok i1 g1 hr' hl2
    refine ⟨⟨h2, (RefC.create s.heap).2 :: s.hands, s.log⟩, ?_, i2, g2⟩
    simp only [Call.run, RefC.concat, bind, Except.bind, e1, e2]

theorem good_init : Good St.init := by
  refine ⟨fun o => .inr ?_, ?_⟩
  · simp [St.init, ecount, edges]
  · simp [St.init, LogOk]

theorem runs_ok {s : St} (hg : Good s) {cs : List Call} {r : Res St} (hr : Runs s cs r) :
    ∃ s', r = .ok s' ∧ Good s' := by
  induction hr with
  | done s => exact ⟨s, rfl, hg⟩
  | step ha hrun rest ih =>
    obtain ⟨s', e, g⟩ := step_ok hg ha
    rw [hrun] at e; injection e with e; subst e
    exact ih g
  | fault ha hrun =>
    obtain ⟨s', e, g⟩ := step_ok hg ha
    rw [hrun] at e; simp at e

theorem refs_eq (s : St) (o : Nat) : s.refs o = s.hands.count o + ecount s.heap o := by
  unfold St.refs ecount edges
  congr 1
  induction s.heap with
  | nil => rfl
  | cons c cs ih =>
    simp only [List.map_cons, List.sum_cons, List.flatMap_cons, List.count_append, ih]
    cases c <;> rfl

end Comps.RefC
