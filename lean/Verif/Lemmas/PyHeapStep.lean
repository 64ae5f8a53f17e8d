import Verif.Lemmas.PyHeapSim

/-! # Every call, with and without memory management -/

namespace Comps.PyHeap
open Comps Comps.Obj
open Comps.PyElem (Pkg EKind Attr PkgAttr GidAttr Arg)

/-- A variable that holds a list keeps the list in memory. -/
theorem Good.hold {h : Heap} {e : List Nat} {objs : List Body} (g : Good h e objs) {w : Nat} {t : PType}
    {a : Nat} {n d : Option Nat} (hw : w ∈ e) (ho : PyHeap.look objs w = .ok (.wrap t a n d)) :
    Has h w (.wrap t a n d) ∧ ∃ b, Has h a b := by
  obtain ⟨b, hb⟩ := g.has hw
  have : b = .wrap t a n d := g.has_eq hb ho
  subst this
  exact ⟨hb, g.child hb (by simp [Body.children])⟩

theorem listSet_rel {st : St} {h1 : Heap} {r : R} {l i a w : Nat} {k kind : LKind} {items : List Nat}
    {n d : Option Nat} {o : Obs}
    (g : Good h1 (a :: (roots st.vars ++ r.lost)) r.objs) (hv : st.vars = r.vars)
    (hl : Has h1 l (.list kind items)) (hw : w ∈ roots st.vars) (hwl : Has h1 w (.wrap (.list k) l n d))
    (hi : i < items.length) :
    Sim (do let h ← listSet h1 l i a; return (⟨h, st.vars⟩, o))
      (.ok ((r.put l (.list kind (items.set i a))).lose a, o)) := by
  have hwle : ∀ (x : Nat) (e : List Nat), w ∈ x :: (roots st.vars ++ r.lost) ++ e := by
    intro x e; simp [hw]
  have hwl' : w ≠ l := by
    rintro rfl
    have := g.has_eq hwl (g.look hl)
    cases this
  have hr : asList (read h1) l = .ok (kind, items) := by simp [asList, hl.read, bind, Except.bind]
  have hp : items.Perm (items[i] :: items.eraseIdx i) := erase_perm (List.getElem?_eq_getElem hi)
  have : ∃ h', listSet h1 l i a = .ok h' ∧
      Good h' (a :: (roots st.vars ++ r.lost)) (r.objs.set l (.list kind (items.set i a))) := by
    unfold listSet
    rw [hr]
    simp only [bind, Except.bind]
    rw [List.getElem?_eq_getElem hi]
    dsimp only
    obtain ⟨h2, e2, g2, l2, k2⟩ := g.write (e' := items[i] :: a :: (roots st.vars ++ r.lost))
      (b' := .list kind (items.eraseIdx i)) hl (by
        simp only [Body.children]
        exact (hp.append_right _).trans List.perm_middle.symm)
    rw [e2]; dsimp only
    obtain ⟨h3, e3, g3⟩ := g2.release
    rw [e3]; dsimp only
    obtain ⟨ba, hba⟩ := g3.has (a := a) (by simp)
    obtain ⟨h4, e4, g4, k4⟩ := g3.incref hba
    rw [e4]; dsimp only
    obtain ⟨-, bl, hbl⟩ := g4.hold (w := w) (by simp [hw]) (g2.look (k2 _ _ hwl' hwl))
    have hbl' : bl = .list kind (items.eraseIdx i) := g4.has_eq hbl (g2.look l2)
    subst hbl'
    obtain ⟨h5, e5, g5, -, -⟩ := g4.write (e' := a :: (roots st.vars ++ r.lost))
      (b' := .list kind (items.set i a)) hbl (by
        simp only [Body.children]
        exact List.perm_middle.trans ((set_perm hi).symm.append_right _))
    exact ⟨h5, e5, by simpa using g5⟩
  obtain ⟨h', e', g'⟩ := this
  refine Sim.left e' (Sim.ret ⟨?_, hv⟩)
  exact g'.perm (by simpa [R.lose, R.put] using List.perm_middle.symm)

theorem Rel.setItem {st : St} {r : R} (h : Rel st r) {k : LKind} {l i a w : Nat} {n d : Option Nat}
    {bl ba : Body} (hw : w ∈ roots st.vars) (hwl : Has st.heap w (.wrap (.list k) l n d))
    (hl : Has st.heap l bl) (ha : Has st.heap a ba) :
    Sim (PyHeap.setItem st k l i a) (r.setItem k l i a) := by
  obtain ⟨h1, e1, g1, k1⟩ := h.good.incref ha
  unfold PyHeap.setItem R.setItem
  refine Sim.left e1 ?_
  refine Sim.bind (asList_eq g1 (k1 _ _ hl)) ?_
  rintro ⟨kind, items⟩ ho
  have hl' := asList_has g1 (k1 _ _ hl) ho
  dsimp only
  split
  · exact Sim.ret ⟨g1.perm (by simpa [R.lose] using List.perm_middle.symm), h.vars⟩
  · rename_i hlt
    split
    · refine Sim.bind (unique_eq g1 (items_live g1 hl') (k1 _ _ ha)) ?_
      intro ok _
      cases ok with
      | false => exact Rel.releaseEnd g1 h.vars
      | true => exact listSet_rel g1 h.vars hl' hw (k1 _ _ hwl) (by omega)
    · refine Sim.bind (passes_eq g1 (k1 _ _ ha)) ?_
      intro ok _
      cases ok with
      | false => exact Rel.releaseEnd g1 h.vars
      | true => exact listSet_rel g1 h.vars hl' hw (k1 _ _ hwl) (by omega)

theorem Rel.delItem {st : St} {r : R} (h : Rel st r) {l i : Nat} {bl : Body} (hl : Has st.heap l bl) :
    Sim (PyHeap.delItem st l i) (r.delItem l i) := by
  unfold PyHeap.delItem R.delItem
  refine Sim.bind (asList_eq h.good hl) ?_
  rintro ⟨kind, items⟩ ho
  have hl' := asList_has h.good hl ho
  dsimp only
  by_cases hi : i < items.length
  · rw [List.getElem?_eq_getElem hi, if_pos hi]
    have hp : items.Perm (items[i] :: items.eraseIdx i) := erase_perm (List.getElem?_eq_getElem hi)
    obtain ⟨h2, e2, g2, -, -⟩ := h.good.write (e' := items[i] :: (roots st.vars ++ r.lost))
      (b' := .list kind (items.eraseIdx i)) hl' (by
        simp only [Body.children]
        exact (hp.append_right _).trans List.perm_middle.symm)
    exact Sim.left e2 (Rel.releaseEnd (r := r.put l _) g2 h.vars)
  · rw [List.getElem?_eq_none (by omega), if_neg hi]
    exact Sim.ret h

theorem Rel.remove {st : St} {r : R} (h : Rel st r) {l a : Nat} {bl ba : Body}
    (hl : Has st.heap l bl) (ha : Has st.heap a ba) :
    Sim (PyHeap.remove st l a) (r.remove l a) := by
  obtain ⟨h1, e1, g1, k1⟩ := h.good.incref ha
  unfold PyHeap.remove R.remove
  refine Sim.left e1 ?_
  refine Sim.bind (asList_eq g1 (k1 _ _ hl)) ?_
  rintro ⟨kind, items⟩ ho
  have hl' := asList_has g1 (k1 _ _ hl) ho
  dsimp only
  have hg : ∀ {h2 : Heap} {objs : List Body}, Good h2 (a :: (roots st.vars ++ r.lost)) objs →
      Good h2 (roots st.vars ++ a :: r.lost) objs := fun g => g.perm List.perm_middle.symm
  split
  · rename_i hm
    obtain ⟨h2, e2, g2, -, -⟩ := g1.write (e' := a :: a :: (roots st.vars ++ r.lost))
      (b' := .list kind (items.erase a)) hl' (by
        simp only [Body.children]
        exact ((List.perm_cons_erase hm).append_right _).trans List.perm_middle.symm)
    obtain ⟨h3, e3, g3⟩ := g2.release
    exact Sim.left e2 (Sim.left e3 (Sim.ret ⟨hg g3, h.vars⟩))
  · exact Sim.ret ⟨hg g1, h.vars⟩

theorem Rel.clear {st : St} {r : R} (h : Rel st r) {l : Nat} {bl : Body} (hl : Has st.heap l bl) :
    Sim (PyHeap.clear st l) (do
      let (kind, _) ← asList (look r.objs) l
      return (r.put l (.list kind []), .none)) := by
  unfold PyHeap.clear
  refine Sim.bind (asList_eq h.good hl) ?_
  rintro ⟨kind, items⟩ ho
  have hl' := asList_has h.good hl ho
  obtain ⟨h2, e2, g2, -, -⟩ := h.good.write (e' := items ++ (roots st.vars ++ r.lost))
      (b' := .list kind []) hl' (by simp [Body.children])
  obtain ⟨h3, e3, g3⟩ := g2.releases
  exact Sim.left e2 (Sim.left e3 (Sim.ret ⟨g3, h.vars⟩))

theorem Sim.nonNull {o : Option Nat} {f : Nat → Res (St × Obs)} {k : Nat → Res (R × Obs)}
    (hk : ∀ a, o = some a → Sim (f a) (k a)) : Sim (PyHeap.nonNull o >>= f) (PyHeap.nonNull o >>= k) := by
  cases o with
  | none => rfl
  | some a => exact hk a rfl

/-- A new Python object around a child. -/
theorem Rel.wrapChild {st : St} {r : R} (h : Rel st r) {t : PType} {a : Nat} {b : Body}
    (ha : Has st.heap a b) :
    Sim (do let h ← incref st.heap a; return (St.wrapUp { st with heap := h } t a, .object))
      (.ok (r.wrapUp t a, .object)) := by
  obtain ⟨h1, e1, g1, -⟩ := h.good.incref ha
  exact Sim.left e1 (Sim.ret (Rel.wrapUp (st := ⟨h1, st.vars⟩) g1 h.vars))

theorem Rel.getList {st : St} {r : R} (h : Rel st r) {k : EKind} {a : Nat} {o : Bool} {b : Body}
    (ha : Has st.heap a b) :
    Sim (PyHeap.getList st k a o) (do
      let e ← asEnt (look r.objs) a
      let l ← nonNull (e.listOf o)
      return (r.wrapUp (.list (listType k)) l, .object)) := by
  unfold PyHeap.getList
  refine Sim.bind (asEnt_eq h.good ha) ?_
  intro e he
  have hee := asEnt_has h.good ha he
  refine Sim.nonNull ?_
  intro l hl
  obtain ⟨bl, hbl⟩ := h.good.child (c := l) hee (by
    cases o <;> simp at hl <;> simp [Ent.body, Body.children, hl])
  exact h.wrapChild hbl

theorem Rel.setList {st : St} {r : R} (h : Rel st r) {a v l w : Nat} {o : Bool} {ba : Body}
    {t t2 : PType} {n d n2 d2 : Option Nat} (hw : w ∈ roots st.vars) (hwa : Has st.heap w (.wrap t a n d))
    (hv : v ∈ roots st.vars) (hvl : Has st.heap v (.wrap t2 l n2 d2)) (ha : Has st.heap a ba) :
    Sim (PyHeap.setList st a o v l) (do
      let e ← asEnt (look r.objs) a
      return ((r.put a (e.withList o l).body).lose v, .none)) := by
  unfold PyHeap.setList
  refine Sim.bind (asEnt_eq h.good ha) ?_
  intro e he
  have hee := asEnt_has h.good ha he
  have ne : ∀ {x : Nat} {t : PType} {y : Nat} {n d : Option Nat}, Has st.heap x (.wrap t y n d) → x ≠ a := by
    rintro x t y n d hx rfl
    have := h.good.has_eq hx (h.good.look hee)
    cases this
  obtain ⟨e0, he0⟩ : ∃ e0 : Ent, e0 = if o then { e with options := none } else { e with list := none } :=
    ⟨_, rfl⟩
  obtain ⟨e1', he1⟩ : ∃ e1 : Ent, e1 = if o then { e with options := some l } else { e with list := some l } :=
    ⟨_, rfl⟩
  dsimp only
  rw [← he0, ← he1]
  have hp1 : (e.body.children ++ (roots st.vars ++ r.lost)).Perm
      (e0.body.children ++ ((if o then e.options else e.list).toList ++ (roots st.vars ++ r.lost))) := by
    rw [← List.append_assoc e0.body.children]
    refine List.Perm.append_right _ ?_
    subst he0
    cases o
    · simp only [Ent.body, Body.children, Bool.false_eq_true, if_false, Option.toList_none,
        List.append_nil]
      simp only [List.append_assoc]
      exact List.Perm.append_left _ (List.Perm.append_left _ List.perm_append_comm)
    · simp only [Ent.body, Body.children, if_true, Option.toList_none, List.append_nil]
      exact List.Perm.refl _
  obtain ⟨h1, e1, g1, l1, k1⟩ := h.good.write hee hp1
  refine Sim.left e1 ?_
  obtain ⟨h2, e2, g2⟩ := g1.releases
  refine Sim.left e2 ?_
  obtain ⟨-, bl, hbl⟩ := g2.hold (w := v) (by simp [hv]) (g1.look (k1 _ _ (ne hvl) hvl))
  obtain ⟨h3, e3, g3, k3⟩ := g2.incref hbl
  refine Sim.left e3 ?_
  obtain ⟨-, ba2, hba2⟩ := g3.hold (w := w) (by simp [hw]) (g1.look (k1 _ _ (ne hwa) hwa))
  have hb2 : ba2 = e0.body := g3.has_eq hba2 (g1.look l1)
  subst hb2
  have hp2 : (e0.body.children ++ l :: (roots st.vars ++ r.lost)).Perm
      (e1'.body.children ++ (roots st.vars ++ r.lost)) := by
    rw [List.append_cons]
    refine List.Perm.append_right _ ?_
    subst he0 he1
    cases o
    · simp only [Ent.body, Body.children, Bool.false_eq_true, if_false, Option.toList_none,
        List.append_nil, Option.toList_some]
      simp only [List.append_assoc]
      exact List.Perm.append_left _ (List.Perm.append_left _ List.perm_append_comm)
    · simp only [Ent.body, Body.children, if_true, Option.toList_none, List.append_nil,
        Option.toList_some]
      exact List.Perm.refl _
  obtain ⟨h4, e4, g4, l4, k4⟩ := g3.write hba2 hp2
  refine Sim.left e4 ?_
  obtain ⟨bv, hbv⟩ := g4.has (a := v) (by simp [hv])
  obtain ⟨h5, e5, g5, -⟩ := g4.incref hbv
  refine Sim.left e5 (Sim.ret ⟨?_, h.vars⟩)
  have hw1 : e1' = e.withList o l := he1
  rw [List.set_set, hw1] at g5
  exact g5.perm (by simpa [R.lose, R.put] using List.perm_middle.symm)

theorem Rel.getDict {st : St} {r : R} (h : Rel st r) {a w : Nat} {t : PType} {n d : Option Nat}
    {desc : Bool} {b : Body} (hw : Has st.heap w (.wrap t a n d)) (ha : Has st.heap a b) :
    Sim (PyHeap.getDict st a (if desc then d else n) desc) (
      match if desc then d else n with
      | some w => .ok (r.push w, .object)
      | none => do
        let e ← asEnt (look r.objs) a
        let d ← nonNull (e.dictOf desc)
        return (r.wrapUp .dict d, .object)) := by
  unfold PyHeap.getDict
  cases hc : (if desc then d else n) with
  | some x =>
    obtain ⟨bx, hbx⟩ := h.good.child (c := x) hw (by
      cases desc <;> simp at hc <;> simp [Body.children, hc])
    obtain ⟨h1, e1, g1, -⟩ := h.good.incref hbx
    exact Sim.left e1 (Sim.ret (Rel.push (st := ⟨h1, st.vars⟩) g1 h.vars))
  | none =>
    refine Sim.bind (asEnt_eq h.good ha) ?_
    intro e he
    have hee := asEnt_has h.good ha he
    refine Sim.nonNull ?_
    intro l hl
    obtain ⟨bl, hbl⟩ := h.good.child (c := l) hee (by
      cases desc <;> simp at hl <;> simp [Ent.body, Body.children, hl])
    exact h.wrapChild hbl

theorem Rel.setDict {st : St} {r : R} (h : Rel st r) {a v dd w : Nat} {desc : Bool} {ba : Body}
    {t t2 : PType} {n d n2 d2 : Option Nat} (hw : w ∈ roots st.vars) (hwa : Has st.heap w (.wrap t a n d))
    (hv : v ∈ roots st.vars) (hvl : Has st.heap v (.wrap t2 dd n2 d2)) (ha : Has st.heap a ba) :
    Sim (PyHeap.setDict st w a desc v dd) (do
      let e ← asEnt (look r.objs) a
      let (t, a', n, d') ← asWrap (look r.objs) w
      return ((r.put a (e.withDict desc dd).body).put w
          (if desc then .wrap t a' n (some v) else .wrap t a' (some v) d'), .none)) := by
  unfold PyHeap.setDict
  refine Sim.bind (asEnt_eq h.good ha) ?_
  intro e he
  have hee := asEnt_has h.good ha he
  have ne : ∀ {x : Nat} {t : PType} {y : Nat} {n d : Option Nat}, Has st.heap x (.wrap t y n d) → x ≠ a := by
    rintro x t y n d hx rfl
    have := h.good.has_eq hx (h.good.look hee)
    cases this
  have hwr : asWrap (look r.objs) w = .ok (t, a, n, d) := by
    simp [asWrap, h.good.look hwa, bind, Except.bind]
  rw [hwr]
  obtain ⟨e0, he0⟩ : ∃ e0 : Ent, e0 = if desc then { e with descs := none } else { e with names := none } :=
    ⟨_, rfl⟩
  obtain ⟨e1', he1⟩ : ∃ e1 : Ent, e1 = if desc then { e with descs := some dd } else { e with names := some dd } :=
    ⟨_, rfl⟩
  dsimp only
  rw [← he0, ← he1]
  have hp1 : (e.body.children ++ (roots st.vars ++ r.lost)).Perm
      (e0.body.children ++ ((if desc then e.descs else e.names).toList ++ (roots st.vars ++ r.lost))) := by
    rw [← List.append_assoc e0.body.children]
    refine List.Perm.append_right _ ?_
    subst he0
    cases desc
    · simp only [Ent.body, Body.children, Bool.false_eq_true, if_false, Option.toList_none,
        List.nil_append]
      simp only [List.append_assoc]
      exact List.perm_append_comm.trans (by simp)
    · simp only [Ent.body, Body.children, if_true, Option.toList_none, List.append_nil]
      simp only [List.append_assoc]
      refine List.Perm.append_left _ ?_
      exact List.perm_append_comm.trans (by simp)
  obtain ⟨h1, e1, g1, l1, k1⟩ := h.good.write hee hp1
  refine Sim.left e1 ?_
  obtain ⟨h2, e2, g2⟩ := g1.releases
  refine Sim.left e2 ?_
  obtain ⟨-, bl, hbl⟩ := g2.hold (w := v) (by simp [hv]) (g1.look (k1 _ _ (ne hvl) hvl))
  obtain ⟨h3, e3, g3, k3⟩ := g2.incref hbl
  refine Sim.left e3 ?_
  obtain ⟨hw3, ba2, hba2⟩ := g3.hold (w := w) (by simp [hw]) (g1.look (k1 _ _ (ne hwa) hwa))
  have hb2 : ba2 = e0.body := g3.has_eq hba2 (g1.look l1)
  subst hb2
  have hp2 : (e0.body.children ++ dd :: (roots st.vars ++ r.lost)).Perm
      (e1'.body.children ++ (roots st.vars ++ r.lost)) := by
    rw [List.append_cons]
    refine List.Perm.append_right _ ?_
    subst he0 he1
    cases desc
    · simp only [Ent.body, Body.children, Bool.false_eq_true, if_false, Option.toList_none,
        List.nil_append, Option.toList_some]
      exact List.perm_append_comm.trans (by simp)
    · simp only [Ent.body, Body.children, if_true, Option.toList_none, List.append_nil,
        Option.toList_some]
      simp only [List.append_assoc]
      refine List.Perm.append_left _ ?_
      rw [← List.append_assoc]; exact List.perm_append_comm
  obtain ⟨h4, e4, g4, l4, k4⟩ := g3.write hba2 hp2
  refine Sim.left e4 ?_
  have hw4 := k4 _ _ (ne hwa) hw3
  have hwr4 : asWrap (read h4) w = .ok (t, a, n, d) := by
    simp [asWrap, hw4.read, bind, Except.bind]
  refine Sim.left hwr4 ?_
  dsimp only
  obtain ⟨w0, hw0⟩ : ∃ w0 : Body, w0 = if desc then .wrap t a n none else .wrap t a none d := ⟨_, rfl⟩
  obtain ⟨w1, hw1⟩ : ∃ w1 : Body, w1 = if desc then .wrap t a n (some v) else .wrap t a (some v) d := ⟨_, rfl⟩
  rw [← hw0, ← hw1]
  have hp3 : ((Body.wrap t a n d).children ++ (roots st.vars ++ r.lost)).Perm
      (w0.children ++ ((if desc then d else n).toList ++ (roots st.vars ++ r.lost))) := by
    rw [← List.append_assoc w0.children]
    refine List.Perm.append_right _ ?_
    subst hw0
    cases desc
    · simp only [Body.children, Bool.false_eq_true, if_false, Option.toList_none,
        List.nil_append]
      simp only [List.append_assoc]
      exact List.perm_append_comm.trans (by simp)
    · simp only [Body.children, if_true, Option.toList_none, List.append_nil]
      simp only [List.append_assoc]
      exact List.Perm.append_left _ List.perm_append_comm
  obtain ⟨h5, e5, g5, l5, k5⟩ := g4.write hw4 hp3
  refine Sim.left e5 ?_
  obtain ⟨h6, e6, g6⟩ := g5.releases
  refine Sim.left e6 ?_
  obtain ⟨bv, hbv⟩ := g6.has (a := v) (by simp [hv])
  obtain ⟨h7, e7, g7, -⟩ := g6.incref hbv
  refine Sim.left e7 ?_
  obtain ⟨bw, hbw⟩ := g7.has (a := w) (by simp [hw])
  have hbw' : bw = w0 := g7.has_eq hbw (g5.look l5)
  subst hbw'
  have hp4 : (bw.children ++ v :: (roots st.vars ++ r.lost)).Perm
      (w1.children ++ (roots st.vars ++ r.lost)) := by
    rw [List.append_cons]
    refine List.Perm.append_right _ ?_
    subst hw0 hw1
    cases desc
    · simp only [Body.children, Bool.false_eq_true, if_false, Option.toList_none,
        List.nil_append, Option.toList_some]
      exact List.perm_append_comm.trans (by simp)
    · simp only [Body.children, if_true, Option.toList_none, List.append_nil,
        Option.toList_some]
      simp only [List.append_assoc]
      exact List.Perm.append_left _ List.perm_append_comm
  obtain ⟨h8, e8, g8, -, -⟩ := g7.write hbw hp4
  refine Sim.left e8 (Sim.ret ⟨?_, h.vars⟩)
  have he : e1' = e.withDict desc dd := he1
  rw [List.set_set, List.set_set, he, hw1] at g8
  exact g8

theorem Rel.packagesMatch {st : St} {r : R} (h : Rel st r) {a : Nat} {name type : Option Arg} {b : Body}
    (ha : Has st.heap a b) :
    Sim (PyHeap.packagesMatch st a name type) (r.packagesMatch a name type) := by
  unfold PyHeap.packagesMatch R.packagesMatch
  cases PyElem.parseStr name with
  | error e => exact Sim.ret h
  | ok nm =>
    cases PyElem.parseType type with
    | error e => exact Sim.ret h
    | ok ty =>
      dsimp only
      refine Sim.bind (asEnt_eq h.good ha) ?_
      intro e he
      have hee := asEnt_has h.good ha he
      refine Sim.nonNull ?_
      intro l hl
      obtain ⟨bl, hbl⟩ := h.good.child (c := l) hee (by simp [Ent.body, Body.children, hl])
      refine Sim.bind (asList_eq h.good hbl) ?_
      rintro ⟨kind, items⟩ ho
      have hl' := asList_has h.good hbl ho
      have hit := items_live h.good hl'
      refine Sim.bind (matching_eq h.good nm ty hit) ?_
      intro found hf
      obtain ⟨h1, e1, g1, -⟩ := h.good.increfAll (as := found)
        (fun x hx => hit x (matching_sub _ _ _ hf x hx))
      refine Sim.left e1 (Sim.ret ?_)
      exact Rel.plain (st := ⟨h1, st.vars⟩) (b := .list .packages found) g1 h.vars

/-- The list of a document. -/
theorem Rel.secList {st : St} {r : R} (h : Rel st r) {a : Nat} {s : DSec} {b : Body}
    (ha : Has st.heap a b) :
    match r.secList a s with
    | .error f => PyHeap.secList st.heap a s = .error f
    | .ok (r', l) => ∃ h', PyHeap.secList st.heap a s = .ok (h', l) ∧ Rel ⟨h', st.vars⟩ r' ∧
        ∃ ls cs, Has h' a (.doc ls cs) ∧ ls.get s = some l := by
  unfold PyHeap.secList R.secList
  rw [asDoc_eq h.good ha]
  cases ho : asDoc (look r.objs) a with
  | error f => rfl
  | ok p =>
    obtain ⟨ls, cs⟩ := p
    have hd := asDoc_has h.good ha ho
    simp only [bind, Except.bind]
    cases hl : ls.get s with
    | some l => exact ⟨st.heap, rfl, h, ls, cs, hd, hl⟩
    | none =>
      dsimp only
      obtain ⟨g1, -, k1⟩ := Good.alloc (b := .list s.kind []) (e := roots st.vars ++ r.lost) (by
        simpa [Body.children] using h.good)
      obtain ⟨h2, e2, g2, l2, -⟩ := g1.write (e' := roots st.vars ++ r.lost)
        (b' := .doc (ls.set s (some st.heap.length)) cs) (k1 _ _ hd) (by
          simp only [Body.children, List.append_assoc]
          refine List.Perm.append_left _ ?_
          refine List.Perm.trans ?_ ((Three.put_perm ls s _).symm.append_right _)
          rw [Three.set_same hl, List.cons_append]
          exact List.perm_middle)
      rw [← h.good.len]
      rw [e2]
      exact ⟨h2, rfl, ⟨g2, h.vars⟩, _, cs, l2, Three.get_set _ _ _⟩

theorem Rel.getSec {st : St} {r : R} (h : Rel st r) {a : Nat} {s : DSec} {b : Body}
    (ha : Has st.heap a b) : Sim (PyHeap.getSec st a s) (r.getSec a s) := by
  unfold PyHeap.getSec R.getSec
  refine Sim.bind (asDoc_eq h.good ha) ?_
  rintro ⟨ls, cs⟩ ho
  have hd := asDoc_has h.good ha ho
  dsimp only
  cases hc : cs.get s with
  | some w =>
    obtain ⟨bw, hbw⟩ := h.good.child (c := w) hd (by simp [Body.children, Three.mem_get hc])
    obtain ⟨h1, e1, g1, -⟩ := h.good.incref hbw
    exact Sim.left e1 (Sim.ret (Rel.push (st := ⟨h1, st.vars⟩) g1 h.vars))
  | none =>
    dsimp only
    have hs := h.secList (s := s) ha
    cases hr : r.secList a s with
    | error f => rw [hr] at hs; simp only at hs; rw [hs]; rfl
    | ok p =>
      obtain ⟨r1, l⟩ := p
      rw [hr] at hs
      obtain ⟨h1, e1, rel1, ls1, cs1, hd1, hl1⟩ := hs
      refine Sim.left e1 ?_
      simp only [bind, Except.bind]
      have hcs : cs1.get s = none := by
        unfold R.secList at hr
        rw [ho] at hr
        simp only [bind, Except.bind] at hr
        have hlk := rel1.good.look hd1
        cases hx : ls.get s with
        | some l' =>
          rw [hx] at hr
          simp only [Except.ok.injEq, Prod.mk.injEq] at hr
          obtain ⟨rfl, -⟩ := hr
          rw [h.good.look hd] at hlk
          injection hlk with hlk; injection hlk with _ e; subst e; exact hc
        | none =>
          rw [hx] at hr
          simp only [Except.ok.injEq, Prod.mk.injEq] at hr
          obtain ⟨rfl, -⟩ := hr
          have hlt : a < r.objs.length := by
            have := h.good.look hd
            unfold look at this
            cases e : r.objs[a]? with
            | none => rw [e] at this; simp at this
            | some _ => exact (List.getElem?_eq_some_iff.1 e).1
          have hlt' : a < r.objs.length + 1 := by omega
          simp only [look, R.put, R.make, List.getElem?_set] at hlk
          simp [hlt'] at hlk
          rw [← hlk.2]; exact hc
      have hlive : ∃ bl, Has h1 l bl := rel1.good.child hd1 (by
        simp [Body.children, Three.mem_get hl1])
      obtain ⟨bl, hbl⟩ := hlive
      obtain ⟨h2, e2, g2, k2⟩ := rel1.good.incref hbl
      rw [e2]
      dsimp only
      obtain ⟨g3, w3, k3⟩ := Good.alloc (b := .wrap (.list s.kind) l none none)
        (e := roots st.vars ++ r1.lost) (by simpa [Body.children] using g2)
      have hd3 := k3 _ _ (k2 _ _ hd1)
      have er : asDoc (read (alloc h2 (.wrap (.list s.kind) l none none))) a = .ok (ls1, cs1) := by
        simp [asDoc, hd3.read, bind, Except.bind]
      have er' : asDoc (look r1.objs) a = .ok (ls1, cs1) := by
        simp [asDoc, rel1.good.look hd1, bind, Except.bind]
      rw [er, er']
      dsimp only
      obtain ⟨h4, e4, g4, l4, k4⟩ := g3.write (e' := roots st.vars ++ r1.lost)
        (b' := .doc ls1 (cs1.set s (some h2.length))) hd3 (by
          simp only [Body.children, List.append_assoc]
          refine List.Perm.trans ?_ ((Three.put_perm cs1 s _).symm.append_right _)
          rw [Three.set_same hcs, List.cons_append]
          rw [← List.append_assoc, ← List.append_assoc]
          exact List.perm_middle)
      rw [e4]
      dsimp only
      have hne : h2.length ≠ a := by
        intro e
        obtain ⟨c, hc', -⟩ := k2 _ _ hd1
        rw [← e] at hc'
        simp at hc'
      obtain ⟨h5, e5, g5, -⟩ := g4.incref (k4 _ _ hne w3)
      rw [e5]
      have hlen : h2.length = r1.objs.length := g2.len
      rw [hlen] at g5 ⊢
      exact Sim.ret (Rel.push (st := ⟨h5, st.vars⟩) (r := R.put (R.make r1 _) a _) g5 rel1.vars)

theorem Rel.setSec {st : St} {r : R} (h : Rel st r) {a v l w : Nat} {s : DSec} {ba : Body}
    {t t2 : PType} {n d n2 d2 : Option Nat} (hw : w ∈ roots st.vars) (hwa : Has st.heap w (.wrap t a n d))
    (hv : v ∈ roots st.vars) (hvl : Has st.heap v (.wrap t2 l n2 d2)) (ha : Has st.heap a ba) :
    Sim (PyHeap.setSec st a s v l) (r.setSec a s v l) := by
  unfold PyHeap.setSec R.setSec
  refine Sim.bind (asDoc_eq h.good ha) ?_
  rintro ⟨ls, cs⟩ ho
  have hd := asDoc_has h.good ha ho
  have ne : ∀ {x : Nat} {t : PType} {y : Nat} {n d : Option Nat}, Has st.heap x (.wrap t y n d) → x ≠ a := by
    rintro x t y n d hx rfl
    have := h.good.has_eq hx (h.good.look hd)
    cases this
  dsimp only
  obtain ⟨h1, e1, g1, l1, k1⟩ := h.good.write
    (e' := (cs.get s).toList ++ (roots st.vars ++ r.lost)) (b' := .doc ls (cs.set s none)) hd (by
      simp only [Body.children]
      rw [← List.append_assoc _ (cs.get s).toList]
      refine List.Perm.append_right _ ?_
      refine ((Three.take_perm cs s).append_right _).trans ?_
      rw [List.append_assoc, List.append_assoc]
      exact List.Perm.append_left _ List.perm_append_comm)
  refine Sim.left e1 ?_
  obtain ⟨h2, e2, g2⟩ := g1.releases
  refine Sim.left e2 ?_
  have lw1 := g1.look (k1 _ _ (ne hwa) hwa)
  have lv1 := g1.look (k1 _ _ (ne hvl) hvl)
  obtain ⟨hv2, bl, hbl⟩ := g2.hold (w := v) (by simp [hv]) lv1
  obtain ⟨h3, e3, g3, k3⟩ := g2.incref hbl
  refine Sim.left e3 ?_
  obtain ⟨hw3, ba3, hba3⟩ := g3.hold (w := w) (by simp [hw]) lw1
  have hb3 : ba3 = .doc ls (cs.set s none) := g3.has_eq hba3 (g1.look l1)
  subst hb3
  have hv3 := k3 _ _ hv2
  obtain ⟨h4, e4, g4, l4, k4⟩ := g3.write
    (e' := (ls.get s).toList ++ (l :: (roots st.vars ++ r.lost)))
    (b' := .doc (ls.set s none) (cs.set s none)) hba3 (by
      simp only [Body.children]
      rw [← List.append_assoc _ (ls.get s).toList]
      refine List.Perm.append_right _ ?_
      rw [List.append_assoc]
      exact List.Perm.append_left _ (Three.take_perm ls s))
  refine Sim.left e4 ?_
  obtain ⟨h5, e5, g5⟩ := g4.releases
  refine Sim.left e5 ?_
  have lw4 := g4.look (k4 _ _ (ne hwa) hw3)
  obtain ⟨hw5, ba5, hba5⟩ := g5.hold (w := w) (by simp [hw]) lw4
  have hb5 : ba5 = .doc (ls.set s none) (cs.set s none) := g5.has_eq hba5 (g4.look l4)
  subst hb5
  obtain ⟨h6, e6, g6, l6, k6⟩ := g5.write (e' := roots st.vars ++ r.lost)
    (b' := .doc (ls.set s (some l)) (cs.set s none)) hba5 (by
      simp only [Body.children, List.append_assoc]
      refine List.Perm.append_left _ ?_
      refine List.Perm.trans ?_ ((Three.put_perm ls s _).symm.append_right _)
      rw [List.cons_append]
      exact List.perm_middle)
  refine Sim.left e6 ?_
  obtain ⟨bv, hbv⟩ := g6.has (a := v) (by simp [hv])
  obtain ⟨h7, e7, g7, k7⟩ := g6.incref hbv
  refine Sim.left e7 ?_
  obtain ⟨h8, e8, g8, -, -⟩ := g7.write (e' := roots st.vars ++ r.lost)
    (b' := .doc (ls.set s (some l)) (cs.set s (some v))) (k7 _ _ l6) (by
      simp only [Body.children, List.append_assoc]
      refine List.Perm.trans ?_ ((Three.put_perm cs s _).symm.append_right _)
      rw [List.cons_append]
      rw [← List.append_assoc, ← List.append_assoc]
      exact List.perm_middle)
  refine Sim.left e8 (Sim.ret ⟨?_, h.vars⟩)
  simp only [List.set_set] at g8
  exact g8

theorem Rel.clearDoc {st : St} {r : R} (h : Rel st r) {a : Nat} {b : Body} (ha : Has st.heap a b) :
    Sim (PyHeap.clearDoc st a) (do
      let (_, cs) ← asDoc (look r.objs) a
      return (r.put a (.doc Three.none cs), .none)) := by
  unfold PyHeap.clearDoc
  refine Sim.bind (asDoc_eq h.good ha) ?_
  rintro ⟨ls, cs⟩ ho
  have hd := asDoc_has h.good ha ho
  obtain ⟨h2, e2, g2, -, -⟩ := h.good.write (e' := ls.toList ++ (roots st.vars ++ r.lost))
      (b' := .doc Three.none cs) hd (by simp [Body.children, Three.toList, Three.none])
  obtain ⟨h3, e3, g3⟩ := g2.releases
  exact Sim.left e2 (Sim.left e3 (Sim.ret ⟨g3, h.vars⟩))

theorem Rel.search {st : St} {r : R} (h : Rel st r) {a : Nat} {s : DSec} {args : SearchArgs} {b : Body}
    (ha : Has st.heap a b) : Sim (PyHeap.search st a s args) (r.search a s args) := by
  unfold PyHeap.search R.search
  cases parseQuery args with
  | error e => exact Sim.ret h
  | ok q =>
    dsimp only
    have hs := h.secList (s := s) ha
    cases hr : r.secList a s with
    | error f => rw [hr] at hs; simp only at hs; rw [hs]; rfl
    | ok p =>
      obtain ⟨r1, l⟩ := p
      rw [hr] at hs
      obtain ⟨h1, e1, rel1, ls1, cs1, hd1, hl1⟩ := hs
      refine Sim.left e1 ?_
      simp only
      show Sim _ ((asList (look r1.objs) l) >>= _)
      obtain ⟨bl, hbl⟩ := rel1.good.child (c := l) hd1 (by simp [Body.children, Three.mem_get hl1])
      refine Sim.bind (asList_eq rel1.good hbl) ?_
      rintro ⟨kind, items⟩ ho
      have hit := items_live rel1.good (asList_has rel1.good hbl ho)
      refine Sim.bind (matchingEnts_eq rel1.good _ _ _ hit) ?_
      intro found hf
      obtain ⟨h2, e2, g2, -⟩ := rel1.good.increfAll (as := found)
        (fun x hx => hit x (matchingEnts_sub _ _ _ _ hf x hx))
      refine Sim.left e2 (Sim.ret ?_)
      exact Rel.plain (st := ⟨h2, st.vars⟩) (b := .list s.kind found) g2 rel1.vars

theorem Rel.putValue {st : St} {r : R} (h : Rel st r) {a : Nat} {b b' : Body} {o : PyElem.Out}
    (ha : Has st.heap a b) (hc : b'.children = b.children) :
    Sim (PyHeap.putValue st a b' o) (.ok (r.put a b', .out o)) := by
  obtain ⟨h1, e1, g1, -, -⟩ := h.good.write (e' := roots st.vars ++ r.lost) (b' := b') ha (by rw [hc])
  exact Sim.left e1 (Sim.ret ⟨g1, h.vars⟩)

variable (lt : UInt8 → UInt8 → Bool) (utf8 : Bytes → Bool)

/-- Every call gives the same with and without memory management. -/
theorem step_sim {st : St} {r : R} (h : Rel st r) (op : Op) :
    Sim (step lt utf8 st op) (r.step lt utf8 op) := by
  cases op with
  | newGroup args =>
    simp only [step, R.step]
    cases PyElem.groupInit lt args with
    | error e => exact Sim.ret h
    | ok p => exact Sim.ret (h.entry _ p)
  | newEntry env args =>
    simp only [step, R.step]
    cases PyElem.entryInit lt args with
    | error e => exact Sim.ret h
    | ok p => exact Sim.ret (h.entry _ p)
  | newPackage args =>
    simp only [step, R.step]
    cases PyElem.pkgInit args with
    | error e => exact Sim.ret h
    | ok p => exact Sim.ret (Rel.plain h.good h.vars)
  | newGroupId args =>
    simp only [step, R.step]
    cases PyElem.gidInit args with
    | error e => exact Sim.ret h
    | ok p => exact Sim.ret (Rel.plain h.good h.vars)
  | newDict => exact Sim.ret (Rel.plain h.good h.vars)
  | newList k => exact Sim.ret (Rel.plain h.good h.vars)
  | dup v =>
    simp only [step, R.step]
    rw [← h.vars]
    cases hv : var st.vars v with
    | none => exact Sim.ret h
    | some w =>
      obtain ⟨b, hb⟩ := h.live (var_mem hv)
      obtain ⟨h1, e1, g1, -⟩ := h.good.incref hb
      exact Sim.left e1 (Sim.ret (Rel.push (st := ⟨h1, st.vars⟩) g1 h.vars))
  | del v =>
    simp only [step, R.step]
    rw [← h.vars]
    cases hv : var st.vars v with
    | none => exact Sim.ret h
    | some w =>
      have hp := (roots_del hv).append_right r.lost
      obtain ⟨h1, e1, g1⟩ := Good.release (h.good.perm hp)
      refine Sim.left e1 (Sim.ret ⟨g1, rfl⟩)
  | same v v2 =>
    simp only [step, R.step]
    rw [← h.vars]
    cases var st.vars v with
    | none => exact Sim.ret h
    | some w =>
      cases var st.vars v2 with
      | none => exact Sim.ret h
      | some w2 => exact Sim.ret h
  | getAttr v a =>
    rw [step, R.step]
    refine h.with1 v fun w t o n d hw hwo ⟨b, hb⟩ => ?_
    cases t with
    | entry k =>
      dsimp only
      split
      · refine Sim.bind (asEnt_eq h.good hb) fun e _ => ?_
        exact Sim.bind rfl fun x _ => Sim.ret h
      · exact Sim.ret h
    | _ => exact Sim.ret h
  | setAttr v a x =>
    rw [step, R.step]
    refine h.with1 v fun w t o n d hw hwo ⟨b, hb⟩ => ?_
    cases t with
    | entry k =>
      dsimp only
      split
      · refine Sim.bind (asEnt_eq h.good hb) fun e he => ?_
        refine Sim.bind rfl fun x _ => ?_
        exact h.putValue (asEnt_has h.good hb he) rfl
      · exact Sim.ret h
    | _ => exact Sim.ret h
  | getPkg v a =>
    rw [step, R.step]
    refine h.with1 v fun w t o n d hw hwo ⟨b, hb⟩ => ?_
    cases t with
    | package =>
      refine Sim.bind (h.good.readEq hb) fun e _ => ?_
      cases e with
      | pkg p => exact Sim.bind rfl fun x _ => Sim.ret h
      | _ => rfl
    | _ => exact Sim.ret h
  | setPkg v a x =>
    rw [step, R.step]
    refine h.with1 v fun w t o n d hw hwo ⟨b, hb⟩ => ?_
    cases t with
    | package =>
      refine Sim.bind (h.good.readEq hb) fun e he => ?_
      have hbe := h.good.has_eq hb he
      subst hbe
      cases b with
      | pkg p =>
        refine Sim.bind rfl fun x _ => ?_
        exact h.putValue hb rfl
      | _ => rfl
    | _ => exact Sim.ret h
  | getGid v a =>
    rw [step, R.step]
    refine h.with1 v fun w t o n d hw hwo ⟨b, hb⟩ => ?_
    cases t with
    | groupId =>
      refine Sim.bind (h.good.readEq hb) fun e _ => ?_
      cases e with
      | gid p => exact Sim.bind rfl fun x _ => Sim.ret h
      | _ => rfl
    | _ => exact Sim.ret h
  | setGid v a x =>
    rw [step, R.step]
    refine h.with1 v fun w t o n d hw hwo ⟨b, hb⟩ => ?_
    cases t with
    | groupId =>
      refine Sim.bind (h.good.readEq hb) fun e he => ?_
      have hbe := h.good.has_eq hb he
      subst hbe
      cases b with
      | gid p =>
        refine Sim.bind rfl fun x _ => ?_
        exact h.putValue hb rfl
      | _ => rfl
    | _ => exact Sim.ret h
  | getList v o =>
    rw [step, R.step]
    refine h.with1 v fun w t a n d hw hwo ⟨b, hb⟩ => ?_
    cases t with
    | entry k =>
      dsimp only
      split
      · exact Sim.ret h
      · exact h.getList hb
    | _ => exact Sim.ret h
  | setList v o v2 =>
    rw [step, R.step]
    refine h.with2 v v2 fun w t a n d w2 t2 l n2 d2 hw hwa ⟨b, hb⟩ hw2 hw2l hl => ?_
    cases t with
    | entry k =>
      dsimp only
      split
      · exact Sim.ret h
      · split
        · exact h.setList hw hwa hw2 hw2l hb
        · exact Sim.ret h
    | _ => exact Sim.ret h
  | getDict v desc =>
    rw [step, R.step]
    refine h.with1 v fun w t a n d hw hwa ⟨b, hb⟩ => ?_
    cases t with
    | entry k => exact h.getDict hwa hb
    | _ => exact Sim.ret h
  | setDict v desc v2 =>
    rw [step, R.step]
    refine h.with2 v v2 fun w t a n d w2 t2 l n2 d2 hw hwa ⟨b, hb⟩ hw2 hw2l hl => ?_
    cases t with
    | entry k =>
      dsimp only
      split
      · exact h.setDict hw hwa hw2 hw2l hb
      · exact Sim.ret h
    | _ => exact Sim.ret h
  | dictSet v k x =>
    rw [step, R.step]
    refine h.with1 v fun w t a n d hw hwa ⟨b, hb⟩ => ?_
    cases t with
    | dict =>
      refine Sim.bind (asDict_eq h.good hb) fun e he => ?_
      obtain ⟨h1, e1, g1, -, -⟩ := h.good.write (e' := roots st.vars ++ r.lost)
        (b' := .dict (e.set lt (PyDict.cstr k) (some (.str ⟨some (PyDict.cstr x)⟩))))
        (asDict_has h.good hb he) (by rfl)
      exact Sim.left e1 (Sim.ret ⟨g1, h.vars⟩)
    | _ => exact Sim.ret h
  | dictGet v k =>
    rw [step, R.step]
    refine h.with1 v fun w t a n d hw hwa ⟨b, hb⟩ => ?_
    cases t with
    | dict =>
      refine Sim.bind (asDict_eq h.good hb) fun e he => ?_
      exact Sim.bind rfl fun x _ => Sim.ret h
    | _ => exact Sim.ret h
  | len v =>
    rw [step, R.step]
    refine h.with1 v fun w t a n d hw hwa ⟨b, hb⟩ => ?_
    cases t with
    | list k => exact Sim.bind (asList_eq h.good hb) fun e he => Sim.ret h
    | _ => exact Sim.ret h
  | getItem v i =>
    rw [step, R.step]
    refine h.with1 v fun w t l n d hw hwa ⟨b, hb⟩ => ?_
    cases t with
    | list k =>
      refine Sim.bind (asList_eq h.good hb) ?_
      rintro ⟨kind, items⟩ ho
      have hit := items_live h.good (asList_has h.good hb ho)
      dsimp only
      cases hi : items[i]? with
      | none => exact Sim.ret h
      | some a =>
        obtain ⟨ba, hba⟩ := hit a (List.mem_of_getElem? hi)
        exact h.wrapChild hba
    | _ => exact Sim.ret h
  | getById v id =>
    rw [step, R.step]
    refine h.with1 v fun w t l n d hw hwa ⟨b, hb⟩ => ?_
    cases t with
    | list k =>
      dsimp only
      split
      · refine Sim.bind (asList_eq h.good hb) ?_
        rintro ⟨kind, items⟩ ho
        have hit := items_live h.good (asList_has h.good hb ho)
        refine Sim.bind (findId_eq h.good id hit) ?_
        intro x hx
        cases x with
        | none => exact Sim.ret h
        | some a =>
          obtain ⟨ba, hba⟩ := hit a (findId_mem _ _ hx)
          exact h.wrapChild hba
      · exact Sim.ret h
    | _ => exact Sim.ret h
  | append v v2 =>
    rw [step, R.step]
    refine h.with2 v v2 fun w t l n d w2 t2 a n2 d2 hw hwa ⟨b, hb⟩ hw2 hw2l ⟨ba, hba⟩ => ?_
    cases t with
    | list k =>
      dsimp only
      split
      · exact h.append hb hba
      · exact Sim.ret h
    | _ => exact Sim.ret h
  | appendStr v s =>
    rw [step, R.step]
    refine h.with1 v fun w t l n d hw hwa ⟨b, hb⟩ => ?_
    cases t with
    | list k =>
      cases k with
      | ids => exact h.appendStr hb
      | _ => exact Sim.ret h
    | _ => exact Sim.ret h
  | insert v i v2 =>
    rw [step, R.step]
    refine h.with2 v v2 fun w t l n d w2 t2 a n2 d2 hw hwa ⟨b, hb⟩ hw2 hw2l ⟨ba, hba⟩ => ?_
    cases t with
    | list k =>
      dsimp only
      split
      · exact h.insert hb hba
      · exact Sim.ret h
    | _ => exact Sim.ret h
  | setItem v i v2 =>
    rw [step, R.step]
    refine h.with2 v v2 fun w t l n d w2 t2 a n2 d2 hw hwa ⟨b, hb⟩ hw2 hw2l ⟨ba, hba⟩ => ?_
    cases t with
    | list k =>
      dsimp only
      split
      · exact h.setItem hw hwa hb hba
      · exact Sim.ret h
    | _ => exact Sim.ret h
  | delItem v i =>
    rw [step, R.step]
    refine h.with1 v fun w t l n d hw hwa ⟨b, hb⟩ => ?_
    cases t with
    | list k => exact h.delItem hb
    | _ => exact Sim.ret h
  | remove v v2 =>
    rw [step, R.step]
    refine h.with2 v v2 fun w t l n d w2 t2 a n2 d2 hw hwa ⟨b, hb⟩ hw2 hw2l ⟨ba, hba⟩ => ?_
    cases t with
    | list k =>
      dsimp only
      split
      · exact h.remove hb hba
      · exact Sim.ret h
    | _ => exact Sim.ret h
  | clear v =>
    rw [step, R.step]
    refine h.with1 v fun w t l n d hw hwa ⟨b, hb⟩ => ?_
    cases t with
    | list k => exact h.clear hb
    | comps => exact h.clearDoc hb
    | _ => exact Sim.ret h
  | packagesMatch v name type =>
    rw [step, R.step]
    refine h.with1 v fun w t a n d hw hwa ⟨b, hb⟩ => ?_
    cases t with
    | entry k =>
      cases k with
      | group => exact h.packagesMatch hb
      | _ => exact Sim.ret h
    | _ => exact Sim.ret h
  | validate v =>
    rw [step, R.step]
    refine h.with1 v fun w t a n d hw hwa ⟨b, hb⟩ => ?_
    cases t with
    | package => exact Sim.bind (passes_eq h.good hb) fun x _ => Sim.ret h
    | groupId => exact Sim.bind (passes_eq h.good hb) fun x _ => Sim.ret h
    | entry k => exact Sim.bind (passes_eq h.good hb) fun x _ => Sim.ret h
    | _ => exact Sim.ret h
  | newComps => exact Sim.ret (Rel.plain h.good h.vars)
  | getSec v s =>
    rw [step, R.step]
    refine h.with1 v fun w t a n d hw hwa ⟨b, hb⟩ => ?_
    cases t with
    | comps => exact h.getSec hb
    | _ => exact Sim.ret h
  | setSec v s v2 =>
    rw [step, R.step]
    refine h.with2 v v2 fun w t a n d w2 t2 l n2 d2 hw hwa ⟨b, hb⟩ hw2 hw2l hl => ?_
    cases t with
    | comps =>
      dsimp only
      split
      · exact h.setSec hw hwa hw2 hw2l hb
      · exact Sim.ret h
    | _ => exact Sim.ret h
  | delSec v s =>
    rw [step, R.step]
    refine h.with1 v fun w t a n d hw hwa ⟨b, hb⟩ => ?_
    cases t with
    | comps => rfl
    | _ => exact Sim.ret h
  | search v s args =>
    rw [step, R.step]
    refine h.with1 v fun w t a n d hw hwa ⟨b, hb⟩ => ?_
    cases t with
    | comps => exact h.search hb
    | _ => exact Sim.ret h

theorem start_rel : Rel start R.start := by
  refine ⟨⟨?_, rfl, ?_⟩, rfl⟩
  · intro o
    right
    refine ⟨fun ob => by simp [start, proj], rfl, rfl⟩
  · intro a c hc
    simp [start] at hc

/-- A whole program. -/
theorem run_sim (ops : List Op) : ∀ {st : St} {r : R}, Rel st r →
    match r.run lt utf8 ops with
    | .error f => run lt utf8 st ops = .error f
    | .ok (r', os) => ∃ st', run lt utf8 st ops = .ok (st', os) ∧ Rel st' r' := by
  induction ops with
  | nil => intro st r h; exact ⟨st, rfl, h⟩
  | cons op ops ih =>
    intro st r h
    have hs := step_sim lt utf8 h op
    simp only [R.run, run, bind, Except.bind]
    unfold Sim at hs
    cases hr : r.step lt utf8 op with
    | error f => rw [hr] at hs; simp only at hs; rw [hs]
    | ok p =>
      obtain ⟨r1, o⟩ := p
      rw [hr] at hs
      obtain ⟨st1, e1, h1⟩ := hs
      rw [e1]
      have := ih h1
      dsimp only
      cases hr2 : r1.run lt utf8 ops with
      | error f => rw [hr2] at this; simp only at this; rw [this]
      | ok q =>
        obtain ⟨r2, os⟩ := q
        rw [hr2] at this
        obtain ⟨st2, e2, h2⟩ := this
        rw [e2]
        exact ⟨st2, rfl, h2⟩

end Comps.PyHeap
