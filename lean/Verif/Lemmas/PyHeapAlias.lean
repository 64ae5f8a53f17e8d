import Verif.Lemmas.PyHeapSafe

/-! # Two Python objects around one object -/

namespace Comps.PyHeap
open Comps Comps.Obj
open Comps.PyElem (Pkg EKind Attr PkgAttr GidAttr Arg)
open Comps.PyDict (cstr)

variable {lt : UInt8 → UInt8 → Bool} {utf8 : Bytes → Bool}

variable {q : Op}

/-- Each kept attribute of a document is around the list of the document. -/
def Tied (objs : List Body) : Prop :=
  ∀ (a : Nat) (ls cs : Three) (s : DSec) (w : Nat), objs[a]? = some (.doc ls cs) → cs.get s = some w →
    ∃ l n d, objs[w]? = some (.wrap (.list s.kind) l n d) ∧ ls.get s = some l

/-- Python objects and variables are what they were; unless the call `q` forgets references, none is
forgotten; attributes of documents are kept unless `q` assigns them; and unless `q` clears, they stay
tied to the lists. -/
structure Kept (q : Op) (r0 r : R) : Prop where
  wraps : ∀ (w : Nat) (t : PType) (a : Nat) (n d : Option Nat), r0.objs[w]? = some (.wrap t a n d) →
    r.objs[w]? = some (.wrap t a n d)
  vars : ∀ v w, var r0.vars v = some w → var r.vars v = some w
  lost : q.forgets = false → r.lost = r0.lost
  docs : ∀ (a : Nat) (ls cs : Three), r0.objs[a]? = some (.doc ls cs) →
    ∃ ls' cs', r.objs[a]? = some (.doc ls' cs') ∧
      ∀ s w, q.assigns ≠ some s → cs.get s = some w → cs'.get s = some w
  tied : q.clears = false → Tied r0.objs → Tied r.objs

theorem Kept.refl (r : R) : Kept q r r :=
  ⟨fun _ _ _ _ _ h => h, fun _ _ h => h, fun _ => rfl,
    fun _ _ _ h => ⟨_, _, h, fun _ _ _ h => h⟩, fun _ h => h⟩

theorem Kept.trans {r1 r2 r3 : R} (h : Kept q r1 r2) (h' : Kept q r2 r3) : Kept q r1 r3 :=
  ⟨fun w t a n d e => h'.wraps w t a n d (h.wraps w t a n d e), fun v w e => h'.vars v w (h.vars v w e),
    fun e => (h'.lost e).trans (h.lost e), fun a ls cs e => by
      obtain ⟨l1, c1, e1, g1⟩ := h.docs a ls cs e
      obtain ⟨l2, c2, e2, g2⟩ := h'.docs a l1 c1 e1
      exact ⟨l2, c2, e2, fun s w hs hw => g2 s w hs (g1 s w hs hw)⟩,
    fun e ht => h'.tied e (h.tied e ht)⟩

theorem getElem?_old {objs : List Body} {a : Nat} {b : Body} (h : objs[a]? = some b) (bs : List Body) :
    (objs ++ bs)[a]? = some b := by
  rw [List.getElem?_append_left (List.getElem?_eq_some_iff.1 h).1]; exact h

theorem Kept.makeOf (r : R) (b : Body) (hb : Tied r.objs → ∀ (ls cs : Three) (s : DSec) (w : Nat),
    b = .doc ls cs → cs.get s = some w →
      ∃ l n d, r.objs[w]? = some (.wrap (.list s.kind) l n d) ∧ ls.get s = some l) : Kept q r (r.make b) := by
  refine ⟨fun w t a n d e => getElem?_old e _, fun _ _ h => h, fun _ => rfl,
    fun a ls cs e => ⟨ls, cs, getElem?_old e _, fun _ _ _ h => h⟩, fun _ ht => ?_⟩
  intro a ls cs s w e hw
  have : ∃ l n d, r.objs[w]? = some (.wrap (.list s.kind) l n d) ∧ ls.get s = some l := by
    rcases Nat.lt_or_ge a r.objs.length with hl | hl
    · rw [R.make, List.getElem?_append_left hl] at e
      exact ht a ls cs s w e hw
    · rw [R.make, List.getElem?_append_right hl] at e
      cases e' : a - r.objs.length with
      | zero => rw [e'] at e; simp at e; exact hb ht ls cs s w e hw
      | succ n => rw [e'] at e; simp at e
  obtain ⟨l, n, d, h1, h2⟩ := this
  exact ⟨l, n, d, getElem?_old h1 _, h2⟩

theorem Kept.make (r : R) (b : Body) (hb : ∀ ls cs, b ≠ .doc ls cs := by intros; exact nofun) :
    Kept q r (r.make b) :=
  Kept.makeOf r b fun _ ls cs _ _ e => absurd e (hb ls cs)

theorem Kept.push (r : R) (w : Nat) : Kept q r (r.push w) := by
  refine ⟨fun _ _ _ _ _ h => h, fun v x e => ?_, fun _ => rfl,
    fun _ _ _ h => ⟨_, _, h, fun _ _ _ h => h⟩, fun _ h => h⟩
  unfold var at e ⊢
  split at e
  · rename_i y hy
    have := (List.getElem?_eq_some_iff.1 hy).1
    rw [R.push, List.getElem?_append_left this, hy]; exact e
  · simp at e

theorem Kept.wrapUp (r : R) (t : PType) (a : Nat) : Kept q r (r.wrapUp t a) :=
  (Kept.make r _).trans (Kept.push _ _)

theorem Kept.plain (r : R) (t : PType) (b : Body) (hb : ∀ ls cs, b ≠ .doc ls cs := by intros; exact nofun) :
    Kept q r (r.plain t b) :=
  (Kept.make r _ hb).trans (Kept.wrapUp _ _ _)

theorem Kept.entry (r : R) (k : EKind) (p : RTree PVal) : Kept q r (r.entry k p) := by
  unfold R.entry
  have := ((Kept.make (q := q) r (.dict RTree.create)).trans (Kept.make _ (.dict RTree.create))).trans
    (Kept.make _ (.list (listType k) []))
  cases k with
  | environment => exact this.trans ((Kept.make _ _).trans (Kept.plain _ _ _))
  | group => exact this.trans (Kept.plain _ _ _)
  | category => exact this.trans (Kept.plain _ _ _)

theorem Kept.lose {r0 r : R} (h : Kept q r0 r) (a : Nat) (hq : q.forgets = true) : Kept q r0 (r.lose a) :=
  ⟨h.wraps, h.vars, fun e => absurd (hq.symm.trans e) nofun, h.docs, h.tied⟩

/-- A document with other lists or attributes. -/
theorem Kept.putDocOf (r : R) {a : Nat} {ls cs : Three} (hl : r.objs[a]? = some (.doc ls cs)) {ls' cs' : Three}
    (hc : ∀ s w, q.assigns ≠ some s → cs.get s = some w → cs'.get s = some w)
    (ht : q.clears = false → Tied r.objs → ∀ (s : DSec) (w : Nat), cs'.get s = some w →
      ∃ l n d, r.objs[w]? = some (.wrap (.list s.kind) l n d) ∧ ls'.get s = some l) :
    Kept q r (r.put a (.doc ls' cs')) := by
  have hlt := (List.getElem?_eq_some_iff.1 hl).1
  have hw : ∀ (w : Nat) (t : PType) (x : Nat) (n d : Option Nat), r.objs[w]? = some (.wrap t x n d) →
      (r.put a (.doc ls' cs')).objs[w]? = some (.wrap t x n d) := by
    intro w t x n d e
    have ne : a ≠ w := by rintro rfl; rw [hl] at e; cases e
    rw [R.put, List.getElem?_set, if_neg ne]; exact e
  refine ⟨hw, fun _ _ h => h, fun _ => rfl, ?_, ?_⟩
  · intro x l c e
    by_cases ne : a = x
    · subst ne
      rw [hl] at e; cases e
      exact ⟨ls', cs', by simp [R.put, hlt], hc⟩
    · exact ⟨l, c, by rw [R.put, List.getElem?_set, if_neg ne]; exact e, fun _ _ _ h => h⟩
  · intro hq tt x l c s w e hcw
    have : ∃ l' n d, r.objs[w]? = some (.wrap (.list s.kind) l' n d) ∧ l.get s = some l' := by
      by_cases ne : a = x
      · subst ne
        have : (r.put a (.doc ls' cs')).objs[a]? = some (.doc ls' cs') := by simp [R.put, hlt]
        rw [this] at e; cases e
        exact ht hq tt s w hcw
      · rw [R.put, List.getElem?_set, if_neg ne] at e
        exact tt x l c s w e hcw
    obtain ⟨l', n, d, h1, h2⟩ := this
    exact ⟨l', n, d, hw _ _ _ _ _ h1, h2⟩

theorem Kept.put (r : R) {a : Nat} {b0 : Body} (hl : look r.objs a = .ok b0)
    (hn : ∀ t x n d, b0 ≠ .wrap t x n d) (hd : ∀ ls cs, b0 ≠ .doc ls cs) (b : Body)
    (hb : ∀ ls cs, b ≠ .doc ls cs := by intros; exact nofun) : Kept q r (r.put a b) := by
  have hx : ∀ x : Nat, (∃ t y n d, r.objs[x]? = some (.wrap t y n d)) ∨ (∃ ls cs, r.objs[x]? = some (.doc ls cs)) →
      (r.put a b).objs[x]? = r.objs[x]? := by
    intro x e
    have ne : a ≠ x := by
      rintro rfl
      rcases e with ⟨t, y, n, d, e⟩ | ⟨ls, cs, e⟩
      · simp [look, e] at hl
        exact hn t y n d hl.symm
      · simp [look, e] at hl
        exact hd ls cs hl.symm
    rw [R.put, List.getElem?_set, if_neg ne]
  refine ⟨fun w t x n d e => ?_, fun _ _ h => h, fun _ => rfl, fun x ls cs e => ⟨ls, cs, ?_, fun _ _ _ h => h⟩,
    fun _ tt x ls cs s w e hw => ?_⟩
  · rw [hx w (.inl ⟨_, _, _, _, e⟩)]; exact e
  · rw [hx x (.inr ⟨_, _, e⟩)]; exact e
  · have e' : r.objs[x]? = some (.doc ls cs) := by
      by_cases ne : a = x
      · subst ne
        rw [R.put, List.getElem?_set, if_pos rfl] at e
        split at e
        · injection e with e; exact absurd e (hb ls cs)
        · cases e
      · rw [R.put, List.getElem?_set, if_neg ne] at e; exact e
    obtain ⟨l, n, d, h1, h2⟩ := tt x ls cs s w e' hw
    exact ⟨l, n, d, by rw [hx w (.inl ⟨_, _, _, _, h1⟩)]; exact h1, h2⟩

theorem Kept.putList (r : R) {a : Nat} {x : LKind × List Nat} (h : asList (look r.objs) a = .ok x)
    (b : Body) (hb : ∀ ls cs, b ≠ .doc ls cs := by intros; exact nofun) : Kept q r (r.put a b) := by
  unfold asList at h
  cases e : look r.objs a with
  | error f => rw [e] at h; simp [bind, Except.bind] at h
  | ok b0 =>
    refine Kept.put r e ?_ ?_ b hb
    · rintro t x n d rfl
      rw [e] at h; simp [bind, Except.bind] at h
    · rintro ls cs rfl
      rw [e] at h; simp [bind, Except.bind] at h

theorem Kept.putDict (r : R) {a : Nat} {x : RTree PVal} (h : asDict (look r.objs) a = .ok x)
    (b : Body) (hb : ∀ ls cs, b ≠ .doc ls cs := by intros; exact nofun) : Kept q r (r.put a b) := by
  unfold asDict at h
  cases e : look r.objs a with
  | error f => rw [e] at h; simp [bind, Except.bind] at h
  | ok b0 =>
    refine Kept.put r e ?_ ?_ b hb
    · rintro t x n d rfl
      rw [e] at h; simp [bind, Except.bind] at h
    · rintro ls cs rfl
      rw [e] at h; simp [bind, Except.bind] at h

theorem Kept.putEnt (r : R) {a : Nat} {x : Ent} (h : asEnt (look r.objs) a = .ok x)
    (b : Body) (hb : ∀ ls cs, b ≠ .doc ls cs := by intros; exact nofun) : Kept q r (r.put a b) := by
  unfold asEnt at h
  cases e : look r.objs a with
  | error f => rw [e] at h; simp [bind, Except.bind] at h
  | ok b0 =>
    refine Kept.put r e ?_ ?_ b hb
    · rintro t x n d rfl
      rw [e] at h; simp [bind, Except.bind] at h
    · rintro ls cs rfl
      rw [e] at h; simp [bind, Except.bind] at h

theorem asDoc_inv {objs : List Body} {a : Nat} {x : Three × Three} (h : asDoc (look objs) a = .ok x) :
    objs[a]? = some (.doc x.1 x.2) := by
  unfold asDoc look at h
  cases e : objs[a]? with
  | none => rw [e] at h; simp [bind, Except.bind] at h
  | some b => rw [e] at h; cases b <;> simp [bind, Except.bind] at h; subst h; rfl

theorem asDoc_append' {objs : List Body} {a : Nat} {x : Three × Three}
    (h : asDoc (look objs) a = .ok x) (b : Body) : asDoc (look (objs ++ [b])) a = .ok x := by
  unfold asDoc at h ⊢
  cases e : look objs a with
  | error f => rw [e] at h; simp [bind, Except.bind] at h
  | ok c =>
    have : look (objs ++ [b]) a = .ok c := by
      unfold look at e ⊢
      split at e
      · rename_i x hx
        have := (List.getElem?_eq_some_iff.1 hx).1
        rw [List.getElem?_append_left this, hx]; exact e
      · simp at e
    rw [this]; rw [e] at h; exact h

theorem Kept.secList {r r' : R} {a l : Nat} {s : DSec} (h : r.secList a s = .ok (r', l)) : Kept q r r' := by
  simp only [R.secList, bind, Except.bind] at h
  split at h
  · simp at h
  rename_i x hx
  split at h
  · cases h; exact Kept.refl _
  · rename_i hn
    cases h
    refine (Kept.make _ _).trans (Kept.putDocOf (r.make _) (getElem?_old (asDoc_inv hx) _)
      (fun _ _ _ h => h) fun _ tt s' w hw => ?_)
    obtain ⟨l, n, d, h1, h2⟩ := tt a x.1 x.2 s' w (getElem?_old (asDoc_inv hx) _) hw
    refine ⟨l, n, d, h1, ?_⟩
    rw [Three.get_set_ne _ _ _]
    · exact h2
    · rintro rfl; rw [hn] at h2; cases h2

theorem secList_doc {r r' : R} {a l : Nat} {s : DSec} (h : r.secList a s = .ok (r', l)) :
    ∃ ls cs, r.objs[a]? = some (.doc ls cs) ∧ r'.objs[a]? = some (.doc (ls.set s (some l)) cs) ∧
      (∀ s', s' ≠ s → (ls.set s (some l)).get s' = ls.get s') ∧ (ls.set s (some l)).get s = some l := by
  simp only [R.secList, bind, Except.bind] at h
  split at h
  · simp at h
  rename_i x hx
  have hd := asDoc_inv hx
  refine ⟨x.1, x.2, hd, ?_, fun s' hne => Three.get_set_ne _ (Ne.symm hne) _, Three.get_set _ _ _⟩
  split at h
  · rename_i l' hl
    cases h
    rw [Three.set_same hl]; exact hd
  · cases h
    have := (List.getElem?_eq_some_iff.1 hd).1
    rw [R.put, List.getElem?_set, if_pos rfl, if_pos (by simp [R.make]; omega)]

theorem Kept.getSec {r r' : R} {a : Nat} {s : DSec} {o : Obs} (h : r.getSec a s = .ok (r', o)) :
    Kept q r r' := by
  simp only [R.getSec, bind, Except.bind, pure, Except.pure] at h
  split at h
  · simp at h
  rename_i z hz
  split at h
  · cases h; exact Kept.push _ _
  rename_i hn
  split at h
  · simp at h
  rename_i x hx
  split at h
  · simp at h
  rename_i y hy
  cases h
  obtain ⟨ls, cs, g1, g2, g3, g4⟩ := secList_doc hx
  rw [asDoc_inv hz] at g1; cases g1
  have hd := asDoc_inv hy
  rw [g2] at hd
  have e1 : z.1.set s (some x.2) = y.1 := by injection hd with hd; injection hd
  have e2 : z.2 = y.2 := by injection hd with hd; injection hd
  rw [e1] at g3 g4
  rw [e2] at hn
  refine (Kept.secList hx).trans ((Kept.make _ _).trans ((Kept.putDocOf (x.1.make _) (getElem?_old (asDoc_inv hy) _)
    ?_ ?_).trans (Kept.push _ _)))
  · intro s' w _ hw
    rw [Three.get_set_ne]
    · exact hw
    · rintro rfl; rw [hn] at hw; cases hw
  · intro _ tt s' w hw
    rcases Three.get_set_of hw with ⟨rfl, e⟩ | e
    · cases e
      exact ⟨x.2, none, none, by simp [R.make], g4⟩
    · exact tt a _ _ s' w (getElem?_old (asDoc_inv hy) _) e

theorem Kept.setSec {r r' : R} {a w l : Nat} {s : DSec} {o : Obs} {n d : Option Nat}
    (hw : r.objs[w]? = some (.wrap (.list s.kind) l n d)) (hq : q.assigns = some s)
    (h : r.setSec a s w l = .ok (r', o)) : Kept q r r' := by
  simp only [R.setSec, bind, Except.bind, pure, Except.pure] at h
  split at h
  · simp at h
  rename_i x hx
  cases h
  refine Kept.putDocOf r (asDoc_inv hx) ?_ ?_
  · intro s' w' hne e
    rw [Three.get_set_ne]
    · exact e
    · rintro rfl; exact hne hq
  · intro _ tt s' w' e
    by_cases es : s = s'
    · subst es
      rw [Three.get_set] at e
      cases e
      exact ⟨l, n, d, hw, Three.get_set _ _ _⟩
    · rw [Three.get_set_ne _ es] at e
      rw [Three.get_set_ne _ es]
      exact tt a _ _ s' w' (asDoc_inv hx) e

theorem Kept.search {r r' : R} {a : Nat} {s : DSec} {args : SearchArgs} {o : Obs}
    (h : r.search a s args = .ok (r', o)) : Kept q r r' := by
  unfold R.search at h
  split at h
  · cases h; exact Kept.refl _
  · simp only [bind, Except.bind, pure, Except.pure] at h
    split at h
    · simp at h
    rename_i x hx
    split at h
    · simp at h
    split at h
    · simp at h
    cases h; exact (Kept.secList hx).trans (Kept.plain _ _ _)

theorem Kept.putIn {r r' : R} {l i a : Nat} {o : Obs} (h : r.putIn l i a = .ok (r', o)) : Kept q r r' := by
  simp only [R.putIn, bind, Except.bind, pure, Except.pure] at h
  split at h
  · simp at h
  split at h
  · split at h
    · simp at h
    · cases h; exact Kept.putList r (by assumption) _
  · cases h; exact Kept.refl _

theorem Kept.append {r r' : R} {k : LKind} {l a : Nat} {o : Obs} (h : r.append k l a = .ok (r', o)) :
    Kept q r r' := by
  simp only [R.append, bind, Except.bind, pure, Except.pure] at h
  split at h
  · simp at h
  split at h
  · simp at h
  split at h
  · exact Kept.putIn h
  · cases h; exact Kept.refl _

theorem Kept.setItem {r r' : R} {k : LKind} {l i a : Nat} {o : Obs} (h : r.setItem k l i a = .ok (r', o))
    (hq : q.forgets = true) : Kept q r r' := by
  simp only [R.setItem, bind, Except.bind, pure, Except.pure] at h
  split at h
  · simp at h
  rename_i x hx
  split at h
  · cases h; exact (Kept.refl _).lose _ hq
  split at h
  all_goals
    split at h
    · simp at h
    split at h
    · cases h; exact (Kept.putList r hx _).lose _ hq
    · cases h; exact Kept.refl _

theorem Kept.delItem {r r' : R} {l i : Nat} {o : Obs} (h : r.delItem l i = .ok (r', o)) : Kept q r r' := by
  simp only [R.delItem, bind, Except.bind, pure, Except.pure] at h
  split at h
  · simp at h
  rename_i x hx
  split at h
  · cases h; exact Kept.putList r hx _
  · cases h; exact Kept.refl _

theorem Kept.remove {r r' : R} {l a : Nat} {o : Obs} (h : r.remove l a = .ok (r', o))
    (hq : q.forgets = true) : Kept q r r' := by
  simp only [R.remove, bind, Except.bind, pure, Except.pure] at h
  split at h
  · simp at h
  rename_i x hx
  split at h
  · cases h; exact (Kept.putList r hx _).lose _ hq
  · cases h; exact (Kept.refl _).lose _ hq

theorem Kept.packagesMatch {r r' : R} {a : Nat} {name type : Option Arg} {o : Obs}
    (h : r.packagesMatch a name type = .ok (r', o)) : Kept q r r' := by
  unfold R.packagesMatch at h
  split at h
  · cases h; exact Kept.refl _
  · cases h; exact Kept.refl _
  · simp only [bind, Except.bind, pure, Except.pure] at h
    split at h
    · simp at h
    split at h
    · simp at h
    split at h
    · simp at h
    split at h
    · simp at h
    cases h; exact Kept.plain _ _ _

/-- Looking into a call with one object. -/
theorem with1_inv {r r' : R} {v : Nat} {o : Obs}
    {f : Nat → PType → Nat → Option Nat → Option Nat → Res (R × Obs)} {P : R → Prop}
    (h : r.with1 v f = .ok (r', o)) (h0 : P r)
    (h1 : ∀ w t a n d, f w t a n d = .ok (r', o) → P r') : P r' := by
  unfold R.with1 at h
  split at h
  · cases h; exact h0
  · simp only [bind, Except.bind] at h
    split at h
    · simp at h
    · exact h1 _ _ _ _ _ h

theorem with2_inv {r r' : R} {v v2 : Nat} {o : Obs}
    {f : Nat → PType → Nat → Nat → PType → Nat → Res (R × Obs)} {P : R → Prop}
    (h : r.with2 v v2 f = .ok (r', o)) (h0 : P r)
    (h1 : ∀ w t a w2 t2 a2, f w t a w2 t2 a2 = .ok (r', o) → P r') : P r' :=
  with1_inv h h0 fun _ _ _ _ _ h => with1_inv h h0 fun _ _ _ _ _ h => h1 _ _ _ _ _ _ h

theorem with2_inv' {r r' : R} {v v2 : Nat} {o : Obs}
    {f : Nat → PType → Nat → Nat → PType → Nat → Res (R × Obs)} {P : R → Prop}
    (h : r.with2 v v2 f = .ok (r', o)) (h0 : P r)
    (h1 : ∀ w t a w2 t2 a2 n d, r.objs[w2]? = some (.wrap t2 a2 n d) →
      f w t a w2 t2 a2 = .ok (r', o) → P r') : P r' := by
  refine with1_inv h h0 fun w t a _ _ h => ?_
  unfold R.with1 at h
  split at h
  · cases h; exact h0
  · rename_i w2 hw2
    simp only [bind, Except.bind, asWrap, look] at h
    cases e : r.objs[w2]? with
    | none => rw [e] at h; simp at h
    | some b =>
      rw [e] at h
      cases b <;> simp at h
      exact h1 _ _ _ _ _ _ _ _ e h

/-- Calls that leave Python objects and variables as they are. -/
def Op.keeps : Op → Bool
  | .del _ => false
  | .setDict _ _ _ => false
  | _ => true

theorem step_kept {r r' : R} {op : Op} {o : Obs} (hop : op.keeps = true)
    (h : r.step lt utf8 op = .ok (r', o)) : Kept op r r' := by
  cases op with
  | del v => simp [Op.keeps] at hop
  | setDict v d w => simp [Op.keeps] at hop
  | newGroup args =>
    rw [R.step] at h
    split at h <;> cases h
    · exact Kept.refl _
    · exact Kept.entry _ _ _
  | newEntry env args =>
    rw [R.step] at h
    split at h <;> cases h
    · exact Kept.refl _
    · exact Kept.entry _ _ _
  | newPackage args =>
    rw [R.step] at h
    split at h <;> cases h
    · exact Kept.refl _
    · exact Kept.plain _ _ _
  | newGroupId args =>
    rw [R.step] at h
    split at h <;> cases h
    · exact Kept.refl _
    · exact Kept.plain _ _ _
  | newDict => rw [R.step] at h; cases h; exact Kept.plain _ _ _
  | newList k => rw [R.step] at h; cases h; exact Kept.plain _ _ _
  | dup v =>
    rw [R.step] at h
    split at h <;> cases h
    · exact Kept.refl _
    · exact Kept.push _ _
  | same v v2 => rw [R.step] at h; split at h <;> cases h <;> exact Kept.refl _
  | append v v2 =>
    rw [R.step] at h
    refine with2_inv h (Kept.refl _) fun w t a w2 t2 a2 h => ?_
    split at h
    · split at h
      · exact Kept.append h
      · cases h; exact Kept.refl _
    · cases h; exact Kept.refl _
  | insert v i v2 =>
    rw [R.step] at h
    refine with2_inv h (Kept.refl _) fun w t a w2 t2 a2 h => ?_
    split at h
    · split at h
      · simp only [bind, Except.bind] at h
        split at h
        · simp at h
        · exact Kept.putIn h
      · cases h; exact Kept.refl _
    · cases h; exact Kept.refl _
  | setItem v i v2 =>
    rw [R.step] at h
    refine with2_inv h (Kept.refl _) fun w t a w2 t2 a2 h => ?_
    split at h
    · split at h
      · exact Kept.setItem h rfl
      · cases h; exact Kept.refl _
    · cases h; exact Kept.refl _
  | remove v v2 =>
    rw [R.step] at h
    refine with2_inv h (Kept.refl _) fun w t a w2 t2 a2 h => ?_
    split at h
    · split at h
      · exact Kept.remove h rfl
      · cases h; exact Kept.refl _
    · cases h; exact Kept.refl _
  | setList v o v2 =>
    rw [R.step] at h
    refine with2_inv h (Kept.refl _) fun w t a w2 t2 a2 h => ?_
    split at h
    · split at h
      · cases h; exact Kept.refl _
      split at h
      · simp only [bind, Except.bind, pure, Except.pure] at h
        split at h
        · simp at h
        · cases h; exact (Kept.putEnt r (by assumption) _).lose _ rfl
      · cases h; exact Kept.refl _
    · cases h; exact Kept.refl _
  | delItem v i =>
    rw [R.step] at h
    refine with1_inv h (Kept.refl _) fun w t a n d h => ?_
    split at h
    · exact Kept.delItem h
    · cases h; exact Kept.refl _
  | packagesMatch v name type =>
    rw [R.step] at h
    refine with1_inv h (Kept.refl _) fun w t a n d h => ?_
    split at h
    · exact Kept.packagesMatch h
    · cases h; exact Kept.refl _
  | appendStr v s =>
    rw [R.step] at h
    refine with1_inv h (Kept.refl _) fun w t a n d h => ?_
    split at h
    · split at h
      · cases h; exact Kept.refl _
      · simp only [bind, Except.bind] at h
        split at h
        · simp at h
        · exact (Kept.make _ _).trans (Kept.putIn h)
    · cases h; exact Kept.refl _
    · cases h; exact Kept.refl _
  | clear v =>
    rw [R.step] at h
    refine with1_inv h (Kept.refl _) fun w t a n d h => ?_
    simp only [bind, Except.bind, pure, Except.pure] at h
    split at h
    · split at h
      · simp at h
      · cases h; exact Kept.putList r (by assumption) _
    · split at h
      · simp at h
      · rename_i x hx
        cases h
        exact Kept.putDocOf r (asDoc_inv hx) (fun _ _ _ h => h) (fun e => by cases e)
    · cases h; exact Kept.refl _
  | validate v =>
    rw [R.step] at h
    refine with1_inv h (Kept.refl _) fun w t a n d h => ?_
    simp only [bind, Except.bind, pure, Except.pure] at h
    split at h
    · split at h
      · simp at h
      · cases h; exact Kept.refl _
    · split at h
      · simp at h
      · cases h; exact Kept.refl _
    · split at h
      · simp at h
      · cases h; exact Kept.refl _
    · cases h; exact Kept.refl _
  | newComps =>
    rw [R.step] at h; cases h
    refine (Kept.makeOf r _ fun _ ls cs s w e hw => ?_).trans (Kept.wrapUp _ _ _)
    cases e; rw [Three.get_none] at hw; cases hw
  | getSec v s =>
    rw [R.step] at h
    refine with1_inv h (Kept.refl _) fun w t a n d h => ?_
    split at h
    · exact Kept.getSec h
    · cases h; exact Kept.refl _
  | setSec v s v2 =>
    rw [R.step] at h
    refine with2_inv' h (Kept.refl _) fun w t a w2 t2 a2 n d hb h => ?_
    split at h
    · split at h
      · rename_i et; subst et; exact Kept.setSec hb rfl h
      · cases h; exact Kept.refl _
    · cases h; exact Kept.refl _
  | delSec v s =>
    rw [R.step] at h
    refine with1_inv h (Kept.refl _) fun w t a n d h => ?_
    split at h
    · cases h
    · cases h; exact Kept.refl _
  | search v s args =>
    rw [R.step] at h
    refine with1_inv h (Kept.refl _) fun w t a n d h => ?_
    split at h
    · exact Kept.search h
    · cases h; exact Kept.refl _
  | getItem v i =>
    rw [R.step] at h
    refine with1_inv h (Kept.refl _) fun w t a n d h => ?_
    simp only [bind, Except.bind, pure, Except.pure] at h
    split at h
    · split at h
      · simp at h
      · split at h <;> cases h
        · exact Kept.refl _
        · exact Kept.wrapUp _ _ _
    · cases h; exact Kept.refl _
  | getById v id =>
    rw [R.step] at h
    refine with1_inv h (Kept.refl _) fun w t a n d h => ?_
    simp only [bind, Except.bind, pure, Except.pure] at h
    split at h
    · split at h
      · split at h
        · simp at h
        · split at h
          · simp at h
          · split at h <;> cases h
            · exact Kept.refl _
            · exact Kept.wrapUp _ _ _
      · cases h; exact Kept.refl _
    · cases h; exact Kept.refl _
  | len v =>
    rw [R.step] at h
    refine with1_inv h (Kept.refl _) fun w t a n d h => ?_
    simp only [bind, Except.bind, pure, Except.pure] at h
    split at h
    · split at h
      · simp at h
      · cases h; exact Kept.refl _
    · cases h; exact Kept.refl _
  | dictGet v k =>
    rw [R.step] at h
    refine with1_inv h (Kept.refl _) fun w t a n d h => ?_
    simp only [bind, Except.bind, pure, Except.pure] at h
    split at h
    · split at h
      · simp at h
      · split at h
        · simp at h
        · cases h; exact Kept.refl _
    · cases h; exact Kept.refl _
  | dictSet v k x =>
    rw [R.step] at h
    refine with1_inv h (Kept.refl _) fun w t a n d h => ?_
    simp only [bind, Except.bind, pure, Except.pure] at h
    split at h
    · split at h
      · simp at h
      · cases h; exact Kept.putDict r (by assumption) _
    · cases h; exact Kept.refl _
  | getDict v desc =>
    rw [R.step] at h
    refine with1_inv h (Kept.refl _) fun w t a n d h => ?_
    simp only [bind, Except.bind, pure, Except.pure] at h
    split at h
    · split at h
      · cases h; exact Kept.push _ _
      · split at h
        · simp at h
        · split at h
          · simp at h
          · cases h; exact Kept.wrapUp _ _ _
    · cases h; exact Kept.refl _
  | getList v o =>
    rw [R.step] at h
    refine with1_inv h (Kept.refl _) fun w t a n d h => ?_
    simp only [bind, Except.bind, pure, Except.pure] at h
    split at h
    · split at h
      · cases h; exact Kept.refl _
      · split at h
        · simp at h
        · split at h
          · simp at h
          · cases h; exact Kept.wrapUp _ _ _
    · cases h; exact Kept.refl _
  | getAttr v at' =>
    rw [R.step] at h
    refine with1_inv h (Kept.refl _) fun w t a n d h => ?_
    simp only [bind, Except.bind, pure, Except.pure] at h
    split at h
    · split at h
      · split at h
        · simp at h
        · split at h
          · simp at h
          · cases h; exact Kept.refl _
      · cases h; exact Kept.refl _
    · cases h; exact Kept.refl _
  | setAttr v at' x =>
    rw [R.step] at h
    refine with1_inv h (Kept.refl _) fun w t a n d h => ?_
    simp only [bind, Except.bind, pure, Except.pure] at h
    split at h
    · split at h
      · split at h
        · simp at h
        · split at h
          · simp at h
          · cases h; exact Kept.putEnt r (by assumption) _
      · cases h; exact Kept.refl _
    · cases h; exact Kept.refl _
  | getPkg v at' =>
    rw [R.step] at h
    refine with1_inv h (Kept.refl _) fun w t a n d h => ?_
    simp only [bind, Except.bind, pure, Except.pure] at h
    split at h
    · split at h
      · simp at h
      · split at h
        · split at h
          · simp at h
          · cases h; exact Kept.refl _
        · simp at h
    · cases h; exact Kept.refl _
  | setPkg v at' x =>
    rw [R.step] at h
    refine with1_inv h (Kept.refl _) fun w t a n d h => ?_
    simp only [bind, Except.bind, pure, Except.pure] at h
    split at h
    · split at h
      · simp at h
      · rename_i b hb
        split at h
        · split at h
          · simp at h
          · cases h; exact Kept.put r hb (by simp) (by simp) _
        · simp at h
    · cases h; exact Kept.refl _
  | getGid v at' =>
    rw [R.step] at h
    refine with1_inv h (Kept.refl _) fun w t a n d h => ?_
    simp only [bind, Except.bind, pure, Except.pure] at h
    split at h
    · split at h
      · simp at h
      · split at h
        · split at h
          · simp at h
          · cases h; exact Kept.refl _
        · simp at h
    · cases h; exact Kept.refl _
  | setGid v at' x =>
    rw [R.step] at h
    refine with1_inv h (Kept.refl _) fun w t a n d h => ?_
    simp only [bind, Except.bind, pure, Except.pure] at h
    split at h
    · split at h
      · simp at h
      · rename_i b hb
        split at h
        · split at h
          · simp at h
          · cases h; exact Kept.put r hb (by simp) (by simp) _
        · simp at h
    · cases h; exact Kept.refl _

/-! ## Aliases -/

theorem with1_subst {r : R} {x y : Nat} (h : r.alias x y) (v : Nat)
    (g : PType → Nat → Res (R × Obs)) :
    (r.with1 (subst x y v) fun _ t a _ _ => g t a) = r.with1 v fun _ t a _ _ => g t a := by
  by_cases e : v = x
  · subst e
    obtain ⟨w1, w2, t, a, n1, d1, n2, d2, h1, h2, h3, h4, -⟩ := h
    simp [R.with1, PyHeap.subst, h1, h2, asWrap, look, h3, h4, bind, Except.bind]
  · rw [PyHeap.subst, if_neg e]

theorem with1_subst_entry {r : R} {x y : Nat} (h : r.alias x y) (v : Nat)
    (g : PType → Nat → Option Nat → Option Nat → Res (R × Obs))
    (hg : ∀ t a n d n' d', (∀ k, t ≠ .entry k) → g t a n d = g t a n' d') :
    (r.with1 (subst x y v) fun _ t a n d => g t a n d) = r.with1 v fun _ t a n d => g t a n d := by
  by_cases e : v = x
  · subst e
    obtain ⟨w1, w2, t, a, n1, d1, n2, d2, h1, h2, h3, h4, h5⟩ := h
    simp only [R.with1, PyHeap.subst, if_true, h1, h2, asWrap, look, h3, h4, bind, Except.bind]
    by_cases et : ∃ k, t = .entry k
    · obtain ⟨rfl, rfl⟩ := h5 et; rfl
    · exact hg _ _ _ _ _ _ fun k e => et ⟨k, e⟩
  · rw [PyHeap.subst, if_neg e]

theorem with2_subst {r : R} {x y : Nat} (h : r.alias x y) (v v2 : Nat)
    (g : PType → Nat → PType → Nat → Res (R × Obs)) :
    (r.with2 (subst x y v) (subst x y v2) fun _ t a _ t2 a2 => g t a t2 a2) =
      r.with2 v v2 fun _ t a _ t2 a2 => g t a t2 a2 := by
  unfold R.with2
  rw [with1_subst h v fun t a => r.with1 (subst x y v2) fun _ t2 a2 _ _ => g t a t2 a2]
  congr 1
  funext w t a n d
  exact with1_subst h v2 fun t2 a2 => g t a t2 a2

theorem subst_ne {x y v : Nat} (h : v ≠ x) : subst x y v = v := if_neg h

theorem alias_step {r : R} {x y : Nat} (h : r.alias x y) {op : Op} (hop : op.uses x = true) :
    r.step lt utf8 (op.rename (subst x y)) = r.step lt utf8 op := by
  cases op with
  | newGroup args => rfl
  | newEntry env args => rfl
  | newPackage args => rfl
  | newGroupId args => rfl
  | newDict => rfl
  | newList k => rfl
  | dup v => rw [Op.rename, subst_ne (by simpa [Op.uses] using hop)]
  | del v => rw [Op.rename, subst_ne (by simpa [Op.uses] using hop)]
  | same v w =>
    simp [Op.uses] at hop
    rw [Op.rename, subst_ne hop.1, subst_ne hop.2]
  | setDict v d w =>
    simp [Op.uses] at hop
    rw [Op.rename, subst_ne hop.1, subst_ne hop.2]
  | setList v o w =>
    rw [Op.rename, subst_ne (v := w) (by simpa [Op.uses] using hop), R.step, R.step]
    exact with1_subst h v _
  | getDict v desc =>
    rw [Op.rename, R.step, R.step]
    refine with1_subst_entry h v _ fun t a n d n' d' hne => ?_
    cases t <;> first | rfl | exact absurd rfl (hne _)
  | getAttr v a => rw [Op.rename, R.step, R.step]; exact with1_subst h v _
  | setAttr v a x => rw [Op.rename, R.step, R.step]; exact with1_subst h v _
  | getPkg v a => rw [Op.rename, R.step, R.step]; exact with1_subst h v _
  | setPkg v a x => rw [Op.rename, R.step, R.step]; exact with1_subst h v _
  | getGid v a => rw [Op.rename, R.step, R.step]; exact with1_subst h v _
  | setGid v a x => rw [Op.rename, R.step, R.step]; exact with1_subst h v _
  | getList v o => rw [Op.rename, R.step, R.step]; exact with1_subst h v _
  | dictSet v k x => rw [Op.rename, R.step, R.step]; exact with1_subst h v _
  | dictGet v k => rw [Op.rename, R.step, R.step]; exact with1_subst h v _
  | len v => rw [Op.rename, R.step, R.step]; exact with1_subst h v _
  | getItem v i => rw [Op.rename, R.step, R.step]; exact with1_subst h v _
  | getById v id => rw [Op.rename, R.step, R.step]; exact with1_subst h v _
  | append v w => rw [Op.rename, R.step, R.step]; exact with2_subst h v w _
  | appendStr v s => rw [Op.rename, R.step, R.step]; exact with1_subst h v _
  | insert v i w => rw [Op.rename, R.step, R.step]; exact with2_subst h v w _
  | setItem v i w => rw [Op.rename, R.step, R.step]; exact with2_subst h v w _
  | delItem v i => rw [Op.rename, R.step, R.step]; exact with1_subst h v _
  | remove v w => rw [Op.rename, R.step, R.step]; exact with2_subst h v w _
  | clear v => rw [Op.rename, R.step, R.step]; exact with1_subst h v _
  | packagesMatch v n t => rw [Op.rename, R.step, R.step]; exact with1_subst h v _
  | validate v => rw [Op.rename, R.step, R.step]; exact with1_subst h v _
  | newComps => rfl
  | getSec v s => rw [Op.rename, R.step, R.step]; exact with1_subst h v _
  | setSec v s w =>
    rw [Op.rename, subst_ne (v := w) (by simpa [Op.uses] using hop), R.step, R.step]
    exact with1_subst h v _
  | delSec v s => rw [Op.rename, R.step, R.step]; exact with1_subst h v _
  | search v s a => rw [Op.rename, R.step, R.step]; exact with1_subst h v _

theorem Kept.alias {r r' : R} (h : Kept q r r') {x y : Nat} (ha : r.alias x y) : r'.alias x y := by
  obtain ⟨w1, w2, t, a, n1, d1, n2, d2, h1, h2, h3, h4, h5⟩ := ha
  exact ⟨w1, w2, t, a, n1, d1, n2, d2, h.vars _ _ h1, h.vars _ _ h2, h.wraps _ _ _ _ _ h3,
    h.wraps _ _ _ _ _ h4, h5⟩

theorem leaves_alias {r r' : R} {op : Op} {o : Obs} {x y : Nat} (hop : op.leaves x y = true)
    (h : r.step lt utf8 op = .ok (r', o)) (ha : r.alias x y) : r'.alias x y := by
  by_cases hk : op.keeps = true
  · exact (step_kept hk h).alias ha
  · cases op <;> simp [Op.keeps] at hk
    case setDict => simp [Op.leaves] at hop
    case del v =>
      simp [Op.leaves] at hop
      rw [R.step] at h
      split at h <;> cases h
      · exact ha
      · obtain ⟨w1, w2, t, a, n1, d1, n2, d2, h1, h2, h3, h4, h5⟩ := ha
        refine ⟨w1, w2, t, a, n1, d1, n2, d2, ?_, ?_, h3, h4, h5⟩
        · simpa [var, List.getElem?_set, hop.1] using h1
        · simpa [var, List.getElem?_set, hop.2] using h2

theorem run_append (ops ops' : List Op) : ∀ (r : R),
    r.run lt utf8 (ops ++ ops') = (do
      let (r, os) ← r.run lt utf8 ops
      let (r, os') ← r.run lt utf8 ops'
      return (r, os ++ os')) := by
  induction ops with
  | nil =>
    intro r
    simp only [List.nil_append, R.run, bind, Except.bind, pure, Except.pure]
    cases r.run lt utf8 ops' <;> rfl
  | cons op ops ih =>
    intro r
    simp only [List.cons_append, R.run, bind, Except.bind, pure, Except.pure] at ih ⊢
    cases r.step lt utf8 op with
    | error f => rfl
    | ok v =>
      dsimp only
      rw [ih]
      cases v.1.run lt utf8 ops with
      | error f => rfl
      | ok v' =>
        dsimp only
        cases v'.1.run lt utf8 ops' <;> rfl

/-- An alias is as good, also later. -/
theorem alias_run {x y : Nat} {op : Op} (hop : op.uses x = true) (rest : List Op) :
    ∀ (mid : List Op) {r : R}, r.alias x y → (∀ o ∈ mid, o.leaves x y = true) →
      r.run lt utf8 (mid ++ op.rename (subst x y) :: rest) = r.run lt utf8 (mid ++ op :: rest) := by
  intro mid
  induction mid with
  | nil =>
    intro r ha _
    simp only [List.nil_append, R.run]
    rw [alias_step ha hop]
  | cons m mid ih =>
    intro r ha hm
    simp only [List.cons_append, R.run, bind, Except.bind]
    cases e : r.step lt utf8 m with
    | error f => rfl
    | ok v =>
      obtain ⟨r', o⟩ := v
      dsimp only
      rw [ih (leaves_alias (hm m (by simp)) e ha) fun o ho => hm o (by simp [ho])]

theorem _root_.Comps.PyHeap.R.sharing.alias {r : R} {x y : Nat} (h : r.sharing x y) : r.alias x y := by
  obtain ⟨w1, w2, t, a, n1, d1, n2, d2, h1, h2, h3, h4, h5⟩ := h
  exact ⟨w1, w2, t, a, n1, d1, n2, d2, h1, h2, h3, h4, fun ⟨k, e⟩ => absurd e (h5 k)⟩

theorem holds_sharing {r r' : R} {op : Op} {o : Obs} {x y : Nat} (hop : op.holds x y = true)
    (h : r.step lt utf8 op = .ok (r', o)) (ha : r.sharing x y) : r'.sharing x y := by
  obtain ⟨w1, w2, t, a, n1, d1, n2, d2, h1, h2, h3, h4, h5⟩ := ha
  by_cases hk : op.keeps = true
  · have hk := step_kept hk h
    exact ⟨w1, w2, t, a, n1, d1, n2, d2, hk.vars _ _ h1, hk.vars _ _ h2, hk.wraps _ _ _ _ _ h3,
      hk.wraps _ _ _ _ _ h4, h5⟩
  · cases op <;> simp [Op.keeps] at hk
    case setDict v desc u =>
      rw [R.step] at h
      refine with2_inv (P := fun z => z.sharing x y) h
        ⟨w1, w2, t, a, n1, d1, n2, d2, h1, h2, h3, h4, h5⟩ fun w t' b w' t2 d h => ?_
      cases t' <;> try (cases h; exact ⟨w1, w2, t, a, n1, d1, n2, d2, h1, h2, h3, h4, h5⟩)
      dsimp only at h
      split at h
      · simp only [bind, Except.bind, pure, Except.pure] at h
        split at h
        · cases h
        rename_i e he
        split at h
        · cases h
        rename_i q hq
        cases h
        have key : ∀ {z : Nat} {n m : Option Nat}, r.objs[z]? = some (.wrap t a n m) →
            ∃ n' m', ((r.put b (e.withDict desc d).body).put w
              (if desc then .wrap q.1 q.2.1 q.2.2.1 (some w') else
                .wrap q.1 q.2.1 (some w') q.2.2.2)).objs[z]? = some (.wrap t a n' m') := by
          intro z n m hz
          have hb : b ≠ z := by
            rintro rfl
            simp [asEnt, look, hz, bind, Except.bind] at he
          by_cases hw : w = z
          · subst hw
            have hl := (List.getElem?_eq_some_iff.1 hz).1
            simp [asWrap, look, hz, bind, Except.bind] at hq
            subst hq
            cases desc
            · exact ⟨some w', m, by simp [R.put, hl]⟩
            · exact ⟨n, some w', by simp [R.put, hl]⟩
          · exact ⟨n, m, by simp [R.put, hw, hb, hz]⟩
        obtain ⟨_, _, g1⟩ := key h3
        obtain ⟨_, _, g2⟩ := key h4
        exact ⟨w1, w2, t, a, _, _, _, _, h1, h2, g1, g2, h5⟩
      · cases h; exact ⟨w1, w2, t, a, n1, d1, n2, d2, h1, h2, h3, h4, h5⟩
    case del v =>
      simp [Op.holds] at hop
      rw [R.step] at h
      split at h <;> cases h
      · exact ⟨w1, w2, t, a, n1, d1, n2, d2, h1, h2, h3, h4, h5⟩
      · refine ⟨w1, w2, t, a, n1, d1, n2, d2, ?_, ?_, h3, h4, h5⟩
        · simpa [var, List.getElem?_set, hop.1] using h1
        · simpa [var, List.getElem?_set, hop.2] using h2

/-- An alias of an object that is not an entry is as good, also later. -/
theorem sharing_run {x y : Nat} {op : Op} (hop : op.uses x = true) (rest : List Op) :
    ∀ (mid : List Op) {r : R}, r.sharing x y → (∀ o ∈ mid, o.holds x y = true) →
      r.run lt utf8 (mid ++ op.rename (subst x y) :: rest) = r.run lt utf8 (mid ++ op :: rest) := by
  intro mid
  induction mid with
  | nil =>
    intro r ha _
    simp only [List.nil_append, R.run]
    rw [alias_step ha.alias hop]
  | cons m mid ih =>
    intro r ha hm
    simp only [List.cons_append, R.run, bind, Except.bind]
    cases e : r.step lt utf8 m with
    | error f => rfl
    | ok v =>
      obtain ⟨r', o⟩ := v
      dsimp only
      rw [ih (holds_sharing (hm m (by simp)) e ha) fun o ho => hm o (by simp [ho])]

theorem look_append {objs : List Body} {a : Nat} {b : Body} (h : look objs a = .ok b) (bs : List Body) :
    look (objs ++ bs) a = .ok b := by
  unfold look at h ⊢
  split at h
  · rename_i x hx
    have := (List.getElem?_eq_some_iff.1 hx).1
    rw [List.getElem?_append_left this, hx]; exact h
  · simp at h

theorem asList_append {objs : List Body} {a : Nat} {x : LKind × List Nat}
    (h : asList (look objs) a = .ok x) (bs : List Body) : asList (look (objs ++ bs)) a = .ok x := by
  unfold asList at h ⊢
  cases e : look objs a with
  | error f => rw [e] at h; simp [bind, Except.bind] at h
  | ok b => rw [look_append e]; rw [e] at h; exact h

theorem asEnt_append {objs : List Body} {a : Nat} {x : Ent}
    (h : asEnt (look objs) a = .ok x) (bs : List Body) : asEnt (look (objs ++ bs)) a = .ok x := by
  unfold asEnt at h ⊢
  cases e : look objs a with
  | error f => rw [e] at h; simp [bind, Except.bind] at h
  | ok b => rw [look_append e]; rw [e] at h; exact h

theorem keyOf_append {objs : List Body} {a : Nat} {x : Option CStr}
    (h : keyOf (look objs) a = .ok x) (bs : List Body) : keyOf (look (objs ++ bs)) a = .ok x := by
  unfold keyOf at h ⊢
  cases e : look objs a with
  | error f => rw [e] at h; simp [bind, Except.bind] at h
  | ok b => rw [look_append e]; rw [e] at h; exact h

theorem findId_append {objs : List Body} {id : Bytes} (bs : List Body) : ∀ {items : List Nat}
    {x : Option Nat}, findId (look objs) id items = .ok x → findId (look (objs ++ bs)) id items = .ok x := by
  intro items
  induction items with
  | nil => intro x h; exact h
  | cons a as ih =>
    intro x h
    simp only [findId, bind, Except.bind] at h ⊢
    cases e : keyOf (look objs) a with
    | error f => rw [e] at h; simp at h
    | ok k =>
      rw [e] at h
      rw [keyOf_append e]
      dsimp only at h ⊢
      split at h
      · rename_i hc; rw [if_pos hc]; exact h
      · rename_i hc; rw [if_neg hc]; exact ih h

theorem var_new (vars : List (Option Nat)) (w : Nat) : var (vars ++ [some w]) vars.length = some w := by
  simp [var]

theorem var_old {vars : List (Option Nat)} {v w : Nat} (h : var vars v = some w) (xs : List (Option Nat)) :
    var (vars ++ xs) v = some w := by
  unfold var at h ⊢
  split at h
  · rename_i y hy
    have := (List.getElem?_eq_some_iff.1 hy).1
    rw [List.getElem?_append_left this, hy]; exact h
  · simp at h

theorem wrapUp_alias (r : R) (t : PType) (a : Nat) :
    ((r.wrapUp t a).wrapUp t a).alias r.vars.length (r.vars.length + 1) := by
  refine ⟨r.objs.length, r.objs.length + 1, t, a, none, none, none, none, ?_, ?_, ?_, ?_, fun _ => ⟨rfl, rfl⟩⟩
  · exact var_old (var_new _ _) _
  · have := var_new (r.vars ++ [some r.objs.length]) (r.objs.length + 1)
    simpa [R.wrapUp, R.push, R.make] using this
  · simp [R.wrapUp, R.push, R.make]
  · have : ((r.objs ++ [Body.wrap t a none none]) ++ [Body.wrap t a none none])[
        (r.objs ++ [Body.wrap t a none none]).length]? = some (Body.wrap t a none none) :=
      List.getElem?_concat_length
    simp [R.wrapUp, R.push, R.make]

/-- The Python object and what is in it, later. -/
theorem with1_ok {r r' : R} {v : Nat} {o : Obs}
    {f : Nat → PType → Nat → Option Nat → Option Nat → Res (R × Obs)}
    (h : r.with1 v f = .ok (r', o)) (ho : o ≠ .noVar) :
    ∃ w t a n d, var r.vars v = some w ∧ r.objs[w]? = some (.wrap t a n d) ∧
      f w t a n d = .ok (r', o) := by
  unfold R.with1 at h
  split at h
  · cases h; exact absurd rfl ho
  · rename_i w hw
    simp only [bind, Except.bind, asWrap, look] at h
    cases e : r.objs[w]? with
    | none => rw [e] at h; simp at h
    | some b =>
      rw [e] at h
      cases b <;> simp at h
      exact ⟨w, _, _, _, _, hw, e, h⟩

theorem with1_run {r : R} {v w : Nat} {t : PType} {a : Nat} {n d : Option Nat}
    (hw : var r.vars v = some w) (hb : r.objs[w]? = some (.wrap t a n d))
    (f : Nat → PType → Nat → Option Nat → Option Nat → Res (R × Obs)) :
    r.with1 v f = f w t a n d := by
  simp [R.with1, hw, asWrap, look, hb, bind, Except.bind]

theorem fetch_alias {r r1 : R} {op : Op} (hop : op.fetches = true)
    (h : r.step lt utf8 op = .ok (r1, .object)) :
    ∃ r2, r1.step lt utf8 op = .ok (r2, .object) ∧ r2.alias r.vars.length (r.vars.length + 1) := by
  have hk : Kept op r r1 := step_kept (by cases op <;> simp [Op.fetches] at hop <;> rfl) h
  cases op <;> simp [Op.fetches] at hop
  case getItem v i =>
    rw [R.step] at h
    obtain ⟨w, t, a, n, d, hw, hb, h⟩ := with1_ok h (by simp)
    rw [R.step, with1_run (hk.vars _ _ hw) (hk.wraps _ _ _ _ _ hb)]
    cases t <;> simp at h
    rename_i k
    simp only [bind, Except.bind, pure, Except.pure] at h
    split at h
    · simp at h
    rename_i x hx
    split at h
    · simp at h
    rename_i y hy
    cases h
    refine ⟨_, ?_, wrapUp_alias r k.elem y⟩
    have hx' : asList (look (r.wrapUp k.elem y).objs) a = .ok x := asList_append hx _
    simp only [hx', hy, bind, Except.bind, pure, Except.pure]
  case getById v id =>
    rw [R.step] at h
    obtain ⟨w, t, a, n, d, hw, hb, h⟩ := with1_ok h (by simp)
    rw [R.step, with1_run (hk.vars _ _ hw) (hk.wraps _ _ _ _ _ hb)]
    cases t <;> simp at h
    rename_i k
    dsimp only
    split at h
    · rename_i hext
      simp only [bind, Except.bind, pure, Except.pure] at h
      split at h
      · simp at h
      rename_i x hx
      split at h
      · simp at h
      rename_i y hy
      split at h
      · simp at h
      rename_i z
      cases h
      refine ⟨_, ?_, wrapUp_alias r k.elem z⟩
      have hx' : asList (look (r.wrapUp k.elem z).objs) a = .ok x := asList_append hx _
      have hy' : findId (look (r.wrapUp k.elem z).objs) id x.2 = .ok (some z) := findId_append _ hy
      rw [if_pos hext]
      simp only [hx', hy', bind, Except.bind, pure, Except.pure]
    · simp at h
  case getList v o =>
    rw [R.step] at h
    obtain ⟨w, t, a, n, d, hw, hb, h⟩ := with1_ok h (by simp)
    rw [R.step, with1_run (hk.vars _ _ hw) (hk.wraps _ _ _ _ _ hb)]
    cases t <;> try (cases h; done)
    rename_i k
    dsimp only at h ⊢
    split at h
    · simp at h
    · rename_i hc
      simp only [bind, Except.bind, pure, Except.pure] at h
      split at h
      · simp at h
      rename_i e he
      split at h
      · simp at h
      rename_i l hl
      cases h
      refine ⟨_, ?_, wrapUp_alias r (.list (listType k)) l⟩
      have he' : asEnt (look (r.wrapUp (.list (listType k)) l).objs) a = .ok e := asEnt_append he _
      rw [if_neg hc]
      simp only [he', hl, bind, Except.bind, pure, Except.pure]

end Comps.PyHeap
