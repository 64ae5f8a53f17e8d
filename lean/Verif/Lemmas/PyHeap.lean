import Verif.Spec.PyHeap
import Verif.Lemmas.RefC

/-! # Counting references in Python programs -/

namespace Comps.PyHeap
open Comps Comps.Obj

/-- Counts and references only. -/
def proj (h : Heap) : RefC.Heap := h.map (Option.map fun c => ⟨c.rc, c.body.children⟩)

theorem proj_get (h : Heap) (a : Nat) :
    (proj h)[a]? = h[a]?.map (Option.map fun c => ⟨c.rc, c.body.children⟩) := by
  simp [proj]

theorem proj_live {h : Heap} {a : Nat} {c : Cell} (hl : h[a]? = some (some c)) :
    (proj h)[a]? = some (some ⟨c.rc, c.body.children⟩) := by
  rw [proj_get, hl]; rfl

theorem proj_inv {h : Heap} {a : Nat} {ob : RefC.Obj} (hl : (proj h)[a]? = some (some ob)) :
    ∃ c, h[a]? = some (some c) ∧ ob = ⟨c.rc, c.body.children⟩ := by
  rw [proj_get] at hl
  cases hh : h[a]? with
  | none => rw [hh] at hl; simp at hl
  | some x =>
    rw [hh] at hl
    cases x with
    | none => simp at hl
    | some c => exact ⟨c, rfl, by simpa using hl.symm⟩

theorem proj_set (h : Heap) (a : Nat) (v : Option Cell) :
    proj (h.set a v) = (proj h).set a (v.map fun c => ⟨c.rc, c.body.children⟩) := by
  simp [proj, List.map_set]

theorem proj_edges (h : Heap) : RefC.edges (proj h) = edges h := by
  unfold RefC.edges edges proj
  rw [List.flatMap_map]
  congr 1
  funext x
  cases x <;> rfl

/-- Counts are right, and objects in memory have the contents they ought to have. -/
structure Good (h : Heap) (ext : List Nat) (objs : List Body) : Prop where
  inv : RefC.Inv (proj h) ext
  len : h.length = objs.length
  same : ∀ (a : Nat) (c : Cell), h[a]? = some (some c) → objs[a]? = some c.body

/-- In memory, with these contents. -/
def Has (h : Heap) (a : Nat) (b : Body) : Prop := ∃ c : Cell, h[a]? = some (some c) ∧ c.body = b

theorem get_set {h : Heap} {i : Nat} {c : Option Cell} (hc : h[i]? = some c) (v : Option Cell)
    (o : Nat) : (h.set i v)[o]? = if i = o then some v else h[o]? := by
  have hlt : i < h.length := by
    rcases Nat.lt_or_ge i h.length with h1 | h1
    · exact h1
    · rw [List.getElem?_eq_none h1] at hc; simp at hc
  rw [List.getElem?_set]
  by_cases e : i = o
  · subst e; simp [hlt]
  · simp [e]

theorem Has.load {h : Heap} {a : Nat} {b : Body} (hh : Has h a b) :
    ∃ c : Cell, PyHeap.load h a = .ok c ∧ h[a]? = some (some c) ∧ c.body = b := by
  obtain ⟨c, h1, h2⟩ := hh
  exact ⟨c, by simp [PyHeap.load, h1], h1, h2⟩

theorem Has.read {h : Heap} {a : Nat} {b : Body} (hh : Has h a b) : read h a = .ok b := by
  obtain ⟨c, h1, -, h2⟩ := hh.load
  simp [PyHeap.read, h1, bind, Except.bind, pure, Except.pure, h2]

theorem Good.perm {h : Heap} {e e' : List Nat} {objs : List Body} (hp : e.Perm e')
    (g : Good h e objs) : Good h e' objs := ⟨g.inv.perm hp, g.len, g.same⟩

theorem Good.look {h : Heap} {e : List Nat} {objs : List Body} (g : Good h e objs) {a : Nat}
    {b : Body} (hh : Has h a b) : look objs a = .ok b := by
  obtain ⟨c, h1, h2⟩ := hh
  simp [PyHeap.look, g.same a c h1, h2]

theorem Good.has {h : Heap} {e : List Nat} {objs : List Body} (g : Good h e objs) {a : Nat}
    (hm : a ∈ e) : ∃ b, Has h a b := by
  obtain ⟨ob, h1, -⟩ := g.inv.mem hm
  obtain ⟨c, h2, -⟩ := proj_inv h1
  exact ⟨c.body, c, h2, rfl⟩

theorem mem_edges {h : Heap} {a c : Nat} {b : Body} (hh : Has h a b) (hc : c ∈ b.children) :
    c ∈ edges h := by
  obtain ⟨cell, h1, h2⟩ := hh
  unfold edges
  rw [List.mem_flatMap]
  exact ⟨some cell, List.mem_of_getElem? h1, by rw [← h2] at hc; exact hc⟩

theorem Good.child {h : Heap} {e : List Nat} {objs : List Body} (g : Good h e objs) {a c : Nat}
    {b : Body} (hh : Has h a b) (hc : c ∈ b.children) : ∃ b', Has h c b' := by
  have hm := mem_edges hh hc
  rw [← proj_edges] at hm
  obtain ⟨ob, h1, -⟩ := g.inv.live (o := c)
    (by have := List.count_pos_iff.2 hm; unfold RefC.ecount; omega)
  obtain ⟨c', h2, -⟩ := proj_inv h1
  exact ⟨c'.body, c', h2, rfl⟩

/-- Reading agrees on what is in memory. -/
theorem Good.readEq {h : Heap} {e : List Nat} {objs : List Body} (g : Good h e objs) {a : Nat}
    {b : Body} (hh : Has h a b) : PyHeap.read h a = PyHeap.look objs a := by
  rw [hh.read, g.look hh]

theorem Good.incref {h : Heap} {e : List Nat} {objs : List Body} (g : Good h e objs) {a : Nat}
    {b : Body} (hh : Has h a b) :
    ∃ h', PyHeap.incref h a = .ok h' ∧ Good h' (a :: e) objs ∧
      ∀ x y, Has h x y → Has h' x y := by
  obtain ⟨c, h1, h2, -⟩ := hh.load
  refine ⟨h.set a (some { c with rc := c.rc + 1 }), by
    simp [PyHeap.incref, h1, bind, Except.bind, pure, Except.pure], ⟨?_, by simpa using g.len, ?_⟩, ?_⟩
  · rw [proj_set]
    refine g.inv.set (proj_live h2) ?_
    intro p
    by_cases ep : p = a
    · subst ep; simp; omega
    · have e' : ¬ a = p := fun h => ep h.symm
      rw [List.count_cons_of_ne e']; simp [ep]
  · intro x cx hx
    rw [get_set h2] at hx
    by_cases ex : a = x
    · subst ex; simp at hx; subst hx; exact g.same a c h2
    · simp [ex] at hx; exact g.same _ _ hx
  · rintro x y ⟨cx, hx, hy⟩
    unfold Has
    rw [get_set h2]
    by_cases ex : a = x
    · subst ex
      rw [h2] at hx; injection hx with hx; injection hx with hx; subst hx
      exact ⟨_, if_pos rfl, hy⟩
    · exact ⟨cx, by rw [if_neg ex]; exact hx, hy⟩

theorem Good.increfAll {as : List Nat} : ∀ {h : Heap} {e : List Nat} {objs : List Body},
    Good h e objs → (∀ a ∈ as, ∃ b, Has h a b) →
    ∃ h', PyHeap.increfAll h as = .ok h' ∧ Good h' (as ++ e) objs ∧
      ∀ x y, Has h x y → Has h' x y := by
  induction as with
  | nil => intro h e objs g _; exact ⟨h, rfl, g, fun _ _ h => h⟩
  | cons a as ih =>
    intro h e objs g hs
    obtain ⟨b, hb⟩ := hs a (by simp)
    obtain ⟨h1, e1, g1, k1⟩ := g.incref hb
    obtain ⟨h2, e2, g2, k2⟩ := ih g1 (fun x hx => by
      obtain ⟨y, hy⟩ := hs x (by simp [hx]); exact ⟨y, k1 x y hy⟩)
    refine ⟨h2, ?_, g2.perm (List.perm_middle), fun x y hx => k2 x y (k1 x y hx)⟩
    simp only [PyHeap.increfAll, e1, bind, Except.bind]; exact e2

theorem Good.alloc {h : Heap} {e : List Nat} {objs : List Body} {b : Body}
    (g : Good h (b.children ++ e) objs) :
    Good (PyHeap.alloc h b) (h.length :: e) (objs ++ [b]) ∧ Has (PyHeap.alloc h b) h.length b ∧
      ∀ x y, Has h x y → Has (PyHeap.alloc h b) x y := by
  have hpl : (proj h).length = h.length := by simp [proj]
  have hedge : ∀ o, RefC.ecount (proj (PyHeap.alloc h b)) o =
      RefC.ecount (proj h) o + b.children.count o := by
    intro o
    simp [RefC.ecount, proj_edges, PyHeap.alloc, edges, List.count_append]
  refine ⟨⟨?_, by simp [PyHeap.alloc, g.len], ?_⟩, ?_, ?_⟩
  · intro o
    have hgo := g.inv o
    rw [List.count_append] at hgo
    by_cases eo : o = h.length
    · subst eo
      left
      refine ⟨⟨0, b.children⟩, by simp [proj_get, PyHeap.alloc], ?_⟩
      rcases hgo with ⟨ob, h1, -⟩ | ⟨-, h2, h3⟩
      · rw [List.getElem?_eq_none (by omega)] at h1; simp at h1
      · rw [List.count_cons_self, hedge]; simp only; omega
    · have e' : ¬ h.length = o := fun h => eo h.symm
      rw [List.count_cons_of_ne e', hedge]
      have hge : (proj (PyHeap.alloc h b))[o]? = (proj h)[o]? := by
        rw [proj_get, proj_get]
        congr 1
        unfold PyHeap.alloc
        rw [List.getElem?_append]
        split
        · rfl
        · rw [List.getElem?_eq_none (by simp; omega), List.getElem?_eq_none (by omega)]
      rw [hge]
      rcases hgo with ⟨ob, h1, h2⟩ | ⟨h1, h2, h3⟩
      · exact .inl ⟨ob, h1, by omega⟩
      · exact .inr ⟨h1, by omega, by omega⟩
  · intro a c hc
    unfold PyHeap.alloc at hc
    rw [List.getElem?_append] at hc
    split at hc
    · rename_i hlt
      rw [List.getElem?_append_left (by have := g.len; omega)]
      exact g.same _ _ hc
    · rename_i hge
      have : a = h.length := by
        cases hk : a - h.length with
        | zero => omega
        | succ k => rw [hk] at hc; simp at hc
      subst this
      simp at hc; subst hc
      rw [g.len]; simp
  · exact ⟨⟨0, b⟩, by simp [PyHeap.alloc], rfl⟩
  · rintro x y ⟨c, hc, hy⟩
    refine ⟨c, ?_, hy⟩
    unfold PyHeap.alloc
    rw [List.getElem?_append_left]
    · exact hc
    · rcases Nat.lt_or_ge x h.length with h1 | h1
      · exact h1
      · rw [List.getElem?_eq_none h1] at hc; simp at hc

theorem Good.write {h : Heap} {e e' : List Nat} {objs : List Body} (g : Good h e objs) {a : Nat}
    {b b' : Body} (hh : Has h a b) (hp : (b.children ++ e).Perm (b'.children ++ e')) :
    ∃ h', PyHeap.write h a b' = .ok h' ∧ Good h' e' (objs.set a b') ∧ Has h' a b' ∧
      ∀ x y, x ≠ a → Has h x y → Has h' x y := by
  obtain ⟨c, h1, h2, h3⟩ := hh.load
  refine ⟨h.set a (some { c with body := b' }), by
    simp [PyHeap.write, h1, bind, Except.bind, pure, Except.pure], ⟨?_, by simpa using g.len, ?_⟩, ?_, ?_⟩
  · rw [proj_set]
    refine g.inv.set (proj_live h2) ?_
    intro p
    have := hp.count_eq p
    simp only [List.count_append] at this
    simp only
    rw [h3]
    omega
  · intro x cx hx
    rw [get_set h2] at hx
    rw [List.getElem?_set]
    by_cases ex : a = x
    · subst ex
      simp at hx; subst hx
      have : a < objs.length := by
        rw [← g.len]
        rcases Nat.lt_or_ge a h.length with h1 | h1
        · exact h1
        · rw [List.getElem?_eq_none h1] at h2; simp at h2
      simp [this]
    · simp [ex] at hx ⊢; exact g.same _ _ hx
  · exact ⟨_, by rw [get_set h2, if_pos rfl], rfl⟩
  · rintro x y hne ⟨cx, hx, hy⟩
    exact ⟨cx, by rw [get_set h2, if_neg (fun e => hne e.symm)]; exact hx, hy⟩

/-- What is in memory after a release was there before. -/
theorem releaseAll_ok (fuel : Nat) : ∀ {h : Heap} {todo e : List Nat} {objs : List Body},
    Good h (todo ++ e) objs → todo.length + (edges h).length ≤ fuel →
    ∃ h', releaseAll fuel h todo = .ok h' ∧ Good h' e objs := by
  induction fuel with
  | zero =>
    intro h todo e objs g hf
    have : todo = [] := by cases todo <;> simp_all
    subst this
    exact ⟨h, by simp [releaseAll], by simpa using g⟩
  | succ fuel ih =>
    intro h todo e objs g hf
    cases todo with
    | nil => exact ⟨h, by simp [releaseAll], by simpa using g⟩
    | cons a todo =>
      obtain ⟨b, hb⟩ := g.has (a := a) (by simp)
      obtain ⟨c, h1, h2, h3⟩ := hb.load
      simp only [List.length_cons] at hf
      have hsame : ∀ v : Option Cell, (∀ c', v = some c' → c'.body = c.body) →
          ∀ (x : Nat) (cx : Cell), (h.set a v)[x]? = some (some cx) → objs[x]? = some cx.body := by
        intro v hv x cx hx
        rw [get_set h2] at hx
        by_cases ex : a = x
        · subst ex
          simp at hx
          rw [hv cx hx]; exact g.same _ _ h2
        · simp [ex] at hx; exact g.same _ _ hx
      have hl := proj_live h2
      simp only [releaseAll, h1, bind, Except.bind]
      by_cases hz : c.rc = 0
      · rw [if_pos hz]
        have hlen := RefC.edges_len_set (proj h) a _ none hl
        rw [← Option.map_none, ← proj_set, proj_edges, proj_edges] at hlen
        simp only [RefC.ownedOf, List.length_nil, Option.map] at hlen
        refine ih (h := h.set a none) (todo := c.body.children ++ todo) ⟨?_, by simpa using g.len,
          hsame none (by simp)⟩ (by rw [List.length_append]; omega)
        rw [proj_set, List.append_assoc]
        exact RefC.Inv.free g.inv hl hz
      · rw [if_neg hz]
        have hlen := RefC.edges_len_set (proj h) a _ (some ⟨c.rc - 1, c.body.children⟩) hl
        have hps := proj_set h a (some { c with rc := c.rc - 1 })
        simp only [Option.map] at hps
        rw [← hps, proj_edges, proj_edges] at hlen
        simp only [RefC.ownedOf] at hlen
        refine ih (h := h.set a (some { c with rc := c.rc - 1 })) ⟨?_, by simpa using g.len,
          hsame _ (by rintro c' ⟨⟩; rfl)⟩ (by omega)
        rw [hps]
        exact RefC.Inv.dec g.inv hl hz

theorem Good.releases {h : Heap} {as e : List Nat} {objs : List Body} (g : Good h (as ++ e) objs) :
    ∃ h', PyHeap.releases h as = .ok h' ∧ Good h' e objs :=
  releaseAll_ok _ g (Nat.le_refl _)

theorem Good.release {h : Heap} {a : Nat} {e : List Nat} {objs : List Body}
    (g : Good h (a :: e) objs) : ∃ h', PyHeap.release h a = .ok h' ∧ Good h' e objs :=
  Good.releases (as := [a]) g

/-- What is in memory has the contents it ought to have, so what is still in memory later has what
was written last. -/
theorem Good.has_eq {h : Heap} {e : List Nat} {objs : List Body} (g : Good h e objs) {a : Nat}
    {b b' : Body} (hh : Has h a b) (ho : PyHeap.look objs a = .ok b') : b = b' := by
  rw [g.look hh] at ho; exact Except.ok.inj ho

end Comps.PyHeap
