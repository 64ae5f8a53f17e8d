import Verif.Lemmas.PyHeapStep
import Verif.Lemmas.PyElemInit
import Verif.Lemmas.ValidateDoc
import Verif.Lemmas.Query

/-! # Types of objects in Python programs: which calls crash -/

namespace Comps.PyHeap
open Comps Comps.Obj
open Comps.Props (Texts)
open Comps.PyElem (Pkg EKind Attr PkgAttr GidAttr Arg)
open Comps.PyDict (cstr)

variable {lt : UInt8 → UInt8 → Bool} {utf8 : Bytes → Bool}

/-- What kind of object it is; `true` for Python objects. -/
def shape : Body → Bool × PType
  | .pkg _ => (false, .package)
  | .gid _ => (false, .groupId)
  | .dict _ => (false, .dict)
  | .list k _ => (false, .list k)
  | .entry k _ _ _ _ _ => (false, .entry k)
  | .wrap t _ _ _ => (true, t)
  | .doc _ _ => (false, .comps)

/-- The same, by address. -/
def shapeAt (objs : List Body) (a : Nat) : Option (Bool × PType) := objs[a]?.map shape

/-- The contents fit the kind. -/
def OkBody (lt : UInt8 → UInt8 → Bool) (sh : Nat → Option (Bool × PType)) (m : Nat) : Body → Prop
  | .pkg p => p.name.isSome = true
  | .gid _ => True
  | .dict t => LangInv lt t ∧ AllV (fun _ v => v ≠ .str ⟨none⟩) t
  | .list k items => items.length ≤ m ∧ ∀ a ∈ items, sh a = some (false, k.elem)
  | .entry k p n d l o =>
    (PropInv lt p ∧ Texts p) ∧ (∃ a, n = some a ∧ sh a = some (false, .dict)) ∧
    (∃ a, d = some a ∧ sh a = some (false, .dict)) ∧
    (∃ a, l = some a ∧ sh a = some (false, .list (listType k))) ∧
    (k = .environment → ∃ a, o = some a ∧ sh a = some (false, .list .ids)) ∧
    (k ≠ .environment → o = none)
  | .wrap t a n d =>
    sh a = some (false, t) ∧ (∀ x, n = some x → sh x = some (true, .dict) ∧ ∃ k, t = .entry k) ∧
    (∀ x, d = some x → sh x = some (true, .dict) ∧ ∃ k, t = .entry k)
  | .doc ls cs =>
    (∀ s a, ls.get s = some a → sh a = some (false, .list s.kind)) ∧
    (∀ s a, cs.get s = some a → sh a = some (true, .list s.kind))

/-- Every object fits its kind, and variables are bound to Python objects. -/
structure Typed (lt : UInt8 → UInt8 → Bool) (m : Nat) (r : R) : Prop where
  body : ∀ (a : Nat) (b : Body), r.objs[a]? = some b → OkBody lt (shapeAt r.objs) m b
  vars : ∀ w ∈ roots r.vars, ∃ t, shapeAt r.objs w = some (true, t)

theorem OkBody.mono {sh sh' : Nat → Option (Bool × PType)} {m m' : Nat} {b : Body}
    (h : OkBody lt sh m b) (hs : ∀ a s, sh a = some s → sh' a = some s) (hm : m ≤ m') :
    OkBody lt sh' m' b := by
  cases b with
  | pkg p => exact h
  | gid g => exact h
  | dict t => exact h
  | list k items => exact ⟨Nat.le_trans h.1 hm, fun a ha => hs _ _ (h.2 a ha)⟩
  | entry k p n d l o =>
    obtain ⟨h1, ⟨a2, e2, h2⟩, ⟨a3, e3, h3⟩, ⟨a4, e4, h4⟩, h5, h6⟩ := h
    refine ⟨h1, ⟨a2, e2, hs _ _ h2⟩, ⟨a3, e3, hs _ _ h3⟩, ⟨a4, e4, hs _ _ h4⟩, ?_, h6⟩
    intro e
    obtain ⟨a, e5, h5⟩ := h5 e
    exact ⟨a, e5, hs _ _ h5⟩
  | wrap t a n d =>
    obtain ⟨h1, h2, h3⟩ := h
    exact ⟨hs _ _ h1, fun x e => ⟨hs _ _ (h2 x e).1, (h2 x e).2⟩,
      fun x e => ⟨hs _ _ (h3 x e).1, (h3 x e).2⟩⟩
  | doc ls cs => exact ⟨fun s a e => hs _ _ (h.1 s a e), fun s a e => hs _ _ (h.2 s a e)⟩

theorem Typed.mono {m m' : Nat} {r : R} (h : Typed lt m r) (hm : m ≤ m') : Typed lt m' r :=
  ⟨fun a b hb => (h.body a b hb).mono (fun _ _ e => e) hm, h.vars⟩

theorem shapeAt_lt {objs : List Body} {a : Nat} {s : Bool × PType} (h : shapeAt objs a = some s) :
    a < objs.length := by
  unfold shapeAt at h
  cases e : objs[a]? with
  | none => rw [e] at h; simp at h
  | some b => exact (List.getElem?_eq_some_iff.1 e).1

theorem shapeAt_append {objs : List Body} {a : Nat} {s : Bool × PType} (h : shapeAt objs a = some s)
    (bs : List Body) : shapeAt (objs ++ bs) a = some s := by
  have := shapeAt_lt h
  unfold shapeAt at h ⊢
  rw [List.getElem?_append_left this]; exact h

theorem shapeAt_new (objs : List Body) (b : Body) : shapeAt (objs ++ [b]) objs.length = some (shape b) := by
  simp [shapeAt]

theorem shapeAt_set {objs : List Body} {a : Nat} {b : Body} (h : shapeAt objs a = some (shape b))
    (x : Nat) : shapeAt (objs.set a b) x = shapeAt objs x := by
  have hl := shapeAt_lt h
  unfold shapeAt at h ⊢
  rw [List.getElem?_set]
  by_cases e : a = x
  · subst e; simp [hl] at h ⊢; exact h.symm
  · simp [e]

theorem Typed.make {m : Nat} {r : R} (h : Typed lt m r) {b : Body} (hb : OkBody lt (shapeAt r.objs) m b) :
    Typed lt m (r.make b) := by
  refine ⟨?_, ?_⟩
  · intro a b' hb'
    have hm : ∀ x s, shapeAt r.objs x = some s → shapeAt (r.make b).objs x = some s :=
      fun x s e => shapeAt_append e _
    rcases Nat.lt_or_ge a r.objs.length with hl | hl
    · rw [R.make, List.getElem?_append_left hl] at hb'
      exact (h.body a b' hb').mono hm (Nat.le_refl _)
    · rw [R.make, List.getElem?_append_right hl] at hb'
      cases e : a - r.objs.length with
      | zero =>
        rw [e] at hb'
        simp at hb'
        subst hb'
        exact hb.mono hm (Nat.le_refl _)
      | succ n => rw [e] at hb'; simp at hb'
  · intro w hw
    obtain ⟨t, ht⟩ := h.vars w hw
    exact ⟨t, shapeAt_append ht _⟩

theorem Typed.put {m : Nat} {r : R} (h : Typed lt m r) {a : Nat} {b : Body}
    (hs : shapeAt r.objs a = some (shape b)) (hb : OkBody lt (shapeAt r.objs) m b) :
    Typed lt m (r.put a b) := by
  have he : ∀ x, shapeAt (r.put a b).objs x = shapeAt r.objs x := fun x => shapeAt_set hs x
  have hm : ∀ x s, shapeAt r.objs x = some s → shapeAt (r.put a b).objs x = some s :=
    fun x s e => by rw [he]; exact e
  refine ⟨?_, ?_⟩
  · intro a' b' hb'
    rw [R.put, List.getElem?_set] at hb'
    by_cases e : a = a'
    · subst e
      rw [if_pos rfl, if_pos (shapeAt_lt hs)] at hb'
      injection hb' with hb'
      subst hb'
      exact hb.mono hm (Nat.le_refl _)
    · rw [if_neg e] at hb'
      exact (h.body a' b' hb').mono hm (Nat.le_refl _)
  · intro w hw
    obtain ⟨t, ht⟩ := h.vars w hw
    exact ⟨t, hm _ _ ht⟩

theorem Typed.lose {m : Nat} {r : R} (h : Typed lt m r) (a : Nat) : Typed lt m (r.lose a) :=
  ⟨h.body, h.vars⟩

theorem Typed.push {m : Nat} {r : R} (h : Typed lt m r) {w : Nat} {t : PType}
    (hw : shapeAt r.objs w = some (true, t)) : Typed lt m (r.push w) := by
  refine ⟨h.body, ?_⟩
  intro x hx
  have hx : x ∈ roots (r.vars ++ [some w]) := hx
  rw [roots_push, List.mem_append] at hx
  rcases hx with hx | hx
  · exact h.vars x hx
  · simp at hx; subst hx; exact ⟨t, hw⟩

theorem Typed.wrapUp {m : Nat} {r : R} (h : Typed lt m r) {t : PType} {a : Nat}
    (ha : shapeAt r.objs a = some (false, t)) : Typed lt m (r.wrapUp t a) := by
  refine (h.make (b := .wrap t a none none) ⟨ha, by simp, by simp⟩).push (t := t) ?_
  exact shapeAt_new _ _

theorem Typed.plain {m : Nat} {r : R} (h : Typed lt m r) {t : PType} {b : Body}
    (hs : shape b = (false, t)) (hb : OkBody lt (shapeAt r.objs) m b) : Typed lt m (r.plain t b) := by
  refine (h.make hb).wrapUp ?_
  rw [← hs]; exact shapeAt_new _ _

theorem emptyDict_ok : LangInv lt RTree.create ∧ AllV (fun _ (v : PVal) => v ≠ .str ⟨none⟩) RTree.create :=
  ⟨.create, .create⟩

theorem dict_texts {t : RTree PVal} (h : LangInv lt t ∧ AllV (fun _ v => v ≠ .str ⟨none⟩) t) : Texts t :=
  fun _ e => h.2.get h.1.wf e rfl

theorem Typed.entry {m : Nat} {r : R} (h : Typed lt m r) (k : EKind) {p : RTree PVal}
    (hp : PropInv lt p ∧ Texts p) : Typed lt m (r.entry k p) := by
  have h1 := h.make (b := .dict RTree.create) emptyDict_ok
  have h2 := h1.make (b := .dict RTree.create) emptyDict_ok
  have h3 := h2.make (b := .list (listType k) []) ⟨Nat.zero_le _, by simp⟩
  have e1 : shapeAt (((r.make (.dict RTree.create)).make (.dict RTree.create)).make
      (.list (listType k) [])).objs r.objs.length = some (false, .dict) := by
    simp [shapeAt, R.make, shape]
  have e2 : shapeAt (((r.make (.dict RTree.create)).make (.dict RTree.create)).make
      (.list (listType k) [])).objs (r.objs.length + 1) = some (false, .dict) := by
    have := shapeAt_append (shapeAt_new (r.objs ++ [.dict RTree.create]) (.dict RTree.create))
      [.list (listType k) []]
    simpa [R.make, shape] using this
  have e3 : shapeAt (((r.make (.dict RTree.create)).make (.dict RTree.create)).make
      (.list (listType k) [])).objs (r.objs.length + 2) = some (false, .list (listType k)) := by
    have := shapeAt_new ((r.objs ++ [.dict RTree.create]) ++ [.dict RTree.create])
      (.list (listType k) [])
    simpa [R.make, shape] using this
  cases k with
  | group =>
    exact h3.plain rfl ⟨hp, ⟨_, rfl, e1⟩, ⟨_, rfl, e2⟩, ⟨_, rfl, e3⟩, by simp, by simp⟩
  | category =>
    exact h3.plain rfl ⟨hp, ⟨_, rfl, e1⟩, ⟨_, rfl, e2⟩, ⟨_, rfl, e3⟩, by simp, by simp⟩
  | environment =>
    have h4 := h3.make (b := .list .ids []) ⟨Nat.zero_le _, by simp⟩
    refine h4.plain rfl ⟨hp, ⟨_, rfl, shapeAt_append e1 _⟩, ⟨_, rfl, shapeAt_append e2 _⟩,
      ⟨_, rfl, shapeAt_append e3 _⟩, ?_, by simp⟩
    intro _
    refine ⟨_, rfl, ?_⟩
    have := shapeAt_new (((r.objs ++ [.dict RTree.create]) ++ [.dict RTree.create]) ++
      [.list (listType .environment) []]) (.list .ids [])
    simpa [R.make, shape] using this

/-! ## Reading -/

theorem look_shape {objs : List Body} {a : Nat} {s : Bool × PType} (h : shapeAt objs a = some s) :
    ∃ b, look objs a = .ok b ∧ objs[a]? = some b ∧ shape b = s := by
  unfold shapeAt at h
  cases e : objs[a]? with
  | none => rw [e] at h; simp at h
  | some b => rw [e] at h; simp at h; exact ⟨b, by simp [look, e], rfl, h⟩

theorem get_wrap {objs : List Body} {w : Nat} {t : PType} (h : shapeAt objs w = some (true, t)) :
    ∃ a n d, objs[w]? = some (.wrap t a n d) ∧ look objs w = .ok (.wrap t a n d) := by
  obtain ⟨b, h1, h2, h3⟩ := look_shape h
  cases b <;> simp [shape] at h3
  subst h3
  exact ⟨_, _, _, h2, h1⟩

theorem get_list {objs : List Body} {a : Nat} {k : LKind} (h : shapeAt objs a = some (false, .list k)) :
    ∃ items, objs[a]? = some (.list k items) ∧ look objs a = .ok (.list k items) ∧
      asList (look objs) a = .ok (k, items) := by
  obtain ⟨b, h1, h2, h3⟩ := look_shape h
  cases b <;> simp [shape] at h3
  subst h3
  exact ⟨_, h2, h1, by simp [asList, h1, bind, Except.bind]⟩

theorem get_dict {objs : List Body} {a : Nat} (h : shapeAt objs a = some (false, .dict)) :
    ∃ t, objs[a]? = some (.dict t) ∧ asDict (look objs) a = .ok t := by
  obtain ⟨b, h1, h2, h3⟩ := look_shape h
  cases b <;> simp [shape] at h3
  exact ⟨_, h2, by simp [asDict, h1, bind, Except.bind]⟩

theorem get_entry {objs : List Body} {a : Nat} {k : EKind} (h : shapeAt objs a = some (false, .entry k)) :
    ∃ p n d l o, objs[a]? = some (.entry k p n d l o) ∧ look objs a = .ok (.entry k p n d l o) ∧
      asEnt (look objs) a = .ok ⟨k, p, n, d, l, o⟩ := by
  obtain ⟨b, h1, h2, h3⟩ := look_shape h
  cases b <;> simp [shape] at h3
  subst h3
  exact ⟨_, _, _, _, _, h2, h1, by simp [asEnt, h1, bind, Except.bind]⟩

theorem get_pkg {objs : List Body} {a : Nat} (h : shapeAt objs a = some (false, .package)) :
    ∃ p, objs[a]? = some (.pkg p) ∧ look objs a = .ok (.pkg p) := by
  obtain ⟨b, h1, h2, h3⟩ := look_shape h
  cases b <;> simp [shape] at h3
  exact ⟨_, h2, h1⟩

theorem get_gid {objs : List Body} {a : Nat} (h : shapeAt objs a = some (false, .groupId)) :
    ∃ g, objs[a]? = some (.gid g) ∧ look objs a = .ok (.gid g) := by
  obtain ⟨b, h1, h2, h3⟩ := look_shape h
  cases b <;> simp [shape] at h3
  exact ⟨_, h2, h1⟩

theorem get_doc {objs : List Body} {a : Nat} (h : shapeAt objs a = some (false, .comps)) :
    ∃ ls cs, objs[a]? = some (.doc ls cs) ∧ asDoc (look objs) a = .ok (ls, cs) := by
  obtain ⟨b, h1, h2, h3⟩ := look_shape h
  cases b <;> simp [shape] at h3
  exact ⟨_, _, h2, by simp [asDoc, h1, bind, Except.bind]⟩

theorem idOf_entry {m : Nat} {r : R} (h : Typed lt m r) {a : Nat} {k : EKind}
    (ha : shapeAt r.objs a = some (false, .entry k)) : ∃ s, idOf (look r.objs) a = .ok s := by
  obtain ⟨p, n, d, l, o, h1, h2, -⟩ := get_entry ha
  obtain ⟨s, hs, -⟩ := Val.id_str (h.body _ _ h1).1.1
  exact ⟨s, by simp only [idOf, h2, bind, Except.bind]; exact hs⟩

theorem idOf_pkg {m : Nat} {r : R} (h : Typed lt m r) {a : Nat}
    (ha : shapeAt r.objs a = some (false, .package)) : idOf (look r.objs) a = .error .typeConfusion := by
  obtain ⟨p, h1, h2⟩ := get_pkg ha
  have : p.name.isSome = true := h.body _ _ h1
  simp only [idOf, h2, bind, Except.bind]
  cases e : p.name with
  | none => rw [e] at this; simp at this
  | some s => rfl

theorem uniqueLoop_entries {m : Nat} {r : R} (h : Typed lt m r) {k : EKind} (id : Option CStr) :
    ∀ {items : List Nat}, (∀ a ∈ items, shapeAt r.objs a = some (false, .entry k)) →
      ∃ x, uniqueLoop (look r.objs) id items = .ok x := by
  intro items
  induction items with
  | nil => intro _; exact ⟨true, rfl⟩
  | cons a as ih =>
    intro hi
    obtain ⟨s, hs⟩ := idOf_entry h (hi a (by simp))
    obtain ⟨x, hx⟩ := ih fun b hb => hi b (by simp [hb])
    simp only [uniqueLoop, hs, bind, Except.bind]
    split
    · exact ⟨_, rfl⟩
    · exact ⟨x, hx⟩

theorem unique_entries {m : Nat} {r : R} (h : Typed lt m r) {k : EKind} {items : List Nat} {a : Nat}
    (hi : ∀ a ∈ items, shapeAt r.objs a = some (false, .entry k))
    (ha : shapeAt r.objs a = some (false, .entry k)) :
    ∃ x, unique (look r.objs) items a = .ok x := by
  obtain ⟨s, hs⟩ := idOf_entry h ha
  obtain ⟨x, hx⟩ := uniqueLoop_entries h s hi
  exact ⟨x, by simp only [unique, hs, bind, Except.bind]; exact hx⟩

theorem keyOf_ok {m : Nat} {r : R} (h : Typed lt m r) {a : Nat} {k : LKind} (hk : k.extra = true)
    (ha : shapeAt r.objs a = some (false, k.elem)) : ∃ s, keyOf (look r.objs) a = .ok s := by
  have entry : ∀ k, shapeAt r.objs a = some (false, .entry k) → ∃ s, keyOf (look r.objs) a = .ok s := by
    intro k ha
    obtain ⟨p, n, d, l, o, h1, h2, -⟩ := get_entry ha
    obtain ⟨s, hs, -⟩ := Val.id_str (h.body _ _ h1).1.1
    exact ⟨s, by simp only [keyOf, h2, bind, Except.bind]; exact hs⟩
  cases k with
  | packages =>
    obtain ⟨p, h1, h2⟩ := get_pkg ha
    have : p.name.isSome = true := h.body _ _ h1
    simp only [keyOf, h2, bind, Except.bind]
    cases e : p.name with
    | none => rw [e] at this; simp at this
    | some s => exact ⟨_, rfl⟩
  | ids => simp [LKind.extra] at hk
  | groups => exact entry _ ha
  | categories => exact entry _ ha
  | environments => exact entry _ ha

theorem findId_ok {m : Nat} {r : R} (h : Typed lt m r) {k : LKind} (hk : k.extra = true) (id : Bytes) :
    ∀ {items : List Nat}, (∀ a ∈ items, shapeAt r.objs a = some (false, k.elem)) →
      ∃ x, findId (look r.objs) id items = .ok x := by
  intro items
  induction items with
  | nil => intro _; exact ⟨none, rfl⟩
  | cons a as ih =>
    intro hi
    obtain ⟨s, hs⟩ := keyOf_ok h hk (hi a (by simp))
    obtain ⟨x, hx⟩ := ih fun b hb => hi b (by simp [hb])
    simp only [findId, hs, bind, Except.bind]
    split
    · exact ⟨_, rfl⟩
    · exact ⟨x, hx⟩

theorem leaves_ok {r : R} {k : LKind} (hk : k = .packages ∨ k = .ids) :
    ∀ {items : List Nat}, (∀ a ∈ items, shapeAt r.objs a = some (false, k.elem)) →
      ∃ xs, leaves (look r.objs) items = .ok xs ∧ xs.length = items.length := by
  intro items
  induction items with
  | nil => intro _; exact ⟨[], rfl, rfl⟩
  | cons a as ih =>
    intro hi
    obtain ⟨xs, hx, hl⟩ := ih fun b hb => hi b (by simp [hb])
    have ha := hi a (by simp)
    have : ∃ x, asLeaf (look r.objs) a = .ok x := by
      rcases hk with rfl | rfl
      · obtain ⟨p, -, h2⟩ := get_pkg ha
        exact ⟨.pkg p, by simp [asLeaf, h2, bind, Except.bind]⟩
      · obtain ⟨g, -, h2⟩ := get_gid ha
        exact ⟨.gid g, by simp [asLeaf, h2, bind, Except.bind]⟩
    obtain ⟨x, ex⟩ := this
    exact ⟨x :: xs, by simp [leaves, ex, hx, bind, Except.bind, pure, Except.pure], by simp [hl]⟩

theorem matching_ok {r : R} (name : Option Bytes) (type : Int) :
    ∀ {items : List Nat}, (∀ a ∈ items, shapeAt r.objs a = some (false, .package)) →
      ∃ xs, matching (look r.objs) name type items = .ok xs ∧ xs.length ≤ items.length := by
  intro items
  induction items with
  | nil => intro _; exact ⟨[], rfl, Nat.le_refl _⟩
  | cons a as ih =>
    intro hi
    obtain ⟨xs, hx, hl⟩ := ih fun b hb => hi b (by simp [hb])
    obtain ⟨p, -, h2⟩ := get_pkg (hi a (by simp))
    refine ⟨if PyElem.pkgMatches name type p then a :: xs else xs, ?_, ?_⟩
    · simp [matching, asLeaf, h2, hx, bind, Except.bind, pure, Except.pure]
    · split <;> simp <;> omega

/-- The type of the members of a list of a document. -/
def DSec.ent : DSec → EKind
  | .groups => .group
  | .categories => .category
  | .environments => .environment

theorem DSec.elem (s : DSec) : s.kind.elem = .entry s.ent := by cases s <;> rfl

theorem entMatches_ok {m : Nat} {r : R} (h : Typed lt m r) (fn : Bytes → Bytes → Bool) (s : DSec)
    (q : Query) {a : Nat} {k : EKind} (ha : shapeAt r.objs a = some (false, .entry k)) :
    ∃ x, entMatches (look r.objs) fn s q a = .ok x := by
  obtain ⟨p, n, d, l, o, h1, -, h3⟩ := get_entry ha
  obtain ⟨⟨hp, tp⟩, ⟨n', rfl, hn⟩, ⟨d', rfl, hd⟩, -⟩ := h.body _ _ h1
  obtain ⟨tn, n1, n2⟩ := get_dict hn
  obtain ⟨td, d1, d2⟩ := get_dict hd
  have ln := (h.body _ _ n1).1
  have ld := (h.body _ _ d1).1
  have xn := dict_texts (h.body _ _ n1)
  have xd := dict_texts (h.body _ _ d1)
  unfold entMatches
  simp only [h3, nonNull, n2, d2, Props.matchId_ok fn hp tp,
    Props.matchLang_ok fn hp ln tp xn (k := b!"name") (by simp), bind, Except.bind, pure, Except.pure]
  cases s with
  | groups => simp only [Props.matchDescGroup_ok fn hp ld tp xd]; exact ⟨_, rfl⟩
  | categories =>
    simp only [Props.matchLang_ok fn hp ld tp xd (k := b!"desc") (by simp)]; exact ⟨_, rfl⟩
  | environments =>
    simp only [Props.matchLang_ok fn hp ld tp xd (k := b!"desc") (by simp)]; exact ⟨_, rfl⟩

theorem matchingEnts_ok {m : Nat} {r : R} (h : Typed lt m r) (fn : Bytes → Bytes → Bool) (s : DSec)
    (q : Query) {k : EKind} :
    ∀ {items : List Nat}, (∀ a ∈ items, shapeAt r.objs a = some (false, .entry k)) →
      ∃ xs, matchingEnts (look r.objs) fn s q items = .ok xs ∧ xs.length ≤ items.length := by
  intro items
  induction items with
  | nil => intro _; exact ⟨[], rfl, Nat.le_refl _⟩
  | cons a as ih =>
    intro hi
    obtain ⟨xs, hx, hl⟩ := ih fun b hb => hi b (by simp [hb])
    obtain ⟨x, hx'⟩ := entMatches_ok h fn s q (hi a (by simp))
    refine ⟨if x then a :: xs else xs, ?_, ?_⟩
    · simp [matchingEnts, hx', hx, bind, Except.bind, pure, Except.pure]
    · split <;> simp <;> omega

theorem Three.get_none (s : DSec) : Three.none.get s = Option.none := by cases s <;> rfl

theorem Three.get_set_of {t : Three} {s s' : DSec} {x : Option Nat} {a : Nat}
    (h : (t.set s x).get s' = some a) : s = s' ∧ x = some a ∨ t.get s' = some a := by
  by_cases e : s = s'
  · subst e; rw [Three.get_set] at h; exact .inl ⟨rfl, h⟩
  · rw [Three.get_set_ne _ e] at h; exact .inr h

/-- The list of a document. -/
theorem secList_ok {m : Nat} {r : R} (h : Typed lt m r) {a : Nat} (s : DSec)
    (ha : shapeAt r.objs a = some (false, .comps)) :
    ∃ r' l, r.secList a s = .ok (r', l) ∧ Typed lt m r' ∧
      shapeAt r'.objs l = some (false, .list s.kind) ∧ (∀ x t, shapeAt r.objs x = some t → shapeAt r'.objs x = some t) := by
  obtain ⟨ls, cs, h1, h2⟩ := get_doc ha
  obtain ⟨hl, hc⟩ := h.body _ _ h1
  unfold R.secList
  simp only [h2, bind, Except.bind]
  cases e : ls.get s with
  | some l => exact ⟨r, l, rfl, h, hl s l e, fun _ _ e => e⟩
  | none =>
    have t1 := h.make (b := .list s.kind []) ⟨Nat.zero_le _, by simp⟩
    have hm : ∀ x t, shapeAt r.objs x = some t → shapeAt (r.make (.list s.kind [])).objs x = some t :=
      fun x t e => shapeAt_append e _
    have hn : shapeAt (r.make (.list s.kind [])).objs r.objs.length = some (false, .list s.kind) :=
      shapeAt_new _ _
    have hp : ∀ x, shapeAt ((r.make (.list s.kind [])).put a
        (.doc (ls.set s (some r.objs.length)) cs)).objs x = shapeAt (r.make (.list s.kind [])).objs x :=
      fun x => shapeAt_set (hm _ _ ha) x
    refine ⟨_, _, rfl, t1.put (hm _ _ ha) ⟨?_, fun s' x e' => hm _ _ (hc s' x e')⟩, ?_, ?_⟩
    · intro s' x e'
      rcases Three.get_set_of e' with ⟨rfl, e''⟩ | e''
      · cases e''; exact hn
      · exact hm _ _ (hl s' x e'')
    · rw [hp]; exact hn
    · intro x t e'; rw [hp]; exact hm _ _ e'

theorem uniqueList_ok {α : Type} (cmp : α → α → Bool) {xs : List α} (hl : xs.length ≤ 1000000000) :
    ∃ v, Val.uniqueList cmp () (some xs) = .ok v := by
  have hlen : (Val.placed xs).length = xs.length := by simp [Val.placed]
  obtain ⟨ms, hms⟩ := Val.uniqueLoop_ok cmp (Val.placed xs) (by omega) (Val.placed xs) [] 0
    (by omega) (by simp) (fun _ h => h)
  simp only [Val.uniqueList, Option.map, Val.uniqueCheck, hms, bind, Except.bind]
  cases ms with
  | nil => exact ⟨_, rfl⟩
  | cons m ms => exact ⟨_, rfl⟩

theorem listFine_ok {m : Nat} {r : R} (h : Typed lt m r) (hm : m ≤ 1000000000) {a : Nat} {k : LKind}
    (hk : k = .packages ∨ k = .ids) (ha : shapeAt r.objs a = some (false, .list k)) :
    ∃ x, listFine (look r.objs) a = .ok x := by
  obtain ⟨items, h1, -, h3⟩ := get_list ha
  obtain ⟨hl, hi⟩ := h.body _ _ h1
  obtain ⟨xs, hx, hlx⟩ := leaves_ok hk hi
  obtain ⟨v, hv⟩ := uniqueList_ok Leaf.cmp (xs := xs) (by omega)
  exact ⟨fine v, by simp only [listFine, h3, hx, hv, bind, Except.bind, pure, Except.pure]⟩

theorem nameFine_ok (s : Option CStr) : ∃ x, nameFine s = .ok x := by
  unfold nameFine Val.emptyCheck
  split
  · exact ⟨_, rfl⟩
  · split <;> exact ⟨_, rfl⟩

theorem passes_ok {m : Nat} {r : R} (h : Typed lt m r) (hm : m ≤ 1000000000) {a : Nat} {k : LKind}
    (ha : shapeAt r.objs a = some (false, k.elem)) : ∃ x, passes (look r.objs) a = .ok x := by
  have entry : ∀ k, shapeAt r.objs a = some (false, .entry k) →
      ∃ x, passes (look r.objs) a = .ok x := by
    intro k ha
    obtain ⟨p, n, d, l, o, h1, h2, -⟩ := get_entry ha
    obtain ⟨⟨hp, -⟩, -, -, ⟨l', rfl, hl⟩, ho, ho'⟩ := h.body _ _ h1
    obtain ⟨s, hs, -⟩ := Val.id_str hp
    obtain ⟨x, hx⟩ := nameFine_ok s
    obtain ⟨y, hy⟩ := listFine_ok h hm (k := listType k) (by cases k <;> simp [listType]) hl
    have : ∃ z, optFine (look r.objs) o = .ok z := by
      by_cases e : k = .environment
      · obtain ⟨o', eo, h5⟩ := ho e
        rw [eo]
        exact listFine_ok h hm (.inr rfl) h5
      · rw [ho' e]; exact ⟨true, rfl⟩
    obtain ⟨z, hz⟩ := this
    exact ⟨x && y && z, by
      simp only [passes, h2, hs, hx, hy, hz, nonNull, bind, Except.bind, pure, Except.pure]⟩
  cases k with
  | packages =>
    obtain ⟨p, h1, h2⟩ := get_pkg ha
    simp only [passes, h2, bind, Except.bind]; exact nameFine_ok _
  | ids =>
    obtain ⟨p, h1, h2⟩ := get_gid ha
    simp only [passes, h2, bind, Except.bind]; exact nameFine_ok _
  | groups => exact entry _ ha
  | categories => exact entry _ ha
  | environments => exact entry _ ha

end Comps.PyHeap
