import Verif.Model.PySeqCmp
import Verif.Props.PyElem

/-!
# Comparison of Python lists (C160)
-/

namespace Comps.Props
open Comps Comps.Obj Comps.PyElem Comps.PySeqCmp Comps.Spec

/-- The members are of one class: `f` makes them from the values of this class, which `cmp` compares. -/
structure OfClass {α : Type} (f : α → Member) (cmp : α → α → Bool) : Prop where
  same : ∀ a b, (f a).cmp (f b) = .ok (cmp a b)

theorem class_group : OfClass Member.group Group.cmp := ⟨fun _ _ => rfl⟩
theorem class_category : OfClass Member.category Category.cmp := ⟨fun _ _ => rfl⟩
theorem class_env : OfClass Member.env Env.cmp := ⟨fun _ _ => rfl⟩
theorem class_package : OfClass Member.package Pkg.cmp := ⟨fun _ _ => rfl⟩
theorem class_gid : OfClass Member.gid GroupId.cmp := ⟨fun _ _ => rfl⟩
theorem class_str : OfClass Member.str CStr.cmp := ⟨fun _ _ => rfl⟩

theorem listCmp_class {α : Type} {f : α → Member} {cmp : α → α → Bool} (hf : OfClass f cmp) (a b : List α) :
    ∃ r, PySeqCmp.listCmp (a.map f) (b.map f) = .ok r ∧ (r = true ↔ SameList cmp (some a) (some b)) := by
  induction a generalizing b with
  | nil =>
    cases b with
    | nil => exact ⟨true, rfl, by simp [SameList]⟩
    | cons y ys => exact ⟨false, rfl, by simp [SameList]⟩
  | cons x xs ih =>
    cases b with
    | nil => exact ⟨false, rfl, by simp [SameList]⟩
    | cons y ys =>
      obtain ⟨r, h1, h2⟩ := ih ys
      simp only [List.map_cons, PySeqCmp.listCmp, hf.same, bind, Except.bind]
      cases hc : cmp x y with
      | false =>
        refine ⟨false, by simp, ?_⟩
        simp only [Bool.false_eq_true, false_iff]
        intro hs
        have := hs.2 0 x y rfl rfl
        rw [hc] at this
        cases this
      | true =>
        refine ⟨r, by simp [h1], h2.trans ?_⟩
        constructor
        · rintro ⟨e, h⟩
          refine ⟨by simp [e], fun i u v hu hv => ?_⟩
          cases i with
          | zero => cases hu; cases hv; exact hc
          | succ i => exact h i u v (by simpa using hu) (by simpa using hv)
        · rintro ⟨e, h⟩
          exact ⟨by simpa using e, fun i u v hu hv => h (i + 1) u v (by simpa using hu) (by simpa using hv)⟩

/-- `cmp` is an equivalence among the values with `P`. -/
structure EquivOn {α : Type} (P : α → Prop) (cmp : α → α → Bool) : Prop where
  refl : ∀ x, P x → cmp x x = true
  symm : ∀ x y, P x → P y → cmp x y = true → cmp y x = true
  trans : ∀ x y z, P x → P y → P z → cmp x y = true → cmp y z = true → cmp x z = true

theorem onAll {α : Type} {cmp : α → α → Bool} (h : IsEquiv cmp) : EquivOn (fun _ => True) cmp :=
  ⟨fun x _ => h.refl x, fun x y _ _ => h.symm x y, fun x y z _ _ _ => h.trans x y z⟩

theorem on_group (lt : UInt8 → UInt8 → Bool) : EquivOn (GroupBuilt lt) Group.cmp :=
  ⟨fun _ h => (C41_group h h h).1, fun _ _ h k => (C41_group h k k).2.1,
    fun _ _ _ h k l => (C41_group h k l).2.2.1⟩

theorem on_category (lt : UInt8 → UInt8 → Bool) : EquivOn (CategoryBuilt lt) Category.cmp :=
  ⟨fun _ h => (C41_category h h h).1, fun _ _ h k => (C41_category h k k).2.1,
    fun _ _ _ h k l => (C41_category h k l).2.2.1⟩

theorem on_env (lt : UInt8 → UInt8 → Bool) : EquivOn (EnvBuilt lt) Env.cmp :=
  ⟨fun _ h => (C41_env h h h).1, fun _ _ h k => (C41_env h k k).2.1,
    fun _ _ _ h k l => (C41_env h k l).2.2.1⟩

theorem str_equiv : IsEquiv CStr.cmp := by
  have h : ∀ a b : CStr, CStr.cmp a b = true ↔ a = b := fun a b => by
    simpa using CStr.cmp_iff a b
  exact ⟨fun x => (h x x).2 rfl, fun x y e => (h _ _).2 ((h _ _).1 e).symm,
    fun x y z e f => (h _ _).2 (((h _ _).1 e).trans ((h _ _).1 f))⟩

theorem pkg_equiv : IsEquiv Pkg.cmp := by
  have h : ∀ a b : Pkg, Pkg.cmp a b = true ↔ a.name = b.name ∧ a.requires = b.requires ∧ a.type = b.type := by
    intro a b
    simp only [Pkg.cmp]
    have o : ∀ x y : Option CStr, objCmp CStr.cmp x y = true ↔ x = y := by
      intro x y
      cases x <;> cases y <;> simp [objCmp, CStr.cmp_iff]
    rw [← o, ← o]
    cases objCmp CStr.cmp a.name b.name <;> cases objCmp CStr.cmp a.requires b.requires <;> simp
  exact ⟨fun x => (h x x).2 ⟨rfl, rfl, rfl⟩,
    fun x y e => (h _ _).2 ⟨((h _ _).1 e).1.symm, ((h _ _).1 e).2.1.symm, ((h _ _).1 e).2.2.symm⟩,
    fun x y z e f => (h _ _).2 ⟨((h _ _).1 e).1.trans ((h _ _).1 f).1,
      ((h _ _).1 e).2.1.trans ((h _ _).1 f).2.1, ((h _ _).1 e).2.2.trans ((h _ _).1 f).2.2⟩⟩

theorem listCmp_equiv {α : Type} {f : α → Member} {cmp : α → α → Bool} (hf : OfClass f cmp)
    {P : α → Prop} (he : EquivOn P cmp) (a b c : List α) (hP : ∀ x ∈ a ++ b ++ c, P x) :
    (∃ r, seqCmp .eq (a.map f) (.list (b.map f)) = .ok r ∧ (r = true ↔ SameList cmp (some a) (some b)) ∧
      seqCmp .ne (a.map f) (.list (b.map f)) = .ok (!r)) ∧
    seqCmp .eq (a.map f) (.list (a.map f)) = .ok true ∧
    seqCmp .eq (b.map f) (.list (a.map f)) = seqCmp .eq (a.map f) (.list (b.map f)) ∧
    (seqCmp .eq (a.map f) (.list (b.map f)) = .ok true → seqCmp .eq (b.map f) (.list (c.map f)) = .ok true →
      seqCmp .eq (a.map f) (.list (c.map f)) = .ok true) := by
  have key : ∀ a b : List α, ∃ r, seqCmp .eq (a.map f) (.list (b.map f)) = .ok r ∧
      (r = true ↔ SameList cmp (some a) (some b)) ∧ seqCmp .ne (a.map f) (.list (b.map f)) = .ok (!r) := by
    intro a b
    obtain ⟨r, h1, h2⟩ := listCmp_class hf a b
    exact ⟨r, by simp [seqCmp, h1, bind, Except.bind], h2, by simp [seqCmp, h1, bind, Except.bind]⟩
  have keyT : ∀ a b : List α, seqCmp .eq (a.map f) (.list (b.map f)) = .ok true ↔
      SameList cmp (some a) (some b) := by
    intro a b
    obtain ⟨r, h1, h2, -⟩ := key a b
    rw [h1, ← h2]
    exact ⟨fun h => by injection h, fun h => by rw [h]⟩
  have hat : ∀ {a b : List α}, a.length = b.length → ∀ {i : Nat} {x : α}, a[i]? = some x → ∃ y, b[i]? = some y := by
    intro a b e i x hx
    obtain ⟨hi, -⟩ := List.getElem?_eq_some_iff.1 hx
    exact ⟨b[i]'(e ▸ hi), List.getElem?_eq_getElem _⟩
  have pa : ∀ {i : Nat} {x : α}, a[i]? = some x → P x := fun h =>
    hP _ (by simp [List.mem_of_getElem? h])
  have pb : ∀ {i : Nat} {x : α}, b[i]? = some x → P x := fun h =>
    hP _ (by simp [List.mem_of_getElem? h])
  have pc : ∀ {i : Nat} {x : α}, c[i]? = some x → P x := fun h =>
    hP _ (by simp [List.mem_of_getElem? h])
  refine ⟨key a b, (keyT a a).2 ⟨rfl, fun i x y hx hy => ?_⟩, ?_, fun h1 h2 => ?_⟩
  · rw [hx] at hy; cases hy; exact he.refl x (pa hx)
  · have hs : SameList cmp (some a) (some b) ↔ SameList cmp (some b) (some a) :=
      ⟨fun ⟨e, h⟩ => ⟨e.symm, fun i x y hx hy => he.symm _ _ (pa hy) (pb hx) (h i y x hy hx)⟩,
        fun ⟨e, h⟩ => ⟨e.symm, fun i x y hx hy => he.symm _ _ (pb hy) (pa hx) (h i y x hy hx)⟩⟩
    obtain ⟨r, h1, h2, -⟩ := key a b
    obtain ⟨r', h1', h2', -⟩ := key b a
    rw [h1, h1']
    have : r = true ↔ r' = true := by rw [h2, h2', hs]
    cases r <;> cases r' <;> simp_all
  · obtain ⟨e1, m1⟩ := (keyT a b).1 h1
    obtain ⟨e2, m2⟩ := (keyT b c).1 h2
    refine (keyT a c).2 ⟨e1.trans e2, fun i x z hx hz => ?_⟩
    obtain ⟨y, hy⟩ := hat e1 hx
    exact he.trans _ _ _ (pa hx) (pb hy) (pc hz) (m1 i x y hx hy) (m2 i y z hy hz)

/-- The classes of members of Python lists. -/
inductive Cls where
  | group | category | env | package | gid | str
  deriving DecidableEq

/-- The values of a class. -/
@[reducible] def Cls.Val : Cls → Type
  | .group => Group
  | .category => Category
  | .env => Env
  | .package => Pkg
  | .gid => GroupId
  | .str => CStr

/-- The member of a list with this value. -/
def Cls.wrap : (c : Cls) → c.Val → Member
  | .group => .group
  | .category => .category
  | .env => .env
  | .package => .package
  | .gid => .gid
  | .str => .str

/-- The comparison of two objects of a class (C41 says what it means). -/
def Cls.cmp : (c : Cls) → c.Val → c.Val → Bool
  | .group => Group.cmp
  | .category => Category.cmp
  | .env => Env.cmp
  | .package => Pkg.cmp
  | .gid => GroupId.cmp
  | .str => CStr.cmp

/-- Made by calls of the library. -/
def Cls.Made (lt : UInt8 → UInt8 → Bool) : (c : Cls) → c.Val → Prop
  | .group => GroupBuilt lt
  | .category => CategoryBuilt lt
  | .env => EnvBuilt lt
  | .package => fun _ => True
  | .gid => fun _ => True
  | .str => fun _ => True

theorem cls_of (c : Cls) : OfClass c.wrap c.cmp := by
  cases c
  · exact class_group
  · exact class_category
  · exact class_env
  · exact class_package
  · exact class_gid
  · exact class_str

theorem cls_equiv (lt : UInt8 → UInt8 → Bool) (c : Cls) : EquivOn (c.Made lt) c.cmp := by
  cases c
  · exact on_group lt
  · exact on_category lt
  · exact on_env lt
  · exact onAll pkg_equiv
  · exact onAll C41_packages.2.2.1
  · exact onAll str_equiv

/-- **C160, partial.**  For two lists of one class `k`, `==` answers whether they have the same length and equal
members at every position, `!=` is its negation, and `==` is an equivalence; `hP` says
that the members were made by calls of the library.
Missing: other things on the right side (`C160_false`), lists of another class (`C160_false_class`), and an
exception for `<` (`C160_false_order`). -/
theorem C160_partial (lt : UInt8 → UInt8 → Bool) (k : Cls) (a b c : List k.Val)
    (hP : ∀ x ∈ a ++ b ++ c, k.Made lt x) :
    (∃ r, seqCmp .eq (a.map k.wrap) (.list (b.map k.wrap)) = .ok r ∧
      (r = true ↔ SameList k.cmp (some a) (some b)) ∧
      seqCmp .ne (a.map k.wrap) (.list (b.map k.wrap)) = .ok (!r)) ∧
    seqCmp .eq (a.map k.wrap) (.list (a.map k.wrap)) = .ok true ∧
    seqCmp .eq (b.map k.wrap) (.list (a.map k.wrap)) = seqCmp .eq (a.map k.wrap) (.list (b.map k.wrap)) ∧
    (seqCmp .eq (a.map k.wrap) (.list (b.map k.wrap)) = .ok true →
      seqCmp .eq (b.map k.wrap) (.list (c.map k.wrap)) = .ok true →
      seqCmp .eq (a.map k.wrap) (.list (c.map k.wrap)) = .ok true) :=
  listCmp_equiv (cls_of k) (cls_equiv lt k) a b c hP

example := C160_partial (· < ·) .group [propGrp (· < ·) [.str .id b!"g"]]
  [propGrp (· < ·) [.str .id b!"h", .str .id b!"g"]] [] (by
    intro x hx
    simp only [List.append_nil, List.cons_append, List.nil_append, List.mem_cons, List.not_mem_nil, or_false] at hx
    rcases hx with rfl | rfl <;> exact propGrp_built _)

example := C160_partial (· < ·) .category [Category.create] [] [] (by
  simpa [Cls.Made] using CategoryBuilt.create)
example := C160_partial (· < ·) .env [Env.create] [] [] (by simpa [Cls.Made] using EnvBuilt.create)
example := C160_partial (· < ·) .package [Pkg.create] [Pkg.create] [] (fun _ _ => trivial)
example := C160_partial (· < ·) .gid [GroupId.create] [] [] (fun _ _ => trivial)
example := C160_partial (· < ·) .str [⟨some b!"a"⟩] [⟨some b!"a"⟩] [⟨none⟩] (fun _ _ => trivial)

example : seqCmp .eq [.str ⟨some b!"a"⟩, .str ⟨some b!"b"⟩] (.list [.str ⟨some b!"a"⟩, .str ⟨some b!"b"⟩]) = .ok true ∧
    seqCmp .ne [.str ⟨some b!"a"⟩] (.list [.str ⟨some b!"a"⟩, .str ⟨some b!"b"⟩]) = .ok true ∧
    seqCmp .eq [.gid GroupId.create, .gid { GroupId.create with dflt := true }]
      (.list [.gid GroupId.create, .gid GroupId.create]) = .ok false := ⟨rfl, rfl, rfl⟩

/-- C160 is false: comparing a list with `None`, or with anything that is not a list of this library, reads
fields that are not there. -/
theorem C160_false (op : CmpOp) (l : List Member) : seqCmp op l .other = .error .typeConfusion := rfl

/-- C160 is false: comparing lists of two classes takes the members of one for those of the other, unless
one of the lists is empty. -/
theorem C160_false_class {k k' : Cls} (hk : k ≠ k') (a : List k.Val) (b : List k'.Val) (op : CmpOp) :
    (seqCmp op (a.map k.wrap) (.list (b.map k'.wrap)) = .error .typeConfusion ↔ a ≠ [] ∧ b ≠ []) := by
  have hfg : ∀ x y, (k.wrap x).cmp (k'.wrap y) = .error .typeConfusion := by
    intro x y
    cases k <;> cases k' <;> first | exact absurd rfl hk | rfl
  cases a with
  | nil => cases b <;> cases op <;> simp [seqCmp, PySeqCmp.listCmp, bind, Except.bind]
  | cons x xs =>
    cases b with
    | nil => cases op <;> simp [seqCmp, PySeqCmp.listCmp, bind, Except.bind]
    | cons y ys => simp [seqCmp, PySeqCmp.listCmp, hfg, bind, Except.bind]

example : seqCmp .eq [.group Group.create] (.list [.category Category.create]) = .error .typeConfusion := rfl

/-- C160 is false: `<`, `<=`, `>` and `>=` of two lists are all `False`, also for equal ones. -/
theorem C160_false_order (k : Cls) (a b : List k.Val) :
    seqCmp .order (a.map k.wrap) (.list (b.map k.wrap)) = .ok false := by
  obtain ⟨r, h1, -⟩ := listCmp_class (cls_of k) a b
  simp [seqCmp, h1, bind, Except.bind]

end Comps.Props

section
open Comps.Props
#print axioms C160_partial
#print axioms C160_false
#print axioms C160_false_class
#print axioms C160_false_order
end
