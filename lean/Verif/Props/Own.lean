import Verif.Lemmas.OwnProps
import Verif.Model.PyAdd

/-!
# Properties of merges and sums: content, sharing, memory (C130-C136)

Memory holds the objects of the two lists.  `Live m p v`: the object `p` has an owner and the value `v`.  The
hypothesis `∀ p ∈ l, Live m p (f p)` says that the pointers of a list are valid, and names their values.
`Leaves m m' left`: in `m'` everything has as many owners as in `m`, but the new objects `left` have one owner
each, which nobody knows of any more.
-/

namespace Comps.Props.Own
open Comps Comps.Obj Comps.Own Comps.Spec Comps.Spec.Own Comps.Props

variable {lt : UInt8 → UInt8 → Bool} {α : Type}

/-! ## C130: merging two entries -/

/-- C130, packages of `comps_docgroup_union`: the new list has the packages that merging should give (C20),
all new objects; when it is destroyed, as many objects stay behind as names were repeated in the first list,
and as the second list repeats names of the first. -/
theorem C130_exact {m : Mem Package} {f : Nat → Package} {l1 l2 : List Nat}
    (h1 : ∀ p ∈ l1, Live m p (f p)) (h2 : ∀ p ∈ l2, Live m p (f p)) :
    ∃ m' ret m'' left, union Package.cmpSet Package.copy .both m l1 l2 = .ok (m', ret) ∧
      ret.map (valAt m') = (merge Package.getName (l1.map f) (l2.map f)).map some ∧
      (∀ p, p < m.length → valAt m' p = valAt m p) ∧ ret.Nodup ∧ (∀ p ∈ ret, m.length ≤ p) ∧
      destroyAll m' ret = .ok m'' ∧ Leaves m m'' left ∧
      left.length = repeats ((l1.map f).map Package.getName) +
        repeats (shared Package.getName (l1.map f) (l2.map f)) := by
  obtain ⟨m', A, X, lost, r, -, d, ll, n1, n2⟩ := union_done (copy := Package.copy) Package.cmpSet_iff .both
    h1 h2 (fun p _ => by rw [Package.copy_eq])
  obtain ⟨m'', r', lv⟩ := d.leaves
  refine ⟨m', A ++ X, m'', lost, r, ?_, d.old, n1, n2, r', lv, ll⟩
  have hid : Package.copy = id := funext Package.copy_eq
  have e : (fun (_ : Package) (y : Package) => Package.copy y) = fun _ y => y := by rw [hid]; rfl
  have := d.vals
  rw [e, overlay_copy, hid, List.map_id, List.map_id] at this
  exact this

/-- C130, ids of `comps_doccategory_union` and of `comps_docenv_union` (`both`), options of
`comps_docenv_union` (`ifNew`): for the options a name repeated in the first list costs nothing. -/
theorem C130_ids_exact (c : Count) {m : Mem GroupId} {f : Nat → GroupId} {l1 l2 : List Nat}
    (h1 : ∀ p ∈ l1, Live m p (f p)) (h2 : ∀ p ∈ l2, Live m p (f p)) :
    ∃ m' ret m'' left, union GroupId.cmpSet GroupId.copy c m l1 l2 = .ok (m', ret) ∧
      ret.map (valAt m') = (merge GroupId.getName (l1.map f) (l2.map f)).map some ∧
      (∀ p, p < m.length → valAt m' p = valAt m p) ∧ ret.Nodup ∧ (∀ p ∈ ret, m.length ≤ p) ∧
      destroyAll m' ret = .ok m'' ∧ Leaves m m'' left ∧
      left.length = (if c = .both then repeats ((l1.map f).map GroupId.getName) else 0) +
        repeats (shared GroupId.getName (l1.map f) (l2.map f)) := by
  obtain ⟨m', A, X, lost, r, -, d, ll, n1, n2⟩ := union_done (copy := GroupId.copy) GroupId.cmpSet_iff c
    h1 h2 (fun p _ => by rw [GroupId.copy_eq])
  obtain ⟨m'', r', lv⟩ := d.leaves
  refine ⟨m', A ++ X, m'', lost, r, ?_, d.old, n1, n2, r', lv, ll⟩
  have hid : GroupId.copy = id := funext GroupId.copy_eq
  have e : (fun (_ : GroupId) (y : GroupId) => GroupId.copy y) = fun _ y => y := by rw [hid]; rfl
  have := d.vals
  rw [e, overlay_copy, hid, List.map_id, List.map_id] at this
  exact this

/-- C130: merging lists without repeated names leaves nothing behind.  Missing: repeated names
(`C130_false`). -/
theorem C130_partial {m : Mem Package} {f : Nat → Package} {l1 l2 : List Nat}
    (h1 : ∀ p ∈ l1, Live m p (f p)) (h2 : ∀ p ∈ l2, Live m p (f p))
    (u1 : UniqueNames Package.getName (l1.map f)) (u2 : UniqueNames Package.getName (l2.map f)) :
    ∃ m' ret m'', union Package.cmpSet Package.copy .both m l1 l2 = .ok (m', ret) ∧
      destroyAll m' ret = .ok m'' ∧ ∀ p, own m'' p = own m p := by
  obtain ⟨m', ret, m'', left, r, -, -, -, -, r', lv, ll⟩ := C130_exact h1 h2
  rw [repeats_zero u1, repeats_zero (shared_nodup u2)] at ll
  have : left = [] := List.length_eq_zero_iff.1 ll
  subst this
  exact ⟨m', ret, m'', r, r', fun p => by simpa using lv.owners p⟩

/-- C130 for ids and options.  Missing: as for `C130_partial`. -/
theorem C130_ids_partial (c : Count) {m : Mem GroupId} {f : Nat → GroupId} {l1 l2 : List Nat}
    (h1 : ∀ p ∈ l1, Live m p (f p)) (h2 : ∀ p ∈ l2, Live m p (f p))
    (u1 : c = .both → UniqueNames GroupId.getName (l1.map f))
    (u2 : UniqueNames GroupId.getName (l2.map f)) :
    ∃ m' ret m'', union GroupId.cmpSet GroupId.copy c m l1 l2 = .ok (m', ret) ∧
      destroyAll m' ret = .ok m'' ∧ ∀ p, own m'' p = own m p := by
  obtain ⟨m', ret, m'', left, r, -, -, -, -, r', lv, ll⟩ := C130_ids_exact c h1 h2
  have hz : (if c = .both then repeats ((l1.map f).map GroupId.getName) else 0) = 0 := by
    split
    · rename_i h
      exact repeats_zero (u1 h)
    · rfl
  rw [hz, repeats_zero (shared_nodup u2)] at ll
  have : left = [] := List.length_eq_zero_iff.1 ll
  subst this
  exact ⟨m', ret, m'', r, r', fun p => by simpa using lv.owners p⟩

/-- Two objects with the values `v` and `w`, one owner each. -/
def two (v w : α) : Mem α := [⟨v, 1⟩, ⟨w, 1⟩]

theorem two_live (v w : α) : Live (two v w) 0 v ∧ Live (two v w) 1 w := by
  simp [Live, two, valAt, own]

/-- The values of the two objects. -/
def twoVals (v w : α) (p : Nat) : α := if p = 0 then v else w

theorem two_vals (v w : α) {l : List Nat} (h : ∀ p ∈ l, p = 0 ∨ p = 1) :
    ∀ p ∈ l, Live (two v w) p (twoVals v w p) := by
  intro p hp
  rcases h p hp with rfl | rfl
  · exact (two_live v w).1
  · exact (two_live v w).2

/-- C130 is false when a name is repeated: a group with two packages "a", merged with a group without
packages, leaves an object behind. -/
theorem C130_false : ∃ m' ret m'', union Package.cmpSet Package.copy .both
      (two (pkg b!"a" b!"") (pkg b!"a" b!"x")) [0, 1] [] = .ok (m', ret) ∧
    destroyAll m' ret = .ok m'' ∧ ∃ p, 2 ≤ p ∧ own m'' p = 1 := by
  obtain ⟨m', ret, m'', left, r, -, -, -, -, r', lv, ll⟩ := C130_exact (l2 := [])
    (two_vals (pkg b!"a" b!"") (pkg b!"a" b!"x") (l := [0, 1]) (by simp)) (by simp)
  have h1 : left.length = 1 := by rw [ll]; decide
  obtain ⟨p, hp⟩ := List.length_eq_one_iff.1 h1
  subst hp
  have hge := lv.new p (by simp)
  refine ⟨m', ret, m'', r, r', p, hge, ?_⟩
  rw [lv.owners, own_ge hge]
  simp

/-- C130: also options are left behind when the second list repeats a name of the first. -/
theorem C130_options_false : ∃ m' ret m'', union GroupId.cmpSet GroupId.copy .ifNew
      (two (gid b!"a" true) (gid b!"a" false)) [0] [1, 1] = .ok (m', ret) ∧
    destroyAll m' ret = .ok m'' ∧ ∃ p, 2 ≤ p ∧ own m'' p = 1 := by
  obtain ⟨m', ret, m'', left, r, -, -, -, -, r', lv, ll⟩ := C130_ids_exact .ifNew
    (two_vals (gid b!"a" true) (gid b!"a" false) (l := [0]) (by simp))
    (two_vals (gid b!"a" true) (gid b!"a" false) (l := [1, 1]) (by simp))
  have h1 : left.length = 1 := by rw [ll]; decide
  obtain ⟨p, hp⟩ := List.length_eq_one_iff.1 h1
  subst hp
  have hge := lv.new p (by simp)
  refine ⟨m', ret, m'', r, r', p, hge, ?_⟩
  rw [lv.owners, own_ge hge]
  simp

/-- Packages "a" and "b", which the lists share in part: the hypotheses of `C130_partial`. -/
example : let f := twoVals (pkg b!"a" b!"") (pkg b!"b" b!"x")
    (∀ p ∈ [0, 1], Live (two (pkg b!"a" b!"") (pkg b!"b" b!"x")) p (f p)) ∧
    UniqueNames Package.getName ([0, 1].map f) ∧ UniqueNames Package.getName ([1].map f) :=
  ⟨two_vals _ _ (by simp), by unfold UniqueNames; decide, by unfold UniqueNames; decide⟩

/-- Options with a repeated name in the first list: the hypotheses of `C130_ids_partial`. -/
example : let f := twoVals (gid b!"a" true) (gid b!"a" false)
    (∀ p ∈ [0, 1], Live (two (gid b!"a" true) (gid b!"a" false)) p (f p)) ∧
    (Count.ifNew = .both → UniqueNames GroupId.getName ([0, 1].map f)) ∧
    UniqueNames GroupId.getName ([1].map f) :=
  ⟨two_vals _ _ (by simp), by simp, by unfold UniqueNames; decide⟩

/-! ## Kinds of entries -/

/-- What the merges need to know of a kind of entries: comparison of ids, copying, merging, the dictionary
with the id; the entries reachable through the API; entries that no getter tells apart. -/
structure Kind (α : Type) where
  idcmp : α → α → Bool
  copy : α → α
  merge : α → α → α
  props : α → RTree PVal
  Built : α → Prop
  Same : α → α → Prop

/-- Groups (pycomps_groups.c:381-415, comps_doc.c:290-316). -/
def groupKind (lt : UInt8 → UInt8 → Bool) : Kind Group :=
  ⟨Group.idcmp, Group.copy, Group.union lt, Group.props, GroupBuilt lt, SameGroup⟩
/-- Categories (pycomps_categories.c:309-342, comps_doc.c:318-342). -/
def categoryKind (lt : UInt8 → UInt8 → Bool) : Kind Category :=
  ⟨Category.idcmp, Category.copy, Category.union lt, Category.props, CategoryBuilt lt, SameCategory⟩
/-- Environments (pycomps_envs.c:329-364, comps_doc.c:344-372). -/
def envKind (lt : UInt8 → UInt8 → Bool) : Kind Env :=
  ⟨Env.idcmp, Env.copy, Env.union lt, Env.props, EnvBuilt lt, SameEnv⟩

/-- The three kinds. -/
inductive IsKind (lt : UInt8 → UInt8 → Bool) : (α : Type) → Kind α → Prop
  | groups : IsKind lt Group (groupKind lt)
  | categories : IsKind lt Category (categoryKind lt)
  | environments : IsKind lt Env (envKind lt)

/-- The id of an entry. -/
def Kind.id (K : Kind α) (x : α) : Option PVal := idOf (K.props x)

theorem IsKind.byKey {K : Kind α} (h : IsKind lt α K) : ByKey K.idcmp K.id := by
  cases h
  · exact Group.idcmp_iff
  · exact Category.idcmp_iff
  · exact Env.idcmp_iff

theorem IsKind.mergeOk {K : Kind α} (h : IsKind lt α K) : MergeOk K.id K.copy K.merge K.Built := by
  cases h
  · exact groupMerge
  · exact categoryMerge
  · exact envMerge

theorem IsKind.copy_same {K : Kind α} (h : IsKind lt α K) {x : α} (hx : K.Built x) : K.Same (K.copy x) x := by
  cases h
  · exact group_copy_same hx
  · exact category_copy_same hx
  · exact env_copy_same hx

theorem IsKind.merge_same {K : Kind α} (h : IsKind lt α K) {x y : α} (hx : K.Built x) (hy : K.Built y) :
    K.Same (K.merge (K.copy x) y) (K.merge x y) := by
  cases h
  · exact group_union_same hx hy
  · exact category_union_same hx hy
  · exact env_union_same hx hy

theorem IsKind.same_refl {K : Kind α} (h : IsKind lt α K) (x : α) : K.Same x x := by
  cases h
  · exact ⟨fun _ => rfl, fun _ => rfl, fun _ => rfl, rfl⟩
  · exact ⟨fun _ => rfl, fun _ => rfl, fun _ => rfl, rfl⟩
  · exact ⟨fun _ => rfl, fun _ => rfl, fun _ => rfl, rfl, rfl⟩

/-! ## C131: the union of documents -/

/-- C131, one kind of entries of `comps_doc_union`: no fault, the operands keep their entries, the result has
the entries of the union (C23), all new objects; when they are destroyed, as many objects stay behind as ids
were repeated in the first document. -/
theorem C131_exact {K : Kind α} (hK : IsKind lt α K) {m : Mem α} {f : Nat → α} {l1 l2 : List Nat}
    (h1 : ∀ p ∈ l1, Live m p (f p)) (h2 : ∀ p ∈ l2, Live m p (f p))
    (b1 : ∀ p ∈ l1, K.Built (f p)) (b2 : ∀ p ∈ l2, K.Built (f p)) :
    ∃ m' ret m'' left, docUnion K.idcmp K.copy K.merge m l1 l2 = .ok (m', ret) ∧
      ret.map (valAt m') = (docUnionList K.idcmp K.copy K.merge (l1.map f) (l2.map f)).map some ∧
      (∀ p, p < m.length → valAt m' p = valAt m p) ∧ ret.Nodup ∧ (∀ p ∈ ret, m.length ≤ p) ∧
      destroyAll m' ret = .ok m'' ∧ Leaves m m'' left ∧
      left.length = repeats ((l1.map f).map K.id) := by
  obtain ⟨m', ret, lost, r, d, ll⟩ := docUnion_done hK.byKey hK.mergeOk h1 h2 b1 b2
  obtain ⟨m'', r', lv⟩ := d.leaves
  rw [List.append_nil] at r'
  refine ⟨m', ret, m'', lost, r, ?_, d.old, d.nodup, d.newA, r', lv, ll⟩
  have := d.vals
  rw [List.append_nil] at this
  exact this

/-- C131: the union leaves nothing behind when the ids in the first document are distinct; the second may
repeat ids.  Missing: repeated ids in the first (`C131_false`). -/
theorem C131_partial {K : Kind α} (hK : IsKind lt α K) {m : Mem α} {f : Nat → α} {l1 l2 : List Nat}
    (h1 : ∀ p ∈ l1, Live m p (f p)) (h2 : ∀ p ∈ l2, Live m p (f p))
    (b1 : ∀ p ∈ l1, K.Built (f p)) (b2 : ∀ p ∈ l2, K.Built (f p)) (u1 : UniqueNames K.id (l1.map f)) :
    ∃ m' ret m'', docUnion K.idcmp K.copy K.merge m l1 l2 = .ok (m', ret) ∧
      destroyAll m' ret = .ok m'' ∧ ∀ p, own m'' p = own m p := by
  obtain ⟨m', ret, m'', left, r, -, -, -, -, r', lv, ll⟩ := C131_exact hK h1 h2 b1 b2
  rw [repeats_zero u1] at ll
  have : left = [] := List.length_eq_zero_iff.1 ll
  subst this
  exact ⟨m', ret, m'', r, r', fun p => by simpa using lv.owners p⟩

theorem repeats_two {κ : Type} [DecidableEq κ] (k : κ) : repeats [k, k] = 1 := by
  simp [repeats, repeatsIn]

/-- C131 is false when an id is repeated in the first document, whatever the entries are. -/
theorem C131_false {K : Kind α} (hK : IsKind lt α K) {x y : α} (hx : K.Built x) (hy : K.Built y)
    (e : K.id x = K.id y) : ∃ m' ret m'',
      docUnion K.idcmp K.copy K.merge (two x y) [0, 1] [] = .ok (m', ret) ∧
      destroyAll m' ret = .ok m'' ∧ ∃ p, 2 ≤ p ∧ own m'' p = 1 := by
  obtain ⟨m', ret, m'', left, r, -, -, -, -, r', lv, ll⟩ := C131_exact hK (l2 := [])
    (two_vals x y (l := [0, 1]) (by simp)) (by simp) (by
      intro p hp
      unfold twoVals
      split
      · exact hx
      · exact hy) (by simp)
  have h1 : left.length = 1 := by
    rw [ll]
    show repeats [K.id x, K.id y] = 1
    rw [e, repeats_two]
  obtain ⟨p, hp⟩ := List.length_eq_one_iff.1 h1
  subst hp
  have hge := lv.new p (by simp)
  refine ⟨m', ret, m'', r, r', p, hge, ?_⟩
  rw [lv.owners, own_ge hge]
  simp

/-- Groups "a" and "b": the hypotheses of `C131_partial`. -/
example : let f := twoVals (idGrp lt b!"a" []) (idGrp lt b!"b" [pkg b!"p" b!""])
    (∀ p ∈ [0, 1], Live (two (idGrp lt b!"a" []) (idGrp lt b!"b" [pkg b!"p" b!""])) p (f p)) ∧
    (∀ p ∈ [0, 1], (groupKind lt).Built (f p)) ∧
    UniqueNames (groupKind lt).id ([0, 1].map f) := by
  refine ⟨two_vals _ _ (by simp), ?_, ?_⟩
  · intro p hp
    unfold twoVals
    split
    · exact idGrp_built _ _
    · exact idGrp_built _ _
  · show [some (PVal.str (cs b!"a")), some (PVal.str (cs b!"b"))].Nodup
    decide

/-! ## C132: content of the sum of Python lists -/

/-- What the sum of two lists should hold: the entries of the first in order, the first of each id merged with
the second list's first entry of that id, then the entries of the second whose id the first has not. -/
def wantedSum (K : Kind α) (a b : List α) : List α :=
  overlayWith K.id (withFirst K.merge) b [] a ++ newIn K.id a b

/-- C132, exact: a sum of two lists of groups, categories or environments ends without fault, and its entries
are as wanted (what merging means is C20 and C22). -/
theorem C132_exact {K : Kind α} (hK : IsKind lt α K) {m : Mem α} {f : Nat → α} {l1 l2 : List Nat}
    (h1 : ∀ p ∈ l1, Live m p (f p)) (h2 : ∀ p ∈ l2, Live m p (f p))
    (b1 : ∀ p ∈ l1, K.Built (f p)) (b2 : ∀ p ∈ l2, K.Built (f p)) :
    ∃ m' ret vs, sum K.idcmp K.copy K.merge m l1 l2 = .ok (m', ret) ∧
      ret.map (valAt m') = vs.map some ∧ Alike K.Same vs (wantedSum K (l1.map f) (l2.map f)) := by
  obtain ⟨m', A, lost, r, -, d, -⟩ := sum_done (mrg := K.merge) hK.byKey h1 h2
    (fun p hp => hK.mergeOk.copy_key _ (b1 p hp))
  refine ⟨m', _, _, r, d.vals, alike_append (overlay_alike ?_ ?_ ?_) ?_⟩
  · intro x hx
    obtain ⟨p, hp, rfl⟩ := List.mem_map.1 hx
    exact hK.mergeOk.copy_key _ (b1 p hp)
  · intro x hx
    obtain ⟨p, hp, rfl⟩ := List.mem_map.1 hx
    exact hK.copy_same (b1 p hp)
  · intro x hx y hy
    obtain ⟨p, hp, rfl⟩ := List.mem_map.1 hx
    obtain ⟨q, hq, rfl⟩ := List.mem_map.1 hy
    exact hK.merge_same (b1 p hp) (b2 q hq)
  · have := alike_map (R := K.Same) id id (newIn K.id (l1.map f) (l2.map f)) fun x _ => hK.same_refl x
    simpa using this

/-- C132: for lists with distinct ids the sum has each id of the operands once, those of the first list
first.  Missing: lists in which ids are repeated (`C132_false`). -/
theorem C132_partial {K : Kind α} (hK : IsKind lt α K) {m : Mem α} {f : Nat → α} {l1 l2 : List Nat}
    (h1 : ∀ p ∈ l1, Live m p (f p)) (h2 : ∀ p ∈ l2, Live m p (f p))
    (b1 : ∀ p ∈ l1, K.Built (f p)) (b2 : ∀ p ∈ l2, K.Built (f p))
    (u1 : UniqueNames K.id (l1.map f)) (u2 : UniqueNames K.id (l2.map f)) :
    ∃ m' ret vs, sum K.idcmp K.copy K.merge m l1 l2 = .ok (m', ret) ∧
      ret.map (valAt m') = vs.map some ∧ UniqueNames K.id vs ∧
      vs.map K.id = (l1.map f).map K.id ++
        ((l2.map f).map K.id).filter fun i => i ∉ (l1.map f).map K.id := by
  obtain ⟨m', A, lost, r, -, d, -⟩ := sum_done (mrg := K.merge) hK.byKey h1 h2
    (fun p hp => hK.mergeOk.copy_key _ (b1 p hp))
  have hids : (overlayWith K.id (withFirst K.merge) (l2.map f) [] ((l1.map f).map K.copy) ++
      newIn K.id (l1.map f) (l2.map f)).map K.id = (l1.map f).map K.id ++
        ((l2.map f).map K.id).filter fun i => i ∉ (l1.map f).map K.id := by
    rw [List.map_append]
    congr 1
    · apply List.ext_getElem?
      intro i
      rw [List.getElem?_map, overlayWith_get, List.getElem?_map]
      simp only [List.getElem?_map]
      cases hp : l1[i]? with
      | none => rfl
      | some p =>
        have hpm := List.mem_of_getElem? hp
        have hcp := hK.mergeOk.copy_key _ (b1 p hpm)
        simp only [Option.map_some]
        congr 1
        split
        · exact hcp
        · rw [withFirst_filter]
          cases hf : (l2.map f).find? fun y => decide (K.id y = K.id (K.copy (f p))) with
          | none => exact hcp
          | some y =>
            obtain ⟨q, hq, rfl⟩ := List.mem_map.1 (List.mem_of_find?_eq_some hf)
            have hy : K.id (f q) = K.id (K.copy (f p)) := by
              have := List.find?_some hf
              simpa using this
            simp only
            rw [hK.mergeOk.mrg_key _ _ (hK.mergeOk.copies _ (b1 p hpm)) (b2 q hq) hy.symm, hy, hcp]
    · rw [newIn, List.filter_map, List.filter_map, List.filter_map]
      exact congrArg _ (congrArg _ (List.filter_congr fun _ _ => decide_eq_decide.2 Iff.rfl))
  refine ⟨m', _, _, r, d.vals, ?_, hids⟩
  unfold UniqueNames
  rw [hids, List.nodup_append]
  refine ⟨u1, u2.sublist List.filter_sublist, fun x hx y hy e => ?_⟩
  have := (List.mem_filter.1 hy).2
  rw [decide_eq_true_eq] at this
  exact this (e ▸ hx)

/-- C132 is false for lists with repeated ids: two entries of the second list with an id that the first has
not are both in the sum. -/
theorem C132_false {K : Kind α} (hK : IsKind lt α K) {x y : α} (e : K.id x = K.id y) :
    ∃ m' ret vs, sum K.idcmp K.copy K.merge (two x y) [] [0, 1] = .ok (m', ret) ∧
      ret.map (valAt m') = vs.map some ∧ ¬ UniqueNames K.id vs := by
  obtain ⟨m', A, lost, r, len, d, -⟩ := sum_done (mrg := K.merge) (copy := K.copy) (l1 := []) hK.byKey (by simp)
    (two_vals x y (l := [0, 1]) (by simp)) (by simp)
  refine ⟨m', _, _, r, d.vals, ?_⟩
  simp [UniqueNames, overlayWith, newIn, twoVals, e]

/-- C132: a third entry of the same id in the operands is lost when the second list repeats the id: only the
first of the two entries `y`, `z` is merged into `x`. -/
theorem C132_lost_false {K : Kind α} (hK : IsKind lt α K) {x y : α} (hx : K.Built x)
    (e : K.id x = K.id y) : ∃ m' ret,
      sum K.idcmp K.copy K.merge (two x y) [0] [0, 1] = .ok (m', ret) ∧
      ret.map (valAt m') = [some (K.merge (K.copy x) x)] := by
  obtain ⟨m', A, lost, r, len, d, -⟩ := sum_done (mrg := K.merge) (copy := K.copy) hK.byKey
    (two_vals x y (l := [0]) (by simp)) (two_vals x y (l := [0, 1]) (by simp)) (by
      intro p hp
      simp at hp
      subst hp
      exact hK.mergeOk.copy_key _ hx)
  refine ⟨m', _, r, ?_⟩
  rw [d.vals]
  have hc := hK.mergeOk.copy_key _ hx
  simp [overlayWith, newIn, twoVals, e, withFirst, hc]

/-- Groups "a", "b" in the first and "b" in the second list: the hypotheses of `C132_partial`; groups with the
same id, for `C131_false`, `C132_false` and `C132_lost_false`. -/
example : let f := twoVals (idGrp lt b!"a" []) (idGrp lt b!"b" [pkg b!"p" b!""])
    UniqueNames (groupKind lt).id ([0, 1].map f) ∧ UniqueNames (groupKind lt).id ([1].map f) ∧
    (groupKind lt).id (idGrp lt b!"a" []) = (groupKind lt).id (idGrp lt b!"a" [pkg b!"p" b!""]) := by
  refine ⟨?_, ?_, rfl⟩
  · show [some (PVal.str (cs b!"a")), some (PVal.str (cs b!"b"))].Nodup
    decide
  · show [some (PVal.str (cs b!"b"))].Nodup
    decide

/-! ## C133: what a sum shares with its operands -/

/-- C133, exact: the sum has first as many new objects as the first list has entries, then the second list's
own objects whose id the first list has not, each with one more owner for every time it is there.  The
entries of the operands keep their values. -/
theorem C133_exact {K : Kind α} (hK : IsKind lt α K) {m : Mem α} {f : Nat → α} {l1 l2 : List Nat}
    (h1 : ∀ p ∈ l1, Live m p (f p)) (h2 : ∀ p ∈ l2, Live m p (f p)) (b1 : ∀ p ∈ l1, K.Built (f p)) :
    ∃ m' fresh, sum K.idcmp K.copy K.merge m l1 l2 =
        .ok (m', fresh ++ newAt K.id f l1 l2) ∧
      fresh.length = l1.length ∧ fresh.Nodup ∧ (∀ p ∈ fresh, m.length ≤ p) ∧
      (∀ p, p < m.length → valAt m' p = valAt m p) ∧
      ∀ p, p < m.length → own m' p = own m p +
        (newAt K.id f l1 l2).count p := by
  obtain ⟨m', A, lost, r, len, d, -⟩ := sum_done (mrg := K.merge) hK.byKey h1 h2
    (fun p hp => hK.mergeOk.copy_key _ (b1 p hp))
  refine ⟨m', A, r, len, d.nodup, d.newA, d.old, fun p hp => ?_⟩
  have h3 : own m' p = own m p + (A ++ newAt K.id f l1 l2).count p + lost.count p := d.ledger p
  have h4 : lost.count p = 0 := List.count_eq_zero.2 fun h => by have := d.lostB p h; omega
  have h5 : A.count p = 0 := List.count_eq_zero.2 fun h => by have := d.newA p h; omega
  rw [List.count_append] at h3
  omega

/-- A change of the object `p`. -/
def write (m : Mem α) (p : Nat) (v : α) : Mem α := m.modify p fun c => ⟨v, c.owners⟩

/-- C133: a change of an entry of the sum does not change the operands, if the id of every entry of the second
list is in the first.  Missing: entries only the second list has (`C133_false`). -/
theorem C133_partial {K : Kind α} (hK : IsKind lt α K) {m : Mem α} {f : Nat → α} {l1 l2 : List Nat}
    (h1 : ∀ p ∈ l1, Live m p (f p)) (h2 : ∀ p ∈ l2, Live m p (f p)) (b1 : ∀ p ∈ l1, K.Built (f p))
    (hsub : ∀ p ∈ l2, K.id (f p) ∈ (l1.map f).map K.id) :
    ∃ m' ret, sum K.idcmp K.copy K.merge m l1 l2 = .ok (m', ret) ∧
      ∀ q ∈ ret, ∀ v, ∀ p ∈ l1 ++ l2, valAt (write m' q v) p = some (f p) := by
  obtain ⟨m', fresh, r, -, -, hnew, old, -⟩ := C133_exact hK h1 h2 b1
  have hf : newAt K.id f l1 l2 = [] := by
    unfold newAt
    rw [List.filter_eq_nil_iff]
    intro p hp
    simp only [hsub p hp, not_true, decide_false, Bool.false_eq_true, not_false_eq_true]
  rw [hf, List.append_nil] at r
  refine ⟨m', fresh, r, fun q hq v p hp => ?_⟩
  have hl : Live m p (f p) := (List.mem_append.1 hp).elim (h1 p) (h2 p)
  have := hnew q hq
  have hlt := hl.lt
  rw [← hl.1, ← old p hlt]
  unfold valAt write
  rw [List.getElem?_modify]
  have hne : q ≠ p := by omega
  simp [hne]

/-- C133 is false: in the sum of an empty list and a list with one entry, a change of the entry is a change of
the second operand. -/
theorem C133_false (K : Kind α) (x v : α) : ∃ m',
    sum K.idcmp K.copy K.merge [⟨x, 1⟩] [] [0] = .ok (m', [0]) ∧
    valAt m' 0 = some x ∧ valAt (write m' 0 v) 0 = some v := by
  exact ⟨[⟨x, 2⟩], rfl, rfl, rfl⟩

/-- A group in both lists: the hypotheses of `C133_partial`. -/
example : ∀ p ∈ [0], (groupKind lt).id (twoVals (idGrp lt b!"a" []) (idGrp lt b!"b" []) p) ∈
    ([0, 1].map (twoVals (idGrp lt b!"a" []) (idGrp lt b!"b" []))).map (groupKind lt).id := by
  intro p hp
  simp only [List.mem_singleton] at hp
  subst hp
  exact List.mem_map.2 ⟨_, List.mem_map.2 ⟨0, by simp, rfl⟩, rfl⟩

/-! ## C134: what a sum leaves behind -/

/-- C134, exact: when the sum is destroyed, as many objects stay behind as ids were repeated in the first
list, and as the second list repeats ids of the first. -/
theorem C134_exact {K : Kind α} (hK : IsKind lt α K) {m : Mem α} {f : Nat → α} {l1 l2 : List Nat}
    (h1 : ∀ p ∈ l1, Live m p (f p)) (h2 : ∀ p ∈ l2, Live m p (f p)) (b1 : ∀ p ∈ l1, K.Built (f p)) :
    ∃ m' ret m'' left, sum K.idcmp K.copy K.merge m l1 l2 = .ok (m', ret) ∧
      destroyAll m' ret = .ok m'' ∧ Leaves m m'' left ∧
      left.length = repeats ((l1.map f).map K.id) + repeats (shared K.id (l1.map f) (l2.map f)) := by
  obtain ⟨m', A, lost, r, len, d, ll⟩ := sum_done (mrg := K.merge) hK.byKey h1 h2
    (fun p hp => hK.mergeOk.copy_key _ (b1 p hp))
  obtain ⟨m'', r', lv⟩ := d.leaves
  exact ⟨m', _, m'', lost, r, r', lv, ll⟩

/-- C134: a sum of lists with distinct ids leaves nothing behind.  Missing: repeated ids (`C134_false`). -/
theorem C134_partial {K : Kind α} (hK : IsKind lt α K) {m : Mem α} {f : Nat → α} {l1 l2 : List Nat}
    (h1 : ∀ p ∈ l1, Live m p (f p)) (h2 : ∀ p ∈ l2, Live m p (f p)) (b1 : ∀ p ∈ l1, K.Built (f p))
    (u1 : UniqueNames K.id (l1.map f)) (u2 : UniqueNames K.id (l2.map f)) :
    ∃ m' ret m'', sum K.idcmp K.copy K.merge m l1 l2 = .ok (m', ret) ∧
      destroyAll m' ret = .ok m'' ∧ ∀ p, own m'' p = own m p := by
  obtain ⟨m', ret, m'', left, r, r', lv, ll⟩ := C134_exact hK h1 h2 b1
  rw [repeats_zero u1, repeats_zero (shared_nodup u2)] at ll
  have : left = [] := List.length_eq_zero_iff.1 ll
  subst this
  exact ⟨m', ret, m'', r, r', fun p => by simpa using lv.owners p⟩

/-- C134 is false: the sum of a list that has an id once and a list that has it twice leaves a merged entry
behind. -/
theorem C134_false {K : Kind α} (hK : IsKind lt α K) {x y : α} (hx : K.Built x) (e : K.id x = K.id y) :
    ∃ m' ret m'', sum K.idcmp K.copy K.merge (two x y) [0] [0, 1] = .ok (m', ret) ∧
      destroyAll m' ret = .ok m'' ∧ ∃ p, 2 ≤ p ∧ own m'' p = 1 := by
  obtain ⟨m', ret, m'', left, r, r', lv, ll⟩ := C134_exact hK
    (two_vals x y (l := [0]) (by simp)) (two_vals x y (l := [0, 1]) (by simp)) (by
      intro p hp
      simp at hp
      subst hp
      exact hx)
  have h1 : left.length = 1 := by
    rw [ll]
    simp [← e, repeats, repeatsIn, shared, twoVals]
  obtain ⟨p, hp⟩ := List.length_eq_one_iff.1 h1
  subst hp
  have hge := lv.new p (by simp)
  refine ⟨m', ret, m'', r, r', p, hge, ?_⟩
  rw [lv.owners, own_ge hge]
  simp

/-- Groups "a", "b" and "b": the hypotheses of `C134_partial`. -/
example : let f := twoVals (idGrp lt b!"a" []) (idGrp lt b!"b" [pkg b!"p" b!""])
    (∀ p ∈ [0, 1], Live (two (idGrp lt b!"a" []) (idGrp lt b!"b" [pkg b!"p" b!""])) p (f p)) ∧
    (∀ p ∈ [0, 1], (groupKind lt).Built (f p)) ∧
    UniqueNames (groupKind lt).id ([0, 1].map f) ∧ UniqueNames (groupKind lt).id ([1].map f) := by
  refine ⟨two_vals _ _ (by simp), ?_, ?_, ?_⟩
  · intro p hp
    unfold twoVals
    split
    · exact idGrp_built _ _
    · exact idGrp_built _ _
  · show [some (PVal.str (cs b!"a")), some (PVal.str (cs b!"b"))].Nodup
    decide
  · show [some (PVal.str (cs b!"b"))].Nodup
    decide

/-! ## C135: the sum of package lists -/

/-- The type of the last package. -/
def lastType (x : Package) (l : List Package) : Package :=
  match l.getLast? with
  | none => x
  | some y => x.setType y.getType false

theorem foldl_takeType (l : List Package) (x : Package) : l.foldl takeType x = lastType x l := by
  induction l generalizing x with
  | nil => rfl
  | cons y ys ih =>
    rw [List.foldl_cons, ih]
    unfold lastType
    cases hy : ys.getLast? with
    | none =>
      have : ys = [] := List.getLast?_eq_none_iff.1 hy
      subst this
      rfl
    | some z =>
      rw [List.getLast?_cons, hy]
      rfl

/-- C135, exact: the packages of the first list in order; the first of each name gets the type of the second
list's last package of that name, and nothing else of it; then the second list's own objects of other names.
When the sum is destroyed, as many objects stay behind as names were repeated in the first list. -/
theorem C135_exact {m : Mem Package} {f : Nat → Package} {l1 l2 : List Nat}
    (h1 : ∀ p ∈ l1, Live m p (f p)) (h2 : ∀ p ∈ l2, Live m p (f p)) :
    ∃ m' fresh m'' left, sumPkgs Package.cmpSet Package.copy takeType m l1 l2 =
        .ok (m', fresh ++ newAt Package.getName f l1 l2) ∧
      (fresh ++ newAt Package.getName f l1 l2).map (valAt m') =
        (overlayWith Package.getName lastType (l2.map f) [] (l1.map f) ++
          newIn Package.getName (l1.map f) (l2.map f)).map some ∧
      (∀ p, p < m.length → valAt m' p = valAt m p) ∧ fresh.Nodup ∧ (∀ p ∈ fresh, m.length ≤ p) ∧
      destroyAll m' (fresh ++ newAt Package.getName f l1 l2) = .ok m'' ∧
      Leaves m m'' left ∧ left.length = repeats ((l1.map f).map Package.getName) := by
  obtain ⟨m', A, lost, r, len, d, ll⟩ := sumPkgs_done (copy := Package.copy) (put := takeType)
    Package.cmpSet_iff (fun _ _ => rfl) h1 h2 (fun p _ => by rw [Package.copy_eq])
  obtain ⟨m'', r', lv⟩ := d.leaves
  refine ⟨m', A, m'', lost, r, ?_, d.old, d.nodup, d.newA, r', lv, ll⟩
  have hid : Package.copy = id := funext Package.copy_eq
  have e : (fun (x : Package) (l : List Package) => l.foldl takeType x) = lastType :=
    funext fun x => funext fun l => foldl_takeType l x
  have := d.vals
  rw [hid, List.map_id, e] at this
  exact this

theorem overlay_types {a b : List Package}
    (hd : ∀ x ∈ a, ∀ y ∈ b, x.getName = y.getName → y = x.setType y.getType false)
    (hu : UniqueNames Package.getName b) (seen : List (Option CStr)) :
    overlayWith Package.getName lastType b seen a = overlay Package.getName b seen a := by
  induction a generalizing seen with
  | nil => rfl
  | cons x xs ih =>
    rw [overlayWith, overlay, ih fun x hx => hd x (by simp [hx])]
    congr 1
    split
    · rfl
    · cases hf : b.find? (fun y => decide (y.getName = x.getName)) with
      | none =>
        have : b.filter (fun y => decide (y.getName = x.getName)) = [] := by
          rw [← List.head?_filter] at hf
          exact List.head?_eq_none_iff.1 hf
        rw [this]
        rfl
      | some y =>
        have hym := List.mem_of_find?_eq_some hf
        have hyn : y.getName = x.getName := by
          have := List.find?_some hf
          simpa using this
        have hone : b.filter (fun z => decide (z.getName = x.getName)) = [y] := by
          rw [← hyn]
          clear ih hd hf
          induction b with
          | nil => simp at hym
          | cons z zs ih =>
            have hu' := List.nodup_cons.1 hu
            rcases List.mem_cons.1 hym with rfl | hm
            · rw [List.filter_cons_of_pos (by simp), List.filter_eq_nil_iff.2]
              intro w hw hwn
              exact hu'.1 (List.mem_map.2 ⟨w, hw, by simpa using hwn⟩)
            · rw [List.filter_cons_of_neg, ih hu'.2 hm]
              intro hzn
              exact hu'.1 (List.mem_map.2 ⟨y, hm, by simpa using Eq.symm (by simpa using hzn)⟩)
        rw [hone]
        show x.setType y.getType false = y
        exact (hd x (by simp) y hym hyn.symm).symm

/-- C135: the sum of the package lists of two groups holds the packages that merging the groups gives (C20),
if packages of the same name differ in the type only and the names in the second list are distinct.  Missing:
packages that differ otherwise (`C135_false`). -/
theorem C135_partial {m : Mem Package} {f : Nat → Package} {l1 l2 : List Nat}
    (h1 : ∀ p ∈ l1, Live m p (f p)) (h2 : ∀ p ∈ l2, Live m p (f p))
    (hd : ∀ x ∈ l1.map f, ∀ y ∈ l2.map f, x.getName = y.getName → y = x.setType y.getType false)
    (u2 : UniqueNames Package.getName (l2.map f)) :
    ∃ m' ret, sumPkgs Package.cmpSet Package.copy takeType m l1 l2 = .ok (m', ret) ∧
      ret.map (valAt m') = (merge Package.getName (l1.map f) (l2.map f)).map some := by
  obtain ⟨m', fresh, m'', left, r, v, -⟩ := C135_exact h1 h2
  rw [overlay_types hd u2] at v
  exact ⟨m', _, r, v⟩

/-- C135 is false: the `requires` of the second list's package is not taken over; merging the groups takes
it. -/
theorem C135_false : ∃ m' ret, sumPkgs Package.cmpSet Package.copy takeType
      (two (pkg b!"a" b!"x") (pkg b!"a" b!"y")) [0] [1] = .ok (m', ret) ∧
    ret.map (valAt m') = [some (pkg b!"a" b!"x")] ∧
    merge Package.getName [pkg b!"a" b!"x"] [pkg b!"a" b!"y"] = [pkg b!"a" b!"y"] := by
  obtain ⟨m', fresh, m'', left, r, v, -⟩ := C135_exact
    (two_vals (pkg b!"a" b!"x") (pkg b!"a" b!"y") (l := [0]) (by simp))
    (two_vals (pkg b!"a" b!"x") (pkg b!"a" b!"y") (l := [1]) (by simp))
  exact ⟨m', _, r, by rw [v]; decide, by decide⟩

/-- Packages that differ in the type: the hypotheses of `C135_partial`. -/
example : let x := pkg b!"a" b!"x"
    let f := twoVals x (x.setType .optional false)
    (∀ p ∈ [0, 1], Live (two x (x.setType .optional false)) p (f p)) ∧
    (∀ y ∈ [0].map f, ∀ z ∈ [1].map f, y.getName = z.getName → z = y.setType z.getType false) ∧
    UniqueNames Package.getName ([1].map f) := by
  refine ⟨two_vals _ _ (by simp), ?_, by unfold UniqueNames; decide⟩
  intro y hy z hz _
  simp only [List.map_cons, List.map_nil, List.mem_singleton] at hy hz
  subst hy; subst hz
  rfl

/-! ## C136: operands of other types -/

/-- C136: if the left operand has a type with `+`, the result is a sum for a right operand of the same type,
and `TypeError` for everything else.  Missing: left operands of other types (`C136_false`). -/
theorem C136_partial (t : PyAdd.Ty) (b : PyAdd.Operand) :
    PyAdd.add (.ours t) b = .ok (if b = .ours t then .sum t else .typeError) := by
  unfold PyAdd.add PyAdd.slot
  by_cases h : b = .ours t <;> simp [h]

/-- C136 is false: `None + x` or `[] + x`, for `x` of any type with `+`, uses the left operand as an object of
the type of `x`. -/
theorem C136_false (t : PyAdd.Ty) : PyAdd.add .other (.ours t) = .error .typeConfusion := by
  simp [PyAdd.add, PyAdd.slot]

example : PyAdd.add (.ours .groups) (.ours .groups) = .ok (.sum .groups) ∧
    PyAdd.add (.ours .groups) (.ours .categories) = .ok .typeError := ⟨rfl, rfl⟩

#print axioms C130_exact
#print axioms C130_ids_exact
#print axioms C130_partial
#print axioms C130_ids_partial
#print axioms C130_false
#print axioms C130_options_false
#print axioms C131_exact
#print axioms C131_partial
#print axioms C131_false
#print axioms C132_exact
#print axioms C132_partial
#print axioms C132_false
#print axioms C132_lost_false
#print axioms C133_exact
#print axioms C133_partial
#print axioms C133_false
#print axioms C134_exact
#print axioms C134_partial
#print axioms C134_false
#print axioms C135_exact
#print axioms C135_partial
#print axioms C135_false
#print axioms C136_partial
#print axioms C136_false

end Comps.Props.Own
