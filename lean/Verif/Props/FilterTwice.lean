import Verif.Lemmas.FilterTwice
import Verif.Props.DocFilterLaws
import Verif.Props.PyLaws

/-!
# Filtering by architecture twice (C176)
-/

namespace Comps.Props
open Comps Comps.Spec Comps.Obj

variable {lt : UInt8 → UInt8 → Bool}

theorem groups_twice (r s : List CStr) {l la lb : List Group} (hl : ∀ g ∈ l, GroupBuilt lt g)
    (h1 : filterG r l = .ok la) (h2 : filterG s l = .ok lb) :
    ∃ x y, filterG s la = .ok x ∧ filterG r lb = .ok y ∧ Alike SameGroup x y := by
  have shape : ∀ {q : List CStr} {l l' : List Group}, (∀ g ∈ l, GroupBuilt lt g) → filterG q l = .ok l' →
      l' = l.filterMap (left (fun g => archKeep q (archesOf g.props)) (leftGroup q)) := by
    intro q l l' hl h
    refine docFilterList_shape h (fun g hg => ⟨_, getArches_ok (groupBuilt_inv (hl g hg)).props, rfl⟩) ?_
    intro x r hr
    cases hp : x.packages with
    | none => simp only [Group.archFilter, hp] at hr; cases hr
    | some z => rw [leftGroup_eq q ⟨z, hp⟩] at hr; cases hr; rfl
  have full : ∀ {q : List CStr} {l l' : List Group}, (∀ g ∈ l, GroupBuilt lt g) → filterG q l = .ok l' →
      ∀ p, filterG p l' = .ok (l'.filterMap (left (fun g => archKeep p (archesOf g.props)) (leftGroup p))) := by
    intro q l l' hl h p
    refine docFilterList_left
      (fun g hg => ⟨_, getArches_ok (groupBuilt_inv (filterG_built hl h g hg)).props, rfl⟩) fun g hg => ?_
    rw [shape hl h] at hg
    obtain ⟨x, -, hx⟩ := List.mem_filterMap.1 hg
    unfold left at hx
    split at hx
    · cases hx; exact leftGroup_eq p ⟨_, rfl⟩
    · cases hx
  refine ⟨_, _, full hl h1 s, full hl h2 r, ?_⟩
  rw [shape hl h1, shape hl h2]
  have key : ∀ (p q : List CStr), ∀ g ∈ l,
      archKeep q (archesOf (leftGroup p g).props) = archKeep q (archesOf g.props) := fun p q g hg =>
    congrArg _ (arches_copy (groupBuilt_inv (hl g hg)).props.reachable)
  refine left_comm (key r s) (key s r) fun g _ => ⟨fun _ => rfl, fun _ => rfl, fun _ => rfl, ?_⟩
  show some (List.filter _ (List.filter _ _)) = some (List.filter _ (List.filter _ _))
  rw [List.filter_filter, List.filter_filter]
  exact congrArg some (List.filter_congr fun p _ => Bool.and_comm ..)

theorem categories_twice (r s : List CStr) {l la lb : List Category} (hl : ∀ g ∈ l, CategoryBuilt lt g)
    (h1 : filterK r l = .ok la) (h2 : filterK s l = .ok lb) :
    ∃ x y, filterK s la = .ok x ∧ filterK r lb = .ok y ∧ Alike SameCategory x y := by
  have shape : ∀ {q : List CStr} {l l' : List Category}, (∀ g ∈ l, CategoryBuilt lt g) →
      filterK q l = .ok l' →
      l' = l.filterMap (left (fun g => archKeep q (archesOf g.props)) (leftCategory q)) := by
    intro q l l' hl h
    refine docFilterList_shape h (fun g hg => ⟨_, getArches_ok (categoryBuilt_inv (hl g hg)).props, rfl⟩) ?_
    intro x r hr
    cases hp : x.groupIds with
    | none => simp only [Category.archFilter, hp] at hr; cases hr
    | some z => rw [leftCategory_eq q ⟨z, hp⟩] at hr; cases hr; rfl
  have full : ∀ {q : List CStr} {l l' : List Category}, (∀ g ∈ l, CategoryBuilt lt g) →
      filterK q l = .ok l' → ∀ p,
      filterK p l' = .ok (l'.filterMap (left (fun g => archKeep p (archesOf g.props)) (leftCategory p))) := by
    intro q l l' hl h p
    refine docFilterList_left
      (fun g hg => ⟨_, getArches_ok (categoryBuilt_inv (filterK_built hl h g hg)).props, rfl⟩) fun g hg => ?_
    rw [shape hl h] at hg
    obtain ⟨x, -, hx⟩ := List.mem_filterMap.1 hg
    unfold left at hx
    split at hx
    · cases hx; exact leftCategory_eq p ⟨_, rfl⟩
    · cases hx
  refine ⟨_, _, full hl h1 s, full hl h2 r, ?_⟩
  rw [shape hl h1, shape hl h2]
  have key : ∀ (p q : List CStr), ∀ g ∈ l,
      archKeep q (archesOf (leftCategory p g).props) = archKeep q (archesOf g.props) := fun p q g hg =>
    congrArg _ (arches_copy (categoryBuilt_inv (hl g hg)).props.reachable)
  refine left_comm (key r s) (key s r) fun g _ => ⟨fun _ => rfl, fun _ => rfl, fun _ => rfl, ?_⟩
  show some (List.filter _ (List.filter _ _)) = some (List.filter _ (List.filter _ _))
  rw [List.filter_filter, List.filter_filter]
  exact congrArg some (List.filter_congr fun p _ => Bool.and_comm ..)

theorem envs_twice (r s : List CStr) {l la lb : List Env} (hl : ∀ g ∈ l, EnvBuilt lt g)
    (h1 : filterE r l = .ok la) (h2 : filterE s l = .ok lb) :
    ∃ x y, filterE s la = .ok x ∧ filterE r lb = .ok y ∧ Alike SameEnv x y := by
  have shape : ∀ {q : List CStr} {l l' : List Env}, (∀ g ∈ l, EnvBuilt lt g) → filterE q l = .ok l' →
      l' = l.filterMap (left (fun g => archKeep q (archesOf g.props)) (leftEnv q)) := by
    intro q l l' hl h
    refine docFilterList_shape h (fun g hg => ⟨_, getArches_ok (envBuilt_inv (hl g hg)).props, rfl⟩) ?_
    intro x r hr
    cases hp : x.groupList with
    | none => simp only [Env.archFilter, hp] at hr; cases hr
    | some z =>
      cases ho : x.optionList with
      | none => simp only [Env.archFilter, hp, ho] at hr; cases hr
      | some w => rw [leftEnv_eq q ⟨⟨z, hp⟩, w, ho⟩] at hr; cases hr; rfl
  have full : ∀ {q : List CStr} {l l' : List Env}, (∀ g ∈ l, EnvBuilt lt g) → filterE q l = .ok l' →
      ∀ p, filterE p l' = .ok (l'.filterMap (left (fun g => archKeep p (archesOf g.props)) (leftEnv p))) := by
    intro q l l' hl h p
    refine docFilterList_left
      (fun g hg => ⟨_, getArches_ok (envBuilt_inv (filterE_built hl h g hg)).props, rfl⟩) fun g hg => ?_
    rw [shape hl h] at hg
    obtain ⟨x, -, hx⟩ := List.mem_filterMap.1 hg
    unfold left at hx
    split at hx
    · cases hx; exact leftEnv_eq p ⟨⟨_, rfl⟩, _, rfl⟩
    · cases hx
  refine ⟨_, _, full hl h1 s, full hl h2 r, ?_⟩
  rw [shape hl h1, shape hl h2]
  have key : ∀ (p q : List CStr), ∀ g ∈ l,
      archKeep q (archesOf (leftEnv p g).props) = archKeep q (archesOf g.props) := fun p q g hg =>
    congrArg _ (arches_copy (envBuilt_inv (hl g hg)).props.reachable)
  refine left_comm (key r s) (key s r) fun g _ => ⟨fun _ => rfl, fun _ => rfl, fun _ => rfl, ?_, ?_⟩
  all_goals
    show some (List.filter _ (List.filter _ _)) = some (List.filter _ (List.filter _ _))
    rw [List.filter_filter, List.filter_filter]
    exact congrArg some (List.filter_congr fun p _ => Bool.and_comm ..)

/-- The filters applied to documents that show what the first filters gave. -/
theorem twice {a d1 d2 a1 a2 : Doc} (ha : DocBuilt lt a) {r s : List CStr}
    (h1 : a.archFilter lt r = .ok d1) (h2 : a.archFilter lt s = .ok d2)
    (b1 : DocBuilt lt a1) (b2 : DocBuilt lt a2) (c1 : content a1 = content d1)
    (c2 : content a2 = content d2) (e1 : a1.encoding = d1.encoding) (e2 : a2.encoding = d2.encoding) :
    ∃ x y, a1.archFilter lt s = .ok x ∧ a2.archFilter lt r = .ok y ∧
      SameEntries (content x) (content y) ∧ x.cmp lt y = .ok true := by
  have ia := docBuilt_inv ha
  have xa := contents_built ia
  obtain ⟨e, lg, lk, le, he, f1, f2, f3⟩ := archFilter_inv ia h1
  obtain ⟨e', mg, mk, me, he', g1, g2, g3⟩ := archFilter_inv ia h2
  rw [he] at he'
  cases he'
  obtain ⟨u1, k1, i1, k2, k3⟩ := archFilter_ok ia he f1 f2 f3
  obtain ⟨u2, l1, i2, l2, l3⟩ := archFilter_ok ia he g1 g2 g3
  rw [h1] at k1; rw [h2] at l1
  cases k1; cases l1
  obtain ⟨xg, yg, p1, p2, p3⟩ := groups_twice r s xa.1 f1 g1
  obtain ⟨xk, yk, q1, q2, q3⟩ := categories_twice r s xa.2.1 f2 g2
  obtain ⟨xe, ye, o1, o2, o3⟩ := envs_twice r s xa.2.2.1 f3 g3
  have n1 : a1.encoding = some e := e1.trans (rest_make e d1 k3)
  have n2 : a2.encoding = some e := e2.trans (rest_make e d2 l3)
  obtain ⟨x, w1, w2, w3, w4⟩ := archFilter_ok (req := s) (docBuilt_inv b1) n1 (lg := xg) (lk := xk)
    (le := xe) (by rw [c1, k2]; exact p1) (by rw [c1, k2]; exact q1) (by rw [c1, k2]; exact o1)
  obtain ⟨y, v1, v2, v3, v4⟩ := archFilter_ok (req := r) (docBuilt_inv b2) n2 (lg := yg) (lk := yk)
    (le := ye) (by rw [c2, l2]; exact p2) (by rw [c2, l2]; exact q2) (by rw [c2, l2]; exact o2)
  have hs : SameEntries (content x) (content y) := by
    rw [w3, v3]; exact ⟨p3, q3, o3, fun _ => rfl⟩
  refine ⟨x, y, w1, v1, hs, ?_⟩
  have xl := contents_built w2; have xr := contents_built v2
  obtain ⟨z, hz, hz'⟩ := C41_doc_meaning (.archFilter s b1 w1) (.archFilter r b2 v1) (shows_content w2)
    (shows_content v2)
  rw [hz]
  congr 1
  have hr : rest x = rest y := w4.trans v4.symm
  simp only [rest, Prod.mk.injEq] at hr
  refine hz'.2 ⟨hr.1, hr.2.1, hr.2.2.1, hr.2.2.2.1, ?_, ?_, ?_, hs.langpacks, ?_, ?_⟩
  · exact alike_imp hs.groups xl.1 xr.1 fun x y => group_same_cmp
  · exact alike_imp hs.categories xl.2.1 xr.2.1 fun x y => category_same_cmp
  · exact alike_imp hs.environments xl.2.2.1 xr.2.2.1 fun x y => env_same_cmp
  · intro k; rw [w3, v3]
  · intro k; rw [w3, v3]

/-- **C176.**  If a document can be filtered by `r` and by `s`, then the results can be filtered by the
other list, and both orders give the same entries in the same order and documents that compare equal. -/
theorem C176_documents {a d1 d2 : Doc} (ha : DocBuilt lt a) {r s : List CStr}
    (h1 : a.archFilter lt r = .ok d1) (h2 : a.archFilter lt s = .ok d2) :
    ∃ x y cx cy, d1.archFilter lt s = .ok x ∧ d2.archFilter lt r = .ok y ∧ Shows lt x cx ∧
      Shows lt y cy ∧ SameEntries cx cy ∧ x.cmp lt y = .ok true := by
  have b1 := DocBuilt.archFilter r ha h1
  have b2 := DocBuilt.archFilter s ha h2
  obtain ⟨x, y, k1, k2, k3, k4⟩ := twice ha h1 h2 b1 b2 rfl rfl rfl rfl
  exact ⟨x, y, _, _, k1, k2, shows_content (docBuilt_inv (.archFilter s b1 k1)),
    shows_content (docBuilt_inv (.archFilter r b2 k2)), k3, k4⟩

/-- A document with groups for several architectures, and with a package for one of them only. -/
example : ∃ (a d1 d2 : Doc), DocBuilt lt a ∧ a.archFilter lt [cs b!"i386"] = .ok d1 ∧
    a.archFilter lt [cs b!"arm", cs b!"ppc"] = .ok d2 ∧ ∃ c1 c2, Shows lt d1 c1 ∧ Shows lt d2 c2 ∧
    c1.groups.map Group.getPackageList = [some [pkg b!"a" b!"1"], some [pkg b!"b" b!"2"]] ∧
    c2.groups.map Group.getPackageList = [some [pkg b!"b" b!"2", forArches [cs b!"ppc"]]] := by
  obtain ⟨a, ha, he, sa⟩ := made (lt := lt)
    [.addGroup (archGrp lt [cs b!"i386"] [pkg b!"a" b!"1"]),
      .addGroup (archGrp lt [cs b!"i386", cs b!"arm"] [pkg b!"b" b!"2", forArches [cs b!"ppc"]])]
    (by simp [DocCall.Good, archGrp_built])
  have ia := docBuilt_inv ha
  have hc := shows_unique (shows_content ia) sa
  obtain ⟨d1, h1, i1, c1, -⟩ := archFilter_ok (req := [cs b!"i386"]) (lg := _) (lk := []) (le := []) ia he
    (by rw [hc]; rfl) (by rw [hc]; rfl) (by rw [hc]; rfl)
  obtain ⟨d2, h2, i2, c2, -⟩ := archFilter_ok (req := [cs b!"arm", cs b!"ppc"]) (lg := _) (lk := []) (le := [])
    ia he (by rw [hc]; rfl) (by rw [hc]; rfl) (by rw [hc]; rfl)
  exact ⟨a, d1, d2, ha, h1, h2, _, _, shows_content i1, shows_content i2, by rw [c1]; rfl, by rw [c2]; rfl⟩

end Comps.Props

namespace Comps.Props.PyC
open Comps Comps.Obj Comps.Spec Comps.Spec.PyComps Comps.PyComps Comps.Props

variable (lt : UInt8 → UInt8 → Bool)

/-- `a.arch_filter(arches)` in a program. -/
theorem filtered {ops : List Op} {as : List Ans} {st : PyComps.St} (hn : ∀ o ∈ ops, NativeOp lt o)
    (h : run lt start ops = .ok (as, st)) {a : Nat} {y : Content} (hy : Holds lt st a y)
    (arches : List CStr) :
    ∃ st' x, step lt st (.archFilter a arches) = .ok (.comps, st') ∧
      Doc.archFilter lt (y.toDoc lt) arches = .ok x ∧ Holds lt st' st.docs.length (contentOf x) ∧
      (∀ c w, Holds lt st c w → Holds lt st' c w) ∧
      (∃ as', run lt start (ops ++ [.archFilter a arches]) = .ok (as', st')) ∧
      ∀ o ∈ ops ++ [.archFilter a arches], NativeOp lt o := by
  obtain ⟨ans, st', hs⟩ := C140_call_partial lt hn h (o := .archFilter a arches) trivial (fun h => h)
  have hans : ans ≠ .exc .nameError := by
    rintro rfl
    obtain ⟨r, -, g⟩ := reach h
    obtain ⟨r', e, -⟩ := step_ok g hs
    obtain ⟨da, ha, -⟩ := (dump_some g).1 hy
    simp only [rstep, ha, bind, Except.bind] at e
    split at e
    · cases e
    · simp only [addDoc, bind, Except.bind] at e
      split at e <;> cases e
  obtain ⟨rfl, y1, x, h1, h3, h4, -⟩ := C95_arch_filter lt h hs hans
  have e1 := h1.symm.trans hy
  injection e1 with e1; injection e1 with e1; subst e1
  refine ⟨st', x, hs, h3, h4, (C94_looking lt h rfl hs).1, ⟨_, run_snoc lt ops h hs⟩, fun o ho => ?_⟩
  rcases List.mem_append.1 ho with q | q
  · exact hn o q
  · rw [List.mem_singleton.1 q]; trivial

/-- The Python object made of a document shows what the document shows. -/
theorem wrapped {u : Doc} (hu : DocBuilt lt u) {cu : DocContent} (mu : Made lt (contentOf u) cu) :
    content ((contentOf u).toDoc lt) = content u := by
  have su := shows_content (docBuilt_inv hu)
  obtain rfl := made_unique lt (made_contentOf hu su mu.encoding mu.name mu.sysid mu.pubid) mu
  obtain ⟨b, s⟩ := made_built mu
  exact shows_unique (shows_content (docBuilt_inv b)) s

/-- **C176.**  In every program that Python can write, all of the filtered documents can be made, and
`a.arch_filter(r).arch_filter(s) == a.arch_filter(s).arch_filter(r)`. -/
theorem C176_python {ops : List Op} {as : List Ans} {st : PyComps.St} (hn : ∀ o ∈ ops, NativeOp lt o)
    (h : run lt start ops = .ok (as, st)) {a : Nat} {y : Content} (hy : Holds lt st a y)
    (r s : List CStr) :
    ∃ st1 st2 st3 st4, step lt st (.archFilter a r) = .ok (.comps, st1) ∧
      step lt st1 (.archFilter st.docs.length s) = .ok (.comps, st2) ∧
      step lt st2 (.archFilter a s) = .ok (.comps, st3) ∧
      step lt st3 (.archFilter st2.docs.length r) = .ok (.comps, st4) ∧
      answer lt st4 (.eq st1.docs.length (some st3.docs.length)) = .ok (.bool true) := by
  obtain ⟨st1, d1, s1, x1, p1, w1, ⟨as1, r1⟩, n1⟩ := filtered lt hn h hy r
  obtain ⟨st2, x, s2, x2, p2, w2, ⟨as2, r2⟩, n2⟩ := filtered lt n1 r1 p1 s
  obtain ⟨st3, d2, s3, x3, p3, w3, ⟨as3, r3⟩, n3⟩ := filtered lt n2 r2 (w2 _ _ (w1 _ _ hy)) s
  obtain ⟨st4, z, s4, x4, p4, w4, ⟨as4, r4⟩, n4⟩ := filtered lt n3 r3 p3 r
  refine ⟨st1, st2, st3, st4, s1, s2, s3, s4, ?_⟩
  obtain ⟨c, m, -⟩ := C140_made lt hn h hy
  obtain ⟨c1, m1, -⟩ := C140_made lt n1 r1 p1
  obtain ⟨c2, m2, -⟩ := C140_made lt n2 r2 p2
  obtain ⟨c3, m3, -⟩ := C140_made lt n3 r3 p3
  obtain ⟨c4, m4, -⟩ := C140_made lt n4 r4 p4
  have b := (made_built m).1
  have b1 := DocBuilt.archFilter r b x1
  have b3 := DocBuilt.archFilter s b x3
  obtain ⟨u, v, k1, k2, -, k3⟩ := twice b x1 x3 (made_built m1).1 (made_built m3).1 (wrapped lt b1 m1)
    (wrapped lt b3 m3) rfl rfl
  rw [x2] at k1; rw [x4] at k2
  cases k1; cases k2
  exact eq_cmp lt r4 (w4 _ _ (w3 _ _ p2)) p4 (wrap_cmp lt (.archFilter s (made_built m1).1 x2)
    (.archFilter r (made_built m3).1 x4) m2 m4 k3)

/-- A program with such a document. -/
example : ∃ as st y, (∀ o ∈ sumOps [archGrp asc [cs b!"i386", cs b!"arm"] [forArches [cs b!"ppc"]]] [],
      NativeOp asc o) ∧
    run asc start (sumOps [archGrp asc [cs b!"i386", cs b!"arm"] [forArches [cs b!"ppc"]]] []) = .ok (as, st) ∧
    Holds asc st 0 y ∧ y.part .groups = .groups [archGrp asc [cs b!"i386", cs b!"arm"] [forArches [cs b!"ppc"]]] :=
  ⟨_, _, _, sumOps_native asc (fun g hg => by rw [List.mem_singleton.1 hg]; exact ⟨archGrp_built _ _, nofun⟩)
    nofun, rfl, rfl, rfl⟩

end Comps.Props.PyC

section
open Comps.Props Comps.Props.PyC
#print axioms C176_documents
#print axioms C176_python
end
