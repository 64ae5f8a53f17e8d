import Verif.Props.FilterTwice

/-!
# Filtering by some of the architectures of an earlier filter (C179)
-/

namespace Comps
open Comps.Obj Comps.Spec

variable {α : Type}

theorem archKeep_sub {r s : List CStr} (hrs : ∀ x ∈ r, x ∈ s) {a : Option (List CStr)}
    (h : archKeep r a = true) : archKeep s a = true := by
  cases a with
  | none => rfl
  | some l =>
    obtain ⟨x, h1, h2⟩ := (intersected_iff r l).1 h
    exact (intersected_iff s l).2 ⟨x, h1, hrs x h2⟩

/-- A criterion followed by a stronger one. -/
theorem left_narrow {R : α → α → Prop} {k1 k2 : α → Bool} {f1 f2 : α → α} {l : List α}
    (h1 : ∀ x ∈ l, k2 (f1 x) = k2 x) (h2 : ∀ x ∈ l, k2 x = true → k1 x = true)
    (hR : ∀ x ∈ l, R (f2 (f1 x)) (f2 x)) :
    Alike R ((l.filterMap (left k1 f1)).filterMap (left k2 f2)) (l.filterMap (left k2 f2)) := by
  have e : l.filterMap (left k2 f2) = (l.filter fun x => k1 x && k2 x).map f2 := by
    clear h1 hR
    induction l with
    | nil => rfl
    | cons x xs ih =>
      have ih := ih fun y hy => h2 y (by simp [hy])
      cases hk : k2 x with
      | false => rw [List.filterMap_cons_none (left_none hk), List.filter_cons_of_neg (by simp [hk]), ih]
      | true =>
        rw [List.filterMap_cons_some (left_some hk),
          List.filter_cons_of_pos (by simp [hk, h2 x (by simp) hk]), List.map_cons, ih]
  rw [left_left h1, e]
  refine ⟨by simp, fun i x y hx hy => ?_⟩
  rw [List.getElem?_map] at hx hy
  cases e : (l.filter fun x => k1 x && k2 x)[i]? with
  | none => rw [e] at hx; cases hx
  | some z =>
    rw [e] at hx hy
    cases hx; cases hy
    exact hR z (List.mem_filter.1 (List.mem_of_getElem? e)).1

/-- What a wider filter does not fail on a narrower one does not fail on. -/
theorem docFilterList_sub {arches : α → Res (Option (List CStr))} {f1 f2 : α → Res α} {r s : List CStr}
    (hrs : ∀ x ∈ r, x ∈ s) (hf : ∀ x y, f1 x = .ok y → ∃ z, f2 x = .ok z) {l l1 : List α}
    (h : docFilterList arches f1 s l = .ok l1) : ∃ l2, docFilterList arches f2 r l = .ok l2 := by
  have gen : ∀ (l acc acc' l1 : List α),
      l.foldlM (fun acc x => do
        let a ← arches x
        if archKeep s a then return acc ++ [← f1 x] else return acc) acc = Except.ok l1 →
      ∃ l2, l.foldlM (fun acc x => do
        let a ← arches x
        if archKeep r a then return acc ++ [← f2 x] else return acc) acc' = Except.ok l2 := by
    intro l
    induction l with
    | nil => intro acc acc' l1 _; exact ⟨_, rfl⟩
    | cons x xs ih =>
      intro acc acc' l1 h
      rw [List.foldlM_cons] at h ⊢
      cases ha : arches x with
      | error e => simp only [ha, bind, Except.bind] at h; cases h
      | ok a =>
        simp only [ha, bind, Except.bind, pure, Except.pure] at h ⊢
        cases hk : archKeep r a with
        | false =>
          simp only [Bool.false_eq_true, if_false]
          split at h
          · cases h
          · exact ih _ _ _ h
        | true =>
          simp only [archKeep_sub hrs hk, if_true] at h ⊢
          cases hx : f1 x with
          | error e => rw [hx] at h; cases h
          | ok y =>
            obtain ⟨z, hz⟩ := hf x y hx
            rw [hx] at h
            rw [hz]
            exact ih _ _ _ h
  exact gen l [] [] l1 h

theorem filter_narrow {r s : List CStr} (hrs : ∀ x ∈ r, x ∈ s) (f : α → Option (List CStr)) (l : List α) :
    (l.filter fun p => archKeep s (f p)).filter (fun p => archKeep r (f p)) =
      l.filter fun p => archKeep r (f p) := by
  rw [List.filter_filter]
  refine List.filter_congr fun p _ => ?_
  cases h : archKeep r (f p) with
  | false => rfl
  | true => rw [archKeep_sub hrs h]; rfl

end Comps

namespace Comps.Props
open Comps Comps.Spec Comps.Obj

variable {lt : UInt8 → UInt8 → Bool}

theorem groups_narrow {s r : List CStr} (hrs : ∀ x ∈ r, x ∈ s) {l la lb : List Group} (hl : ∀ g ∈ l, GroupBuilt lt g)
    (h1 : filterG s l = .ok la) (h2 : filterG r l = .ok lb) :
    ∃ x, filterG r la = .ok x ∧ Alike SameGroup x lb := by
  have shape : ∀ {q : List CStr} {l l' : List Group}, (∀ g ∈ l, GroupBuilt lt g) → filterG q l = .ok l' →
      l' = l.filterMap (left (fun g => archKeep q (archesOf g.props)) (leftGroup q)) := by
    intro q l l' hl h
    refine docFilterList_shape h (fun g hg => ⟨_, getArches_ok (groupBuilt_inv (hl g hg)).props, rfl⟩) ?_
    intro x r hr
    cases hp : x.packages with
    | none => simp only [Group.archFilter, hp] at hr; cases hr
    | some z => rw [leftGroup_eq q ⟨z, hp⟩] at hr; cases hr; rfl
  have full : ∀ {q : List CStr} {l l' : List Group}, (∀ g ∈ l, GroupBuilt lt g) → filterG q l = .ok l' →
      ∀ p, filterG p l' = .ok (l'.filterMap (left (fun g => archKeep p (archesOf g.props)) (leftGroup p))) := by
    intro q l l' hl h p
    refine docFilterList_left
      (fun g hg => ⟨_, getArches_ok (groupBuilt_inv (filterG_built hl h g hg)).props, rfl⟩) fun g hg => ?_
    rw [shape hl h] at hg
    obtain ⟨x, -, hx⟩ := List.mem_filterMap.1 hg
    unfold left at hx
    split at hx
    · cases hx; exact leftGroup_eq p ⟨_, rfl⟩
    · cases hx
  refine ⟨_, full hl h1 r, ?_⟩
  rw [shape hl h1, shape hl h2]
  have key : ∀ (p q : List CStr), ∀ g ∈ l,
      archKeep q (archesOf (leftGroup p g).props) = archKeep q (archesOf g.props) := fun p q g hg =>
    congrArg _ (arches_copy (groupBuilt_inv (hl g hg)).props.reachable)
  refine left_narrow (key s r) (fun _ _ h => archKeep_sub hrs h) fun g hg =>
    ⟨copy_same ((groupBuilt_inv (hl g hg)).props.reachable.copy _), copy_same ((groupBuilt_inv (hl g hg)).name.copy.reach),
      copy_same ((groupBuilt_inv (hl g hg)).desc.copy.reach), ?_⟩
  exact congrArg some (filter_narrow hrs _ _)

theorem categories_narrow {s r : List CStr} (hrs : ∀ x ∈ r, x ∈ s) {l la lb : List Category} (hl : ∀ g ∈ l, CategoryBuilt lt g)
    (h1 : filterK s l = .ok la) (h2 : filterK r l = .ok lb) :
    ∃ x, filterK r la = .ok x ∧ Alike SameCategory x lb := by
  have shape : ∀ {q : List CStr} {l l' : List Category}, (∀ g ∈ l, CategoryBuilt lt g) →
      filterK q l = .ok l' →
      l' = l.filterMap (left (fun g => archKeep q (archesOf g.props)) (leftCategory q)) := by
    intro q l l' hl h
    refine docFilterList_shape h (fun g hg => ⟨_, getArches_ok (categoryBuilt_inv (hl g hg)).props, rfl⟩) ?_
    intro x r hr
    cases hp : x.groupIds with
    | none => simp only [Category.archFilter, hp] at hr; cases hr
    | some z => rw [leftCategory_eq q ⟨z, hp⟩] at hr; cases hr; rfl
  have full : ∀ {q : List CStr} {l l' : List Category}, (∀ g ∈ l, CategoryBuilt lt g) →
      filterK q l = .ok l' → ∀ p,
      filterK p l' = .ok (l'.filterMap (left (fun g => archKeep p (archesOf g.props)) (leftCategory p))) := by
    intro q l l' hl h p
    refine docFilterList_left
      (fun g hg => ⟨_, getArches_ok (categoryBuilt_inv (filterK_built hl h g hg)).props, rfl⟩) fun g hg => ?_
    rw [shape hl h] at hg
    obtain ⟨x, -, hx⟩ := List.mem_filterMap.1 hg
    unfold left at hx
    split at hx
    · cases hx; exact leftCategory_eq p ⟨_, rfl⟩
    · cases hx
  refine ⟨_, full hl h1 r, ?_⟩
  rw [shape hl h1, shape hl h2]
  have key : ∀ (p q : List CStr), ∀ g ∈ l,
      archKeep q (archesOf (leftCategory p g).props) = archKeep q (archesOf g.props) := fun p q g hg =>
    congrArg _ (arches_copy (categoryBuilt_inv (hl g hg)).props.reachable)
  refine left_narrow (key s r) (fun _ _ h => archKeep_sub hrs h) fun g hg =>
    ⟨copy_same ((categoryBuilt_inv (hl g hg)).props.reachable.copy _), copy_same ((categoryBuilt_inv (hl g hg)).name.copy.reach),
      copy_same ((categoryBuilt_inv (hl g hg)).desc.copy.reach), ?_⟩
  exact congrArg some (filter_narrow hrs _ _)

theorem envs_narrow {s r : List CStr} (hrs : ∀ x ∈ r, x ∈ s) {l la lb : List Env} (hl : ∀ g ∈ l, EnvBuilt lt g)
    (h1 : filterE s l = .ok la) (h2 : filterE r l = .ok lb) :
    ∃ x, filterE r la = .ok x ∧ Alike SameEnv x lb := by
  have shape : ∀ {q : List CStr} {l l' : List Env}, (∀ g ∈ l, EnvBuilt lt g) → filterE q l = .ok l' →
      l' = l.filterMap (left (fun g => archKeep q (archesOf g.props)) (leftEnv q)) := by
    intro q l l' hl h
    refine docFilterList_shape h (fun g hg => ⟨_, getArches_ok (envBuilt_inv (hl g hg)).props, rfl⟩) ?_
    intro x r hr
    cases hp : x.groupList with
    | none => simp only [Env.archFilter, hp] at hr; cases hr
    | some z =>
      cases ho : x.optionList with
      | none => simp only [Env.archFilter, hp, ho] at hr; cases hr
      | some w => rw [leftEnv_eq q ⟨⟨z, hp⟩, w, ho⟩] at hr; cases hr; rfl
  have full : ∀ {q : List CStr} {l l' : List Env}, (∀ g ∈ l, EnvBuilt lt g) → filterE q l = .ok l' →
      ∀ p, filterE p l' = .ok (l'.filterMap (left (fun g => archKeep p (archesOf g.props)) (leftEnv p))) := by
    intro q l l' hl h p
    refine docFilterList_left
      (fun g hg => ⟨_, getArches_ok (envBuilt_inv (filterE_built hl h g hg)).props, rfl⟩) fun g hg => ?_
    rw [shape hl h] at hg
    obtain ⟨x, -, hx⟩ := List.mem_filterMap.1 hg
    unfold left at hx
    split at hx
    · cases hx; exact leftEnv_eq p ⟨⟨_, rfl⟩, _, rfl⟩
    · cases hx
  refine ⟨_, full hl h1 r, ?_⟩
  rw [shape hl h1, shape hl h2]
  have key : ∀ (p q : List CStr), ∀ g ∈ l,
      archKeep q (archesOf (leftEnv p g).props) = archKeep q (archesOf g.props) := fun p q g hg =>
    congrArg _ (arches_copy (envBuilt_inv (hl g hg)).props.reachable)
  refine left_narrow (key s r) (fun _ _ h => archKeep_sub hrs h) fun g hg =>
    ⟨copy_same ((envBuilt_inv (hl g hg)).props.reachable.copy _), copy_same ((envBuilt_inv (hl g hg)).name.copy.reach),
      copy_same ((envBuilt_inv (hl g hg)).desc.copy.reach), ?_, ?_⟩
  all_goals exact congrArg some (filter_narrow hrs _ _)

/-- The narrower filter applied to a document that shows what the wider one gave. -/
theorem narrow {a d1 d2 a1 : Doc} (ha : DocBuilt lt a) {s r : List CStr} (hrs : ∀ x ∈ r, x ∈ s)
    (h1 : a.archFilter lt s = .ok d1) (h2 : a.archFilter lt r = .ok d2)
    (b1 : DocBuilt lt a1) (c1 : content a1 = content d1) (e1 : a1.encoding = d1.encoding) :
    ∃ x, a1.archFilter lt r = .ok x ∧ SameEntries (content x) (content d2) ∧ x.cmp lt d2 = .ok true := by
  have ia := docBuilt_inv ha
  have xa := contents_built ia
  obtain ⟨e, lg, lk, le, he, f1, f2, f3⟩ := archFilter_inv ia h1
  obtain ⟨e', mg, mk, me, he', g1, g2, g3⟩ := archFilter_inv ia h2
  rw [he] at he'
  cases he'
  obtain ⟨u1, k1, i1, k2, k3⟩ := archFilter_ok ia he f1 f2 f3
  obtain ⟨u2, l1, i2, l2, l3⟩ := archFilter_ok ia he g1 g2 g3
  rw [h1] at k1; rw [h2] at l1
  cases k1; cases l1
  obtain ⟨xg, p1, p3⟩ := groups_narrow hrs xa.1 f1 g1
  obtain ⟨xk, q1, q3⟩ := categories_narrow hrs xa.2.1 f2 g2
  obtain ⟨xe, o1, o3⟩ := envs_narrow hrs xa.2.2.1 f3 g3
  have n1 : a1.encoding = some e := e1.trans (rest_make e d1 k3)
  obtain ⟨x, w1, w2, w3, w4⟩ := archFilter_ok (req := r) (docBuilt_inv b1) n1 (lg := xg) (lk := xk)
    (le := xe) (by rw [c1, k2]; exact p1) (by rw [c1, k2]; exact q1) (by rw [c1, k2]; exact o1)
  have hs : SameEntries (content x) (content d2) := by
    rw [w3, l2]; exact ⟨p3, q3, o3, fun _ => rfl⟩
  refine ⟨x, w1, hs, ?_⟩
  have xl := contents_built w2; have xr := contents_built i2
  obtain ⟨z, hz, hz'⟩ := C41_doc_meaning (.archFilter r b1 w1) (.archFilter r ha h2) (shows_content w2)
    (shows_content i2)
  rw [hz]
  congr 1
  have hr : rest x = rest d2 := w4.trans l3.symm
  simp only [rest, Prod.mk.injEq] at hr
  refine hz'.2 ⟨hr.1, hr.2.1, hr.2.2.1, hr.2.2.2.1, ?_, ?_, ?_, hs.langpacks, ?_, ?_⟩
  · exact alike_imp hs.groups xl.1 xr.1 fun x y => group_same_cmp
  · exact alike_imp hs.categories xl.2.1 xr.2.1 fun x y => category_same_cmp
  · exact alike_imp hs.environments xl.2.2.1 xr.2.2.1 fun x y => env_same_cmp
  · intro k; rw [w3, l2]
  · intro k; rw [w3, l2]

/-- A document that the wider filter does not fail on can be filtered by the narrower one. -/
theorem narrow_ok {a d1 : Doc} (ha : DocBuilt lt a) {s r : List CStr} (hrs : ∀ x ∈ r, x ∈ s)
    (h1 : a.archFilter lt s = .ok d1) : ∃ d2, a.archFilter lt r = .ok d2 := by
  have ia := docBuilt_inv ha
  obtain ⟨e, lg, lk, le, he, f1, f2, f3⟩ := archFilter_inv ia h1
  obtain ⟨lg', g1⟩ : ∃ l, filterG r (content a).groups = .ok l :=
    docFilterList_sub hrs (fun g y h => by
      cases hp : g.packages with
      | none => simp only [Group.archFilter, hp] at h; cases h
      | some l => exact ⟨_, by simp only [Group.archFilter, hp]; rfl⟩) f1
  obtain ⟨lk', g2⟩ : ∃ l, filterK r (content a).categories = .ok l :=
    docFilterList_sub hrs (fun g y h => by
      cases hp : g.groupIds with
      | none => simp only [Category.archFilter, hp] at h; cases h
      | some l => exact ⟨_, by simp only [Category.archFilter, hp]; rfl⟩) f2
  obtain ⟨le', g3⟩ : ∃ l, filterE r (content a).environments = .ok l :=
    docFilterList_sub hrs (fun g y h => by
      cases hp : g.groupList with
      | none => simp only [Env.archFilter, hp] at h; cases h
      | some l =>
        cases ho : g.optionList with
        | none => simp only [Env.archFilter, hp, ho] at h; cases h
        | some o => exact ⟨_, by simp only [Env.archFilter, hp, ho]; rfl⟩) f3
  obtain ⟨u, k1, -⟩ := archFilter_ok ia he g1 g2 g3
  exact ⟨u, k1⟩

/-- **C179.**  If a document can be filtered by `s`, and every architecture of `r` is in `s`, then it can
be filtered by `r`, and filtering by `s` and after that by `r` gives the entries, in the order, that
filtering by `r` gives, and a document that compares equal.  With `s = r`: filtering a second time changes
nothing. -/
theorem C179_documents {a d1 : Doc} (ha : DocBuilt lt a) {s r : List CStr} (hrs : ∀ x ∈ r, x ∈ s)
    (h1 : a.archFilter lt s = .ok d1) :
    ∃ d2 x c2 cx, a.archFilter lt r = .ok d2 ∧ d1.archFilter lt r = .ok x ∧ Shows lt d2 c2 ∧
      Shows lt x cx ∧ SameEntries cx c2 ∧ x.cmp lt d2 = .ok true := by
  obtain ⟨d2, h2⟩ := narrow_ok ha hrs h1
  have b1 := DocBuilt.archFilter s ha h1
  obtain ⟨x, k1, k2, k3⟩ := narrow ha hrs h1 h2 b1 rfl rfl
  exact ⟨d2, x, _, _, h2, k1, shows_content (docBuilt_inv (.archFilter r ha h2)),
    shows_content (docBuilt_inv (.archFilter r b1 k1)), k2, k3⟩

/-- A document of which the wider filter leaves more than the narrower one. -/
example : ∃ (a d1 d2 : Doc), DocBuilt lt a ∧ (∀ x ∈ [cs b!"arm"], x ∈ [cs b!"i386", cs b!"arm"]) ∧
    a.archFilter lt [cs b!"i386", cs b!"arm"] = .ok d1 ∧ a.archFilter lt [cs b!"arm"] = .ok d2 ∧
    ∃ c1 c2, Shows lt d1 c1 ∧ Shows lt d2 c2 ∧
    c1.groups.map Group.getPackageList =
      [some [pkg b!"a" b!"1"], some [pkg b!"b" b!"2", forArches [cs b!"i386"]]] ∧
    c2.groups.map Group.getPackageList = [some [pkg b!"b" b!"2"]] := by
  obtain ⟨a, ha, he, sa⟩ := made (lt := lt)
    [.addGroup (archGrp lt [cs b!"i386"] [pkg b!"a" b!"1"]),
      .addGroup (archGrp lt [cs b!"i386", cs b!"arm"] [pkg b!"b" b!"2", forArches [cs b!"i386"]])]
    (by simp [DocCall.Good, archGrp_built])
  have ia := docBuilt_inv ha
  have hc := shows_unique (shows_content ia) sa
  obtain ⟨d1, h1, i1, c1, -⟩ := archFilter_ok (req := [cs b!"i386", cs b!"arm"]) (lg := _) (lk := [])
    (le := []) ia he (by rw [hc]; rfl) (by rw [hc]; rfl) (by rw [hc]; rfl)
  obtain ⟨d2, h2, i2, c2, -⟩ := archFilter_ok (req := [cs b!"arm"]) (lg := _) (lk := []) (le := [])
    ia he (by rw [hc]; rfl) (by rw [hc]; rfl) (by rw [hc]; rfl)
  exact ⟨a, d1, d2, ha, by simp, h1, h2, _, _, shows_content i1, shows_content i2, by rw [c1]; rfl,
    by rw [c2]; rfl⟩

end Comps.Props

namespace Comps.Props.PyC
open Comps Comps.Obj Comps.Spec Comps.Spec.PyComps Comps.PyComps Comps.Props

variable (lt : UInt8 → UInt8 → Bool)

/-- **C179.**  In every program that Python can write, for a list `r` of architectures all of which are
in `s`, the filtered documents can be made and `a.arch_filter(s).arch_filter(r) == a.arch_filter(r)`. -/
theorem C179_python {ops : List Op} {as : List Ans} {st : PyComps.St} (hn : ∀ o ∈ ops, NativeOp lt o)
    (h : run lt start ops = .ok (as, st)) {a : Nat} {y : Content} (hy : Holds lt st a y)
    {s r : List CStr} (hrs : ∀ x ∈ r, x ∈ s) :
    ∃ st1 st2 st3, step lt st (.archFilter a s) = .ok (.comps, st1) ∧
      step lt st1 (.archFilter st.docs.length r) = .ok (.comps, st2) ∧
      step lt st2 (.archFilter a r) = .ok (.comps, st3) ∧
      answer lt st3 (.eq st1.docs.length (some st2.docs.length)) = .ok (.bool true) := by
  obtain ⟨st1, d1, s1, x1, p1, w1, ⟨as1, r1⟩, n1⟩ := filtered lt hn h hy s
  obtain ⟨st2, x, s2, x2, p2, w2, ⟨as2, r2⟩, n2⟩ := filtered lt n1 r1 p1 r
  obtain ⟨st3, d2, s3, x3, p3, w3, ⟨as3, r3⟩, n3⟩ := filtered lt n2 r2 (w2 _ _ (w1 _ _ hy)) r
  refine ⟨st1, st2, st3, s1, s2, s3, ?_⟩
  obtain ⟨c, m, -⟩ := C140_made lt hn h hy
  obtain ⟨c1, m1, -⟩ := C140_made lt n1 r1 p1
  obtain ⟨c2, m2, -⟩ := C140_made lt n2 r2 p2
  obtain ⟨c3, m3, -⟩ := C140_made lt n3 r3 p3
  have b := (made_built m).1
  have b1 := DocBuilt.archFilter s b x1
  obtain ⟨u, k1, -, k3⟩ := narrow b hrs x1 x3 (made_built m1).1 (wrapped lt b1 m1) rfl
  rw [x2] at k1
  cases k1
  exact eq_cmp lt r3 (w3 _ _ p2) p3 (wrap_cmp lt (.archFilter r (made_built m1).1 x2)
    (.archFilter r b x3) m2 m3 k3)

/-- A program with such a document. -/
example : ∃ as st y, (∀ o ∈ sumOps [archGrp asc [cs b!"i386", cs b!"arm"] [forArches [cs b!"ppc"]]] [],
      NativeOp asc o) ∧
    run asc start (sumOps [archGrp asc [cs b!"i386", cs b!"arm"] [forArches [cs b!"ppc"]]] []) = .ok (as, st) ∧
    Holds asc st 0 y ∧ (∀ x ∈ [cs b!"arm"], x ∈ [cs b!"ppc", cs b!"arm"]) ∧
    y.part .groups = .groups [archGrp asc [cs b!"i386", cs b!"arm"] [forArches [cs b!"ppc"]]] :=
  ⟨_, _, _, sumOps_native asc (fun g hg => by rw [List.mem_singleton.1 hg]; exact ⟨archGrp_built _ _, nofun⟩)
    nofun, rfl, rfl, by simp, rfl⟩

end Comps.Props.PyC

open Comps.Props Comps.Props.PyC
#print axioms C179_documents
#print axioms C179_python
