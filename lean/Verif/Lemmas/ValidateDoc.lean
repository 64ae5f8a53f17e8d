import Verif.Lemmas.Validate
import Verif.Lemmas.XmlDoc
import Verif.Spec.ValidateDoc

/-! # Validation of documents -/

namespace Comps.Val
open Comps Comps.Obj Comps.Spec Comps.Text Comps.Xml

variable {lt : UInt8 → UInt8 → Bool}

/-- The complaints of a result. -/
def complaints : ValRes VObj → List (VObj × Bytes)
  | .ok => []
  | .err es => es.map fun e => (e.obj, e.msg)

theorem says_iff {v : ValRes VObj} {R : List (VObj × Bytes)} :
    Says v R ↔ complaints v = R ∧ v ≠ .err [] := by
  cases v with
  | ok => simp only [Says, complaints]; exact ⟨fun h => ⟨h.symm, nofun⟩, fun h => h.1.symm⟩
  | err es =>
    simp only [Says, complaints, ne_eq, ValRes.err.injEq]
    refine ⟨fun h => ⟨h.2, fun e => ?_⟩, fun h => ⟨fun e => ?_, h.1⟩⟩
    · subst e; exact h.1 h.2.symm
    · rw [e] at h; exact h.2 (List.map_eq_nil_iff.1 h.1)

theorem says_ok {v : ValRes VObj} {R : List (VObj × Bytes)} (h : Says v R) : v.isOk = true ↔ R = [] := by
  cases v with
  | ok => exact ⟨fun _ => h, fun _ => rfl⟩
  | err es => exact ⟨nofun, fun e => absurd e h.1⟩

/-- Results collected behind prefixes. -/
theorem says_collect {α : Type} (l : List α) (pre : α → Bytes) (res : α → ValRes VObj)
    (rep : α → List (VObj × Bytes)) (h : ∀ x ∈ l, Says (res x) (rep x)) :
    Says (if l.all (fun x => (res x).isOk) then .ok else .err (l.flatMap fun x => errs (pre x) (res x)))
      (l.flatMap fun x => (rep x).map fun r => (r.1, pre x ++ r.2)) := by
  have key : (l.flatMap fun x => errs (pre x) (res x)).map (fun e => (e.obj, e.msg)) =
      l.flatMap fun x => (rep x).map fun r => (r.1, pre x ++ r.2) := by
    rw [List.map_flatMap]
    rw [List.flatMap_def, List.flatMap_def]
    congr 1
    refine List.map_congr_left fun x hx => ?_
    have := h x hx
    cases e : res x with
    | ok => rw [e] at this; rw [show rep x = [] from this]; rfl
    | err es =>
      rw [e] at this
      rw [← this.2]
      simp [errs]
  cases e : l.all (fun x => (res x).isOk) with
  | true =>
    simp only [if_true, Says]
    rw [List.flatMap_eq_nil_iff]
    intro x hx
    have := List.all_eq_true.1 e x hx
    rw [(says_ok (h x hx)).1 this]; rfl
  | false =>
    simp only [Bool.false_eq_true, if_false, Says]
    refine ⟨fun hn => ?_, key⟩
    rw [List.all_eq_false] at e
    obtain ⟨x, hx, hx'⟩ := e
    rw [List.flatMap_eq_nil_iff] at hn
    have := hn x hx
    exact hx' ((says_ok (h x hx)).2 (List.map_eq_nil_iff.1 this))

theorem execute_says (o : VObj) (rr : List (Rule VObj × List (VObj × Bytes)))
    (h : ∀ x ∈ rr, ∃ v, x.1.check o = .ok v ∧ Says v x.2) :
    ∃ v, execute o (rr.map (·.1)) = .ok v ∧
      Says v (rr.flatMap fun x => x.2.map fun e => (e.1, x.1.msg ++ e.2)) := by
  let res : Rule VObj → ValRes VObj := fun r => match r.check o with
    | .ok v => v
    | .error _ => .ok
  have hres : ∀ x ∈ rr, x.1.check o = .ok (res x.1) ∧ Says (res x.1) x.2 := by
    intro x hx
    obtain ⟨v, h1, h2⟩ := h x hx
    have : res x.1 = v := by simp only [res, h1]
    rw [this]; exact ⟨h1, h2⟩
  refine ⟨_, execute_ok o res (rr.map (·.1)) ?_, ?_⟩
  · intro r hr
    obtain ⟨x, hx, rfl⟩ := List.mem_map.1 hr
    exact (hres x hx).1
  · have := says_collect rr (fun x => x.1.msg) (fun x => res x.1) (fun x => x.2) fun x hx => (hres x hx).2
    rw [List.all_map, List.flatMap_map]
    exact this

theorem empty_says (o : VObj) (p : Option (Option Bytes)) :
    ∃ v, emptyCheck o p = .ok v ∧ Says v ((missing p).map fun m => (o, m)) := by
  match p with
  | none => exact ⟨_, rfl, by simp [Says, missing]⟩
  | some none => exact ⟨_, rfl, by simp [Says, missing]⟩
  | some (some []) => exact ⟨_, rfl, by simp [Says, missing]⟩
  | some (some (_ :: _)) => exact ⟨_, rfl, by simp [Says, missing]⟩

/-! ## Repeated elements -/

theorem placed_val {α : Type} (l : List α) : (placed l).map Ref.val = l := by
  unfold placed
  rw [List.map_map]
  exact List.zipIdx_map_fst 0 l

theorem placed_addr {α : Type} (l : List α) : ∀ r ∈ placed l, ∀ r' ∈ placed l, r.addr = r'.addr →
    r.val = r'.val := by
  intro r hr r' hr' e
  unfold placed at hr hr'
  obtain ⟨x, hx, rfl⟩ := List.mem_map.1 hr
  obtain ⟨y, hy, rfl⟩ := List.mem_map.1 hr'
  have hx := List.mem_zipIdx_iff_getElem?.1 hx
  have hy := List.mem_zipIdx_iff_getElem?.1 hy
  simp only at e
  rw [e, hy] at hx
  exact (Option.some.inj hx).symm

/-- The test for a repetition. -/
def sameAt {α : Type} (same : α → α → Bool) (l : List α) (i j : Nat) : Bool :=
  (l[i]?.bind fun a => l[j]?.map fun b => same a b).getD false

theorem sameAt_iff {α : Type} {same : α → α → Bool} {l : List α} {i j : Nat} :
    sameAt same l i j = true ↔ ∃ a b, l[i]? = some a ∧ l[j]? = some b ∧ same a b = true := by
  unfold sameAt
  cases l[i]? <;> cases l[j]? <;> simp

theorem mem_repeats {α : Type} {same : α → α → Bool} {l : List α} {i j : Nat} :
    (i, j) ∈ repeats same l ↔ FirstEq same l i j := by
  unfold repeats
  rw [List.mem_flatMap]
  constructor
  · rintro ⟨j', hj, h⟩
    cases e : (List.range j').find? fun i => sameAt same l i j' with
    | none =>
      have e' := e
      unfold sameAt at e'
      rw [e'] at h; cases h
    | some i' =>
      have e' := e
      unfold sameAt at e'
      rw [e'] at h
      simp only [List.mem_singleton, Prod.mk.injEq] at h
      obtain ⟨rfl, rfl⟩ := h
      rw [List.find?_range_eq_some] at e
      obtain ⟨h1, h2, h3⟩ := e
      obtain ⟨a, b, ha, hb, hab⟩ := sameAt_iff.1 h1
      refine ⟨List.mem_range.1 h2, a, b, ha, hb, hab, fun k hk c hc => ?_⟩
      have := h3 k hk
      cases e2 : same c b with
      | false => rfl
      | true => rw [sameAt_iff.2 ⟨c, b, hc, hb, e2⟩] at this; cases this
  · rintro ⟨hij, a, b, ha, hb, hab, hk⟩
    have hj : j < l.length := (List.getElem?_eq_some_iff.1 hb).1
    refine ⟨j, List.mem_range.2 hj, ?_⟩
    have e : (List.range j).find? (fun i => sameAt same l i j) = some i := by
      rw [List.find?_range_eq_some]
      refine ⟨sameAt_iff.2 ⟨a, b, ha, hb, hab⟩, List.mem_range.2 hij, fun k hk' => ?_⟩
      cases e2 : sameAt same l k j with
      | false => rfl
      | true =>
        obtain ⟨c, b', hc, hb', h⟩ := sameAt_iff.1 e2
        rw [hb] at hb'; cases hb'
        rw [hk k hk' c hc] at h; cases h
    unfold sameAt at e
    rw [e]; simp

theorem repeats_sorted {α : Type} (same : α → α → Bool) (l : List α) :
    (repeats same l).Pairwise fun p q => p.2 < q.2 := by
  unfold repeats
  rw [List.pairwise_flatMap]
  refine ⟨fun j hj => ?_, ?_⟩
  · split <;> simp
  · refine List.Pairwise.imp ?_ List.pairwise_lt_range
    intro a b hab x hx y hy
    have hx2 : x.2 = a := by
      split at hx
      · rw [List.mem_singleton.1 hx]
      · cases hx
    have hy2 : y.2 = b := by
      split at hy
      · rw [List.mem_singleton.1 hy]
      · cases hy
    omega

/-- Two lists ordered by the second component with the same members are equal. -/
theorem sorted_eq : ∀ {l m : List (Nat × Nat)}, l.Pairwise (fun p q => p.2 < q.2) →
    m.Pairwise (fun p q => p.2 < q.2) → (∀ x, x ∈ l ↔ x ∈ m) → l = m
  | [], [], _, _, _ => rfl
  | [], y :: m, _, _, h => absurd ((h y).2 (by simp)) (by simp)
  | x :: l, [], _, _, h => absurd ((h x).1 (by simp)) (by simp)
  | x :: l, y :: m, hl, hm, h => by
    rw [List.pairwise_cons] at hl hm
    have hxy : x = y := by
      rcases List.mem_cons.1 ((h x).1 (by simp)) with h1 | h1
      · exact h1
      · rcases List.mem_cons.1 ((h y).2 (by simp)) with h2 | h2
        · exact h2.symm
        · have := hl.1 y h2; have := hm.1 x h1; omega
    subst hxy
    congr 1
    refine sorted_eq hl.2 hm.2 fun z => ⟨fun hz => ?_, fun hz => ?_⟩
    · rcases List.mem_cons.1 ((h z).1 (by simp [hz])) with rfl | h1
      · have := hl.1 z hz; omega
      · exact h1
    · rcases List.mem_cons.1 ((h z).2 (by simp [hz])) with rfl | h1
      · have := hm.1 z hz; omega
      · exact h1

theorem unique_says {α : Type} {cmp same : α → α → Bool} (he : IsEquiv cmp) (hc : ∀ a b, cmp a b = same a b)
    (o : VObj) {l : List α} (hl : l.length ≤ 10 ^ 9) :
    ∃ v, uniqueList cmp o (some l) = .ok v ∧
      Says v ((repeats same l).map fun p => (o, dupText dec p)) := by
  have hcs : cmp = same := by funext a b; exact hc a b
  subst hcs
  obtain ⟨ps, h1, h2, h3⟩ := uniqueLoop_pairs he (placed l) (placed_addr l) (placed l) [] [] rfl
    ⟨fun p hp => by simp at hp, fun s hs => by simp at hs⟩
  rw [placed_val] at h3
  have e : ps = repeats cmp l := sorted_eq h2 (repeats_sorted cmp l) fun x => by
    obtain ⟨i, j⟩ := x
    rw [h3, mem_repeats]; simp
  have hall : ps.all (fun p => p.2 < 1000000000) = true := by
    rw [List.all_eq_true]
    rintro ⟨i, j⟩ hp
    obtain ⟨-, -, b, -, hb, -⟩ := ((h3 i j).1 hp).2
    have := (List.getElem?_eq_some_iff.1 hb).1
    simp only [decide_eq_true_eq]; omega
  rw [hall, if_pos rfl] at h1
  have h1 : uniqueLoop cmp (placed l) [] 0 (placed l) = _ := h1
  unfold uniqueList
  simp only [uniqueCheck, Option.map_some]
  rw [h1, e]
  cases er : repeats cmp l with
  | nil => exact ⟨.ok, rfl, rfl⟩
  | cons p ps =>
    refine ⟨_, rfl, ?_⟩
    refine ⟨by simp, ?_⟩
    simp [dupText, dupMsg, decInt]

theorem package_equiv : IsEquiv Package.cmp ∧ ∀ a b, Package.cmp a b = samePackage a b := by
  refine ⟨⟨?_, ?_, ?_⟩, fun a b => ?_⟩
  · intro x; rw [Package.cmp_iff]; exact ⟨rfl, rfl, rfl⟩
  · intro x y; simp only [Package.cmp_iff]; rintro ⟨h1, h2, h3⟩; exact ⟨h1.symm, h2.symm, h3.symm⟩
  · intro x y z; simp only [Package.cmp_iff]; rintro ⟨h1, h2, h3⟩ ⟨h4, h5, h6⟩
    exact ⟨h1.trans h4, h2.trans h5, h3.trans h6⟩
  · rw [Bool.eq_iff_iff, Package.cmp_iff]; simp [samePackage, and_assoc]

theorem groupId_equiv : IsEquiv GroupId.cmp ∧ ∀ a b, GroupId.cmp a b = sameGroupId a b := by
  refine ⟨⟨?_, ?_, ?_⟩, fun a b => ?_⟩
  · intro x; rw [GroupId.cmp_iff]; exact ⟨rfl, rfl⟩
  · intro x y; simp only [GroupId.cmp_iff]; rintro ⟨h1, h2⟩; exact ⟨h1.symm, h2.symm⟩
  · intro x y z; simp only [GroupId.cmp_iff]; rintro ⟨h1, h2⟩ ⟨h4, h5⟩
    exact ⟨h1.trans h4, h2.trans h5⟩
  · rw [Bool.eq_iff_iff, GroupId.cmp_iff]; simp [sameGroupId]

/-! ## Entries -/

/-- The id among the properties is a string if it is there. -/
theorem id_str {props : RTree PVal} (hp : PropInv lt props) :
    ∃ s, asStr (props.get b!"id") = .ok s ∧ missingId props = missing (strVal s) := by
  cases e : props.get b!"id" with
  | none => exact ⟨none, rfl, by unfold missingId; rw [e]; rfl⟩
  | some v =>
    have := kind_of hp e
    cases v with
    | str s => exact ⟨some s, rfl, by unfold missingId; rw [e]; rfl⟩
    | num n => exact absurd (show (b!"id", 1) ∈ propKinds from this) (by decide)
    | list l => exact absurd (show (b!"id", 2) ∈ propKinds from this) (by decide)

theorem id_says {props : RTree PVal} (hp : PropInv lt props) (o : VObj) (msg : Bytes)
    {get : VObj → Res (Option (Option Bytes))}
    (hg : get o = (do .ok (strVal (← asStr (props.get b!"id"))))) :
    ∃ v, (propRule msg get emptyCheck).check o = .ok v ∧
      Says v ((missingId props).map fun m => (o, m)) := by
  obtain ⟨s, h1, h2⟩ := id_str hp
  obtain ⟨v, h3, h4⟩ := empty_says o (strVal s)
  refine ⟨v, ?_, by rw [h2]; exact h4⟩
  simp only [propRule, hg, h1, bind, Except.bind, h3]

theorem group_says {g : Group} (h : DictsInv lt g.props g.nameByLang g.descByLang)
    (hl : ∃ l, g.packages = some l ∧ l.length ≤ 10 ^ 9) :
    ∃ v, execute (.group g) groupRules = .ok v ∧ Says v (groupReport dec g) := by
  obtain ⟨l, hl, hlen⟩ := hl
  obtain ⟨v, h1, h2⟩ := execute_says (.group g)
    [(propRule b!"Group id check: " getGroupId emptyCheck,
      (missingId g.props).map fun m => (.group g, m)),
     (⟨b!"Group unique package list check: ", checkPackages⟩,
      (repeats samePackage l).map fun p => (.group g, dupText dec p))] (by
    intro x hx
    simp only [List.mem_cons, List.not_mem_nil, or_false] at hx
    rcases hx with rfl | rfl
    · exact id_says h.props _ _ rfl
    · simp only [checkPackages, hl]
      exact unique_says package_equiv.1 package_equiv.2 _ hlen)
  refine ⟨v, h1, ?_⟩
  unfold groupReport
  rw [hl]
  simp only [List.flatMap_cons, List.flatMap_nil, List.append_nil, List.map_append, List.map_map] at h2 ⊢
  exact h2

theorem category_says {g : Category} (h : DictsInv lt g.props g.nameByLang g.descByLang)
    (hl : ∃ l, g.groupIds = some l ∧ l.length ≤ 10 ^ 9) :
    ∃ v, execute (.category g) categoryRules = .ok v ∧ Says v (categoryReport dec g) := by
  obtain ⟨l, hl, hlen⟩ := hl
  obtain ⟨v, h1, h2⟩ := execute_says (.category g)
    [(propRule b!"Category id check: " getCategoryId emptyCheck,
      (missingId g.props).map fun m => (.category g, m)),
     (⟨b!"Category unique package list check: ", checkGroupIds⟩,
      (repeats sameGroupId l).map fun p => (.category g, dupText dec p))] (by
    intro x hx
    simp only [List.mem_cons, List.not_mem_nil, or_false] at hx
    rcases hx with rfl | rfl
    · exact id_says h.props _ _ rfl
    · simp only [checkGroupIds, hl]
      exact unique_says groupId_equiv.1 groupId_equiv.2 _ hlen)
  refine ⟨v, h1, ?_⟩
  unfold categoryReport
  rw [hl]
  simp only [List.flatMap_cons, List.flatMap_nil, List.append_nil, List.map_append, List.map_map] at h2 ⊢
  exact h2

theorem env_says {g : Env} (h : DictsInv lt g.props g.nameByLang g.descByLang)
    (hl : ∃ l, g.groupList = some l ∧ l.length ≤ 10 ^ 9)
    (hl' : ∃ l, g.optionList = some l ∧ l.length ≤ 10 ^ 9) :
    ∃ v, execute (.env g) envRules = .ok v ∧ Says v (envReport dec g) := by
  obtain ⟨l, hl, hlen⟩ := hl
  obtain ⟨l', hl', hlen'⟩ := hl'
  obtain ⟨v, h1, h2⟩ := execute_says (.env g)
    [(propRule b!"Environment id check: " getEnvId emptyCheck,
      (missingId g.props).map fun m => (.env g, m)),
     (⟨b!"Environment unique group list check: ", checkGroupList⟩,
      (repeats sameGroupId l).map fun p => (.env g, dupText dec p)),
     (⟨b!"Environment unique option list check: ", checkOptionList⟩,
      (repeats sameGroupId l').map fun p => (.env g, dupText dec p))] (by
    intro x hx
    simp only [List.mem_cons, List.not_mem_nil, or_false] at hx
    rcases hx with rfl | rfl | rfl
    · exact id_says h.props _ _ rfl
    · simp only [checkGroupList, hl]
      exact unique_says groupId_equiv.1 groupId_equiv.2 _ hlen
    · simp only [checkOptionList, hl']
      exact unique_says groupId_equiv.1 groupId_equiv.2 _ hlen')
  refine ⟨v, h1, ?_⟩
  unfold envReport
  rw [hl, hl']
  simp only [List.flatMap_cons, List.flatMap_nil, List.append_nil, List.map_append, List.map_map] at h2 ⊢
  exact h2

/-! ## Lists and documents -/

theorem list_says {α : Type} (inj : α → VObj) (rules : List (Rule VObj)) (rep : α → List (VObj × Bytes))
    (l : List α) (hlen : l.length < 2 ^ 64)
    (h : ∀ x ∈ l, ∃ v, execute (inj x) rules = .ok v ∧ Says v (rep x)) :
    ∃ v, listValidate rules (some (l.map inj)) = .ok v ∧ Says v (listReport dec [] rep l) := by
  let res : VObj → ValRes VObj := fun o => match execute o rules with
    | .ok v => v
    | .error _ => .ok
  have hres : ∀ x ∈ l, execute (inj x) rules = .ok (res (inj x)) ∧ Says (res (inj x)) (rep x) := by
    intro x hx
    obtain ⟨v, h1, h2⟩ := h x hx
    have : res (inj x) = v := by simp only [res, h1]
    rw [this]; exact ⟨h1, h2⟩
  simp only [listValidate]
  rw [listLoop_ok rules res (l.map inj) (by
      intro o ho
      obtain ⟨x, hx, rfl⟩ := List.mem_map.1 ho
      exact (hres x hx).1) 0 (by rw [List.length_map]; omega),
    collect_fold (fun p : VObj × Nat => dec p.2 ++ b!".") (fun p => res p.1)]
  have key := says_collect l.zipIdx (fun p => dec p.2 ++ b!".") (fun p => res (inj p.1))
    (fun p => rep p.1) fun p hp => (hres p.1 (List.fst_mem_of_mem_zipIdx hp)).2
  have hr : listReport dec [] rep l =
      l.zipIdx.flatMap fun x => (rep x.1).map fun r => (r.1, dec x.2 ++ b!"." ++ r.2) := by
    unfold listReport; rfl
  rw [hr]
  have hz : (l.map inj).zipIdx 0 = l.zipIdx.map fun p => (inj p.1, p.2) := by
    rw [List.zipIdx_map]; rfl
  rw [hz]
  simp only [List.all_map, List.flatMap_map, Function.comp_def, Option.isNone_none, Bool.true_and,
    Option.getD_none, List.nil_append]
  cases e : l.zipIdx.all fun p => (res (inj p.1)).isOk with
  | true => rw [e] at key; exact ⟨.ok, rfl, key⟩
  | false => rw [e] at key; exact ⟨_, rfl, key⟩

theorem doc_says {d : Doc} (hd : ObjsInv lt d.objects) (hl : Listed (content d)) :
    ∃ v, execute (.doc d) (docRules lt) = .ok v ∧ Says v (docReport dec (content d)) := by
  obtain ⟨xg, xc, xe, -, -, -⟩ := contents_built hd
  obtain ⟨d1, g1, -⟩ := groupsAt.getObj hd
  obtain ⟨d2, g2, -⟩ := categoriesAt.getObj hd
  obtain ⟨d3, g3, -⟩ := environmentsAt.getObj hd
  obtain ⟨v, h1, h2⟩ := execute_says (.doc d)
    [(propRule b!"Groups check:" (getList lt groupsSlot .group) fun _ l => listValidate groupRules l,
      listReport dec [] (groupReport dec) (content d).groups),
     (propRule b!"Categories check:" (getList lt categoriesSlot .category)
       fun _ l => listValidate categoryRules l,
      listReport dec [] (categoryReport dec) (content d).categories),
     (propRule b!"Environments check:" (getList lt environmentsSlot .env)
       fun _ l => listValidate envRules l,
      listReport dec [] (envReport dec) (content d).environments)] (by
    intro x hx
    simp only [List.mem_cons, List.not_mem_nil, or_false] at hx
    rcases hx with rfl | rfl | rfl
    · simp only [propRule, getList, g1, bind, Except.bind]
      exact list_says _ _ _ _ hl.few.1 fun g hg => group_says (groupBuilt_inv (xg g hg)) (hl.groups g hg)
    · simp only [propRule, getList, g2, bind, Except.bind]
      exact list_says _ _ _ _ hl.few.2.1 fun g hg =>
        category_says (categoryBuilt_inv (xc g hg)) (hl.categories g hg)
    · simp only [propRule, getList, g3, bind, Except.bind]
      exact list_says _ _ _ _ hl.few.2.2 fun g hg =>
        env_says (envBuilt_inv (xe g hg)) (hl.environments g hg).1 (hl.environments g hg).2)
  refine ⟨v, h1, ?_⟩
  unfold docReport
  simp only [List.flatMap_cons, List.flatMap_nil, List.append_nil, listReport, List.map_flatMap,
    List.map_map] at h2 ⊢
  exact h2

end Comps.Val
