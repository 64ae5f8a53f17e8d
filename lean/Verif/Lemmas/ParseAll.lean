import Verif.Lemmas.ParseKids

/-!
# The parser: entries and the whole file
-/

namespace Comps.Parse
open Comps Comps.Spec Comps.Obj Comps.Text Comps.Xml

/-! ## entries -/

theorem requiredProps_codes (props : RTree PVal) (q : Pos) :
    (requiredProps props q).map (·.code) = requiredCodes props := by
  have h : ∀ (v : Option PVal) (n : Bytes), (checkRequired v n q).map (·.code) =
      if v.isNone then [21] else [] := by
    intro v n; cases v <;> rfl
  unfold requiredProps requiredCodes
  rw [List.map_append, List.map_append, h, h, h]
  simp only [List.filter_cons, List.filter_nil]
  cases (props.get b!"id").isNone <;> cases (props.get b!"name").isNone <;>
    cases (props.get b!"desc").isNone <;> rfl

theorem archProps_eq (r : Reading) (st : List Elem) (n : Bytes) {attrs : List (Bytes × Bytes)}
    (ha : Fits r attrs) :
    archProps r.ctx (newElem r.ctx st n attrs) RTree.create = newProps r attrs := by
  have h : (newElem r.ctx st n attrs).attrs = attrDict r.lt attrs := rfl
  unfold archProps newProps
  rw [h, ha.get, archesIn_eq]
  cases r.look attrs b!"arch" <;> rfl

theorem newProps_run (r : Reading) (attrs : List (Bytes × Bytes)) :
    newProps r attrs = RTree.create ∨
      ∃ l, newProps r attrs = PropCall.run r.lt RTree.create (.arches (some l)) := by
  unfold newProps
  cases archesIn r attrs with
  | none => exact .inl rfl
  | some l => exact .inr ⟨l, rfl⟩

theorem newGroup_built (r : Reading) (attrs : List (Bytes × Bytes)) :
    GroupBuilt r.lt ⟨newProps r attrs, RTree.create, RTree.create, some []⟩ := by
  rcases newProps_run r attrs with h | ⟨l, h⟩
  · rw [h]; exact .create
  · rw [h]; exact .prop (.arches (some l)) .create

theorem newCategory_built (r : Reading) (attrs : List (Bytes × Bytes)) :
    CategoryBuilt r.lt ⟨newProps r attrs, RTree.create, RTree.create, some []⟩ := by
  rcases newProps_run r attrs with h | ⟨l, h⟩
  · rw [h]; exact .create
  · rw [h]; exact .prop (.arches (some l)) .create

theorem newEnv_built (r : Reading) (attrs : List (Bytes × Bytes)) :
    EnvBuilt r.lt ⟨newProps r attrs, RTree.create, RTree.create, some [], some []⟩ := by
  rcases newProps_run r attrs with h | ⟨l, h⟩
  · rw [h]; exact .create
  · rw [h]; exact .prop (.arches (some l)) .create

theorem withDefault_eq (r : Reading) (key : Bytes) (b : Bool) (props : RTree PVal) :
    withDefault r key b props = defaultFlag r.ctx key b props := by
  unfold withDefault defaultFlag
  cases props.get key <;> cases b <;> rfl

theorem endGroup_eq (r : Reading) (g : Group) :
    endGroup r g = { g with props := defaultFlags r.ctx g.props } := by
  simp only [endGroup, defaultFlags, withDefault_eq]
  rfl

theorem withDefault_built (r : Reading) (np : NumProp) (b : Bool) {g : Group}
    (h : GroupBuilt r.lt g) :
    GroupBuilt r.lt { g with props := withDefault r np.key b g.props } := by
  unfold withDefault
  split
  · exact h
  · exact .prop (.num np (if b then 1 else 0) false) h

theorem endGroup_built (r : Reading) {g : Group} (h : GroupBuilt r.lt g) :
    GroupBuilt r.lt (endGroup r g) :=
  withDefault_built r .biarchonly _ (withDefault_built r .uservisible _
    (withDefault_built r .dflt _ h))

theorem group_ok (r : Reading) {m : Rest} {top : Elem} {st : List Elem} {c : DocContent}
    (hT : top.type = .doc) (hv : top.valid = true) {attrs : List (Bytes × Bytes)}
    {kids : List XNode} (ha : Fits r attrs) (hk : AllTidy (Fits r) kids) (hs : GroupSafe kids) :
    KidOk r m (top :: st) b!"group" attrs kids c
      (withGroup c (endGroup r (inner r (groupKid r)
        ⟨newProps r attrs, RTree.create, RTree.create, some []⟩ kids
        (fun g => requiredCodes g.props)).1))
      (inner r (groupKid r) ⟨newProps r attrs, RTree.create, RTree.create, some []⟩ kids
        (fun g => requiredCodes g.props)).2 := by
  refine (innerKid r (m := m) (kid := groupKid r) (embed := fun g => withGroup c g)
    (Inv := fun g => GroupBuilt r.lt g ∧ g.packages ≠ none) (GroupKidSafe r) (n := b!"group")
    (c := c) ha hk (by rw [hT]; decide) hv (by rw [hT]; decide) (by decide) ?_ ?_ ?_
    ?_ ⟨newGroup_built r attrs, by simp⟩ (out := fun g => withGroup c (endGroup r g)) ?_).1
  · intro x n' attrs' kids' y hi _ ha' hk' hs' hy
    exact groupKid_ok r rfl (valid_child (by rw [hT]; decide) hv (by rw [hT]; decide)) hi.1 hi.2
      ha' hk' hs' hy
  · exact fun x n' attrs' kids' hm => groupKid_some r x n' attrs' kids' hm
  · intro p n attrs ks q hm
    refine ⟨?_, ?_⟩
    · rintro rfl; exact hs.order p attrs ks q hm
    · rintro (rfl | rfl)
      · exact hs.uservisible p attrs ks q hm
      · exact hs.biarchonly p attrs ks q hm
  · intro enc d hd
    have e := archProps_eq r (top :: st) b!"group" ha
    obtain ⟨d1, h1, h2⟩ := entryPre_ok r.ctx (o := groupOps) groupsAt hd Group.create
      (newElem r.ctx (top :: st) b!"group" attrs) (by
        show GroupBuilt r.lt ⟨archProps r.ctx _ RTree.create, RTree.create, RTree.create, some []⟩
        rw [e]; exact newGroup_built r attrs)
    refine ⟨d1, h1, ?_⟩
    have : groupOps.setProps Group.create (archProps r.ctx (newElem r.ctx (top :: st) b!"group" attrs)
        (groupOps.props Group.create)) =
        ⟨newProps r attrs, RTree.create, RTree.create, some []⟩ := by
      rw [← e]; rfl
    rw [this] at h2
    exact h2
  · intro q y t d hi hd
    obtain ⟨d2, h1, h2⟩ := onLast_ok r.ctx groupsAt (c := c) (gs := c.groups) (g := y) hd
      (f := fun g => .ok ({ g with props := defaultFlags r.ctx g.props }, requiredProps g.props q))
      (g' := endGroup r y) (L := requiredProps y.props q) (by rw [endGroup_eq])
      (endGroup_built r hi.1)
    exact ⟨d2, _, after_ok h1, requiredProps_codes _ _, h2⟩

theorem category_ok (r : Reading) {m : Rest} {top : Elem} {st : List Elem} {c : DocContent}
    (hT : top.type = .doc) (hv : top.valid = true) {attrs : List (Bytes × Bytes)}
    {kids : List XNode} (ha : Fits r attrs) (hk : AllTidy (Fits r) kids)
    (hs : Each b!"display_order" (fun _ k => OrderSafe k) kids) :
    KidOk r m (top :: st) b!"category" attrs kids c
      (withCategory c (inner r (categoryKid r)
        ⟨newProps r attrs, RTree.create, RTree.create, some []⟩ kids
        (fun g => requiredCodes g.props)).1)
      (inner r (categoryKid r) ⟨newProps r attrs, RTree.create, RTree.create, some []⟩ kids
        (fun g => requiredCodes g.props)).2 := by
  refine (innerKid r (m := m) (kid := categoryKid r) (embed := fun g => withCategory c g)
    (Inv := fun g => CategoryBuilt r.lt g ∧ g.groupIds ≠ none) (EntryKidSafe r) (n := b!"category")
    (c := c) ha hk (by rw [hT]; decide) hv (by rw [hT]; decide) (by decide) ?_ ?_ ?_
    ?_ ⟨newCategory_built r attrs, by simp⟩ (out := fun g => withCategory c g) ?_).1
  · intro x n' attrs' kids' y hi _ ha' hk' hs' hy
    exact categoryKid_ok r rfl (valid_child (by rw [hT]; decide) hv (by rw [hT]; decide)) hi.1 hi.2
      ha' hk' hs' hy
  · exact fun x n' attrs' kids' hm => categoryKid_some r x n' attrs' kids' hm
  · intro p n attrs ks q hm
    rintro rfl
    exact hs p attrs ks q hm
  · intro enc d hd
    have e := archProps_eq r (top :: st) b!"category" ha
    obtain ⟨d1, h1, h2⟩ := entryPre_ok r.ctx (o := categoryOps) categoriesAt hd Category.create
      (newElem r.ctx (top :: st) b!"category" attrs) (by
        show CategoryBuilt r.lt
          ⟨archProps r.ctx _ RTree.create, RTree.create, RTree.create, some []⟩
        rw [e]; exact newCategory_built r attrs)
    refine ⟨d1, h1, ?_⟩
    have : categoryOps.setProps Category.create
        (archProps r.ctx (newElem r.ctx (top :: st) b!"category" attrs)
        (categoryOps.props Category.create)) =
        ⟨newProps r attrs, RTree.create, RTree.create, some []⟩ := by
      rw [← e]; rfl
    rw [this] at h2
    exact h2
  · intro q y t d hi hd
    obtain ⟨d2, h1, h2⟩ := onLast_ok r.ctx categoriesAt (c := c) (gs := c.categories) (g := y) hd
      (f := fun g => .ok (g, requiredProps (categoryOps.props g) q))
      (g' := y) (L := requiredProps y.props q) rfl hi.1
    exact ⟨d2, _, after_ok h1, requiredProps_codes _ _, h2⟩

theorem environment_ok (r : Reading) {m : Rest} {top : Elem} {st : List Elem} {c : DocContent}
    (hT : top.type = .doc) (hv : top.valid = true) {attrs : List (Bytes × Bytes)}
    {kids : List XNode} (ha : Fits r attrs) (hk : AllTidy (Fits r) kids)
    (hs : Each b!"display_order" (fun _ k => OrderSafe k) kids) :
    KidOk r m (top :: st) b!"environment" attrs kids c
      (withEnv c (inner r (envKid r)
        ⟨newProps r attrs, RTree.create, RTree.create, some [], some []⟩ kids
        (fun g => requiredCodes g.props)).1)
      (inner r (envKid r) ⟨newProps r attrs, RTree.create, RTree.create, some [], some []⟩ kids
        (fun g => requiredCodes g.props)).2 := by
  refine (innerKid r (m := m) (kid := envKid r) (embed := fun g => withEnv c g)
    (Inv := fun g => EnvBuilt r.lt g ∧ g.groupList ≠ none ∧ g.optionList ≠ none) (EntryKidSafe r)
    (n := b!"environment")
    (c := c) ha hk (by rw [hT]; decide) hv (by rw [hT]; decide) (by decide) ?_ ?_ ?_
    ?_ ⟨newEnv_built r attrs, by simp⟩ (out := fun g => withEnv c g) ?_).1
  · intro x n' attrs' kids' y hi _ ha' hk' hs' hy
    exact envKid_ok r rfl (valid_child (by rw [hT]; decide) hv (by rw [hT]; decide)) hi.1 hi.2
      ha' hk' hs' hy
  · exact fun x n' attrs' kids' hm => envKid_some r x n' attrs' kids' hm
  · intro p n attrs ks q hm
    rintro rfl
    exact hs p attrs ks q hm
  · intro enc d hd
    have e := archProps_eq r (top :: st) b!"environment" ha
    obtain ⟨d1, h1, h2⟩ := entryPre_ok r.ctx (o := envOps) environmentsAt hd Env.create
      (newElem r.ctx (top :: st) b!"environment" attrs) (by
        show EnvBuilt r.lt
          ⟨archProps r.ctx _ RTree.create, RTree.create, RTree.create, some [], some []⟩
        rw [e]; exact newEnv_built r attrs)
    refine ⟨d1, h1, ?_⟩
    have : envOps.setProps Env.create
        (archProps r.ctx (newElem r.ctx (top :: st) b!"environment" attrs)
        (envOps.props Env.create)) =
        ⟨newProps r attrs, RTree.create, RTree.create, some [], some []⟩ := by
      rw [← e]; rfl
    rw [this] at h2
    exact h2
  · intro q y t d hi hd
    obtain ⟨d2, h1, h2⟩ := onLast_ok r.ctx environmentsAt (c := c) (gs := c.environments) (g := y) hd
      (f := fun g => .ok (g, requiredProps (envOps.props g) q))
      (g' := y) (L := requiredProps y.props q) rfl hi.1
    exact ⟨d2, _, after_ok h1, requiredProps_codes _ _, h2⟩

/-! ## dictionaries of the document -/

theorem pairPre_ok {σ : Type} (r : Reading) {sl : Slot σ} {C : σ → Prop}
    {get : DocContent → σ} {put : DocContent → σ → DocContent} (hp : Placed r.lt sl C get put)
    {add : σ → Bytes → CStr → σ} (hadd : ∀ t k s, C t → C (add t k s))
    {addD : Doc → Bytes → CStr → Res Doc}
    (haddD : ∀ d k s, addD d k s = Doc.addObj r.lt sl (fun t => add t k s) d)
    {k v key : Bytes} {e : Elem} {attrs : List (Bytes × Bytes)} (ha : Fits r attrs)
    (he : e.attrs = attrDict r.lt attrs) (hk : r.look attrs k = some key) {c : DocContent} {t : σ}
    {m : Rest} {d : DocPtr} (hd : Holds r.lt (put c t) m d) :
    ∃ d1, pairPre addD k v e d = .ok d1 ∧
      Holds r.lt (put c (add t key ⟨r.look attrs v⟩)) m d1 := by
  obtain ⟨d, rfl, hb, hc, rfl⟩ := hd
  have hi := docBuilt_inv hb
  have ht : get (Obj.content d) = t := by rw [hc, hp.get_put]
  have hCt : C t := by rw [← ht, hp.get_view]; exact view_ok hp.ok hi
  have hadd' : C ((fun t => add t key ⟨r.look attrs v⟩) (get (Obj.content d))) := by
    rw [ht]; exact hadd _ _ _ hCt
  obtain ⟨d', h1, -, h3, h4⟩ := hp.addObj hi (fun t => add t key ⟨r.look attrs v⟩) hadd'
  refine ⟨.live d', ?_, d', rfl, hp.addBuilt hb hadd' h1, ?_, h4⟩
  · have h1' : addD d key (compsStr (r.look attrs v)) = .ok d' := by rw [haddD]; exact h1
    simp only [pairPre, DocPtr.deref, he, ha.get, hk, h1', bind, Except.bind]
  · rw [h3, ht, hc, hp.put_put]

theorem pairs_ok {σ : Type} (r : Reading) {sl : Slot σ} {C : σ → Prop}
    {get : DocContent → σ} {put : DocContent → σ → DocContent} (hp : Placed r.lt sl C get put)
    {add : σ → Bytes → CStr → σ} (hadd : ∀ t k s, C t → C (add t k s))
    {addD : Doc → Bytes → CStr → Res Doc}
    (haddD : ∀ d k s, addD d k s = Doc.addObj r.lt sl (fun t => add t k s) d)
    {n name k v : Bytes} {m : Rest} {top : Elem} {st : List Elem} {c : DocContent}
    (hT : top.type = .doc) (hv : top.valid = true) (hn : n ∈ children .doc)
    (hc : getType n ∈ containers) (hch : children (getType n) = [name])
    (hl : getType name ∈ leafTypes)
    (hpre : ∀ enc e below d, e.type = getType n → preproc r.ctx enc e below d = .ok d)
    (hpost : ∀ e below q t d, e.type = getType n → postproc r.ctx e below q t d = .ok ⟨d, [], false⟩)
    (hpre' : ∀ enc e below d, e.type = getType name → preproc r.ctx enc e below d =
      pairPre addD k v e d)
    (hpost' : ∀ e below q t d, e.type = getType name →
      postproc r.ctx e below q t d = .ok ⟨d, [], false⟩)
    {attrs : List (Bytes × Bytes)}
    {kids : List XNode} (ha : Fits r attrs) (hk : AllTidy (Fits r) kids)
    (hs : Each name (fun a _ => r.look a k ≠ none) kids) :
    KidOk r m (top :: st) n attrs kids c
      (put c (inner r (pairKid r name k v add) (get c) kids (fun _ => [])).1)
      (inner r (pairKid r name k v add) (get c) kids (fun _ => [])).2 := by
  refine (innerKid r (m := m) (kid := pairKid r name k v add) (embed := fun t => put c t)
    (Inv := fun _ => True) (fun n a _ => n = name → r.look a k ≠ none) (n := n)
    (c := c) ha hk (by rw [hT]; decide) hv (by rw [hT]; exact hn) hc ?_ ?_ ?_
    ?_ trivial (out := fun t => put c t) ?_).1
  · intro x n' attrs' kids' y _ _ ha' hk' hs' hy
    refine ⟨?_, trivial⟩
    by_cases e : n' = name
    · subst e
      obtain ⟨key, hkey⟩ := Option.ne_none_iff_exists'.1 (hs' rfl)
      simp only [pairKid, if_true, hkey, Option.some.injEq] at hy
      subst hy
      have := leafKid r (m := m) (top := newElem r.ctx (top :: st) n attrs) (st := top :: st)
        (n := n') (attrs := attrs') (kids := kids') (c := put c x)
        (c1 := put c (add x key ⟨r.look attrs' v⟩)) (c' := put c (add x key ⟨r.look attrs' v⟩))
        (codes := []) ha' hk' hc (valid_child (by rw [hT]; decide) hv (by rw [hT]; exact hn))
        (by
          show n' ∈ children (getType n)
          rw [hch]; exact List.mem_singleton.2 rfl) hl false
        (by
          intro enc d hd
          obtain ⟨d1, h1, h2⟩ := pairPre_ok r hp hadd haddD (v := v)
            (e := newElem r.ctx (newElem r.ctx (top :: st) n attrs :: top :: st) n' attrs')
            ha' rfl hkey hd
          exact ⟨d1, by rw [hpre' _ _ _ _ rfl]; exact h1, h2⟩)
        (by
          intro q d hd
          exact ⟨d, [], hpost' _ _ _ _ _ rfl, rfl, hd⟩)
      simpa [leaf] using this
    · rw [pairKid, if_neg e] at hy; cases hy
  · intro x n' attrs' kids' hm
    rw [hch] at hm
    rw [pairKid, if_pos (List.mem_singleton.1 hm)]; simp
  · intro p n attrs ks q hm
    rintro rfl
    exact hs p attrs ks q hm
  · intro enc d hd
    exact ⟨d, hpre _ _ _ _ rfl, by rw [hp.put_get]; exact hd⟩
  · intro q y t d _ hd
    exact ⟨d, [], hpost _ _ _ _ _ rfl, rfl, hd⟩

theorem langpacks_ok (r : Reading) {m : Rest} {top : Elem} {st : List Elem} {c : DocContent}
    (hT : top.type = .doc) (hv : top.valid = true) {attrs : List (Bytes × Bytes)}
    {kids : List XNode} (ha : Fits r attrs) (hk : AllTidy (Fits r) kids)
    (hs : Each b!"match" (fun a _ => r.look a b!"name" ≠ none) kids) :
    KidOk r m (top :: st) b!"langpacks" attrs kids c
      { c with langpacks := (inner r (matchKid r) c.langpacks kids (fun _ => [])).1 }
      (inner r (matchKid r) c.langpacks kids (fun _ => [])).2 :=
  pairs_ok r langpacksAt (add := fun t k s => t.set r.lt k (some (.str s)))
    (fun _ k s h => .set k s h) (addD := Doc.addLangpack r.ctx.lt) (fun _ _ _ => rfl) hT hv
    (by decide) (by decide) rfl (by decide) (fun _ _ _ _ h => by unfold preproc; rw [h]; rfl)
    (fun _ _ _ _ _ h => by unfold postproc; rw [h]; rfl)
    (fun _ _ _ _ h => by unfold preproc; rw [h]; rfl)
    (fun _ _ _ _ _ h => by unfold postproc; rw [h]; rfl) ha hk hs

theorem blacklist_ok (r : Reading) {m : Rest} {top : Elem} {st : List Elem} {c : DocContent}
    (hT : top.type = .doc) (hv : top.valid = true) {attrs : List (Bytes × Bytes)}
    {kids : List XNode} (ha : Fits r attrs) (hk : AllTidy (Fits r) kids)
    (hs : Each b!"package" (fun a _ => r.look a b!"name" ≠ none) kids) :
    KidOk r m (top :: st) b!"blacklist" attrs kids c
      { c with blacklist := (inner r (blackKid r) c.blacklist kids (fun _ => [])).1 }
      (inner r (blackKid r) c.blacklist kids (fun _ => [])).2 :=
  pairs_ok r blacklistAt (add := fun t k s => MTree.set t k s)
    (fun _ k s h => .set k s h) (addD := Doc.addBlacklist r.ctx.lt) (fun _ _ _ => rfl) hT hv
    (by decide) (by decide) rfl (by decide) (fun _ _ _ _ h => by unfold preproc; rw [h]; rfl)
    (fun _ _ _ _ _ h => by unfold postproc; rw [h]; rfl)
    (fun _ _ _ _ h => by unfold preproc; rw [h]; rfl)
    (fun _ _ _ _ _ h => by unfold postproc; rw [h]; rfl) ha hk hs

theorem whiteout_ok (r : Reading) {m : Rest} {top : Elem} {st : List Elem} {c : DocContent}
    (hT : top.type = .doc) (hv : top.valid = true) {attrs : List (Bytes × Bytes)}
    {kids : List XNode} (ha : Fits r attrs) (hk : AllTidy (Fits r) kids)
    (hs : Each b!"ignoredep" (fun a _ => r.look a b!"requires" ≠ none) kids) :
    KidOk r m (top :: st) b!"whiteout" attrs kids c
      { c with whiteout := (inner r (whiteKid r) c.whiteout kids (fun _ => [])).1 }
      (inner r (whiteKid r) c.whiteout kids (fun _ => [])).2 :=
  pairs_ok r whiteoutAt (add := fun t k s => MTree.set t k s)
    (fun _ k s h => .set k s h) (addD := Doc.addWhiteout r.ctx.lt) (fun _ _ _ => rfl) hT hv
    (by decide) (by decide) rfl (by decide) (fun _ _ _ _ h => by unfold preproc; rw [h]; rfl)
    (fun _ _ _ _ _ h => by unfold postproc; rw [h]; rfl)
    (fun _ _ _ _ h => by unfold preproc; rw [h]; rfl)
    (fun _ _ _ _ _ h => by unfold postproc; rw [h]; rfl) ha hk hs

/-! ## the document -/

/-- The condition on a child of `<comps>`. -/
def DocKidSafe (r : Reading) (n : Bytes) (_attrs : List (Bytes × Bytes)) (kids : List XNode) : Prop :=
  (n = b!"group" → GroupSafe kids) ∧
  (n = b!"category" → Each b!"display_order" (fun _ k => OrderSafe k) kids) ∧
  (n = b!"environment" → Each b!"display_order" (fun _ k => OrderSafe k) kids) ∧
  (n = b!"langpacks" → Each b!"match" (fun a _ => r.look a b!"name" ≠ none) kids) ∧
  (n = b!"blacklist" → Each b!"package" (fun a _ => r.look a b!"name" ≠ none) kids) ∧
  (n = b!"whiteout" → Each b!"ignoredep" (fun a _ => r.look a b!"requires" ≠ none) kids)

theorem docKid_ok (r : Reading) {m : Rest} {top : Elem} {st : List Elem} {c : DocContent}
    (hT : top.type = .doc) (hv : top.valid = true) {n : Bytes} {attrs : List (Bytes × Bytes)}
    {kids : List XNode} (ha : Fits r attrs) (hk : AllTidy (Fits r) kids) (hs : DocKidSafe r n attrs kids)
    {y : DocContent × List Nat} (hy : docKid r c n attrs kids = some y) :
    KidOk r m (top :: st) n attrs kids c y.1 y.2 := by
  unfold docKid at hy
  by_cases h1 : n = b!"group"
  · subst h1; rw [if_pos rfl] at hy; cases hy; exact group_ok r hT hv ha hk (hs.1 rfl)
  rw [if_neg h1] at hy
  by_cases h2 : n = b!"category"
  · subst h2; rw [if_pos rfl] at hy; cases hy; exact category_ok r hT hv ha hk (hs.2.1 rfl)
  rw [if_neg h2] at hy
  by_cases h3 : n = b!"environment"
  · subst h3; rw [if_pos rfl] at hy; cases hy
    exact environment_ok r hT hv ha hk (hs.2.2.1 rfl)
  rw [if_neg h3] at hy
  by_cases h4 : n = b!"langpacks"
  · subst h4; rw [if_pos rfl] at hy; cases hy
    exact langpacks_ok r hT hv ha hk (hs.2.2.2.1 rfl)
  rw [if_neg h4] at hy
  by_cases h5 : n = b!"blacklist"
  · subst h5; rw [if_pos rfl] at hy; cases hy
    exact blacklist_ok r hT hv ha hk (hs.2.2.2.2.1 rfl)
  rw [if_neg h5] at hy
  by_cases h6 : n = b!"whiteout"
  · subst h6; rw [if_pos rfl] at hy; cases hy
    exact whiteout_ok r hT hv ha hk (hs.2.2.2.2.2 rfl)
  rw [if_neg h6] at hy
  cases hy

theorem docKid_some (r : Reading) (c : DocContent) (n : Bytes) (attrs : List (Bytes × Bytes))
    (kids : List XNode) (h : n ∈ children .doc) : docKid r c n attrs kids ≠ none := by
  simp only [children, List.mem_cons, List.not_mem_nil, or_false] at h
  rcases h with rfl | rfl | rfl | rfl | rfl | rfl <;> simp [docKid]

/-- `<comps>` as the root element. -/
theorem comps_ok (r : Reading) {s : Parsed} (hat : At s [] []) (p q : Pos)
    {attrs : List (Bytes × Bytes)} {kids : List XNode} (ha : Fits r attrs) (hs : DocSafe (Fits r) (fun a k => r.look a k ≠ none) kids) :
    ∃ s', Runs r.ctx s (XNode.elem p b!"comps" attrs kids q).events s' (readDoc r attrs kids).2 ∧
      At s' [] [] ∧ Holds r.lt (readDoc r attrs kids).1
        (Obj.rest (Doc.make (some (compsStr s.enc)))) s'.doc := by
  obtain ⟨s', h1, h2, h3, -⟩ := inner_ok r (m := Obj.rest (Doc.make (some (compsStr s.enc))))
    (kid := docKid r) (embed := fun c => c) (Inv := fun _ => True) (S := DocKidSafe r) (st := [])
    (n := b!"comps") (attrs := attrs)
    (fun x n' attrs' kids' y _ _ ha' hk' hs' hy s pend p q hat hd => by
      obtain ⟨s', a, b, c⟩ := docKid_ok r (m := Obj.rest (Doc.make (some (compsStr _))))
        (top := newElem r.ctx [] b!"comps" attrs) (st := []) rfl rfl ha' hk' hs' hy s pend p q hat hd
      exact ⟨s', a, b, c, trivial⟩)
    (fun x n' attrs' kids' hn h => invalid_child (top := newElem r.ctx [] b!"comps" attrs)
      (show ElemType.doc ∈ containers by decide) hn fun hm => docKid_some r x n' attrs' kids' hm h)
    hat p q ha hs.tidy
    (fun p n attrs ks q hm => ⟨fun e => by subst e; exact hs.groups p attrs ks q hm,
      fun e => by subst e; exact hs.categories p attrs ks q hm,
      fun e => by subst e; exact hs.environments p attrs ks q hm,
      fun e => by subst e; exact hs.langpacks p attrs ks q hm,
      fun e => by subst e; exact hs.blacklist p attrs ks q hm,
      fun e => by subst e; exact hs.whiteout p attrs ks q hm⟩) rfl
    (d1 := .live (Doc.make (some (compsStr s.enc)))) rfl (x := emptyContent)
    (by
      obtain ⟨-, m2⟩ := make_content (lt := r.lt) (compsStr s.enc)
      exact ⟨_, rfl, .create (some (some (compsStr s.enc))) rfl, m2, rfl⟩) trivial
    (atEnd := fun _ => []) (out := fun c => c)
    (fun y t d _ hd => ⟨d, [], rfl, rfl, hd⟩)
  refine ⟨s', ?_, h2, h3⟩
  simpa [readDoc, textCode] using h1

end Comps.Parse
