import Verif.Lemmas.ParseDoc

/-!
# The parser: groups, categories, environments, and the document
-/

namespace Comps.Parse
open Comps Comps.Spec Comps.Obj Comps.Text Comps.Xml

/-- What it takes for a child to be read as `y` says; the children of `st`. -/
def KidOk (r : Reading) (m : Rest) (st : List Elem) (n : Bytes) (attrs : List (Bytes × Bytes))
    (kids : List XNode) (c c' : DocContent) (codes : List Nat) : Prop :=
  ∀ (s : Parsed) (pend : List Bytes) (p q : Pos), At s st pend → Holds r.lt c m s.doc →
    ∃ s', Runs r.ctx s (XNode.elem p n attrs kids q).events s'
        (textCode pend ++ attrCodes r n attrs ++ codes) ∧ At s' st [] ∧ Holds r.lt c' m s'.doc

/-- An element without children of its own, given its handlers. -/
theorem leafKid (r : Reading) {m : Rest} {top : Elem} {st : List Elem} {n : Bytes}
    {attrs : List (Bytes × Bytes)} {kids : List XNode} {c c1 c' : DocContent} {codes : List Nat}
    (ha : Fits r attrs) (hk : AllTidy (Fits r) kids) (hT : top.type ∈ containers) (hv : top.valid = true)
    (hn : n ∈ children top.type) (hl : getType n ∈ leafTypes) (taken : Bool)
    (hpre : ∀ enc d, Holds r.lt c m d → ∃ d1,
      preproc r.ctx enc (newElem r.ctx (top :: st) n attrs) (top :: st) d = .ok d1 ∧
        Holds r.lt c1 m d1)
    (hpost : ∀ q d, Holds r.lt c1 m d → ∃ d2 L,
      postproc r.ctx (newElem r.ctx (top :: st) n attrs) (top :: st) q (leaf r kids).2 d =
        .ok ⟨d2, L, taken⟩ ∧ L.map (·.code) = codes ∧ Holds r.lt c' m d2) :
    KidOk r m (top :: st) n attrs kids c c' ((leaf r kids).1 ++ (codes ++
      if taken then [] else textCode (strays r kids []).2)) := by
  intro s pend p q hat hd
  obtain ⟨d1, h1, h2⟩ := hpre s.enc s.doc hd
  obtain ⟨d2, L, h3, h4, h5⟩ := hpost q d1 h2
  obtain ⟨s', r1, r2, r3⟩ := leaf_ok r hat p q ha hk (valid_child hT hv hn)
    (closed_leaf (top := newElem r.ctx (top :: st) n attrs) hl) h1 h3
  refine ⟨s', ?_, r2, by rw [r3]; exact h5⟩
  rw [h4] at r1
  exact r1

/-! ## package lists -/

theorem newPackage_eq (r : Reading) {attrs : List (Bytes × Bytes)} (ha : Fits r attrs) :
    newPackage r.opts.pkgtype (attrDict r.lt attrs) = packageOf r attrs none := by
  simp only [newPackage, packageOf, ha.get, archesIn_eq]
  congr 1
  · cases r.look attrs b!"basearchonly" with
    | none => rfl
    | some t => simp
  · cases r.look attrs b!"type" with
    | none => rfl
    | some t => simp [typeNamed_eq]

/-- A document whose last group is `g`. -/
abbrev withGroup (c : DocContent) (g : Group) : DocContent := { c with groups := c.groups ++ [g] }
/-- A document whose last category is `g`. -/
abbrev withCategory (c : DocContent) (g : Category) : DocContent :=
  { c with categories := c.categories ++ [g] }
/-- A document whose last environment is `g`. -/
abbrev withEnv (c : DocContent) (g : Env) : DocContent :=
  { c with environments := c.environments ++ [g] }

theorem packagereq_ok (r : Reading) {m : Rest} {top : Elem} {st : List Elem} {c : DocContent}
    {g : Group} (hg : GroupBuilt r.lt g) (hT : top.type = .packagelist) (hv : top.valid = true)
    {l : List Package} {attrs : List (Bytes × Bytes)} {kids : List XNode} (ha : Fits r attrs)
    (hk : AllTidy (Fits r) kids) {y : List Package × List Nat}
    (hy : packageKid r l b!"packagereq" attrs kids = some y) :
    KidOk r m (top :: st) b!"packagereq" attrs kids (withGroup c { g with packages := some l })
      (withGroup c { g with packages := some y.1 }) y.2 := by
  have hy' : y = (l ++ [packageOf r attrs (leaf r kids).2],
      (leaf r kids).1 ++ if (leaf r kids).2.isNone then [24] else []) := by
    simp only [packageKid, if_true, Option.some.injEq] at hy; exact hy.symm
  subst hy'
  have := leafKid r (m := m) (top := top) (st := st) (n := b!"packagereq")
    (c := withGroup c { g with packages := some l })
    (c1 := withGroup c { g with packages := some (l ++ [packageOf r attrs none]) })
    (c' := withGroup c { g with
      packages := some (l ++ [packageOf r attrs (leaf r kids).2]) })
    (codes := if (leaf r kids).2.isNone then [24] else []) ha hk (by rw [hT]; decide) hv
    (by rw [hT]; decide) (by decide) true
    (by
      intro enc d hd
      obtain ⟨p', h1, h2⟩ := editLast_ok r.ctx groupsAt (c := c) (gs := c.groups)
        (g' := { g with packages := some (l ++ [packageOf r attrs none]) }) hd
        (f := fun g => .ok (g.addPackage (newPackage r.ctx.opts.pkgtype
          (newElem r.ctx (top :: st) b!"packagereq" attrs).attrs)))
        (by
          have : newPackage r.ctx.opts.pkgtype
              (newElem r.ctx (top :: st) b!"packagereq" attrs).attrs =
              packageOf r attrs none := newPackage_eq r ha
          rw [this]; rfl) (.setPackages _ hg)
      exact ⟨p', h1, h2⟩)
    (by
      intro q d hd
      have e : postproc r.ctx (newElem r.ctx (top :: st) b!"packagereq" attrs) (top :: st) q
          (leaf r kids).2 d = packagereqPost r.ctx
            (newElem r.ctx (top :: st) b!"packagereq" attrs) q (leaf r kids).2 d := rfl
      rw [e]
      cases ht : (leaf r kids).2 with
      | none =>
        obtain ⟨d', h1, h2⟩ := entries_ok r.ctx groupsAt hd
        refine ⟨.live d', [entry 24 (some b!"packagereq") q], ?_, rfl, h2⟩
        simp only [packagereqPost, h1, bind, Except.bind]
        rfl
      | some b =>
        obtain ⟨p', h1, h2⟩ := onLast_ok r.ctx groupsAt (c := c) (gs := c.groups) (L := [])
          (g' := { g with packages := some (l ++ [packageOf r attrs (some b)]) }) hd
          (f := fun g => do
            let l ← mapLast (fun q => q.setName (some b)) g.packages
            .ok ({ g with packages := l }, []))
          (by
            simp only [mapLast, lastOf, List.getLast?_concat, bind, Except.bind,
              List.dropLast_concat]
            rfl) (.setPackages _ hg)
        exact ⟨p', [], after_ok h1, rfl, h2⟩)
  simpa using this

/-- Reading an element with children (`inner_ok` with the children given by `KidOk`). -/
theorem innerKid {σ : Type} (r : Reading) {m : Rest}
    {kid : σ → Bytes → List (Bytes × Bytes) → List XNode → Option (σ × List Nat)}
    {embed : σ → DocContent} {Inv : σ → Prop}
    (S : Bytes → List (Bytes × Bytes) → List XNode → Prop) {top : Elem} {st : List Elem} {n : Bytes}
    {attrs : List (Bytes × Bytes)} {kids : List XNode} {c : DocContent}
    (ha : Fits r attrs) (hkids : AllTidy (Fits r) kids) (hT : top.type ∈ containers)
    (hv : top.valid = true) (hn : n ∈ children top.type) (hc : getType n ∈ containers)
    (hk : ∀ x n' attrs' kids y, Inv x → n' ≠ b!"comps" → Fits r attrs' → AllTidy (Fits r) kids →
      S n' attrs' kids → kid x n' attrs' kids = some y →
      KidOk r m (newElem r.ctx (top :: st) n attrs :: top :: st) n' attrs' kids (embed x)
        (embed y.1) y.2 ∧ Inv y.1)
    (hnone : ∀ x n' attrs' kids, n' ∈ children (getType n) → kid x n' attrs' kids ≠ none)
    (hS : ∀ p n attrs ks q, XNode.elem p n attrs ks q ∈ kids → S n attrs ks) {x : σ}
    (hpre : ∀ enc d, Holds r.lt c m d → ∃ d1,
      preproc r.ctx enc (newElem r.ctx (top :: st) n attrs) (top :: st) d = .ok d1 ∧
        Holds r.lt (embed x) m d1)
    (hi : Inv x) {atEnd : σ → List Nat} {out : σ → DocContent}
    (hpost : ∀ q (y : σ) (t : Option Bytes) (d : DocPtr), Inv y → Holds r.lt (embed y) m d →
      ∃ d2 L, postproc r.ctx (newElem r.ctx (top :: st) n attrs) (top :: st) q t d =
        .ok ⟨d2, L, false⟩ ∧ L.map (·.code) = atEnd y ∧ Holds r.lt (out y) m d2) :
    KidOk r m (top :: st) n attrs kids c (out (inner r kid x kids atEnd).1)
      (inner r kid x kids atEnd).2 ∧ Inv (inner r kid x kids atEnd).1 := by
  have hinv : Inv (inner r kid x kids atEnd).1 := by
    have : ∀ (kids : List XNode) (x : σ) (pend : List Bytes), Inv x → AllTidy (Fits r) kids →
        (∀ p n attrs ks q, XNode.elem p n attrs ks q ∈ kids → S n attrs ks) →
        Inv (readAll r kid x kids pend).1 := by
      intro kids
      induction kids with
      | nil => intro x pend hi _ _; exact hi
      | cons k ks ih =>
        intro x pend hi ht hS
        cases k with
        | text p t =>
          simp only [readAll]
          exact ih _ _ hi ht.2 fun p n attrs ks' q hm =>
            hS p n attrs ks' q (List.mem_cons_of_mem _ hm)
        | elem p n attrs kk q =>
          simp only [readAll]
          cases e : kid x n attrs kk with
          | none =>
            exact ih _ _ hi ht.2 fun p n attrs ks' q hm =>
              hS p n attrs ks' q (List.mem_cons_of_mem _ hm)
          | some y =>
            exact ih _ _ (hk x n attrs kk y hi ht.1.1 ht.1.2.1 ht.1.2.2
              (hS p n attrs kk q List.mem_cons_self) e).2 ht.2 fun p n attrs ks' q hm =>
              hS p n attrs ks' q (List.mem_cons_of_mem _ hm)
    exact this kids x [] hi hkids hS
  refine ⟨?_, hinv⟩
  intro s pend p q hat hd
  obtain ⟨d1, h1, h2⟩ := hpre s.enc s.doc hd
  obtain ⟨s', r1, r2, r3, r4⟩ := inner_ok r (m := m) (kid := kid) (embed := embed) (Inv := Inv)
    (S := S) (st := top :: st) (n := n) (attrs := attrs) (atEnd := atEnd) (out := out)
    (fun x n' attrs' kids y hi h1 h2 h3 h4 h5 s pend p q hat hd => by
      obtain ⟨hk1, hk2⟩ := hk x n' attrs' kids y hi h1 h2 h3 h4 h5
      obtain ⟨s', a, b, c⟩ := hk1 s pend p q hat hd
      exact ⟨s', a, b, c, hk2⟩)
    (fun x n' attrs' kids h1 h2 => invalid_child (top := newElem r.ctx (top :: st) n attrs) hc h1
      fun hm => hnone x n' attrs' kids hm h2)
    hat p q ha hkids hS (valid_child hT hv hn) h1 h2 hi (hpost q)
  exact ⟨s', r1, r2, r3⟩

theorem emptyList_ok {β : Type} (n : Bytes) (l : List β) (p : Pos) :
    ∃ L, emptyList (some l) (getType n) p = .ok L ∧ L.map (·.code) = emptyCode l := by
  cases l with
  | nil =>
    obtain ⟨t, ht⟩ := infoName_ok n
    exact ⟨[entry 22 (some t) p], by simp only [emptyList, ht, bind, Except.bind], rfl⟩
  | cons x xs => exact ⟨[], rfl, rfl⟩

/-- The end of a list in the last entry. -/
theorem checkList_ok {α β : Type} (cx : Ctx) {sl : Slot (List α)} {P : α → Prop}
    {get : DocContent → List α} {put : DocContent → List α → DocContent}
    (hp : Placed cx.lt sl (fun l => ∀ g ∈ l, P g) get put) {c : DocContent} {gs : List α} {g : α}
    {m : Rest} {d : DocPtr} (h : Holds cx.lt (put c (gs ++ [g])) m d) (hg : P g)
    {list : α → Option (List β)} {l : List β} (hl : list g = some l) (n : Bytes) (q : Pos) :
    ∃ d2 L, checkList cx sl list (getType n) q d = .ok ⟨d2, L, false⟩ ∧
      L.map (·.code) = emptyCode l ∧ Holds cx.lt (put c (gs ++ [g])) m d2 := by
  obtain ⟨L, h1, h2⟩ := emptyList_ok n l q
  obtain ⟨p', h3, h4⟩ := onLast_ok cx hp h (L := L) (g' := g)
    (f := fun x => do
      let l ← emptyList (list x) (getType n) q
      .ok (x, l)) (by simp only [hl, h1, bind, Except.bind]) hg
  exact ⟨p', L, after_ok h3, h2, h4⟩

theorem packagelist_ok (r : Reading) {m : Rest} {top : Elem} {st : List Elem} {c : DocContent}
    {g : Group} (hg : GroupBuilt r.lt g) (hT : top.type = .group) (hv : top.valid = true)
    {l : List Package} (hl : g.packages = some l) {attrs : List (Bytes × Bytes)}
    {kids : List XNode} (ha : Fits r attrs) (hk : AllTidy (Fits r) kids) :
    KidOk r m (top :: st) b!"packagelist" attrs kids (withGroup c g)
      (withGroup c { g with packages := some (inner r (packageKid r) l kids emptyCode).1 })
      (inner r (packageKid r) l kids emptyCode).2 := by
  refine (innerKid r (m := m) (kid := packageKid r)
    (embed := fun l => withGroup c { g with packages := some l }) (Inv := fun _ => True)
    (fun _ _ _ => True) (n := b!"packagelist") (c := withGroup c g) ha hk (by rw [hT]; decide) hv
    (by rw [hT]; decide) (by decide) ?_ ?_ (fun _ _ _ _ _ _ => trivial) (x := l)
    ?_ trivial (atEnd := emptyCode)
    (out := fun l => withGroup c { g with packages := some l }) ?_).1
  · intro x n' attrs' kids' y _ _ ha' hk' _ hy
    refine ⟨?_, trivial⟩
    have hn : n' = b!"packagereq" := by
      by_cases e : n' = b!"packagereq"
      · exact e
      · rw [packageKid, if_neg e] at hy; cases hy
    subst hn
    exact packagereq_ok r hg rfl (valid_child (by rw [hT]; decide) hv (by rw [hT]; decide)) ha' hk' hy
  · intro x n' attrs' kids' hm
    have : n' = b!"packagereq" := List.mem_singleton.1 hm
    rw [packageKid, if_pos this]; simp
  · intro enc d hd
    refine ⟨d, rfl, ?_⟩
    have : ({ g with packages := some l } : Group) = g := by rw [← hl]
    rw [this]; exact hd
  · intro q y t d _ hd
    exact checkList_ok r.ctx groupsAt (c := c) (gs := c.groups) hd (.setPackages _ hg)
      (list := (·.packages)) rfl b!"packagelist" q

/-! ## lists of group ids -/

theorem newGroupId_eq (r : Reading) {attrs : List (Bytes × Bytes)} (ha : Fits r attrs)
    (t : Option Bytes) :
    (newGroupId (attrDict r.lt attrs)).setName t = groupIdOf r attrs t := by
  simp only [newGroupId, groupIdOf, ha.get, archesIn_eq, GroupId.setName]
  congr 1
  cases r.look attrs b!"default" with
  | none => rfl
  | some t => 
    by_cases h : t = b!"true"
    · simp [strcmp, h]
    · simp [strcmp, h]

theorem groupid_ok (r : Reading) {m : Rest} {top : Elem} {st : List Elem} {pl : IdPlace}
    {embed : List GroupId → DocContent}
    (hpl : ∀ e : Elem, e.ancSet = true → idPlace e (top :: st) = .ok pl)
    (hadd : ∀ gid l d, Holds r.lt (embed l) m d → ∃ d1, groupidAdd r.ctx gid pl d = .ok d1 ∧
      Holds r.lt (embed (l ++ [gid])) m d1)
    (hname : ∀ t gid l d, Holds r.lt (embed (l ++ [gid])) m d → ∃ d2,
      groupidName r.ctx t pl d = .ok d2 ∧ Holds r.lt (embed (l ++ [gid.setName t])) m d2)
    (hT : top.type = .grouplist ∨ top.type = .optlist) (hv : top.valid = true)
    {l : List GroupId} {attrs : List (Bytes × Bytes)} {kids : List XNode} (ha : Fits r attrs)
    (hk : AllTidy (Fits r) kids) {y : List GroupId × List Nat}
    (hy : idKid r l b!"groupid" attrs kids = some y) :
    KidOk r m (top :: st) b!"groupid" attrs kids (embed l) (embed y.1) y.2 := by
  have hy' : y = (l ++ [groupIdOf r attrs (leaf r kids).2], (leaf r kids).1) := by
    simp only [idKid, if_true, Option.some.injEq] at hy; exact hy.symm
  subst hy'
  have hc : top.type ∈ containers ∧ b!"groupid" ∈ children top.type := by
    rcases hT with h | h <;> rw [h] <;> decide
  have := leafKid r (m := m) (top := top) (st := st) (n := b!"groupid") (c := embed l)
    (c1 := embed (l ++ [newGroupId (attrDict r.lt attrs)]))
    (c' := embed (l ++ [groupIdOf r attrs (leaf r kids).2]))
    (codes := []) ha hk hc.1 hv hc.2 (by decide) true
    (by
      intro enc d hd
      obtain ⟨d1, h1, h2⟩ := hadd (newGroupId (attrDict r.lt attrs)) l d hd
      refine ⟨d1, ?_, h2⟩
      show groupidPre r.ctx (newElem r.ctx (top :: st) b!"groupid" attrs) (top :: st) d = _
      simp only [groupidPre, hpl (newElem r.ctx (top :: st) b!"groupid" attrs) rfl, bind,
        Except.bind]
      exact h1)
    (by
      intro q d hd
      obtain ⟨d2, h1, h2⟩ := hname (leaf r kids).2 _ l d hd
      refine ⟨d2, [], ?_, rfl, by rw [newGroupId_eq r ha] at h2; exact h2⟩
      show groupidPost r.ctx (newElem r.ctx (top :: st) b!"groupid" attrs) (top :: st) _ d = _
      simp only [groupidPost, hpl (newElem r.ctx (top :: st) b!"groupid" attrs) rfl, h1, bind,
        Except.bind])
  simpa using this

/-- A list of group ids. -/
theorem ids_ok (r : Reading) {m : Rest} {top : Elem} {st : List Elem} {pl : IdPlace}
    {embed : List GroupId → DocContent} {n : Bytes} {attrs : List (Bytes × Bytes)}
    (hn : n = b!"grouplist" ∨ n = b!"optionlist")
    (hpl : ∀ e : Elem, e.ancSet = true →
      idPlace e (newElem r.ctx (top :: st) n attrs :: top :: st) = .ok pl)
    (hadd : ∀ gid l d, Holds r.lt (embed l) m d → ∃ d1, groupidAdd r.ctx gid pl d = .ok d1 ∧
      Holds r.lt (embed (l ++ [gid])) m d1)
    (hname : ∀ t gid l d, Holds r.lt (embed (l ++ [gid])) m d → ∃ d2,
      groupidName r.ctx t pl d = .ok d2 ∧ Holds r.lt (embed (l ++ [gid.setName t])) m d2)
    (hT : top.type ∈ containers) (hch : n ∈ children top.type) (hv : top.valid = true)
    {l : List GroupId} {kids : List XNode} (ha : Fits r attrs) (hk : AllTidy (Fits r) kids)
    {atEnd : List GroupId → List Nat}
    (hpost : ∀ q (y : List GroupId) (t : Option Bytes) (d : DocPtr), Holds r.lt (embed y) m d →
      ∃ d2 L, postproc r.ctx (newElem r.ctx (top :: st) n attrs) (top :: st) q t d =
        .ok ⟨d2, L, false⟩ ∧ L.map (·.code) = atEnd y ∧ Holds r.lt (embed y) m d2) :
    KidOk r m (top :: st) n attrs kids (embed l)
      (embed (inner r (idKid r) l kids atEnd).1) (inner r (idKid r) l kids atEnd).2 := by
  have hty : (getType n = .grouplist ∨ getType n = .optlist) ∧ getType n ∈ containers ∧
      children (getType n) = [b!"groupid"] ∧
      (∀ enc e d, e.type = getType n → preproc r.ctx enc e (top :: st) d = .ok d) := by
    rcases hn with rfl | rfl <;>
      exact ⟨by decide, by decide, rfl, fun _ _ _ h => by unfold preproc; rw [h]; rfl⟩
  refine (innerKid r (m := m) (kid := idKid r) (embed := embed) (Inv := fun _ => True)
    (fun _ _ _ => True) (n := n) (c := embed l) ha hk hT hv hch hty.2.1 ?_ ?_
    (fun _ _ _ _ _ _ => trivial) (x := l) ?_ trivial (atEnd := atEnd) (out := embed) ?_).1
  · intro x n' attrs' kids' y _ _ ha' hk' _ hy
    refine ⟨?_, trivial⟩
    have hn' : n' = b!"groupid" := by
      by_cases e : n' = b!"groupid"
      · exact e
      · rw [idKid, if_neg e] at hy; cases hy
    subst hn'
    exact groupid_ok r hpl hadd hname hty.1 (valid_child hT hv hch) ha' hk' hy
  · intro x n' attrs' kids' hm
    rw [hty.2.2.1] at hm
    have : n' = b!"groupid" := List.mem_singleton.1 hm
    rw [idKid, if_pos this]; simp
  · intro enc d hd
    exact ⟨d, hty.2.2.2 _ _ _ rfl, hd⟩
  · intro q y t d _ hd
    exact hpost q y t d hd

theorem mapLast_concat {α : Type} (f : α → α) (l : List α) (x : α) :
    mapLast f (some (l ++ [x])) = .ok (some (l ++ [f x])) := by
  simp only [mapLast, lastOf, List.getLast?_concat, List.dropLast_concat, bind, Except.bind]

theorem categoryList_ok (r : Reading) {m : Rest} {top : Elem} {st : List Elem} {c : DocContent}
    {g : Category} (hg : CategoryBuilt r.lt g) (hT : top.type = .category) (hv : top.valid = true)
    {l : List GroupId} (hl : g.groupIds = some l) {attrs : List (Bytes × Bytes)}
    {kids : List XNode} (ha : Fits r attrs) (hk : AllTidy (Fits r) kids) :
    KidOk r m (top :: st) b!"grouplist" attrs kids (withCategory c g)
      (withCategory c { g with groupIds := some (inner r (idKid r) l kids emptyCode).1 })
      (inner r (idKid r) l kids emptyCode).2 := by
  have := ids_ok r (m := m) (top := top) (st := st) (pl := .category)
    (embed := fun l => withCategory c { g with groupIds := some l }) (n := b!"grouplist")
    (attrs := attrs) (.inl rfl) (l := l) (kids := kids) (atEnd := emptyCode) ?_ ?_ ?_
    (by rw [hT]; decide) (by rw [hT]; decide) hv ha hk ?_
  · have e : ({ g with groupIds := some l } : Category) = g := by rw [← hl]
    simp only [e] at this
    exact this
  · intro e he
    have h1 : (newElem r.ctx (top :: st) b!"grouplist" attrs).ancSet = true := rfl
    have h2 : (newElem r.ctx (top :: st) b!"grouplist" attrs).type = .grouplist := rfl
    simp only [idPlace, Elem.ancestor, he, h1, h2, hT, bind, Except.bind, if_true]
    rfl
  · intro gid l d hd
    exact editLast_ok r.ctx categoriesAt (c := c) (gs := c.categories) hd
      (f := fun x => .ok (x.addGroupId gid))
      (g' := { g with groupIds := some (l ++ [gid]) }) rfl (.setIds _ hg)
  · intro t gid l d hd
    obtain ⟨d2, h1, h2⟩ := editLast_ok r.ctx categoriesAt (c := c) (gs := c.categories)
      (g := { g with groupIds := some (l ++ [gid]) }) hd (f := fun x => do
        let l ← mapLast (fun q => q.setName t) x.groupIds
        .ok { x with groupIds := l })
      (g' := { g with groupIds := some (l ++ [gid.setName t]) })
      (by simp only [mapLast_concat, bind, Except.bind]) (.setIds _ hg)
    exact ⟨d2, h1, h2⟩
  · intro q y t d hd
    have h1 : (newElem r.ctx (top :: st) b!"grouplist" attrs).ancSet = true := rfl
    have e : postproc r.ctx (newElem r.ctx (top :: st) b!"grouplist" attrs) (top :: st) q t d =
        checkList r.ctx categoriesSlot (·.groupIds) (getType b!"grouplist") q d := by
      show grouplistPost r.ctx (newElem r.ctx (top :: st) b!"grouplist" attrs) (top :: st) q d = _
      simp only [grouplistPost, Elem.ancestor, h1, hT, bind, Except.bind, if_true]
      rfl
    rw [e]
    exact checkList_ok r.ctx categoriesAt (c := c) (gs := c.categories) hd (.setIds _ hg) rfl
      b!"grouplist" q

theorem envList_ok (r : Reading) {m : Rest} {top : Elem} {st : List Elem} {c : DocContent}
    {g : Env} (hg : EnvBuilt r.lt g) (hT : top.type = .env) (hv : top.valid = true)
    {l : List GroupId} (hl : g.groupList = some l) {attrs : List (Bytes × Bytes)}
    {kids : List XNode} (ha : Fits r attrs) (hk : AllTidy (Fits r) kids) :
    KidOk r m (top :: st) b!"grouplist" attrs kids (withEnv c g)
      (withEnv c { g with groupList := some (inner r (idKid r) l kids emptyCode).1 })
      (inner r (idKid r) l kids emptyCode).2 := by
  have := ids_ok r (m := m) (top := top) (st := st) (pl := .envList)
    (embed := fun l => withEnv c { g with groupList := some l }) (n := b!"grouplist")
    (attrs := attrs) (.inl rfl) (l := l) (kids := kids) (atEnd := emptyCode) ?_ ?_ ?_
    (by rw [hT]; decide) (by rw [hT]; decide) hv ha hk ?_
  · have e : ({ g with groupList := some l } : Env) = g := by rw [← hl]
    simp only [e] at this
    exact this
  · intro e he
    have h1 : (newElem r.ctx (top :: st) b!"grouplist" attrs).ancSet = true := rfl
    have h2 : (newElem r.ctx (top :: st) b!"grouplist" attrs).type = .grouplist := rfl
    simp only [idPlace, Elem.ancestor, he, h1, h2, hT, bind, Except.bind, if_true]
    rfl
  · intro gid l d hd
    exact editLast_ok r.ctx environmentsAt (c := c) (gs := c.environments) hd
      (f := fun x => .ok (x.addGroupId gid))
      (g' := { g with groupList := some (l ++ [gid]) }) rfl (.setGroups _ hg)
  · intro t gid l d hd
    obtain ⟨d2, h1, h2⟩ := editLast_ok r.ctx environmentsAt (c := c) (gs := c.environments)
      (g := { g with groupList := some (l ++ [gid]) }) hd (f := fun x => do
        let l ← mapLast (fun q => q.setName t) x.groupList
        .ok { x with groupList := l })
      (g' := { g with groupList := some (l ++ [gid.setName t]) })
      (by simp only [mapLast_concat, bind, Except.bind]) (.setGroups _ hg)
    exact ⟨d2, h1, h2⟩
  · intro q y t d hd
    have h1 : (newElem r.ctx (top :: st) b!"grouplist" attrs).ancSet = true := rfl
    have e : postproc r.ctx (newElem r.ctx (top :: st) b!"grouplist" attrs) (top :: st) q t d =
        checkList r.ctx environmentsSlot (·.groupList) (getType b!"grouplist") q d := by
      show grouplistPost r.ctx (newElem r.ctx (top :: st) b!"grouplist" attrs) (top :: st) q d = _
      simp only [grouplistPost, Elem.ancestor, h1, hT, bind, Except.bind, if_true]
      rfl
    rw [e]
    exact checkList_ok r.ctx environmentsAt (c := c) (gs := c.environments) hd (.setGroups _ hg) rfl
      b!"grouplist" q

theorem optionList_ok (r : Reading) {m : Rest} {top : Elem} {st : List Elem} {c : DocContent}
    {g : Env} (hg : EnvBuilt r.lt g) (hT : top.type = .env) (hv : top.valid = true)
    {l : List GroupId} (hl : g.optionList = some l) {attrs : List (Bytes × Bytes)}
    {kids : List XNode} (ha : Fits r attrs) (hk : AllTidy (Fits r) kids) :
    KidOk r m (top :: st) b!"optionlist" attrs kids (withEnv c g)
      (withEnv c { g with optionList := some (inner r (idKid r) l kids fun _ => []).1 })
      (inner r (idKid r) l kids fun _ => []).2 := by
  have := ids_ok r (m := m) (top := top) (st := st) (pl := .option)
    (embed := fun l => withEnv c { g with optionList := some l }) (n := b!"optionlist")
    (attrs := attrs) (.inr rfl) (l := l) (kids := kids) (atEnd := fun _ => []) ?_ ?_ ?_
    (by rw [hT]; decide) (by rw [hT]; decide) hv ha hk ?_
  · have e : ({ g with optionList := some l } : Env) = g := by rw [← hl]
    simp only [e] at this
    exact this
  · intro e he
    have h2 : (newElem r.ctx (top :: st) b!"optionlist" attrs).type = .optlist := rfl
    simp only [idPlace, Elem.ancestor, he, h2, bind, Except.bind, if_true]
    rfl
  · intro gid l d hd
    exact editLast_ok r.ctx environmentsAt (c := c) (gs := c.environments) hd
      (f := fun x => .ok (x.addOptionId gid))
      (g' := { g with optionList := some (l ++ [gid]) }) rfl (.setOptions _ hg)
  · intro t gid l d hd
    obtain ⟨d2, h1, h2⟩ := editLast_ok r.ctx environmentsAt (c := c) (gs := c.environments)
      (g := { g with optionList := some (l ++ [gid]) }) hd (f := fun x => do
        let l ← mapLast (fun q => q.setName t) x.optionList
        .ok { x with optionList := l })
      (g' := { g with optionList := some (l ++ [gid.setName t]) })
      (by simp only [mapLast_concat, bind, Except.bind]) (.setOptions _ hg)
    exact ⟨d2, h1, h2⟩
  · intro q y t d hd
    exact ⟨d, [], rfl, rfl, hd⟩

/-! ## flags and langonly -/

/-- The number property of a flag. -/
def flagProp (n : Bytes) : NumProp :=
  if n = b!"default" then .dflt else if n = b!"uservisible" then .uservisible else .biarchonly

theorem flagText_ok (r : Reading) {m : Rest} {c : DocContent} {g : Group}
    (hg : GroupBuilt r.lt g) (np : NumProp) (q : Pos) (t : Option Bytes) {d : DocPtr}
    (hd : Holds r.lt (withGroup c g) m d) :
    ∃ d2 L, flagText r.ctx np.key q t d = .ok ⟨d2, L, true⟩ ∧
      L.map (·.code) = (flagKid r g.props np.key t).2 ∧
      Holds r.lt (withGroup c { g with props := (flagKid r g.props np.key t).1 }) m d2 ∧
      GroupBuilt r.lt { g with props := (flagKid r g.props np.key t).1 } := by
  have hset : ∀ v : Int, ∃ d2, setFlag r.ctx np.key v d = .ok ⟨d2, [], true⟩ ∧
      Holds r.lt (withGroup c { g with props := g.props.set r.lt np.key (some (.num v)) }) m d2 := by
    intro v
    obtain ⟨d2, h1, h2⟩ := onLast_ok r.ctx groupsAt (c := c) (gs := c.groups) (g := g) hd
      (f := fun g => .ok ({ g with props := setNumProp r.ctx.lt np.key g.props v false }, []))
      (g' := { g with props := setNumProp r.ctx.lt np.key g.props v false }) (L := []) rfl
      (.prop (.num np v false) hg)
    exact ⟨d2, after_ok h1, h2⟩
  unfold flagText
  by_cases h0 : t = some b!"false"
  · subst h0
    obtain ⟨d2, h1, h2⟩ := hset 0
    refine ⟨d2, [], ?_, rfl, h2, .prop (.num np 0 false) hg⟩
    rw [if_pos (by rfl)]; exact h1
  · by_cases h1 : t = some b!"true"
    · subst h1
      obtain ⟨d2, h1, h2⟩ := hset 1
      refine ⟨d2, [], ?_, rfl, h2, .prop (.num np 1 false) hg⟩
      rw [if_neg (by decide), if_pos (by rfl)]; exact h1
    · obtain ⟨d', e1, e2⟩ := entries_ok r.ctx groupsAt hd
      have hf : flagKid r g.props np.key t = (g.props, [5]) := by
        unfold flagKid flagValue; rw [if_neg h1, if_neg h0]
      rw [hf]
      refine ⟨.live d', [entry 5 t q], ?_, rfl, e2, hg⟩
      have hs : ∀ b, t ≠ some b → strcmp t (some b) = false := by
        intro b hb
        cases t with
        | none => rfl
        | some a =>
          simp only [strcmp, beq_eq_false_iff_ne]
          intro e; exact hb (by rw [e])
      rw [hs _ h0, hs _ h1]
      simp only [Bool.false_eq_true, if_false, e1, bind, Except.bind]

theorem flag_ok (r : Reading) {m : Rest} {top : Elem} {st : List Elem} {c : DocContent}
    {g : Group} (hg : GroupBuilt r.lt g) (hT : top.type = .group) (hv : top.valid = true)
    {n key : Bytes} (hn : flagKey n = some key) {attrs : List (Bytes × Bytes)}
    {kids : List XNode} (ha : Fits r attrs) (hk : AllTidy (Fits r) kids)
    (hs : n = b!"uservisible" ∨ n = b!"biarchonly" → (leaf r kids).2 ≠ none) :
    KidOk r m (top :: st) n attrs kids (withGroup c g)
      (withGroup c { g with props := (flagKid r g.props key (leaf r kids).2).1 })
      ((leaf r kids).1 ++ (flagKid r g.props key (leaf r kids).2).2) ∧
    GroupBuilt r.lt { g with props := (flagKid r g.props key (leaf r kids).2).1 } := by
  have hnp : (n = b!"default" ∨ n = b!"uservisible" ∨ n = b!"biarchonly") ∧
      key = (flagProp n).key := by
    unfold flagKey at hn
    by_cases h1 : n = b!"default"
    · subst h1; rw [if_pos rfl] at hn; cases hn; exact ⟨.inl rfl, rfl⟩
    · rw [if_neg h1] at hn
      by_cases h2 : n = b!"uservisible"
      · subst h2; rw [if_pos rfl] at hn; cases hn; exact ⟨.inr (.inl rfl), rfl⟩
      · rw [if_neg h2] at hn
        by_cases h3 : n = b!"biarchonly"
        · subst h3; rw [if_pos rfl] at hn; cases hn; exact ⟨.inr (.inr rfl), rfl⟩
        · rw [if_neg h3] at hn; cases hn
  obtain ⟨hn', rfl⟩ := hnp
  have hty : getType n ∈ leafTypes ∧ n ∈ children .group ∧
      (∀ enc e d, e.type = getType n → preproc r.ctx enc e (top :: st) d = .ok d) ∧
      (∀ e p d, e.type = getType n → postproc r.ctx e (top :: st) p (leaf r kids).2 d =
        flagText r.ctx (flagProp n).key p (leaf r kids).2 d) := by
    rcases hn' with rfl | rfl | rfl
    · exact ⟨by decide, by decide, fun _ _ _ h => by unfold preproc; rw [h]; rfl,
        fun _ _ _ h => by unfold postproc; rw [h]; rfl⟩
    all_goals
      refine ⟨by decide, by decide, fun _ _ _ h => by unfold preproc; rw [h]; rfl,
        fun _ _ _ h => ?_⟩
      obtain ⟨b, hb⟩ := Option.ne_none_iff_exists'.1 (hs (by decide))
      unfold postproc; rw [h, hb]; rfl
  obtain ⟨hbuilt⟩ : Nonempty (GroupBuilt r.lt
      { g with props := (flagKid r g.props (flagProp n).key (leaf r kids).2).1 }) := by
    unfold flagKid
    cases flagValue (leaf r kids).2 with
    | none => exact ⟨hg⟩
    | some v => exact ⟨.prop (.num (flagProp n) v false) hg⟩
  refine ⟨?_, hbuilt⟩
  have := leafKid r (m := m) (top := top) (st := st) (n := n) (c := withGroup c g)
    (c1 := withGroup c g)
    (c' := withGroup c { g with props := (flagKid r g.props (flagProp n).key (leaf r kids).2).1 })
    (codes := (flagKid r g.props (flagProp n).key (leaf r kids).2).2) ha hk
    (by rw [hT]; decide) hv (by rw [hT]; exact hty.2.1) hty.1 true
    (by intro enc d hd; exact ⟨d, hty.2.2.1 _ _ _ rfl, hd⟩)
    (by
      intro q d hd
      obtain ⟨d2, L, h1, h2, h3, -⟩ := flagText_ok r hg (flagProp n) q (leaf r kids).2 hd
      exact ⟨d2, L, by rw [hty.2.2.2 _ _ _ rfl]; exact h1, h2, h3⟩)
  simpa using this

/-- The properties after `<langonly>`. -/
def langonlyProps (r : Reading) (props : RTree PVal) (t : Option Bytes) : RTree PVal :=
  setStrProp r.lt b!"langonly" props t

theorem langonly_ok (r : Reading) {m : Rest} {top : Elem} {st : List Elem} {c : DocContent}
    {g : Group} (hg : GroupBuilt r.lt g) (hT : top.type = .group) (hv : top.valid = true)
    {attrs : List (Bytes × Bytes)} {kids : List XNode} (ha : Fits r attrs) (hk : AllTidy (Fits r) kids) :
    KidOk r m (top :: st) b!"langonly" attrs kids (withGroup c g)
      (withGroup c { g with props := langonlyProps r g.props (leaf r kids).2 })
      ((leaf r kids).1 ++ againCode g.props b!"langonly") ∧
    GroupBuilt r.lt { g with props := langonlyProps r g.props (leaf r kids).2 } := by
  have hb : GroupBuilt r.lt { g with props := langonlyProps r g.props (leaf r kids).2 } :=
    .prop (.str .langonly (leaf r kids).2) hg
  refine ⟨?_, hb⟩
  have := leafKid r (m := m) (top := top) (st := st) (n := b!"langonly") (c := withGroup c g)
    (c1 := withGroup c g)
    (c' := withGroup c { g with props := langonlyProps r g.props (leaf r kids).2 })
    (codes := againCode g.props b!"langonly") ha hk
    (by rw [hT]; decide) hv (by rw [hT]; decide) (by decide) true
    (by intro enc d hd; exact ⟨d, rfl, hd⟩)
    (by
      intro q d hd
      obtain ⟨d2, h1, h2⟩ := onLast_ok r.ctx groupsAt (c := c) (gs := c.groups) (g := g) hd
        (f := fun g => .ok ({ g with props := setStrProp r.ctx.lt b!"langonly" g.props (leaf r kids).2 },
          checkAlreadySet (g.props.get b!"langonly") b!"langonly" q))
        (g' := { g with props := langonlyProps r g.props (leaf r kids).2 })
        (L := checkAlreadySet (g.props.get b!"langonly") b!"langonly" q) rfl hb
      exact ⟨d2, _, after_ok h1, checkAlreadySet_codes _ _ _ _, h2⟩)
  simpa using this

/-! ## children of groups, categories and environments -/

/-- The condition on a child of `<group>`. -/
def GroupKidSafe (r : Reading) (n : Bytes) (_attrs : List (Bytes × Bytes)) (kids : List XNode) : Prop :=
  (n = b!"display_order" → OrderSafe kids) ∧
    (n = b!"uservisible" ∨ n = b!"biarchonly" → (leaf r kids).2 ≠ none)

theorem field_names {r : Reading} {x : Texts} {n : Bytes} {attrs : List (Bytes × Bytes)}
    {kids : List XNode} :
    fieldKid r x n attrs kids = none ↔
      n ∉ [b!"id", b!"name", b!"description", b!"display_order"] := by
  unfold fieldKid
  by_cases h1 : n = b!"id" ∨ n = b!"name" ∨ n = b!"description"
  · rw [if_pos h1]
    simp only [reduceCtorEq, false_iff, Classical.not_not]
    rcases h1 with rfl | rfl | rfl <;> decide
  · rw [if_neg h1]
    by_cases h2 : n = b!"display_order"
    · rw [if_pos h2]
      subst h2
      simp
    · rw [if_neg h2]
      simp only [true_iff, List.mem_cons, List.not_mem_nil, or_false]
      rintro (h | h | h | h)
      · exact h1 (.inl h)
      · exact h1 (.inr (.inl h))
      · exact h1 (.inr (.inr h))
      · exact h2 h

theorem groupKid_ok (r : Reading) {m : Rest} {top : Elem} {st : List Elem} {c : DocContent}
    (hT : top.type = .group) (hv : top.valid = true) {g : Group}
    (hg : GroupBuilt r.lt g) (hl : g.packages ≠ none) {n : Bytes}
    {attrs : List (Bytes × Bytes)} {kids : List XNode} (ha : Fits r attrs) (hk : AllTidy (Fits r) kids)
    (hs : GroupKidSafe r n attrs kids) {y : Group × List Nat}
    (hy : groupKid r g n attrs kids = some y) :
    KidOk r m (top :: st) n attrs kids (withGroup c g) (withGroup c y.1) y.2 ∧
      GroupBuilt r.lt y.1 ∧ y.1.packages ≠ none := by
  unfold groupKid at hy
  cases hf : fieldKid r ⟨g.props, g.nameByLang, g.descByLang⟩ n attrs kids with
  | some z =>
    rw [hf] at hy
    simp only [Option.some.injEq] at hy
    subst hy
    have key := fun s pend p q hat hd => field_ok r groupEntry (top := top) (st := st)
      (by rw [hT]; decide) hv (by rw [hT]; decide)
      (fun e p t d he => by
        simp only [idNameDescPost, Elem.ancestor, he, hT, bind, Except.bind, if_true]; rfl)
      (fun e p t d he => by
        simp only [displayOrderPost, Elem.ancestor, he, hT, bind, Except.bind, if_true]; rfl)
      hg ha hk hs.1 hf (s := s) (pend := pend) p q hat (c := c) (gs := c.groups) (m := m) hd
    have hbuilt : GroupBuilt r.lt ⟨z.1.props, z.1.names, z.1.descs, g.packages⟩ :=
      field_built r groupEntry hg hs.1 hf
    refine ⟨?_, hbuilt, hl⟩
    intro s pend p q hat hd
    obtain ⟨s', h1, h2, h3, -⟩ := key s pend p q hat hd
    exact ⟨s', h1, h2, h3⟩
  | none =>
    rw [hf] at hy
    cases hfl : flagKey n with
    | some key =>
      simp only [hfl, Option.some.injEq] at hy
      subst hy
      obtain ⟨h1, h2⟩ := flag_ok r (m := m) (st := st) (c := c) hg hT hv hfl ha hk hs.2
      exact ⟨h1, h2, hl⟩
    | none =>
      simp only [hfl] at hy
      by_cases hn : n = b!"langonly"
      · subst hn
        rw [if_pos rfl] at hy
        obtain ⟨h1, h2⟩ := langonly_ok r (m := m) (st := st) (c := c) hg hT hv ha hk
        cases ht : (leaf r kids).2 with
        | none =>
          rw [ht] at hy h1 h2
          cases hy
          exact ⟨h1, h2, hl⟩
        | some b =>
          rw [ht] at hy h1 h2
          cases hy
          exact ⟨h1, h2, hl⟩
      · rw [if_neg hn] at hy
        by_cases hn2 : n = b!"packagelist"
        · subst hn2
          rw [if_pos rfl] at hy
          obtain ⟨l, hl'⟩ := Option.ne_none_iff_exists'.1 hl
          rw [hl'] at hy
          cases hy
          exact ⟨packagelist_ok r hg hT hv hl' ha hk, .setPackages _ hg, by simp⟩
        · rw [if_neg hn2] at hy
          cases hy

theorem groupKid_some (r : Reading) (g : Group) (n : Bytes) (attrs : List (Bytes × Bytes))
    (kids : List XNode) (h : n ∈ children .group) : groupKid r g n attrs kids ≠ none := by
  unfold groupKid
  cases hf : fieldKid r ⟨g.props, g.nameByLang, g.descByLang⟩ n attrs kids with
  | some z => simp
  | none =>
    have h' := field_names.1 hf
    simp only [children, List.mem_cons, List.not_mem_nil, or_false, not_or] at h h'
    obtain ⟨a, b, c, d⟩ := h'
    simp only [a, b, c, d, false_or] at h
    rcases h with rfl | rfl | rfl | rfl | rfl
    · simp [flagKey]
    · simp [flagKey]
    · simp [flagKey]
    · simp only [flagKey]
      cases (leaf r kids).2 <;> simp
    · simp [flagKey]

/-- The condition on a child of `<category>` or `<environment>`. -/
def EntryKidSafe (_r : Reading) (n : Bytes) (_attrs : List (Bytes × Bytes)) (kids : List XNode) : Prop :=
  n = b!"display_order" → OrderSafe kids

theorem categoryKid_ok (r : Reading) {m : Rest} {top : Elem} {st : List Elem} {c : DocContent}
    (hT : top.type = .category) (hv : top.valid = true) {g : Category}
    (hg : CategoryBuilt r.lt g) (hl : g.groupIds ≠ none) {n : Bytes}
    {attrs : List (Bytes × Bytes)} {kids : List XNode} (ha : Fits r attrs) (hk : AllTidy (Fits r) kids)
    (hs : EntryKidSafe r n attrs kids) {y : Category × List Nat}
    (hy : categoryKid r g n attrs kids = some y) :
    KidOk r m (top :: st) n attrs kids (withCategory c g) (withCategory c y.1) y.2 ∧
      CategoryBuilt r.lt y.1 ∧ y.1.groupIds ≠ none := by
  unfold categoryKid at hy
  cases hf : fieldKid r ⟨g.props, g.nameByLang, g.descByLang⟩ n attrs kids with
  | some z =>
    rw [hf] at hy
    simp only [Option.some.injEq] at hy
    subst hy
    have key := fun s pend p q hat hd => field_ok r categoryEntry (top := top) (st := st)
      (by rw [hT]; decide) hv (by rw [hT]; decide)
      (fun e p t d he => by
        simp only [idNameDescPost, Elem.ancestor, he, hT, bind, Except.bind, if_true]; rfl)
      (fun e p t d he => by
        simp only [displayOrderPost, Elem.ancestor, he, hT, bind, Except.bind, if_true]; rfl)
      hg ha hk hs hf (s := s) (pend := pend) p q hat (c := c) (gs := c.categories) (m := m) hd
    have hbuilt : CategoryBuilt r.lt ⟨z.1.props, z.1.names, z.1.descs, g.groupIds⟩ :=
      field_built r categoryEntry hg hs hf
    refine ⟨?_, hbuilt, hl⟩
    intro s pend p q hat hd
    obtain ⟨s', h1, h2, h3, -⟩ := key s pend p q hat hd
    exact ⟨s', h1, h2, h3⟩
  | none =>
    rw [hf] at hy
    simp only at hy
    by_cases hn2 : n = b!"grouplist"
    · subst hn2
      rw [if_pos rfl] at hy
      obtain ⟨l, hl'⟩ := Option.ne_none_iff_exists'.1 hl
      rw [hl'] at hy
      cases hy
      exact ⟨categoryList_ok r hg hT hv hl' ha hk, .setIds _ hg, by simp⟩
    · rw [if_neg hn2] at hy
      cases hy

theorem categoryKid_some (r : Reading) (g : Category) (n : Bytes) (attrs : List (Bytes × Bytes))
    (kids : List XNode) (h : n ∈ children .category) : categoryKid r g n attrs kids ≠ none := by
  unfold categoryKid
  cases hf : fieldKid r ⟨g.props, g.nameByLang, g.descByLang⟩ n attrs kids with
  | some z => simp
  | none =>
    have h' := field_names.1 hf
    simp only [children, List.mem_cons, List.not_mem_nil, or_false, not_or] at h h'
    obtain ⟨a, b, c, d⟩ := h'
    simp only [a, b, c, d, false_or] at h
    subst h
    simp

theorem envKid_ok (r : Reading) {m : Rest} {top : Elem} {st : List Elem} {c : DocContent}
    (hT : top.type = .env) (hv : top.valid = true) {g : Env}
    (hg : EnvBuilt r.lt g) (hl : g.groupList ≠ none ∧ g.optionList ≠ none) {n : Bytes}
    {attrs : List (Bytes × Bytes)} {kids : List XNode} (ha : Fits r attrs) (hk : AllTidy (Fits r) kids)
    (hs : EntryKidSafe r n attrs kids) {y : Env × List Nat}
    (hy : envKid r g n attrs kids = some y) :
    KidOk r m (top :: st) n attrs kids (withEnv c g) (withEnv c y.1) y.2 ∧
      EnvBuilt r.lt y.1 ∧ y.1.groupList ≠ none ∧ y.1.optionList ≠ none := by
  unfold envKid at hy
  cases hf : fieldKid r ⟨g.props, g.nameByLang, g.descByLang⟩ n attrs kids with
  | some z =>
    rw [hf] at hy
    simp only [Option.some.injEq] at hy
    subst hy
    have key := fun s pend p q hat hd => field_ok r envEntry (top := top) (st := st)
      (by rw [hT]; decide) hv (by rw [hT]; decide)
      (fun e p t d he => by
        simp only [idNameDescPost, Elem.ancestor, he, hT, bind, Except.bind, if_true]; rfl)
      (fun e p t d he => by
        simp only [displayOrderPost, Elem.ancestor, he, hT, bind, Except.bind, if_true]; rfl)
      hg ha hk hs hf (s := s) (pend := pend) p q hat (c := c) (gs := c.environments) (m := m) hd
    have hbuilt : EnvBuilt r.lt ⟨z.1.props, z.1.names, z.1.descs, g.groupList, g.optionList⟩ :=
      field_built r envEntry hg hs hf
    refine ⟨?_, hbuilt, hl⟩
    intro s pend p q hat hd
    obtain ⟨s', h1, h2, h3, -⟩ := key s pend p q hat hd
    exact ⟨s', h1, h2, h3⟩
  | none =>
    rw [hf] at hy
    simp only at hy
    by_cases hn2 : n = b!"grouplist"
    · subst hn2
      rw [if_pos rfl] at hy
      obtain ⟨l, hl'⟩ := Option.ne_none_iff_exists'.1 hl.1
      rw [hl'] at hy
      cases hy
      exact ⟨envList_ok r hg hT hv hl' ha hk, .setGroups _ hg, by simp, hl.2⟩
    · rw [if_neg hn2] at hy
      by_cases hn3 : n = b!"optionlist"
      · subst hn3
        rw [if_pos rfl] at hy
        obtain ⟨l, hl'⟩ := Option.ne_none_iff_exists'.1 hl.2
        rw [hl'] at hy
        cases hy
        exact ⟨optionList_ok r hg hT hv hl' ha hk, .setOptions _ hg, hl.1, by simp⟩
      · rw [if_neg hn3] at hy
        cases hy

theorem envKid_some (r : Reading) (g : Env) (n : Bytes) (attrs : List (Bytes × Bytes))
    (kids : List XNode) (h : n ∈ children .env) : envKid r g n attrs kids ≠ none := by
  unfold envKid
  cases hf : fieldKid r ⟨g.props, g.nameByLang, g.descByLang⟩ n attrs kids with
  | some z => simp
  | none =>
    have h' := field_names.1 hf
    simp only [children, List.mem_cons, List.not_mem_nil, or_false, not_or] at h h'
    obtain ⟨a, b, c, d⟩ := h'
    simp only [a, b, c, d, false_or] at h
    rcases h with rfl | rfl <;> simp

end Comps.Parse
