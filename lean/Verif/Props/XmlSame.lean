import Verif.Lemmas.XmlSame
import Verif.Props.DocCopy
import Verif.Props.Xml

/-!
# Documents that compare equal and what is written for them (C171)

`a.cmp lt b` is the comparison of the library, `Shows lt d c` says that `c` is what the getters of
the document `d` return, and `toFile`, `toStr` are the two output functions: equal as functions means
the same calls of the XML writer, the same log and the same return value for every behaviour of the
writer.
-/

namespace Comps.Props
open Comps Comps.Spec Comps.Obj Comps.Obj.Doc Comps.Xml

variable {lt : UInt8 → UInt8 → Bool}

/-- The dictionaries list their keys in the same order. -/
def SameOrder (a b : RTree PVal) : Prop := a.pairs.map (·.1) = b.pairs.map (·.1)

/-- Packages with the same architectures and `basearchonly`, place by place. -/
def SameArchesPkgs (a b : Option (List Package)) : Prop := ∀ la lb, a = some la → b = some lb →
  ∀ (i : Nat) (p q : Package), la[i]? = some p → lb[i]? = some q →
    p.getArches = q.getArches ∧ p.getBasearchonly = q.getBasearchonly

/-- Group ids with the same architectures, place by place. -/
def SameArchesIds (a b : Option (List GroupId)) : Prop := ∀ la lb, a = some la → b = some lb →
  ∀ (i : Nat) (p q : GroupId), la[i]? = some p → lb[i]? = some q → p.getArches = q.getArches

/-- What comparing documents does not look at: the architectures and `basearchonly` of packages, the
architectures of group ids, the order in which translations and language packs are listed, and the
values of the black list and the white list. -/
structure SameDetails (ca cb : DocContent) : Prop where
  groups : ∀ (i : Nat) (x y : Group), ca.groups[i]? = some x → cb.groups[i]? = some y →
    SameOrder x.nameByLang y.nameByLang ∧ SameOrder x.descByLang y.descByLang ∧
      SameArchesPkgs x.getPackageList y.getPackageList
  categories : ∀ (i : Nat) (x y : Category), ca.categories[i]? = some x → cb.categories[i]? = some y →
    SameOrder x.nameByLang y.nameByLang ∧ SameOrder x.descByLang y.descByLang ∧
      SameArchesIds x.getGroupIds y.getGroupIds
  environments : ∀ (i : Nat) (x y : Env), ca.environments[i]? = some x → cb.environments[i]? = some y →
    SameOrder x.nameByLang y.nameByLang ∧ SameOrder x.descByLang y.descByLang ∧
      SameArchesIds x.getGroupList y.getGroupList ∧ SameArchesIds x.getOptionList y.getOptionList
  langpacks : SameOrder ca.langpacks cb.langpacks
  blacklist : MTree.pairs ca.blacklist = MTree.pairs cb.blacklist
  whiteout : MTree.pairs ca.whiteout = MTree.pairs cb.whiteout

theorem pkgs_eq {a b : Option (List Package)} (h : SameList Package.cmp a b)
    (hx : SameArchesPkgs a b) : a = b := by
  cases a with
  | none => cases b with
    | none => rfl
    | some y => exact absurd h id
  | some x => cases b with
    | none => exact absurd h id
    | some y =>
      congr 1
      refine List.ext_getElem h.1 fun i h1 h2 => ?_
      have e1 : x[i]? = some x[i] := List.getElem?_eq_getElem h1
      have e2 : y[i]? = some y[i] := List.getElem?_eq_getElem h2
      have k1 := (C41_package_meaning _ _).1 (h.2 i _ _ e1 e2)
      have k2 := hx _ _ rfl rfl i _ _ e1 e2
      generalize x[i] = p at k1 k2
      generalize y[i] = q at k1 k2
      obtain ⟨n, r, s, l, t⟩ := p
      obtain ⟨n', r', s', l', t'⟩ := q
      simp only [Package.getName, Package.getRequires, Package.getType, Package.getArches,
        Package.getBasearchonly] at k1 k2
      obtain ⟨rfl, rfl, rfl⟩ := k1
      obtain ⟨rfl, rfl⟩ := k2
      rfl

theorem ids_eq {a b : Option (List GroupId)} (h : SameList GroupId.cmp a b)
    (hx : SameArchesIds a b) : a = b := by
  cases a with
  | none => cases b with
    | none => rfl
    | some y => exact absurd h id
  | some x => cases b with
    | none => exact absurd h id
    | some y =>
      congr 1
      refine List.ext_getElem h.1 fun i h1 h2 => ?_
      have e1 : x[i]? = some x[i] := List.getElem?_eq_getElem h1
      have e2 : y[i]? = some y[i] := List.getElem?_eq_getElem h2
      have k1 := (GroupId.cmp_iff _ _).1 (h.2 i _ _ e1 e2)
      have k2 := hx _ _ rfl rfl i _ _ e1 e2
      generalize x[i] = p at k1 k2
      generalize y[i] = q at k1 k2
      obtain ⟨n, r, s⟩ := p
      obtain ⟨n', r', s'⟩ := q
      simp only [GroupId.getArches] at k1 k2
      obtain ⟨rfl, rfl⟩ := k1
      subst k2
      rfl

/-- **C171, part that holds.**  Two documents that compare equal, whose packages and group ids also
agree in architectures and `basearchonly`, whose translations and language packs are listed in the same
order, and whose black and white lists are the same, are written the same way: both output functions
make the same calls of the XML writer with every option, log the same and return the same, whatever
the writer answers.  Missing: documents that differ in what comparing does not look at
(`C171_false`, `C171_false_order`) and copies, which have lost the number of language packs
(`C42_false`). -/
theorem C171_partial {a b : Doc} (ha : DocBuilt lt a) (hb : DocBuilt lt b) {ca cb : DocContent}
    (sa : Shows lt a ca) (sb : Shows lt b cb) (na : Counted ca) (nb : Counted cb)
    (h : a.cmp lt b = .ok true) (hx : SameDetails ca cb) (o : Option Options) (df : Option Defaults) :
    toStr lt o df a = toStr lt o df b ∧ toFile lt o df a = toFile lt o df b := by
  have ia := docBuilt_inv ha
  have ib := docBuilt_inv hb
  obtain ⟨r, h1, h2⟩ := C41_doc_meaning ha hb sa sb
  rw [h] at h1
  injection h1 with h1
  have hs := h2.1 h1.symm
  rw [shows_unique sa (shows_content ia)] at *
  rw [shows_unique sb (shows_content ib)] at *
  have xa := contents_built ia
  have xb := contents_built ib
  have hp : ∀ {x y : RTree PVal}, LangInv lt x → LangInv lt y → SameDict x y → SameOrder x y →
      x.pairs = y.pairs := fun hx hy => pairs_same hx.reach.wf hy.reach.wf
  have hl : (content a).langpacks.pairs = (content b).langpacks.pairs :=
    hp (langBuilt_inv xa.2.2.2.1) (langBuilt_inv xb.2.2.2.1) hs.langpacks hx.langpacks
  have el : ((content a).langpacks.len : Int) = 0 ↔ ((content b).langpacks.len : Int) = 0 := by
    have p := na.langpacks; have q := nb.langpacks
    simp only [packItems, hl] at p
    simp only [packItems] at q
    have := p.trans q.symm
    omega
  have eb : (content a).blacklist.len = 0 ↔ (content b).blacklist.len = 0 := by
    rw [na.blacklist, nb.blacklist]; simp only [multiItems, hx.blacklist]
  have ew : (content a).whiteout.len = 0 ↔ (content b).whiteout.len = 0 := by
    rw [na.whiteout, nb.whiteout]; simp only [multiItems, hx.whiteout]
  have hparts : ∀ o df, xmlParts o df (content a) = xmlParts o df (content b) := by
    intro o df
    unfold xmlParts
    refine xmlEntries_congr (funext fun r1 => xmlEntries_congr (funext fun r2 =>
      xmlEntries_congr (funext fun r3 => ?_) hs.environments.1 ?_ r2) hs.categories.1 ?_ r1)
      hs.groups.1 ?_ 0
    · exact xmlBlock_congr el (by rw [hl]) (xmlBlock_congr (by simpa using eb)
        (by simp only [mItems, hx.blacklist]) (xmlBlock_congr (by simpa using ew)
        (by simp only [mItems, hx.whiteout]) rfl))
    · intro i x y e1 e2
      have bx := xa.2.2.1 x (List.mem_of_getElem? e1)
      have by' := xb.2.2.1 y (List.mem_of_getElem? e2)
      obtain ⟨m1, m2, m3, m4, m5⟩ := (C41_env_meaning bx by').1 (hs.environments.2 i x y e1 e2)
      obtain ⟨k1, k2, k3, k4⟩ := hx.environments i x y e1 e2
      have jx := envBuilt_inv bx; have jy := envBuilt_inv by'
      exact xmlEnv_congr m1 (hp jx.name jy.name m2 k1) (hp jx.desc jy.desc m3 k2) (ids_eq m4 k3)
        (ids_eq m5 k4)
    · intro i x y e1 e2
      have bx := xa.2.1 x (List.mem_of_getElem? e1)
      have by' := xb.2.1 y (List.mem_of_getElem? e2)
      obtain ⟨m1, m2, m3, m4⟩ := (C41_category_meaning bx by').1 (hs.categories.2 i x y e1 e2)
      obtain ⟨k1, k2, k3⟩ := hx.categories i x y e1 e2
      have jx := categoryBuilt_inv bx; have jy := categoryBuilt_inv by'
      exact xmlCategory_congr m1 (hp jx.name jy.name m2 k1) (hp jx.desc jy.desc m3 k2) (ids_eq m4 k3)
    · intro i x y e1 e2
      have bx := xa.1 x (List.mem_of_getElem? e1)
      have by' := xb.1 y (List.mem_of_getElem? e2)
      obtain ⟨m1, m2, m3, m4⟩ := (C41_group_meaning bx by').1 (hs.groups.2 i x y e1 e2)
      obtain ⟨k1, k2, k3⟩ := hx.groups i x y e1 e2
      have jx := groupBuilt_inv bx; have jy := groupBuilt_inv by'
      exact xmlGroup_congr m1 (hp jx.name jy.name m2 k1) (hp jx.desc jy.desc m3 k2) (pkgs_eq m4 k3)
  have e1 : a.encoding = b.encoding := hs.encoding
  have e2 : a.doctypeName = b.doctypeName := hs.name
  have e3 : a.doctypeSysid = b.doctypeSysid := hs.sysid
  have e4 : a.doctypePubid = b.doctypePubid := hs.pubid
  have hd : ∀ o df, xmlDoc lt o df a = xmlDoc lt o df b := by
    intro o df
    rw [xmlDoc_parts ia, xmlDoc_parts ib, hparts, e2, e3, e4]
  have he : startXml a = startXml b := by unfold startXml; rw [e1]
  constructor
  · unfold toStr; rw [he, hd]
  · unfold toFile; rw [he, hd]

/-- A document with one group. -/
def oneGroup (lt : UInt8 → UInt8 → Bool) (g : Group) : Doc := newDoc.setObj lt groupsSlot (some [g])

theorem oneGroup_built {g : Group} (h : GroupBuilt lt g) : DocBuilt lt (oneGroup lt g) :=
  .call (.setGroups (some [g])) (by simp [DocCall.Good, h]) newDoc_built rfl

theorem oneGroup_shows (g : Group) : Shows lt (oneGroup lt g) { noContent with groups := [g] } :=
  ⟨⟨_, rfl⟩, ⟨_, rfl⟩, ⟨_, rfl⟩, ⟨_, rfl⟩, ⟨_, rfl⟩, ⟨_, rfl⟩⟩

theorem oneGroup_cmp {g g' : Group} (h : GroupBuilt lt g) (h' : GroupBuilt lt g')
    (hc : g.cmp g' = true) : (oneGroup lt g).cmp lt (oneGroup lt g') = .ok true := by
  obtain ⟨r, h1, h2⟩ := C41_doc_meaning (oneGroup_built h) (oneGroup_built h') (oneGroup_shows g)
    (oneGroup_shows g')
  rw [h1, h2.2 ⟨rfl, rfl, rfl, rfl, ⟨rfl, ?_⟩, ⟨rfl, nofun⟩, ⟨rfl, nofun⟩, fun _ => rfl, fun _ => rfl,
    fun _ => rfl⟩]
  intro i x y hx hy
  cases i with
  | zero => cases hx; cases hy; exact hc
  | succ i => cases hx

/-- What is written for a document with one group that is not left out. -/
theorem oneGroup_written {g : Group} (h : GroupBuilt lt g) {p : Package} {l : List Package}
    (hl : g.packages = some (p :: l)) (hd : g.props.get b!"display_order" = none) :
    ∃ st, toStr lt none none (oneGroup lt g) (start (fun _ => false) (oneGroup lt g)) = .ok (0, st) ∧
      st.calls = (docCalls .standard .standard newDoc { noContent with groups := [g] }).map
        fun c => (c, true) := by
  have hb := oneGroup_built h
  have hs := oneGroup_shows (lt := lt) g
  have ht : DoctypeOk (oneGroup lt g) := ⟨⟨_, rfl, by decide⟩, ⟨_, rfl⟩, ⟨_, rfl⟩, fun _ _ => nofun⟩
  have hw : Writable { noContent with groups := [g] } :=
    ⟨fun x hx => by
      rw [List.mem_singleton.1 hx]; exact ⟨by rw [hl]; rfl, fun n hn => by rw [hd] at hn; cases hn⟩,
      nofun, nofun⟩
  have hn : Counted { noContent with groups := [g] } :=
    counted (lt := lt) ⟨⟨[], rfl⟩, ⟨[], rfl⟩, ⟨[], rfl⟩⟩
  have h0 : leftOut .standard { noContent with groups := [g] } = [] := by
    simp [leftOut, noContent, groupShown, hl]
  obtain ⟨code, st, k1, k2, -⟩ := (C27_partial hb hs ht hw hn none none
    (fails := fun _ => false) (fun _ => rfl)).2 (.inl rfl)
  have hc := shows_unique hs (shows_content (docBuilt_inv hb))
  have k3 := toStr_ok (o := none) (df := none) (docBuilt_inv hb) ht (by rw [← hc]; exact hw)
    (s := start (fun _ => false) (oneGroup lt g)) (fun _ => rfl) rfl (.inl rfl)
  rw [← hc] at k3
  have e : addRet 0 (leftOut (Option.getD none Options.standard)
      { noContent with groups := [g] }).length = 0 := by
    show addRet 0 (leftOut .standard { noContent with groups := [g] }).length = 0
    rw [h0]; rfl
  rw [e, k1] at k3
  injection k3 with k3
  injection k3 with k3 _
  subst k3
  exact ⟨st, k1, k2⟩

/-- A group with translated names, entered in the given order. -/
def named (lt : UInt8 → UInt8 → Bool) (l : List (Bytes × Bytes)) : Group :=
  { idGrp lt b!"g" [pkg b!"a" b!"1"] with
    nameByLang := l.foldl (fun t x => t.set lt x.1 (some (.str (cs x.2)))) RTree.create }

theorem named_built (l : List (Bytes × Bytes)) : GroupBuilt lt (named lt l) := by
  have : ∀ (l : List (Bytes × Bytes)) (g : Group), GroupBuilt lt g → GroupBuilt lt { g with
      nameByLang := l.foldl (fun t x => t.set lt x.1 (some (.str (cs x.2)))) g.nameByLang } := by
    intro l
    induction l with
    | nil => exact fun g h => h
    | cons x l ih => exact fun g h => ih _ (.nameLang x.1 (cs x.2) h)
  have h0 : (idGrp lt b!"g" [pkg b!"a" b!"1"]).nameByLang = RTree.create := rfl
  have := this l _ (idGrp_built b!"g" [pkg b!"a" b!"1"])
  rw [h0] at this
  exact this

/-- The values written for an attribute, in order. -/
def values (key : Bytes) (st : St) : List Bytes :=
  st.calls.filterMap fun | (.attribute k v, _) => if k = key then some v else none | _ => none

/-- The byte order of the first characters of a key. -/
def byByte (a b : UInt8) : Bool := a < b

/-- **C171 is false of the code**: two documents with one group of one package, of which only one has
`basearchonly` set, compare equal, and both are written without an error; only the output of the second
has the attribute `basearchonly`. -/
theorem C171_false : ∃ (a b : Doc) (st st' : St), DocBuilt byByte a ∧ DocBuilt byByte b ∧
    a.cmp byByte b = .ok true ∧ toStr byByte none none a (start (fun _ => false) a) = .ok (0, st) ∧
    toStr byByte none none b (start (fun _ => false) b) = .ok (0, st') ∧
    values b!"basearchonly" st = [] ∧ values b!"basearchonly" st' = [b!"true"] := by
  have h : GroupBuilt byByte (idGrp byByte b!"g" [pkg b!"a" b!"1"]) := idGrp_built _ _
  have h' : GroupBuilt byByte (idGrp byByte b!"g" [(pkg b!"a" b!"1").setBasearchonly 1 false]) :=
    idGrp_built _ _
  obtain ⟨st, h1, h2⟩ := oneGroup_written h rfl rfl
  obtain ⟨st', h3, h4⟩ := oneGroup_written h' rfl rfl
  refine ⟨_, _, st, st', oneGroup_built h, oneGroup_built h', oneGroup_cmp h h' (by decide +kernel), h1,
    h3, ?_, ?_⟩
  · unfold values; rw [h2]; decide +kernel
  · unfold values; rw [h4]; decide +kernel

/-- **C171 is false of the code** also for the order of translations: the same names entered in another
order give groups that compare equal, and the `name` elements are written in different orders. -/
theorem C171_false_order : ∃ (a b : Doc) (st st' : St), DocBuilt byByte a ∧ DocBuilt byByte b ∧
    a.cmp byByte b = .ok true ∧ toStr byByte none none a (start (fun _ => false) a) = .ok (0, st) ∧
    toStr byByte none none b (start (fun _ => false) b) = .ok (0, st') ∧
    values b!"xml:lang" st = [b!"pt", b!"pt_BR", b!"sr", b!"sr@latin", b!"zh"] ∧
    values b!"xml:lang" st' = [b!"pt", b!"pt_BR", b!"zh", b!"sr", b!"sr@latin"] := by
  have h : GroupBuilt byByte (named byByte [(b!"pt", b!"1"), (b!"pt_BR", b!"2"), (b!"sr", b!"3"),
    (b!"sr@latin", b!"4"), (b!"zh", b!"5")]) := named_built _
  have h' : GroupBuilt byByte (named byByte [(b!"pt_BR", b!"2"), (b!"pt", b!"1"), (b!"sr@latin", b!"4"),
    (b!"zh", b!"5"), (b!"sr", b!"3")]) := named_built _
  obtain ⟨st, h1, h2⟩ := oneGroup_written h rfl rfl
  obtain ⟨st', h3, h4⟩ := oneGroup_written h' rfl rfl
  refine ⟨_, _, st, st', oneGroup_built h, oneGroup_built h', oneGroup_cmp h h' (by decide +kernel), h1,
    h3, ?_, ?_⟩
  · unfold values; rw [h2]; decide +kernel
  · unfold values; rw [h4]; decide +kernel

/-- The group with names in two languages entered in two orders that are listed alike. -/
example : ∃ (a b : Doc) (ca cb : DocContent), DocBuilt byByte a ∧ DocBuilt byByte b ∧
    Shows byByte a ca ∧ Shows byByte b cb ∧ Counted ca ∧ Counted cb ∧ a.cmp byByte b = .ok true ∧
    SameDetails ca cb ∧ ca.groups.map (fun g => g.nameByLang.pairs.length) = [2] := by
  have h : GroupBuilt byByte (named byByte [(b!"cs", b!"1"), (b!"de", b!"2")]) := named_built _
  have h' : GroupBuilt byByte (named byByte [(b!"de", b!"2"), (b!"cs", b!"1")]) := named_built _
  refine ⟨_, _, _, _, oneGroup_built h, oneGroup_built h', oneGroup_shows _, oneGroup_shows _,
    counted (lt := byByte) ⟨⟨[], rfl⟩, ⟨[], rfl⟩, ⟨[], rfl⟩⟩,
    counted (lt := byByte) ⟨⟨[], rfl⟩, ⟨[], rfl⟩, ⟨[], rfl⟩⟩,
    oneGroup_cmp h h' (by decide +kernel), ⟨?_, nofun, nofun, rfl, rfl, rfl⟩, by decide +kernel⟩
  intro i x y hx hy
  cases i with
  | succ i => cases hx
  | zero =>
    cases hx; cases hy
    refine ⟨by unfold SameOrder; decide +kernel, rfl, fun la lb ha hb i p q hp hq => ?_⟩
    rw [show la = lb from Option.some.inj (ha.symm.trans hb), hq] at hp
    cases hp
    exact ⟨rfl, rfl⟩

end Comps.Props

#print axioms Comps.Props.C171_partial
#print axioms Comps.Props.C171_false
#print axioms Comps.Props.C171_false_order
