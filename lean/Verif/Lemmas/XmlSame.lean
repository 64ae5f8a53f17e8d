import Verif.Lemmas.XmlDoc

/-!
# What the output of a document depends on (for C171)
-/

namespace Comps.Xml
open Comps Comps.Spec Comps.Obj Comps.Obj.Doc

variable {lt : UInt8 → UInt8 → Bool}

theorem xmlEntries_congr {α : Type} {f : α → M Int} {k k' : Int → M Int} (hk : k = k') :
    ∀ {l l' : List α}, l.length = l'.length →
      (∀ (i : Nat) (x y : α), l[i]? = some x → l'[i]? = some y → f x = f y) →
      ∀ r, xmlEntries f l r k = xmlEntries f l' r k'
  | [], [], _, _, r => by simp only [xmlEntries, hk]
  | x :: l, y :: l', hl, h, r => by
    have h0 : f x = f y := h 0 x y rfl rfl
    have ht : ∀ r, xmlEntries f l r k = xmlEntries f l' r k' := xmlEntries_congr hk
      (by simpa using hl) fun i a b ha hb => h (i + 1) a b (by simpa using ha) (by simpa using hb)
    simp only [xmlEntries, h0, ht]
  | [], _ :: _, hl, _, _ => by simp at hl
  | _ :: _, [], hl, _, _ => by simp at hl

theorem xmlBlock_congr {block tag key value : Bytes} {n n' : Int} {l l' : List (Bytes × Res Bytes)}
    {k k' : M Int} (hn : n = 0 ↔ n' = 0) (hl : l = l') (hk : k = k') :
    xmlBlock block tag key value n l k = xmlBlock block tag key value n' l' k' := by
  subst hl; subst hk
  unfold xmlBlock
  by_cases h : n = 0
  · have h' := hn.1 h
    simp only [h, h', ne_eq, not_true_eq_false, if_false]
  · have h' : ¬ n' = 0 := fun e => h (hn.2 e)
    simp only [h, h', ne_eq, not_false_eq_true, if_true]

theorem xmlGroup_congr {o : Options} {df : Defaults} {a b : Group}
    (hp : ∀ k, a.props.get k = b.props.get k) (hn : a.nameByLang.pairs = b.nameByLang.pairs)
    (hd : a.descByLang.pairs = b.descByLang.pairs) (hl : a.packages = b.packages) :
    xmlGroup o df a = xmlGroup o df b := by
  simp only [xmlGroup, xmlArchProp, getArchesProp, hp, hn, hd, hl]

theorem xmlCategory_congr {o : Options} {a b : Category}
    (hp : ∀ k, a.props.get k = b.props.get k) (hn : a.nameByLang.pairs = b.nameByLang.pairs)
    (hd : a.descByLang.pairs = b.descByLang.pairs) (hl : a.groupIds = b.groupIds) :
    xmlCategory o a = xmlCategory o b := by
  simp only [xmlCategory, xmlArchProp, getArchesProp, hp, hn, hd, hl]

theorem xmlEnv_congr {o : Options} {a b : Env}
    (hp : ∀ k, a.props.get k = b.props.get k) (hn : a.nameByLang.pairs = b.nameByLang.pairs)
    (hd : a.descByLang.pairs = b.descByLang.pairs) (hl : a.groupList = b.groupList)
    (hm : a.optionList = b.optionList) :
    xmlEnv o a = xmlEnv o b := by
  simp only [xmlEnv, xmlArchProp, getArchesProp, hp, hn, hd, hl, hm]

theorem getPart_pure {α : Type} {s : Slot α} {C : α → Prop} {get : DocContent → α}
    {pt : DocContent → α → DocContent} (hp : Placed lt s C get pt) {d : Doc}
    (h : ObjsInv lt d.objects) : ∃ d', getPart lt s d = pure (get (content d), d') ∧
      ObjsInv lt d'.objects ∧ content d' = content d := by
  obtain ⟨d', h1, h2, h3⟩ := getPart_ok hp h
  exact ⟨d', funext fun st => by rw [h1]; rfl, h2, h3⟩

/-- The output of the parts of a document. -/
def xmlParts (o : Options) (df : Defaults) (c : DocContent) : M Int :=
  xmlEntries (xmlGroup o df) c.groups 0 fun ret =>
  xmlEntries (xmlCategory o) c.categories ret fun ret =>
  xmlEntries (xmlEnv o) c.environments ret fun ret =>
  xmlBlock b!"langpacks" b!"match" b!"name" b!"install" c.langpacks.len
    (c.langpacks.pairs.map fun e => (e.1, valText e.2)) do
  xmlBlock b!"blacklist" b!"package" b!"name" b!"arch" c.blacklist.len (mItems c.blacklist) do
  xmlBlock b!"whiteout" b!"ignoredep" b!"requires" b!"package" c.whiteout.len (mItems c.whiteout) do
  let ok ← call .endElement
  check ok do
  return ret

theorem xmlDoc_parts {o : Options} {df : Defaults} {d : Doc} (h : ObjsInv lt d.objects) :
    xmlDoc lt o df d = (do
      let name ← doctypeText d.doctypeName
      let pubid ← doctypeText d.doctypePubid
      let sysid ← doctypeText d.doctypeSysid
      let ret ← call (.startDTD name pubid sysid)
      let _ ← call .endDTD
      check ret do
      let ret ← call (.startElement b!"comps")
      check ret do
      xmlParts o df (content d)) := by
  obtain ⟨d1, e1, i1, c1⟩ := getPart_pure (groupsAt (lt := lt)) h
  obtain ⟨d2, e2, i2, c2⟩ := getPart_pure (categoriesAt (lt := lt)) i1
  obtain ⟨d3, e3, i3, c3⟩ := getPart_pure (environmentsAt (lt := lt)) i2
  obtain ⟨d4, e4, i4, c4⟩ := getPart_pure (langpacksAt (lt := lt)) i3
  obtain ⟨d5, e5, i5, c5⟩ := getPart_pure (blacklistAt (lt := lt)) i4
  obtain ⟨d6, e6, i6, c6⟩ := getPart_pure (whiteoutAt (lt := lt)) i5
  simp only [xmlDoc, e1, e2, e3, e4, e5, e6, pure_bind, c1, c2, c3, c4, c5]
  rfl

theorem pairs_same {V : Type} {a b : RTree V} (ha : RTree.WF a.subnodes) (hb : RTree.WF b.subnodes)
    (hg : ∀ k, a.get k = b.get k) (hk : a.pairs.map (·.1) = b.pairs.map (·.1)) :
    a.pairs = b.pairs := by
  have hl : a.pairs.length = b.pairs.length := by simpa using congrArg List.length hk
  apply List.ext_getElem?
  intro i
  have hi : (a.pairs.map (·.1))[i]? = (b.pairs.map (·.1))[i]? := by rw [hk]
  rw [List.getElem?_map, List.getElem?_map] at hi
  cases ea : a.pairs[i]? with
  | none =>
    cases eb : b.pairs[i]? with
    | none => rfl
    | some y => rw [ea, eb] at hi; simp at hi
  | some x =>
    cases eb : b.pairs[i]? with
    | none => rw [ea, eb] at hi; simp at hi
    | some y =>
      rw [ea, eb] at hi
      simp only [Option.map_some, Option.some.injEq] at hi
      have m1 := (RTree.mem_pairs ha x.1 x.2).1 (List.mem_of_getElem? ea)
      have m2 := (RTree.mem_pairs hb y.1 y.2).1 (List.mem_of_getElem? eb)
      rw [hi, hg, m2] at m1
      injection m1 with m1
      rw [show x = y from Prod.ext hi m1.symm]

end Comps.Xml
