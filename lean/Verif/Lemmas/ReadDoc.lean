import Verif.Lemmas.ParseRun

/-!
# What a file says: the flags of groups

Everything here is about `Spec/Parse.lean`, not about the parser.
-/

namespace Comps.Parse
open Comps Comps.Spec Comps.Obj Comps.Text Comps.Xml

/-- The props are as before, or one key outside of the flags was written. -/
inductive Wrote (lt : UInt8 → UInt8 → Bool) (K : List Bytes) (t : RTree PVal) : RTree PVal → Prop
  | same : Wrote lt K t t
  | set (k : Bytes) (hk : k ∈ K) (v : PVal) (hv : (k, kind v) ∈ propKinds) :
    Wrote lt K t (t.set lt k (some v))

theorem Wrote.inv {lt : UInt8 → UInt8 → Bool} {K : List Bytes} {t t' : RTree PVal}
    (h : Wrote lt K t t') (ht : PropInv lt t) :
    PropInv lt t' ∧ ∀ k, k ∉ K → t'.get k = t.get k := by
  cases h with
  | same => exact ⟨ht, fun _ _ => rfl⟩
  | set k hk v hv =>
    have hm : k ∈ propKeys := List.mem_map.2 ⟨_, hv, rfl⟩
    refine ⟨ht.set k hm _ (by intro x hx; cases hx; exact hv), fun k' hk' => ?_⟩
    rw [ht.set_get k hm, if_neg]
    rintro rfl; exact hk' hk

def fieldKeys : List Bytes := [b!"id", b!"name", b!"desc", b!"display_order"]

theorem fieldKid_wrote (r : Reading) {x : Texts} (h : PropInv r.lt x.props) {n : Bytes}
    {attrs : List (Bytes × Bytes)} {kids : List XNode} {y : Texts × List Nat}
    (hy : fieldKid r x n attrs kids = some y) : Wrote r.lt fieldKeys x.props y.1.props := by
  unfold fieldKid at hy
  split at hy
  · cases hy
    show Wrote r.lt fieldKeys x.props (textKid r x n attrs (leaf r kids).2).1.props
    unfold textKid
    cases (leaf r kids).2 with
    | none => exact .same
    | some b =>
      simp only
      split
      · exact .set b!"id" (by decide) (.str ⟨some b⟩) (by simp only [kind]; decide)
      · split
        · split
          · exact .same
          · exact .set b!"name" (by decide) (.str ⟨some b⟩) (by simp only [kind]; decide)
        · split
          · exact .same
          · exact .set b!"desc" (by decide) (.str ⟨some b⟩) (by simp only [kind]; decide)
  · split at hy
    · cases hy
      refine .set b!"display_order" (by decide) _ ?_
      split
      · simp only [kind]; decide
      · cases e : x.props.get b!"display_order" with
        | none => simp only [Option.getD, kind]; decide
        | some v => exact h.typed.get h.wf e
    · cases hy

/-- The flags of a group: element name and property. -/
def flagNames : List (Bytes × Bytes) :=
  [(b!"default", b!"def"), (b!"uservisible", b!"uservisible"), (b!"biarchonly", b!"biarchonly")]

theorem groupKid_flags (r : Reading) {g : Group} (h : PropInv r.lt g.props) {n : Bytes}
    {attrs : List (Bytes × Bytes)} {kids : List XNode} {y : Group × List Nat}
    (hy : groupKid r g n attrs kids = some y) : PropInv r.lt y.1.props ∧
      ∀ f ∈ flagNames, y.1.props.get f.2 =
        if n = f.1 then ((flagValue (ownText kids)).map PVal.num).or (g.props.get f.2)
        else g.props.get f.2 := by
  have other : ∀ K, (∀ f ∈ flagNames, f.2 ∉ K) → (∀ f ∈ flagNames, n ≠ f.1) →
      Wrote r.lt K g.props y.1.props → PropInv r.lt y.1.props ∧
      ∀ f ∈ flagNames, y.1.props.get f.2 =
        if n = f.1 then ((flagValue (ownText kids)).map PVal.num).or (g.props.get f.2)
        else g.props.get f.2 := by
    intro K hK hn hw
    obtain ⟨h1, h2⟩ := hw.inv h
    refine ⟨h1, fun f hf => ?_⟩
    rw [if_neg (hn f hf), h2 _ (hK f hf)]
  unfold groupKid at hy
  cases hf : fieldKid r ⟨g.props, g.nameByLang, g.descByLang⟩ n attrs kids with
  | some z =>
    rw [hf] at hy
    cases hy
    refine other fieldKeys (by decide) ?_ (fieldKid_wrote r (x := ⟨g.props, _, _⟩) h hf)
    intro f hf' e
    have : fieldKid r ⟨g.props, g.nameByLang, g.descByLang⟩ n attrs kids = none := by
      refine field_names.2 ?_
      rw [e]
      exact (by decide : ∀ f ∈ flagNames,
        f.1 ∉ [b!"id", b!"name", b!"description", b!"display_order"]) f hf'
    rw [this] at hf
    cases hf
  | none =>
    rw [hf] at hy
    simp only at hy
    cases hk : flagKey n with
    | some key =>
      rw [hk] at hy
      simp only [Option.some.injEq] at hy
      subst hy
      have hkey : (n, key) ∈ flagNames := by
        unfold flagKey at hk
        split at hk
        · rename_i e; cases hk; subst e; decide
        · split at hk
          · rename_i e; cases hk; subst e; decide
          · split at hk
            · rename_i e; cases hk; subst e; decide
            · cases hk
      have htype : ∀ v : Int, (key, kind (PVal.num v)) ∈ propKinds := by
        intro v
        revert hkey
        simp only [flagNames, List.mem_cons, Prod.mk.injEq, List.not_mem_nil, or_false, kind]
        rintro (⟨-, rfl⟩ | ⟨-, rfl⟩ | ⟨-, rfl⟩) <;> decide
      have hmem : key ∈ propKeys := List.mem_map.2 ⟨_, htype 0, rfl⟩
      have hleaf : (leaf r kids).2 = ownText kids := rfl
      simp only [flagKid, hleaf]
      have hinj : ∀ f ∈ flagNames, (f.2 = key ↔ n = f.1) := by
        intro f hf
        revert hkey hf
        simp only [flagNames, List.mem_cons, Prod.mk.injEq, List.not_mem_nil, or_false]
        rintro (⟨rfl, rfl⟩ | ⟨rfl, rfl⟩ | ⟨rfl, rfl⟩) (rfl | rfl | rfl) <;> decide
      cases hv : flagValue (ownText kids) with
      | none =>
        refine ⟨h, fun f hf => ?_⟩
        simp
      | some v =>
        refine ⟨h.set key hmem _ (by intro x hx; cases hx; exact htype v), fun f hf => ?_⟩
        simp only [Option.map, Option.some_or]
        rw [h.set_get key hmem]
        have := hinj f hf
        by_cases e : n = f.1
        · rw [if_pos e, if_pos (this.2 e)]
        · rw [if_neg e, if_neg (fun e' => e (this.1 e'))]
    | none =>
      rw [hk] at hy
      have hn : ∀ f ∈ flagNames, n ≠ f.1 := by
        intro f hf e
        rw [e] at hk
        exact (by decide : ∀ f ∈ flagNames, flagKey f.1 ≠ none) f hf hk
      simp only at hy
      split at hy
      · split at hy
        · rename_i b hb
          cases hy
          exact other [b!"langonly"] (by decide) hn
            (.set b!"langonly" (by decide) (.str ⟨some b⟩) (by simp only [kind]; decide))
        · cases hy
          exact other [] (by simp) hn .same
      · split at hy
        · cases hy
          exact other [] (by simp) hn .same
        · cases hy

/-- One step of the last value of a flag. -/
def flagStep (name : Bytes) (v : Option Int) (k : XNode) : Option Int :=
  match k with
  | .elem _ n _ ks _ => if n = name then (flagValue (ownText ks)).or v else v
  | .text _ _ => v

theorem lastFlag_eq (name : Bytes) (kids : List XNode) :
    lastFlag name kids = kids.foldl (flagStep name) none := rfl

theorem readGroup_flags (r : Reading) (kids : List XNode) (g : Group) (pend : List Bytes)
    (h : PropInv r.lt g.props) : PropInv r.lt (readAll r (groupKid r) g kids pend).1.props ∧
      ∀ f ∈ flagNames, ∀ v : Option Int, g.props.get f.2 = v.map PVal.num →
        (readAll r (groupKid r) g kids pend).1.props.get f.2 =
          (kids.foldl (flagStep f.1) v).map PVal.num := by
  induction kids generalizing g pend with
  | nil => exact ⟨h, fun f _ v hv => hv⟩
  | cons k ks ih =>
    cases k with
    | text p s =>
      simp only [readAll, List.foldl_cons, flagStep]
      exact ih g _ h
    | elem p n attrs kids q =>
      simp only [readAll, List.foldl_cons, flagStep]
      cases hy : groupKid r g n attrs kids with
      | some y =>
        simp only
        obtain ⟨h1, h2⟩ := groupKid_flags r h hy
        obtain ⟨h3, h4⟩ := ih y.1 [] h1
        refine ⟨h3, fun f hf v hv => ?_⟩
        refine h4 f hf _ ?_
        rw [h2 f hf, hv]
        split
        · cases flagValue (ownText kids) <;> rfl
        · rfl
      | none =>
        simp only
        obtain ⟨h3, h4⟩ := ih g [] h
        refine ⟨h3, fun f hf v hv => ?_⟩
        have : n ≠ f.1 := by
          rintro rfl
          have hm : f.1 ∈ children .group := 
            (by decide : ∀ f ∈ flagNames, f.1 ∈ children .group) f hf
          exact groupKid_some r g _ attrs kids hm hy
        rw [if_neg this]
        exact h4 f hf v hv

theorem withDefault_get (r : Reading) {t : RTree PVal} (h : PropInv r.lt t) (key : Bytes)
    (hk : (key, 1) ∈ propKinds) (b : Bool) : PropInv r.lt (withDefault r key b t) ∧
      ∀ k, (withDefault r key b t).get k =
        if k = key then (t.get k).or (some (.num (if b then 1 else 0))) else t.get k := by
  have hm : key ∈ propKeys := List.mem_map.2 ⟨_, hk, rfl⟩
  unfold withDefault
  cases e : t.get key with
  | some v =>
    refine ⟨h, fun k => ?_⟩
    simp only [Option.isSome, if_true]
    by_cases hk : k = key
    · rw [if_pos hk, hk, e]; rfl
    · rw [if_neg hk]
  | none =>
    refine ⟨h.set key hm _ (by intro x hx; cases hx; exact hk), fun k => ?_⟩
    simp only [Option.isSome, Bool.false_eq_true, if_false]
    rw [h.set_get key hm]
    by_cases hk : k = key
    · rw [if_pos hk, if_pos hk, hk, e]; rfl
    · rw [if_neg hk, if_neg hk]

/-- The flags of a group in a document. -/
theorem group_flags (r : Reading) (attrs : List (Bytes × Bytes)) (kids : List XNode)
    (atEnd : Group → List Nat) :
    let g := endGroup r (inner r (groupKid r)
      ⟨newProps r attrs, RTree.create, RTree.create, some []⟩ kids atEnd).1
    g.props.get b!"def" = some (.num (flagIn b!"default" r.opts.dflt kids)) ∧
    g.props.get b!"uservisible" = some (.num (flagIn b!"uservisible" r.opts.uservisible kids)) ∧
    g.props.get b!"biarchonly" = some (.num (flagIn b!"biarchonly" r.opts.biarchonly kids)) := by
  have h0 : PropInv r.lt (newProps r attrs) :=
    (groupBuilt_inv (newGroup_built r attrs)).props
  have hno : ∀ k, k ∈ [b!"def", b!"uservisible", b!"biarchonly"] → (newProps r attrs).get k = none := by
    intro k hk
    unfold newProps
    have hc : ∀ k, (RTree.create : RTree PVal).get k = none := by
      intro k
      cases k <;> rfl
    split
    · rw [PropInv.create.set_get _ (by decide), if_neg, hc]
      rintro rfl; revert hk; decide
    · exact hc k
  obtain ⟨h1, h2⟩ := readGroup_flags r kids ⟨newProps r attrs, RTree.create, RTree.create, some []⟩ []
    h0
  intro g
  obtain ⟨a1, a2⟩ := withDefault_get r h1 b!"def" (by decide) r.opts.dflt
  obtain ⟨b1, b2⟩ := withDefault_get r a1 b!"uservisible" (by decide) r.opts.uservisible
  obtain ⟨-, c2⟩ := withDefault_get r b1 b!"biarchonly" (by decide) r.opts.biarchonly
  have hg : g.props = withDefault r b!"biarchonly" r.opts.biarchonly (withDefault r b!"uservisible"
      r.opts.uservisible (withDefault r b!"def" r.opts.dflt (readAll r (groupKid r)
        ⟨newProps r attrs, RTree.create, RTree.create, some []⟩ kids []).1.props)) := rfl
  rw [hg]
  have key : ∀ (o : Option Int) (b : Bool),
      (o.map PVal.num).or (some (.num (if b then 1 else 0))) =
        some (.num (o.getD (if b then 1 else 0))) := by
    intro o b; cases o <;> rfl
  refine ⟨?_, ?_, ?_⟩
  · rw [c2, if_neg (by decide), b2, if_neg (by decide), a2, if_pos rfl,
      h2 (b!"default", b!"def") (by decide) none (by rw [hno _ (by decide)]; rfl), key]; rfl
  · rw [c2, if_neg (by decide), b2, if_pos rfl, a2, if_neg (by decide),
      h2 (b!"uservisible", b!"uservisible") (by decide) none (by rw [hno _ (by decide)]; rfl), key]; rfl
  · rw [c2, if_pos rfl, b2, if_neg (by decide), a2, if_neg (by decide),
      h2 (b!"biarchonly", b!"biarchonly") (by decide) none (by rw [hno _ (by decide)]; rfl), key]; rfl

/-- The flags of the groups of a file. -/
theorem doc_flags (r : Reading) (attrs : List (Bytes × Bytes)) (kids : List XNode) :
    (readDoc r attrs kids).1.groups.map (fun g => (g.props.get b!"def",
      g.props.get b!"uservisible", g.props.get b!"biarchonly")) =
    (kidsOf b!"group" kids).map fun k => (some (PVal.num (flagIn b!"default" r.opts.dflt k)),
      some (PVal.num (flagIn b!"uservisible" r.opts.uservisible k)),
      some (PVal.num (flagIn b!"biarchonly" r.opts.biarchonly k))) := by
  have key : ∀ (kids : List XNode) (c : DocContent) (pend : List Bytes),
      (readAll r (docKid r) c kids pend).1.groups.map (fun g => (g.props.get b!"def",
      g.props.get b!"uservisible", g.props.get b!"biarchonly")) =
      c.groups.map (fun g => (g.props.get b!"def",
      g.props.get b!"uservisible", g.props.get b!"biarchonly")) ++
      (kidsOf b!"group" kids).map fun k => (some (PVal.num (flagIn b!"default" r.opts.dflt k)),
      some (PVal.num (flagIn b!"uservisible" r.opts.uservisible k)),
      some (PVal.num (flagIn b!"biarchonly" r.opts.biarchonly k))) := by
    intro kids
    induction kids with
    | nil => intro c pend; simp [readAll, kidsOf]
    | cons k ks ih =>
      intro c pend
      cases k with
      | text p s =>
        simp only [readAll]
        rw [ih]; rfl
      | elem p n attrs kids q =>
        simp only [readAll]
        by_cases hn : n = b!"group"
        · subst hn
          simp only [docKid, if_pos]
          rw [ih]
          obtain ⟨h1, h2, h3⟩ := group_flags r attrs kids (fun g => requiredCodes g.props)
          have hk : kidsOf b!"group" (.elem p b!"group" attrs kids q :: ks) =
              kids :: kidsOf b!"group" ks := rfl
          rw [hk, List.map_append, List.map_cons, List.map_nil, List.map_cons, List.append_assoc, h1,
            h2, h3]
          rfl
        · have hk : kidsOf b!"group" (.elem p n attrs kids q :: ks) = kidsOf b!"group" ks := by
            simp only [kidsOf, List.filterMap_cons, if_neg hn]
          rw [hk]
          have hg : ∀ y, docKid r c n attrs kids = some y → y.1.groups = c.groups := by
            intro y hy
            unfold docKid at hy
            rw [if_neg hn] at hy
            split at hy
            · cases hy; rfl
            · split at hy
              · cases hy; rfl
              · split at hy
                · cases hy; rfl
                · split at hy
                  · cases hy; rfl
                  · split at hy
                    · cases hy; rfl
                    · cases hy
          cases hy : docKid r c n attrs kids with
          | none => simp only; rw [ih]
          | some y => simp only; rw [ih, hg y hy]
  exact key kids emptyContent []

end Comps.Parse
