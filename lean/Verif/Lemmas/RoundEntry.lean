import Verif.Lemmas.RoundTrip
import Verif.Lemmas.ReadDoc

/-!
# Reading back groups, categories, environments and whole documents
-/

namespace Comps.Round
open Comps Comps.Spec Comps.Obj Comps.Text Comps.Xml
open Comps.Parse (Pos Event)

variable {lt : UInt8 → UInt8 → Bool} {opts : Defaults} {extra : Bytes → List Bytes}

/-! ## Properties by key -/

/-- A dictionary of properties with the lookups `m`. -/
structure At (lt : UInt8 → UInt8 → Bool) (t : RTree PVal) (m : Bytes → Option PVal) : Prop where
  inv : PropInv lt t
  get : ∀ k, t.get k = m k

theorem At.put {t : RTree PVal} {m : Bytes → Option PVal} (h : At lt t m) {key : Bytes}
    (hk : key ∈ propKeys) {v : Option PVal} (hv : ∀ x, v = some x → (key, kind x) ∈ propKinds) :
    At lt (Round.put lt key v t) (fun k => if k = key then v.or (m k) else m k) := by
  refine ⟨put_inv h.inv hk hv, fun k => ?_⟩
  rw [put_get h.inv hk]
  by_cases e : k = key
  · rw [if_pos e, if_pos e, ← e, h.get]
  · rw [if_neg e, if_neg e, h.get]

theorem At.dflt {r : Reading} {t : RTree PVal} {m : Bytes → Option PVal} (h : At r.lt t m) {key : Bytes}
    (hk : (key, 1) ∈ propKinds) (b : Bool) :
    At r.lt (withDefault r key b t)
      (fun k => if k = key then (m k).or (some (.num (if b then 1 else 0))) else m k) := by
  obtain ⟨h1, h2⟩ := Comps.Parse.withDefault_get r h.inv key hk b
  refine ⟨h1, fun k => ?_⟩
  rw [h2, h.get]

/-- The properties a new entry starts with. -/
theorem newProps_at {o : Options} {props : RTree PVal} (hp : PropInv lt props)
    (ha : ArchesIn o (archesOf props)) :
    At lt (newProps (Reading.plain lt opts extra) (archAttr o (archesOf props)))
      (fun k => if k = b!"arches" then props.get b!"arches" else none) := by
  have hk : ∀ v, props.get b!"arches" = some v → ∃ l, v = .list l := by
    intro v hv
    have := hp.typed.get hp.wf hv
    cases v with
    | str s => simp [propKinds, kind] at this
    | num n => simp [propKinds, kind] at this
    | list l => exact ⟨l, rfl⟩
  have e : newProps (Reading.plain lt opts extra) (archAttr o (archesOf props)) =
      Round.put lt b!"arches" (props.get b!"arches") RTree.create := by
    have e1 : archesIn (Reading.plain lt opts extra) (archAttr o (archesOf props)) = archesOf props := by
      rcases archAttr_cases ha with ⟨h1, h2⟩ | ⟨s, h1, h2⟩
      · rw [h2, h1]; rfl
      · rw [h1, h2]; simp [archesIn, look_plain, attrOf]
    rw [newProps, e1]
    unfold archesOf
    cases hg : props.get b!"arches" with
    | none => rfl
    | some v => obtain ⟨l, rfl⟩ := hk v hg; rfl
  rw [e]
  have h0 : At lt RTree.create (fun _ => none) := ⟨.create, RTree.create_get⟩
  have := h0.put (key := b!"arches") (by decide) (v := props.get b!"arches") (by
    intro x hx; obtain ⟨l, rfl⟩ := hk x hx; show (b!"arches", 2) ∈ propKinds; decide)
  simpa using this

theorem archAttr_known {o : Options} {a : Option (List CStr)} (h : ArchesIn o a) {n : Bytes}
    (hn : n = b!"group" ∨ n = b!"category" ∨ n = b!"environment") :
    attrCodes (Reading.plain lt opts extra) n (archAttr o a) = [] ∧ AttrsOk (archAttr o a) := by
  rcases archAttr_cases h with ⟨-, h2⟩ | ⟨s, h1, -⟩
  · rw [h2]; exact ⟨attrCodes_nil (by simp), attrsOk_names rfl⟩
  · rw [h1]
    refine ⟨attrCodes_nil ?_, attrsOk_names rfl⟩
    rw [known_entry hn]; simp

/-- The texts. -/
theorem backTexts_at {o : Options} {props names descs : RTree PVal}
    (h : TextsIn o props names descs) {x : Texts} {m : Bytes → Option PVal} (hx : At lt x.props m) :
    At lt (backTexts lt x props names descs).props (fun k =>
      if k = b!"desc" then (props.get b!"desc").or (m k)
      else if k = b!"name" then (props.get b!"name").or (m k)
      else if k = b!"id" then (props.get b!"id").or (m k) else m k) := by
  have kd : ∀ k ∈ [b!"id", b!"name", b!"desc"], ∀ v, props.get k = some v →
      (k, kind v) ∈ propKinds := by
    intro k hk v hv
    obtain ⟨s, rfl, -⟩ := h.strs k (by simp at hk ⊢; rcases hk with h | h | h <;> simp [h]) v hv
    simp at hk
    rcases hk with rfl | rfl | rfl <;> simp [propKinds, kind]
  have h3 := ((hx.put (key := b!"id") (by decide) (kd _ (by simp))).put (key := b!"name") (by decide)
    (kd _ (by simp))).put (key := b!"desc") (by decide) (kd _ (by simp))
  refine ⟨h3.inv, fun k => ?_⟩
  rw [show (backTexts lt x props names descs).props.get k = _ from h3.get k]
  by_cases e1 : k = b!"desc"
  · subst e1; simp
  · by_cases e2 : k = b!"name"
    · subst e2; simp
    · by_cases e3 : k = b!"id" <;> simp [e1, e2, e3]

theorem lifts_group (r : Reading) (pk : Option (List Package)) :
    Lifts r (groupKid r) (fun x => ⟨x.props, x.names, x.descs, pk⟩) := by
  intro x n attrs nodes y h
  simp only [groupKid, h]

theorem lifts_category (r : Reading) (pk : Option (List GroupId)) :
    Lifts r (categoryKid r) (fun x => ⟨x.props, x.names, x.descs, pk⟩) := by
  intro x n attrs nodes y h
  simp only [categoryKid, h]

theorem lifts_env (r : Reading) (a b : Option (List GroupId)) :
    Lifts r (envKid r) (fun x => ⟨x.props, x.names, x.descs, a, b⟩) := by
  intro x n attrs nodes y h
  simp only [envKid, h]

/-! ## Groups -/

/-- Is a flag written? -/
def flagOut (expl dflt : Bool) (v : Option PVal) : Bool := expl || (flagOf v).getD dflt != dflt

theorem flag_step {tag key : Bytes} (hk : (tag, key) ∈
      [(b!"default", b!"def"), (b!"uservisible", b!"uservisible"), (b!"biarchonly", b!"biarchonly")])
    {v : Option PVal} (hv : v = some (.num 0) ∨ v = some (.num 1)) (Q : Prop) (expl dflt : Bool)
    (g : Group) :
    Steps (Reading.plain lt opts extra) (groupKid (Reading.plain lt opts extra)) Q
      (flagTree tag expl dflt v) g
      { g with props := put lt key (if flagOut expl dflt v then v else none) g.props } := by
  have ht : flagTree tag expl dflt v = if flagOut expl dflt v = true then
      [.elem tag [] [.text (boolWord ((flagOf v).getD dflt))]] else [] := rfl
  rw [ht]
  by_cases hf : flagOut expl dflt v = true
  · rw [if_pos hf, if_pos hf]
    refine Steps.one ⟨attrCodes_nil (by simp), fun nodes hr => ?_⟩
    refine ⟨[], ?_, fun _ => rfl⟩
    have hfield : fieldKid (Reading.plain lt opts extra) ⟨g.props, g.nameByLang, g.descByLang⟩ tag []
        nodes = none := by
      simp only [List.mem_cons, Prod.mk.injEq, List.not_mem_nil, or_false] at hk
      rcases hk with ⟨rfl, -⟩ | ⟨rfl, -⟩ | ⟨rfl, -⟩ <;> simp [fieldKid]
    have hkey : flagKey tag = some key := by
      simp only [List.mem_cons, Prod.mk.injEq, List.not_mem_nil, or_false] at hk
      rcases hk with ⟨rfl, rfl⟩ | ⟨rfl, rfl⟩ | ⟨rfl, rfl⟩ <;> rfl
    simp only [groupKid, hfield, hkey, reads_leaf _ hr]
    rcases hv with rfl | rfl <;> rfl
  · rw [if_neg hf, if_neg hf]
    exact Steps.nil _

theorem langonly_step {v : Option PVal} (hv : ∀ x, v = some x → ∃ s, x = .str s ∧ Solid s) (Q : Prop)
    (g : Group) (hn : g.props.get b!"langonly" = none) :
    Steps (Reading.plain lt opts extra) (groupKid (Reading.plain lt opts extra)) Q
      (propTree b!"langonly" v) g { g with props := put lt b!"langonly" v g.props } := by
  cases v with
  | none => exact Steps.nil _
  | some v =>
    obtain ⟨b, rfl, hb⟩ := solid_text (hv v rfl)
    refine Steps.one ⟨attrCodes_nil (by simp), fun nodes hr => ?_⟩
    refine ⟨[], ?_, fun _ => rfl⟩
    have hfield : fieldKid (Reading.plain lt opts extra) ⟨g.props, g.nameByLang, g.descByLang⟩
        b!"langonly" [] nodes = none := by simp [fieldKid]
    have hkey : flagKey b!"langonly" = none := rfl
    simp only [groupKid, hfield, hkey, reads_leaf _ hr, hb]
    simp [againCode, hn, put, Reading.plain]

theorem packagelist_step {o : Options} {l : List Package} (hl : ∀ p ∈ l, PackageIn o p) (Q : Prop)
    (hq : Q → (∀ p ∈ l, p.name ≠ none) ∧ (l = [] → o.emptyPackages = false))
    (g : Group) (hg : g.packages = some []) :
    Steps (Reading.plain lt opts extra) (groupKid (Reading.plain lt opts extra)) Q
      (listTree b!"packagelist" o.emptyPackages (l.map (packageTree o))) g
      { g with packages := some l } := by
  unfold listTree
  by_cases hs : l.map (packageTree o) ≠ [] ∨ o.emptyPackages = true
  · rw [if_pos hs]
    refine Steps.one ⟨attrCodes_nil (by simp), fun nodes hr => ?_⟩
    obtain ⟨codes, e, q⟩ := (packages_steps (lt := lt) (opts := opts) (extra := extra) hl [] Q
      (fun h => (hq h).1)).inner hr emptyCode
    refine ⟨codes, ?_, fun hq' => q hq' ?_⟩
    · have hfield : fieldKid (Reading.plain lt opts extra) ⟨g.props, g.nameByLang, g.descByLang⟩
          b!"packagelist" [] nodes = none := by simp [fieldKid]
      have hkey : flagKey b!"packagelist" = none := rfl
      simp only [groupKid, hfield, hkey, hg, Option.getD_some, e]
      simp
    · cases l with
      | nil =>
        rcases hs with hs | hs
        · simp at hs
        · have := (hq hq').2 rfl
          rw [this] at hs; simp at hs
      | cons p l => rfl
  · rw [if_neg hs]
    have : l = [] := by
      cases l with
      | nil => rfl
      | cons p l => exact absurd (.inl (by simp)) hs
    subst this
    have : ({ g with packages := some [] } : Group) = g := by rw [← hg]
    rw [this]
    exact Steps.nil _

/-- The group that reading gives, before the default flags. -/
def midGroup (lt : UInt8 → UInt8 → Bool) (opts : Defaults) (extra : Bytes → List Bytes) (o : Options)
    (g : Group) : Group :=
  let x := backTexts lt ⟨newProps (Reading.plain lt opts extra) (archAttr o (archesOf g.props)),
    RTree.create, RTree.create⟩ g.props g.nameByLang g.descByLang
  let p := put lt b!"def" (if flagOut o.defaultExplicit opts.dflt (g.props.get b!"def") then
    g.props.get b!"def" else none) x.props
  let p := put lt b!"uservisible" (if flagOut o.uservisibleExplicit opts.uservisible
    (g.props.get b!"uservisible") then g.props.get b!"uservisible" else none) p
  let p := put lt b!"biarchonly" (if flagOut o.biarchonlyExplicit opts.biarchonly
    (g.props.get b!"biarchonly") then g.props.get b!"biarchonly" else none) p
  let p := put lt b!"display_order" (g.props.get b!"display_order") p
  let p := put lt b!"langonly" (g.props.get b!"langonly") p
  ⟨p, x.names, x.descs, g.packages⟩

/-- The lookups of the properties of that group. -/
def midGet (opts : Defaults) (o : Options) (g : Group) (k : Bytes) : Option PVal :=
  if k = b!"langonly" then g.props.get k
  else if k = b!"display_order" then g.props.get k
  else if k = b!"biarchonly" then
    (if flagOut o.biarchonlyExplicit opts.biarchonly (g.props.get k) then g.props.get k else none)
  else if k = b!"uservisible" then
    (if flagOut o.uservisibleExplicit opts.uservisible (g.props.get k) then g.props.get k else none)
  else if k = b!"def" then
    (if flagOut o.defaultExplicit opts.dflt (g.props.get k) then g.props.get k else none)
  else if k = b!"desc" then g.props.get k
  else if k = b!"name" then g.props.get k
  else if k = b!"id" then g.props.get k
  else if k = b!"arches" then g.props.get k
  else none

theorem group_kid {o : Options} {g : Group} (hi : GroupIn o g) (hb : GroupBuilt lt g) (Q : Prop)
    (hq : Q → (∀ p ∈ g.packages.getD [], p.name ≠ none) ∧
      (g.packages = some [] → o.emptyPackages = false)) :
    ∃ ks, groupTree o opts g = .elem b!"group" (archAttr o (archesOf g.props)) ks ∧
      Steps (Reading.plain lt opts extra) (groupKid (Reading.plain lt opts extra)) Q ks
        ⟨newProps (Reading.plain lt opts extra) (archAttr o (archesOf g.props)), RTree.create,
          RTree.create, some []⟩
        (midGroup lt opts extra o g) ∧
      At lt (midGroup lt opts extra o g).props (midGet opts o g) := by
  refine ⟨_, rfl, ?_⟩
  have hd := groupBuilt_inv hb
  obtain ⟨l, hl, hp⟩ := hi.packages
  have h0 := newProps_at (opts := opts) (extra := extra) hd.props hi.texts.arches
  have h1 := backTexts_at (x := ⟨newProps (Reading.plain lt opts extra)
    (archAttr o (archesOf g.props)), RTree.create, RTree.create⟩) hi.texts h0
  have fl : ∀ k ∈ [b!"def", b!"uservisible", b!"biarchonly"], ∀ (b : Bool), ∀ x,
      (if b then g.props.get k else none) = some x → (k, kind x) ∈ propKinds := by
    intro k hk b x hx
    cases b with
    | false => simp at hx
    | true =>
      simp only [if_true] at hx
      exact hd.props.typed.get hd.props.wf hx
  have ty : ∀ k, ∀ x, g.props.get k = some x → (k, kind x) ∈ propKinds :=
    fun k x hx => hd.props.typed.get hd.props.wf hx
  have h2 := h1.put (key := b!"def") (by decide)
    (fl b!"def" (by simp) (flagOut o.defaultExplicit opts.dflt (g.props.get b!"def")))
  have h3 := h2.put (key := b!"uservisible") (by decide)
    (fl b!"uservisible" (by simp) (flagOut o.uservisibleExplicit opts.uservisible (g.props.get b!"uservisible")))
  have h4 := h3.put (key := b!"biarchonly") (by decide)
    (fl b!"biarchonly" (by simp) (flagOut o.biarchonlyExplicit opts.biarchonly (g.props.get b!"biarchonly")))
  have h5 := h4.put (key := b!"display_order") (by decide) (ty _)
  have h6 := h5.put (key := b!"langonly") (by decide) (ty _)
  refine ⟨?_, h6.inv, fun k => ?_⟩
  · have r0 := texts_steps (opts := opts) (extra := extra)
      (lifts_group (Reading.plain lt opts extra) (some [])) Q hi.texts hd.name.wf hd.desc.wf
      ⟨newProps (Reading.plain lt opts extra) (archAttr o (archesOf g.props)), RTree.create,
        RTree.create⟩ h0.inv (by
          intro k hk
          rw [h0.get, if_neg]
          rintro rfl; revert hk; decide)
    have r1 := r0.append (flag_step (tag := b!"default") (key := b!"def") (by simp)
      (hi.flags b!"def" (by simp)) Q o.defaultExplicit opts.dflt _)
    have r2 := r1.append (flag_step (tag := b!"uservisible") (key := b!"uservisible") (by simp)
      (hi.flags b!"uservisible" (by simp)) Q o.uservisibleExplicit opts.uservisible _)
    have r3 := r2.append (flag_step (tag := b!"biarchonly") (key := b!"biarchonly") (by simp)
      (hi.flags b!"biarchonly" (by simp)) Q o.biarchonlyExplicit opts.biarchonly _)
    have r4 := r3.append (order_step (lifts_group (Reading.plain lt opts extra) (some []))
      (v := g.props.get b!"display_order") hi.texts.order (attrCodes_nil (by simp)) ⟨_, _, _⟩
      (by refine (h4.get _).trans ?_; simp))
    have r5 := r4.append (langonly_step (v := g.props.get b!"langonly") (hi.texts.strs _ (by simp)) Q _
      (by refine (h5.get _).trans ?_; simp))
    have r6 := r5.append (packagelist_step hp Q (by
      intro hq'; have := hq hq'; rw [hl] at this; simpa using this) _ rfl)
    rw [hl]
    have e : midGroup lt opts extra o g = { midGroup lt opts extra o g with packages := some l } := by
      rw [← hl]; rfl
    rw [e]
    exact r6
  · refine (h6.get k).trans ?_
    unfold midGet
    by_cases e1 : k = b!"langonly"
    · subst e1; simp
    by_cases e2 : k = b!"display_order"
    · subst e2; simp
    by_cases e3 : k = b!"biarchonly"
    · subst e3; simp
    by_cases e4 : k = b!"uservisible"
    · subst e4; simp
    by_cases e5 : k = b!"def"
    · subst e5; simp
    by_cases e6 : k = b!"desc"
    · subst e6; simp
    by_cases e7 : k = b!"name"
    · subst e7; simp
    by_cases e8 : k = b!"id"
    · subst e8; simp
    by_cases e9 : k = b!"arches"
    · subst e9; simp
    simp only [e1, e2, e3, e4, e5, e6, e7, e8, e9, if_false]

theorem flag_back {expl dflt : Bool} {v : Option PVal} (hv : v = some (.num 0) ∨ v = some (.num 1)) :
    (if flagOut expl dflt v then v else none).or (some (.num (if dflt then 1 else 0))) = v := by
  rcases hv with rfl | rfl <;> cases expl <;> cases dflt <;> rfl

/-- Reading gives the same group. -/
theorem group_back {o : Options} {g : Group} (hi : GroupIn o g) (hb : GroupBuilt lt g)
    (hat : At lt (midGroup lt opts extra o g).props (midGet opts o g)) :
    SameGroup g (endGroup (Reading.plain lt opts extra) (midGroup lt opts extra o g)) := by
  have hd := groupBuilt_inv hb
  have h3 := ((hat.dflt (r := Reading.plain lt opts extra) (key := b!"def") (by decide) opts.dflt).dflt
    (r := Reading.plain lt opts extra) (key := b!"uservisible") (by decide) opts.uservisible).dflt
    (r := Reading.plain lt opts extra) (key := b!"biarchonly") (by decide) opts.biarchonly
  refine ⟨fun k => ?_, fun k => (putAll_get hd.name.wf k).symm, fun k => (putAll_get hd.desc.wf k).symm,
    rfl⟩
  refine Eq.trans ?_ (h3.get k).symm
  have fb := fun k hk => fun (expl dflt : Bool) =>
    flag_back (expl := expl) (dflt := dflt) (hi.flags k hk)
  simp only [midGet]
  by_cases e1 : k = b!"langonly"
  · subst e1; simp
  by_cases e2 : k = b!"display_order"
  · subst e2; simp
  by_cases e3 : k = b!"biarchonly"
  · subst e3; simpa using (fb b!"biarchonly" (by simp) o.biarchonlyExplicit opts.biarchonly).symm
  by_cases e4 : k = b!"uservisible"
  · subst e4; simpa using (fb b!"uservisible" (by simp) o.uservisibleExplicit opts.uservisible).symm
  by_cases e5 : k = b!"def"
  · subst e5; simpa using (fb b!"def" (by simp) o.defaultExplicit opts.dflt).symm
  by_cases e6 : k = b!"desc"
  · subst e6; simp
  by_cases e7 : k = b!"name"
  · subst e7; simp
  by_cases e8 : k = b!"id"
  · subst e8; simp
  by_cases e9 : k = b!"arches"
  · subst e9; simp
  simp only [e1, e2, e3, e4, e5, e6, e7, e8, e9, if_false]
  cases hg : g.props.get k with
  | none => rfl
  | some v =>
    have := hd.props.typed.get hd.props.wf hg
    simp [propKinds, e1, e2, e3, e4, e5, e6, e7, e8, e9] at this

theorem requiredCodes_nil {props : RTree PVal} (h : Named props) : requiredCodes props = [] := by
  simp only [requiredCodes, List.map_eq_nil_iff, List.filter_eq_nil_iff]
  intro k hk
  have := h k hk
  simpa using this

theorem midGet_named {o : Options} {g : Group} {k : Bytes} (hk : k ∈ [b!"id", b!"name", b!"desc"]) :
    midGet opts o g k = g.props.get k := by
  simp only [List.mem_cons, List.not_mem_nil, or_false] at hk
  rcases hk with rfl | rfl | rfl <;> simp [midGet]

/-! ## Categories and environments -/

theorem groupIds_step {σ : Type}
    {kid : σ → Bytes → List (Bytes × Bytes) → List XNode → Option (σ × List Nat)}
    {o : Options} {tag : Bytes} {opt : Bool} {l : List GroupId} (hl : ∀ p ∈ l, GroupIdIn o p)
    (Q : Prop) (atEnd : List GroupId → List Nat)
    (hq : Q → l = [] → opt = true → atEnd [] = []) (hc : ∀ p l, atEnd (p :: l) = []) (x y : σ)
    (hk : ∀ nodes, kid x tag [] nodes =
      some (y, (inner (Reading.plain lt opts extra) (idKid (Reading.plain lt opts extra)) [] nodes
        atEnd).2) ∨ (inner (Reading.plain lt opts extra) (idKid (Reading.plain lt opts extra)) [] nodes
        atEnd).1 ≠ l) (hy : l = [] → y = x) :
    Steps (Reading.plain lt opts extra) kid Q (listTree tag opt (l.map (groupIdTree o))) x y := by
  unfold listTree
  by_cases hs : l.map (groupIdTree o) ≠ [] ∨ opt = true
  · rw [if_pos hs]
    refine Steps.one ⟨attrCodes_nil (by simp), fun nodes hr => ?_⟩
    obtain ⟨codes, e, q⟩ := (ids_steps (lt := lt) (opts := opts) (extra := extra) hl [] Q).inner hr atEnd
    refine ⟨codes, ?_, fun hq' => q hq' ?_⟩
    · rcases hk nodes with h | h
      · rw [h, e]
      · rw [e] at h; simp at h
    · cases l with
      | nil =>
        rcases hs with hs | hs
        · simp at hs
        · exact hq hq' rfl hs
      | cons p l => exact hc p l
  · rw [if_neg hs]
    have : l = [] := by
      cases l with
      | nil => rfl
      | cons p l => exact absurd (.inl (by simp)) hs
    rw [hy this]
    exact Steps.nil _

/-- The properties that reading gives. -/
def midProps (lt : UInt8 → UInt8 → Bool) (opts : Defaults) (extra : Bytes → List Bytes) (o : Options)
    (props names descs : RTree PVal) : Texts :=
  let x := backTexts lt ⟨newProps (Reading.plain lt opts extra) (archAttr o (archesOf props)),
    RTree.create, RTree.create⟩ props names descs
  { x with props := put lt b!"display_order" (props.get b!"display_order") x.props }

/-- Properties, texts and display order of a category or an environment. -/
theorem entry_steps {σ : Type}
    {kid : σ → Bytes → List (Bytes × Bytes) → List XNode → Option (σ × List Nat)} {emb : Texts → σ}
    (hl : Lifts (Reading.plain lt opts extra) kid emb) (Q : Prop) {o : Options}
    {props names descs : RTree PVal} (h : TextsIn o props names descs)
    (hd : DictsInv lt props names descs) (hk : ∀ k, props.get k ≠ none → k ∈ entryKeys) :
    Steps (Reading.plain lt opts extra) kid Q
      (textTrees props names descs ++ propTree b!"display_order" (props.get b!"display_order"))
      (emb ⟨newProps (Reading.plain lt opts extra) (archAttr o (archesOf props)), RTree.create,
        RTree.create⟩)
      (emb (midProps lt opts extra o props names descs)) ∧
    SameGet props (midProps lt opts extra o props names descs).props ∧
    SameGet names (midProps lt opts extra o props names descs).names ∧
    SameGet descs (midProps lt opts extra o props names descs).descs := by
  have h0 := newProps_at (opts := opts) (extra := extra) hd.props h.arches
  have h1 := backTexts_at (x := ⟨newProps (Reading.plain lt opts extra)
    (archAttr o (archesOf props)), RTree.create, RTree.create⟩) h h0
  have h2 := h1.put (key := b!"display_order") (by decide)
    (fun x hx => hd.props.typed.get hd.props.wf hx)
  refine ⟨?_, fun k => ?_, fun k => (putAll_get hd.name.wf k).symm,
    fun k => (putAll_get hd.desc.wf k).symm⟩
  · have r0 := texts_steps (opts := opts) (extra := extra) hl Q h hd.name.wf hd.desc.wf
      ⟨newProps (Reading.plain lt opts extra) (archAttr o (archesOf props)), RTree.create,
        RTree.create⟩ h0.inv (by
          intro k hk
          rw [h0.get, if_neg]
          rintro rfl; revert hk; decide)
    exact r0.append (order_step hl h.order (attrCodes_nil (by simp)) _
      (by refine (h1.get _).trans ?_; simp))
  · refine Eq.trans ?_ (h2.get k).symm
    by_cases e2 : k = b!"display_order"
    · subst e2; simp
    by_cases e6 : k = b!"desc"
    · subst e6; simp
    by_cases e7 : k = b!"name"
    · subst e7; simp
    by_cases e8 : k = b!"id"
    · subst e8; simp
    by_cases e9 : k = b!"arches"
    · subst e9; simp
    simp only [e2, e6, e7, e8, e9, if_false]
    cases hg : props.get k with
    | none => rfl
    | some v =>
      have := hk k (by rw [hg]; simp)
      simp [entryKeys, e2, e6, e7, e8, e9] at this

/-- The category that reading gives. -/
def backCategory (lt : UInt8 → UInt8 → Bool) (opts : Defaults) (extra : Bytes → List Bytes)
    (o : Options) (g : Category) : Category :=
  let x := midProps lt opts extra o g.props g.nameByLang g.descByLang
  ⟨x.props, x.names, x.descs, g.groupIds⟩

/-- The environment that reading gives. -/
def backEnv (lt : UInt8 → UInt8 → Bool) (opts : Defaults) (extra : Bytes → List Bytes)
    (o : Options) (g : Env) : Env :=
  let x := midProps lt opts extra o g.props g.nameByLang g.descByLang
  ⟨x.props, x.names, x.descs, g.groupList, g.optionList⟩

theorem category_kid {o : Options} {g : Category} (hi : CategoryIn o g) (hb : CategoryBuilt lt g)
    (Q : Prop) (hq : Q → g.groupIds = some [] → o.emptyGrouplist = false) :
    ∃ ks, categoryTree o g = .elem b!"category" (archAttr o (archesOf g.props)) ks ∧
      Steps (Reading.plain lt opts extra) (categoryKid (Reading.plain lt opts extra)) Q ks
        ⟨newProps (Reading.plain lt opts extra) (archAttr o (archesOf g.props)), RTree.create,
          RTree.create, some []⟩ (backCategory lt opts extra o g) ∧
      SameCategory g (backCategory lt opts extra o g) := by
  refine ⟨_, rfl, ?_⟩
  have hd := categoryBuilt_inv hb
  obtain ⟨l, hl, hp⟩ := hi.groupIds
  obtain ⟨h1, h2, h3, h4⟩ := entry_steps (opts := opts) (extra := extra)
    (lifts_category (Reading.plain lt opts extra) (some [])) Q hi.texts hd hi.keys
  refine ⟨?_, ⟨h2, h3, h4, rfl⟩⟩
  refine h1.append ?_
  rw [hl]
  refine groupIds_step hp Q emptyCode ?_ (fun _ _ => rfl) _ _ ?_ ?_
  · intro hq' e ho
    rw [e] at hl
    rw [hq hq' hl] at ho; simp at ho
  · intro nodes
    by_cases e : (inner (Reading.plain lt opts extra) (idKid (Reading.plain lt opts extra)) [] nodes
        emptyCode).1 = l
    · left
      have hfield : ∀ x, fieldKid (Reading.plain lt opts extra) x b!"grouplist" [] nodes = none := by
        intro x; simp [fieldKid]
      simp only [categoryKid, hfield, if_true, Option.getD_some, e, backCategory, hl]
    · exact .inr e
  · rintro rfl; simp only [backCategory, hl]

theorem env_kid {o : Options} {g : Env} (hi : EnvIn o g) (hb : EnvBuilt lt g)
    (Q : Prop) (hq : Q → g.groupList = some [] → o.emptyGrouplist = false) :
    ∃ ks, envTree o g = .elem b!"environment" (archAttr o (archesOf g.props)) ks ∧
      Steps (Reading.plain lt opts extra) (envKid (Reading.plain lt opts extra)) Q ks
        ⟨newProps (Reading.plain lt opts extra) (archAttr o (archesOf g.props)), RTree.create,
          RTree.create, some [], some []⟩ (backEnv lt opts extra o g) ∧
      SameEnv g (backEnv lt opts extra o g) := by
  refine ⟨_, rfl, ?_⟩
  have hd := envBuilt_inv hb
  obtain ⟨l, hl, hp⟩ := hi.groupList
  obtain ⟨l', hl', hp'⟩ := hi.optionList
  obtain ⟨h1, h2, h3, h4⟩ := entry_steps (opts := opts) (extra := extra)
    (lifts_env (Reading.plain lt opts extra) (some []) (some [])) Q hi.texts hd hi.keys
  refine ⟨?_, ⟨h2, h3, h4, rfl, rfl⟩⟩
  have hfield : ∀ x nodes, fieldKid (Reading.plain lt opts extra) x b!"grouplist" [] nodes = none := by
    intro x nodes; simp [fieldKid]
  have hfield' : ∀ x nodes, fieldKid (Reading.plain lt opts extra) x b!"optionlist" [] nodes = none := by
    intro x nodes; simp [fieldKid]
  refine Steps.append (y := { backEnv lt opts extra o g with optionList := some [] })
    (h1.append ?_) ?_
  · rw [hl]
    refine groupIds_step hp Q emptyCode ?_ (fun _ _ => rfl) _ _ ?_ ?_
    · intro hq' e ho
      rw [e] at hl
      rw [hq hq' hl] at ho; simp at ho
    · intro nodes
      by_cases e : (inner (Reading.plain lt opts extra) (idKid (Reading.plain lt opts extra)) [] nodes
          emptyCode).1 = l
      · left
        simp only [envKid, hfield, if_true, Option.getD_some, e, backEnv, hl]
      · exact .inr e
    · rintro rfl; simp only [backEnv, hl]
  · rw [hl']
    refine groupIds_step hp' Q (fun _ => []) (fun _ _ _ => rfl) (fun _ _ => rfl) _ _ ?_ ?_
    · intro nodes
      by_cases e : (inner (Reading.plain lt opts extra) (idKid (Reading.plain lt opts extra)) [] nodes
          (fun _ => [])).1 = l'
      · left
        simp only [envKid, hfield', Option.getD_some, e, backEnv, hl']
        simp
      · exact .inr e
    · rintro rfl; simp only [backEnv, hl']

end Comps.Round
