import Verif.Lemmas.RoundEntry

/-!
# Reading back whole documents
-/

namespace Comps.Round
open Comps Comps.Spec Comps.Obj Comps.Text Comps.Xml
open Comps.Parse (Pos Event)

variable {lt : UInt8 → UInt8 → Bool} {opts : Defaults} {extra : Bytes → List Bytes}

/-! ## The dictionaries -/

theorem pairs_steps {σ : Type} {name k v : Bytes} {add : σ → Bytes → CStr → σ} (hkv : k ≠ v)
    (hkn : k ∈ knownAttrs extra name) (hvn : v ∈ knownAttrs extra name) (Q : Prop)
    (items : List (Bytes × Bytes)) (x : σ) :
    Steps (Reading.plain lt opts extra) (pairKid (Reading.plain lt opts extra) name k v add) Q
      (items.map fun e => .elem name [(k, e.1), (v, e.2)] []) x
      (items.foldl (fun x e => add x e.1 ⟨some e.2⟩) x) := by
  refine Steps.map (nm := fun _ => name) (at' := fun e => [(k, e.1), (v, e.2)]) (ks := fun _ => [])
    items x fun x e _ => ⟨attrCodes_nil ?_, fun nodes hr => ⟨[], ?_, fun _ => rfl⟩⟩
  · intro a ha
    simp only [List.mem_cons, List.not_mem_nil, or_false] at ha
    rcases ha with rfl | rfl <;> assumption
  · have h1 : (Reading.plain lt opts extra).look [(k, e.1), (v, e.2)] k = some e.1 := by
      simp [Reading.plain, attrOf]
    have h2 : (Reading.plain lt opts extra).look [(k, e.1), (v, e.2)] v = some e.2 := by
      simp [Reading.plain, attrOf, hkv]
    simp only [pairKid, if_true, h1, h2, reads_none _ hr, textCode]
    rfl

theorem block_steps {σ τ : Type} {kid : τ → Bytes → List (Bytes × Bytes) → List XNode → Option (τ × List Nat)}
    {block name k v : Bytes} {add : σ → Bytes → CStr → σ} (hkv : k ≠ v)
    (hkn : k ∈ knownAttrs extra name) (hvn : v ∈ knownAttrs extra name) (Q : Prop)
    (items : List (Bytes × Bytes)) (c c' : τ) (x : σ)
    (hk : ∀ nodes y, inner (Reading.plain lt opts extra)
        (pairKid (Reading.plain lt opts extra) name k v add) x nodes (fun _ => []) = y →
      y.1 = items.foldl (fun x e => add x e.1 ⟨some e.2⟩) x →
      kid c block [] nodes = some (c', y.2)) (hc : items = [] → c' = c) :
    Steps (Reading.plain lt opts extra) kid Q (blockTree block name k v items) c c' := by
  unfold blockTree
  split
  · rename_i h; rw [hc h]; exact Steps.nil _
  · refine Steps.one ⟨attrCodes_nil (by simp), fun nodes hr => ?_⟩
    obtain ⟨codes, e, q⟩ := (pairs_steps (lt := lt) (opts := opts) (add := add) hkv hkn hvn Q items
      x).inner hr (fun _ => [])
    exact ⟨codes, hk nodes _ e rfl, fun hq => q hq rfl⟩

/-! ## Entries of the document -/

theorem list_steps {σ ι : Type} {r : Reading}
    {kid : σ → Bytes → List (Bytes × Bytes) → List XNode → Option (σ × List Nat)} {Q : Prop}
    {t : ι → Tree} (f : σ → ι → σ) (items : List ι) (x : σ)
    (h : ∀ x, ∀ i ∈ items, ∃ n attrs ks, t i = .elem n attrs ks ∧ Kid r kid Q n attrs ks x (f x i)) :
    Steps r kid Q (items.map t) x (items.foldl f x) := by
  induction items generalizing x with
  | nil => exact Steps.nil x
  | cons i is ih =>
    obtain ⟨n, attrs, ks, e, hk⟩ := h x i (by simp)
    rw [List.map_cons, e]
    exact Steps.append (a := [_]) (Steps.one hk) (ih (f x i) fun x j hj => h x j (by simp [hj]))

theorem fold_groups {ι : Type} (b : ι → Group) (items : List ι) (c : DocContent) :
    items.foldl (fun c i => { c with groups := c.groups ++ [b i] }) c =
      { c with groups := c.groups ++ items.map b } := by
  induction items generalizing c with
  | nil => simp
  | cons i is ih => rw [List.foldl_cons, ih]; simp

theorem fold_categories {ι : Type} (b : ι → Category) (items : List ι) (c : DocContent) :
    items.foldl (fun c i => { c with categories := c.categories ++ [b i] }) c =
      { c with categories := c.categories ++ items.map b } := by
  induction items generalizing c with
  | nil => simp
  | cons i is ih => rw [List.foldl_cons, ih]; simp

theorem fold_environments {ι : Type} (b : ι → Env) (items : List ι) (c : DocContent) :
    items.foldl (fun c i => { c with environments := c.environments ++ [b i] }) c =
      { c with environments := c.environments ++ items.map b } := by
  induction items generalizing c with
  | nil => simp
  | cons i is ih => rw [List.foldl_cons, ih]; simp

theorem filter_all {α : Type} {p : α → Bool} {l : List α} (h : ∀ x ∈ l, p x = true) :
    l.filter p = l := List.filter_eq_self.2 h

/-- The content that reading gives. -/
def backContent (lt : UInt8 → UInt8 → Bool) (opts : Defaults) (extra : Bytes → List Bytes)
    (o : Options) (c : DocContent) : DocContent where
  groups := c.groups.map fun g => endGroup (Reading.plain lt opts extra) (midGroup lt opts extra o g)
  categories := c.categories.map (backCategory lt opts extra o)
  environments := c.environments.map (backEnv lt opts extra o)
  langpacks := (packItems c.langpacks).foldl
    (fun t e => t.set lt e.1 (some (.str ⟨some e.2⟩))) RTree.create
  blacklist := (multiItems c.blacklist).foldl (fun t e => MTree.set t e.1 ⟨some e.2⟩) MTree.create
  whiteout := (multiItems c.whiteout).foldl (fun t e => MTree.set t e.1 ⟨some e.2⟩) MTree.create

theorem doc_steps {o : Options} {c : DocContent} (hi : RoundTrips o c)
    (hg : ∀ g ∈ c.groups, GroupBuilt lt g) (hk : ∀ g ∈ c.categories, CategoryBuilt lt g)
    (he : ∀ g ∈ c.environments, EnvBuilt lt g) :
    ∃ ks, docTree o opts c = .elem b!"comps" [] ks ∧
      Steps (Reading.plain lt opts extra) (docKid (Reading.plain lt opts extra)) (Silent o c) ks
        emptyContent (backContent lt opts extra o c) := by
  refine ⟨_, rfl, ?_⟩
  rw [filter_all fun g h => (hi.groups g h).written, filter_all fun g h => (hi.categories g h).written,
    filter_all fun g h => (hi.environments g h).written]
  have g1 : Steps (Reading.plain lt opts extra) (docKid (Reading.plain lt opts extra)) (Silent o c)
      (c.groups.map (groupTree o opts)) emptyContent
      { emptyContent with groups := (backContent lt opts extra o c).groups } := by
    have := list_steps (r := Reading.plain lt opts extra) (Q := Silent o c)
      (kid := docKid (Reading.plain lt opts extra)) (t := groupTree o opts)
      (f := fun x g => { x with groups := x.groups ++ [endGroup (Reading.plain lt opts extra) (midGroup lt opts extra o g)] })
      c.groups emptyContent (fun x g h => by
        obtain ⟨ks, h1, h2, h3⟩ := group_kid (opts := opts) (extra := extra) (hi.groups g h) (hg g h)
          (Silent o c) (fun s => ⟨(s.groups g h).2.2, (s.groups g h).2.1⟩)
        refine ⟨_, _, ks, h1, (archAttr_known (hi.groups g h).texts.arches (.inl rfl)).1,
          fun nodes hr => ?_⟩
        obtain ⟨codes, e, q⟩ := h2.inner hr (fun g => requiredCodes g.props)
        refine ⟨codes, ?_, fun s => q s (requiredCodes_nil fun k hk => ?_)⟩
        · simp only [docKid, if_true, e]
        · rw [h3.get, midGet_named hk]; exact (s.groups g h).1 k hk)
    rw [fold_groups] at this
    exact this
  have g2 : Steps (Reading.plain lt opts extra) (docKid (Reading.plain lt opts extra)) (Silent o c)
      (c.categories.map (categoryTree o))
      { emptyContent with groups := (backContent lt opts extra o c).groups }
      { emptyContent with
        groups := (backContent lt opts extra o c).groups
        categories := (backContent lt opts extra o c).categories } := by
    have := list_steps (r := Reading.plain lt opts extra) (Q := Silent o c)
      (kid := docKid (Reading.plain lt opts extra)) (t := categoryTree o)
      (f := fun x g => { x with categories := x.categories ++ [backCategory lt opts extra o g] })
      c.categories { emptyContent with groups := (backContent lt opts extra o c).groups }
      (fun x g h => by
        obtain ⟨ks, h1, h2, h3⟩ := category_kid (opts := opts) (extra := extra) (hi.categories g h)
          (hk g h) (Silent o c) (fun s => (s.categories g h).2)
        refine ⟨_, _, ks, h1, (archAttr_known (hi.categories g h).texts.arches (.inr (.inl rfl))).1,
          fun nodes hr => ?_⟩
        obtain ⟨codes, e, q⟩ := h2.inner hr (fun g => requiredCodes g.props)
        refine ⟨codes, ?_, fun s => q s (requiredCodes_nil fun k hk => ?_)⟩
        · have : docKid (Reading.plain lt opts extra) x b!"category"
              (archAttr o (archesOf g.props)) nodes = some
              ({ x with categories := x.categories ++ [(inner (Reading.plain lt opts extra)
                (categoryKid (Reading.plain lt opts extra)) ⟨newProps (Reading.plain lt opts extra)
                  (archAttr o (archesOf g.props)), RTree.create, RTree.create, some []⟩ nodes
                (fun g => requiredCodes g.props)).1] }, (inner (Reading.plain lt opts extra)
                (categoryKid (Reading.plain lt opts extra)) ⟨newProps (Reading.plain lt opts extra)
                  (archAttr o (archesOf g.props)), RTree.create, RTree.create, some []⟩ nodes
                (fun g => requiredCodes g.props)).2) := rfl
          rw [this, e]
        · rw [← h3.props]; exact (s.categories g h).1 k hk)
    rw [fold_categories] at this
    exact this
  have g3 : Steps (Reading.plain lt opts extra) (docKid (Reading.plain lt opts extra)) (Silent o c)
      (c.environments.map (envTree o))
      { emptyContent with
        groups := (backContent lt opts extra o c).groups
        categories := (backContent lt opts extra o c).categories }
      { emptyContent with
        groups := (backContent lt opts extra o c).groups
        categories := (backContent lt opts extra o c).categories
        environments := (backContent lt opts extra o c).environments } := by
    have := list_steps (r := Reading.plain lt opts extra) (Q := Silent o c)
      (kid := docKid (Reading.plain lt opts extra)) (t := envTree o)
      (f := fun x g => { x with environments := x.environments ++ [backEnv lt opts extra o g] })
      c.environments { emptyContent with
        groups := (backContent lt opts extra o c).groups
        categories := (backContent lt opts extra o c).categories }
      (fun x g h => by
        obtain ⟨ks, h1, h2, h3⟩ := env_kid (opts := opts) (extra := extra) (hi.environments g h)
          (he g h) (Silent o c) (fun s => (s.environments g h).2)
        refine ⟨_, _, ks, h1, (archAttr_known (hi.environments g h).texts.arches (.inr (.inr rfl))).1,
          fun nodes hr => ?_⟩
        obtain ⟨codes, e, q⟩ := h2.inner hr (fun g => requiredCodes g.props)
        refine ⟨codes, ?_, fun s => q s (requiredCodes_nil fun k hk => ?_)⟩
        · have : docKid (Reading.plain lt opts extra) x b!"environment"
              (archAttr o (archesOf g.props)) nodes = some
              ({ x with environments := x.environments ++ [(inner (Reading.plain lt opts extra)
                (envKid (Reading.plain lt opts extra)) ⟨newProps (Reading.plain lt opts extra)
                  (archAttr o (archesOf g.props)), RTree.create, RTree.create, some [], some []⟩ nodes
                (fun g => requiredCodes g.props)).1] }, (inner (Reading.plain lt opts extra)
                (envKid (Reading.plain lt opts extra)) ⟨newProps (Reading.plain lt opts extra)
                  (archAttr o (archesOf g.props)), RTree.create, RTree.create, some [], some []⟩ nodes
                (fun g => requiredCodes g.props)).2) := rfl
          rw [this, e]
        · rw [← h3.props]; exact (s.environments g h).1 k hk)
    rw [fold_environments] at this
    exact this
  refine ((((g1.append g2).append g3).append (block_steps (by decide) (by simp [knownAttrs])
    (by simp [knownAttrs]) _ _ _ { backContent lt opts extra o c with
      blacklist := MTree.create, whiteout := MTree.create } RTree.create
      (add := fun (t : RTree PVal) k s => t.set lt k (some (.str s))) ?_ ?_)).append
    (block_steps (by decide) (by simp [knownAttrs])
    (by simp [knownAttrs]) _ _ _ { backContent lt opts extra o c with
      whiteout := MTree.create } MTree.create
      (add := fun (t : MTree CStr) k s => MTree.set t k s) ?_ ?_)).append
    (block_steps (by decide) (by simp [knownAttrs])
    (by simp [knownAttrs]) _ _ _ (backContent lt opts extra o c) MTree.create
      (add := fun (t : MTree CStr) k s => MTree.set t k s) ?_ ?_)
  · intro nodes y hy h1
    have : ∀ x, docKid (Reading.plain lt opts extra) x b!"langpacks" [] nodes = some
      ({ x with langpacks := (inner (Reading.plain lt opts extra) (matchKid (Reading.plain lt opts extra))
          x.langpacks nodes (fun _ => [])).1 }, (inner (Reading.plain lt opts extra)
          (matchKid (Reading.plain lt opts extra)) x.langpacks nodes (fun _ => [])).2) := fun _ => rfl
    have hy' : inner (Reading.plain lt opts extra) (matchKid (Reading.plain lt opts extra)) RTree.create
      nodes (fun _ => []) = y := hy
    rw [this]
    simp only [emptyContent]
    rw [hy', h1]
    rfl
  · intro e; simp only [backContent, e]; rfl
  · intro nodes y hy h1
    have : ∀ x, docKid (Reading.plain lt opts extra) x b!"blacklist" [] nodes = some
      ({ x with blacklist := (inner (Reading.plain lt opts extra) (blackKid (Reading.plain lt opts extra))
          x.blacklist nodes (fun _ => [])).1 }, (inner (Reading.plain lt opts extra)
          (blackKid (Reading.plain lt opts extra)) x.blacklist nodes (fun _ => [])).2) := fun _ => rfl
    have hy' : inner (Reading.plain lt opts extra) (blackKid (Reading.plain lt opts extra)) MTree.create
      nodes (fun _ => []) = y := hy
    rw [this]
    simp only
    rw [hy', h1]
    rfl
  · intro e; simp only [backContent, e]; rfl
  · intro nodes y hy h1
    have : ∀ x, docKid (Reading.plain lt opts extra) x b!"whiteout" [] nodes = some
      ({ x with whiteout := (inner (Reading.plain lt opts extra) (whiteKid (Reading.plain lt opts extra))
          x.whiteout nodes (fun _ => [])).1 }, (inner (Reading.plain lt opts extra)
          (whiteKid (Reading.plain lt opts extra)) x.whiteout nodes (fun _ => [])).2) := fun _ => rfl
    have hy' : inner (Reading.plain lt opts extra) (whiteKid (Reading.plain lt opts extra)) MTree.create
      nodes (fun _ => []) = y := hy
    rw [this]
    simp only
    rw [hy', h1]
    rfl
  · intro e; simp only [backContent, e]; rfl

/-! ## The same content -/

theorem alike_map {α β : Type} {R : α → β → Prop} {f : α → β} {l : List α} (h : ∀ x ∈ l, R x (f x)) :
    Alike R l (l.map f) := by
  refine ⟨by simp, fun i x y hx hy => ?_⟩
  rw [List.getElem?_map, hx] at hy
  cases hy
  exact h x (List.mem_of_getElem? hx)

theorem foldl_put {t : RTree PVal} {l : List (Bytes × PVal)}
    (h : ∀ e ∈ l, ∃ b, e.2 = .str ⟨some b⟩) :
    (l.map fun e => (e.1, valueText e.2)).foldl (fun t e => t.set lt e.1 (some (.str ⟨some e.2⟩))) t =
      putAll lt l t := by
  induction l generalizing t with
  | nil => rfl
  | cons e l ih =>
    obtain ⟨b, hb⟩ := h e (by simp)
    rw [List.map_cons, List.foldl_cons, ih fun e he => h e (by simp [he])]
    simp only [putAll, List.foldl_cons, hb]
    rfl

theorem multi_back {t : MTree CStr} (hi : MultiIn t) (h : MReach t) (k : Bytes) :
    MTree.get t k = MTree.get ((multiItems t).foldl (fun t e => MTree.set t e.1 ⟨some e.2⟩)
      MTree.create) k := by
  rw [← MTree.rewrite_get hi (MTree.mreach_ok h) k, Props.mrun, MTree.rewrites, List.foldl_map]

theorem back_same {o : Options} {c : DocContent} (hi : RoundTrips o c)
    (hg : ∀ g ∈ c.groups, GroupBuilt lt g) (hk : ∀ g ∈ c.categories, CategoryBuilt lt g)
    (he : ∀ g ∈ c.environments, EnvBuilt lt g) (hl : LangBuilt lt c.langpacks)
    (hb : MReach c.blacklist) (hw : MReach c.whiteout) :
    SameContent c (backContent lt opts extra o c) where
  groups := alike_map fun g h => by
    obtain ⟨_, _, _, h3⟩ := group_kid (opts := opts) (extra := extra) (hi.groups g h) (hg g h)
      False (fun h => h.elim)
    exact group_back (hi.groups g h) (hg g h) h3
  categories := alike_map fun g h => by
    obtain ⟨_, _, _, h3⟩ := category_kid (opts := opts) (extra := extra) (hi.categories g h) (hk g h)
      False (fun h => h.elim)
    exact h3
  environments := alike_map fun g h => by
    obtain ⟨_, _, _, h3⟩ := env_kid (opts := opts) (extra := extra) (hi.environments g h) (he g h)
      False (fun h => h.elim)
    exact h3
  langpacks k := by
    have wf := (langBuilt_inv hl).wf
    show _ = RTree.get ((packItems c.langpacks).foldl _ _) k
    rw [packItems, foldl_put, putAll_get wf]
    rintro ⟨k, v⟩ h
    exact hi.langpacks k v ((RTree.mem_pairs wf _ _).1 h)
  blacklist := multi_back hi.blacklist hb
  whiteout := multi_back hi.whiteout hw

/-! ## Reading is safe -/

mutual
/-- No `<comps>` inside, proper attributes, and no text that is white space only. -/
def TreeTidy : Tree → Prop
  | .elem n attrs kids => n ≠ b!"comps" ∧ AttrsOk attrs ∧ TreesTidy kids
  | .text s => s = [] ∨ White s = false
/-- The same for several trees. -/
def TreesTidy : List Tree → Prop
  | [] => True
  | t :: ts => TreeTidy t ∧ TreesTidy ts
end

theorem treesTidy_iff (l : List Tree) : TreesTidy l ↔ ∀ t ∈ l, TreeTidy t := by
  induction l with
  | nil => simp [TreesTidy]
  | cons t l ih => simp [TreesTidy, ih]

theorem allTidy_append {A : List (Bytes × Bytes) → Prop} (a b : List XNode) (ha : AllTidy A a)
    (hb : AllTidy A b) : AllTidy A (a ++ b) := by
  induction a with
  | nil => exact hb
  | cons x a ih => exact ⟨ha.1, ih ha.2⟩

theorem reads_tidy {P : List Bytes → Prop} {ts : List Tree} {ns : List XNode} (h : ReadsAll P ts ns) :
    TreesTidy ts → AllTidy AttrsOk ns := by
  induction h with
  | nil => intro _; trivial
  | white p s _ _ ih => intro h; exact ⟨trivial, ih h⟩
  | elem p q n attrs _ _ ih1 ih2 =>
    intro h
    exact ⟨⟨h.1.1, h.1.2.1, ih1 h.1.2.2⟩, ih2 h.2⟩
  | text l hp _ ih =>
    intro h
    refine allTidy_append _ _ ?_ (ih h.2)
    clear ih h hp
    induction l with
    | nil => trivial
    | cons x l ih => exact ⟨trivial, ih⟩

theorem reads_each {P : List Bytes → Prop} {ts : List Tree} {ns : List XNode} (h : ReadsAll P ts ns)
    {name : Bytes} {R : List (Bytes × Bytes) → List XNode → Prop} :
    (∀ attrs ks nodes, Tree.elem name attrs ks ∈ ts → ReadsAll P ks nodes → R attrs nodes) →
    Each name R ns := by
  induction h with
  | nil => intro _ p attrs kids q hm; simp at hm
  | white p s _ _ ih =>
    intro h p attrs kids q hm
    simp only [List.mem_cons] at hm
    rcases hm with hm | hm
    · simp at hm
    · exact ih h p attrs kids q hm
  | @elem p q n attrs kids nodes ts ns hk _ ih1 ih2 =>
    intro h p' attrs' kids' q' hm
    simp only [List.mem_cons] at hm
    rcases hm with hm | hm
    · cases hm
      exact h attrs kids nodes (by simp) hk
    · exact ih2 (fun a k n hm => h a k n (List.mem_cons_of_mem _ hm)) p' attrs' kids' q' hm
  | text l _ _ ih =>
    intro h p' attrs' kids' q' hm
    rcases List.mem_append.1 hm with hm | hm
    · simp at hm
    · exact ih (fun a k n hm => h a k n (List.mem_cons_of_mem _ hm)) p' attrs' kids' q' hm

theorem mem_prop {tag : Bytes} {v : Option PVal} {t : Tree} (h : t ∈ propTree tag v) :
    ∃ x, v = some x ∧ t = .elem tag [] [.text (valueText x)] := by
  cases v with
  | none => simp [propTree] at h
  | some x => exact ⟨x, rfl, by simpa [propTree] using h⟩

theorem mem_flag {tag : Bytes} {e d : Bool} {v : Option PVal} {t : Tree}
    (h : t ∈ flagTree tag e d v) : ∃ b, t = .elem tag [] [.text (boolWord b)] := by
  unfold flagTree at h
  split at h
  · exact ⟨_, by simpa using h⟩
  · simp at h

theorem mem_list {tag : Bytes} {e : Bool} {l : List Tree} {t : Tree}
    (h : t ∈ listTree tag e l) : t = .elem tag [] l := by
  unfold listTree at h
  split at h
  · simpa using h
  · simp at h

theorem mem_lang {tag : Bytes} {d : RTree PVal} {t : Tree} (h : t ∈ langTrees tag d) :
    ∃ e ∈ d.pairs, t = .elem tag [(b!"xml:lang", e.1)] [.text (valueText e.2)] := by
  simp only [langTrees, List.mem_map] at h
  obtain ⟨e, he, rfl⟩ := h
  exact ⟨e, he, rfl⟩

theorem mem_block {block tag k v : Bytes} {items : List (Bytes × Bytes)} {t : Tree}
    (h : t ∈ blockTree block tag k v items) :
    t = .elem block [] (items.map fun e => .elem tag [(k, e.1), (v, e.2)] []) := by
  unfold blockTree at h
  split at h
  · simp at h
  · simpa using h

/-- A leaf with text or not. -/
theorem mem_texts {o : Options} {props names descs : RTree PVal} (hi : TextsIn o props names descs)
    (hn : RTree.WF names.subnodes) (hd : RTree.WF descs.subnodes) {t : Tree}
    (h : t ∈ textTrees props names descs) :
    ∃ n attrs s, t = .elem n attrs [.text s] ∧ n ∈ [b!"id", b!"name", b!"description"] ∧
      AttrsOk attrs ∧ White s = false := by
  simp only [textTrees, List.mem_append] at h
  have str : ∀ {k : Bytes} {x : PVal}, k ∈ [b!"id", b!"name", b!"desc", b!"langonly"] →
      props.get k = some x → White (valueText x) = false := by
    intro k x hk hx
    obtain ⟨_, rfl, b, rfl, hb⟩ := hi.strs k hk x hx
    exact hb
  rcases h with (((h | h) | h) | h) | h
  · obtain ⟨x, hx, rfl⟩ := mem_prop h
    exact ⟨_, _, _, rfl, by simp, attrsOk_names rfl, str (by simp) hx⟩
  · obtain ⟨x, hx, rfl⟩ := mem_prop h
    exact ⟨_, _, _, rfl, by simp, attrsOk_names rfl, str (by simp) hx⟩
  · obtain ⟨e, he, rfl⟩ := mem_lang h
    obtain ⟨_, hv, b, rfl, hb⟩ := hi.names _ _ ((RTree.mem_pairs hn _ _).1 he)
    exact ⟨_, _, _, rfl, by simp, attrsOk_names rfl, by rw [hv]; exact hb⟩
  · obtain ⟨x, hx, rfl⟩ := mem_prop h
    exact ⟨_, _, _, rfl, by simp, attrsOk_names rfl, str (by simp) hx⟩
  · obtain ⟨e, he, rfl⟩ := mem_lang h
    obtain ⟨_, hv, b, rfl, hb⟩ := hi.descs _ _ ((RTree.mem_pairs hd _ _).1 he)
    exact ⟨_, _, _, rfl, by simp, attrsOk_names rfl, by rw [hv]; exact hb⟩

theorem leaf_tidy {n s : Bytes} {attrs : List (Bytes × Bytes)} (hn : n ≠ b!"comps")
    (h : AttrsOk attrs) (hs : s = [] ∨ White s = false) : TreeTidy (.elem n attrs [.text s]) :=
  ⟨hn, h, hs, trivial⟩

theorem texts_tidy {o : Options} {props names descs : RTree PVal}
    (hi : TextsIn o props names descs) (hn : RTree.WF names.subnodes) (hd : RTree.WF descs.subnodes)
    {t : Tree} (h : t ∈ textTrees props names descs) : TreeTidy t := by
  obtain ⟨n, attrs, s, rfl, hn, ha, hs⟩ := mem_texts hi hn hd h
  exact leaf_tidy (by rintro rfl; revert hn; decide) ha (.inr hs)

theorem order_tidy {o : Options} {props names descs : RTree PVal}
    (hi : TextsIn o props names descs) {t : Tree}
    (h : t ∈ propTree b!"display_order" (props.get b!"display_order")) : TreeTidy t := by
  obtain ⟨x, hx, rfl⟩ := mem_prop h
  obtain ⟨n, rfl, -, -⟩ := hi.order x hx
  exact leaf_tidy (by decide) (attrsOk_names rfl) (.inr (decimal_white _))

theorem langonly_tidy {o : Options} {props names descs : RTree PVal}
    (hi : TextsIn o props names descs) {t : Tree}
    (h : t ∈ propTree b!"langonly" (props.get b!"langonly")) : TreeTidy t := by
  obtain ⟨x, hx, rfl⟩ := mem_prop h
  obtain ⟨_, rfl, b, rfl, hb⟩ := hi.strs _ (by simp) x hx
  exact leaf_tidy (by decide) (attrsOk_names rfl) (.inr hb)

theorem flag_tidy {tag : Bytes} (hn : tag ≠ b!"comps") {e d : Bool} {v : Option PVal} {t : Tree}
    (h : t ∈ flagTree tag e d v) : TreeTidy t := by
  obtain ⟨x, rfl⟩ := mem_flag h
  exact leaf_tidy hn (attrsOk_names rfl) (.inr (by cases x <;> decide))

theorem list_tidy {tag : Bytes} (hn : tag ≠ b!"comps") {e : Bool} {l : List Tree} {t : Tree}
    (hl : ∀ t ∈ l, TreeTidy t) (h : t ∈ listTree tag e l) : TreeTidy t := by
  rw [mem_list h]
  exact ⟨hn, attrsOk_names rfl, (treesTidy_iff l).2 hl⟩

theorem packages_tidy {o : Options} {l : List Package} (hl : ∀ p ∈ l, PackageIn o p) :
    ∀ t ∈ l.map (packageTree o), TreeTidy t := by
  intro t ht
  obtain ⟨p, hp, rfl⟩ := List.mem_map.1 ht
  rw [packageTree_eq]
  exact leaf_tidy (by decide)
    (package_back (lt := fun _ _ => false) (opts := .standard) (extra := fun _ => []) (hl p hp)).2.1
    (by
      cases h : p.name with
      | none => exact .inl rfl
      | some x =>
        obtain ⟨b, rfl, hb⟩ := (hl p hp).name x h
        exact .inr hb)

theorem ids_tidy {o : Options} {l : List GroupId} (hl : ∀ p ∈ l, GroupIdIn o p) :
    ∀ t ∈ l.map (groupIdTree o), TreeTidy t := by
  intro t ht
  obtain ⟨p, hp, rfl⟩ := List.mem_map.1 ht
  rw [groupIdTree_eq]
  exact leaf_tidy (by decide)
    (groupId_back (lt := fun _ _ => false) (opts := .standard) (extra := fun _ => []) (hl p hp)).2.1
    (by
      rcases (hl p hp).name with h | ⟨_, h, b, rfl, hb⟩
      · rw [h]; exact .inl rfl
      · rw [h]; exact .inr hb)

theorem arch_ok {o : Options} {a : Option (List CStr)} (h : ArchesIn o a) : AttrsOk (archAttr o a) :=
  (archAttr_known (lt := fun _ _ => false) (opts := .standard) (extra := fun _ => []) h
    (.inl rfl)).2

/-- The text of a display order. -/
theorem order_safe {o : Options} {props names descs : RTree PVal} (h : TextsIn o props names descs)
    {attrs : List (Bytes × Bytes)} {ks : List Tree} {nodes : List XNode}
    (hm : Tree.elem b!"display_order" attrs ks ∈
      propTree b!"display_order" (props.get b!"display_order"))
    (hr : ReadsAll NoBlank ks nodes) : OrderSafe nodes := by
  obtain ⟨x, hx, e⟩ := mem_prop hm
  simp only [Tree.elem.injEq] at e
  obtain ⟨-, -, rfl⟩ := e
  obtain ⟨n, rfl, h0, h1⟩ := h.order x hx
  refine ⟨decimal n.toNat, ?_, ?_⟩
  · rw [reads_ownText (Reading.plain (fun _ _ => false) .standard (fun _ => [])) hr]
    exact asText_solid (white_ne (decimal_white _))
  · intro v hv
    rw [numberAt_dec (decimal_isDec _)] at hv
    simp only [Option.some.injEq] at hv
    omega

/-- The text of a flag. -/
theorem flag_safe {tag : Bytes} {e d : Bool} {v : Option PVal} {attrs : List (Bytes × Bytes)}
    {ks : List Tree} {nodes : List XNode} (hm : Tree.elem tag attrs ks ∈ flagTree tag e d v)
    (hr : ReadsAll NoBlank ks nodes) : ownText nodes ≠ none := by
  obtain ⟨b, e⟩ := mem_flag hm
  simp only [Tree.elem.injEq] at e
  obtain ⟨-, -, rfl⟩ := e
  rw [reads_ownText (Reading.plain (fun _ _ => false) .standard (fun _ => [])) hr]
  cases b <;> decide

/-- The trees below the root. -/
theorem doc_safe {o : Options} {c : DocContent} (hi : RoundTrips o c)
    (hg : ∀ g ∈ c.groups, GroupBuilt lt g) (hk : ∀ g ∈ c.categories, CategoryBuilt lt g)
    (he : ∀ g ∈ c.environments, EnvBuilt lt g) {ks : List Tree}
    (hks : docTree o opts c = .elem b!"comps" [] ks) : TreesTidy ks ∧
    ∀ {nodes : List XNode}, ReadsAll NoBlank ks nodes → DocSafe AttrsOk Has nodes := by
  simp only [docTree, Tree.elem.injEq, true_and] at hks
  have split : ∀ t ∈ ks, (∃ g ∈ c.groups, t = groupTree o opts g) ∨
      (∃ g ∈ c.categories, t = categoryTree o g) ∨ (∃ g ∈ c.environments, t = envTree o g) ∨
      t = .elem b!"langpacks" [] ((packItems c.langpacks).map
        fun e => .elem b!"match" [(b!"name", e.1), (b!"install", e.2)] []) ∨
      t = .elem b!"blacklist" [] ((multiItems c.blacklist).map
        fun e => .elem b!"package" [(b!"name", e.1), (b!"arch", e.2)] []) ∨
      t = .elem b!"whiteout" [] ((multiItems c.whiteout).map
        fun e => .elem b!"ignoredep" [(b!"requires", e.1), (b!"package", e.2)] []) := by
    intro t ht
    rw [← hks] at ht
    simp only [List.mem_append] at ht
    rcases ht with ((((ht | ht) | ht) | ht) | ht) | ht
    · obtain ⟨g, hg, rfl⟩ := List.mem_map.1 ht
      exact .inl ⟨g, (List.mem_filter.1 hg).1, rfl⟩
    · obtain ⟨g, hg, rfl⟩ := List.mem_map.1 ht
      exact .inr (.inl ⟨g, (List.mem_filter.1 hg).1, rfl⟩)
    · obtain ⟨g, hg, rfl⟩ := List.mem_map.1 ht
      exact .inr (.inr (.inl ⟨g, (List.mem_filter.1 hg).1, rfl⟩))
    · exact .inr (.inr (.inr (.inl (mem_block ht))))
    · exact .inr (.inr (.inr (.inr (.inl (mem_block ht)))))
    · exact .inr (.inr (.inr (.inr (.inr (mem_block ht)))))
  have pairsTidy : ∀ {block tag k v : Bytes} (items : List (Bytes × Bytes)), block ≠ b!"comps" →
      tag ≠ b!"comps" → okNames [k, v] = true →
      TreeTidy (.elem block [] (items.map fun e => .elem tag [(k, e.1), (v, e.2)] [])) := by
    intro block tag k v items hb ht ha
    refine ⟨hb, attrsOk_names rfl, (treesTidy_iff _).2 fun t ht' => ?_⟩
    obtain ⟨e, -, rfl⟩ := List.mem_map.1 ht'
    exact ⟨ht, attrsOk_names ha, trivial⟩
  have pairsHas : ∀ {tag k v : Bytes} {items : List (Bytes × Bytes)} {nodes : List XNode},
      ReadsAll NoBlank (items.map fun e => .elem tag [(k, e.1), (v, e.2)] []) nodes →
      Each tag (fun a _ => Has a k) nodes := by
    intro tag k v items nodes hr
    refine reads_each hr fun attrs ks nodes hm _ => ?_
    obtain ⟨e, -, h⟩ := List.mem_map.1 hm
    simp only [Tree.elem.injEq] at h
    obtain ⟨-, rfl, -⟩ := h
    simp [Has, attrOf]
  have tidy : TreesTidy ks := by
    refine (treesTidy_iff ks).2 fun t ht => ?_
    rcases split t ht with ⟨g, hg', rfl⟩ | ⟨g, hg', rfl⟩ | ⟨g, hg', rfl⟩ | rfl | rfl | rfl
    · have hb := groupBuilt_inv (hg g hg')
      have hi := hi.groups g hg'
      obtain ⟨l, hl, hp⟩ := hi.packages
      refine ⟨by decide, arch_ok hi.texts.arches, (treesTidy_iff _).2 fun t ht => ?_⟩
      simp only [List.mem_append] at ht
      rcases ht with (((((ht | ht) | ht) | ht) | ht) | ht) | ht
      · exact texts_tidy hi.texts hb.name.wf hb.desc.wf ht
      · exact flag_tidy (by decide) ht
      · exact flag_tidy (by decide) ht
      · exact flag_tidy (by decide) ht
      · exact order_tidy hi.texts ht
      · exact langonly_tidy hi.texts ht
      · rw [hl] at ht
        exact list_tidy (by decide) (packages_tidy hp) ht
    · have hb := categoryBuilt_inv (hk g hg')
      have hi := hi.categories g hg'
      obtain ⟨l, hl, hp⟩ := hi.groupIds
      refine ⟨by decide, arch_ok hi.texts.arches, (treesTidy_iff _).2 fun t ht => ?_⟩
      simp only [List.mem_append] at ht
      rcases ht with (ht | ht) | ht
      · exact texts_tidy hi.texts hb.name.wf hb.desc.wf ht
      · exact order_tidy hi.texts ht
      · rw [hl] at ht
        exact list_tidy (by decide) (ids_tidy hp) ht
    · have hb := envBuilt_inv (he g hg')
      have hi := hi.environments g hg'
      obtain ⟨l, hl, hp⟩ := hi.groupList
      obtain ⟨l', hl', hp'⟩ := hi.optionList
      refine ⟨by decide, arch_ok hi.texts.arches, (treesTidy_iff _).2 fun t ht => ?_⟩
      simp only [List.mem_append] at ht
      rcases ht with ((ht | ht) | ht) | ht
      · exact texts_tidy hi.texts hb.name.wf hb.desc.wf ht
      · exact order_tidy hi.texts ht
      · rw [hl] at ht
        exact list_tidy (by decide) (ids_tidy hp) ht
      · rw [hl'] at ht
        exact list_tidy (by decide) (ids_tidy hp') ht
    · exact pairsTidy _ (by decide) (by decide) (by decide)
    · exact pairsTidy _ (by decide) (by decide) (by decide)
    · exact pairsTidy _ (by decide) (by decide) (by decide)
  refine ⟨tidy, fun hr => ⟨reads_tidy hr tidy, ?_, ?_, ?_, ?_, ?_, ?_⟩⟩
  all_goals refine reads_each hr fun attrs ts nodes hm hr => ?_
  · rcases split _ hm with ⟨g, hg', e⟩ | ⟨g, hg', e⟩ | ⟨g, hg', e⟩ | e | e | e <;>
      simp only [groupTree, categoryTree, envTree, Tree.elem.injEq] at e <;>
      first
        | (exfalso; revert e; rintro ⟨e, -⟩; revert e; decide)
        | skip
    obtain ⟨-, -, rfl⟩ := e
    refine ⟨reads_each hr fun attrs ts nodes hm hr => ?_, reads_each hr fun attrs ts nodes hm hr => ?_,
      reads_each hr fun attrs ts nodes hm hr => ?_⟩
    all_goals
      simp only [List.mem_append] at hm
      rcases hm with (((((hm | hm) | hm) | hm) | hm) | hm) | hm
      all_goals first
        | exact order_safe (hi.groups g hg').texts hm hr
        | exact flag_safe hm hr
        | (exfalso
           obtain ⟨n, _, _, e, hn, -⟩ := mem_texts (hi.groups g hg').texts (groupBuilt_inv (hg g hg')).name.wf
             (groupBuilt_inv (hg g hg')).desc.wf hm
           simp only [Tree.elem.injEq] at e
           rw [← e.1] at hn
           revert hn; decide)
        | (exfalso
           obtain ⟨_, e⟩ := mem_flag hm
           simp only [Tree.elem.injEq] at e
           revert e; rintro ⟨e, -⟩; revert e; decide)
        | (exfalso
           obtain ⟨_, -, e⟩ := mem_prop hm
           simp only [Tree.elem.injEq] at e
           revert e; rintro ⟨e, -⟩; revert e; decide)
        | (exfalso
           have e := mem_list hm
           simp only [Tree.elem.injEq] at e
           revert e; rintro ⟨e, -⟩; revert e; decide)
  · rcases split _ hm with ⟨g, hg', e⟩ | ⟨g, hg', e⟩ | ⟨g, hg', e⟩ | e | e | e <;>
      simp only [groupTree, categoryTree, envTree, Tree.elem.injEq] at e <;>
      first
        | (exfalso; revert e; rintro ⟨e, -⟩; revert e; decide)
        | skip
    obtain ⟨-, -, rfl⟩ := e
    refine reads_each hr fun attrs ts nodes hm hr => ?_
    simp only [List.mem_append] at hm
    rcases hm with (hm | hm) | hm
    · exfalso
      obtain ⟨n, _, _, e, hn, -⟩ := mem_texts (hi.categories g hg').texts
        (categoryBuilt_inv (hk g hg')).name.wf (categoryBuilt_inv (hk g hg')).desc.wf hm
      simp only [Tree.elem.injEq] at e
      rw [← e.1] at hn
      revert hn; decide
    · exact order_safe (hi.categories g hg').texts hm hr
    · exfalso
      have e := mem_list hm
      simp only [Tree.elem.injEq] at e
      revert e; rintro ⟨e, -⟩; revert e; decide
  · rcases split _ hm with ⟨g, hg', e⟩ | ⟨g, hg', e⟩ | ⟨g, hg', e⟩ | e | e | e <;>
      simp only [groupTree, categoryTree, envTree, Tree.elem.injEq] at e <;>
      first
        | (exfalso; revert e; rintro ⟨e, -⟩; revert e; decide)
        | skip
    obtain ⟨-, -, rfl⟩ := e
    refine reads_each hr fun attrs ts nodes hm hr => ?_
    simp only [List.mem_append] at hm
    rcases hm with ((hm | hm) | hm) | hm
    · exfalso
      obtain ⟨n, _, _, e, hn, -⟩ := mem_texts (hi.environments g hg').texts
        (envBuilt_inv (he g hg')).name.wf (envBuilt_inv (he g hg')).desc.wf hm
      simp only [Tree.elem.injEq] at e
      rw [← e.1] at hn
      revert hn; decide
    · exact order_safe (hi.environments g hg').texts hm hr
    · exfalso
      have e := mem_list hm
      simp only [Tree.elem.injEq] at e
      revert e; rintro ⟨e, -⟩; revert e; decide
    · exfalso
      have e := mem_list hm
      simp only [Tree.elem.injEq] at e
      revert e; rintro ⟨e, -⟩; revert e; decide
  all_goals
    rcases split _ hm with ⟨g, hg', e⟩ | ⟨g, hg', e⟩ | ⟨g, hg', e⟩ | e | e | e <;>
      simp only [groupTree, categoryTree, envTree, Tree.elem.injEq] at e <;>
      first
        | (exfalso; revert e; rintro ⟨e, -⟩; revert e; decide)
        | skip
    obtain ⟨-, -, rfl⟩ := e
    exact pairsHas hr

/-! ## Some way of reading -/

mutual
/-- An element delivered without cutting the text. -/
def nodeOf : Tree → List XNode
  | .elem n attrs kids => [.elem ⟨1, 1⟩ n attrs (nodesOf kids) ⟨1, 1⟩]
  | .text s => if s.isEmpty then [] else [.text ⟨1, 1⟩ s]
/-- The same for several trees. -/
def nodesOf : List Tree → List XNode
  | [] => []
  | t :: ts => nodeOf t ++ nodesOf ts
end

theorem nodesOf_reads : ∀ ts : List Tree, TreesTidy ts → ReadsAll NoBlank ts (nodesOf ts)
  | [], _ => .nil
  | .elem n attrs kids :: ts, h => by
    have h1 := nodesOf_reads kids h.1.2.2
    have h2 := nodesOf_reads ts h.2
    simpa [nodesOf, nodeOf] using ReadsAll.elem ⟨1, 1⟩ ⟨1, 1⟩ n attrs h1 h2
  | .text s :: ts, h => by
    have h2 := nodesOf_reads ts h.2
    rcases h.1 with rfl | hs
    · have := ReadsAll.text (P := NoBlank) [] (by simp [NoBlank]) h2
      simpa [nodesOf, nodeOf] using this
    · have := ReadsAll.text (P := NoBlank) [(⟨1, 1⟩, s)] (by simpa [NoBlank] using hs) h2
      have hne : s ≠ [] := white_ne hs
      simpa [nodesOf, nodeOf, hne] using this

/-! ## The calls of the writer determine the tree -/

theorem attrs_inj {a a' : List (Bytes × Bytes)} {r r' : List Call}
    (hr : ∀ k v, r.head? ≠ some (.attribute k v)) (hr' : ∀ k v, r'.head? ≠ some (.attribute k v))
    (h : (a.map fun x => Call.attribute x.1 x.2) ++ r = (a'.map fun x => .attribute x.1 x.2) ++ r') :
    a = a' ∧ r = r' := by
  induction a generalizing a' with
  | nil =>
    cases a' with
    | nil => exact ⟨rfl, h⟩
    | cons x a' =>
      simp only [List.map_nil, List.nil_append, List.map_cons, List.cons_append] at h
      exact absurd (by rw [h]; rfl) (hr x.1 x.2)
  | cons x a ih =>
    cases a' with
    | nil =>
      simp only [List.map_nil, List.nil_append, List.map_cons, List.cons_append] at h
      exact absurd (by rw [← h]; rfl) (hr' x.1 x.2)
    | cons x' a' =>
      simp only [List.map_cons, List.cons_append, List.cons.injEq, Call.attribute.injEq] at h
      obtain ⟨h1, h2⟩ := ih h.2
      exact ⟨by rw [h1, Prod.ext h.1.1 h.1.2], h2⟩

theorem calls_head (ts : List Tree) (r : List Call) (k v : Bytes) :
    (treeCalls ts ++ .endElement :: r).head? ≠ some (.attribute k v) := by
  cases ts with
  | nil => simp [treeCalls]
  | cons t ts => cases t <;> simp [treeCalls, Tree.calls]

mutual
theorem calls_inj : ∀ (t t' : Tree) (r r' : List Call), t.calls ++ r = t'.calls ++ r' →
    t = t' ∧ r = r'
  | .text s, .text s', r, r', h => by simpa [Tree.calls] using h
  | .text s, .elem n a ks, r, r', h => by simp [Tree.calls] at h
  | .elem n a ks, .text s, r, r', h => by simp [Tree.calls] at h
  | .elem n a ks, .elem n' a' ks', r, r', h => by
    simp only [Tree.calls, List.cons_append, List.cons.injEq, Call.startElement.injEq,
      List.append_assoc, List.nil_append] at h
    obtain ⟨rfl, h⟩ := h
    obtain ⟨rfl, h2⟩ := attrs_inj (calls_head ks r) (calls_head ks' r') h
    obtain ⟨rfl, rfl⟩ := treeCalls_inj ks ks' r r' h2
    exact ⟨rfl, rfl⟩
theorem treeCalls_inj : ∀ (ts ts' : List Tree) (r r' : List Call),
    treeCalls ts ++ .endElement :: r = treeCalls ts' ++ .endElement :: r' → ts = ts' ∧ r = r'
  | [], [], r, r', h => by simpa [treeCalls] using h
  | [], t' :: ts', r, r', h => by cases t' <;> simp [treeCalls, Tree.calls] at h
  | t :: ts, [], r, r', h => by cases t <;> simp [treeCalls, Tree.calls] at h
  | t :: ts, t' :: ts', r, r', h => by
    simp only [treeCalls, List.append_assoc] at h
    obtain ⟨rfl, h2⟩ := calls_inj t t' _ _ h
    obtain ⟨rfl, rfl⟩ := treeCalls_inj ts ts' r r' h2
    exact ⟨rfl, rfl⟩
end

end Comps.Round
