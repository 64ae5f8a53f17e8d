import Verif.Lemmas.Built
import Verif.Lemmas.MRTree
import Verif.Spec.Doc

/-! # Lemmas: documents -/

set_option linter.unusedSectionVars false

namespace Comps.Obj
open Comps Comps.Spec Comps.CSet
variable {lt : UInt8 → UInt8 → Bool}

theorem langBuilt_inv {t : RTree PVal} (h : LangBuilt lt t) : LangInv lt t := by
  induction h with
  | create => exact .create
  | set k s _ ih => exact ih.set k s
  | copy _ ih => exact ih.copy
  | union _ _ ih ih' => exact ih.union ih'

/-- The keys under which a document keeps its parts. -/
def docKeys : List Bytes :=
  [b!"groups", b!"categories", b!"environments", b!"langpacks", b!"blacklist", b!"whiteout"]

theorem docKeys_free : ∀ a ∈ docKeys, ∀ b ∈ b!"lang" :: docKeys, a <+: b → a = b := by decide
theorem docKeys_ne : ∀ a ∈ docKeys, a ≠ [] := by decide

theorem docKeys_proper (a : Bytes) (ha : a ∈ docKeys) (b : Bytes) (hb : b ∈ b!"lang" :: docKeys) :
    ¬ ProperPrefix a b := by
  rintro ⟨x, xs, rfl⟩
  have := docKeys_free a ha _ hb ⟨_, rfl⟩
  have := congrArg List.length this
  simp at this

/-- The keys a value may be stored under. -/
def keysOf : DocVal → List Bytes
  | .groups _ => [b!"groups"]
  | .cats _ => [b!"categories"]
  | .envs _ => [b!"environments"]
  | .dict _ => [b!"langpacks"]
  | .mdict _ => [b!"blacklist", b!"whiteout"]
  | .str _ => [b!"lang"]

/-- The entries of a stored value are reachable objects. -/
def contentOk (lt : UInt8 → UInt8 → Bool) : DocVal → Prop
  | .groups l => ∀ g ∈ l, GroupBuilt lt g
  | .cats l => ∀ g ∈ l, CategoryBuilt lt g
  | .envs l => ∀ g ∈ l, EnvBuilt lt g
  | .dict t => LangBuilt lt t
  | .mdict t => MReach t
  | .str _ => True

/-- Invariant of the dictionary of a document. -/
structure ObjsInv (lt : UInt8 → UInt8 → Bool) (t : RTree DocVal) : Prop where
  reach : ∃ S, Reach lt S t ∧ ∀ s ∈ S, s ∈ b!"lang" :: docKeys
  typed : AllV (fun k v => k ∈ keysOf v ∧ contentOk lt v) t

theorem ObjsInv.reachable {t : RTree DocVal} (h : ObjsInv lt t) : Reachable lt t := by
  obtain ⟨S, h, -⟩ := h.reach; exact ⟨S, h⟩
theorem ObjsInv.wf {t : RTree DocVal} (h : ObjsInv lt t) : RTree.WF t.subnodes := h.reachable.wf
theorem ObjsInv.create : ObjsInv lt RTree.create := ⟨⟨[], .create, by simp⟩, .create⟩

theorem ObjsInv.set {t : RTree DocVal} (h : ObjsInv lt t) (k : Bytes) (hk : k ∈ docKeys)
    (v : Option DocVal) (hv : ∀ x, v = some x → k ∈ keysOf x ∧ contentOk lt x) :
    ObjsInv lt (t.set lt k v) := by
  refine ⟨?_, h.typed.set h.wf k v hv⟩
  obtain ⟨S, hr, hS⟩ := h.reach
  refine ⟨_, .set k v hr, ?_⟩
  intro s hs
  rcases List.mem_cons.1 hs with rfl | hs
  · exact List.mem_cons_of_mem _ hk
  · exact hS s hs

theorem ObjsInv.set_get {t : RTree DocVal} (h : ObjsInv lt t) (k : Bytes) (hk : k ∈ docKeys)
    (v : Option DocVal) (k' : Bytes) : (t.set lt k v).get k' = if k' = k then v else t.get k' := by
  by_cases e : k' = k
  · subst e
    rw [if_pos rfl, RTree.set_get lt h.wf k' (docKeys_ne _ hk)]
  · rw [if_neg e]
    obtain ⟨S, hr, hS⟩ := h.reach
    refine RTree.set_frame lt h.wf (RTree.reach_inv hr).tok k v ?_ k' e
    rintro q ⟨x, xs, rfl⟩ ⟨s, hs, r, hsr⟩
    exact docKeys_proper k hk s (hS s hs) ⟨x, xs ++ r, by rw [← hsr]; simp⟩

/-- What the lemmas need to know about a slot; `C` is the condition on its content. -/
structure SlotOk {α : Type} (lt : UInt8 → UInt8 → Bool) (s : Slot α) (C : α → Prop) : Prop where
  key : s.key ∈ docKeys
  proj_inj : ∀ x, s.proj (s.inj x) = some x
  keys : ∀ x, s.key ∈ keysOf (s.inj x)
  content : ∀ x, contentOk lt (s.inj x) ↔ C x
  empty : C s.empty
  only : ∀ v, s.key ∈ keysOf v → ∃ x, v = s.inj x

theorem groupsOk : SlotOk lt groupsSlot (fun l => ∀ g ∈ l, GroupBuilt lt g) where
  key := by decide
  proj_inj _ := rfl
  keys _ := by simp [groupsSlot, keysOf]
  content _ := Iff.rfl
  empty := by simp [groupsSlot]
  only v h := by cases v <;> simp [groupsSlot, keysOf] at h ⊢

theorem categoriesOk : SlotOk lt categoriesSlot (fun l => ∀ g ∈ l, CategoryBuilt lt g) where
  key := by decide
  proj_inj _ := rfl
  keys _ := by simp [categoriesSlot, keysOf]
  content _ := Iff.rfl
  empty := by simp [categoriesSlot]
  only v h := by cases v <;> simp [categoriesSlot, keysOf] at h ⊢

theorem environmentsOk : SlotOk lt environmentsSlot (fun l => ∀ g ∈ l, EnvBuilt lt g) where
  key := by decide
  proj_inj _ := rfl
  keys _ := by simp [environmentsSlot, keysOf]
  content _ := Iff.rfl
  empty := by simp [environmentsSlot]
  only v h := by cases v <;> simp [environmentsSlot, keysOf] at h ⊢

theorem langpacksOk : SlotOk lt langpacksSlot (LangBuilt lt) where
  key := by decide
  proj_inj _ := rfl
  keys _ := by simp [langpacksSlot, keysOf]
  content _ := Iff.rfl
  empty := .create
  only v h := by cases v <;> simp [langpacksSlot, keysOf] at h ⊢

theorem blacklistOk : SlotOk lt blacklistSlot MReach where
  key := by decide
  proj_inj _ := rfl
  keys _ := by simp [blacklistSlot, keysOf]
  content _ := Iff.rfl
  empty := .create
  only v h := by cases v <;> simp [blacklistSlot, keysOf] at h ⊢

theorem whiteoutOk : SlotOk lt whiteoutSlot MReach where
  key := by decide
  proj_inj _ := rfl
  keys _ := by simp [whiteoutSlot, keysOf]
  content _ := Iff.rfl
  empty := .create
  only v h := by cases v <;> simp [whiteoutSlot, keysOf] at h ⊢

/-- The content of a slot. -/
def view {α : Type} (s : Slot α) (d : Doc) : α :=
  match d.objects.get s.key with
  | none => s.empty
  | some v => (s.proj v).getD s.empty

section slot
variable {α : Type} {s : Slot α} {C : α → Prop}

theorem view_ok (hs : SlotOk lt s C) {d : Doc} (h : ObjsInv lt d.objects) : C (view s d) := by
  unfold view
  split
  · exact hs.empty
  · rename_i v hv
    have := h.typed.get h.wf hv
    obtain ⟨x, rfl⟩ := hs.only v this.1
    rw [hs.proj_inj]
    exact (hs.content x).1 this.2

theorem view_set (hs : SlotOk lt s C) {d : Doc} (h : ObjsInv lt d.objects) (v : Option α)
    {β : Type} (s' : Slot β) :
    view s' (d.setObj lt s v) = if s'.key = s.key then
      (match v.map s.inj with | none => s'.empty | some w => (s'.proj w).getD s'.empty)
      else view s' d := by
  unfold view Doc.setObj
  simp only
  rw [h.set_get _ hs.key]
  by_cases e : s'.key = s.key
  · rw [if_pos e, if_pos e]
  · rw [if_neg e, if_neg e]

theorem view_set_same (hs : SlotOk lt s C) {d : Doc} (h : ObjsInv lt d.objects) (v : Option α) :
    view s (d.setObj lt s v) = v.getD s.empty := by
  rw [view_set hs h, if_pos rfl]
  cases v with
  | none => rfl
  | some x => simp [hs.proj_inj]

theorem view_set_other (hs : SlotOk lt s C) {d : Doc} (h : ObjsInv lt d.objects) (v : Option α)
    {β : Type} {s' : Slot β} (hne : s'.key ≠ s.key) : view s' (d.setObj lt s v) = view s' d := by
  rw [view_set hs h, if_neg hne]

theorem inv_set (hs : SlotOk lt s C) {d : Doc} (h : ObjsInv lt d.objects) (v : Option α)
    (hv : ∀ x, v = some x → C x) : ObjsInv lt (d.setObj lt s v).objects := by
  refine h.set _ hs.key _ ?_
  intro w hw
  cases v with
  | none => simp at hw
  | some x =>
    simp at hw; subst hw
    exact ⟨hs.keys x, (hs.content x).2 (hv x rfl)⟩

theorem get_cases (hs : SlotOk lt s C) {d : Doc} (h : ObjsInv lt d.objects) :
    (d.objects.get s.key = none ∧ view s d = s.empty) ∨
    (d.objects.get s.key = some (s.inj (view s d))) := by
  cases hg : d.objects.get s.key with
  | none => exact .inl ⟨rfl, by simp [view, hg]⟩
  | some v =>
    right
    obtain ⟨x, rfl⟩ := hs.only v (h.typed.get h.wf hg).1
    simp [view, hg, hs.proj_inj]

/-- A getter returns the content and does not change what the getters show. -/
theorem getObj_ok (hs : SlotOk lt s C) {d : Doc} (h : ObjsInv lt d.objects) :
    ∃ d', d.getObj lt s = .ok (view s d, d') ∧ ObjsInv lt d'.objects ∧
      (d' = d ∨ d' = d.setObj lt s (some (view s d))) := by
  rcases get_cases hs h with ⟨h1, h2⟩ | h1
  · refine ⟨d.setObj lt s (some s.empty), ?_, ?_, ?_⟩
    · simp only [Doc.getObj, h1, h2]; rfl
    · exact inv_set hs h _ fun x hx => by cases hx; exact hs.empty
    · right; rw [h2]
  · exact ⟨d, by simp [Doc.getObj, h1, hs.proj_inj], h, .inl rfl⟩

theorem addObj_ok (hs : SlotOk lt s C) {d : Doc} (h : ObjsInv lt d.objects) (add : α → α)
    (hadd : C (add (view s d))) :
    ∃ d', d.addObj lt s add = .ok d' ∧ ObjsInv lt d'.objects ∧
      (d' = d.setObj lt s (some (add (view s d))) ∨
       d' = (d.setObj lt s (some s.empty)).setObj lt s (some (add (view s d)))) := by
  have hc : ∀ x, some (add (view s d)) = some x → C x := fun x hx => by cases hx; exact hadd
  rcases get_cases hs h with ⟨h1, h2⟩ | h1
  · refine ⟨(d.setObj lt s (some s.empty)).setObj lt s (some (add (view s d))), ?_, ?_, .inr rfl⟩
    · simp only [Doc.addObj, h1, h2]
    · refine inv_set hs (inv_set hs h _ fun x hx => by cases hx; exact hs.empty) _ hc
  · exact ⟨_, by simp [Doc.addObj, h1, hs.proj_inj], inv_set hs h _ hc, .inl rfl⟩

end slot

/-- What the getters show. -/
def content (d : Doc) : DocContent :=
  ⟨view groupsSlot d, view categoriesSlot d, view environmentsSlot d, view langpacksSlot d,
    view blacklistSlot d, view whiteoutSlot d⟩

/-- A slot with the place its content has among the contents of a document. -/
structure Placed {α : Type} (lt : UInt8 → UInt8 → Bool) (s : Slot α) (C : α → Prop)
    (get : DocContent → α) (put : DocContent → α → DocContent) : Prop where
  ok : SlotOk lt s C
  get_view : ∀ d, get (content d) = view s d
  put_get : ∀ c, put c (get c) = c
  put_put : ∀ c x y, put (put c x) y = put c y
  get_put : ∀ c x, get (put c x) = x
  set : ∀ {d : Doc}, ObjsInv lt d.objects → ∀ v : Option α,
    content (d.setObj lt s v) = put (content d) (v.getD s.empty)
  built : ∀ {d : Doc} (x : α), DocBuilt lt d → C x → DocBuilt lt (d.setObj lt s (some x))

macro "place" h:term : tactic => `(tactic| (
  intro d hd v
  simp only [content]
  congr 1 <;> first
    | exact view_set_same $h hd v
    | exact view_set_other $h hd v (by decide)))

theorem groupsAt : Placed lt groupsSlot (fun l => ∀ g ∈ l, GroupBuilt lt g) (·.groups)
    (fun c x => { c with groups := x }) where
  ok := groupsOk
  get_view _ := rfl
  put_get _ := rfl
  put_put _ _ _ := rfl
  get_put _ _ := rfl
  set := by place groupsOk
  built x hd hx := .call (.setGroups (some x)) hx hd rfl

theorem categoriesAt : Placed lt categoriesSlot (fun l => ∀ g ∈ l, CategoryBuilt lt g)
    (·.categories) (fun c x => { c with categories := x }) where
  ok := categoriesOk
  get_view _ := rfl
  put_get _ := rfl
  put_put _ _ _ := rfl
  get_put _ _ := rfl
  set := by place categoriesOk
  built x hd hx := .call (.setCategories (some x)) hx hd rfl

theorem environmentsAt : Placed lt environmentsSlot (fun l => ∀ g ∈ l, EnvBuilt lt g)
    (·.environments) (fun c x => { c with environments := x }) where
  ok := environmentsOk
  get_view _ := rfl
  put_get _ := rfl
  put_put _ _ _ := rfl
  get_put _ _ := rfl
  set := by place environmentsOk
  built x hd hx := .call (.setEnvironments (some x)) hx hd rfl

theorem langpacksAt : Placed lt langpacksSlot (LangBuilt lt) (·.langpacks)
    (fun c x => { c with langpacks := x }) where
  ok := langpacksOk
  get_view _ := rfl
  put_get _ := rfl
  put_put _ _ _ := rfl
  get_put _ _ := rfl
  set := by place langpacksOk
  built x hd hx := .call (.setLangpacks (some x)) (by rintro _ ⟨⟩; exact hx) hd rfl

theorem blacklistAt : Placed lt blacklistSlot MReach (·.blacklist)
    (fun c x => { c with blacklist := x }) where
  ok := blacklistOk
  get_view _ := rfl
  put_get _ := rfl
  put_put _ _ _ := rfl
  get_put _ _ := rfl
  set := by place blacklistOk
  built x hd hx := .call (.setBlacklist (some x)) (by rintro _ ⟨⟩; exact hx) hd rfl

theorem whiteoutAt : Placed lt whiteoutSlot MReach (·.whiteout)
    (fun c x => { c with whiteout := x }) where
  ok := whiteoutOk
  get_view _ := rfl
  put_get _ := rfl
  put_put _ _ _ := rfl
  get_put _ _ := rfl
  set := by place whiteoutOk
  built x hd hx := .call (.setWhiteout (some x)) (by rintro _ ⟨⟩; exact hx) hd rfl

/-- The fields of a document that the slot functions leave alone. -/
def rest (d : Doc) : Option CStr × Option CStr × Option CStr × Option CStr × Bool × Bool :=
  (d.encoding, d.doctypeName, d.doctypeSysid, d.doctypePubid, d.logSet, d.langSet)

section placed
variable {α : Type} {s : Slot α} {C : α → Prop} {get : DocContent → α}
  {put : DocContent → α → DocContent}

theorem Placed.getObj (hp : Placed lt s C get put) {d : Doc} (h : ObjsInv lt d.objects) :
    ∃ d', d.getObj lt s = .ok (get (content d), d') ∧ ObjsInv lt d'.objects ∧
      content d' = content d ∧ rest d' = rest d := by
  obtain ⟨d', h1, h2, h3⟩ := getObj_ok hp.ok h
  refine ⟨d', by rw [hp.get_view]; exact h1, h2, ?_, ?_⟩
  · rcases h3 with rfl | rfl
    · rfl
    · rw [hp.set h]; simp only [Option.getD_some]; rw [← hp.get_view, hp.put_get]
  · rcases h3 with rfl | rfl <;> rfl

theorem Placed.addObj (hp : Placed lt s C get put) {d : Doc} (h : ObjsInv lt d.objects)
    (add : α → α) (hadd : C (add (get (content d)))) :
    ∃ d', d.addObj lt s add = .ok d' ∧ ObjsInv lt d'.objects ∧
      content d' = put (content d) (add (get (content d))) ∧ rest d' = rest d := by
  rw [hp.get_view] at hadd ⊢
  obtain ⟨d', h1, h2, h3⟩ := addObj_ok hp.ok h add hadd
  refine ⟨d', h1, h2, ?_, ?_⟩
  · rcases h3 with rfl | rfl
    · rw [hp.set h]; rfl
    · rw [hp.set (inv_set hp.ok h _ fun x hx => by cases hx; exact hp.ok.empty), hp.set h, hp.put_put]
      rfl
  · rcases h3 with rfl | rfl <;> rfl

end placed

theorem Placed.addAll {β : Type} {s : Slot (List β)} {P : β → Prop} {get : DocContent → List β}
    {put : DocContent → List β → DocContent}
    (hp : Placed lt s (fun l => ∀ g ∈ l, P g) get put) (l : List β) {d : Doc}
    (h : ObjsInv lt d.objects) (hl : ∀ g ∈ l, P g) :
    ∃ d', d.addAll lt s l = .ok d' ∧ ObjsInv lt d'.objects ∧
      content d' = put (content d) (get (content d) ++ l) ∧ rest d' = rest d := by
  induction l generalizing d with
  | nil => exact ⟨d, rfl, h, by simp [hp.put_get], rfl⟩
  | cons x xs ih =>
    have hv : ∀ g ∈ get (content d), P g := by
      rw [hp.get_view]; exact view_ok hp.ok h
    obtain ⟨d1, h1, h2, h3, h4⟩ := hp.addObj h (· ++ [x]) (by
      intro g hg
      rcases List.mem_append.1 hg with hg | hg
      · exact hv g hg
      · rw [List.mem_singleton.1 hg]; exact hl x (by simp))
    obtain ⟨d2, k1, k2, k3, k4⟩ := ih h2 fun g hg => hl g (by simp [hg])
    refine ⟨d2, ?_, k2, ?_, k4.trans h4⟩
    · simp only [Doc.addAll, List.foldlM_cons, h1, bind, Except.bind]; exact k1
    · rw [k3, h3, hp.get_put, hp.put_put]; simp

theorem shows_content {d : Doc} (h : ObjsInv lt d.objects) : Shows lt d (content d) where
  groups := by obtain ⟨d', h1, -⟩ := groupsAt.getObj h; exact ⟨d', h1⟩
  categories := by obtain ⟨d', h1, -⟩ := categoriesAt.getObj h; exact ⟨d', h1⟩
  environments := by obtain ⟨d', h1, -⟩ := environmentsAt.getObj h; exact ⟨d', h1⟩
  langpacks := by obtain ⟨d', h1, -⟩ := langpacksAt.getObj h; exact ⟨d', h1⟩
  blacklist := by obtain ⟨d', h1, -⟩ := blacklistAt.getObj h; exact ⟨d', h1⟩
  whiteout := by obtain ⟨d', h1, -⟩ := whiteoutAt.getObj h; exact ⟨d', h1⟩

theorem shows_unique {d : Doc} {c c' : DocContent} (h : Shows lt d c) (h' : Shows lt d c') :
    c = c' := by
  obtain ⟨⟨_, h1⟩, ⟨_, h2⟩, ⟨_, h3⟩, ⟨_, h4⟩, ⟨_, h5⟩, ⟨_, h6⟩⟩ := h
  obtain ⟨⟨_, k1⟩, ⟨_, k2⟩, ⟨_, k3⟩, ⟨_, k4⟩, ⟨_, k5⟩, ⟨_, k6⟩⟩ := h'
  rw [h1] at k1; rw [h2] at k2; rw [h3] at k3; rw [h4] at k4; rw [h5] at k5; rw [h6] at k6
  cases c; cases c'
  simp only [Except.ok.injEq, Prod.mk.injEq] at *
  simp [k1, k2, k3, k4, k5, k6]

theorem content_create {args : Option (Option CStr)} {d : Doc} (h : Doc.create args = .ok d) :
    ObjsInv lt d.objects ∧ content d = ⟨[], [], [], RTree.create, MTree.create, MTree.create⟩ := by
  have : d.objects = RTree.create := by
    rcases args with _ | _ | e
    · simp [Doc.create] at h; subst h; rfl
    · simp [Doc.create] at h
    · simp [Doc.create] at h; subst h; rfl
  have hg : ∀ k, (RTree.create : RTree DocVal).get k = none := by
    intro k
    rw [RTree.get_eq RTree.wf_empty]
    simp [RTree.create, HSList.empty, RTree.listLk]
  refine ⟨by rw [this]; exact .create, ?_⟩
  simp [content, view, this, hg, groupsSlot, categoriesSlot, environmentsSlot, langpacksSlot,
    blacklistSlot, whiteoutSlot]

theorem create_get {V : Type} (k : Bytes) : (RTree.create : RTree V).get k = none := by
  rw [RTree.get_eq RTree.wf_empty]
  simp [RTree.create, HSList.empty, RTree.listLk]

theorem content_lang {args : Option (Option CStr)} {d : Doc} (h : Doc.create args = .ok d)
    (s : Option CStr) : ObjsInv lt (d.setLang lt s).objects ∧
      content (d.setLang lt s) = ⟨[], [], [], RTree.create, MTree.create, MTree.create⟩ := by
  have ho : d.objects = RTree.create := by
    rcases args with _ | _ | e
    · simp [Doc.create] at h; subst h; rfl
    · simp [Doc.create] at h
    · simp [Doc.create] at h; subst h; rfl
  have hr : Reach lt [] d.objects := by rw [ho]; exact .create
  constructor
  · refine ⟨⟨[b!"lang"], .set _ _ hr, by simp⟩, ?_⟩
    refine AllV.set (by rw [ho]; exact RTree.wf_empty) (by rw [ho]; exact .create) _ _ ?_
    intro x hx
    cases s with
    | none => simp at hx
    | some s => simp at hx; subst hx; exact ⟨by simp [keysOf], trivial⟩
  · have hg : ∀ k, k ≠ b!"lang" → (d.setLang lt s).objects.get k = none := by
      intro k hk
      show (d.objects.set lt b!"lang" (s.map .str)).get k = none
      rw [RTree.set_frame lt (by rw [ho]; exact RTree.wf_empty) (RTree.reach_inv hr).tok _ _
        (by rintro q - ⟨s, hs, -⟩; simp at hs) k hk, ho, create_get]
    have g1 : (d.setLang lt s).objects.get b!"groups" = none := hg _ (by decide)
    have g2 : (d.setLang lt s).objects.get b!"categories" = none := hg _ (by decide)
    have g3 : (d.setLang lt s).objects.get b!"environments" = none := hg _ (by decide)
    have g4 : (d.setLang lt s).objects.get b!"langpacks" = none := hg _ (by decide)
    have g5 : (d.setLang lt s).objects.get b!"blacklist" = none := hg _ (by decide)
    have g6 : (d.setLang lt s).objects.get b!"whiteout" = none := hg _ (by decide)
    simp only [content, view, groupsSlot, categoriesSlot, environmentsSlot, langpacksSlot,
      blacklistSlot, whiteoutSlot, g1, g2, g3, g4, g5, g6]

/-- A call keeps the invariant and has the specified effect. -/
theorem call_ok {d : Doc} (h : ObjsInv lt d.objects) (c : DocCall) (hc : c.Good lt) :
    ∃ d', c.run lt d = .ok d' ∧ ObjsInv lt d'.objects ∧ content d' = c.effect lt (content d) := by
  have hcont : ∀ {α : Type} {s : Slot α} {C : α → Prop} {get : DocContent → α}
      {put : DocContent → α → DocContent}, Placed lt s C get put → C (get (content d)) := by
    intro α s C get put hp; rw [hp.get_view]; exact view_ok hp.ok h
  have app : ∀ {β : Type} {P : β → Prop} {l : List β} {x : β}, (∀ g ∈ l, P g) → P x →
      ∀ g ∈ l ++ [x], P g := by
    intro β P l x h1 h2 g hg
    rcases List.mem_append.1 hg with hg | hg
    · exact h1 g hg
    · rw [List.mem_singleton.1 hg]; exact h2
  cases c with
  | getGroups =>
    obtain ⟨d', h1, h2, h3, -⟩ := groupsAt.getObj h
    exact ⟨d', by simp [DocCall.run, h1, Functor.map, Except.map], h2, h3⟩
  | getCategories =>
    obtain ⟨d', h1, h2, h3, -⟩ := categoriesAt.getObj h
    exact ⟨d', by simp [DocCall.run, h1, Functor.map, Except.map], h2, h3⟩
  | getEnvironments =>
    obtain ⟨d', h1, h2, h3, -⟩ := environmentsAt.getObj h
    exact ⟨d', by simp [DocCall.run, h1, Functor.map, Except.map], h2, h3⟩
  | getLangpacks =>
    obtain ⟨d', h1, h2, h3, -⟩ := langpacksAt.getObj h
    exact ⟨d', by simp [DocCall.run, h1, Functor.map, Except.map], h2, h3⟩
  | getBlacklist =>
    obtain ⟨d', h1, h2, h3, -⟩ := blacklistAt.getObj h
    exact ⟨d', by simp [DocCall.run, h1, Functor.map, Except.map], h2, h3⟩
  | getWhiteout =>
    obtain ⟨d', h1, h2, h3, -⟩ := whiteoutAt.getObj h
    exact ⟨d', by simp [DocCall.run, h1, Functor.map, Except.map], h2, h3⟩
  | setGroups l =>
    exact ⟨_, rfl, inv_set groupsOk h l (fun x hx => by subst hx; exact hc), groupsAt.set h l⟩
  | setCategories l =>
    exact ⟨_, rfl, inv_set categoriesOk h l (fun x hx => by subst hx; exact hc), categoriesAt.set h l⟩
  | setEnvironments l =>
    exact ⟨_, rfl, inv_set environmentsOk h l (fun x hx => by subst hx; exact hc),
      environmentsAt.set h l⟩
  | setLangpacks l => exact ⟨_, rfl, inv_set langpacksOk h l hc, langpacksAt.set h l⟩
  | setBlacklist l => exact ⟨_, rfl, inv_set blacklistOk h l hc, blacklistAt.set h l⟩
  | setWhiteout l => exact ⟨_, rfl, inv_set whiteoutOk h l hc, whiteoutAt.set h l⟩
  | addGroup g =>
    obtain ⟨d', h1, h2, h3, -⟩ := groupsAt.addObj h (· ++ [g]) (app (hcont groupsAt) hc)
    exact ⟨d', h1, h2, h3⟩
  | addCategory g =>
    obtain ⟨d', h1, h2, h3, -⟩ := categoriesAt.addObj h (· ++ [g]) (app (hcont categoriesAt) hc)
    exact ⟨d', h1, h2, h3⟩
  | addEnvironment g =>
    obtain ⟨d', h1, h2, h3, -⟩ := environmentsAt.addObj h (· ++ [g]) (app (hcont environmentsAt) hc)
    exact ⟨d', h1, h2, h3⟩
  | addLangpack k s =>
    obtain ⟨d', h1, h2, h3, -⟩ := langpacksAt.addObj h (fun t => t.set lt k (some (.str s)))
      (.set k s (hcont langpacksAt))
    exact ⟨d', h1, h2, h3⟩
  | addBlacklist k s =>
    obtain ⟨d', h1, h2, h3, -⟩ := blacklistAt.addObj h (fun t => MTree.set t k s)
      (.set k s (hcont blacklistAt))
    exact ⟨d', h1, h2, h3⟩
  | addWhiteout k s =>
    obtain ⟨d', h1, h2, h3, -⟩ := whiteoutAt.addObj h (fun t => MTree.set t k s)
      (.set k s (hcont whiteoutAt))
    exact ⟨d', h1, h2, h3⟩
  | doctypeName s => exact ⟨_, rfl, h, rfl⟩
  | doctypeSysid s => exact ⟨_, rfl, h, rfl⟩
  | doctypePubid s => exact ⟨_, rfl, h, rfl⟩

/-! ## Copying -/

theorem contentOk_copy {v : DocVal} (h : contentOk lt v) : contentOk lt v.copy := by
  cases v with
  | groups l =>
    intro g hg
    obtain ⟨x, hx, rfl⟩ := List.mem_map.1 hg
    exact .copy (h x hx)
  | cats l =>
    intro g hg
    obtain ⟨x, hx, rfl⟩ := List.mem_map.1 hg
    exact .copy (h x hx)
  | envs l =>
    intro g hg
    obtain ⟨x, hx, rfl⟩ := List.mem_map.1 hg
    exact .copy (h x hx)
  | dict t => exact .copy h
  | mdict t =>
    simp only [DocVal.copy]
    split
    · rename_i t' ht; exact MReach.copy h ht
    · exact h
  | str s => trivial

theorem keysOf_copy (v : DocVal) : keysOf v.copy = keysOf v := by
  cases v with
  | mdict t =>
    simp only [DocVal.copy]
    cases MTree.copy t <;> rfl
  | _ => rfl

theorem ObjsInv.copy {t : RTree DocVal} (h : ObjsInv lt t) : ObjsInv lt (t.copy DocVal.copy) := by
  refine ⟨?_, h.typed.copy _ fun k v hv => ⟨by rw [keysOf_copy]; exact hv.1, contentOk_copy hv.2⟩⟩
  obtain ⟨S, hr, hS⟩ := h.reach
  exact ⟨S, .copy _ hr, hS⟩

/-! ## Merging lists of entries -/

section lists
variable {α κ : Type} [DecidableEq κ] {eqf : α → α → Bool} {key : α → κ}

theorem remove_eq_filter (hk : ByKey eqf key) {s : List α} (hs : UniqueNames key s) (y : α) :
    (remove eqf s y).1 = s.filter fun x => key x ≠ key y := by
  induction s with
  | nil => rfl
  | cons x xs ih =>
    have hs' := List.nodup_cons.1 hs
    simp only [remove]
    by_cases h : key x = key y
    · rw [if_pos ((hk _ _).2 h), List.filter_cons_of_neg (by simp [h])]
      symm
      rw [List.filter_eq_self]
      intro z hz
      have : key z ≠ key y := fun e => hs'.1 (List.mem_map.2 ⟨z, hz, by rw [e, h]⟩)
      simpa using this
    · rw [if_neg (fun e => h ((hk _ _).1 e)), List.filter_cons_of_pos (by simpa using h)]
      simp only
      rw [ih hs'.2]

theorem add_new (hk : ByKey eqf key) {s : List α} {y : α} (h : key y ∉ s.map key) :
    add eqf s y = s ++ [y] := by
  unfold add
  rw [if_neg]
  intro hm
  obtain ⟨x, hx, e⟩ := (mem_iff _ _ _).1 hm
  exact h (List.mem_map.2 ⟨x, hx, (hk _ _).1 e⟩)

theorem find_key (hk : ByKey eqf key) (s : List α) (y : α) :
    dataAt eqf s y = s.find? fun x => key x = key y := by
  rw [dataAt_or]
  congr 1
  funext x
  rw [Bool.eq_iff_iff, hk, decide_eq_true_iff]

variable {copy : α → α} {mrg : α → α → α} {P : α → Prop}

/-- What a step of the union puts at the end. -/
def merged (key : α → κ) (copy : α → α) (mrg : α → α → α) (s : List α) (y : α) : α :=
  match s.find? fun x => key x = key y with
  | some x => mrg x y
  | none => copy y

/-- Copies and merges of entries are entries and keep the id. -/
structure MergeOk (key : α → κ) (copy : α → α) (mrg : α → α → α) (P : α → Prop) : Prop where
  copies : ∀ x, P x → P (copy x)
  copy_key : ∀ x, P x → key (copy x) = key x
  merges : ∀ x y, P x → P y → P (mrg x y)
  mrg_key : ∀ x y, P x → P y → key x = key y → key (mrg x y) = key y

theorem merged_ok (hm : MergeOk key copy mrg P) {s : List α} (hs : ∀ x ∈ s, P x) {y : α} (hy : P y) :
    P (merged key copy mrg s y) ∧ key (merged key copy mrg s y) = key y := by
  unfold merged
  split
  · rename_i x hx
    have h1 := hs x (List.mem_of_find?_eq_some hx)
    have h2 : key x = key y := by simpa using List.find?_some hx
    exact ⟨hm.merges _ _ h1 hy, hm.mrg_key _ _ h1 hy h2⟩
  · exact ⟨hm.copies _ hy, hm.copy_key _ hy⟩

theorem docUnionStep_eq (hk : ByKey eqf key) (hm : MergeOk key copy mrg P) {s : List α}
    (hs : UniqueNames key s) (hP : ∀ x ∈ s, P x) {y : α} (hy : P y) :
    docUnionStep eqf copy mrg s y =
      (s.filter fun x => key x ≠ key y) ++ [merged key copy mrg s y] := by
  have hok := merged_ok hm hP hy
  unfold docUnionStep
  unfold merged at hok ⊢
  rw [find_key hk]
  cases hf : s.find? (fun x => decide (key x = key y)) with
  | some x =>
    rw [hf] at hok
    simp only at hok ⊢
    rw [remove_eq_filter hk hs, add_new hk]
    rw [hok.2]
    intro h
    obtain ⟨z, hz, e⟩ := List.mem_map.1 h
    have := (List.mem_filter.1 hz).2
    simp [e] at this
  | none =>
    rw [hf] at hok
    simp only at hok ⊢
    have hno : ∀ x ∈ s, key x ≠ key y := by
      intro x hx e
      have := List.find?_eq_none.1 hf x hx
      simp [e] at this
    rw [add_new hk, List.filter_eq_self.2 fun x hx => by simpa using hno x hx]
    rw [hok.2]
    intro h
    obtain ⟨z, hz, e⟩ := List.mem_map.1 h
    exact hno z hz e

/-- A step keeps the entries distinct and adds the id. -/
theorem docUnionStep_ok (hk : ByKey eqf key) (hm : MergeOk key copy mrg P) {s : List α}
    (hs : UniqueNames key s) (hP : ∀ x ∈ s, P x) {y : α} (hy : P y) :
    UniqueNames key (docUnionStep eqf copy mrg s y) ∧
    (∀ x ∈ docUnionStep eqf copy mrg s y, P x) ∧
    ∀ k, k ∈ (docUnionStep eqf copy mrg s y).map key ↔ k ∈ s.map key ∨ k = key y := by
  have hok := merged_ok hm hP hy
  rw [docUnionStep_eq hk hm hs hP hy]
  refine ⟨?_, ?_, ?_⟩
  · unfold UniqueNames
    rw [List.map_append, List.nodup_append]
    refine ⟨List.Nodup.sublist (List.Sublist.map key List.filter_sublist) hs, by simp, ?_⟩
    intro a ha b hb e
    obtain ⟨z, hz, rfl⟩ := List.mem_map.1 ha
    have h1 := (List.mem_filter.1 hz).2
    simp at hb
    rw [hok.2] at hb
    simp [e, hb] at h1
  · intro x hx
    rcases List.mem_append.1 hx with hx | hx
    · exact hP x (List.mem_filter.1 hx).1
    · rw [List.mem_singleton.1 hx]; exact hok.1
  · intro k
    rw [List.map_append, List.mem_append]
    simp only [List.map_cons, List.map_nil, List.mem_singleton, hok.2]
    constructor
    · rintro (h | h)
      · obtain ⟨z, hz, rfl⟩ := List.mem_map.1 h
        exact .inl (List.mem_map.2 ⟨z, (List.mem_filter.1 hz).1, rfl⟩)
      · exact .inr h
    · rintro (h | h)
      · by_cases e : k = key y
        · exact .inr e
        · obtain ⟨z, hz, rfl⟩ := List.mem_map.1 h
          exact .inl (List.mem_map.2 ⟨z, List.mem_filter.2 ⟨hz, by simpa using e⟩, rfl⟩)
      · exact .inr h

theorem foldl_step_ok (hk : ByKey eqf key) (hm : MergeOk key copy mrg P) (l : List α) {s : List α}
    (hs : UniqueNames key s) (hP : ∀ x ∈ s, P x) (hl : ∀ x ∈ l, P x) :
    UniqueNames key (l.foldl (docUnionStep eqf copy mrg) s) ∧
    (∀ x ∈ l.foldl (docUnionStep eqf copy mrg) s, P x) ∧
    ∀ k, k ∈ (l.foldl (docUnionStep eqf copy mrg) s).map key ↔ k ∈ s.map key ∨ k ∈ l.map key := by
  induction l generalizing s with
  | nil => simpa using ⟨hs, hP⟩
  | cons y ys ih =>
    obtain ⟨h1, h2, h3⟩ := docUnionStep_ok hk hm hs hP (hl y (by simp))
    obtain ⟨k1, k2, k3⟩ := ih h1 h2 fun x hx => hl x (by simp [hx])
    refine ⟨k1, k2, fun k => ?_⟩
    rw [List.foldl_cons, k3, h3]
    simp only [List.map_cons, List.mem_cons]
    rw [or_assoc]

/-- The entries of the union for a second operand with distinct ids. -/
theorem foldl_step_eq (hk : ByKey eqf key) (hm : MergeOk key copy mrg P) (l : List α) {s : List α}
    (hs : UniqueNames key s) (hP : ∀ x ∈ s, P x) (hl : ∀ x ∈ l, P x) (hu : UniqueNames key l) :
    l.foldl (docUnionStep eqf copy mrg) s =
      (s.filter fun x => key x ∉ l.map key) ++ l.map (merged key copy mrg s) := by
  induction l generalizing s with
  | nil => exact (by simpa using (List.filter_eq_self.2 fun _ _ => rfl).symm)
  | cons y ys ih =>
    have hu' := List.nodup_cons.1 hu
    have hy := hl y (by simp)
    obtain ⟨h1, h2, -⟩ := docUnionStep_ok hk hm hs hP hy
    have hok := merged_ok hm hP hy
    rw [List.foldl_cons, ih h1 h2 (fun x hx => hl x (by simp [hx])) hu'.2,
      docUnionStep_eq hk hm hs hP hy]
    rw [List.filter_append, List.filter_filter, List.filter_cons_of_pos (by rw [hok.2]; simpa using hu'.1)]
    simp only [List.filter_nil, List.append_assoc, List.singleton_append, List.map_cons]
    congr 1
    · apply List.filter_congr
      intro x _
      simp only [List.mem_cons, not_or, ← Bool.decide_and, decide_eq_decide]
      exact and_comm
    · congr 1
      apply List.map_congr_left
      intro z hz
      have hzy : key z ≠ key y := fun e => hu'.1 (by rw [← e]; exact List.mem_map.2 ⟨z, hz, rfl⟩)
      unfold merged
      have : (List.filter (fun x => decide (key x ≠ key y)) s ++
          [match s.find? fun x => decide (key x = key y) with | some x => mrg x y | none => copy y]).find?
            (fun x => decide (key x = key z)) = s.find? fun x => decide (key x = key z) := by
        rw [List.find?_append, List.find?_filter]
        have e1 : (fun a => decide (decide (key a ≠ key y) = true ∧ decide (key a = key z) = true)) =
            fun a => decide (key a = key z) := by
          funext a
          rw [decide_eq_decide]
          simp only [decide_eq_true_iff]
          exact ⟨fun h => h.2, fun h => ⟨fun e => hzy (h.symm.trans e), h⟩⟩
        rw [e1]
        have e2 := hok.2
        unfold merged at e2
        rw [List.find?_cons_of_neg (by rw [e2]; simpa using fun e => hzy e.symm)]
        simp
      rw [this]

theorem docSet_eq (copy : α → α) (l : List α) :
    docSet eqf copy l = (l.map copy).foldl (add eqf) [] := by
  rw [docSet, List.foldl_map]

theorem uniq_names (hk : ByKey eqf key) {s : List α} : Uniq eqf s ↔ UniqueNames key s := by
  unfold Uniq UniqueNames
  rw [List.nodup_iff_pairwise_ne, List.pairwise_map]
  constructor <;> intro h <;> refine h.imp ?_
  · intro a b h1 h2
    rw [(hk a b).2 h2] at h1; simp at h1
  · intro a b h1
    cases h2 : eqf a b with
    | false => rfl
    | true => exact absurd ((hk a b).1 h2) h1

theorem foldl_add_mem (l s : List α) {x : α} (h : x ∈ l.foldl (add eqf) s) : x ∈ s ∨ x ∈ l := by
  induction l generalizing s with
  | nil => exact .inl h
  | cons y ys ih =>
    rcases ih _ h with h | h
    · rcases add_mem_cases _ _ _ _ h with h | h
      · exact .inl h
      · exact .inr (by simp [h])
    · exact .inr (by simp [h])

theorem foldl_add_keys (hk : ByKey eqf key) (l : List α) (k : κ) :
    k ∈ (l.foldl (add eqf) []).map key ↔ k ∈ l.map key := by
  constructor
  · intro h
    obtain ⟨x, hx, rfl⟩ := List.mem_map.1 h
    rcases foldl_add_mem _ _ hx with h | h
    · simp at h
    · exact List.mem_map.2 ⟨x, h, rfl⟩
  · intro h
    obtain ⟨x, hx, rfl⟩ := List.mem_map.1 h
    have := (mem_foldl_add hk l x).trans (decide_eq_true (List.mem_map.2 ⟨x, hx, rfl⟩))
    obtain ⟨z, hz, e⟩ := (mem_iff _ _ _).1 this
    exact List.mem_map.2 ⟨z, hz, (hk _ _).1 e⟩

theorem docSet_ok (hk : ByKey eqf key) (hm : MergeOk key copy mrg P) {l : List α}
    (hl : ∀ x ∈ l, P x) : UniqueNames key (docSet eqf copy l) ∧ (∀ x ∈ docSet eqf copy l, P x) ∧
    ∀ k, k ∈ (docSet eqf copy l).map key ↔ k ∈ l.map key := by
  rw [docSet_eq]
  refine ⟨?_, ?_, ?_⟩
  · rw [← uniq_names hk]; exact foldl_add_uniq _ _ List.Pairwise.nil
  · intro x hx
    rcases foldl_add_mem _ _ hx with h | h
    · simp at h
    · obtain ⟨z, hz, rfl⟩ := List.mem_map.1 h
      exact hm.copies _ (hl z hz)
  · intro k
    rw [foldl_add_keys hk, List.map_map]
    have : List.map (key ∘ copy) l = l.map key :=
      List.map_congr_left fun x hx => hm.copy_key x (hl x hx)
    rw [this]

theorem docSet_unique (hk : ByKey eqf key) (hm : MergeOk key copy mrg P) {l : List α}
    (hl : ∀ x ∈ l, P x) (hu : UniqueNames key l) : docSet eqf copy l = l.map copy := by
  rw [docSet_eq]
  have h : UniqueNames key (l.map copy) := by
    unfold UniqueNames
    rw [List.map_map]
    have : List.map (key ∘ copy) l = l.map key :=
      List.map_congr_left fun x hx => hm.copy_key x (hl x hx)
    rw [this]; exact hu
  have := foldl_add_of_pairwise (eqf := eqf) (l.map copy) [] (by simpa using (uniq_names hk).2 h)
  simpa using this

/-- The union lists every id of the operands once. -/
theorem docUnionList_ok (hk : ByKey eqf key) (hm : MergeOk key copy mrg P) {l1 l2 : List α}
    (h1 : ∀ x ∈ l1, P x) (h2 : ∀ x ∈ l2, P x) :
    UniqueNames key (docUnionList eqf copy mrg l1 l2) ∧
    (∀ x ∈ docUnionList eqf copy mrg l1 l2, P x) ∧
    ∀ k, k ∈ (docUnionList eqf copy mrg l1 l2).map key ↔ k ∈ l1.map key ∨ k ∈ l2.map key := by
  obtain ⟨a, b, c⟩ := docSet_ok hk hm h1
  obtain ⟨d, e, f⟩ := foldl_step_ok hk hm l2 a b h2
  exact ⟨d, e, fun k => by rw [docUnionList, f, c]⟩

/-- The entries of the union for operands with distinct ids. -/
theorem docUnionList_eq (hk : ByKey eqf key) (hm : MergeOk key copy mrg P) {l1 l2 : List α}
    (h1 : ∀ x ∈ l1, P x) (h2 : ∀ x ∈ l2, P x) (u1 : UniqueNames key l1) (u2 : UniqueNames key l2) :
    docUnionList eqf copy mrg l1 l2 = ((l1.filter fun x => key x ∉ l2.map key).map copy) ++
      l2.map fun y => match l1.find? fun x => key x = key y with
        | some x => mrg (copy x) y
        | none => copy y := by
  obtain ⟨a, b, -⟩ := docSet_ok hk hm h1
  rw [docUnionList, foldl_step_eq hk hm l2 a b h2 u2, docSet_unique hk hm h1 u1]
  congr 1
  · rw [List.filter_map]
    congr 1
    apply List.filter_congr
    intro x hx
    simp only [Function.comp]
    rw [hm.copy_key x (h1 x hx)]
  · apply List.map_congr_left
    intro y _
    unfold merged
    have : (l1.map copy).find? (fun x => decide (key x = key y)) =
        (l1.find? fun x => decide (key x = key y)).map copy := by
      rw [List.find?_map]
      clear u1 a b
      congr 1
      induction l1 with
      | nil => rfl
      | cons z zs ih =>
        simp only [List.find?_cons, Function.comp]
        rw [hm.copy_key z (h1 z (by simp)), ih fun x hx => h1 x (by simp [hx])]
    rw [this]
    cases l1.find? (fun x => decide (key x = key y)) <;> rfl

/-- The loop of the intersection: one entry for each entry of the second operand whose id the first
operand has, in order. -/
theorem docIntersectList_ok (hk : ByKey eqf key) {common : α → α → Res α} {l1 l2 : List α}
    (hc : ∀ x ∈ l1, ∀ y ∈ l2, key x = key y → ∃ r, common y x = .ok r) :
    ∃ l, docIntersectList eqf common l1 l2 = .ok l ∧
      l.length = (l2.filter fun y => key y ∈ l1.map key).length ∧
      ∀ (i : Nat) (y : α), (l2.filter fun y => key y ∈ l1.map key)[i]? = some y →
        ∃ x r, l1.find? (fun x => key x = key y) = some x ∧ common y x = .ok r ∧ l[i]? = some r := by
  have htr : ∀ a b c, eqf a b = true → eqf b c = true → eqf a c = true :=
    fun a b c h1 h2 => (hk _ _).2 (((hk _ _).1 h1).trans ((hk _ _).1 h2))
  have hfind : ∀ y, dataAt eqf (l1.foldl (add eqf) []) y = l1.find? fun x => key x = key y := by
    intro y
    rw [dataAt_or, find_foldl_add htr, List.nil_append]
    congr 1
    funext x
    rw [Bool.eq_iff_iff, hk, decide_eq_true_iff]
  have gen : ∀ (l2 : List α) (acc done : List α),
      (∀ x ∈ l1, ∀ y ∈ l2, key x = key y → ∃ r, common y x = .ok r) →
      acc.length = done.length →
      (∀ (i : Nat) (y : α), done[i]? = some y →
        ∃ x r, l1.find? (fun x => key x = key y) = some x ∧ common y x = .ok r ∧ acc[i]? = some r) →
      ∃ l, l2.foldlM (fun acc y =>
          match dataAt eqf (l1.foldl (add eqf) []) y with
          | some x => do return acc ++ [← common y x]
          | none => .ok acc) acc = Except.ok l ∧
        l.length = (done ++ l2.filter fun y => key y ∈ l1.map key).length ∧
        ∀ (i : Nat) (y : α), (done ++ l2.filter fun y => key y ∈ l1.map key)[i]? = some y →
          ∃ x r, l1.find? (fun x => key x = key y) = some x ∧ common y x = .ok r ∧
            l[i]? = some r := by
    intro l2
    induction l2 with
    | nil => intro acc done _ h1 h2; exact ⟨acc, rfl, by simpa using h1, by simpa using h2⟩
    | cons y ys ih =>
      intro acc done hcy h1 h2
      rw [List.foldlM_cons, hfind]
      cases hf : l1.find? (fun x => decide (key x = key y)) with
      | none =>
        have hny : key y ∉ l1.map key := by
          intro h
          obtain ⟨x, hx, e⟩ := List.mem_map.1 h
          have := List.find?_eq_none.1 hf x hx
          simp [e] at this
        rw [List.filter_cons_of_neg (by simpa using hny)]
        exact ih acc done (fun x hx z hz => hcy x hx z (by simp [hz])) h1 h2
      | some x =>
        have hx := List.mem_of_find?_eq_some hf
        have hxy : key x = key y := by simpa using List.find?_some hf
        have hyin : key y ∈ l1.map key := List.mem_map.2 ⟨x, hx, hxy⟩
        obtain ⟨r, hr⟩ := hcy x hx y (by simp) hxy
        rw [List.filter_cons_of_pos (by simpa using hyin)]
        obtain ⟨l, k1, k2, k3⟩ := ih (acc ++ [r]) (done ++ [y])
          (fun x hx z hz => hcy x hx z (by simp [hz])) (by simp [h1]) (by
            intro i z hz
            rw [List.getElem?_append] at hz
            split at hz
            · rename_i hi
              obtain ⟨x', r', e1, e2, e3⟩ := h2 i z hz
              exact ⟨x', r', e1, e2, by rw [List.getElem?_append_left (by omega)]; exact e3⟩
            · rename_i hi
              cases hj : i - done.length with
              | succ j => rw [hj] at hz; simp at hz
              | zero =>
                rw [hj] at hz; simp at hz; subst hz
                refine ⟨x, r, hf, hr, ?_⟩
                have : i = acc.length := by omega
                subst this; simp)
        refine ⟨l, ?_, by simpa using k2, by simpa using k3⟩
        simp only [hr, bind, Except.bind, pure, Except.pure]
        exact k1
  obtain ⟨l, h1, h2, h3⟩ := gen l2 [] [] hc rfl (by simp)
  exact ⟨l, h1, by simpa using h2, by simpa using h3⟩

/-- Every entry of an intersection comes from two entries. -/
theorem docIntersectList_mem {common : α → α → Res α} {l1 l2 l : List α}
    (h : docIntersectList eqf common l1 l2 = .ok l) :
    ∀ r ∈ l, ∃ x ∈ l1, ∃ y ∈ l2, common y x = .ok r := by
  have gen : ∀ (l2' : List α) (acc l : List α), (∀ y ∈ l2', y ∈ l2) →
      (∀ r ∈ acc, ∃ x ∈ l1, ∃ y ∈ l2, common y x = .ok r) →
      l2'.foldlM (fun acc y =>
          match dataAt eqf (l1.foldl (add eqf) []) y with
          | some x => do return acc ++ [← common y x]
          | none => .ok acc) acc = Except.ok l →
      ∀ r ∈ l, ∃ x ∈ l1, ∃ y ∈ l2, common y x = .ok r := by
    intro l2'
    induction l2' with
    | nil => intro acc l _ h1 h2; simp [pure, Except.pure] at h2; subst h2; exact h1
    | cons y ys ih =>
      intro acc l hsub h1 h2
      rw [List.foldlM_cons] at h2
      cases hd : dataAt eqf (l1.foldl (add eqf) []) y with
      | none =>
        rw [hd] at h2
        exact ih acc l (fun z hz => hsub z (by simp [hz])) h1 h2
      | some x =>
        rw [hd] at h2
        simp only [bind, Except.bind, pure, Except.pure] at h2
        cases hc : common y x with
        | error f => rw [hc] at h2; simp at h2
        | ok r =>
          rw [hc] at h2
          refine ih (acc ++ [r]) l (fun z hz => hsub z (by simp [hz])) ?_ h2
          intro r' hr'
          rcases List.mem_append.1 hr' with hr' | hr'
          · exact h1 r' hr'
          · rw [List.mem_singleton.1 hr']
            have hx : x ∈ l1.foldl (add eqf) [] := by
              rw [dataAt_or] at hd
              exact List.mem_of_find?_eq_some hd
            rcases foldl_add_mem _ _ hx with hx | hx
            · simp at hx
            · exact ⟨x, hx, y, hsub y (by simp), hc⟩
  exact gen l2 [] l (fun _ h => h) (by simp) h

/-- The filtering loop. -/
theorem docFilterList_ok {arches : α → Res (Option (List CStr))} {filter : α → Res α}
    {req : List CStr} {l : List α} (keep : α → Bool)
    (ha : ∀ x ∈ l, ∃ a, arches x = .ok a ∧ archKeep req a = keep x)
    (hf : ∀ x ∈ l, keep x = true → ∃ r, filter x = .ok r) :
    ∃ l', docFilterList arches filter req l = .ok l' ∧
      l'.length = (l.filter keep).length ∧
      ∀ (i : Nat) (x : α), (l.filter keep)[i]? = some x → ∃ r, filter x = .ok r ∧ l'[i]? = some r := by
  have gen : ∀ (l : List α) (acc done : List α),
      (∀ x ∈ l, ∃ a, arches x = .ok a ∧ archKeep req a = keep x) →
      (∀ x ∈ l, keep x = true → ∃ r, filter x = .ok r) →
      acc.length = done.length →
      (∀ (i : Nat) (x : α), done[i]? = some x → ∃ r, filter x = .ok r ∧ acc[i]? = some r) →
      ∃ l', l.foldlM (fun acc x => do
          let a ← arches x
          if archKeep req a then return acc ++ [← filter x] else return acc) acc = Except.ok l' ∧
        l'.length = (done ++ l.filter keep).length ∧
        ∀ (i : Nat) (x : α), (done ++ l.filter keep)[i]? = some x →
          ∃ r, filter x = .ok r ∧ l'[i]? = some r := by
    intro l
    induction l with
    | nil => intro acc done _ _ h1 h2; exact ⟨acc, rfl, by simpa using h1, by simpa using h2⟩
    | cons y ys ih =>
      intro acc done ha hf h1 h2
      obtain ⟨a, ha1, ha2⟩ := ha y (by simp)
      rw [List.foldlM_cons]
      simp only [ha1, ha2, bind, Except.bind, pure, Except.pure]
      cases hky : keep y with
      | false =>
        rw [List.filter_cons_of_neg (by simp [hky])]
        simp only [Bool.false_eq_true, if_false]
        exact ih acc done (fun x hx => ha x (by simp [hx])) (fun x hx => hf x (by simp [hx])) h1 h2
      | true =>
        obtain ⟨r, hr⟩ := hf y (by simp) hky
        rw [List.filter_cons_of_pos hky]
        obtain ⟨l', k1, k2, k3⟩ := ih (acc ++ [r]) (done ++ [y])
          (fun x hx => ha x (by simp [hx])) (fun x hx => hf x (by simp [hx])) (by simp [h1]) (by
            intro i z hz
            rw [List.getElem?_append] at hz
            split at hz
            · rename_i hi
              obtain ⟨r', e2, e3⟩ := h2 i z hz
              exact ⟨r', e2, by rw [List.getElem?_append_left (by omega)]; exact e3⟩
            · rename_i hi
              cases hj : i - done.length with
              | succ j => rw [hj] at hz; simp at hz
              | zero =>
                rw [hj] at hz; simp at hz; subst hz
                refine ⟨r, hr, ?_⟩
                have : i = acc.length := by omega
                subst this; simp)
        refine ⟨l', ?_, by simpa using k2, by simpa using k3⟩
        simp only [hr, if_true]
        exact k1
  obtain ⟨l', h1, h2, h3⟩ := gen l [] [] ha hf rfl (by simp)
  exact ⟨l', h1, by simpa using h2, by simpa using h3⟩

theorem docFilterList_mem {arches : α → Res (Option (List CStr))} {filter : α → Res α}
    {req : List CStr} {l l' : List α} (h : docFilterList arches filter req l = .ok l') :
    ∀ r ∈ l', ∃ x ∈ l, filter x = .ok r ∧ ∃ a, arches x = .ok a ∧ archKeep req a = true := by
  have gen : ∀ (l2 : List α) (acc l' : List α), (∀ y ∈ l2, y ∈ l) →
      (∀ r ∈ acc, ∃ x ∈ l, filter x = .ok r ∧ ∃ a, arches x = .ok a ∧ archKeep req a = true) →
      l2.foldlM (fun acc x => do
          let a ← arches x
          if archKeep req a then return acc ++ [← filter x] else return acc) acc = Except.ok l' →
      ∀ r ∈ l', ∃ x ∈ l, filter x = .ok r ∧ ∃ a, arches x = .ok a ∧ archKeep req a = true := by
    intro l2
    induction l2 with
    | nil => intro acc l' _ h1 h2; simp [pure, Except.pure] at h2; subst h2; exact h1
    | cons y ys ih =>
      intro acc l' hsub h1 h2
      rw [List.foldlM_cons] at h2
      simp only [bind, Except.bind, pure, Except.pure] at h2
      cases ha : arches y with
      | error f => rw [ha] at h2; simp at h2
      | ok a =>
        rw [ha] at h2
        simp only at h2
        by_cases hk : archKeep req a = true
        · rw [if_pos hk] at h2
          cases hc : filter y with
          | error f => rw [hc] at h2; simp at h2
          | ok r =>
            rw [hc] at h2
            refine ih (acc ++ [r]) l' (fun z hz => hsub z (by simp [hz])) ?_ h2
            intro r' hr'
            rcases List.mem_append.1 hr' with hr' | hr'
            · exact h1 r' hr'
            · rw [List.mem_singleton.1 hr']
              exact ⟨y, hsub y (by simp), hc, a, ha, hk⟩
        · rw [if_neg hk] at h2
          exact ih acc l' (fun z hz => hsub z (by simp [hz])) h1 h2
  exact gen l [] l' (fun _ h => h) (by simp) h

/-- The query loop keeps the entries for which the test says so. -/
theorem queryLoop_eq {f : α → Res Bool} {l : List α} (p : α → Bool)
    (hf : ∀ x ∈ l, f x = .ok (p x)) : queryLoop f l = .ok (l.filter p) := by
  have gen : ∀ (l acc : List α), (∀ x ∈ l, f x = .ok (p x)) →
      l.foldlM (fun acc x => do if ← f x then return acc ++ [x] else return acc) acc =
        Except.ok (acc ++ l.filter p) := by
    intro l
    induction l with
    | nil => intro acc _; simp [pure, Except.pure]
    | cons y ys ih =>
      intro acc hf
      rw [List.foldlM_cons]
      simp only [hf y (by simp), bind, Except.bind, pure, Except.pure]
      have := fun acc => ih acc fun x hx => hf x (by simp [hx])
      cases hp : p y with
      | true => simp only [if_true]; rw [List.filter_cons_of_pos hp]; exact (this _).trans (by simp)
      | false => simp only [Bool.false_eq_true, if_false]; rw [List.filter_cons_of_neg (by simp [hp])]; exact this _
  have := gen l [] hf
  rw [List.nil_append] at this
  exact this

end lists

/-! ## The three kinds of entries -/

/-- The id of an entry, as its property dictionary has it. -/
theorem idcmp_byKey {α : Type} (props : α → RTree PVal) :
    ByKey (fun a b => objCmp PVal.cmp ((props a).get b!"id") ((props b).get b!"id"))
      (fun g => (props g).get b!"id") := fun _ _ => objCmp_iff PVal.cmp_iff _ _

theorem Group.idcmp_iff : ByKey Group.idcmp (fun g => g.props.get b!"id") :=
  idcmp_byKey Group.props
theorem Category.idcmp_iff : ByKey Category.idcmp (fun g => g.props.get b!"id") :=
  idcmp_byKey Category.props
theorem Env.idcmp_iff : ByKey Env.idcmp (fun g => g.props.get b!"id") :=
  idcmp_byKey Env.props

theorem groupMerge : MergeOk (fun g : Group => g.props.get b!"id") Group.copy (Group.union lt)
    (GroupBuilt lt) where
  copies _ h := .copy h
  copy_key _ h := copy_same (groupBuilt_inv h).props.reachable _
  merges _ _ h h' := .union h h'
  mrg_key x y h h' e := by
    show (x.props.union lt PVal.copy y.props).get _ = _
    rw [union_get (groupBuilt_inv h).props.reachable (groupBuilt_inv h').props.reachable, e]
    cases y.props.get b!"id" <;> rfl

theorem categoryMerge : MergeOk (fun g : Category => g.props.get b!"id") Category.copy
    (Category.union lt) (CategoryBuilt lt) where
  copies _ h := .copy h
  copy_key _ h := copy_same (categoryBuilt_inv h).props.reachable _
  merges _ _ h h' := .union h h'
  mrg_key x y h h' e := by
    show (x.props.union lt PVal.copy y.props).get _ = _
    rw [union_get (categoryBuilt_inv h).props.reachable (categoryBuilt_inv h').props.reachable, e]
    cases y.props.get b!"id" <;> rfl

theorem envMerge : MergeOk (fun g : Env => g.props.get b!"id") Env.copy (Env.union lt)
    (EnvBuilt lt) where
  copies _ h := .copy h
  copy_key _ h := copy_same (envBuilt_inv h).props.reachable _
  merges _ _ h h' := .union h h'
  mrg_key x y h h' e := by
    show (x.props.union lt PVal.copy y.props).get _ = _
    rw [union_get (envBuilt_inv h).props.reachable (envBuilt_inv h').props.reachable, e]
    cases y.props.get b!"id" <;> rfl

/-! ## Union, intersection and filtering of documents -/

/-- What the union shows. -/
def unionContent (lt : UInt8 → UInt8 → Bool) (a b : DocContent) : DocContent :=
  ⟨docUnionList Group.idcmp Group.copy (Group.union lt) a.groups b.groups,
    docUnionList Category.idcmp Category.copy (Category.union lt) a.categories b.categories,
    docUnionList Env.idcmp Env.copy (Env.union lt) a.environments b.environments,
    a.langpacks.union lt PVal.copy b.langpacks, MTree.create, MTree.create⟩

theorem contents_built {d : Doc} (h : ObjsInv lt d.objects) :
    (∀ g ∈ (content d).groups, GroupBuilt lt g) ∧
    (∀ g ∈ (content d).categories, CategoryBuilt lt g) ∧
    (∀ g ∈ (content d).environments, EnvBuilt lt g) ∧ LangBuilt lt (content d).langpacks ∧
    MReach (content d).blacklist ∧ MReach (content d).whiteout :=
  ⟨view_ok groupsOk h, view_ok categoriesOk h, view_ok environmentsOk h, view_ok langpacksOk h,
    view_ok blacklistOk h, view_ok whiteoutOk h⟩

theorem rest_make (e : CStr) (d : Doc) (h : rest d = rest (Doc.make (some e))) :
    d.encoding = some e := congrArg Prod.fst h

theorem make_content (e : CStr) : ObjsInv lt (Doc.make (some e)).objects ∧
    content (Doc.make (some e)) = ⟨[], [], [], RTree.create, MTree.create, MTree.create⟩ :=
  content_create (args := some (some e)) rfl

theorem rest_encoding {d d' : Doc} (h : rest d' = rest d) : d'.encoding = d.encoding :=
  congrArg Prod.fst h

theorem union_ok {a b : Doc} (ha : ObjsInv lt a.objects) (hb : ObjsInv lt b.objects) {e : CStr}
    (he : a.encoding = some e) : ∃ d, a.union lt b = .ok d ∧ ObjsInv lt d.objects ∧
      content d = unionContent lt (content a) (content b) ∧ rest d = rest (Doc.make (some e)) := by
  obtain ⟨a1, x1, i1, c1, r1⟩ := groupsAt.getObj ha
  obtain ⟨a2, x2, i2, c2, r2⟩ := categoriesAt.getObj i1
  obtain ⟨a3, x3, i3, c3, r3⟩ := environmentsAt.getObj i2
  obtain ⟨b1, y1, j1, k1, s1⟩ := groupsAt.getObj hb
  obtain ⟨b2, y2, j2, k2, s2⟩ := categoriesAt.getObj j1
  obtain ⟨b3, y3, j3, k3, s3⟩ := environmentsAt.getObj j2
  obtain ⟨a4, x4, i4, -, -⟩ := langpacksAt.getObj i3
  obtain ⟨b4, y4, j4, -, -⟩ := langpacksAt.getObj j3
  have he3 : a3.encoding = some e := by
    rw [rest_encoding r3, rest_encoding r2, rest_encoding r1, he]
  have ca := contents_built ha
  have cb := contents_built hb
  obtain ⟨m1, m2⟩ := make_content (lt := lt) e
  obtain ⟨d1, z1, n1, p1, q1⟩ := groupsAt.addAll
    (docUnionList Group.idcmp Group.copy (Group.union lt) (content a).groups (content b).groups) m1
    (docUnionList_ok Group.idcmp_iff groupMerge ca.1 cb.1).2.1
  obtain ⟨d2, z2, n2, p2, q2⟩ := categoriesAt.addAll
    (docUnionList Category.idcmp Category.copy (Category.union lt) (content a).categories
      (content b).categories) n1
    (docUnionList_ok Category.idcmp_iff categoryMerge ca.2.1 cb.2.1).2.1
  obtain ⟨d3, z3, n3, p3, q3⟩ := environmentsAt.addAll
    (docUnionList Env.idcmp Env.copy (Env.union lt) (content a).environments
      (content b).environments) n2
    (docUnionList_ok Env.idcmp_iff envMerge ca.2.2.1 cb.2.2.1).2.1
  rw [c1] at x2; rw [c2, c1] at x3; rw [c3, c2, c1] at x4
  rw [k1] at y2; rw [k2, k1] at y3; rw [k3, k2, k1] at y4
  refine ⟨d3.setObj lt langpacksSlot
    (some ((content a).langpacks.union lt PVal.copy (content b).langpacks)), ?_, ?_, ?_, ?_⟩
  · simp only [Doc.union, x1, x2, x3, he3, y1, y2, y3, x4, y4, Doc.create, z1, z2, z3, bind,
      Except.bind, pure, Except.pure]
  · refine inv_set langpacksOk n3 _ fun x hx => ?_
    cases hx
    exact .union ca.2.2.2.1 cb.2.2.2.1
  · rw [langpacksAt.set n3, p3, p2, p1, m2]
    simp [unionContent]
  · show rest d3 = _
    rw [q3, q2, q1]

theorem intersect_built {g h r : Group} (hg : GroupBuilt lt g) (hh : GroupBuilt lt h)
    (e : g.intersect lt h = .ok r) : GroupBuilt lt r := .intersect hg hh e

theorem addThree {e : CStr} {lg : List Group} {lk : List Category} {le : List Env}
    (hg : ∀ g ∈ lg, GroupBuilt lt g) (hk : ∀ g ∈ lk, CategoryBuilt lt g)
    (he : ∀ g ∈ le, EnvBuilt lt g) : ∃ d1 d2 d3,
    (Doc.make (some e)).addAll lt groupsSlot lg = .ok d1 ∧
    d1.addAll lt categoriesSlot lk = .ok d2 ∧ d2.addAll lt environmentsSlot le = .ok d3 ∧
    ObjsInv lt d3.objects ∧ content d3 = ⟨lg, lk, le, RTree.create, MTree.create, MTree.create⟩ ∧
    rest d3 = rest (Doc.make (some e)) := by
  obtain ⟨m1, m2⟩ := make_content (lt := lt) e
  obtain ⟨d1, z1, n1, p1, q1⟩ := groupsAt.addAll lg m1 hg
  obtain ⟨d2, z2, n2, p2, q2⟩ := categoriesAt.addAll lk n1 hk
  obtain ⟨d3, z3, n3, p3, q3⟩ := environmentsAt.addAll le n2 he
  exact ⟨d1, d2, d3, z1, z2, z3, n3, by rw [p3, p2, p1, m2]; simp, by rw [q3, q2, q1]⟩

theorem intersectGroups_built {l1 l2 l : List Group} (h1 : ∀ g ∈ l1, GroupBuilt lt g)
    (h2 : ∀ g ∈ l2, GroupBuilt lt g)
    (h : docIntersectList Group.idcmp (Group.intersect lt) l1 l2 = .ok l) :
    ∀ g ∈ l, GroupBuilt lt g := by
  intro g hg
  obtain ⟨x, hx, y, hy, e⟩ := docIntersectList_mem h g hg
  exact .intersect (h2 y hy) (h1 x hx) e

theorem intersectCategories_built {l1 l2 l : List Category} (h1 : ∀ g ∈ l1, CategoryBuilt lt g)
    (h2 : ∀ g ∈ l2, CategoryBuilt lt g)
    (h : docIntersectList Category.idcmp (Category.intersect lt) l1 l2 = .ok l) :
    ∀ g ∈ l, CategoryBuilt lt g := by
  intro g hg
  obtain ⟨x, hx, y, hy, e⟩ := docIntersectList_mem h g hg
  exact .intersect (h2 y hy) (h1 x hx) e

theorem intersectEnvs_built {l1 l2 l : List Env} (h1 : ∀ g ∈ l1, EnvBuilt lt g)
    (h2 : ∀ g ∈ l2, EnvBuilt lt g)
    (h : docIntersectList Env.idcmp (Env.intersect lt) l1 l2 = .ok l) :
    ∀ g ∈ l, EnvBuilt lt g := by
  intro g hg
  obtain ⟨x, hx, y, hy, e⟩ := docIntersectList_mem h g hg
  exact .intersect (h2 y hy) (h1 x hx) e

/-- The intersection succeeds exactly if the first document has an encoding and the three loops
succeed. -/
theorem intersect_ok {a b : Doc} (ha : ObjsInv lt a.objects) (hb : ObjsInv lt b.objects) {e : CStr}
    (he : a.encoding = some e) {lg : List Group} {lk : List Category} {le : List Env}
    (h1 : docIntersectList Group.idcmp (Group.intersect lt) (content a).groups (content b).groups =
      .ok lg)
    (h2 : docIntersectList Category.idcmp (Category.intersect lt) (content a).categories
      (content b).categories = .ok lk)
    (h3 : docIntersectList Env.idcmp (Env.intersect lt) (content a).environments
      (content b).environments = .ok le) :
    ∃ d, a.intersect lt b = .ok d ∧ ObjsInv lt d.objects ∧
      content d = ⟨lg, lk, le, RTree.create, MTree.create, MTree.create⟩ ∧
      rest d = rest (Doc.make (some e)) := by
  obtain ⟨a1, x1, i1, c1, r1⟩ := groupsAt.getObj ha
  obtain ⟨a2, x2, i2, c2, r2⟩ := categoriesAt.getObj i1
  obtain ⟨a3, x3, i3, c3, r3⟩ := environmentsAt.getObj i2
  obtain ⟨b1, y1, j1, k1, s1⟩ := groupsAt.getObj hb
  obtain ⟨b2, y2, j2, k2, s2⟩ := categoriesAt.getObj j1
  obtain ⟨b3, y3, j3, k3, s3⟩ := environmentsAt.getObj j2
  have he3 : a3.encoding = some e := by
    rw [rest_encoding r3, rest_encoding r2, rest_encoding r1, he]
  have ca := contents_built ha
  have cb := contents_built hb
  rw [c1] at x2; rw [c2, c1] at x3
  rw [k1] at y2; rw [k2, k1] at y3
  obtain ⟨d1, d2, d3, z1, z2, z3, n, p, q⟩ := addThree (e := e)
    (intersectGroups_built ca.1 cb.1 h1) (intersectCategories_built ca.2.1 cb.2.1 h2)
    (intersectEnvs_built ca.2.2.1 cb.2.2.1 h3)
  refine ⟨d3, ?_, n, p, q⟩
  simp only [Doc.intersect, x1, x2, x3, he3, y1, y2, y3, Doc.create, h1, h2, h3, z1, z2, z3, bind,
      Except.bind]

theorem intersect_inv {a b d : Doc} (ha : ObjsInv lt a.objects) (hb : ObjsInv lt b.objects)
    (h : a.intersect lt b = .ok d) : ∃ e lg lk le, a.encoding = some e ∧
    docIntersectList Group.idcmp (Group.intersect lt) (content a).groups (content b).groups =
      .ok lg ∧
    docIntersectList Category.idcmp (Category.intersect lt) (content a).categories
      (content b).categories = .ok lk ∧
    docIntersectList Env.idcmp (Env.intersect lt) (content a).environments
      (content b).environments = .ok le := by
  obtain ⟨a1, x1, i1, c1, r1⟩ := groupsAt.getObj ha
  obtain ⟨a2, x2, i2, c2, r2⟩ := categoriesAt.getObj i1
  obtain ⟨a3, x3, i3, c3, r3⟩ := environmentsAt.getObj i2
  obtain ⟨b1, y1, j1, k1, s1⟩ := groupsAt.getObj hb
  obtain ⟨b2, y2, j2, k2, s2⟩ := categoriesAt.getObj j1
  obtain ⟨b3, y3, j3, k3, s3⟩ := environmentsAt.getObj j2
  have he3 : a3.encoding = a.encoding := by
    rw [rest_encoding r3, rest_encoding r2, rest_encoding r1]
  have ca := contents_built ha
  have cb := contents_built hb
  rw [c1] at x2; rw [c2, c1] at x3
  rw [k1] at y2; rw [k2, k1] at y3
  simp only [Doc.intersect, x1, x2, x3, he3, y1, y2, y3, bind, Except.bind] at h
  cases he : a.encoding with
  | none => rw [he] at h; simp [Doc.create] at h
  | some e =>
    rw [he] at h
    simp only [Doc.create] at h
    cases h1 : docIntersectList Group.idcmp (Group.intersect lt) (content a).groups
        (content b).groups with
    | error f => rw [h1] at h; simp at h
    | ok lg =>
      rw [h1] at h
      obtain ⟨d1, d2, d3, z1, -⟩ := addThree (lt := lt) (e := e) (lk := []) (le := [])
        (intersectGroups_built ca.1 cb.1 h1) (by simp) (by simp)
      simp only [z1] at h
      cases h2 : docIntersectList Category.idcmp (Category.intersect lt) (content a).categories
          (content b).categories with
      | error f => rw [h2] at h; simp at h
      | ok lk =>
        rw [h2] at h
        obtain ⟨d1', d2, d3, z1', z2, -⟩ := addThree (lt := lt) (e := e) (le := [])
          (intersectGroups_built ca.1 cb.1 h1) (intersectCategories_built ca.2.1 cb.2.1 h2) (by simp)
        rw [z1] at z1'; cases z1'
        simp only [z2] at h
        cases h3 : docIntersectList Env.idcmp (Env.intersect lt) (content a).environments
            (content b).environments with
        | error f => rw [h3] at h; simp at h
        | ok le => exact ⟨e, lg, lk, le, rfl, rfl, rfl, rfl⟩

/-- The lists of a filtered document. -/
def filterG (req : List CStr) (l : List Group) : Res (List Group) :=
  docFilterList (fun c => getArchesProp c.props) (fun c => c.archFilter req) req l
def filterK (req : List CStr) (l : List Category) : Res (List Category) :=
  docFilterList (fun c => getArchesProp c.props) (fun c => c.archFilter req) req l
def filterE (req : List CStr) (l : List Env) : Res (List Env) :=
  docFilterList (fun c => getArchesProp c.props) (fun c => c.archFilter req) req l

theorem filterG_built {req : List CStr} {l l' : List Group} (h : ∀ g ∈ l, GroupBuilt lt g)
    (hf : filterG req l = .ok l') : ∀ g ∈ l', GroupBuilt lt g := by
  intro g hg
  obtain ⟨x, hx, e, -⟩ := docFilterList_mem hf g hg
  exact .archFilter _ (h x hx) e
theorem filterK_built {req : List CStr} {l l' : List Category} (h : ∀ g ∈ l, CategoryBuilt lt g)
    (hf : filterK req l = .ok l') : ∀ g ∈ l', CategoryBuilt lt g := by
  intro g hg
  obtain ⟨x, hx, e, -⟩ := docFilterList_mem hf g hg
  exact .archFilter _ (h x hx) e
theorem filterE_built {req : List CStr} {l l' : List Env} (h : ∀ g ∈ l, EnvBuilt lt g)
    (hf : filterE req l = .ok l') : ∀ g ∈ l', EnvBuilt lt g := by
  intro g hg
  obtain ⟨x, hx, e, -⟩ := docFilterList_mem hf g hg
  exact .archFilter _ (h x hx) e

theorem addThree' {e : CStr} {lg : List Group} {lk : List Category} {le : List Env}
    (hg : ∀ g ∈ lg, GroupBuilt lt g) (hk : ∀ g ∈ lk, CategoryBuilt lt g)
    (he : ∀ g ∈ le, EnvBuilt lt g) : ∃ d1 d2 d3,
    (Doc.make (some e)).addAll lt categoriesSlot lk = .ok d1 ∧
    d1.addAll lt groupsSlot lg = .ok d2 ∧ d2.addAll lt environmentsSlot le = .ok d3 ∧
    ObjsInv lt d3.objects ∧ content d3 = ⟨lg, lk, le, RTree.create, MTree.create, MTree.create⟩ ∧
    rest d3 = rest (Doc.make (some e)) := by
  obtain ⟨m1, m2⟩ := make_content (lt := lt) e
  obtain ⟨d1, z1, n1, p1, q1⟩ := categoriesAt.addAll lk m1 hk
  obtain ⟨d2, z2, n2, p2, q2⟩ := groupsAt.addAll lg n1 hg
  obtain ⟨d3, z3, n3, p3, q3⟩ := environmentsAt.addAll le n2 he
  exact ⟨d1, d2, d3, z1, z2, z3, n3, by rw [p3, p2, p1, m2]; simp, by rw [q3, q2, q1]⟩

theorem archFilter_ok {a : Doc} (ha : ObjsInv lt a.objects) {e : CStr}
    (he : a.encoding = some e) {req : List CStr} {lg : List Group} {lk : List Category}
    {le : List Env} (h1 : filterG req (content a).groups = .ok lg)
    (h2 : filterK req (content a).categories = .ok lk)
    (h3 : filterE req (content a).environments = .ok le) :
    ∃ d, a.archFilter lt req = .ok d ∧ ObjsInv lt d.objects ∧
      content d = ⟨lg, lk, le, RTree.create, MTree.create, MTree.create⟩ ∧
      rest d = rest (Doc.make (some e)) := by
  obtain ⟨a1, x1, i1, c1, r1⟩ := categoriesAt.getObj ha
  obtain ⟨a2, x2, i2, c2, r2⟩ := groupsAt.getObj i1
  obtain ⟨a3, x3, i3, c3, r3⟩ := environmentsAt.getObj i2
  have ca := contents_built ha
  rw [c1] at x2; rw [c2, c1] at x3
  obtain ⟨d1, d2, d3, z1, z2, z3, n, p, q⟩ := addThree' (e := e)
    (filterG_built ca.1 h1) (filterK_built ca.2.1 h2) (filterE_built ca.2.2.1 h3)
  refine ⟨d3, ?_, n, p, q⟩
  unfold filterG at h1; unfold filterK at h2; unfold filterE at h3
  simp only [Doc.archFilter, x1, x2, x3, he, Doc.create, h1, h2, h3, z1, z2, z3, bind,
      Except.bind]

theorem archFilter_inv {a d : Doc} (ha : ObjsInv lt a.objects) {req : List CStr}
    (h : a.archFilter lt req = .ok d) : ∃ e lg lk le, a.encoding = some e ∧
    filterG req (content a).groups = .ok lg ∧ filterK req (content a).categories = .ok lk ∧
    filterE req (content a).environments = .ok le := by
  obtain ⟨a1, x1, i1, c1, r1⟩ := categoriesAt.getObj ha
  obtain ⟨a2, x2, i2, c2, r2⟩ := groupsAt.getObj i1
  obtain ⟨a3, x3, i3, c3, r3⟩ := environmentsAt.getObj i2
  have ca := contents_built ha
  rw [c1] at x2; rw [c2, c1] at x3
  simp only [Doc.archFilter, x1, x2, x3, bind, Except.bind] at h
  cases he : a.encoding with
  | none => rw [he] at h; simp [Doc.create] at h
  | some e =>
    rw [he] at h
    simp only [Doc.create] at h
    cases h2 : filterK req (content a).categories with
    | error f => unfold filterK at h2; rw [h2] at h; simp at h
    | ok lk =>
      obtain ⟨d1, d2, d3, z1, -⟩ := addThree' (lt := lt) (e := e) (lg := []) (le := [])
        (by simp) (filterK_built ca.2.1 h2) (by simp)
      unfold filterK at h2; rw [h2] at h
      simp only [z1] at h
      cases h1 : filterG req (content a).groups with
      | error f => unfold filterG at h1; rw [h1] at h; simp at h
      | ok lg =>
        obtain ⟨d1', d2, d3, z1', z2, -⟩ := addThree' (lt := lt) (e := e) (le := [])
          (filterG_built ca.1 h1) (filterK_built ca.2.1 h2) (by simp)
        unfold filterG at h1; rw [h1] at h
        rw [z1] at z1'; cases z1'
        simp only [z2] at h
        cases h3 : filterE req (content a).environments with
        | error f => unfold filterE at h3; rw [h3] at h; simp at h
        | ok le => exact ⟨e, lg, lk, le, rfl, rfl, rfl, rfl⟩

theorem copy_inv {a d : Doc} (h : a.copy = .ok d) :
    d.objects = a.objects.copy DocVal.copy ∧
    (∀ k v, (k, v) ∈ a.objects.pairs → v.copyFault = false) ∧
    rest d = (a.encoding, a.doctypeName, a.doctypeSysid, a.doctypePubid, false, false) := by
  unfold Doc.copy at h
  split at h
  · simp at h
  · rename_i hn
    simp only [Except.ok.injEq] at h
    subst h
    refine ⟨rfl, ?_, ?_⟩
    · intro k v hm
      cases hv : v.copyFault with
      | false => rfl
      | true => exact absurd (List.any_eq_true.2 ⟨_, hm, hv⟩) hn
    · have : ∀ o : Option CStr, objCopy CStr.copy o = o := by
        intro o; cases o <;> simp [objCopy, CStr.copy_eq]
      simp [rest]

/-- Every document reachable through the API satisfies the invariant. -/
theorem docBuilt_inv {d : Doc} (h : DocBuilt lt d) : ObjsInv lt d.objects := by
  induction h with
  | create args h => exact (content_create h).1
  | lang args s h => exact (content_lang h s).1
  | call c hc _ hr ih =>
    obtain ⟨d', h1, h2, -⟩ := call_ok ih c hc
    rw [hr] at h1; cases h1; exact h2
  | copy _ h ih => rw [(copy_inv h).1]; exact ih.copy
  | @union c1 c2 d _ _ h ih ih' =>
    cases he : c1.encoding with
    | none =>
      obtain ⟨a1, x1, i1, c1', r1⟩ := groupsAt.getObj ih
      obtain ⟨a2, x2, i2, c2', r2⟩ := categoriesAt.getObj i1
      obtain ⟨a3, x3, i3, c3', r3⟩ := environmentsAt.getObj i2
      have he3 : a3.encoding = none := by
        rw [rest_encoding r3, rest_encoding r2, rest_encoding r1, he]
      simp [Doc.union, x1, x2, x3, he3, Doc.create, bind, Except.bind] at h
    | some e =>
      obtain ⟨d', h1, h2, -⟩ := union_ok ih ih' he
      rw [h] at h1; cases h1; exact h2
  | intersect _ _ h ih ih' =>
    obtain ⟨e, lg, lk, le, he, h1, h2, h3⟩ := intersect_inv ih ih' h
    obtain ⟨d', h4, h5, -⟩ := intersect_ok ih ih' he h1 h2 h3
    rw [h] at h4; cases h4; exact h5
  | archFilter req _ h ih =>
    obtain ⟨e, lg, lk, le, he, h1, h2, h3⟩ := archFilter_inv ih h
    obtain ⟨d', h4, h5, -⟩ := archFilter_ok ih he h1 h2 h3
    rw [h] at h4; cases h4; exact h5
  | doctype _ _ _ _ ih => exact ih

/-- Calling a getter leaves a document reachable. -/
theorem Placed.getBuilt {α : Type} {s : Slot α} {C : α → Prop} {get : DocContent → α}
    {put : DocContent → α → DocContent} (hp : Placed lt s C get put) {d d' : Doc} {x : α}
    (hb : DocBuilt lt d) (h : d.getObj lt s = .ok (x, d')) : DocBuilt lt d' := by
  rcases get_cases hp.ok (docBuilt_inv hb) with ⟨h1, h2⟩ | h1
  · simp only [Doc.getObj, h1, Except.ok.injEq, Prod.mk.injEq] at h
    rw [← h.2]
    exact hp.built _ hb hp.ok.empty
  · simp only [Doc.getObj, h1, hp.ok.proj_inj, Except.ok.injEq, Prod.mk.injEq] at h
    rw [← h.2]; exact hb

/-- So does adding to an object. -/
theorem Placed.addBuilt {α : Type} {s : Slot α} {C : α → Prop} {get : DocContent → α}
    {put : DocContent → α → DocContent} (hp : Placed lt s C get put) {d d' : Doc} {add : α → α}
    (hb : DocBuilt lt d) (hadd : C (add (get (content d)))) (h : d.addObj lt s add = .ok d') :
    DocBuilt lt d' := by
  rw [hp.get_view] at hadd
  rcases get_cases hp.ok (docBuilt_inv hb) with ⟨h1, h2⟩ | h1
  · simp only [Doc.addObj, h1, Except.ok.injEq] at h
    rw [h2] at hadd
    rw [← h]
    exact hp.built _ (hp.built _ hb hp.ok.empty) hadd
  · simp only [Doc.addObj, h1, hp.ok.proj_inj, Except.ok.injEq] at h
    rw [← h]
    exact hp.built _ hb hadd

end Comps.Obj
