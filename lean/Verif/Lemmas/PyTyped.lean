import Verif.Lemmas.PyRound
import Verif.Lemmas.ParseAny
import Verif.Spec.PyTyped

/-!
# Invariant of programs that use `libcomps.Comps`
-/

namespace Comps.Parse
open Comps Comps.Spec Comps.Obj

/-! ## The parser of one call never holds a released document -/

/-- A handler leaves the document alone or changes it. -/
def Stays (p p' : DocPtr) : Prop := p' = p ∨ ∃ d, p' = .live d

theorem onLast_live {α : Type} {cx : Ctx} {sl : Slot (List α)} {f : α → Res (α × List LogEntry)}
    {p : DocPtr} {r : DocPtr × List LogEntry} (h : onLast cx sl f p = .ok r) : Stays p r.1 := by
  unfold onLast at h
  cases h1 : entries cx sl p with
  | error e => rw [h1] at h; cases h
  | ok x =>
    rw [h1] at h
    simp only [bind, Except.bind] at h
    cases h2 : lastOf x.1 with
    | error e => rw [h2] at h; cases h
    | ok y =>
      rw [h2] at h
      simp only at h
      cases h3 : f y with
      | error e => rw [h3] at h; cases h
      | ok z => rw [h3] at h; cases h; exact .inr ⟨_, rfl⟩

theorem editLast_live {α : Type} {cx : Ctx} {sl : Slot (List α)} {f : α → Res α} {p p' : DocPtr}
    (h : editLast cx sl f p = .ok p') : Stays p p' := by
  unfold editLast at h
  cases h1 : onLast cx sl (fun x => do
    let y ← f x
    .ok (y, [])) p with
  | error e => rw [h1] at h; cases h
  | ok x => rw [h1] at h; cases h; exact onLast_live h1

theorem after_live {α : Type} {cx : Ctx} {sl : Slot (List α)} {f : α → Res (α × List LogEntry)}
    {p : DocPtr} {t : Bool} {r : After} (h : after t (onLast cx sl f p) = .ok r) : Stays p r.doc :=
  onLast_live (after_inv h)

variable {cx : Ctx} {p p' : DocPtr} {e : Elem} {below : List Elem}

theorem entryPre_live {α : Type} {ops : EntryOps α} {create : α}
    (h : entryPre cx ops create e p = .ok p') : Stays p p' := by
  unfold entryPre at h
  simp only [bind, Except.bind] at h
  split at h
  · cases h
  · split at h
    · cases h
    · cases h; exact .inr ⟨_, rfl⟩

theorem pairPre_live {add : Doc → Bytes → CStr → Res Doc} {k v : Bytes}
    (h : pairPre add k v e p = .ok p') : Stays p p' := by
  unfold pairPre at h
  simp only [bind, Except.bind] at h
  split at h
  · cases h
  · split at h
    · cases h
    · split at h
      · cases h
      · cases h; exact .inr ⟨_, rfl⟩

theorem preproc_live {enc : Option Bytes} (h : preproc cx enc e below p = .ok p') : Stays p p' := by
  unfold preproc at h
  split at h
  · unfold docPre at h
    simp only [bind, Except.bind] at h
    split at h
    · cases h
    · cases h; exact .inr ⟨_, rfl⟩
  · exact entryPre_live h
  · exact entryPre_live h
  · exact entryPre_live h
  · exact editLast_live h
  · unfold groupidPre at h
    simp only [bind, Except.bind] at h
    split at h
    · cases h
    · unfold groupidAdd at h
      split at h <;> exact editLast_live h
  · exact pairPre_live h
  · exact pairPre_live h
  · exact pairPre_live h
  · cases h; exact .inl rfl

theorem flagText_live {key : Bytes} {q : Pos} {t : Option Bytes} {r : After}
    (h : flagText cx key q t p = .ok r) : Stays p r.doc := by
  unfold flagText at h
  split at h
  · exact after_live h
  · split at h
    · exact after_live h
    · simp only [bind, Except.bind] at h
      split at h
      · cases h
      · cases h; exact .inr ⟨_, rfl⟩

theorem strictFlag_live {key : Bytes} {q : Pos} {t : Option Bytes} {r : After}
    (h : strictFlagPost cx key q t p = .ok r) : Stays p r.doc := by
  unfold strictFlagPost at h
  split at h
  · simp only [bind, Except.bind] at h
    split at h <;> cases h
  · exact flagText_live h

theorem postproc_live {q : Pos} {t : Option Bytes} {r : After}
    (h : postproc cx e below q t p = .ok r) : Stays p r.doc := by
  unfold postproc at h
  have hid : ∀ {r}, idNameDescPost cx e below q t p = .ok r → Stays p r.doc := by
    intro r h
    unfold idNameDescPost at h
    simp only [bind, Except.bind] at h
    split at h
    · cases h
    · split at h
      · exact after_live h
      · split at h <;> exact after_live h
  split at h
  · exact after_live h
  · exact after_live h
  · exact after_live h
  · exact hid h
  · exact hid h
  · exact hid h
  · exact flagText_live h
  · exact after_live h
  · exact strictFlag_live h
  · exact strictFlag_live h
  · exact after_live h
  · unfold packagereqPost at h
    split at h
    · exact after_live h
    · simp only [bind, Except.bind] at h
      split at h
      · cases h
      · split at h
        · cases h
        · cases h; exact .inr ⟨_, rfl⟩
  · unfold grouplistPost at h
    simp only [bind, Except.bind] at h
    split at h
    · cases h
    · split at h <;> exact after_live h
  · unfold groupidPost at h
    simp only [bind, Except.bind] at h
    split at h
    · cases h
    · split at h
      · cases h
      · next hx =>
        cases h
        unfold groupidName at hx
        split at hx <;> exact editLast_live hx
  · unfold displayOrderPost at h
    simp only [bind, Except.bind] at h
    split at h
    · cases h
    · split at h
      · exact after_live h
      · split at h <;> exact after_live h
  · cases h; exact .inl rfl

theorem Stays.here (h : Stays p p') (hp : p ≠ .freed) : p' ≠ .freed := by
  rcases h with rfl | ⟨d, rfl⟩
  · exact hp
  · nofun

theorem step_here {s s' : Parsed} {x : Pos × Event} (h : step cx s x = .ok s')
    (hs : s.doc ≠ .freed) : s'.doc ≠ .freed := by
  obtain ⟨q, x⟩ := x
  cases x with
  | start n attrs =>
    obtain ⟨L, d, -, hd, rfl⟩ := start_inv h
    unfold openElem at hd
    split at hd
    · exact (preproc_live hd).here hs
    · cases hd; exact hs
  | text c =>
    simp only [step, Except.ok.injEq] at h
    subst h
    unfold charData
    split <;> exact hs
  | stop n =>
    obtain ⟨t, e, below, -, hst, h⟩ := end_inv h
    rcases h with ⟨-, d, L, hc, rfl⟩ | ⟨-, rfl⟩
    · unfold closeElem at hc
      split at hc
      · cases hp : postproc cx e below q t s.doc with
        | error f => rw [hp] at hc; cases hc
        | ok r => rw [hp] at hc; cases hc; exact (postproc_live hp).here hs
      · cases hc; exact hs
    · exact hs
  | doctype n sy pu =>
    simp only [step, Except.ok.injEq] at h
    subst h
    exact hs

theorem steps_here {es : List (Pos × Event)} {s s' : Parsed} (h : steps cx s es = .ok s')
    (hs : s.doc ≠ .freed) : s'.doc ≠ .freed := by
  induction es generalizing s with
  | nil => cases h; exact hs
  | cons e es ih =>
    rw [steps_cons] at h
    cases h1 : step cx s e with
    | error f => rw [h1] at h; cases h
    | ok s1 => rw [h1] at h; exact ih h (step_here h1 hs)

theorem feed_here {c : Chunk} {s s' : Parsed} (h : feed cx s c = .ok s')
    (hs : s.doc ≠ .freed) : s'.doc ≠ .freed := by
  unfold feed at h
  cases h1 : steps cx s c.events with
  | error f => rw [h1] at h; cases h
  | ok s1 =>
    rw [h1] at h
    have := steps_here h1 hs
    simp only [bind, Except.bind] at h
    split at h <;> (cases h; exact this)

theorem feeds_here : ∀ {cs : List Chunk} {s s' : Parsed}, cs.foldlM (feed cx) s = .ok s' →
    s.doc ≠ .freed → s'.doc ≠ .freed
  | [], s, s', h, hs => by cases h; exact hs
  | c :: cs, s, s', h, hs => by
    rw [List.foldlM_cons] at h
    cases h1 : feed cx s c with
    | error f => rw [h1] at h; cases h
    | ok s1 => rw [h1] at h; exact feeds_here h (feed_here h1 hs)

theorem afterParse_here {s s' : Parsed} (h : afterParse s = .ok s') (hs : s.doc ≠ .freed) :
    s'.doc ≠ .freed := by
  unfold afterParse at h
  split at h
  · cases h; exact hs
  · split at h
    · cases h; exact hs
    · cases h
    · cases h; nofun

theorem parseStr_here {enc : Option Bytes} {c : Chunk} {r : Int × Parsed}
    (h : parseStr cx (init enc) c = .ok r) : r.2.doc ≠ .freed := by
  unfold parseStr at h
  cases h1 : feed cx (init enc) c with
  | error f => rw [h1] at h; cases h
  | ok s1 =>
    rw [h1] at h
    simp only [bind, Except.bind] at h
    cases h2 : afterParse s1 with
    | error f => rw [h2] at h; cases h
    | ok s2 => rw [h2] at h; cases h; exact afterParse_here h2 (feed_here h1 nofun)

theorem parseFile_here {enc : Option Bytes} {cs : List Chunk} {r : Int × Parsed}
    (h : parseFile cx (init enc) (some cs) = .ok r) : r.2.doc ≠ .freed := by
  obtain ⟨s0, s1, h0, h1, h2, -⟩ := parseFile_inv h
  cases h0
  exact afterParse_here h2 (feeds_here h1 nofun)

end Comps.Parse

namespace Comps.PyComps
open Comps Comps.Obj Comps.Spec Comps.Spec.PyComps
open Comps.Parse (Parsed parseStr parseFile init)

variable {lt : UInt8 → UInt8 → Bool} {st st' : St} {r r' : RSt}

/-! ## Documents of the C library as Python gets them -/

/-- A document with an encoding, a document type and entries that Python can make. -/
structure NativeDoc (lt : UInt8 → UInt8 → Bool) (x : Doc) : Prop where
  built : DocBuilt lt x
  encoding : x.encoding ≠ none
  name : x.doctypeName ≠ none
  sysid : x.doctypeSysid ≠ none
  pubid : x.doctypePubid ≠ none
  parts : ∀ s, Native lt ((contentOf x).part s)

/-- The lists of the entries exist. -/
structure Lists (c : DocContent) : Prop where
  packages : ∀ g ∈ c.groups, g.packages ≠ none
  ids : ∀ g ∈ c.categories, g.groupIds ≠ none
  envs : ∀ g ∈ c.environments, g.groupList ≠ none ∧ g.optionList ≠ none

theorem native_parts {d : Doc} (hd : DocBuilt lt d) (hl : Lists (Obj.content d)) (s : Sec) :
    Native lt ((contentOf d).part s) := by
  have hi := docBuilt_inv hd
  cases s with
  | groups =>
    rw [contentOf_part groupsOk hi rfl rfl]
    exact fun g hg => ⟨view_ok groupsOk hi g hg, hl.packages g hg⟩
  | categories =>
    rw [contentOf_part categoriesOk hi rfl rfl]
    exact fun g hg => ⟨view_ok categoriesOk hi g hg, hl.ids g hg⟩
  | environments =>
    rw [contentOf_part environmentsOk hi rfl rfl]
    exact fun g hg => ⟨view_ok environmentsOk hi g hg, hl.envs g hg⟩
  | langpacks =>
    rw [contentOf_part langpacksOk hi rfl rfl]
    exact view_ok langpacksOk hi
  | blacklist =>
    rw [contentOf_part blacklistOk hi rfl rfl]
    exact view_ok blacklistOk hi
  | whiteout =>
    rw [contentOf_part whiteoutOk hi rfl rfl]
    exact view_ok whiteoutOk hi

theorem used_native {enc : Option Bytes} {s : Parsed} (hs : Used lt enc s) {d : Doc}
    (hd : s.doc = .live d) : NativeDoc lt d := by
  obtain ⟨h1, h2, h3⟩ := (Parse.used_any hs).doc d hd
  exact ⟨h1, by rw [h2.1]; nofun, h2.2.2.1, h2.2.2.2.1, h2.2.2.2.2,
    native_parts h1 ⟨h3.whole.packages, h3.whole.ids, h3.whole.lists⟩⟩

/-! ## Merging and filtering -/

theorem mergeOk_and {α κ : Type} {key : α → κ} {copy : α → α} {mrg : α → α → α} {P Q : α → Prop}
    (h : MergeOk key copy mrg P) (hc : ∀ x, Q x → Q (copy x)) (hm : ∀ x y, Q (mrg x y)) :
    MergeOk key copy mrg (fun x => P x ∧ Q x) where
  copies x hx := ⟨h.copies x hx.1, hc x hx.2⟩
  copy_key x hx := h.copy_key x hx.1
  merges x y hx hy := ⟨h.merges x y hx.1 hy.1, hm x y⟩
  mrg_key x y hx hy := h.mrg_key x y hx.1 hy.1

theorem objCopy_ne {α : Type} {f : α → α} {l : Option α} (h : l ≠ none) : objCopy f l ≠ none := by
  cases l with
  | none => exact absurd rfl h
  | some x => nofun

theorem union_lists {a b : Doc} (ha : DocBuilt lt a) (hb : DocBuilt lt b) (la : Lists (Obj.content a))
    (lb : Lists (Obj.content b)) : Lists (unionContent lt (Obj.content a) (Obj.content b)) := by
  have ca := contents_built (docBuilt_inv ha)
  have cb := contents_built (docBuilt_inv hb)
  refine ⟨fun g hg => ?_, fun g hg => ?_, fun g hg => ?_⟩
  · exact ((docUnionList_ok Group.idcmp_iff
      (mergeOk_and (groupMerge (lt := lt)) (Q := fun g => g.packages ≠ none)
        (fun x hx => objCopy_ne hx) (fun _ _ => nofun))
      (fun g hg => ⟨ca.1 g hg, la.packages g hg⟩) (fun g hg => ⟨cb.1 g hg, lb.packages g hg⟩)).2.1
      g hg).2
  · exact ((docUnionList_ok Category.idcmp_iff
      (mergeOk_and (categoryMerge (lt := lt)) (Q := fun g => g.groupIds ≠ none)
        (fun x hx => objCopy_ne hx) (fun _ _ => nofun))
      (fun g hg => ⟨ca.2.1 g hg, la.ids g hg⟩) (fun g hg => ⟨cb.2.1 g hg, lb.ids g hg⟩)).2.1
      g hg).2
  · exact ((docUnionList_ok Env.idcmp_iff
      (mergeOk_and (envMerge (lt := lt)) (Q := fun g => g.groupList ≠ none ∧ g.optionList ≠ none)
        (fun x hx => ⟨objCopy_ne hx.1, objCopy_ne hx.2⟩) (fun _ _ => ⟨nofun, nofun⟩))
      (fun g hg => ⟨ca.2.2.1 g hg, la.envs g hg⟩) (fun g hg => ⟨cb.2.2.1 g hg, lb.envs g hg⟩)).2.1
      g hg).2

theorem make_rest {e : CStr} {d : Doc} (h : rest d = rest (Doc.make (some e))) :
    d.encoding ≠ none ∧ d.doctypeName ≠ none ∧ d.doctypeSysid ≠ none ∧ d.doctypePubid ≠ none := by
  simp only [rest, Prod.mk.injEq] at h
  obtain ⟨h1, h2, h3, h4, -⟩ := h
  rw [h1, h2, h3, h4]
  exact ⟨nofun, nofun, nofun, nofun⟩

theorem union_native {a b : Doc} (ha : DocBuilt lt a) (hb : DocBuilt lt b) (he : a.encoding ≠ none)
    (la : Lists (Obj.content a)) (lb : Lists (Obj.content b)) :
    ∃ d, a.union lt b = .ok d ∧ NativeDoc lt d := by
  obtain ⟨e, he⟩ := Option.ne_none_iff_exists'.1 he
  obtain ⟨d, h1, -, h3, h4⟩ := union_ok (docBuilt_inv ha) (docBuilt_inv hb) he
  have hd : DocBuilt lt d := .union ha hb h1
  obtain ⟨k1, k2, k3, k4⟩ := make_rest h4
  exact ⟨d, h1, hd, k1, k2, k3, k4, native_parts hd (by rw [h3]; exact union_lists ha hb la lb)⟩

theorem arches_ok {t : RTree PVal} (h : PropInv lt t) : ∃ a, getArchesProp t = .ok a := by
  unfold getArchesProp
  cases e : t.get b!"arches" with
  | none => exact ⟨_, rfl⟩
  | some v =>
    have hk : (b!"arches", kind v) ∈ propKinds := h.typed.get h.wf e
    cases v with
    | list l => exact ⟨_, rfl⟩
    | str s => exact absurd hk (by simp only [kind]; decide)
    | num s => exact absurd hk (by simp only [kind]; decide)

theorem filterList_ok {α : Type} {props : α → RTree PVal} {filter : α → Res α} {req : List CStr}
    {l : List α} (hp : ∀ x ∈ l, PropInv lt (props x)) (hf : ∀ x ∈ l, ∃ r, filter x = .ok r) :
    ∃ l', docFilterList (fun x => getArchesProp (props x)) filter req l = .ok l' := by
  obtain ⟨l', h, -⟩ := docFilterList_ok (req := req) (filter := filter)
    (arches := fun x => getArchesProp (props x))
    (fun x => match getArchesProp (props x) with | .ok a => archKeep req a | .error _ => false)
    (fun x hx => by
      obtain ⟨a, h⟩ := arches_ok (hp x hx)
      exact ⟨a, h, by simp only [h]⟩)
    (fun x hx _ => hf x hx)
  exact ⟨l', h⟩

theorem groupFilter_ok {g : Group} (h : g.packages ≠ none) (req : List CStr) :
    ∃ x, g.archFilter req = .ok x := by
  obtain ⟨l, hl⟩ := Option.ne_none_iff_exists'.1 h
  exact ⟨_, by simp only [Group.archFilter, hl]; rfl⟩

theorem categoryFilter_ok {g : Category} (h : g.groupIds ≠ none) (req : List CStr) :
    ∃ x, g.archFilter req = .ok x := by
  obtain ⟨l, hl⟩ := Option.ne_none_iff_exists'.1 h
  exact ⟨_, by simp only [Category.archFilter, hl]; rfl⟩

theorem envFilter_ok {g : Env} (h : g.groupList ≠ none ∧ g.optionList ≠ none) (req : List CStr) :
    ∃ x, g.archFilter req = .ok x := by
  obtain ⟨l, hl⟩ := Option.ne_none_iff_exists'.1 h.1
  obtain ⟨m, hm⟩ := Option.ne_none_iff_exists'.1 h.2
  exact ⟨_, by simp only [Env.archFilter, hl, hm]; rfl⟩

theorem filter_native {a : Doc} (ha : DocBuilt lt a) (he : a.encoding ≠ none) (la : Lists (Obj.content a))
    (req : List CStr) : ∃ d, a.archFilter lt req = .ok d ∧ NativeDoc lt d := by
  obtain ⟨e, he⟩ := Option.ne_none_iff_exists'.1 he
  have ia := docBuilt_inv ha
  have xa := contents_built ia
  obtain ⟨lg, g1⟩ := filterList_ok (props := Group.props) (filter := fun g => g.archFilter req)
    (req := req) (fun g hg => (groupBuilt_inv (xa.1 g hg)).props)
    (fun g hg => groupFilter_ok (la.packages g hg) req)
  obtain ⟨lk, k1⟩ := filterList_ok (props := Category.props) (filter := fun g => g.archFilter req)
    (req := req) (fun g hg => (categoryBuilt_inv (xa.2.1 g hg)).props)
    (fun g hg => categoryFilter_ok (la.ids g hg) req)
  obtain ⟨le, e1⟩ := filterList_ok (props := Env.props) (filter := fun g => g.archFilter req)
    (req := req) (fun g hg => (envBuilt_inv (xa.2.2.1 g hg)).props)
    (fun g hg => envFilter_ok (la.envs g hg) req)
  obtain ⟨d, h1, -, h3, h4⟩ := archFilter_ok ia he g1 k1 e1
  have hd : DocBuilt lt d := .archFilter req ha h1
  obtain ⟨j1, j2, j3, j4⟩ := make_rest h4
  refine ⟨d, h1, hd, j1, j2, j3, j4, native_parts hd ?_⟩
  rw [h3]
  refine ⟨fun g hg => ?_, fun g hg => ?_, fun g hg => ?_⟩
  · obtain ⟨x, -, hx, -⟩ := docFilterList_mem g1 g hg
    unfold Group.archFilter at hx
    split at hx
    · cases hx
    · cases hx; nofun
  · obtain ⟨x, -, hx, -⟩ := docFilterList_mem k1 g hg
    unfold Category.archFilter at hx
    split at hx
    · cases hx
    · cases hx; nofun
  · obtain ⟨x, -, hx, -⟩ := docFilterList_mem e1 g hg
    unfold Env.archFilter at hx
    split at hx
    · cases hx
    · split at hx
      · cases hx
      · cases hx; exact ⟨nofun, nofun⟩

/-! ## The invariant -/

/-- All lists are ones that Python can make; all documents have an encoding and a document type. -/
structure Typed (lt : UInt8 → UInt8 → Bool) (r : RSt) : Prop where
  lists : ∀ v ∈ r.lists, Native lt v
  docs : ∀ c d, r.doc c = some d → d.encoding ≠ none ∧ d.doctypeName ≠ none ∧
    d.doctypeSysid ≠ none ∧ d.doctypePubid ≠ none

theorem native_empty (k : Kind) : Native lt k.empty := by
  cases k
  · exact fun _ h => by (cases h)
  · exact fun _ h => by (cases h)
  · exact fun _ h => by (cases h)
  · exact .create
  · exact .create

theorem typed_start : Typed lt rstart := ⟨fun _ h => by (cases h), fun c d h => by
  simp [rstart, RSt.doc] at h⟩

theorem Typed.part (ty : Typed lt r) (d : RDoc) (s : Sec) : Native lt ((look r d).part s) := by
  simp only [look]
  split
  · next v hv =>
    obtain ⟨a, -, ha⟩ := Option.bind_eq_some_iff.1 hv
    exact ty.lists v (List.mem_of_getElem? ha)
  · exact native_empty _

theorem WF.kind (wf : WF r) {c : Nat} {d : RDoc} (hd : r.doc c = some d) (s : Sec) :
    kindOf ((look r d).part s) = some s.kind := by
  simp only [look]
  split
  · next v hv =>
    obtain ⟨a, h1, h2⟩ := Option.bind_eq_some_iff.1 hv
    obtain ⟨x, h3, h4⟩ := wf.parts c d s a hd h1
    rw [h2] at h3
    cases h3
    exact h4
  · cases s <;> rfl

/-- Every document of the program is made through the API. -/
theorem Typed.made (ty : Typed lt r) (wf : WF r) {c : Nat} {d : RDoc} (hd : r.doc c = some d) :
    ∃ x, Made lt (look r d) x ∧ Lists x := by
  obtain ⟨h1, h2, h3, h4⟩ := ty.docs c d hd
  have hp := ty.part d
  have hk := wf.kind hd
  have g := hp .groups; have g' := hk .groups
  have k := hp .categories; have k' := hk .categories
  have e := hp .environments; have e' := hk .environments
  have l := hp .langpacks; have l' := hk .langpacks
  have b := hp .blacklist; have b' := hk .blacklist
  have w := hp .whiteout; have w' := hk .whiteout
  generalize eg : (look r d).part .groups = vg at *
  generalize ek : (look r d).part .categories = vk at *
  generalize ee : (look r d).part .environments = ve at *
  generalize el : (look r d).part .langpacks = vl at *
  generalize eb : (look r d).part .blacklist = vb at *
  generalize ew : (look r d).part .whiteout = vw at *
  cases vg <;> simp [kindOf, Sec.kind] at g'
  cases vk <;> simp [kindOf, Sec.kind] at k'
  cases ve <;> simp [kindOf, Sec.kind] at e'
  cases vl <;> simp [kindOf, Sec.kind] at l'
  cases vb <;> simp [kindOf, Sec.kind] at b'
  cases vw <;> simp [kindOf, Sec.kind] at w'
  next lg lk le tl tb tw =>
  exact ⟨⟨lg, lk, le, tl, tb, tw⟩, ⟨Option.ne_none_iff_exists'.1 h1, Option.ne_none_iff_exists'.1 h2,
    Option.ne_none_iff_exists'.1 h3, Option.ne_none_iff_exists'.1 h4,
    ⟨eg, fun x hx => (g x hx).1⟩, ⟨ek, fun x hx => (k x hx).1⟩, ⟨ee, fun x hx => (e x hx).1⟩,
    ⟨el, l⟩, ⟨eb, b⟩, ⟨ew, w⟩⟩,
    fun x hx => (g x hx).2, fun x hx => (k x hx).2, fun x hx => (e x hx).2⟩

/-! ## Steps keep the invariant -/

theorem Typed.docs_eq (ty : Typed lt r) {l : List DocVal} (h : ∀ v ∈ l, Native lt v)
    {d : List (Option RDoc)} (hd : d = r.docs) {vs : List (Option Nat)} : Typed lt ⟨l, d, vs⟩ := by
  subst hd
  exact ⟨h, ty.docs⟩

/-- The fields of a document that matter. -/
def Headed (d : RDoc) : Prop := d.encoding ≠ none ∧ d.doctypeName ≠ none ∧ d.doctypeSysid ≠ none ∧
  d.doctypePubid ≠ none

theorem Typed.put (ty : Typed lt r) {c : Nat} {d : RDoc} (h : Headed d) : Typed lt (r.put c d) := by
  refine ⟨ty.lists, fun c' d' hc => ?_⟩
  rw [doc_put] at hc
  split at hc
  · cases hc; exact h
  · split at hc
    · cases hc
    · exact ty.docs c' d' hc

theorem Typed.bind (ty : Typed lt r) (a : Nat) : Typed lt (r.bindVar a) := ⟨ty.lists, ty.docs⟩

theorem Typed.newList (ty : Typed lt r) {v : DocVal} (h : Native lt v) : Typed lt (r.newList v) := by
  refine ⟨fun x hx => ?_, ty.docs⟩
  rcases List.mem_append.1 hx with hx | hx
  · exact ty.lists x hx
  · rw [List.mem_singleton.1 hx]; exact h

theorem Typed.addDoc (ty : Typed lt r) {d : RDoc} (h : Headed d) :
    Typed lt { r with docs := r.docs ++ [some d] } := by
  refine ⟨ty.lists, fun c' d' hc => ?_⟩
  simp only [RSt.doc, List.getElem?_append] at hc
  split at hc
  · exact ty.docs c' d' hc
  · next hl =>
    cases hk : c' - r.docs.length with
    | zero => rw [hk] at hc; simp at hc; subst hc; exact h
    | succ n => rw [hk] at hc; simp at hc

theorem takeParts_typed {x : Doc} (hx : ∀ s, Native lt ((contentOf x).part s)) :
    ∀ (l : List Sec) {r r' : RSt} {f : Sec → Option Nat}, Typed lt r → takeParts x r l = .ok (f, r') →
      Typed lt r' := by
  intro l
  induction l with
  | nil => intro r r' f ty h; cases h; exact ty
  | cons s l ih =>
    intro r r' f ty h
    simp only [takeParts, bind, Except.bind] at h
    cases h1 : takeParts x r l with
    | error e => simp [h1] at h
    | ok q =>
      obtain ⟨g, r1⟩ := q
      have ty1 := ih ty h1
      simp only [h1] at h
      cases hg : x.objects.get s.key with
      | none => simp only [hg, pure, Except.pure] at h; cases h; exact ty1
      | some v =>
        have hv := hx s
        simp only [contentOf, hg] at hv
        simp only [hg, pure, Except.pure] at h
        split at h
        · cases h; exact ty1.newList hv
        · cases h

theorem takeDoc_typed (ty : Typed lt r) {x : Doc} (hx : NativeDoc lt x) {log : List LogEntry} {d : RDoc}
    (h : takeDoc r x log = .ok (d, r')) : Typed lt r' ∧ Headed d := by
  simp only [takeDoc, bind, Except.bind] at h
  cases h1 : takeParts x r allSecs with
  | error e => simp [h1] at h
  | ok q =>
    obtain ⟨f, r1⟩ := q
    simp only [h1, pure, Except.pure] at h
    cases h
    exact ⟨takeParts_typed hx.parts _ ty h1, hx.encoding, hx.name, hx.sysid, hx.pubid⟩

theorem addDoc_total (ty : Typed lt r) {x : Doc} (hx : NativeDoc lt x) :
    ∃ a r', addDoc r x = .ok (a, r') ∧ Typed lt r' := by
  obtain ⟨⟨d, r1⟩, h⟩ := takeDoc_ok (fun s v => built_kinds hx.built s) r []
  obtain ⟨h1, h2⟩ := takeDoc_typed ty hx h
  exact ⟨_, _, by simp only [addDoc, h, Bind.bind, Except.bind]; rfl, h1.addDoc h2⟩

theorem takeParsed_total (ty : Typed lt r) {p : Parsed} (hn : p.doc ≠ .freed)
    (hx : ∀ d, p.doc = .live d → NativeDoc lt d) (c : Nat) :
    ∃ r', takeParsed r c p = .ok r' ∧ Typed lt r' := by
  cases hp : p.doc with
  | freed => exact absurd hp hn
  | null =>
    refine ⟨_, by simp only [takeParsed, hp]; rfl, ty.put ?_⟩
    exact ⟨nofun, nofun, nofun, nofun⟩
  | live x =>
    have hx := hx x hp
    obtain ⟨⟨d, r1⟩, h⟩ := takeDoc_ok (fun s v => built_kinds hx.built s) r p.log
    obtain ⟨h1, h2⟩ := takeDoc_typed ty hx h
    exact ⟨_, by simp only [takeParsed, hp, h, Bind.bind, Except.bind]; rfl, h1.put h2⟩

theorem fromStr_native {cx : Parse.Ctx} (hlt : cx.lt = lt) {enc : Option Bytes} {c : Parse.Chunk}
    {q : Int × Parsed} (h : parseStr cx (init enc) c = .ok q) :
    q.2.doc ≠ .freed ∧ ∀ d, q.2.doc = .live d → NativeDoc lt d :=
  ⟨Parse.parseStr_here h, fun _ hd => used_native (.str cx c hlt .new h) hd⟩

theorem fromFile_native {cx : Parse.Ctx} (hlt : cx.lt = lt) {enc : Option Bytes} {cs : List Parse.Chunk}
    {q : Int × Parsed} (h : parseFile cx (init enc) (some cs) = .ok q) :
    q.2.doc ≠ .freed ∧ ∀ d, q.2.doc = .live d → NativeDoc lt d :=
  ⟨Parse.parseFile_here h, fun _ hd => used_native (.file cx (some cs) hlt .new h) hd⟩

/-- The lists of the document handed to the C library. -/
theorem made_lists {y : Content} {c : DocContent} (h : Made lt y c) (hl : Lists c) :
    DocBuilt lt (y.toDoc lt) ∧ (y.toDoc lt).encoding ≠ none ∧ Lists (Obj.content (y.toDoc lt)) := by
  obtain ⟨h1, h2⟩ := made_built h
  refine ⟨h1, ?_, ?_⟩
  · obtain ⟨e, he⟩ := h.encoding
    show y.encoding ≠ none
    rw [he]; nofun
  · rw [← shows_unique h2 (shows_content (docBuilt_inv h1))]; exact hl

theorem readAttr_typed (ty : Typed lt r) {attr : RDoc → Sec → Option Nat} {c : Nat} {d : RDoc}
    (hd : r.doc c = some d) (s : Sec) : Typed lt (readAttr attr r c d s) := by
  have hh : Headed d := ty.docs c d hd
  unfold readAttr
  split
  · refine Typed.bind (Typed.put ty ?_) _
    exact hh
  · refine Typed.bind (Typed.put (ty.newList (native_empty _)) ?_) _
    exact hh

/-- A call keeps the invariant. -/
theorem rstep_typed (ty : Typed lt r) (wf : WF r) {o : Op} (ho : NativeOp lt o) {a : Ans}
    (h : rstep lt RDoc.shown r o = .ok (a, r')) : Typed lt r' := by
  cases o with
  | new enc => cases h; exact ty.addDoc ⟨nofun, nofun, nofun, nofun⟩
  | get c s =>
    simp only [rstep] at h
    split at h
    · cases h; exact ty
    · next d hd => cases h; exact readAttr_typed ty hd s
  | set c s v =>
    simp only [rstep] at h
    split at h
    · next d a hd hv =>
      simp only [bind, Except.bind] at h
      split at h
      · cases h
      · split at h
        · cases h; exact ty
        · cases h; exact ty.put (ty.docs c d hd)
    · cases h; exact ty
  | delAttr c s =>
    simp only [rstep] at h
    split at h <;> cases h
    exact ty
  | make k => cases h; exact (ty.newList (native_empty k)).bind _
  | write v x =>
    simp only [rstep] at h
    split at h
    · cases h; exact ty
    · simp only [bind, Except.bind] at h
      split at h
      · cases h
      · split at h
        · cases h; exact ty
        · cases h
          refine ⟨fun y hy => ?_, ty.docs⟩
          rcases List.mem_or_eq_of_mem_set hy with hy | rfl
          · exact ty.lists y hy
          · exact ho
  | read v =>
    simp only [rstep] at h
    split at h
    · cases h; exact ty
    · simp only [bind, Except.bind] at h
      split at h <;> cases h
      exact ty
  | dump c => simp only [rstep] at h; split at h <;> (cases h; exact ty)
  | clear c =>
    simp only [rstep] at h
    split at h
    · cases h; exact ty
    · next d hd => cases h; exact ty.put ⟨(ty.docs c d hd).1, nofun, nofun, nofun⟩
  | fromStr c cx text =>
    simp only [rstep] at h
    split at h
    · cases h; exact ty
    · simp only [bind, Except.bind] at h
      split at h
      · cases h
      · next q hq =>
        split at h
        · cases h; exact ty
        · obtain ⟨h1, h2⟩ := fromStr_native ho hq
          obtain ⟨r1, e1, t1⟩ := takeParsed_total ty h1 h2 c
          rw [e1] at h
          cases h; exact t1
  | fromFile c cx file =>
    simp only [rstep] at h
    split at h
    · cases h; exact ty
    · cases h; exact ty
    · simp only [bind, Except.bind] at h
      split at h
      · cases h
      · next q hq =>
        obtain ⟨h1, h2⟩ := fromFile_native ho hq
        obtain ⟨r1, e1, t1⟩ := takeParsed_total ty h1 h2 c
        rw [e1] at h
        cases h; exact t1
  | union c1 c2 =>
    simp only [rstep] at h
    split at h
    · next d1 d2 h1 h2 =>
      obtain ⟨x1, m1, l1⟩ := ty.made wf h1
      obtain ⟨x2, m2, l2⟩ := ty.made wf h2
      obtain ⟨b1, e1, k1⟩ := made_lists m1 l1
      obtain ⟨b2, -, k2⟩ := made_lists m2 l2
      obtain ⟨d, hd, hn⟩ := union_native b1 b2 e1 k1 k2
      obtain ⟨a', r1, j1, j2⟩ := addDoc_total ty hn
      simp only [hd, bind, Except.bind, j1] at h
      cases h; exact j2
    · cases h; exact ty
  | archFilter c arches =>
    simp only [rstep] at h
    split at h
    · cases h; exact ty
    · next d1 h1 =>
      obtain ⟨x1, m1, l1⟩ := ty.made wf h1
      obtain ⟨b1, e1, k1⟩ := made_lists m1 l1
      obtain ⟨d, hd, hn⟩ := filter_native b1 e1 k1 arches
      obtain ⟨a', r1, j1, j2⟩ := addDoc_total ty hn
      simp only [hd, bind, Except.bind, j1] at h
      cases h; exact j2
  | eq c x =>
    simp only [rstep] at h
    split at h
    · cases h; exact ty
    · cases h
    · split at h
      · cases h; exact ty
      · simp only [bind, Except.bind] at h
        split at h <;> cases h
        exact ty
  | validate c =>
    simp only [rstep] at h
    split at h
    · cases h; exact ty
    · simp only [bind, Except.bind] at h
      split at h
      · cases h
      · split at h <;> cases h
        exact ty
  | validateNf c =>
    simp only [rstep] at h
    split at h
    · cases h; exact ty
    · simp only [bind, Except.bind] at h
      split at h <;> cases h
      exact ty
  | xmlStr c o df fails =>
    simp only [rstep] at h
    split at h
    · cases h; exact ty
    · next d hd =>
      simp only [bind, Except.bind] at h
      split at h <;> cases h
      exact ty.put (ty.docs c d hd)
  | xmlFile c name o df fails saved =>
    simp only [rstep] at h
    split at h
    · cases h; exact ty
    · next d hd =>
      simp only [bind, Except.bind] at h
      split at h <;> cases h
      obtain ⟨-, h2⟩ := ty.docs c d hd
      exact ty.put ⟨nofun, h2⟩
  | lastLog c => simp only [rstep] at h; split at h <;> (cases h; exact ty)
  | del v =>
    simp only [rstep] at h
    split at h
    · cases h; exact ty
    · cases h; exact ⟨ty.lists, ty.docs⟩
  | drop c =>
    simp only [rstep] at h
    split at h
    · cases h; exact ty
    · cases h
      refine ⟨ty.lists, fun c' d' hc => ?_⟩
      simp only [RSt.doc, List.getElem?_set] at hc
      split at hc
      · split at hc <;> cases hc
      · exact ty.docs c' d' hc

/-- What holds at the end of a program. -/
theorem typed_reach {ops : List Op} (hn : ∀ o ∈ ops, NativeOp lt o) : ∀ {st st' : St} {r : RSt}
    {as : List Ans}, Good st r → Typed lt r → run lt st ops = .ok (as, st') →
    ∃ r', Good st' r' ∧ Typed lt r' := by
  induction ops with
  | nil => intro st st' r as g ty h; cases h; exact ⟨r, g, ty⟩
  | cons o os ih =>
    intro st st' r as g ty h
    simp only [run, bind, Except.bind] at h
    cases h1 : step lt st o with
    | error e => rw [h1] at h; cases h
    | ok q =>
      obtain ⟨a, st1⟩ := q
      obtain ⟨r1, e1, g1⟩ := step_ok g h1
      have t1 := rstep_typed ty g.wf (hn o (by simp)) e1
      rw [h1] at h
      simp only at h
      cases h2 : run lt st1 os with
      | error e => rw [h2] at h; cases h
      | ok q =>
        obtain ⟨as', st2⟩ := q
        rw [h2] at h
        cases h
        exact ih (fun o ho => hn o (by simp [ho])) g1 t1 h2

end Comps.PyComps
