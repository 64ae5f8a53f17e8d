import Verif.Lemmas.ParseRun
import Verif.Spec.ParseAny

/-!
# The parser on any input

What every run that comes to an end preserves.
-/

namespace Comps.Parse
open Comps Comps.Spec Comps.Obj Comps.Text Comps.Xml

/-- Is a valid `<group>` open in the innermost `<comps>`? -/
def openGroup : List Elem → Bool
  | [] => false
  | e :: st => if e.type = .doc then false else (e.valid && e.type == .group) || openGroup st

/-- The content of a document; `o` says whether the last group may still lack flags. -/
structure Good (o : Bool) (c : DocContent) : Prop where
  whole : Whole c
  flags : (∀ g ∈ c.groups, FlagsSet g) ∨ (o = true ∧ ∀ g ∈ c.groups.dropLast, FlagsSet g)

/-- The encoding is known, the log was made and there is a document type. -/
def Head (enc : Option Bytes) (d : Doc) : Prop := d.encoding = some ⟨enc⟩ ∧ d.logSet = true ∧
  d.doctypeName ≠ none ∧ d.doctypeSysid ≠ none ∧ d.doctypePubid ≠ none

/-- A document, if there is one, can be made through the API. -/
def DocOk (lt : UInt8 → UInt8 → Bool) (enc : Option Bytes) (o : Bool) (p : DocPtr) : Prop :=
  ∀ d, p = .live d → DocBuilt lt d ∧ Head enc d ∧ Good o (Obj.content d)

theorem Good.weaken {c : DocContent} (h : Good false c) (o : Bool) : Good o c := by
  refine ⟨h.whole, .inl ?_⟩
  rcases h.flags with h | ⟨h, -⟩
  · exact h
  · cases h

theorem DocOk.weaken {lt : UInt8 → UInt8 → Bool} {enc : Option Bytes} {p : DocPtr}
    (h : DocOk lt enc false p) (o : Bool) : DocOk lt enc o p :=
  fun d hd => ⟨(h d hd).1, (h d hd).2.1, (h d hd).2.2.weaken o⟩

section edits
variable {α : Type} {cx : Ctx} {enc : Option Bytes} {sl : Slot (List α)} {P : α → Prop}
  {get : DocContent → List α} {put : DocContent → List α → DocContent}

theorem rest_head {d d' : Doc} (h : Obj.rest d' = Obj.rest d) (hd : Head enc d) : Head enc d' := by
  simp only [Obj.rest, Prod.mk.injEq] at h
  obtain ⟨h1, h2, h3, h4, h5, -⟩ := h
  refine ⟨h1.trans hd.1, h5.trans hd.2.1, ?_, ?_, ?_⟩
  · rw [h2]; exact hd.2.2.1
  · rw [h3]; exact hd.2.2.2.1
  · rw [h4]; exact hd.2.2.2.2

/-- The list of entries is taken. -/
theorem entries_any (hp : Placed cx.lt sl (fun l => ∀ g ∈ l, P g) get put) {o : Bool} {p : DocPtr}
    (h : DocOk cx.lt enc o p) {r : List α × Doc} (hr : entries cx sl p = .ok r) :
    DocOk cx.lt enc o (.live r.2) ∧ r.1 = get (Obj.content r.2) ∧ DocBuilt cx.lt r.2 ∧
      Head enc r.2 ∧ Good o (Obj.content r.2) := by
  cases p with
  | null => cases hr
  | freed => cases hr
  | live d =>
    obtain ⟨hb, he, hg⟩ := h d rfl
    obtain ⟨d', h1, -, h3, h4⟩ := hp.getObj (docBuilt_inv hb)
    have : entries cx sl (.live d) = d.getObj cx.lt sl := rfl
    rw [this, h1] at hr
    cases hr
    have hb' := hp.getBuilt hb h1
    have he' : Head enc d' := rest_head h4 he
    refine ⟨?_, by rw [h3], hb', he', by rw [h3]; exact hg⟩
    rintro _ ⟨⟩
    exact ⟨hb', he', by rw [h3]; exact hg⟩

/-- The last entry is changed. -/
theorem onLast_any (hp : Placed cx.lt sl (fun l => ∀ g ∈ l, P g) get put) {o o' : Bool} {p p' : DocPtr}
    {f : α → Res (α × List LogEntry)} {L : List LogEntry} (h : DocOk cx.lt enc o p)
    (hf : onLast cx sl f p = .ok (p', L))
    (hP : ∀ x y L, P x → f x = .ok (y, L) → P y)
    (hG : ∀ c gs x y L, get c = gs ++ [x] → P x → f x = .ok (y, L) → Good o c →
      Good o' (put c (gs ++ [y]))) : DocOk cx.lt enc o' p' := by
  unfold onLast at hf
  cases he : entries cx sl p with
  | error x => rw [he] at hf; cases hf
  | ok r =>
    rw [he] at hf
    obtain ⟨-, h1, hb, hn, hg⟩ := entries_any hp h he
    simp only [bind, Except.bind] at hf
    unfold lastOf at hf
    cases hl : r.1.getLast? with
    | none => rw [hl] at hf; cases hf
    | some x =>
      rw [hl] at hf
      simp only at hf
      cases hx : f x with
      | error y => rw [hx] at hf; cases hf
      | ok y =>
        rw [hx] at hf
        cases hf
        have hsplit : r.1 = r.1.dropLast ++ [x] := by
          obtain ⟨ys, hys⟩ := List.getLast?_eq_some_iff.1 hl
          rw [hys, List.dropLast_concat]
        have hall : ∀ z ∈ r.1, P z := by
          have := view_ok hp.ok (docBuilt_inv hb)
          rw [← hp.get_view, ← h1] at this
          exact this
        have hPx : P x := hall x (by rw [hsplit]; simp)
        intro d hd
        cases hd
        refine ⟨hp.built _ hb ?_, hn, ?_⟩
        · intro z hz
          rcases List.mem_append.1 hz with hz | hz
          · exact hall z (by rw [hsplit]; exact List.mem_append_left _ hz)
          · rw [List.mem_singleton.1 hz]; exact hP x y.1 y.2 hPx hx
        · rw [hp.set (docBuilt_inv hb)]
          exact hG _ _ x y.1 y.2 (by rw [← h1]; exact hsplit) hPx hx hg

/-- An entry is added. -/
theorem addObj_any {σ : Type} {sl : Slot σ} {C : σ → Prop} {get : DocContent → σ}
    {put : DocContent → σ → DocContent} (hp : Placed cx.lt sl C get put) {o o' : Bool}
    {d d' : Doc} {add : σ → σ} (h : DocOk cx.lt enc o (.live d)) (hC : ∀ x, C x → C (add x))
    (hd : Doc.addObj cx.lt sl add d = .ok d')
    (hG : ∀ c, Good o c → Good o' (put c (add (get c)))) : DocOk cx.lt enc o' (.live d') := by
  obtain ⟨hb, he, hg⟩ := h d rfl
  have hadd : C (add (get (Obj.content d))) := by
    refine hC _ ?_
    rw [hp.get_view]; exact view_ok hp.ok (docBuilt_inv hb)
  obtain ⟨d1, h1, -, h3, h4⟩ := hp.addObj (docBuilt_inv hb) add hadd
  rw [h1] at hd
  cases hd
  rintro _ ⟨⟩
  exact ⟨hp.addBuilt hb hadd h1, rest_head h4 he, by rw [h3]; exact hG _ hg⟩

end edits

theorem after_inv {t : Bool} {x : Res (DocPtr × List LogEntry)} {r : After}
    (h : after t x = .ok r) : x = .ok (r.doc, r.log) := by
  unfold after at h
  cases x with
  | error f => cases h
  | ok y => cases h; rfl

theorem editLast_inv {α : Type} {cx : Ctx} {sl : Slot (List α)} {f : α → Res α} {p p' : DocPtr}
    (h : editLast cx sl f p = .ok p') :
    ∃ L, onLast cx sl (fun x => do
      let y ← f x
      .ok (y, [])) p = .ok (p', L) := by
  unfold editLast at h
  cases hx : onLast cx sl (fun x => do
      let y ← f x
      .ok (y, [])) p with
  | error e => rw [hx] at h; cases h
  | ok r => rw [hx] at h; cases h; exact ⟨_, rfl⟩

/-! ## changes that keep the flags and the lists -/

/-- The flags are as before, or set to 0 or 1. -/
def FlagsKept (p p' : RTree PVal) : Prop :=
  ∀ f ∈ flagProps, getNumProp p' f = getNumProp p f ∨ getNumProp p' f = some (.num 0) ∨
    getNumProp p' f = some (.num 1)

theorem FlagsKept.refl (p : RTree PVal) : FlagsKept p p := fun _ _ => .inl rfl

theorem FlagsKept.trans {a b c : RTree PVal} (h : FlagsKept a b) (h' : FlagsKept b c) :
    FlagsKept a c := by
  intro f hf
  rcases h' f hf with e | e | e
  · rw [e]; exact h f hf
  · exact .inr (.inl e)
  · exact .inr (.inr e)

structure GroupKept (g g' : Group) : Prop where
  flags : FlagsKept g.props g'.props
  packages : g.packages ≠ none → g'.packages ≠ none

theorem flagsSet_kept {g g' : Group} (h : GroupKept g g') (hs : FlagsSet g) : FlagsSet g' := by
  intro p hp
  rcases h.flags p hp with e | e | e
  · rw [e]; exact hs p hp
  · rw [e]; simp
  · rw [e]; simp

theorem flagOk_kept {g g' : Group} (h : GroupKept g g')
    (hs : ∀ p ∈ flagProps, FlagOk (getNumProp g.props p)) :
    ∀ p ∈ flagProps, FlagOk (getNumProp g'.props p) := by
  intro p hp
  rcases h.flags p hp with e | e | e
  · rw [e]; exact hs p hp
  · exact .inr (.inl e)
  · exact .inr (.inr e)

/-- The groups of a document after a change of the last one. -/
theorem whole_group {c : DocContent} {gs : List Group} {g g' : Group} (hc : c.groups = gs ++ [g])
    (h : GroupKept g g') (hw : Whole c) : Whole { c with groups := gs ++ [g'] } := by
  have hg : g ∈ c.groups := by rw [hc]; simp
  have hsub : ∀ x ∈ gs, x ∈ c.groups := fun x hx => by rw [hc]; exact List.mem_append_left _ hx
  refine ⟨?_, ?_, hw.ids, hw.lists⟩
  · intro x hx
    rcases List.mem_append.1 hx with hx | hx
    · exact hw.packages x (hsub x hx)
    · rw [List.mem_singleton.1 hx]; exact h.packages (hw.packages g hg)
  · intro x hx
    rcases List.mem_append.1 hx with hx | hx
    · exact hw.flags x (hsub x hx)
    · rw [List.mem_singleton.1 hx]; exact flagOk_kept h (hw.flags g hg)

theorem good_group {o : Bool} {c : DocContent} {gs : List Group} {g g' : Group}
    (hc : c.groups = gs ++ [g]) (h : GroupKept g g') (hw : Good o c) :
    Good o { c with groups := gs ++ [g'] } := by
  refine ⟨whole_group hc h hw.whole, ?_⟩
  have hfl := hw.flags
  rw [hc] at hfl
  simp only [List.dropLast_concat] at hfl ⊢
  rcases hfl with hf | ⟨ho, hf⟩
  · refine .inl fun x hx => ?_
    rcases List.mem_append.1 hx with hx | hx
    · exact hf x (List.mem_append_left _ hx)
    · rw [List.mem_singleton.1 hx]; exact flagsSet_kept h (hf g (by simp))
  · exact .inr ⟨ho, hf⟩

/-- The end of a group: its flags are set. -/
theorem good_close {o : Bool} {c : DocContent} {gs : List Group} {g g' : Group}
    (hc : c.groups = gs ++ [g]) (h : GroupKept g g') (hs : FlagsSet g') (hw : Good o c) :
    Good false { c with groups := gs ++ [g'] } := by
  refine ⟨whole_group hc h hw.whole, .inl fun x hx => ?_⟩
  have hfl := hw.flags
  rw [hc] at hfl
  simp only [List.dropLast_concat] at hfl
  rcases List.mem_append.1 hx with hx | hx
  · rcases hfl with hf | ⟨ho, hf⟩
    · exact hf x (List.mem_append_left _ hx)
    · exact hf x hx
  · rw [List.mem_singleton.1 hx]; exact hs

theorem good_category {o : Bool} {c : DocContent} {gs : List Category} {g g' : Category}
    (hc : c.categories = gs ++ [g]) (h : g.groupIds ≠ none → g'.groupIds ≠ none) (hw : Good o c) :
    Good o { c with categories := gs ++ [g'] } := by
  refine ⟨⟨hw.whole.packages, hw.whole.flags, ?_, hw.whole.lists⟩, hw.flags⟩
  intro x hx
  rcases List.mem_append.1 hx with hx | hx
  · exact hw.whole.ids x (by rw [hc]; exact List.mem_append_left _ hx)
  · rw [List.mem_singleton.1 hx]; exact h (hw.whole.ids g (by rw [hc]; simp))

theorem good_env {o : Bool} {c : DocContent} {gs : List Env} {g g' : Env}
    (hc : c.environments = gs ++ [g]) (h1 : g.groupList ≠ none → g'.groupList ≠ none)
    (h2 : g.optionList ≠ none → g'.optionList ≠ none) (hw : Good o c) :
    Good o { c with environments := gs ++ [g'] } := by
  refine ⟨⟨hw.whole.packages, hw.whole.flags, hw.whole.ids, ?_⟩, hw.flags⟩
  intro x hx
  rcases List.mem_append.1 hx with hx | hx
  · exact hw.whole.lists x (by rw [hc]; exact List.mem_append_left _ hx)
  · rw [List.mem_singleton.1 hx]
    have := hw.whole.lists g (by rw [hc]; simp)
    exact ⟨h1 this.1, h2 this.2⟩

section runs
variable {lt : UInt8 → UInt8 → Bool}

/-- A setter keeps the flags unless it removes one or writes another number. -/
theorem run_kept {t : RTree PVal} (h : PropInv lt t) (c : PropCall)
    (hc : ∀ w, c.write = some w → ∀ f ∈ flagProps, w.1 = f.key → w.2 = some (.num 0) ∨
      w.2 = some (.num 1)) : FlagsKept t (c.run lt t) := by
  intro f hf
  unfold getNumProp
  rw [h.run_get]
  cases hw : c.write with
  | none => exact .inl rfl
  | some w =>
    simp only
    by_cases e : f.key = w.1
    · rw [if_pos e]; exact .inr (hc w hw f hf e.symm)
    · rw [if_neg e]; exact .inl rfl

theorem str_kept {t : RTree PVal} (h : PropInv lt t) (p : StrProp) (s : Option Bytes) :
    FlagsKept t ((PropCall.str p s).run lt t) := by
  refine run_kept h _ fun w hw f hf e => ?_
  exfalso
  cases s with
  | none => cases hw
  | some b =>
    cases hw
    revert e
    have : ∀ p : StrProp, ∀ f ∈ flagProps, p.key ≠ f.key := by
      intro p; cases p <;> decide
    exact this p f hf

theorem order_kept {t : RTree PVal} (h : PropInv lt t) (n : Int) :
    FlagsKept t ((PropCall.num .displayOrder n false).run lt t) := by
  refine run_kept h _ fun w hw f hf e => ?_
  exfalso
  cases hw
  revert e
  have : ∀ f ∈ flagProps, NumProp.displayOrder.key ≠ f.key := by decide
  exact this f hf

theorem flag_kept {t : RTree PVal} (h : PropInv lt t) (p : NumProp) {n : Int} (hn : n = 0 ∨ n = 1) :
    FlagsKept t ((PropCall.num p n false).run lt t) := by
  refine run_kept h _ fun w hw f hf e => ?_
  cases hw
  rcases hn with rfl | rfl
  · exact .inl rfl
  · exact .inr rfl

theorem arches_kept {t : RTree PVal} (h : PropInv lt t) (l : Option (List CStr)) :
    FlagsKept t ((PropCall.arches l).run lt t) := by
  refine run_kept h _ fun w hw f hf e => ?_
  exfalso
  cases hw
  revert e
  have : ∀ f ∈ flagProps, b!"arches" ≠ f.key := by decide
  exact this f hf

end runs

/-! ## handlers -/

section handlers
variable {cx : Ctx} {enc : Option Bytes} {o : Bool} {p p' : DocPtr}

theorem groups_any {f : Group → Res (Group × List LogEntry)} {L : List LogEntry}
    (h : DocOk cx.lt enc o p) (hf : onLast cx groupsSlot f p = .ok (p', L))
    (hk : ∀ x y L, GroupBuilt cx.lt x → f x = .ok (y, L) → GroupBuilt cx.lt y ∧ GroupKept x y) :
    DocOk cx.lt enc o p' :=
  onLast_any groupsAt h hf (fun x y L hx hy => (hk x y L hx hy).1)
    fun _ _ x y L hc hx hy hg => good_group hc (hk x y L hx hy).2 hg

theorem categories_any {f : Category → Res (Category × List LogEntry)} {L : List LogEntry}
    (h : DocOk cx.lt enc o p) (hf : onLast cx categoriesSlot f p = .ok (p', L))
    (hk : ∀ x y L, CategoryBuilt cx.lt x → f x = .ok (y, L) → CategoryBuilt cx.lt y ∧
      (x.groupIds ≠ none → y.groupIds ≠ none)) :
    DocOk cx.lt enc o p' :=
  onLast_any categoriesAt h hf (fun x y L hx hy => (hk x y L hx hy).1)
    fun _ _ x y L hc hx hy hg => good_category hc (hk x y L hx hy).2 hg

theorem envs_any {f : Env → Res (Env × List LogEntry)} {L : List LogEntry}
    (h : DocOk cx.lt enc o p) (hf : onLast cx environmentsSlot f p = .ok (p', L))
    (hk : ∀ x y L, EnvBuilt cx.lt x → f x = .ok (y, L) → EnvBuilt cx.lt y ∧
      (x.groupList ≠ none → y.groupList ≠ none) ∧ (x.optionList ≠ none → y.optionList ≠ none)) :
    DocOk cx.lt enc o p' :=
  onLast_any environmentsAt h hf (fun x y L hx hy => (hk x y L hx hy).1)
    fun _ _ x y L hc hx hy hg => good_env hc (hk x y L hx hy).2.1 (hk x y L hx hy).2.2 hg

/-- What `<id>`, `<name>`, `<description>` and `<display_order>` do to an entry. -/
structure FieldStep {α : Type} (cx : Ctx) (o : EntryOps α) (x y : α) : Prop where
  change : y = x ∨ (∃ s v, y = o.setProps x ((PropCall.str s (some v)).run cx.lt (o.props x))) ∨
    (∃ n, y = o.setProps x ((PropCall.num .displayOrder n false).run cx.lt (o.props x))) ∨
    (∃ k s, y = o.setNameByLang x ((o.nameByLang x).set cx.lt k (some (.str s)))) ∨
    (∃ k s, y = o.setDescByLang x ((o.descByLang x).set cx.lt k (some (.str s))))

theorem FieldStep.built {α : Type} {ops : EntryOps α} {P : α → Prop} {get : DocContent → List α}
    {put : DocContent → List α → DocContent} (he : EntryOk cx.lt ops P get put) {x y : α}
    (h : FieldStep cx ops x y) (hx : P x) : P y := by
  rcases h.change with rfl | ⟨s, v, rfl⟩ | ⟨n, rfl⟩ | ⟨k, s, rfl⟩ | ⟨k, s, rfl⟩
  · exact hx
  · exact he.prop _ hx
  · exact he.prop _ hx
  · exact he.name k s hx
  · exact he.desc k s hx

theorem FieldStep.group {x y : Group} (h : FieldStep cx groupOps x y) (hx : GroupBuilt cx.lt x) :
    GroupKept x y := by
  have hi := (groupBuilt_inv hx).props
  rcases h.change with rfl | ⟨s, v, rfl⟩ | ⟨n, rfl⟩ | ⟨k, s, rfl⟩ | ⟨k, s, rfl⟩
  · exact ⟨.refl _, id⟩
  · exact ⟨str_kept hi s (some v), id⟩
  · exact ⟨order_kept hi n, id⟩
  · exact ⟨.refl _, id⟩
  · exact ⟨.refl _, id⟩

theorem FieldStep.category {x y : Category} (h : FieldStep cx categoryOps x y) :
    y.groupIds = x.groupIds := by
  rcases h.change with rfl | ⟨s, v, rfl⟩ | ⟨n, rfl⟩ | ⟨k, s, rfl⟩ | ⟨k, s, rfl⟩ <;> rfl

theorem FieldStep.env {x y : Env} (h : FieldStep cx envOps x y) :
    y.groupList = x.groupList ∧ y.optionList = x.optionList := by
  rcases h.change with rfl | ⟨s, v, rfl⟩ | ⟨n, rfl⟩ | ⟨k, s, rfl⟩ | ⟨k, s, rfl⟩ <;> exact ⟨rfl, rfl⟩

theorem idNameDesc_step {α : Type} (ops : EntryOps α) (e : Elem) (q : Pos) (b : Bytes) (x : α) :
    FieldStep cx ops x (idNameDesc cx ops e q b x).1 := by
  constructor
  unfold idNameDesc
  split
  · exact .inr (.inl ⟨.id, b, rfl⟩)
  · split
    · split
      · exact .inr (.inr (.inr (.inl ⟨_, _, rfl⟩)))
      · exact .inr (.inl ⟨.name, b, rfl⟩)
    · split
      · exact .inr (.inr (.inr (.inr ⟨_, _, rfl⟩)))
      · exact .inr (.inl ⟨.desc, b, rfl⟩)

theorem displayOrder_step {α : Type} {ops : EntryOps α} {e : Elem} {q : Pos} {t : Option Bytes}
    {x y : α} {L : List LogEntry} (hi : PropInv cx.lt (ops.props x))
    (h : displayOrder cx ops e q t x = .ok (y, L)) : FieldStep cx ops x y := by
  constructor
  obtain ⟨m, hm⟩ := order_is_num hi
  simp only [displayOrder, hm] at h
  cases t with
  | none => cases h
  | some b =>
    simp only [scanInto] at h
    cases hs : scanInt b with
    | error f => rw [hs] at h; cases h
    | ok r =>
      rw [hs] at h
      cases r with
      | none => cases h; exact .inr (.inr (.inl ⟨m, rfl⟩))
      | some n => cases h; exact .inr (.inr (.inl ⟨n, rfl⟩))

theorem mapLast_some {α : Type} {f : α → α} {l l' : Option (List α)} (h : mapLast f l = .ok l') :
    l' ≠ none := by
  unfold mapLast at h
  cases l with
  | none => cases h
  | some l =>
    simp only at h
    cases hl : lastOf l with
    | error e => rw [hl] at h; cases h
    | ok x => rw [hl] at h; cases h; simp

theorem idNameDescOn_inv {α : Type} {ops : EntryOps α} {e : Elem} {q : Pos} {t : Option Bytes}
    {x y : α} {L : List LogEntry} (h : (match t with
      | none => do
        let n ← e.type.infoName
        .ok (x, [entry 24 (some n) q])
      | some b => .ok (idNameDesc cx ops e q b x) : Res (α × List LogEntry)) = .ok (y, L)) :
    FieldStep cx ops x y := by
  cases t with
  | none =>
    simp only at h
    cases hn : e.type.infoName with
    | error f => rw [hn] at h; cases h
    | ok n => rw [hn] at h; cases h; exact ⟨.inl rfl⟩
  | some b =>
    simp only [Except.ok.injEq] at h
    have := idNameDesc_step (cx := cx) ops e q b x
    rw [h] at this
    exact this

theorem groupFields_any {f : Group → Res (Group × List LogEntry)} {L : List LogEntry}
    (h : DocOk cx.lt enc o p) (hf : onLast cx groupOps.slot f p = .ok (p', L))
    (hs : ∀ x y L, GroupBuilt cx.lt x → f x = .ok (y, L) → FieldStep cx groupOps x y) :
    DocOk cx.lt enc o p' :=
  groups_any h hf fun x y L hx hy =>
    ⟨(hs x y L hx hy).built groupEntry hx, (hs x y L hx hy).group hx⟩

theorem categoryFields_any {f : Category → Res (Category × List LogEntry)} {L : List LogEntry}
    (h : DocOk cx.lt enc o p) (hf : onLast cx categoryOps.slot f p = .ok (p', L))
    (hs : ∀ x y L, CategoryBuilt cx.lt x → f x = .ok (y, L) → FieldStep cx categoryOps x y) :
    DocOk cx.lt enc o p' :=
  categories_any h hf fun x y L hx hy =>
    ⟨(hs x y L hx hy).built categoryEntry hx, by rw [(hs x y L hx hy).category]; exact id⟩

theorem envFields_any {f : Env → Res (Env × List LogEntry)} {L : List LogEntry}
    (h : DocOk cx.lt enc o p) (hf : onLast cx envOps.slot f p = .ok (p', L))
    (hs : ∀ x y L, EnvBuilt cx.lt x → f x = .ok (y, L) → FieldStep cx envOps x y) :
    DocOk cx.lt enc o p' :=
  envs_any h hf fun x y L hx hy =>
    ⟨(hs x y L hx hy).built envEntry hx, by rw [(hs x y L hx hy).env.1]; exact id,
      by rw [(hs x y L hx hy).env.2]; exact id⟩

theorem idNameDescPost_any {e : Elem} {below : List Elem} {q : Pos} {t : Option Bytes} {r : After}
    (h : DocOk cx.lt enc o p) (hr : idNameDescPost cx e below q t p = .ok r) :
    DocOk cx.lt enc o r.doc := by
  unfold idNameDescPost at hr
  cases ha : e.ancestor below with
  | error f => rw [ha] at hr; cases hr
  | ok a =>
    rw [ha] at hr
    simp only [bind, Except.bind] at hr
    unfold idNameDescOn at hr
    split at hr
    · exact groupFields_any h (after_inv hr) fun x y L _ hy => idNameDescOn_inv hy
    · split at hr
      · exact categoryFields_any h (after_inv hr) fun x y L _ hy => idNameDescOn_inv hy
      · exact envFields_any h (after_inv hr) fun x y L _ hy => idNameDescOn_inv hy

theorem displayOrderPost_any {e : Elem} {below : List Elem} {q : Pos} {t : Option Bytes} {r : After}
    (h : DocOk cx.lt enc o p) (hr : displayOrderPost cx e below q t p = .ok r) :
    DocOk cx.lt enc o r.doc := by
  unfold displayOrderPost at hr
  cases ha : e.ancestor below with
  | error f => rw [ha] at hr; cases hr
  | ok a =>
    rw [ha] at hr
    simp only [bind, Except.bind] at hr
    split at hr
    · exact categoryFields_any h (after_inv hr) fun x y L hx hy =>
        displayOrder_step (categoryBuilt_inv hx).props hy
    · split at hr
      · exact envFields_any h (after_inv hr) fun x y L hx hy =>
          displayOrder_step (envBuilt_inv hx).props hy
      · exact groupFields_any h (after_inv hr) fun x y L hx hy =>
          displayOrder_step (groupBuilt_inv hx).props hy

theorem flagText_any {np : NumProp} {q : Pos} {t : Option Bytes} {r : After}
    (h : DocOk cx.lt enc o p) (hr : flagText cx np.key q t p = .ok r) :
    DocOk cx.lt enc o r.doc := by
  have key : ∀ n : Int, n = 0 ∨ n = 1 → setFlag cx np.key n p = .ok r → DocOk cx.lt enc o r.doc := by
    intro n hn hr
    unfold setFlag at hr
    refine groups_any h (after_inv hr) fun x y L hx hy => ?_
    cases hy
    exact ⟨.prop (.num np n false) hx, flag_kept (groupBuilt_inv hx).props np hn, id⟩
  unfold flagText at hr
  split at hr
  · exact key 0 (.inl rfl) hr
  · split at hr
    · exact key 1 (.inr rfl) hr
    · cases he : entries cx groupsSlot p with
      | error f => rw [he] at hr; cases hr
      | ok l => rw [he] at hr; cases hr; exact (entries_any groupsAt h he).1

theorem strictFlag_any {np : NumProp} {q : Pos} {t : Option Bytes} {r : After}
    (h : DocOk cx.lt enc o p) (hr : strictFlagPost cx np.key q t p = .ok r) :
    DocOk cx.lt enc o r.doc := by
  unfold strictFlagPost at hr
  cases t with
  | none =>
    simp only at hr
    cases he : entries cx groupsSlot p with
    | error f => rw [he] at hr; cases hr
    | ok l => rw [he] at hr; cases hr
  | some b => exact flagText_any h hr

theorem defaultFlag_step {np : NumProp} (b : Bool) {g : Group}
    (hg : GroupBuilt cx.lt g) :
    GroupBuilt cx.lt { g with props := defaultFlag cx np.key b g.props } ∧
      FlagsKept g.props (defaultFlag cx np.key b g.props) ∧
      getNumProp (defaultFlag cx np.key b g.props) np ≠ none := by
  unfold defaultFlag
  cases hv : g.props.get np.key with
  | some v =>
    exact ⟨hg, .refl _, by simp only [getNumProp, hv]; simp⟩
  | none =>
    have hi := (groupBuilt_inv hg).props
    refine ⟨.prop (.num np (if b then 1 else 0) false) hg, flag_kept hi np (by cases b <;> simp), ?_⟩
    have := hi.run_get (.num np (if b then 1 else 0) false) np.key
    simp only [PropCall.write, if_true] at this
    show (PropCall.run cx.lt g.props (.num np (if b then 1 else 0) false)).get np.key ≠ none
    rw [this]
    simp

theorem kept_some {a b : RTree PVal} (h : FlagsKept a b) {np : NumProp} (hnp : np ∈ flagProps)
    (ha : getNumProp a np ≠ none) : getNumProp b np ≠ none := by
  rcases h np hnp with e | e | e
  · rw [e]; exact ha
  · rw [e]; simp
  · rw [e]; simp

theorem defaultFlags_step {g : Group} (hg : GroupBuilt cx.lt g) :
    GroupBuilt cx.lt { g with props := defaultFlags cx g.props } ∧
      GroupKept g { g with props := defaultFlags cx g.props } ∧
      FlagsSet { g with props := defaultFlags cx g.props } := by
  obtain ⟨a1, a2, a3⟩ := defaultFlag_step (np := .dflt) cx.opts.dflt hg
  obtain ⟨b1, b2, b3⟩ := defaultFlag_step (np := .uservisible) cx.opts.uservisible a1
  obtain ⟨c1, c2, c3⟩ := defaultFlag_step (np := .biarchonly) cx.opts.biarchonly b1
  refine ⟨c1, ⟨(a2.trans b2).trans c2, id⟩, ?_⟩
  intro q hq
  simp only [flagProps, List.mem_cons, List.not_mem_nil, or_false] at hq
  rcases hq with rfl | rfl | rfl
  · exact kept_some (b2.trans c2) (by decide) a3
  · exact kept_some c2 (by decide) b3
  · exact c3

theorem groupPost_any {q : Pos} {r : After} (h : DocOk cx.lt enc o p)
    (hr : groupPost cx q p = .ok r) : DocOk cx.lt enc false r.doc := by
  unfold groupPost at hr
  refine onLast_any groupsAt h (after_inv hr) ?_ ?_
  · intro x y L hx hy; cases hy; exact (defaultFlags_step hx).1
  · intro c gs x y L hc hx hy hg
    cases hy
    exact good_close hc (defaultFlags_step hx).2.1 (defaultFlags_step hx).2.2 hg

theorem checkList_inv {α β : Type} {sl : Slot (List α)} {list : α → Option (List β)} {ty : ElemType}
    {q : Pos} {r : After} (hr : checkList cx sl list ty q p = .ok r) :
    ∃ f : α → Res (α × List LogEntry), onLast cx sl f p = .ok (r.doc, r.log) ∧
      ∀ x y L, f x = .ok (y, L) → y = x := by
  refine ⟨_, after_inv hr, ?_⟩
  intro x y L hy
  cases he : emptyList (list x) ty q with
  | error f => rw [he] at hy; cases hy
  | ok l => rw [he] at hy; cases hy; rfl

theorem groupSame_any {f : Group → Res (Group × List LogEntry)} {L : List LogEntry}
    (h : DocOk cx.lt enc o p) (hf : onLast cx groupsSlot f p = .ok (p', L))
    (hs : ∀ x y L, f x = .ok (y, L) → y = x) : DocOk cx.lt enc o p' :=
  groups_any h hf fun x y L hx hy => by rw [hs x y L hy]; exact ⟨hx, .refl _, id⟩

theorem categorySame_any {f : Category → Res (Category × List LogEntry)} {L : List LogEntry}
    (h : DocOk cx.lt enc o p) (hf : onLast cx categoriesSlot f p = .ok (p', L))
    (hs : ∀ x y L, f x = .ok (y, L) → y = x) : DocOk cx.lt enc o p' :=
  categories_any h hf fun x y L hx hy => by rw [hs x y L hy]; exact ⟨hx, id⟩

theorem envSame_any {f : Env → Res (Env × List LogEntry)} {L : List LogEntry}
    (h : DocOk cx.lt enc o p) (hf : onLast cx environmentsSlot f p = .ok (p', L))
    (hs : ∀ x y L, f x = .ok (y, L) → y = x) : DocOk cx.lt enc o p' :=
  envs_any h hf fun x y L hx hy => by rw [hs x y L hy]; exact ⟨hx, id, id⟩

theorem grouplistPost_any {e : Elem} {below : List Elem} {q : Pos} {r : After}
    (h : DocOk cx.lt enc o p) (hr : grouplistPost cx e below q p = .ok r) :
    DocOk cx.lt enc o r.doc := by
  unfold grouplistPost at hr
  cases ha : e.ancestor below with
  | error f => rw [ha] at hr; cases hr
  | ok a =>
    rw [ha] at hr
    simp only [bind, Except.bind] at hr
    split at hr
    · obtain ⟨f, h1, h2⟩ := checkList_inv hr
      exact envSame_any h h1 h2
    · obtain ⟨f, h1, h2⟩ := checkList_inv hr
      exact categorySame_any h h1 h2

theorem packagereqPost_any {e : Elem} {q : Pos} {t : Option Bytes} {r : After}
    (h : DocOk cx.lt enc o p) (hr : packagereqPost cx e q t p = .ok r) :
    DocOk cx.lt enc o r.doc := by
  unfold packagereqPost at hr
  cases t with
  | some b =>
    simp only at hr
    refine groups_any h (after_inv hr) fun x y L hx hy => ?_
    cases hm : mapLast (fun q : Package => q.setName (some b)) x.packages with
    | error f => rw [hm] at hy; cases hy
    | ok l =>
      rw [hm] at hy
      cases hy
      exact ⟨.setPackages l hx, .refl _, fun _ => mapLast_some hm⟩
  | none =>
    simp only at hr
    cases he : entries cx groupsSlot p with
    | error f => rw [he] at hr; cases hr
    | ok l =>
      rw [he] at hr
      simp only [bind, Except.bind] at hr
      cases hn : e.type.infoName with
      | error f => rw [hn] at hr; cases hr
      | ok n => rw [hn] at hr; cases hr; exact (entries_any groupsAt h he).1

theorem groupidName_any {pl : IdPlace} {t : Option Bytes} (h : DocOk cx.lt enc o p)
    (hr : groupidName cx t pl p = .ok p') : DocOk cx.lt enc o p' := by
  unfold groupidName at hr
  cases pl with
  | option =>
    obtain ⟨L, hr⟩ := editLast_inv hr
    refine envs_any h hr fun x y L hx hy => ?_
    cases hm : mapLast (fun q : GroupId => q.setName t) x.optionList with
    | error f => rw [hm] at hy; cases hy
    | ok l => rw [hm] at hy; cases hy; exact ⟨.setOptions l hx, id, fun _ => mapLast_some hm⟩
  | envList =>
    obtain ⟨L, hr⟩ := editLast_inv hr
    refine envs_any h hr fun x y L hx hy => ?_
    cases hm : mapLast (fun q : GroupId => q.setName t) x.groupList with
    | error f => rw [hm] at hy; cases hy
    | ok l => rw [hm] at hy; cases hy; exact ⟨.setGroups l hx, fun _ => mapLast_some hm, id⟩
  | category =>
    obtain ⟨L, hr⟩ := editLast_inv hr
    refine categories_any h hr fun x y L hx hy => ?_
    cases hm : mapLast (fun q : GroupId => q.setName t) x.groupIds with
    | error f => rw [hm] at hy; cases hy
    | ok l => rw [hm] at hy; cases hy; exact ⟨.setIds l hx, fun _ => mapLast_some hm⟩

theorem groupidPost_any {e : Elem} {below : List Elem} {t : Option Bytes} {r : After}
    (h : DocOk cx.lt enc o p) (hr : groupidPost cx e below t p = .ok r) :
    DocOk cx.lt enc o r.doc := by
  unfold groupidPost at hr
  cases hp : idPlace e below with
  | error f => rw [hp] at hr; cases hr
  | ok pl =>
    rw [hp] at hr
    simp only [bind, Except.bind] at hr
    cases hn : groupidName cx t pl p with
    | error f => rw [hn] at hr; cases hr
    | ok d => rw [hn] at hr; cases hr; exact groupidName_any h hn

/-- The handlers at the end of elements other than groups. -/
theorem postproc_any {e : Elem} {below : List Elem} {q : Pos} {t : Option Bytes} {r : After}
    (h : DocOk cx.lt enc o p) (hr : postproc cx e below q t p = .ok r) :
    DocOk cx.lt enc o r.doc ∧ (e.type = .group → DocOk cx.lt enc false r.doc) := by
  unfold postproc at hr
  cases ht : e.type <;> rw [ht] at hr <;> simp only at hr <;>
    first
    | (refine ⟨?_, fun he => by cases he⟩; cases hr; exact h)
    | skip
  · exact ⟨(groupPost_any h hr).weaken o, fun _ => groupPost_any h hr⟩
  all_goals refine ⟨?_, fun he => by cases he⟩
  · exact idNameDescPost_any h hr
  · exact idNameDescPost_any h hr
  · exact idNameDescPost_any h hr
  · exact flagText_any (np := .dflt) h hr
  · unfold langonlyPost at hr
    refine groups_any h (after_inv hr) fun x y L hx hy => ?_
    cases hy
    exact ⟨.prop (.str .langonly t) hx, str_kept (groupBuilt_inv hx).props .langonly t, id⟩
  · exact strictFlag_any (np := .uservisible) h hr
  · exact strictFlag_any (np := .biarchonly) h hr
  · obtain ⟨f, h1, h2⟩ := checkList_inv hr
    exact groupSame_any h h1 h2
  · exact packagereqPost_any h hr
  · refine categorySame_any h (after_inv hr) fun x y L hy => ?_
    cases hy; rfl
  · exact grouplistPost_any h hr
  · exact groupidPost_any h hr
  · exact displayOrderPost_any h hr
  · refine envSame_any h (after_inv hr) fun x y L hy => ?_
    cases hy; rfl

theorem docPre_any (hr : docPre enc = .ok p') : DocOk cx.lt enc o p' := by
  unfold docPre at hr
  cases hc : Doc.create (some (some (compsStr enc))) with
  | error f => rw [hc] at hr; cases hr
  | ok d =>
    rw [hc] at hr
    cases hr
    rintro _ ⟨⟩
    have h1 := (content_create (lt := cx.lt) hc).2
    refine ⟨.create _ hc, by cases hc; exact ⟨rfl, rfl, nofun, nofun, nofun⟩, ?_⟩
    rw [h1]
    exact ⟨⟨by simp, by simp, by simp, by simp⟩, .inl (by simp)⟩

theorem archProps_step (e : Elem) (t : RTree PVal) :
    archProps cx e t = t ∨ ∃ l, archProps cx e t = (PropCall.arches l).run cx.lt t := by
  unfold archProps
  split
  · exact .inr ⟨_, rfl⟩
  · exact .inl rfl

theorem entryPre_inv {α : Type} {ops : EntryOps α} {create : α} {e : Elem}
    (hr : entryPre cx ops create e p = .ok p') :
    ∃ d d', p = .live d ∧ p' = .live d' ∧ Doc.addObj cx.lt ops.slot
      (· ++ [ops.setProps create (archProps cx e (ops.props create))]) d = .ok d' := by
  unfold entryPre at hr
  cases p with
  | null => cases hr
  | freed => cases hr
  | live d =>
    simp only [DocPtr.deref, bind, Except.bind] at hr
    cases hd : Doc.addObj cx.lt ops.slot
        (· ++ [ops.setProps create (archProps cx e (ops.props create))]) d with
    | error f => rw [hd] at hr; cases hr
    | ok d' => rw [hd] at hr; cases hr; exact ⟨d, d', rfl, rfl, hd⟩

theorem mem_concat {α : Type} {P : α → Prop} {l : List α} {x : α} (h : ∀ y ∈ l, P y) (hx : P x) :
    ∀ y ∈ l ++ [x], P y := by
  intro y hy
  rcases List.mem_append.1 hy with hy | hy
  · exact h y hy
  · rw [List.mem_singleton.1 hy]; exact hx

theorem groupPre_any {e : Elem} (h : DocOk cx.lt enc false p)
    (hr : entryPre cx groupOps Group.create e p = .ok p') : DocOk cx.lt enc true p' := by
  obtain ⟨d, d', rfl, rfl, hd⟩ := entryPre_inv hr
  have hnew : GroupBuilt cx.lt { Group.create with props := archProps cx e Group.create.props } ∧
      FlagsKept Group.create.props (archProps cx e Group.create.props) := by
    rcases archProps_step (cx := cx) e Group.create.props with h | ⟨l, h⟩
    · rw [h]; exact ⟨.create, .refl _⟩
    · rw [h]; exact ⟨.prop (.arches l) .create, arches_kept (groupBuilt_inv .create).props l⟩
  refine addObj_any groupsAt h (fun l hl => mem_concat hl hnew.1) hd fun c hg => ?_
  have hall : ∀ g ∈ c.groups, FlagsSet g := by
    rcases hg.flags with h | ⟨h, -⟩
    · exact h
    · cases h
  refine ⟨⟨mem_concat hg.whole.packages (by simp [Group.create]), mem_concat hg.whole.flags ?_, hg.whole.ids,
    hg.whole.lists⟩, .inr ⟨rfl, ?_⟩⟩
  · intro q hq
    rcases hnew.2 q hq with h | h | h
    · left
      show getNumProp (archProps cx e Group.create.props) q = none
      rw [h]; exact create_get _
    · exact .inr (.inl h)
    · exact .inr (.inr h)
  · simp only [List.dropLast_concat]; exact hall

theorem categoryPre_any {e : Elem} (h : DocOk cx.lt enc o p)
    (hr : entryPre cx categoryOps Category.create e p = .ok p') : DocOk cx.lt enc o p' := by
  obtain ⟨d, d', rfl, rfl, hd⟩ := entryPre_inv hr
  have hnew : CategoryBuilt cx.lt
      { Category.create with props := archProps cx e Category.create.props } := by
    rcases archProps_step (cx := cx) e Category.create.props with h | ⟨l, h⟩
    · rw [h]; exact .create
    · rw [h]; exact .prop (.arches l) .create
  refine addObj_any categoriesAt h (fun l hl => mem_concat hl hnew) hd fun c hg => ?_
  exact ⟨⟨hg.whole.packages, hg.whole.flags,
    mem_concat hg.whole.ids (by simp [Category.create]), hg.whole.lists⟩, hg.flags⟩

theorem envPre_any {e : Elem} (h : DocOk cx.lt enc o p)
    (hr : entryPre cx envOps Env.create e p = .ok p') : DocOk cx.lt enc o p' := by
  obtain ⟨d, d', rfl, rfl, hd⟩ := entryPre_inv hr
  have hnew : EnvBuilt cx.lt { Env.create with props := archProps cx e Env.create.props } := by
    rcases archProps_step (cx := cx) e Env.create.props with h | ⟨l, h⟩
    · rw [h]; exact .create
    · rw [h]; exact .prop (.arches l) .create
  refine addObj_any environmentsAt h (fun l hl => mem_concat hl hnew) hd fun c hg => ?_
  exact ⟨⟨hg.whole.packages, hg.whole.flags, hg.whole.ids,
    mem_concat hg.whole.lists (by simp [Env.create])⟩, hg.flags⟩

theorem pairPre_inv {add : Doc → Bytes → CStr → Res Doc} {k v : Bytes} {e : Elem}
    (hr : pairPre add k v e p = .ok p') :
    ∃ d d' key s, p = .live d ∧ p' = .live d' ∧ add d key s = .ok d' := by
  unfold pairPre at hr
  cases p with
  | null => cases hr
  | freed => cases hr
  | live d =>
    simp only [DocPtr.deref, bind, Except.bind] at hr
    cases hk : e.attrs.get k with
    | none => rw [hk] at hr; cases hr
    | some key =>
      rw [hk] at hr
      simp only at hr
      cases hd : add d key (compsStr (e.attrs.get v)) with
      | error f => rw [hd] at hr; cases hr
      | ok d' => rw [hd] at hr; cases hr; exact ⟨d, d', key, _, rfl, rfl, hd⟩

theorem pairPre_any {σ : Type} {sl : Slot σ} {C : σ → Prop} {get : DocContent → σ}
    {put : DocContent → σ → DocContent} (hp : Placed cx.lt sl C get put)
    {add : σ → Bytes → CStr → σ} (hadd : ∀ t k s, C t → C (add t k s))
    {addD : Doc → Bytes → CStr → Res Doc}
    (haddD : ∀ d k s, addD d k s = Doc.addObj cx.lt sl (fun t => add t k s) d)
    (hput : ∀ c x, (put c x).groups = c.groups ∧ (put c x).categories = c.categories ∧
      (put c x).environments = c.environments)
    {k v : Bytes} {e : Elem} (h : DocOk cx.lt enc o p)
    (hr : pairPre addD k v e p = .ok p') : DocOk cx.lt enc o p' := by
  obtain ⟨d, d', key, s, rfl, rfl, hd⟩ := pairPre_inv hr
  rw [haddD] at hd
  refine addObj_any hp h (fun t ht => hadd t key s ht) hd fun c hg => ?_
  obtain ⟨h1, h2, h3⟩ := hput c (add (get c) key s)
  exact ⟨⟨by rw [h1]; exact hg.whole.packages, by rw [h1]; exact hg.whole.flags,
    by rw [h2]; exact hg.whole.ids, by rw [h3]; exact hg.whole.lists⟩, by rw [h1]; exact hg.flags⟩

theorem groupidPre_any {e : Elem} {below : List Elem} (h : DocOk cx.lt enc o p)
    (hr : groupidPre cx e below p = .ok p') : DocOk cx.lt enc o p' := by
  unfold groupidPre at hr
  cases hp : idPlace e below with
  | error f => rw [hp] at hr; cases hr
  | ok pl =>
    rw [hp] at hr
    simp only [bind, Except.bind] at hr
    unfold groupidAdd at hr
    cases pl with
    | option =>
      obtain ⟨L, hr⟩ := editLast_inv hr
      refine envs_any h hr fun x y L hx hy => ?_
      cases hy
      exact ⟨.addOption _ hx, by unfold Env.addOptionId; split <;> exact id,
        by unfold Env.addOptionId; split <;> simp⟩
    | envList =>
      obtain ⟨L, hr⟩ := editLast_inv hr
      refine envs_any h hr fun x y L hx hy => ?_
      cases hy
      exact ⟨.add _ hx, by unfold Env.addGroupId; split <;> simp,
        by unfold Env.addGroupId; split <;> exact id⟩
    | category =>
      obtain ⟨L, hr⟩ := editLast_inv hr
      refine categories_any h hr fun x y L hx hy => ?_
      cases hy
      exact ⟨.add _ hx, by unfold Category.addGroupId; split <;> simp⟩

/-- The handlers at the start of elements. -/
theorem preproc_any {e : Elem} {below : List Elem} (h : DocOk cx.lt enc o p)
    (hg : e.type = .group → o = false) (hr : preproc cx enc e below p = .ok p') :
    DocOk cx.lt enc (if e.type = .doc then false else if e.type = .group then true else o) p' := by
  unfold preproc at hr
  cases ht : e.type <;> rw [ht] at hr hg <;> simp only at hr <;>
    simp only [reduceCtorEq, if_true, if_false] <;>
    first
    | (cases hr; exact h)
    | skip
  · exact docPre_any hr
  · rw [hg rfl] at h; exact groupPre_any h hr
  · obtain ⟨L, hr⟩ := editLast_inv hr
    refine groups_any h hr fun x y L hx hy => ?_
    cases hy
    exact ⟨.add _ hx, by unfold Group.addPackage; split <;> exact .refl _,
      by unfold Group.addPackage; split <;> simp⟩
  · exact categoryPre_any h hr
  · exact groupidPre_any h hr
  · exact envPre_any h hr
  · exact pairPre_any whiteoutAt (add := fun t k s => MTree.set t k s)
      (fun _ k s h => .set k s h) (fun _ _ _ => rfl) (fun _ _ => ⟨rfl, rfl, rfl⟩) h hr
  · exact pairPre_any blacklistAt (add := fun t k s => MTree.set t k s)
      (fun _ k s h => .set k s h) (fun _ _ _ => rfl) (fun _ _ => ⟨rfl, rfl, rfl⟩) h hr
  · exact pairPre_any langpacksAt (add := fun t k s => t.set cx.lt k (some (.str s)))
      (fun _ k s h => .set k s h) (fun _ _ _ => rfl) (fun _ _ => ⟨rfl, rfl, rfl⟩) h hr

end handlers

/-! ## runs -/

/-- What every run keeps. -/
structure AnyInv (lt : UInt8 → UInt8 → Bool) (enc : Option Bytes) (s : Parsed) : Prop where
  coding : s.enc = enc
  doc : DocOk lt enc (openGroup s.stack) s.doc
  doctype : (s.doctypeName = none ∧ s.doctypeSysid = none ∧ s.doctypePubid = none) ∨
    (s.doctypeName ≠ none ∧ s.doctypeSysid ≠ none ∧ s.doctypePubid ≠ none)

theorem group_under {cx : Ctx} {st : List Elem} {n : Bytes} {attrs : List (Bytes × Bytes)}
    (h : (newElem cx st n attrs).type = .group) (hv : (newElem cx st n attrs).valid = true) :
    openGroup st = false := by
  have ht : getType n = .group := h
  simp only [newElem, ht] at hv
  cases st with
  | nil => rfl
  | cons top st =>
    simp only [ancestors] at hv
    have : top.type = .doc := by
      simp at hv
      exact hv.1.symm
    simp [openGroup, this]

theorem comps_type {cx : Ctx} {st : List Elem} {n : Bytes} {attrs : List (Bytes × Bytes)}
    (h : (newElem cx st n attrs).type = .doc) : (newElem cx st n attrs).valid = true := by
  have ht : getType n = .doc := h
  simp [newElem, ht, ancestors]

theorem step_any {lt : UInt8 → UInt8 → Bool} {cx : Ctx} (hlt : cx.lt = lt) {enc : Option Bytes}
    {s s' : Parsed} {e : Pos × Event} (hs : AnyInv lt enc s) (h : step cx s e = .ok s') :
    AnyInv lt enc s' := by
  subst hlt
  obtain ⟨q, e⟩ := e
  cases e with
  | start n attrs =>
    obtain ⟨L, d, -, hd, rfl⟩ := start_inv h
    obtain ⟨-, -, -, -, a5, a6, a7, a8⟩ := dropText_same s
    refine ⟨a5.trans hs.coding, ?_, ?_⟩
    · show DocOk cx.lt enc (openGroup (newElem cx s.stack n attrs :: s.stack)) d
      unfold openElem at hd
      cases hv : (newElem cx s.stack n attrs).valid with
      | false =>
        rw [hv] at hd
        simp only [Bool.false_eq_true, if_false, Except.ok.injEq] at hd
        subst hd
        have hne : (newElem cx s.stack n attrs).type ≠ .doc := by
          intro e; rw [comps_type e] at hv; cases hv
        simp only [openGroup, hne, if_false, hv, Bool.false_and, Bool.false_or]
        exact hs.doc
      | true =>
        rw [hv, hs.coding] at hd
        simp only [if_true] at hd
        have := preproc_any hs.doc (fun ht => group_under ht hv) hd
        simp only [openGroup, hv, Bool.true_and]
        by_cases h1 : (newElem cx s.stack n attrs).type = .doc
        · rw [if_pos h1] at this ⊢; exact this
        · rw [if_neg h1] at this ⊢
          by_cases h2 : (newElem cx s.stack n attrs).type = .group
          · rw [if_pos h2] at this; rw [h2]; exact this
          · rw [if_neg h2] at this
            rw [beq_false_of_ne h2]; exact this
    · show ((dropText s).doctypeName = none ∧ (dropText s).doctypeSysid = none ∧
          (dropText s).doctypePubid = none) ∨ ((dropText s).doctypeName ≠ none ∧
          (dropText s).doctypeSysid ≠ none ∧ (dropText s).doctypePubid ≠ none)
      rw [a6, a7, a8]; exact hs.doctype
  | text c =>
    simp only [step, Except.ok.injEq] at h
    subst h
    unfold charData
    split
    · exact hs
    · exact ⟨hs.coding, hs.doc, hs.doctype⟩
  | stop n =>
    obtain ⟨t, e, below, -, hst, h⟩ := end_inv h
    have hdoc := hs.doc
    rw [hst] at hdoc
    rcases h with ⟨-, d, L, hc, rfl⟩ | ⟨-, rfl⟩
    · refine ⟨hs.coding, ?_, hs.doctype⟩
      show DocOk cx.lt enc (openGroup below) d
      unfold closeElem at hc
      cases hv : e.valid with
      | false =>
        rw [hv] at hc
        simp only [Bool.false_eq_true, if_false, Except.ok.injEq, Prod.mk.injEq] at hc
        rw [← hc.1]
        simp only [openGroup, hv, Bool.false_and, Bool.false_or] at hdoc
        split at hdoc
        · exact hdoc.weaken _
        · exact hdoc
      | true =>
        rw [hv] at hc
        simp only [if_true] at hc
        cases hp : postproc cx e below q t s.doc with
        | error f => rw [hp] at hc; cases hc
        | ok r =>
          rw [hp] at hc
          cases hc
          obtain ⟨h1, h2⟩ := postproc_any hdoc hp
          by_cases hg : e.type = .group
          · exact (h2 hg).weaken _
          · simp only [openGroup, hv, Bool.true_and] at h1
            split at h1
            · exact h1.weaken _
            · rw [beq_false_of_ne hg] at h1; exact h1
    · exact ⟨hs.coding, hs.doc, hs.doctype⟩
  | doctype n sy pu =>
    simp only [step, Except.ok.injEq] at h
    subst h
    exact ⟨hs.coding, hs.doc, .inr ⟨by simp [startDoctype], by simp [startDoctype],
      by simp [startDoctype]⟩⟩

theorem steps_any {lt : UInt8 → UInt8 → Bool} {cx : Ctx} (hlt : cx.lt = lt) {enc : Option Bytes}
    {es : List (Pos × Event)} {s s' : Parsed} (hs : AnyInv lt enc s)
    (h : steps cx s es = .ok s') : AnyInv lt enc s' := by
  induction es generalizing s with
  | nil => cases h; exact hs
  | cons e es ih =>
    rw [steps_cons] at h
    cases h1 : step cx s e with
    | error f => rw [h1] at h; cases h
    | ok s1 => rw [h1] at h; exact ih (step_any hlt hs h1) h

theorem feed_any {lt : UInt8 → UInt8 → Bool} {cx : Ctx} (hlt : cx.lt = lt) {enc : Option Bytes}
    {c : Chunk} {s s' : Parsed} (hs : AnyInv lt enc s) (h : feed cx s c = .ok s') :
    AnyInv lt enc s' ∧ ∃ s1, steps cx s c.events = .ok s1 ∧ s'.stack = s1.stack := by
  unfold feed at h
  cases h1 : steps cx s c.events with
  | error f => rw [h1] at h; cases h
  | ok s1 =>
    rw [h1] at h
    have := steps_any hlt hs h1
    cases h2 : c.error with
    | none =>
      simp only [bind, Except.bind, h2, Except.ok.injEq] at h
      subst h
      exact ⟨this, s1, rfl, rfl⟩
    | some x =>
      simp only [bind, Except.bind, h2, Except.ok.injEq] at h
      subst h
      exact ⟨⟨this.coding, this.doc, this.doctype⟩, s1, rfl, rfl⟩

theorem feeds_any {lt : UInt8 → UInt8 → Bool} {cx : Ctx} (hlt : cx.lt = lt) {enc : Option Bytes} :
    ∀ {cs : List Chunk} {s s' : Parsed}, AnyInv lt enc s → cs.foldlM (feed cx) s = .ok s' →
      AnyInv lt enc s'
  | [], s, s', hs, h => by cases h; exact hs
  | c :: cs, s, s', hs, h => by
    rw [List.foldlM_cons] at h
    cases h1 : feed cx s c with
    | error f => rw [h1] at h; cases h
    | ok s1 =>
      rw [h1] at h
      exact feeds_any hlt (feed_any hlt hs h1).1 h

theorem afterParse_any {lt : UInt8 → UInt8 → Bool} {enc : Option Bytes} {s s' : Parsed}
    (hs : AnyInv lt enc s) (h : afterParse s = .ok s') :
    AnyInv lt enc s' ∧ s'.stack = s.stack := by
  unfold afterParse at h
  split at h
  · cases h; exact ⟨hs, rfl⟩
  · rename_i hsome
    split at h
    · cases h; exact ⟨hs, rfl⟩
    · cases h
    · rename_i d hd
      cases h
      refine ⟨⟨hs.coding, ?_, hs.doctype⟩, rfl⟩
      obtain ⟨h1, h2, h3⟩ := hs.doc d hd
      rintro _ ⟨⟩
      rcases hs.doctype with ⟨e1, e2, e3⟩ | ⟨e1, e2, e3⟩
      · exfalso; apply hsome; rw [e1, e2, e3]; rfl
      · obtain ⟨n, hn⟩ := Option.ne_none_iff_exists'.1 e1
        obtain ⟨sy, hsy⟩ := Option.ne_none_iff_exists'.1 e2
        obtain ⟨pu, hpu⟩ := Option.ne_none_iff_exists'.1 e3
        rw [hn, hsy, hpu]
        exact ⟨.doctype n sy pu h1, ⟨h2.1, h2.2.1, nofun, nofun, nofun⟩, h3⟩

theorem reinit_any {lt : UInt8 → UInt8 → Bool} {enc : Option Bytes} {s s' : Parsed}
    (hs : AnyInv lt enc s) (h : reinit s = .ok s') : AnyInv lt enc s' ∧ s'.stack = [] := by
  unfold reinit at h
  cases hd : s.doc with
  | null =>
    simp only [hd] at h
    cases h
    exact ⟨⟨hs.coding, fun _ h => by (cases h), .inl ⟨rfl, rfl, rfl⟩⟩, rfl⟩
  | freed => simp only [hd] at h; cases h
  | live d =>
    simp only [hd] at h
    cases hx : Doc.destroy d with
    | error f => rw [hx] at h; cases h
    | ok u =>
      rw [hx] at h
      cases h
      exact ⟨⟨hs.coding, fun _ h => by (cases h), .inl ⟨rfl, rfl, rfl⟩⟩, rfl⟩

/-- `parseFile`, taken apart. -/
theorem parseFile_inv {cx : Ctx} {s : Parsed} {cs : List Chunk} {r : Int × Parsed}
    (h : parseFile cx s (some cs) = .ok r) :
    ∃ s0 s1, reinit s = .ok s0 ∧ cs.foldlM (feed cx) s0 = .ok s1 ∧ afterParse s1 = .ok r.2 ∧
      r.1 = resultCode r.2 := by
  unfold parseFile at h
  simp only at h
  cases h0 : reinit s with
  | error f => rw [h0] at h; cases h
  | ok s0 =>
    rw [h0] at h
    simp only [bind, Except.bind] at h
    cases h1 : cs.foldlM (feed cx) s0 with
    | error f => rw [h1] at h; cases h
    | ok s1 =>
      rw [h1] at h
      simp only at h
      cases h2 : afterParse s1 with
      | error f => rw [h2] at h; cases h
      | ok s2 => rw [h2] at h; cases h; exact ⟨s0, s1, rfl, h1, h2, rfl⟩

theorem used_any {lt : UInt8 → UInt8 → Bool} {enc : Option Bytes} {s : Parsed}
    (h : Used lt enc s) : AnyInv lt enc s := by
  induction h with
  | new => exact ⟨rfl, fun _ h => by (cases h), .inl ⟨rfl, rfl, rfl⟩⟩
  | @file s r cx f hlt _ hr ih =>
    cases f with
    | none => cases hr; exact ⟨ih.coding, ih.doc, ih.doctype⟩
    | some cs =>
      obtain ⟨s0, s1, h0, h1, h2, -⟩ := parseFile_inv hr
      exact (afterParse_any (feeds_any hlt (reinit_any ih h0).1 h1) h2).1
  | @str s r cx c hlt _ hr ih =>
    unfold parseStr at hr
    cases h1 : feed cx s c with
    | error f => rw [h1] at hr; cases hr
    | ok s1 =>
      rw [h1] at hr
      simp only [bind, Except.bind] at hr
      cases h2 : afterParse s1 with
      | error f => rw [h2] at hr; cases hr
      | ok s2 =>
        rw [h2] at hr
        cases hr
        exact (afterParse_any (feed_any hlt ih h1).1 h2).1

/-! ## complete input -/

mutual
theorem events_open (path : List Bytes) : ∀ k : XNode, ∀ es, openAfter path (k.events ++ es) =
    openAfter path es
  | .text p s, es => by simp [XNode.events, openAfter]
  | .elem p n attrs kids q, es => by
    simp only [XNode.events, List.cons_append, List.append_assoc, openAfter]
    rw [eventsOf_open (n :: path) kids]
    simp [openAfter]
theorem eventsOf_open (path : List Bytes) : ∀ ks : List XNode, ∀ es,
    openAfter path (eventsOf ks ++ es) = openAfter path es
  | [], es => rfl
  | k :: ks, es => by
    simp only [eventsOf, List.append_assoc]
    rw [events_open path k, eventsOf_open path ks]
end

theorem file_open (dt : DocType) (root : XNode) :
    openAfter [] (fileEvents dt root) = some [] := by
  have := events_open [] root []
  rw [List.append_nil] at this
  cases dt with
  | none => simpa [fileEvents, openAfter] using this
  | some x => simpa [fileEvents, openAfter] using this

theorem openAfter_append : ∀ {a b : List (Pos × Event)} {path path' : List Bytes},
    openAfter path (a ++ b) = some path' →
    ∃ mid, openAfter path a = some mid ∧ openAfter mid b = some path'
  | [], b, path, path', h => ⟨path, rfl, h⟩
  | e :: a, b, path, path', h => by
    obtain ⟨mid, h1, h2⟩ := openAfter_cons (by simpa using h : openAfter path (e :: (a ++ b)) = some path')
    obtain ⟨mid', h3, h4⟩ := openAfter_append h2
    refine ⟨mid', ?_, h4⟩
    obtain ⟨p, e⟩ := e
    cases e with
    | start n attrs => cases h1; exact h3
    | text c => cases h1; exact h3
    | doctype n sy pu => cases h1; exact h3
    | stop n =>
      cases path with
      | nil => cases h1
      | cons m up =>
        simp only [openAfter] at h1 ⊢
        by_cases hm : m = n
        · rw [if_pos hm] at h1 ⊢; cases h1; exact h3
        · rw [if_neg hm] at h1; cases h1

theorem feeds_stack {cx : Ctx} : ∀ {cs : List Chunk} {s s' : Parsed} {path path' : List Bytes},
    StackOf cx s.stack path → cs.foldlM (feed cx) s = .ok s' →
    openAfter path (cs.flatMap (·.events)) = some path' → StackOf cx s'.stack path'
  | [], s, s', path, path', hs, h, hp => by cases h; cases hp; exact hs
  | c :: cs, s, s', path, path', hs, h, hp => by
    rw [List.foldlM_cons] at h
    rw [List.flatMap_cons] at hp
    obtain ⟨mid, p1, p2⟩ := openAfter_append hp
    cases h1 : feed cx s c with
    | error f => rw [h1] at h; cases h
    | ok s1 =>
      rw [h1] at h
      refine feeds_stack ?_ h p2
      unfold feed at h1
      cases h3 : steps cx s c.events with
      | error f => rw [h3] at h1; cases h1
      | ok s2 =>
        rw [h3] at h1
        have := steps_stack hs h3 p1
        cases h2 : c.error with
        | none =>
          simp only [bind, Except.bind, h2, Except.ok.injEq] at h1
          subst h1; exact this
        | some x =>
          simp only [bind, Except.bind, h2, Except.ok.injEq] at h1
          subst h1; exact this

/-- After a complete file no element is open. -/
theorem complete_stack {cx : Ctx} {s : Parsed} {cs : List Chunk} {r : Int × Parsed}
    (h : parseFile cx s (some cs) = .ok r) {dt : DocType} {root : XNode}
    (he : cs.flatMap (·.events) = fileEvents dt root) : r.2.stack = [] := by
  obtain ⟨s0, s1, h0, h1, h2, -⟩ := parseFile_inv h
  have hst : s0.stack = [] := by
    unfold reinit at h0
    split at h0
    · cases h0; rfl
    · cases hx : Doc.destroy _ with
      | error f => rw [hx] at h0; cases h0
      | ok u => rw [hx] at h0; cases h0; rfl
    · cases h0
  have := feeds_stack (cx := cx) (path := []) (path' := []) (by rw [hst]; trivial) h1
    (by rw [he]; exact file_open dt root)
  have h3 : s1.stack = [] := by
    cases hs : s1.stack with
    | nil => rfl
    | cons a b => rw [hs] at this; exact this.elim
  have h4 : r.2.stack = s1.stack := by
    unfold afterParse at h2
    split at h2
    · cases h2; rfl
    · split at h2
      · cases h2; rfl
      · cases h2
      · rw [← Except.ok.inj h2]
  rw [h4, h3]

end Comps.Parse
