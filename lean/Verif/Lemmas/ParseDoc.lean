import Verif.Lemmas.Parse

/-!
# The parser: elements that are expected

Each kind of element is read as `Spec/Parse.lean` says.
-/

namespace Comps.Parse
open Comps Comps.Spec Comps.Obj Comps.Text Comps.Xml

abbrev Rest := Option CStr × Option CStr × Option CStr × Option CStr × Bool × Bool

/-- The pointer points to a document, reachable through the API, with content `c` and other fields `m`. -/
def Holds (lt : UInt8 → UInt8 → Bool) (c : DocContent) (m : Rest) (p : DocPtr) : Prop :=
  ∃ d, p = .live d ∧ DocBuilt lt d ∧ Obj.content d = c ∧ Obj.rest d = m

/-! ## elements -/

/-- An element whose children are not used. -/
theorem leaf_ok (r : Reading) {s : Parsed} {st : List Elem} {pend : List Bytes} (h : At s st pend)
    (p q : Pos) {n : Bytes} {attrs : List (Bytes × Bytes)} {kids : List XNode}
    (ha : Fits r attrs) (hk : AllTidy (Fits r) kids)
    (hv : (newElem r.ctx st n attrs).valid = true)
    (hc : Closed r.ctx (newElem r.ctx st n attrs :: st)) {d1 d2 : DocPtr} {L : List LogEntry}
    {taken : Bool}
    (hpre : preproc r.ctx s.enc (newElem r.ctx st n attrs) st s.doc = .ok d1)
    (hpost : postproc r.ctx (newElem r.ctx st n attrs) st q (leaf r kids).2 d1 =
      .ok ⟨d2, L, taken⟩) :
    ∃ s', Runs r.ctx s (XNode.elem p n attrs kids q).events s'
        (textCode pend ++ attrCodes r n attrs ++ ((leaf r kids).1 ++ (L.map (·.code) ++
          if taken then [] else textCode (strays r kids []).2))) ∧
      At s' st [] ∧ s'.doc = d2 := by
  obtain ⟨s1, h1, a1, e1⟩ := start_ok r h p n ha (d := d1) (by
    unfold openElem; rw [hv]; exact hpre)
  obtain ⟨s2, h2, a2, e2⟩ := strays_ok r kids hk a1 hc
  obtain ⟨s3, h3, a3, e3⟩ := stop_ok (cx := r.ctx) a2 q n rfl (d := d2)
    (L := L ++ if !taken && (joined (strays r kids []).2).isSome then
      [entry 23 (joined (strays r kids []).2) q] else []) (by
    unfold closeElem
    rw [hv, e2, e1]
    simp only [if_true, bind, Except.bind]
    rw [show joined (strays r kids []).2 = (leaf r kids).2 by rw [strays_pieces]; rfl, hpost])
  refine ⟨s3, ?_, a3, e3⟩
  have := (h1.trans h2).trans h3
  rw [hv] at this
  simp only [if_true, List.nil_append] at this
  have e : ((if !taken && (joined (strays r kids []).2).isSome then
      [entry 23 (joined (strays r kids []).2) q] else [] : List LogEntry).map (·.code)) =
      if taken then [] else textCode (strays r kids []).2 := by
    cases taken
    · cases (strays r kids []).2 <;> rfl
    · rfl
  rw [List.map_append, e] at this
  simpa [XNode.events, leaf, List.append_assoc] using this

/-- The content of an element. -/
theorem readAll_ok {σ : Type} (r : Reading) (m : Rest)
    {kid : σ → Bytes → List (Bytes × Bytes) → List XNode → Option (σ × List Nat)}
    {embed : σ → DocContent} {Inv : σ → Prop}
    {S : Bytes → List (Bytes × Bytes) → List XNode → Prop} {st : List Elem}
    (hk : ∀ x n attrs kids y, Inv x → n ≠ b!"comps" → Fits r attrs → AllTidy (Fits r) kids →
      S n attrs kids → kid x n attrs kids = some y →
      ∀ {s : Parsed} {pend : List Bytes} (p q : Pos), At s st pend → Holds r.lt (embed x) m s.doc →
      ∃ s', Runs r.ctx s (XNode.elem p n attrs kids q).events s'
          (textCode pend ++ attrCodes r n attrs ++ y.2) ∧
        At s' st [] ∧ Holds r.lt (embed y.1) m s'.doc ∧ Inv y.1)
    (hn : ∀ x n attrs kids, n ≠ b!"comps" → kid x n attrs kids = none →
      (newElem r.ctx st n attrs).valid = false) :
    ∀ (kids : List XNode) (x : σ) (pend : List Bytes) {s : Parsed}, Inv x → AllTidy (Fits r) kids →
      (∀ p n attrs ks q, XNode.elem p n attrs ks q ∈ kids → S n attrs ks) → At s st pend →
      Holds r.lt (embed x) m s.doc →
      ∃ s', Runs r.ctx s (eventsOf kids) s' (readAll r kid x kids pend).2.1 ∧
        At s' st (readAll r kid x kids pend).2.2 ∧
        Holds r.lt (embed (readAll r kid x kids pend).1) m s'.doc ∧
        Inv (readAll r kid x kids pend).1 := by
  intro kids
  induction kids with
  | nil =>
    intro x pend s hi _ _ ha hd
    refine ⟨s, ?_, ha, hd, hi⟩
    simp only [eventsOf, readAll]
    exact Runs.nil r.ctx s
  | cons k ks ih =>
    intro x pend s hi ht hS ha hd
    cases k with
    | text p t =>
      obtain ⟨s1, h1, a1, e1⟩ := text_ok (cx := r.ctx) ha p t
      obtain ⟨s2, h2, a2, d2, i2⟩ := ih x _ hi ht.2
        (fun p n attrs ks' q hm => hS p n attrs ks' q (List.mem_cons_of_mem _ hm)) a1
        (by rw [e1]; exact hd)
      refine ⟨s2, ?_, a2, d2, i2⟩
      simp only [eventsOf, readAll]
      have := h1.trans h2
      simpa [XNode.events] using this
    | elem p n attrs kk q =>
      simp only [eventsOf, readAll]
      cases hkid : kid x n attrs kk with
      | some y =>
        obtain ⟨s1, h1, a1, d1, i1⟩ := hk x n attrs kk y hi ht.1.1 ht.1.2.1 ht.1.2.2
          (hS p n attrs kk q List.mem_cons_self) hkid p q ha hd
        obtain ⟨s2, h2, a2, d2, i2⟩ := ih y.1 [] i1 ht.2
          (fun p n attrs ks' q hm => hS p n attrs ks' q (List.mem_cons_of_mem _ hm)) a1 d1
        exact ⟨s2, h1.trans h2, a2, d2, i2⟩
      | none =>
        obtain ⟨s1, h1, a1, e1⟩ := stray_ok r (.elem p n attrs kk q) ht.1 ha (by
          intro p' n' attrs' kids' q' he
          cases he
          exact hn x n attrs kk ht.1.1 hkid)
        obtain ⟨s2, h2, a2, d2, i2⟩ := ih x [] hi ht.2
          (fun p n attrs ks' q hm => hS p n attrs ks' q (List.mem_cons_of_mem _ hm))
          (by simpa [stray] using a1) (by rw [e1]; exact hd)
        exact ⟨s2, h1.trans h2, a2, d2, i2⟩

/-- An element whose children are read. -/
theorem inner_ok {σ : Type} (r : Reading) {m : Rest}
    {kid : σ → Bytes → List (Bytes × Bytes) → List XNode → Option (σ × List Nat)}
    {embed : σ → DocContent} {Inv : σ → Prop}
    {S : Bytes → List (Bytes × Bytes) → List XNode → Prop} {st : List Elem} {n : Bytes}
    {attrs : List (Bytes × Bytes)}
    (hk : ∀ x n' attrs' kids y, Inv x → n' ≠ b!"comps" → Fits r attrs' → AllTidy (Fits r) kids →
      S n' attrs' kids → kid x n' attrs' kids = some y →
      ∀ {s : Parsed} {pend : List Bytes} (p q : Pos),
        At s (newElem r.ctx st n attrs :: st) pend → Holds r.lt (embed x) m s.doc →
      ∃ s', Runs r.ctx s (XNode.elem p n' attrs' kids q).events s'
          (textCode pend ++ attrCodes r n' attrs' ++ y.2) ∧
        At s' (newElem r.ctx st n attrs :: st) [] ∧ Holds r.lt (embed y.1) m s'.doc ∧ Inv y.1)
    (hn : ∀ x n' attrs' kids, n' ≠ b!"comps" → kid x n' attrs' kids = none →
      (newElem r.ctx (newElem r.ctx st n attrs :: st) n' attrs').valid = false)
    {s : Parsed} {pend : List Bytes} (h : At s st pend)
    (p q : Pos) {kids : List XNode} (ha : Fits r attrs) (hkids : AllTidy (Fits r) kids)
    (hS : ∀ p n attrs ks q, XNode.elem p n attrs ks q ∈ kids → S n attrs ks)
    (hv : (newElem r.ctx st n attrs).valid = true) {d1 : DocPtr}
    (hpre : preproc r.ctx s.enc (newElem r.ctx st n attrs) st s.doc = .ok d1)
    {x : σ} (hx : Holds r.lt (embed x) m d1) (hi : Inv x) {atEnd : σ → List Nat}
    {out : σ → DocContent}
    (hpost : ∀ (y : σ) (t : Option Bytes) (d : DocPtr), Inv y → Holds r.lt (embed y) m d →
      ∃ d2 L, postproc r.ctx (newElem r.ctx st n attrs) st q t d = .ok ⟨d2, L, false⟩ ∧
        L.map (·.code) = atEnd y ∧ Holds r.lt (out y) m d2) :
    ∃ s', Runs r.ctx s (XNode.elem p n attrs kids q).events s'
        (textCode pend ++ attrCodes r n attrs ++ (inner r kid x kids atEnd).2) ∧
      At s' st [] ∧ Holds r.lt (out (inner r kid x kids atEnd).1) m s'.doc ∧
      Inv (inner r kid x kids atEnd).1 := by
  obtain ⟨s1, h1, a1, e1⟩ := start_ok r h p n ha (d := d1) (by
    unfold openElem; rw [hv]; exact hpre)
  obtain ⟨s2, h2, a2, e2, i2⟩ := readAll_ok r m hk hn kids x [] hi hkids hS a1
    (by rw [e1]; exact hx)
  obtain ⟨d2, L, hp, hL, hd⟩ := hpost _ (joined (readAll r kid x kids []).2.2) _ i2 e2
  obtain ⟨s3, h3, a3, e3⟩ := stop_ok (cx := r.ctx) a2 q n rfl (d := d2)
    (L := L ++ if (joined (readAll r kid x kids []).2.2).isSome then
      [entry 23 (joined (readAll r kid x kids []).2.2) q] else []) (by
    unfold closeElem
    rw [hv]
    simp only [if_true, bind, Except.bind, hp, Bool.not_false, Bool.true_and])
  refine ⟨s3, ?_, a3, by rw [e3]; exact hd, i2⟩
  have := (h1.trans h2).trans h3
  rw [hv] at this
  simp only [if_true, List.nil_append] at this
  have e : ((if (joined (readAll r kid x kids []).2.2).isSome then
      [entry 23 (joined (readAll r kid x kids []).2.2) q] else [] : List LogEntry).map (·.code)) =
      textCode (readAll r kid x kids []).2.2 := by
    cases (readAll r kid x kids []).2.2 <;> rfl
  rw [List.map_append, e, hL] at this
  simpa [XNode.events, inner, List.append_assoc] using this

/-! ## documents and last entries -/

section entries
variable {α : Type} {sl : Slot (List α)} {P : α → Prop} {get : DocContent → List α}
  {put : DocContent → List α → DocContent}

theorem entries_ok (cx : Ctx) (hp : Placed cx.lt sl (fun l => ∀ g ∈ l, P g) get put)
    {c : DocContent} {m : Rest} {p : DocPtr} (h : Holds cx.lt c m p) :
    ∃ d, entries cx sl p = .ok (get c, d) ∧ Holds cx.lt c m (.live d) := by
  obtain ⟨d, rfl, hb, rfl, rfl⟩ := h
  obtain ⟨d', h1, -, h3, h4⟩ := hp.getObj (docBuilt_inv hb)
  exact ⟨d', h1, d', rfl, hp.getBuilt hb h1, h3, h4⟩

theorem onLast_ok (cx : Ctx) (hp : Placed cx.lt sl (fun l => ∀ g ∈ l, P g) get put)
    {c : DocContent} {gs : List α} {g : α} {m : Rest} {p : DocPtr}
    (h : Holds cx.lt (put c (gs ++ [g])) m p) {f : α → Res (α × List LogEntry)} {g' : α}
    {L : List LogEntry} (hf : f g = .ok (g', L)) (hg : P g') :
    ∃ p', onLast cx sl f p = .ok (p', L) ∧ Holds cx.lt (put c (gs ++ [g'])) m p' := by
  obtain ⟨d, rfl, hb, hc, rfl⟩ := h
  have hi := docBuilt_inv hb
  obtain ⟨d', h1, h2, h3, h4⟩ := hp.getObj hi
  have hb' := hp.getBuilt hb h1
  have hall : ∀ x ∈ gs ++ [g], P x := by
    have := view_ok hp.ok hi
    rw [← hp.get_view, hc, hp.get_put] at this
    exact this
  rw [hc, hp.get_put] at h1
  have hl : lastOf (gs ++ [g]) = .ok g := by
    unfold lastOf; rw [List.getLast?_concat]
  refine ⟨_, ?_, d'.setObj cx.lt sl (some (gs ++ [g'])), rfl, ?_, ?_, ?_⟩
  · simp only [onLast, entries, DocPtr.deref, h1, hl, hf, bind, Except.bind, List.dropLast_concat]
  · refine hp.built _ hb' fun y hy => ?_
    rcases List.mem_append.1 hy with hy | hy
    · exact hall y (List.mem_append_left _ hy)
    · rw [List.mem_singleton.1 hy]; exact hg
  · rw [hp.set h2, h3, hc, hp.put_put]; rfl
  · rw [← h4]; rfl

theorem editLast_ok (cx : Ctx) (hp : Placed cx.lt sl (fun l => ∀ g ∈ l, P g) get put)
    {c : DocContent} {gs : List α} {g : α} {m : Rest} {p : DocPtr}
    (h : Holds cx.lt (put c (gs ++ [g])) m p) {f : α → Res α} {g' : α}
    (hf : f g = .ok g') (hg : P g') :
    ∃ p', editLast cx sl f p = .ok p' ∧ Holds cx.lt (put c (gs ++ [g'])) m p' := by
  obtain ⟨p', h1, h2⟩ := onLast_ok cx hp h (f := fun x => do
    let y ← f x
    .ok (y, [])) (g' := g') (L := []) (by simp only [hf, bind, Except.bind]) hg
  exact ⟨p', by rw [editLast, h1]; rfl, h2⟩

theorem after_ok {t : Bool} {x : Res (DocPtr × List LogEntry)} {d : DocPtr} {L : List LogEntry}
    (h : x = .ok (d, L)) : after t x = .ok ⟨d, L, t⟩ := by
  subst h; rfl

theorem entryPre_ok (cx : Ctx) {o : EntryOps α}
    (hp : Placed cx.lt o.slot (fun l => ∀ g ∈ l, P g) get put)
    {c : DocContent} {m : Rest} {p : DocPtr} (h : Holds cx.lt c m p) (create : α) (e : Elem)
    (hg : P (o.setProps create (archProps cx e (o.props create)))) :
    ∃ p', entryPre cx o create e p = .ok p' ∧ Holds cx.lt
      (put c (get c ++ [o.setProps create (archProps cx e (o.props create))])) m p' := by
  obtain ⟨d, rfl, hb, rfl, rfl⟩ := h
  have hi := docBuilt_inv hb
  have hall : ∀ x ∈ get (Obj.content d), P x := by
    rw [hp.get_view]; exact view_ok hp.ok hi
  have hadd : ∀ y ∈ get (Obj.content d) ++ [o.setProps create (archProps cx e (o.props create))],
      P y := by
    intro y hy
    rcases List.mem_append.1 hy with hy | hy
    · exact hall y hy
    · rw [List.mem_singleton.1 hy]; exact hg
  obtain ⟨d', h1, -, h3, h4⟩ := hp.addObj hi
    (· ++ [o.setProps create (archProps cx e (o.props create))]) hadd
  exact ⟨.live d', by simp only [entryPre, DocPtr.deref, h1, bind, Except.bind], d', rfl,
    hp.addBuilt hb hadd h1, h3, h4⟩

end entries

/-! ## which children are valid -/

/-- Elements without children. -/
def leafTypes : List ElemType :=
  [.id, .name, .desc, .default, .langonly, .uservisible, .biarchonly, .packagereq, .groupid,
    .displayOrder, .matchE, .package, .ignoredep]

theorem closed_leaf {cx : Ctx} {top : Elem} {st : List Elem} (h : top.type ∈ leafTypes) :
    Closed cx (top :: st) := by
  intro n attrs hn
  have h1 : top.type ≠ .none := by
    intro e; rw [e] at h; revert h; decide
  rw [newElem_valid hn h1]
  have : ∀ T ∈ leafTypes, (ancestors (getType n)).contains T = false := by
    refine forall_names (P := fun n => ∀ T ∈ leafTypes, (ancestors (getType n)).contains T = false)
      (by decide) ?_ n
    intro n hu _
    rw [hu]; decide
  rw [this _ h, Bool.and_false]

/-- The children of an element. -/
def children : ElemType → List Bytes
  | .doc => [b!"group", b!"category", b!"environment", b!"langpacks", b!"blacklist", b!"whiteout"]
  | .group => [b!"id", b!"name", b!"description", b!"display_order", b!"default", b!"uservisible",
      b!"biarchonly", b!"langonly", b!"packagelist"]
  | .category => [b!"id", b!"name", b!"description", b!"display_order", b!"grouplist"]
  | .env => [b!"id", b!"name", b!"description", b!"display_order", b!"grouplist", b!"optionlist"]
  | .packagelist => [b!"packagereq"]
  | .grouplist => [b!"groupid"]
  | .optlist => [b!"groupid"]
  | .langpacks => [b!"match"]
  | .blacklist => [b!"package"]
  | .whiteout => [b!"ignoredep"]
  | _ => []

/-- Elements with children. -/
def containers : List ElemType :=
  [.doc, .group, .category, .env, .packagelist, .grouplist, .optlist, .langpacks, .blacklist,
    .whiteout]

theorem container_ne {T : ElemType} (h : T ∈ containers) : T ≠ .none := by
  intro e; rw [e] at h; revert h; decide

theorem invalid_child {cx : Ctx} {top : Elem} {st : List Elem} {n : Bytes}
    {attrs : List (Bytes × Bytes)} (h : top.type ∈ containers) (hn : n ≠ b!"comps")
    (hc : n ∉ children top.type) : (newElem cx (top :: st) n attrs).valid = false := by
  rw [newElem_valid hn (container_ne h)]
  have : ∀ T ∈ containers, n ∉ children T → (ancestors (getType n)).contains T = false := by
    refine forall_names (P := fun n => ∀ T ∈ containers, n ∉ children T →
      (ancestors (getType n)).contains T = false) (by decide) ?_ n
    intro n hu _
    rw [hu]
    have : ∀ T ∈ containers, (ancestors .unknown).contains T = false := by decide
    exact fun T hT _ => this T hT
  rw [this _ h hc, Bool.and_false]

theorem valid_child {cx : Ctx} {top : Elem} {st : List Elem} {n : Bytes}
    {attrs : List (Bytes × Bytes)} (h : top.type ∈ containers) (ht : top.valid = true)
    (hc : n ∈ children top.type) : (newElem cx (top :: st) n attrs).valid = true := by
  have hall : ∀ T ∈ containers, ∀ n ∈ children T, n ≠ b!"comps" ∧
      (ancestors (getType n)).contains T = true := by decide
  have := hall _ h _ hc
  rw [newElem_valid this.1 (container_ne h), ht, this.2]
  rfl

/-! ## fields of groups, categories and environments -/

/-- An entry with its dictionaries replaced. -/
def rebuild {α : Type} (o : EntryOps α) (x : α) (y : Texts) : α :=
  o.setDescByLang (o.setNameByLang (o.setProps x y.props) y.names) y.descs

/-- The dictionaries of an entry. -/
def textsOf {α : Type} (o : EntryOps α) (x : α) : Texts :=
  ⟨o.props x, o.nameByLang x, o.descByLang x⟩

/-- What the three kinds of entries have in common. -/
structure EntryOk {α : Type} (lt : UInt8 → UInt8 → Bool) (o : EntryOps α) (P : α → Prop)
    (get : DocContent → List α) (put : DocContent → List α → DocContent) : Prop where
  placed : Placed lt o.slot (fun l => ∀ g ∈ l, P g) get put
  inv : ∀ {x}, P x → DictsInv lt (o.props x) (o.nameByLang x) (o.descByLang x)
  prop : ∀ {x} (c : PropCall), P x → P (o.setProps x (c.run lt (o.props x)))
  name : ∀ {x} (k : Bytes) (s : CStr), P x →
    P (o.setNameByLang x ((o.nameByLang x).set lt k (some (.str s))))
  desc : ∀ {x} (k : Bytes) (s : CStr), P x →
    P (o.setDescByLang x ((o.descByLang x).set lt k (some (.str s))))
  same : ∀ x, rebuild o x (textsOf o x) = x
  props : ∀ x p, rebuild o x { textsOf o x with props := p } = o.setProps x p
  names : ∀ x p, rebuild o x { textsOf o x with names := p } = o.setNameByLang x p
  descs : ∀ x p, rebuild o x { textsOf o x with descs := p } = o.setDescByLang x p

theorem groupEntry {lt : UInt8 → UInt8 → Bool} : EntryOk lt groupOps (GroupBuilt lt) (·.groups)
    (fun c x => { c with groups := x }) where
  placed := groupsAt
  inv := groupBuilt_inv
  prop c h := .prop c h
  name k s h := .nameLang k s h
  desc k s h := .descLang k s h
  same _ := rfl
  props _ _ := rfl
  names _ _ := rfl
  descs _ _ := rfl

theorem categoryEntry {lt : UInt8 → UInt8 → Bool} : EntryOk lt categoryOps (CategoryBuilt lt)
    (·.categories) (fun c x => { c with categories := x }) where
  placed := categoriesAt
  inv := categoryBuilt_inv
  prop c h := .prop c h
  name k s h := .nameLang k s h
  desc k s h := .descLang k s h
  same _ := rfl
  props _ _ := rfl
  names _ _ := rfl
  descs _ _ := rfl

theorem envEntry {lt : UInt8 → UInt8 → Bool} : EntryOk lt envOps (EnvBuilt lt)
    (·.environments) (fun c x => { c with environments := x }) where
  placed := environmentsAt
  inv := envBuilt_inv
  prop c h := .prop c h
  name k s h := .nameLang k s h
  desc k s h := .descLang k s h
  same _ := rfl
  props _ _ := rfl
  names _ _ := rfl
  descs _ _ := rfl

theorem space_one (c : UInt8) : White [c] = isSpace c := by
  rw [white_eq]; simp [blank]

theorem signOf_eq (t : Bytes) : signOf t = (t.head? == some 45,
    if t.head? == some 45 || t.head? == some 43 then t.tail else t) := by
  match t with
  | [] => rfl
  | 45 :: _ => rfl
  | 43 :: _ => rfl
  | c :: r =>
    by_cases h1 : c = 45
    · subst h1; rfl
    · by_cases h2 : c = 43
      · subst h2; rfl
      · have : signOf (c :: r) = (false, c :: r) := by
          unfold signOf; split <;> simp_all
        rw [this]
        simp [h1, h2]

theorem scanInt_eq (b : Bytes)
    (h : ∀ v, numberAt b = some v → -2147483648 ≤ v ∧ v ≤ 2147483647) :
    scanInt b = .ok (numberAt b) := by
  have hsp : (fun c : UInt8 => White [c]) = isSpace := funext space_one
  simp only [numberAt, hsp] at h ⊢
  simp only [scanInt, signOf_eq]
  have hd : (fun c : UInt8 => (48 ≤ c && c ≤ 57 : Bool)) = isDigit := rfl
  simp only [hd] at h ⊢
  generalize (List.takeWhile isDigit _) = ds at h ⊢
  generalize (_ == some (45 : UInt8)) = ng at h ⊢
  have hv : natValue ds = digitsVal ds := rfl
  rw [hv] at h ⊢
  cases ds with
  | nil => rfl
  | cons a as =>
    simp only [List.isEmpty_cons, Bool.false_eq_true, if_false] at h ⊢
    cases ng with
    | true => 
      simp only [if_true, Option.some.injEq, forall_eq'] at h ⊢
      rw [if_pos h]
    | false =>
      simp only [Bool.false_eq_true, if_false, Option.some.injEq, forall_eq'] at h ⊢
      rw [if_pos h]

theorem ite_codes (b : Bool) (e : LogEntry) :
    (if b then [e] else [] : List LogEntry).map (·.code) = if b then [e.code] else [] := by
  cases b <;> rfl

theorem checkAlreadySet_codes (props : RTree PVal) (key name : Bytes) (p : Pos) :
    (checkAlreadySet (props.get key) name p).map (·.code) = againCode props key := by
  unfold checkAlreadySet againCode
  cases props.get key <;> rfl

section fields
variable {α : Type} {o : EntryOps α} {P : α → Prop} {get : DocContent → List α}
  {put : DocContent → List α → DocContent}

theorem setText_ok (r : Reading) (he : EntryOk r.lt o P get put) {x : α} (hx : P x) (sp : StrProp)
    (p : Pos) (b : Bytes) :
    (setText r.ctx o sp.key p b x).1 = rebuild o x (putText r (textsOf o x) sp.key b).1 ∧
    (setText r.ctx o sp.key p b x).2.map (·.code) = (putText r (textsOf o x) sp.key b).2 ∧
    P (rebuild o x (putText r (textsOf o x) sp.key b).1) := by
  have h1 : (setText r.ctx o sp.key p b x).1 = rebuild o x (putText r (textsOf o x) sp.key b).1 := by
    rw [putText, he.props]; rfl
  refine ⟨h1, checkAlreadySet_codes _ _ _ _, ?_⟩
  rw [← h1]
  exact he.prop (.str sp (some b)) hx

theorem idNameDesc_ok (r : Reading) (he : EntryOk r.lt o P get put) {x : α} (hx : P x) (e : Elem)
    {n : Bytes} {attrs : List (Bytes × Bytes)} (hn : n = b!"id" ∨ n = b!"name" ∨ n = b!"description")
    (ht : e.type = getType n) (ha : ∀ k, e.attrs.get k = r.look attrs k) (p : Pos) (b : Bytes) :
    (idNameDesc r.ctx o e p b x).1 = rebuild o x (textKid r (textsOf o x) n attrs (some b)).1 ∧
    (idNameDesc r.ctx o e p b x).2.map (·.code) = (textKid r (textsOf o x) n attrs (some b)).2 ∧
    P (rebuild o x (textKid r (textsOf o x) n attrs (some b)).1) := by
  rcases hn with rfl | rfl | rfl
  · have e1 : idNameDesc r.ctx o e p b x = setText r.ctx o b!"id" p b x := by
      unfold idNameDesc; rw [ht, if_pos (by rfl)]
    have e2 : textKid r (textsOf o x) b!"id" attrs (some b) = putText r (textsOf o x) b!"id" b := by
      simp only [textKid]; rw [if_pos trivial]
    rw [e1, e2]
    exact setText_ok r he hx .id p b
  · cases hl : r.look attrs b!"xml:lang" with
    | none =>
      have e1 : idNameDesc r.ctx o e p b x = setText r.ctx o b!"name" p b x := by
        unfold idNameDesc
        rw [ht, if_neg (by decide), if_pos (by rfl), ha, hl]
      have e2 : textKid r (textsOf o x) b!"name" attrs (some b) =
          putText r (textsOf o x) b!"name" b := by
        simp only [textKid, hl]; rw [if_neg (by decide), if_pos trivial]
      rw [e1, e2]
      exact setText_ok r he hx .name p b
    | some l =>
      have e1 : idNameDesc r.ctx o e p b x =
          (o.setNameByLang x ((o.nameByLang x).set r.lt l (some (.str ⟨some b⟩))), []) := by
        unfold idNameDesc
        rw [ht, if_neg (by decide), if_pos (by rfl), ha, hl]; rfl
      have e2 : textKid r (textsOf o x) b!"name" attrs (some b) =
          ({ textsOf o x with names := (textsOf o x).names.set r.lt l (some (.str ⟨some b⟩)) }, []) := by
        simp only [textKid, hl]; rw [if_neg (by decide), if_pos trivial]
      rw [e1, e2]
      simp only [he.names]
      exact ⟨rfl, rfl, he.name l ⟨some b⟩ hx⟩
  · cases hl : r.look attrs b!"xml:lang" with
    | none =>
      have e1 : idNameDesc r.ctx o e p b x = setText r.ctx o b!"desc" p b x := by
        unfold idNameDesc
        rw [ht, if_neg (by decide), if_neg (by decide), ha, hl]
      have e2 : textKid r (textsOf o x) b!"description" attrs (some b) =
          putText r (textsOf o x) b!"desc" b := by
        simp only [textKid, hl]; rw [if_neg (by decide), if_neg (by decide)]
      rw [e1, e2]
      exact setText_ok r he hx .desc p b
    | some l =>
      have e1 : idNameDesc r.ctx o e p b x =
          (o.setDescByLang x ((o.descByLang x).set r.lt l (some (.str ⟨some b⟩))), []) := by
        unfold idNameDesc
        rw [ht, if_neg (by decide), if_neg (by decide), ha, hl]; rfl
      have e2 : textKid r (textsOf o x) b!"description" attrs (some b) =
          ({ textsOf o x with descs := (textsOf o x).descs.set r.lt l (some (.str ⟨some b⟩)) }, []) := by
        simp only [textKid, hl]; rw [if_neg (by decide), if_neg (by decide)]
      rw [e1, e2]
      simp only [he.descs]
      exact ⟨rfl, rfl, he.desc l ⟨some b⟩ hx⟩

theorem order_is_num {lt : UInt8 → UInt8 → Bool} {t : RTree PVal} (h : PropInv lt t) :
    ∃ n, (t.get b!"display_order").getD (.num 0) = .num n := by
  cases hg : t.get b!"display_order" with
  | none => exact ⟨0, rfl⟩
  | some v =>
    have := h.typed.get h.wf hg
    have hk : ∀ k ∈ propKinds, k.1 = b!"display_order" → k.2 = 1 := by decide
    have h1 := hk _ this rfl
    cases v with
    | num n => exact ⟨n, rfl⟩
    | str _ => simp [kind] at h1
    | list _ => simp [kind] at h1

theorem displayOrder_ok (r : Reading) (he : EntryOk r.lt o P get put) {x : α} (hx : P x) (e : Elem)
    (p : Pos) {kids : List XNode} (hs : OrderSafe kids) :
    ∃ L, displayOrder r.ctx o e p (leaf r kids).2 x =
        .ok (rebuild o x (orderKid r (textsOf o x) (leaf r kids).2).1, L) ∧
      L.map (·.code) = (orderKid r (textsOf o x) (leaf r kids).2).2 ∧
      P (rebuild o x (orderKid r (textsOf o x) (leaf r kids).2).1) := by
  obtain ⟨b, hb, hr⟩ := hs
  obtain ⟨m, hm⟩ := order_is_num (he.inv hx).props
  rw [show (leaf r kids).2 = some b from hb]
  have hnew : ∃ k, scanInto (((o.props x).get b!"display_order").getD (.num 0)) (some b) =
      .ok (.num k) ∧ (orderKid r (textsOf o x) (some b)).1 =
        { textsOf o x with props := (o.props x).set r.lt b!"display_order" (some (.num k)) } := by
    simp only [scanInto, scanInt_eq b hr, bind, Except.bind, orderKid, Option.bind_some, hm]
    cases hn : numberAt b with
    | none => exact ⟨m, rfl, by simp only [textsOf, hm]⟩
    | some k => exact ⟨k, rfl, rfl⟩
  obtain ⟨k, h1, h2⟩ := hnew
  refine ⟨if ((o.props x).get b!"display_order").isSome then [entry 3 e.name p] else [], ?_, ?_, ?_⟩
  · simp only [displayOrder, h1, bind, Except.bind]
    rw [h2, he.props]; rfl
  · simp only [orderKid, againCode, textsOf]
    exact ite_codes _ _
  · rw [h2, he.props]
    exact he.prop (.num .displayOrder k false) hx

/-- Reading a field leads to an object reachable through the API. -/
theorem field_built (r : Reading) (he : EntryOk r.lt o P get put) {x : α} (hx : P x) {n : Bytes}
    {attrs : List (Bytes × Bytes)} {kids : List XNode} {y : Texts × List Nat}
    (hsafe : n = b!"display_order" → OrderSafe kids)
    (hy : fieldKid r (textsOf o x) n attrs kids = some y) : P (rebuild o x y.1) := by
  unfold fieldKid at hy
  by_cases h1 : n = b!"id" ∨ n = b!"name" ∨ n = b!"description"
  · rw [if_pos h1] at hy
    cases hy
    have hput : ∀ (sp : StrProp) (b : Bytes),
        P (rebuild o x (putText r (textsOf o x) sp.key b).1) := by
      intro sp b
      exact (setText_ok r he hx sp ⟨0, 0⟩ b).2.2
    show P (rebuild o x (textKid r (textsOf o x) n attrs (leaf r kids).2).1)
    unfold textKid
    cases (leaf r kids).2 with
    | none => simp only [he.same]; exact hx
    | some b =>
      simp only
      split
      · exact hput .id b
      · split
        · split
          · simp only [he.names]; exact he.name _ _ hx
          · exact hput .name b
        · split
          · simp only [he.descs]; exact he.desc _ _ hx
          · exact hput .desc b
  · rw [if_neg h1] at hy
    by_cases h2 : n = b!"display_order"
    · rw [if_pos h2] at hy
      cases hy
      obtain ⟨L, -, -, h⟩ := displayOrder_ok r he hx ⟨none, true, true, .displayOrder, RTree.create⟩
        ⟨0, 0⟩ (hsafe h2)
      exact h
    · rw [if_neg h2] at hy
      cases hy

/-- A child that the three kinds of entries have in common. -/
theorem field_ok (r : Reading) (he : EntryOk r.lt o P get put) {top : Elem} {st : List Elem}
    (hT : top.type ∈ containers) (hv : top.valid = true)
    (hch : ∀ n ∈ [b!"id", b!"name", b!"description", b!"display_order"], n ∈ children top.type)
    (hs1 : ∀ e p t d, e.ancSet = true →
      idNameDescPost r.ctx e (top :: st) p t d = idNameDescOn r.ctx o e p t d)
    (hs2 : ∀ e p t d, e.ancSet = true → displayOrderPost r.ctx e (top :: st) p t d =
      after true (onLast r.ctx o.slot (displayOrder r.ctx o e p t) d))
    {x : α} (hx : P x) {n : Bytes} {attrs : List (Bytes × Bytes)} {kids : List XNode}
    {y : Texts × List Nat} (ha : Fits r attrs) (hk : AllTidy (Fits r) kids)
    (hsafe : n = b!"display_order" → OrderSafe kids)
    (hy : fieldKid r (textsOf o x) n attrs kids = some y)
    {s : Parsed} {pend : List Bytes} (p q : Pos) (hat : At s (top :: st) pend) {c : DocContent}
    {gs : List α} {m : Rest} (hd : Holds r.lt (put c (gs ++ [x])) m s.doc) :
    ∃ s', Runs r.ctx s (XNode.elem p n attrs kids q).events s'
        (textCode pend ++ attrCodes r n attrs ++ y.2) ∧
      At s' (top :: st) [] ∧ Holds r.lt (put c (gs ++ [rebuild o x y.1])) m s'.doc ∧
      P (rebuild o x y.1) := by
  unfold fieldKid at hy
  by_cases h1 : n = b!"id" ∨ n = b!"name" ∨ n = b!"description"
  · rw [if_pos h1] at hy
    cases hy
    have hl : getType n ∈ leafTypes ∧ n ∈ [b!"id", b!"name", b!"description", b!"display_order"] ∧
        (∃ t, (getType n).infoName = .ok t) ∧
        (∀ at', (newElem r.ctx (top :: st) n at').ancSet = true) ∧
        (∀ enc e d, e.type = getType n → preproc r.ctx enc e (top :: st) d = .ok d) ∧
        (∀ e p t d, e.type = getType n → postproc r.ctx e (top :: st) p t d =
          idNameDescPost r.ctx e (top :: st) p t d) := by
      rcases h1 with rfl | rfl | rfl <;>
        exact ⟨by decide, by decide, ⟨_, rfl⟩, fun _ => rfl,
          fun _ _ _ h => by unfold preproc; rw [h]; rfl,
          fun _ _ _ _ h => by unfold postproc; rw [h]; rfl⟩
    have hval := valid_child (cx := r.ctx) (st := st) (attrs := attrs) hT hv (hch n hl.2.1)
    have hpost : ∃ d2 L, postproc r.ctx (newElem r.ctx (top :: st) n attrs) (top :: st) q
        (leaf r kids).2 s.doc = .ok ⟨d2, L, true⟩ ∧
        L.map (·.code) = (textKid r (textsOf o x) n attrs (leaf r kids).2).2 ∧
        Holds r.lt (put c (gs ++ [rebuild o x
          (textKid r (textsOf o x) n attrs (leaf r kids).2).1])) m d2 ∧
        P (rebuild o x (textKid r (textsOf o x) n attrs (leaf r kids).2).1) := by
      rw [hl.2.2.2.2.2 _ _ _ _ rfl, hs1 _ _ _ _ (hl.2.2.2.1 _), idNameDescOn]
      cases (leaf r kids).2 with
      | none =>
        obtain ⟨t, ht⟩ := hl.2.2.1
        obtain ⟨d2, e1, e2⟩ := onLast_ok r.ctx he.placed (g' := x) (L := [entry 24 (some t) q]) hd
          (f := fun x => do
            let n' ← (newElem r.ctx (top :: st) n attrs).type.infoName
            .ok (x, [entry 24 (some n') q]))
          (by simp only [bind, Except.bind]; rw [show (newElem r.ctx (top :: st) n attrs).type.infoName =
            .ok t from ht]) hx
        refine ⟨d2, _, after_ok e1, rfl, ?_, ?_⟩ <;>
          (rw [show (textKid r (textsOf o x) n attrs none).1 = textsOf o x from rfl, he.same])
        · exact e2
        · exact hx
      | some b =>
        obtain ⟨a1, a2, a3⟩ := idNameDesc_ok r he hx (newElem r.ctx (top :: st) n attrs) h1 rfl
          (fun k => ha.get k) q b
        obtain ⟨d2, e1, e2⟩ := onLast_ok r.ctx he.placed hd
          (f := fun x => .ok (idNameDesc r.ctx o (newElem r.ctx (top :: st) n attrs) q b x))
          (g' := (idNameDesc r.ctx o (newElem r.ctx (top :: st) n attrs) q b x).1)
          (L := (idNameDesc r.ctx o (newElem r.ctx (top :: st) n attrs) q b x).2)
          rfl (by rw [a1]; exact a3)
        refine ⟨d2, _, after_ok e1, a2, ?_, a3⟩
        rw [← a1]; exact e2
    obtain ⟨d2, L, e1, e2, e3, e4⟩ := hpost
    obtain ⟨s', r1, r2, r3⟩ := leaf_ok r hat p q ha hk hval (closed_leaf hl.1)
      (hl.2.2.2.2.1 _ _ _ rfl) e1
    refine ⟨s', ?_, r2, by rw [r3]; exact e3, e4⟩
    rw [e2] at r1
    simpa using r1
  · rw [if_neg h1] at hy
    by_cases h2 : n = b!"display_order"
    · rw [if_pos h2] at hy
      cases hy
      have hso := hsafe h2
      subst h2
      have hval := valid_child (cx := r.ctx) (st := st) (attrs := attrs) hT hv
        (hch b!"display_order" (by decide))
      obtain ⟨L, a1, a2, a3⟩ := displayOrder_ok r he hx
        (newElem r.ctx (top :: st) b!"display_order" attrs) q hso
      obtain ⟨d2, e1, e2⟩ := onLast_ok r.ctx he.placed hd a1 a3
      have hpost : postproc r.ctx (newElem r.ctx (top :: st) b!"display_order" attrs) (top :: st) q
          (leaf r kids).2 s.doc = .ok ⟨d2, L, true⟩ := by
        have : postproc r.ctx (newElem r.ctx (top :: st) b!"display_order" attrs) (top :: st) q
          (leaf r kids).2 s.doc = displayOrderPost r.ctx
            (newElem r.ctx (top :: st) b!"display_order" attrs) (top :: st) q (leaf r kids).2 s.doc := rfl
        rw [this, hs2 _ _ _ _ rfl]
        exact after_ok e1
      obtain ⟨s', r1, r2, r3⟩ := leaf_ok r hat p q ha hk hval
        (closed_leaf (top := newElem r.ctx (top :: st) b!"display_order" attrs)
          (by show getType b!"display_order" ∈ leafTypes; decide))
        (d1 := s.doc) rfl hpost
      refine ⟨s', ?_, r2, by rw [r3]; exact e2, a3⟩
      rw [a2] at r1
      simpa using r1
    · rw [if_neg h2] at hy
      cases hy

end fields

end Comps.Parse
