import Verif.Lemmas.PyElemText
import Verif.Lemmas.PyElemInit
import Verif.Props.Group

/-!
# Python objects for single entries (C98-C105)

`lt` is the order of the dictionary's children, `utf8` what Python's decoder accepts; both are
arbitrary.
-/

namespace Comps.Props.PyElem
open Comps Comps.Obj Comps.Spec Comps.PyElem

variable (lt : UInt8 → UInt8 → Bool) (utf8 : Bytes → Bool)

/-- For the examples: an order, and a decoder that takes ASCII. -/
abbrev asc : UInt8 → UInt8 → Bool := (· < ·)
abbrev ascii : Bytes → Bool := fun b => b.all (· < 128)

theorem propsBuilt_inv {t : RTree PVal} (h : PropsBuilt lt t) : PropInv lt t := by
  rcases h with ⟨g, h, rfl⟩ | ⟨g, h, rfl⟩ | ⟨g, h, rfl⟩
  · exact (groupBuilt_inv h).props
  · exact (categoryBuilt_inv h).props
  · exact (envBuilt_inv h).props

/-! ## C98 attributes are independent slots -/

/-- **C98.**  The attributes of a group, category or environment that hold one value are independent
slots: after any sequence of assignments every attribute reads what was last assigned to it, and what
it read before if nothing was; an assignment of a wrong type raises `TypeError` and counts for nothing.
Missing: `None` for a string attribute, for which it is false; strings with NUL, numbers that do not
fit into an `int`. -/
theorem C98_partial {t : RTree PVal} (h : PropsBuilt lt t) {r : Attr → Val}
    (hr : ∀ b, getAttr utf8 b t = .ok (.ok (r b))) (prog : List (Attr × Arg))
    (hp : ∀ s ∈ prog, Carried utf8 s.2 ∧ (isText s.1 = true → s.2 ≠ .none)) :
    ∃ t', runs (setAttr lt) t prog = .ok (t', (assigns meant r prog).2) ∧
      ∀ b, getAttr utf8 b t' = .ok (.ok ((assigns meant r prog).1 b)) := by
  obtain ⟨t', h1, -, h2⟩ := runs_ref (propsBuilt_inv lt h) hr prog hp
  exact ⟨t', h1, h2⟩

/-- A new group reads `None` everywhere. -/
theorem new_reads (b : Attr) : getAttr utf8 b (RTree.create : RTree PVal) = .ok (.ok .none) :=
  getAttr_none (create_get _)

example : ∃ t', runs (setAttr asc) RTree.create
      [(.name, .str b!"x"), (.displayOrder, .int 5), (.default, .int 1), (.name, .str b!"y"),
        (.default, .bool true)] = .ok (t', [.done, .done, .exc .typeError, .done, .done]) ∧
    getAttr ascii .name t' = .ok (.ok (.text b!"y")) ∧ getAttr ascii .id t' = .ok (.ok .none) ∧
    getAttr ascii .default t' = .ok (.ok (.bool true)) := by
  obtain ⟨t', h1, h2⟩ := C98_partial asc ascii (.inl ⟨_, .create, rfl⟩) (new_reads ascii)
    [(.name, .str b!"x"), (.displayOrder, .int 5), (.default, .int 1), (.name, .str b!"y"),
        (.default, .bool true)] (by
      intro s hs
      simp only [List.mem_cons, List.not_mem_nil, or_false] at hs
      rcases hs with rfl | rfl | rfl | rfl | rfl <;> simp [Carried, isText, ascii])
  exact ⟨t', h1, h2 .name, h2 .id, h2 .default⟩

/-- **C98, false.**  Assigning `None` to a string attribute succeeds and does nothing, in every state
and for every string attribute. -/
theorem C98_false (t : RTree PVal) (a : Attr) (h : isText a = true) :
    setAttr lt a t (some .none) = .ok (t, .done) ∧ meant a .none = some .none := by
  cases a <;> simp [isText] at h <;> exact ⟨rfl, rfl⟩

example : (do
    let (t, _) ← setAttr asc .name RTree.create (some (.str b!"x"))
    let (t, o) ← setAttr asc .name t (some .none)
    return (o, ← getAttr ascii .name t)) = .ok (.done, .ok (.text b!"x")) := rfl

/-- **C98, false.**  `del x.display_order` reads through a NULL pointer, in every state. -/
theorem C98_false_del (t : RTree PVal) : setAttr lt .displayOrder t none = .error .nullDeref := rfl

/-! ## C99 what raises changes nothing -/

theorem numIn_out {v : Option Arg} {n : Int} {u : Bool} {o : Out} (h : numIn v = .ok (.call n u o)) (e : Exc) :
    o ≠ .exc e := by
  unfold numIn at h
  (repeat' split at h) <;> simp at h <;> simp [← h.2.2]

/-- **C99.**  An assignment that is refused with an exception leaves the object as it was: every
attribute, every value, every state.  Missing: integers that do not fit into a `long`, for which the
exception comes late; `del` of a number or Boolean attribute, which crashes. -/
theorem C99_partial (v : Option Arg) (e : Exc) :
    (∀ a (t t' : RTree PVal), setAttr lt a t v = .ok (t', .exc e) → t' = t) ∧
    (∀ a (p p' : Pkg), p.setAttr a v = .ok (p', .exc e) → p' = p) ∧
    (∀ a (g g' : GroupId), gidSetAttr g a v = .ok (g', .exc e) → g' = g) := by
  refine ⟨?_, ?_, ?_⟩
  · intro a t t' h
    cases a
    case displayOrder =>
      simp only [setAttr, setNumAttr, bind, Except.bind] at h
      cases hn : numIn v with
      | error f => rw [hn] at h; cases h
      | ok x =>
        rw [hn] at h
        cases x with
        | reject e' => simp at h; exact h.1.symm
        | call n u o => simp at h; exact absurd h.2 (numIn_out hn e)
    all_goals
      simp only [setAttr, setStrAttr, setFlagAttr] at h
      (repeat' split at h) <;> simp_all
  · intro a p p' h
    cases a
    case type =>
      simp only [Pkg.setAttr, bind, Except.bind] at h
      cases hn : numIn v with
      | error f => rw [hn] at h; cases h
      | ok x =>
        rw [hn] at h
        cases x with
        | reject e' => simp at h; exact h.1.symm
        | call n u o => simp at h; exact absurd h.2 (numIn_out hn e)
    all_goals
      simp only [Pkg.setAttr, bind, Except.bind] at h
      (repeat' split at h) <;> simp_all
  · intro a g g' h
    cases a <;> simp only [gidSetAttr, bind, Except.bind] at h <;>
      (repeat' split at h) <;> simp_all

example : setAttr asc .default (RTree.create : RTree PVal) (some (.int 1)) = .ok (RTree.create, .exc .typeError) ∧
    setAttr asc .name (RTree.create : RTree PVal) none = .ok (RTree.create, .exc .typeError) := ⟨rfl, rfl⟩

/-- **C99.**  `del x.attr` is refused with `TypeError` and changes nothing, for every attribute and
every state, except for the numbers and flags for which it crashes. -/
theorem C99_del :
    (∀ a (t : RTree PVal), setAttr lt a t none =
      if a = .displayOrder then .error .nullDeref else .ok (t, .exc .typeError)) ∧
    (∀ a (p : Pkg), p.setAttr a none =
      if a = .name ∨ a = .requires then .ok (p, .exc .typeError) else .error .nullDeref) ∧
    (∀ a (g : GroupId), gidSetAttr g a none =
      if a = .name then .ok (g, .exc .typeError) else .error .nullDeref) := by
  refine ⟨?_, ?_, ?_⟩ <;> intro a <;> cases a <;> intro x <;> rfl

/-- **C99, false.**  A number too large for a `long` raises `OverflowError` (after the call reported
success), but -1 is stored, whatever was there. -/
theorem C99_false {t : RTree PVal} (h : PropsBuilt lt t) (n : Int) (hn : 2 ^ 63 ≤ n) :
    ∃ t', setAttr lt .displayOrder t (some (.int n)) = .ok (t', .pending .overflowError) ∧
      getAttr utf8 .displayOrder t' = .ok (.ok (.num (-1))) := by
  have e : asLong n = none := by unfold asLong; rw [if_neg (by omega)]
  refine ⟨_, by simp only [setAttr, setNumAttr, numIn, e, bind, Except.bind]; rfl, ?_⟩
  rw [getAttr_eq, run_num_get (propsBuilt_inv lt h)]
  rfl

example : ∃ t', setAttr asc .displayOrder RTree.create (some (.int (2 ^ 70))) =
    .ok (t', .pending .overflowError) ∧ getAttr ascii .displayOrder t' = .ok (.ok (.num (-1))) :=
  C99_false asc ascii (.inl ⟨_, .create, rfl⟩) _ (by decide)

/-! ## C100 packages and group ids -/

/-- **C100.**  The attributes of a package are independent slots, as C98.  Missing: `None` for name,
requirement and type, for which it is false. -/
theorem C100_package_partial (p : Pkg) {r : PkgAttr → Val} (hr : ∀ b, p.getAttr utf8 b = .ok (.ok (r b)))
    (prog : List (PkgAttr × Arg))
    (hp : ∀ s ∈ prog, Carried utf8 s.2 ∧ (s.1 ≠ .basearchonly → s.2 ≠ .none)) :
    ∃ p', runs (fun a p v => p.setAttr a v) p prog = .ok (p', (assigns meantPkg r prog).2) ∧
      ∀ b, p'.getAttr utf8 b = .ok (.ok ((assigns meantPkg r prog).1 b)) := by
  obtain ⟨p', h1, -, h2⟩ := runs_gen (set := fun a (p : Pkg) v => p.setAttr a v)
    (get := fun (p : Pkg) b => p.getAttr utf8 b) (I := fun _ => True)
    (P := fun a v => Carried utf8 v ∧ (a ≠ .basearchonly → v ≠ .none))
    (fun s r a v _ hr hp => by
      obtain ⟨s', e1, e2⟩ := s.setAttr_ref hr a v hp.1 hp.2
      exact ⟨s', e1, trivial, e2⟩) prog trivial hr hp
  exact ⟨p', h1, h2⟩

/-- **C100.**  The attributes of a group id are independent slots.  Missing: `None` for the name. -/
theorem C100_groupid_partial (g : GroupId) {r : GidAttr → Val}
    (hr : ∀ b, gidGetAttr utf8 g b = .ok (.ok (r b))) (prog : List (GidAttr × Arg))
    (hp : ∀ s ∈ prog, Carried utf8 s.2 ∧ (s.1 = .name → s.2 ≠ .none)) :
    ∃ g', runs (fun a g v => gidSetAttr g a v) g prog = .ok (g', (assigns meantGid r prog).2) ∧
      ∀ b, gidGetAttr utf8 g' b = .ok (.ok ((assigns meantGid r prog).1 b)) := by
  obtain ⟨p', h1, -, h2⟩ := runs_gen (set := fun a (g : GroupId) v => gidSetAttr g a v)
    (get := fun (g : GroupId) b => gidGetAttr utf8 g b) (I := fun _ => True)
    (P := fun a v => Carried utf8 v ∧ (a = .name → v ≠ .none))
    (fun s r a v _ hr hp => by
      obtain ⟨s', e1, e2⟩ := gidSetAttr_ref s hr a v hp.1 hp.2
      exact ⟨s', e1, trivial, e2⟩) prog trivial hr hp
  exact ⟨p', h1, h2⟩

example : ∃ p', runs (fun a p v => Pkg.setAttr p a v) Pkg.create
      [(.name, .str b!"vim"), (.type, .int 3), (.basearchonly, .none), (.basearchonly, .bool true)] =
        .ok (p', [.done, .done, .exc .typeError, .done]) ∧
    p'.getAttr ascii .name = .ok (.ok (.text b!"vim")) ∧ p'.getAttr ascii .type = .ok (.ok (.num 3)) ∧
    p'.getAttr ascii .basearchonly = .ok (.ok (.bool true)) := by
  obtain ⟨t', h1, h2⟩ := C100_package_partial ascii Pkg.create
    (r := fun a => if a = .type then .num 4 else .none) (fun b => by cases b <;> rfl)
    [(.name, .str b!"vim"), (.type, .int 3), (.basearchonly, .none), (.basearchonly, .bool true)] (by
      intro s hs
      simp only [List.mem_cons, List.not_mem_nil, or_false] at hs
      rcases hs with rfl | rfl | rfl | rfl <;> simp [Carried, ascii])
  exact ⟨t', h1, h2 .name, h2 .type, h2 .basearchonly⟩

/-- **C100, false.**  A package's name taken back with `None` reads as the empty string, its type as 1
(optional); a group id's name as the empty string. -/
theorem C100_false (p : Pkg) (g : GroupId) (hu : utf8 [] = true) :
    (∃ p', p.setAttr .name (some .none) = .ok (p', .done) ∧ p'.getAttr utf8 .name = .ok (.ok (.text []))) ∧
    (∃ p', p.setAttr .type (some .none) = .ok (p', .done) ∧ p'.getAttr utf8 .type = .ok (.ok (.num 1))) ∧
    (∃ g', gidSetAttr g .name (some .none) = .ok (g', .done) ∧
      gidGetAttr utf8 g' .name = .ok (.ok (.text []))) := by
  have e : cstrOut utf8 (some ⟨none⟩) = .ok (.ok (.text [])) := by
    simp [cstrOut, strText_ok, bind, Except.bind, pure, Except.pure, textOut, hu]
  exact ⟨⟨_, rfl, e⟩, ⟨_, rfl, rfl⟩, ⟨_, rfl, e⟩⟩

/-! ## C101 constructors -/

/-- **C101.**  `Group(...)` raises exactly if an argument is not of its type or does not fit; otherwise
every attribute reads the argument, or its default: `None`, `default` False, `uservisible` True.
Missing: a display order that is given and not positive, for which it is false. -/
theorem C101_group_partial (a : GroupArgs) :
    ((∃ e, groupInit lt a = .error e) ↔ ¬ ((takenText a.id && takenText a.name && takenText a.desc &&
      takenNum a.displayOrder && takenNum a.default && takenNum a.uservisible && takenText a.langonly) = true)) ∧
    (∀ t, groupInit lt a = .ok t → Encoded utf8 a.id → Encoded utf8 a.name → Encoded utf8 a.desc →
      Encoded utf8 a.langonly →
      (∀ n, newNum .none a.displayOrder = .num n → 0 < n) →
      ∀ b, getAttr utf8 b t = .ok (.ok (newGroup a b))) := by
  cases hg : (takenText a.id && takenText a.name && takenText a.desc && takenNum a.displayOrder &&
    takenNum a.default && takenNum a.uservisible && takenText a.langonly)
  · obtain ⟨e, he⟩ := groupInit_bad (lt := lt) hg
    exact ⟨by simp [he], fun t ht => by rw [he] at ht; cases ht⟩
  · simp only [Bool.and_eq_true] at hg
    obtain ⟨⟨⟨⟨⟨⟨g1, g2⟩, g3⟩, g4⟩, g5⟩, g6⟩, g7⟩ := hg
    obtain ⟨t, ht, -, k1, k2, k3, k4, k5, k6, k7, k8⟩ := groupInit_ok (lt := lt) g1 g2 g3 g4 g5 g6 g7
    refine ⟨by simp [ht], fun t' ht' u1 u2 u3 u4 hd b => ?_⟩
    rw [ht] at ht'; cases ht'
    rw [getAttr_eq]
    cases b
    · exact k1 ▸ readVal_text rfl g1 u1
    · exact k2 ▸ readVal_text rfl g2 u2
    · exact k3 ▸ readVal_text rfl g3 u3
    · exact k4 ▸ readVal_text rfl g7 u4
    · rw [show Attr.displayOrder.key = b!"display_order" from rfl, k8]
      by_cases ho : a.displayOrder = none
      · rw [ho]; simp [newGroup, ho]; rfl
      · have : argNum (-1) a.displayOrder > 0 := by
          refine hd _ ?_
          cases hv : a.displayOrder with
          | none => exact absurd hv ho
          | some v =>
            rw [hv] at g4
            cases v <;> first | rfl | (simp [takenNum] at g4)
        rw [if_pos this]
        exact readVal_num _ g4 ho _
    · exact k6 ▸ readVal_flag rfl (by simp) true g6
    · rw [show Attr.biarchOnly.key = b!"biarchonly" from rfl, k7]; rfl
    · exact k5 ▸ readVal_flag rfl (by simp) false g5

/-- **C101.**  The same for `Category(...)` and `Environment(...)`.  Missing: a display order of -1. -/
theorem C101_entry_partial (a : EntryArgs) :
    ((∃ e, entryInit lt a = .error e) ↔ ¬ ((takenText a.id && takenText a.name && takenText a.desc &&
      takenNum a.displayOrder) = true)) ∧
    (∀ t, entryInit lt a = .ok t → Encoded utf8 a.id → Encoded utf8 a.name → Encoded utf8 a.desc →
      a.displayOrder ≠ some (.int (-1)) → ∀ b, getAttr utf8 b t = .ok (.ok (newEntry a b))) := by
  cases hg : (takenText a.id && takenText a.name && takenText a.desc && takenNum a.displayOrder)
  · obtain ⟨e, he⟩ := entryInit_bad (lt := lt) hg
    exact ⟨by simp [he], fun t ht => by rw [he] at ht; cases ht⟩
  · simp only [Bool.and_eq_true] at hg
    obtain ⟨⟨⟨g1, g2⟩, g3⟩, g4⟩ := hg
    obtain ⟨t, ht, -, k1, k2, k3, k4, k5, k6, k7, k8⟩ := entryInit_ok (lt := lt) g1 g2 g3 g4
    refine ⟨by simp [ht], fun t' ht' u1 u2 u3 hd b => ?_⟩
    rw [ht] at ht'; cases ht'
    cases b
    case displayOrder =>
      rw [getAttr_eq, show Attr.displayOrder.key = b!"display_order" from rfl, k8]
      by_cases ho : a.displayOrder = none
      · rw [ho]; simp [newEntry, ho]; rfl
      · have : argNum (-1) a.displayOrder ≠ -1 := by
          cases hv : a.displayOrder with
          | none => exact absurd hv ho
          | some v =>
            rw [hv] at g4 hd
            cases v with
            | int n => simpa [argNum] using hd
            | bool b => cases b <;> simp [argNum, boolInt]
            | _ => simp [takenNum] at g4
        rw [if_pos this]
        exact readVal_num _ g4 ho _
    case id => rw [getAttr_eq]; exact k1 ▸ readVal_text rfl g1 u1
    case name => rw [getAttr_eq]; exact k2 ▸ readVal_text rfl g2 u2
    case desc => rw [getAttr_eq]; exact k3 ▸ readVal_text rfl g3 u3
    case langOnly => exact getAttr_none k4
    case userVisible => exact getAttr_none k6
    case biarchOnly => exact getAttr_none k7
    case default => exact getAttr_none k5

/-- **C101.**  The same for `Package(...)`.  Missing: a name or requirement that is not given. -/
theorem C101_package_partial (a : PkgArgs) :
    ((∃ e, pkgInit a = .error e) ↔ ¬ ((takenText a.name && takenNum a.type && takenText a.requires) = true)) ∧
    (∀ p, pkgInit a = .ok p → Encoded utf8 a.name → Encoded utf8 a.requires →
      a.name ≠ none → a.requires ≠ none → ∀ b, p.getAttr utf8 b = .ok (.ok (newPkg a b))) := by
  have key : ∀ {o : Option Arg}, takenText o = true → o ≠ none → Encoded utf8 o →
      cstrOut utf8 (some ⟨argText o⟩) = .ok (.ok (newText o)) := by
    intro o h hn he
    cases o with
    | none => exact absurd rfl hn
    | some v =>
      cases v with
      | str s =>
        cases s with
        | none => simp [takenText] at h
        | some b => exact cstrOut_some (he b rfl)
      | _ => simp [takenText] at h
  cases hg : (takenText a.name && takenNum a.type && takenText a.requires)
  · obtain ⟨e, he⟩ := pkgInit_bad hg
    exact ⟨by simp [he], fun t ht => by rw [he] at ht; cases ht⟩
  · simp only [Bool.and_eq_true] at hg
    obtain ⟨⟨g1, g2⟩, g3⟩ := hg
    have e : pkgInit a = .ok ⟨some ⟨argText a.name⟩, some ⟨argText a.requires⟩, none, argNum 4 a.type⟩ := by
      unfold pkgInit
      simp only [parseStr_taken g1, parseStr_taken g3, parseInt_taken _ g2, bind, Except.bind, pure,
        Except.pure]
      rfl
    refine ⟨by simp [e], fun p hp u1 u2 n1 n2 b => ?_⟩
    rw [e] at hp; cases hp
    cases b
    · exact key g1 n1 u1
    · exact key g3 n2 u2
    · simp only [Pkg.getAttr, newPkg]
      cases ht : a.type with
      | none => rfl
      | some v =>
        rw [ht] at g2
        cases v with
        | int n => rfl
        | bool b => cases b <;> rfl
        | _ => simp [takenNum] at g2
    · rfl

/-- **C101.**  `GroupId(name, default)` raises exactly if no name is given, the name is not a string
without NUL, or `default` is given and not a `bool`; otherwise both read what was given. -/
theorem C101_groupid (a : GidArgs) :
    ((∃ e, gidInit a = .error e) ↔
      ¬ (a.name ≠ none ∧ takenText a.name = true ∧ (a.default = none ∨ ∃ b, a.default = some (.bool b)))) ∧
    (∀ g, gidInit a = .ok g → Encoded utf8 a.name →
      gidGetAttr utf8 g .name = .ok (.ok (newText a.name)) ∧
      gidGetAttr utf8 g .default = .ok (.ok (newFlag false a.default))) := by
  obtain ⟨name, dflt⟩ := a
  cases name with
  | none => exact ⟨by simp [gidInit], fun g hg => by simp [gidInit] at hg⟩
  | some v =>
    cases ht : takenText (some v)
    · obtain ⟨e, he⟩ := parseStr_bad ht
      have : gidInit ⟨some v, dflt⟩ = .error e := by simp [gidInit, he, bind, Except.bind]
      exact ⟨by simp [this], fun g hg => by rw [this] at hg; cases hg⟩
    · have hs := parseStr_taken ht
      cases v with
      | str s =>
        cases s with
        | none => simp [takenText] at ht
        | some b =>
          cases dflt with
          | none =>
            have : gidInit ⟨some (.str (some b)), none⟩ =
                .ok ((GroupId.create.setName (some b)).setDefault 0) := by
              simp [gidInit, hs, bind, Except.bind, parseBool, pure, Except.pure, argText]
            refine ⟨by simp [this], fun g hg hu => ?_⟩
            rw [this] at hg; cases hg
            exact ⟨cstrOut_some (hu b rfl), rfl⟩
          | some d =>
            cases d with
            | bool c =>
              have : gidInit ⟨some (.str (some b)), some (.bool c)⟩ =
                  .ok ((GroupId.create.setName (some b)).setDefault (if c then 1 else 0)) := by
                simp [gidInit, hs, bind, Except.bind, parseBool, pure, Except.pure, argText]
              refine ⟨by simp [this], fun g hg hu => ?_⟩
              rw [this] at hg; cases hg
              exact ⟨cstrOut_some (hu b rfl), by cases c <;> rfl⟩
            | _ =>
              simp [gidInit, hs, bind, Except.bind, parseBool]
      | _ => simp [takenText] at ht

example : ∃ t, groupInit asc { id := some (.str b!"g"), displayOrder := some (.int 7) } = .ok t ∧
    ∀ b, getAttr ascii b t = .ok (.ok (newGroup { id := some (.str b!"g"), displayOrder := some (.int 7) } b)) :=
  ⟨_, rfl, (C101_group_partial asc ascii { id := some (.str b!"g"), displayOrder := some (.int 7) }).2 _ rfl
    (by simp [Encoded, ascii]) (by simp [Encoded]) (by simp [Encoded]) (by simp [Encoded])
    (by simp [newNum])⟩

example : ∃ e, gidInit { name := some (.str b!"g"), default := some (.int 1) } = .error e :=
  (C101_groupid ascii { name := some (.str b!"g"), default := some (.int 1) }).1.2 (by simp)

/-- **C101, false.**  `Group(display_order=0)`, and any other number that is not positive, is taken and
reads `None`. -/
theorem C101_false_group (n : Int) (h : n ≤ 0) (hm : -2 ^ 31 ≤ n) :
    ∃ t, groupInit lt { displayOrder := some (.int n) } = .ok t ∧
      getAttr utf8 .displayOrder t = .ok (.ok .none) ∧
      newGroup { displayOrder := some (.int n) } .displayOrder = .num n := by
  obtain ⟨t, ht, -, -, -, -, -, -, -, -, k⟩ := groupInit_ok (lt := lt)
    (a := { displayOrder := some (.int n) }) rfl rfl rfl (by simp [takenNum]; omega) rfl rfl rfl
  refine ⟨t, ht, getAttr_none ?_, rfl⟩
  show t.get b!"display_order" = _
  rw [k, if_neg (by simp [argNum]; omega)]

/-- **C101, false.**  `Category(display_order=-1)` is taken and reads `None`. -/
theorem C101_false_entry : ∃ t, entryInit lt { displayOrder := some (.int (-1)) } = .ok t ∧
    getAttr utf8 .displayOrder t = .ok (.ok .none) := by
  obtain ⟨t, ht, -, -, -, -, -, -, -, -, k⟩ := entryInit_ok (lt := lt)
    (a := { displayOrder := some (.int (-1)) }) rfl rfl rfl (by decide) 
  exact ⟨t, ht, getAttr_none k⟩

/-- **C101, false.**  The name of `Package()` is the empty string, not `None` as for groups. -/
theorem C101_false_package (hu : utf8 [] = true) : ∃ p, pkgInit {} = .ok p ∧
    p.getAttr utf8 .name = .ok (.ok (.text [])) := by
  refine ⟨_, rfl, ?_⟩
  show cstrOut utf8 (some ⟨none⟩) = _
  simp [cstrOut, strText_ok, bind, Except.bind, pure, Except.pure, textOut, hu]

/-! ## C102 equal objects have equal hashes -/

theorem texts_same {f : α → Res Bytes} {c : α → α → Bool} (hc : ∀ a b, c a b = true → f a = f b)
    {a b : Option (List α)} (h : SameList c a b) : objText (listText f) a = objText (listText f) b := by
  cases a <;> cases b <;> simp [SameList] at h
  · rfl
  · rename_i a b
    show listText f a = listText f b
    unfold listText
    rw [mapM_pointwise f h.1 fun i x y hx hy => hc x y (h.2 i x y hx hy)]

/-- **C102.**  Group ids that compare equal have the same hash. -/
theorem C102_groupid (a b : GroupId) (h : a.cmp b = true) : hash (gidText a) = hash (gidText b) := by
  rw [gidText_cmp h]

/-- **C102.**  Categories that compare equal have the same hash. -/
theorem C102_category {a b : Category} (ha : CategoryBuilt lt a) (hb : CategoryBuilt lt b)
    (h : richCmp Category.cmp .eq a (.same b) = .ok true) : hash (categoryText a) = hash (categoryText b) := by
  have h : a.cmp b = true := by simpa [richCmp, cmpOut] using h
  obtain ⟨h1, -, -, h4⟩ := (C41_category_meaning ha hb).1 h
  unfold categoryText
  rw [propTexts_congr h1]
  simp only [dictText]
  have := texts_same (f := gidText) (fun _ _ => gidText_cmp) h4
  simp only [Category.getGroupIds] at this
  rw [this]

/-- **C102.**  Environments that compare equal have the same hash. -/
theorem C102_env {a b : Env} (ha : EnvBuilt lt a) (hb : EnvBuilt lt b)
    (h : richCmp Env.cmp .eq a (.same b) = .ok true) : hash (envText a) = hash (envText b) := by
  have h : a.cmp b = true := by simpa [richCmp, cmpOut] using h
  obtain ⟨h1, -, -, h4, h5⟩ := (C41_env_meaning ha hb).1 h
  unfold envText
  rw [propTexts_congr h1]
  simp only [dictText]
  have i := texts_same (f := gidText) (fun _ _ => gidText_cmp) h4
  have j := texts_same (f := gidText) (fun _ _ => gidText_cmp) h5
  simp only [Env.getGroupList, Env.getOptionList] at i j
  rw [i, j]

/-- For packages and groups: the flag `basearchonly`, which is not compared. -/
def Flagged (o : Option Int) : Bool := match o with | none => false | some n => n != 0

theorem pkgText_flag (n r : Option CStr) {o o' : Option Int} (t : Bytes) (h : Flagged o = Flagged o') :
    pkgText n r o t = pkgText n r o' t := by
  cases o with
  | none =>
    cases o' with
    | none => rfl
    | some m =>
      have : m = 0 := by simpa [Flagged] using h.symm
      subst this; rfl
  | some k =>
    cases o' with
    | none =>
      have : k = 0 := by simpa [Flagged] using h
      subst this; rfl
    | some m =>
      by_cases hk : k = 0 <;> by_cases hm : m = 0
      · rw [hk, hm]
      · simp [Flagged, hk, hm] at h
      · simp [Flagged, hk, hm] at h
      · unfold pkgText; simp only [ne_eq, hk, hm, not_false_eq_true, if_true]

/-- **C102.**  Packages that compare equal and agree in `basearchonly` have the same hash.  Missing:
packages that differ in it, for which it is false. -/
theorem C102_package_partial (a b : Pkg) (h : richCmp Pkg.cmp .eq a (.same b) = .ok true)
    (hf : Flagged a.basearchonly = Flagged b.basearchonly) : hash a.text = hash b.text := by
  have h : a.cmp b = true := by simpa [richCmp, cmpOut] using h
  unfold Pkg.cmp at h
  split at h
  · cases h
  rename_i h1
  split at h
  · cases h
  rename_i h2
  split at h
  · cases h
  rename_i h3
  simp only [Bool.not_eq_true, Bool.not_eq_false'] at h1 h2
  rw [objCmp_iff CStr.cmp_iff] at h1 h2
  unfold Pkg.text
  rw [h1, h2, Decidable.of_not_not h3, pkgText_flag _ _ _ hf]

/-- **C102.**  Groups that compare equal and whose packages agree in `basearchonly`, place by place,
have the same hash.  Missing: groups whose packages differ in it. -/
theorem C102_group_partial {a b : Group} (ha : GroupBuilt lt a) (hb : GroupBuilt lt b)
    (h : richCmp Group.cmp .eq a (.same b) = .ok true)
    (hf : SameList (fun p q => Flagged p.basearchonly == Flagged q.basearchonly) a.packages b.packages) :
    hash (groupText a) = hash (groupText b) := by
  have h : a.cmp b = true := by simpa [richCmp, cmpOut] using h
  obtain ⟨h1, -, -, h4⟩ := (C41_group_meaning ha hb).1 h
  unfold groupText
  rw [propTexts_congr h1]
  simp only [dictText]
  have : SameList (fun p q => p.cmp q && Flagged p.basearchonly == Flagged q.basearchonly)
      a.packages b.packages := by
    simp only [Group.getPackageList] at h4
    revert h4 hf
    cases a.packages <;> cases b.packages <;> simp only [SameList]
    · exact fun _ _ => trivial
    · exact fun h _ => h
    · exact fun h _ => h
    · rintro ⟨-, k2⟩ ⟨k3, k4⟩
      exact ⟨k3, fun i x y hx hy => by simp only [k4 i x y hx hy, k2 i x y hx hy, Bool.and_self]⟩
  rw [texts_same (f := packageText) (c := fun p q => p.cmp q && Flagged p.basearchonly == Flagged q.basearchonly)
    (fun p q hpq => by
      simp only [Bool.and_eq_true, beq_iff_eq, Package.cmp_iff] at hpq
      unfold packageText
      rw [hpq.1.1, hpq.1.2.1, hpq.1.2.2, pkgText_flag _ _ _ hpq.2]) this]

/-- For `C102_false`: a package. -/
def pkgA (b : Option Int) : Pkg := ⟨some ⟨some b!"a"⟩, none, b, 0⟩

/-- **C102, false.**  Two packages that compare equal and have different hashes: they differ in
`basearchonly`. -/
theorem C102_false : richCmp Pkg.cmp .eq (pkgA none) (.same (pkgA (some 1))) = .ok true ∧
    ∃ m n, hash (pkgA none).text = .ok m ∧ hash (pkgA (some 1)).text = .ok n ∧ m ≠ n :=
  ⟨rfl, 1490512826, 1250809719, rfl, rfl, by decide⟩

/-- For `C102_false_group`: a group with one package. -/
def grpA (b : Option Int) : Group :=
  Group.create.addPackage { Package.create with name := some ⟨some b!"a"⟩, basearchonly := b }

/-- **C102, false.**  Two groups made through the API that compare equal and have different hashes. -/
theorem C102_false_group : GroupBuilt asc (grpA none) ∧ GroupBuilt asc (grpA (some 1)) ∧
    richCmp Group.cmp .eq (grpA none) (.same (grpA (some 1))) = .ok true ∧
    ∃ m n, hash (groupText (grpA none)) = .ok m ∧ hash (groupText (grpA (some 1))) = .ok n ∧ m ≠ n :=
  ⟨.add _ .create, .add _ .create, rfl, 1397267718, 4013213521, rfl, rfl, by decide⟩


example : hash (categoryText (Category.create.addGroupId ⟨some ⟨some b!"g"⟩, true, none⟩)) =
    hash (categoryText (Category.create.addGroupId ⟨some ⟨some b!"g"⟩, true, none⟩).copy) :=
  C102_category asc (.add _ .create) (.copy (.add _ .create)) rfl

/-! ## C103 texts and hashes -/

/-- The number attributes that are part of the text of an entry are not negative. -/
def NotNegative (t : RTree PVal) (p : NumProp) : Prop := ∀ n, getNumProp t p = some (.num n) → 0 ≤ n

/-- **C103.**  `hash(p)` of packages and group ids never leaves a buffer or the table of the checksum,
and gives a number of 32 bits. -/
theorem C103_package (p : Pkg) (g : GroupId) :
    (∃ n, hash p.text = .ok n ∧ n < 2 ^ 32) ∧ (∃ n, hash (gidText g) = .ok n ∧ n < 2 ^ 32) :=
  ⟨hash_of (Pkg.text_ok p), hash_of (gidText_ok g)⟩

/-- **C103.**  `hash(g)` of a group never leaves a buffer as long as its display order and its default
flag are not negative.  Missing: negative ones, for which it is false. -/
theorem C103_group_partial {g : Group} (h : GroupBuilt lt g) (h1 : NotNegative g.props .displayOrder)
    (h2 : NotNegative g.props .dflt) : ∃ n, hash (groupText g) = .ok n ∧ n < 2 ^ 32 := by
  have i := (groupBuilt_inv h).props
  obtain ⟨l, hl, hn⟩ := propTexts_ok (t := g.props)
    (keys := [b!"id", b!"name", b!"desc", b!"display_order", b!"def", b!"langonly"]) (by
      intro k hk n e
      simp only [List.mem_cons, List.not_mem_nil, or_false] at hk
      rcases hk with rfl | rfl | rfl | rfl | rfl | rfl
      · exact (strKey_num i (.inl rfl) e).elim
      · exact (strKey_num i (.inr (.inl rfl)) e).elim
      · exact (strKey_num i (.inr (.inr (.inl rfl))) e).elim
      · exact h1 n e
      · exact h2 n e
      · exact (strKey_num i (.inr (.inr (.inr rfl))) e).elim)
  exact hash_of (groupText_rest g hl hn)

theorem entryTexts {t : RTree PVal} (i : PropInv lt t) (h1 : NotNegative t .displayOrder) :
    ∃ l, propTexts t [b!"id", b!"name", b!"desc", b!"display_order"] = .ok l ∧ l.length = 4 :=
  propTexts_ok (by
    intro k hk n e
    simp only [List.mem_cons, List.not_mem_nil, or_false] at hk
    rcases hk with rfl | rfl | rfl | rfl
    · exact (strKey_num i (.inl rfl) e).elim
    · exact (strKey_num i (.inr (.inl rfl)) e).elim
    · exact (strKey_num i (.inr (.inr (.inl rfl))) e).elim
    · exact h1 n e)

/-- **C103.**  The same for categories. -/
theorem C103_category_partial {c : Category} (h : CategoryBuilt lt c)
    (h1 : NotNegative c.props .displayOrder) : ∃ n, hash (categoryText c) = .ok n ∧ n < 2 ^ 32 := by
  obtain ⟨l, hl, hn⟩ := entryTexts lt (categoryBuilt_inv h).props h1
  exact hash_of (categoryText_rest c hl hn)

/-- **C103.**  The same for environments. -/
theorem C103_env_partial {e : Env} (h : EnvBuilt lt e) (h1 : NotNegative e.props .displayOrder) :
    ∃ n, hash (envText e) = .ok n ∧ n < 2 ^ 32 := by
  obtain ⟨l, hl, hn⟩ := entryTexts lt (envBuilt_inv h).props h1
  exact hash_of (envText_rest e hl hn)

example : ∃ n, hash (categoryText { Category.create with
      props := (PropCall.num .displayOrder 5 false).run asc Category.create.props }) = .ok n ∧ n < 2 ^ 32 :=
  C103_category_partial asc (.prop _ .create) (by
    intro n hn
    have : getNumProp ((PropCall.num .displayOrder 5 false).run asc Category.create.props) .displayOrder =
      some (.num 5) := rfl
    rw [this] at hn; cases hn; decide)

/-- **C103, false.**  The hash of any group, category or environment with a negative display order
computes the logarithm of a negative number and converts it to an integer. -/
theorem C103_false {n : Int} (hn : n < 0) :
    (∀ g, GroupBuilt lt g → getNumProp g.props .displayOrder = some (.num n) →
      hash (groupText g) = .error .badConversion) ∧
    (∀ c, CategoryBuilt lt c → getNumProp c.props .displayOrder = some (.num n) →
      hash (categoryText c) = .error .badConversion) ∧
    (∀ e, EnvBuilt lt e → getNumProp e.props .displayOrder = some (.num n) →
      hash (envText e) = .error .badConversion) := by
  have pre : ∀ {t : RTree PVal}, PropInv lt t → ∀ k ∈ [b!"id", b!"name", b!"desc"], ∀ n,
      t.get k = some (.num n) → 0 ≤ n := by
    intro t i k hk n e
    simp only [List.mem_cons, List.not_mem_nil, or_false] at hk
    rcases hk with rfl | rfl | rfl
    · exact (strKey_num i (.inl rfl) e).elim
    · exact (strKey_num i (.inr (.inl rfl)) e).elim
    · exact (strKey_num i (.inr (.inr (.inl rfl))) e).elim
  refine ⟨fun g h e => ?_, fun g h e => ?_, fun g h e => ?_⟩
  · have := propTexts_bad _ [b!"def", b!"langonly"] (pre (groupBuilt_inv h).props) e hn
    unfold groupText
    rw [show [b!"id", b!"name", b!"desc", b!"display_order", b!"def", b!"langonly"] =
      [b!"id", b!"name", b!"desc"] ++ NumProp.displayOrder.key :: [b!"def", b!"langonly"] from rfl, this]
    rfl
  · have := propTexts_bad _ [] (pre (categoryBuilt_inv h).props) e hn
    unfold categoryText
    rw [show [b!"id", b!"name", b!"desc", b!"display_order"] =
      [b!"id", b!"name", b!"desc"] ++ NumProp.displayOrder.key :: [] from rfl, this]
    rfl
  · have := propTexts_bad _ [] (pre (envBuilt_inv h).props) e hn
    unfold envText
    rw [show [b!"id", b!"name", b!"desc", b!"display_order"] =
      [b!"id", b!"name", b!"desc"] ++ NumProp.displayOrder.key :: [] from rfl, this]
    rfl

example : hash (categoryText { Category.create with
      props := (PropCall.num .displayOrder (-1) false).run asc Category.create.props }) =
    .error .badConversion :=
  (C103_false asc (by decide)).2.1 _ (.prop _ .create) rfl

/-- **C103.**  `str(x)` of an entry is its id, and empty when it has none. -/
theorem C103_str {t : RTree PVal} (h : PropsBuilt lt t) :
    entryStr t = .ok (match t.get b!"id" with | some (.str s) => s.val.getD [] | _ => []) := by
  have i := propsBuilt_inv lt h
  unfold entryStr
  cases e : t.get b!"id" with
  | none => rfl
  | some v =>
    have k := i.typed.get i.wf e
    cases v with
    | str s =>
      obtain ⟨b, h1, h2⟩ := strToStr_ok s.val
      simp [objText, pvalText, h1, h2, bind, Except.bind, pure, Except.pure]
    | num n => simp [propKinds, kind] at k
    | list l => simp [propKinds, kind] at k

example : entryStr ((PropCall.str .id b!"g").run asc Group.create.props) = .ok b!"g" :=
  C103_str asc (.inl ⟨_, .prop (.str .id b!"g") .create, rfl⟩)

/-! ## C104 searching packages -/

/-- The type argument asked for: one of the types 0 to 3. -/
def askedType : Option Arg → Option Int
  | some (.int n) => if 0 ≤ n ∧ n ≤ 3 then some n else none
  | some (.bool b) => some (if b then 1 else 0)
  | _ => none

/-- **C104.**  `g.packages_match(name, type)` with a type gives exactly the packages of that type (and
of the name, if one is given), in order.  Missing: no type given, and type UNKNOWN, for which it is
false. -/
theorem C104_partial (l : List Pkg) (name type : Option Arg) (hn : takenText name = true) (n : Int)
    (ht : askedType type = some n) :
    packagesMatch l name type = .ok (l.filter (wanted (argText name) (some n))) := by
  have hr : 0 ≤ n ∧ n ≤ 3 := by
    unfold askedType at ht
    split at ht
    · split at ht <;> simp at ht; omega
    · simp at ht; split at ht <;> omega
    · cases ht
  have hp : parseType type = .ok n := by
    unfold askedType at ht
    split at ht
    · split at ht <;> simp at ht
      subst ht
      have : asLong ‹Int› = some ‹Int› := asLong_of (by omega)
      simp only [parseType, this]
      rw [if_pos (by omega)]
    · simp at ht; rw [← ht]; rfl
    · cases ht
  unfold packagesMatch
  simp only [parseStr_taken hn, hp, bind, Except.bind, pure, Except.pure]
  congr 1
  apply List.filter_congr
  intro p _
  have h4 : n ≠ typeNum .unknown := by show n ≠ 4; omega
  have hc : ∀ b, objCmp CStr.cmp p.name (some (compsStr (some b))) = (p.name == some ⟨some b⟩) := by
    intro b
    rw [Bool.eq_iff_iff, objCmp_iff CStr.cmp_iff, beq_iff_eq]; rfl
  unfold pkgMatches wanted
  cases argText name with
  | none =>
    by_cases he : p.type = n <;> simp [h4, he]
  | some b =>
    rw [hc]
    by_cases he : p.type = n <;> cases hb : (p.name == some ⟨some b⟩) <;> simp [h4, he, hb]

example : packagesMatch [pkgA none, ⟨none, none, none, 0⟩, ⟨some ⟨some b!"a"⟩, none, none, 2⟩]
    (some (.str b!"a")) (some (.int 0)) = .ok [pkgA none] :=
  C104_partial _ _ _ rfl 0 rfl

/-- **C104, false.**  Without a type nothing is found, whatever the packages are (their types being the
ones there are). -/
theorem C104_false (l : List Pkg) (name : Option Arg) (hn : takenText name = true)
    (hl : ∀ p ∈ l, 0 ≤ p.type) : packagesMatch l name none = .ok [] := by
  unfold packagesMatch
  simp only [parseStr_taken hn, bind, Except.bind, pure, Except.pure, parseType]
  congr 1
  rw [List.filter_eq_nil_iff]
  intro p hp
  have h := hl p hp
  have h1 : p.type ≠ -1 := by omega
  unfold pkgMatches
  simp only [h1, and_false, if_false]
  cases argText name with
  | none => simp [typeNum]
  | some b => simp [typeNum]; split <;> omega

example : packagesMatch [pkgA none] (some (.str b!"a")) none = .ok [] ∧
    wanted (some b!"a") none (pkgA none) = true :=
  ⟨C104_false _ _ rfl (by simp [pkgA]), rfl⟩

/-- **C104.**  A type that is not one of the types raises. -/
theorem C104_bad (l : List Pkg) (name : Option Arg) (n : Int) (h : n < 0 ∨ 4 < n) :
    ∃ e, packagesMatch l name (some (.int n)) = .error e := by
  unfold packagesMatch
  refine Except_bind_bad fun _ => Except_bad ?_
  simp only [parseType]
  cases e : asLong n with
  | none => exact ⟨_, rfl⟩
  | some m =>
    have : m = n := by unfold asLong at e; split at e <;> simp_all
    subst this
    exact ⟨.typeError, by simp only; rw [if_neg (by omega)]⟩

/-! ## C105 comparison operators -/

/-- **C105.**  `==` and `!=` of groups, categories, environments and packages: `!=` is the negation of
`==`; nothing equals `None`; an object of another type raises `TypeError`; `<`, `<=`, `>`, `>=` raise
`NotImplementedError`, whatever is on the other side; and `==` answers whether the contents agree. -/
theorem C105_entries {α : Type} (cmp : α → α → Bool) (a b : α) (x : Other α) :
    richCmp cmp .eq a (.same b) = .ok (cmp a b) ∧
    richCmp cmp .ne a (.same b) = .ok (!cmp a b) ∧
    richCmp cmp .eq a .none = .ok false ∧ richCmp cmp .ne a .none = .ok true ∧
    (∀ op, op ≠ .order → richCmp cmp op a .other = .error .typeError) ∧
    richCmp cmp .order a x = .error .notImplemented := by
  refine ⟨rfl, rfl, rfl, rfl, fun op h => ?_, by cases x <;> rfl⟩
  cases op <;> first | rfl | exact absurd rfl h

/-- **C105.**  What `==` answers: whether the properties, the translations and the members agree. -/
theorem C105_meaning :
    (∀ {a b : Group}, GroupBuilt lt a → GroupBuilt lt b →
      (richCmp Group.cmp .eq a (.same b) = .ok true ↔ SameDict a.props b.props ∧
        SameDict a.nameByLang b.nameByLang ∧ SameDict a.descByLang b.descByLang ∧
        SameList Package.cmp a.packages b.packages)) ∧
    (∀ {a b : Category}, CategoryBuilt lt a → CategoryBuilt lt b →
      (richCmp Category.cmp .eq a (.same b) = .ok true ↔ SameDict a.props b.props ∧
        SameDict a.nameByLang b.nameByLang ∧ SameDict a.descByLang b.descByLang ∧
        SameList GroupId.cmp a.groupIds b.groupIds)) ∧
    (∀ {a b : Env}, EnvBuilt lt a → EnvBuilt lt b →
      (richCmp Env.cmp .eq a (.same b) = .ok true ↔ SameDict a.props b.props ∧
        SameDict a.nameByLang b.nameByLang ∧ SameDict a.descByLang b.descByLang ∧
        SameList GroupId.cmp a.groupList b.groupList ∧
        SameList GroupId.cmp a.optionList b.optionList)) ∧
    (∀ a b : Pkg, richCmp Pkg.cmp .eq a (.same b) = .ok true ↔
      a.name = b.name ∧ a.requires = b.requires ∧ a.type = b.type) := by
  refine ⟨fun ha hb => ?_, fun ha hb => ?_, fun ha hb => ?_, fun a b => ?_⟩
  · rw [show ∀ a b : Group, richCmp Group.cmp .eq a (.same b) = .ok (a.cmp b) from fun _ _ => rfl,
      Except.ok.injEq]
    exact C41_group_meaning ha hb
  · rw [show ∀ a b : Category, richCmp Category.cmp .eq a (.same b) = .ok (a.cmp b) from fun _ _ => rfl,
      Except.ok.injEq]
    exact C41_category_meaning ha hb
  · rw [show ∀ a b : Env, richCmp Env.cmp .eq a (.same b) = .ok (a.cmp b) from fun _ _ => rfl,
      Except.ok.injEq]
    exact C41_env_meaning ha hb
  · have h1 := objCmp_iff CStr.cmp_iff a.name b.name
    have h2 := objCmp_iff CStr.cmp_iff a.requires b.requires
    simp only [richCmp, cmpOut, Pkg.cmp, Except.ok.injEq]
    cases e1 : objCmp CStr.cmp a.name b.name <;> cases e2 : objCmp CStr.cmp a.requires b.requires <;>
      simp only [e1, e2] at h1 h2 <;> by_cases e3 : a.type = b.type <;> simp_all

example : richCmp Group.cmp .eq (grpA none) (.same (grpA none).copy) = .ok true ∧
    richCmp Pkg.cmp .ne (pkgA none) (.same Pkg.create) = .ok true := ⟨rfl, rfl⟩

/-- **C105.**  A group id equals a string exactly if the string is its name and it is not a default;
two group ids are equal if name and default agree. -/
theorem C105_groupid_partial (g h : GroupId) (s : Bytes) (hs : 0 ∉ s) :
    (∃ r, gidCmp .eq g (.str s) = .ok (.ans (.ok r)) ∧
      (r = true ↔ g.name = some ⟨some s⟩ ∧ g.dflt = false)) ∧
    (∃ r, gidCmp .eq g (.same h) = .ok (.ans (.ok r)) ∧ (r = true ↔ g.name = h.name ∧ g.dflt = h.dflt)) ∧
    (∃ r, gidCmp .eq g (.same h) = .ok (.ans (.ok r)) ∧ gidCmp .ne g (.same h) = .ok (.ans (.ok (!r)))) := by
  refine ⟨⟨_, rfl, ?_⟩, ⟨_, rfl, ?_⟩, ⟨_, rfl, rfl⟩⟩
  · rw [GroupId.cmp_iff, cstr_eq hs]; exact Iff.rfl
  · exact GroupId.cmp_iff g h

example : ∃ r, gidCmp .eq ⟨some ⟨some b!"a"⟩, true, none⟩ (.str b!"a") = .ok (.ans (.ok r)) ∧ r = false :=
  ⟨_, rfl, rfl⟩

/-- **C105, false.**  Comparing a group id with `None` reads beyond the object; with a `bytes` it
answers with an exception set. -/
theorem C105_false (g : GroupId) (b : Bytes) :
    gidCmp .eq g .none = .error .outOfBounds ∧
    gidCmp .eq g (.bytes b) = .ok (.pending false .typeError) := ⟨rfl, rfl⟩

/-! ## Axioms -/

#print axioms C98_partial
#print axioms C98_false
#print axioms C98_false_del
#print axioms C99_partial
#print axioms C99_false
#print axioms C99_del
#print axioms C100_package_partial
#print axioms C100_groupid_partial
#print axioms C100_false
#print axioms C101_group_partial
#print axioms C101_entry_partial
#print axioms C101_package_partial
#print axioms C101_groupid
#print axioms C101_false_group
#print axioms C101_false_entry
#print axioms C101_false_package
#print axioms C102_groupid
#print axioms C102_category
#print axioms C102_env
#print axioms C102_package_partial
#print axioms C102_group_partial
#print axioms C102_false
#print axioms C102_false_group
#print axioms C103_package
#print axioms C103_group_partial
#print axioms C103_category_partial
#print axioms C103_env_partial
#print axioms C103_false
#print axioms C103_str
#print axioms C104_partial
#print axioms C104_false
#print axioms C104_bad
#print axioms C105_entries
#print axioms C105_meaning
#print axioms C105_groupid_partial
#print axioms C105_false

end Comps.Props.PyElem
