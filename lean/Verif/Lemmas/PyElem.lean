import Verif.Lemmas.Built
import Verif.Lemmas.Text
import Verif.Spec.PyElem

/-! # Lemmas about single Python entries -/

namespace Comps.PyElem
open Comps Comps.Obj Comps.Spec Comps.Text
open Comps.PyDict (cstr)

variable {lt : UInt8 → UInt8 → Bool} {utf8 : Bytes → Bool}

theorem cstr_eq {b : Bytes} (h : 0 ∉ b) : cstr b = b := by
  unfold cstr
  induction b with
  | nil => rfl
  | cons x xs ih =>
    simp only [List.mem_cons, not_or] at h
    rw [List.takeWhile_cons_of_pos (by simpa using Ne.symm h.1), ih h.2]

theorem strToStr_ok (v : Option Bytes) : ∃ b, strToStr v = .ok b ∧ b.str = v.getD [] := by
  cases v with
  | none => exact ⟨⟨1, []⟩, rfl, rfl⟩
  | some s => exact ⟨⟨s.length + 1, s⟩, by simp [strToStr, Buf.fill], rfl⟩

theorem strText_ok (s : CStr) : strText s = .ok (s.val.getD []) := by
  obtain ⟨b, h, e⟩ := strToStr_ok s.val
  simp [strText, h, bind, Except.bind, pure, Except.pure, e]

theorem toInt_of {n : Int} (h : -2 ^ 31 ≤ n ∧ n < 2 ^ 31) : toInt n = n := by
  unfold toInt; omega

theorem asLong_of {n : Int} (h : -2 ^ 31 ≤ n ∧ n < 2 ^ 31) : asLong n = some n := by
  unfold asLong
  rw [if_pos (by omega)]

/-- The key of an attribute. -/
def Attr.key : Attr → Bytes
  | .id => b!"id"
  | .name => b!"name"
  | .desc => b!"desc"
  | .langOnly => b!"langonly"
  | .displayOrder => b!"display_order"
  | .userVisible => b!"uservisible"
  | .biarchOnly => b!"biarchonly"
  | .default => b!"def"

theorem Attr.key_inj {a b : Attr} : a.key = b.key ↔ a = b := by
  constructor
  · cases a <;> cases b <;> simp [Attr.key]
  · rintro rfl; rfl

/-- What a stored value reads as. -/
def readVal (utf8 : Bytes → Bool) (a : Attr) (o : Option PVal) : Res (Except Exc Val) :=
  if isText a then getStrAttr utf8 o
  else if a = .displayOrder then getNumAttr o
  else getFlagAttr o

theorem getAttr_eq (a : Attr) (t : RTree PVal) :
    getAttr utf8 a t = readVal utf8 a (t.get a.key) := by
  cases a <;> rfl

/-- What an accepted assignment stores. -/
def stored (a : Attr) : Arg → Option (Option PVal)
  | .none => if a = .displayOrder then some none else none
  | .str (some b) => if isText a then some (some (.str ⟨some (cstr b)⟩)) else none
  | .int n => if a = .displayOrder then some (some (.num (match asLong n with
      | some n => toInt n
      | none => -1))) else none
  | .bool b => if isText a then none else some (some (.num (boolInt b)))
  | _ => none

theorem Attr.key_mem (a : Attr) : a.key ∈ propKeys := by cases a <;> decide

/-- The number attributes of groups. -/
theorem setFlag_inv {t : RTree PVal} (h : PropInv lt t) (p : NumProp) (n : Int) :
    PropInv lt (t.set lt p.key (some (.num n))) :=
  h.set _ p.key_mem _ fun x hx => by cases hx; exact p.key_kind

/-- The cases of an assignment: refused, or stored, or a string taken back, which does nothing. -/
theorem setAttr_cases {t : RTree PVal} (h : PropInv lt t) (a : Attr) (v : Arg) :
    ∃ t' o, setAttr lt a t (some v) = .ok (t', o) ∧ PropInv lt t' ∧
      (∀ e, o = .exc e → t' = t) ∧
      (match stored a v with
        | some x => (o = .done ∨ o = .pending .overflowError) ∧
            ∀ k, t'.get k = if k = a.key then x else t.get k
        | none => t' = t) := by
  cases v with
  | none =>
    cases a
    case displayOrder =>
      refine ⟨_, _, rfl, h.run (.num .displayOrder 1 true), by simp, ?_⟩
      refine ⟨.inl rfl, fun k => ?_⟩
      exact h.run_get (.num .displayOrder 1 true) k
    all_goals exact ⟨t, _, rfl, h, fun _ _ => rfl, rfl⟩
  | str s =>
    cases s with
    | none => cases a <;> exact ⟨t, _, rfl, h, fun _ _ => rfl, rfl⟩
    | some b =>
      cases a
      case id =>
        exact ⟨_, _, rfl, h.run (.str .id (some (cstr b))), by simp, .inl rfl,
          fun k => h.run_get (.str .id (some (cstr b))) k⟩
      case name =>
        exact ⟨_, _, rfl, h.run (.str .name (some (cstr b))), by simp, .inl rfl,
          fun k => h.run_get (.str .name (some (cstr b))) k⟩
      case desc =>
        exact ⟨_, _, rfl, h.run (.str .desc (some (cstr b))), by simp, .inl rfl,
          fun k => h.run_get (.str .desc (some (cstr b))) k⟩
      case langOnly =>
        exact ⟨_, _, rfl, h.run (.str .langonly (some (cstr b))), by simp, .inl rfl,
          fun k => h.run_get (.str .langonly (some (cstr b))) k⟩
      all_goals exact ⟨t, _, rfl, h, fun _ _ => rfl, rfl⟩
  | bytes b => cases a <;> exact ⟨t, _, rfl, h, fun _ _ => rfl, rfl⟩
  | other => cases a <;> exact ⟨t, _, rfl, h, fun _ _ => rfl, rfl⟩
  | int n =>
    cases a
    case displayOrder =>
      cases hn : asLong n with
      | none =>
        refine ⟨_, .pending .overflowError, ?_, h.run (.num .displayOrder (-1) false), by simp, ?_⟩
        · simp only [setAttr, setNumAttr, numIn, hn, bind, Except.bind]
        · simp only [stored, hn, if_pos]
          exact ⟨.inr trivial, fun k => h.run_get (.num .displayOrder (-1) false) k⟩
      | some m =>
        refine ⟨_, .done, ?_, h.run (.num .displayOrder (toInt m) false), by simp, ?_⟩
        · simp only [setAttr, setNumAttr, numIn, hn, bind, Except.bind]
        · simp only [stored, hn, if_pos]
          exact ⟨.inl trivial, fun k => h.run_get (.num .displayOrder (toInt m) false) k⟩
    all_goals exact ⟨t, _, rfl, h, fun _ _ => rfl, rfl⟩
  | bool b =>
    cases a
    case displayOrder =>
      exact ⟨_, _, rfl, h.run (.num .displayOrder (boolInt b) false), by simp, .inl rfl,
        fun k => h.run_get (.num .displayOrder (boolInt b) false) k⟩
    case userVisible =>
      exact ⟨_, _, rfl, setFlag_inv h .uservisible _, by simp, .inl rfl,
        fun k => h.set_get _ (NumProp.key_mem .uservisible) _ k⟩
    case biarchOnly =>
      exact ⟨_, _, rfl, setFlag_inv h .biarchonly _, by simp, .inl rfl,
        fun k => h.set_get _ (NumProp.key_mem .biarchonly) _ k⟩
    case default =>
      exact ⟨_, _, rfl, setFlag_inv h .dflt _, by simp, .inl rfl,
        fun k => h.set_get _ (NumProp.key_mem .dflt) _ k⟩
    all_goals exact ⟨t, _, rfl, h, fun _ _ => rfl, rfl⟩

/-- Outcomes of assignments of values that are carried. -/
theorem setAttr_out (a : Attr) (v : Arg) (hv : Carried utf8 v) {t t' : RTree PVal} {o : Out}
    (e : setAttr lt a t (some v) = .ok (t', o)) :
    o = if (meant a v).isSome then .done else .exc .typeError := by
  cases v with
  | none => cases a <;> (simp [setAttr, setStrAttr, strIn, setNumAttr, numIn, setFlagAttr, flagIn,
      bind, Except.bind] at e; simp [meant, isText, ← e.2])
  | str s =>
    cases s <;> cases a <;> (simp [setAttr, setStrAttr, strIn, setNumAttr, numIn, setFlagAttr, flagIn,
      bind, Except.bind] at e; simp [meant, isText, ← e.2])
  | bytes b => cases a <;> (simp [setAttr, setStrAttr, strIn, setNumAttr, numIn, setFlagAttr, flagIn,
      bind, Except.bind] at e; simp [meant, ← e.2])
  | other => cases a <;> (simp [setAttr, setStrAttr, strIn, setNumAttr, numIn, setFlagAttr, flagIn,
      bind, Except.bind] at e; simp [meant, ← e.2])
  | int n =>
    have := asLong_of hv
    cases a <;> (simp [setAttr, setStrAttr, strIn, setNumAttr, numIn, setFlagAttr, flagIn, this,
      bind, Except.bind] at e; simp [meant, ← e.2])
  | bool b => cases a <;> (simp [setAttr, setStrAttr, strIn, setNumAttr, numIn, setFlagAttr, flagIn,
      bind, Except.bind] at e; simp [meant, isText, ← e.2])

/-- What is stored reads as meant, except for a string taken back. -/
theorem stored_reads (a : Attr) (v : Arg) (hv : Carried utf8 v) (hn : isText a = true → v ≠ .none) :
    match meant a v with
    | some x => ∃ y, stored a v = some y ∧ readVal utf8 a y = .ok (.ok x)
    | none => stored a v = none := by
  cases v with
  | none => cases a <;> simp [isText] at hn <;> simp [meant, stored, isText, readVal, getNumAttr]
  | str s =>
    cases s with
    | none => cases a <;> rfl
    | some b =>
      cases a <;> simp [meant, stored, isText]
      all_goals
        have h1 := cstr_eq hv.1
        obtain ⟨b1, h2, h3⟩ := strToStr_ok (some b)
        simp [readVal, isText, getStrAttr, pvalText, h1, h2, h3, bind, Except.bind, pure, Except.pure,
          textOut, hv.2]
  | bytes b => cases a <;> rfl
  | other => cases a <;> rfl
  | int n =>
    have h1 := asLong_of hv
    have h2 := toInt_of hv
    cases a <;> simp [meant, stored, isText, h1, h2, readVal, getNumAttr, asNum, bind, Except.bind,
      pure, Except.pure]
  | bool b =>
    cases a <;> cases b <;> simp [meant, stored, isText, readVal, getNumAttr, getFlagAttr, asNum, boolInt,
      bind, Except.bind, pure, Except.pure]

/-- One assignment. -/
theorem setAttr_ref {t : RTree PVal} (h : PropInv lt t) {r : Attr → Val}
    (hr : ∀ b, getAttr utf8 b t = .ok (.ok (r b))) (a : Attr) (v : Arg) (hv : Carried utf8 v)
    (hn : isText a = true → v ≠ .none) :
    ∃ t', setAttr lt a t (some v) = .ok (t', (assign meant r a v).2) ∧ PropInv lt t' ∧
      ∀ b, getAttr utf8 b t' = .ok (.ok ((assign meant r a v).1 b)) := by
  obtain ⟨t', o, e, h', -, hs⟩ := setAttr_cases h a v
  have ho := setAttr_out a v hv e
  have hm := stored_reads a v hv hn
  refine ⟨t', ?_, h', ?_⟩
  · rw [e, ho]; unfold assign
    cases meant a v <;> rfl
  · intro b
    unfold assign
    cases hx : meant a v with
    | none =>
      rw [hx] at hm
      simp only at hm
      rw [hm] at hs
      simp only at hs
      rw [hs]; exact hr b
    | some x =>
      rw [hx] at hm
      obtain ⟨y, h1, h2⟩ := hm
      rw [h1] at hs
      rw [getAttr_eq, hs.2]
      by_cases hb : b = a
      · subst hb; simp [h2]
      · rw [if_neg (fun h => hb (Attr.key_inj.1 h)), ← getAttr_eq, hr]
        simp [hb]

/-- Programs of assignments, given one assignment. -/
theorem runs_gen {A σ : Type} [DecidableEq A] {set : A → σ → Option Arg → Res (σ × Out)}
    {get : σ → A → Res (Except Exc Val)} {I : σ → Prop} {meant : A → Arg → Option Val}
    {P : A → Arg → Prop}
    (step : ∀ s r a v, I s → (∀ b, get s b = .ok (.ok (r b))) → P a v →
      ∃ s', set a s (some v) = .ok (s', (assign meant r a v).2) ∧ I s' ∧
        ∀ b, get s' b = .ok (.ok ((assign meant r a v).1 b)))
    (prog : List (A × Arg)) {s : σ} (h : I s) {r : A → Val} (hr : ∀ b, get s b = .ok (.ok (r b)))
    (hp : ∀ x ∈ prog, P x.1 x.2) :
    ∃ s', runs set s prog = .ok (s', (assigns meant r prog).2) ∧ I s' ∧
      ∀ b, get s' b = .ok (.ok ((assigns meant r prog).1 b)) := by
  induction prog generalizing s r with
  | nil => exact ⟨s, rfl, h, hr⟩
  | cons x rest ih =>
    obtain ⟨a, v⟩ := x
    obtain ⟨t1, e1, h1, r1⟩ := step s r a v h hr (hp (a, v) (by simp))
    obtain ⟨t2, e2, h2, r2⟩ := ih h1 r1 fun s hs => hp s (by simp [hs])
    refine ⟨t2, ?_, h2, r2⟩
    simp only [runs, e1, bind, Except.bind, e2, pure, Except.pure]
    rfl

theorem runs_ref {t : RTree PVal} (h : PropInv lt t) {r : Attr → Val}
    (hr : ∀ b, getAttr utf8 b t = .ok (.ok (r b))) (prog : List (Attr × Arg))
    (hp : ∀ s ∈ prog, Carried utf8 s.2 ∧ (isText s.1 = true → s.2 ≠ .none)) :
    ∃ t', runs (setAttr lt) t prog = .ok (t', (assigns meant r prog).2) ∧ PropInv lt t' ∧
      ∀ b, getAttr utf8 b t' = .ok (.ok ((assigns meant r prog).1 b)) :=
  runs_gen (get := fun t b => getAttr utf8 b t) (I := PropInv lt)
    (P := fun a v => Carried utf8 v ∧ (isText a = true → v ≠ .none))
    (fun _ _ a v hi hr hp => setAttr_ref hi hr a v hp.1 hp.2) prog h hr hp

/-- A string attribute that holds a value in a readable record. -/
theorem cstrOut_some {b : Bytes} (h : utf8 b = true) : cstrOut utf8 (some ⟨some b⟩) = .ok (.ok (.text b)) := by
  simp [cstrOut, strText_ok, bind, Except.bind, pure, Except.pure, textOut, h]

theorem Pkg.setAttr_ref (p : Pkg) {r : PkgAttr → Val} (hr : ∀ b, p.getAttr utf8 b = .ok (.ok (r b)))
    (a : PkgAttr) (v : Arg) (hv : Carried utf8 v) (hn : a ≠ .basearchonly → v ≠ .none) :
    ∃ p', p.setAttr a (some v) = .ok (p', (assign meantPkg r a v).2) ∧
      ∀ b, p'.getAttr utf8 b = .ok (.ok ((assign meantPkg r a v).1 b)) := by
  have h1 := hr .name
  have h2 := hr .requires
  have h3 := hr .type
  have h4 := hr .basearchonly
  simp only [Pkg.getAttr] at h1 h2 h3 h4
  cases v with
  | none =>
    cases a <;> simp at hn
    exact ⟨p, rfl, hr⟩
  | str s =>
    cases s with
    | none => cases a <;> exact ⟨p, rfl, hr⟩
    | some b =>
      have e := cstr_eq hv.1
      cases a
      case name =>
        refine ⟨_, rfl, fun c => ?_⟩
        cases c <;> simp [Pkg.getAttr, assign, meantPkg, compsStr, h2, h3, h4, e, cstrOut_some hv.2]
      case requires =>
        refine ⟨_, rfl, fun c => ?_⟩
        cases c <;> simp [Pkg.getAttr, assign, meantPkg, compsStr, h1, h3, h4, e, cstrOut_some hv.2]
      all_goals exact ⟨p, rfl, hr⟩
  | bytes b => cases a <;> exact ⟨p, rfl, hr⟩
  | other => cases a <;> exact ⟨p, rfl, hr⟩
  | int n =>
    have e1 := asLong_of hv
    have e2 := toInt_of hv
    cases a
    case type =>
      refine ⟨{ p with type := n }, ?_, fun c => ?_⟩
      · simp [Pkg.setAttr, numIn, e1, e2, bind, Except.bind, assign, meantPkg]
      · cases c <;> simp [Pkg.getAttr, assign, meantPkg, h1, h2, h4]
    all_goals exact ⟨p, rfl, hr⟩
  | bool b =>
    cases a
    case type =>
      refine ⟨_, rfl, fun c => ?_⟩
      cases c <;> cases b <;> simp [Pkg.getAttr, assign, meantPkg, boolInt, h1, h2, h4]
    case basearchonly =>
      refine ⟨_, rfl, fun c => ?_⟩
      cases c <;> cases b <;> simp [Pkg.getAttr, assign, meantPkg, boolInt, h1, h2, h3]
    all_goals exact ⟨p, rfl, hr⟩

theorem gidSetAttr_ref (g : GroupId) {r : GidAttr → Val} (hr : ∀ b, gidGetAttr utf8 g b = .ok (.ok (r b)))
    (a : GidAttr) (v : Arg) (hv : Carried utf8 v) (hn : a = .name → v ≠ .none) :
    ∃ g', gidSetAttr g a (some v) = .ok (g', (assign meantGid r a v).2) ∧
      ∀ b, gidGetAttr utf8 g' b = .ok (.ok ((assign meantGid r a v).1 b)) := by
  have h1 := hr .name
  have h2 := hr .default
  simp only [gidGetAttr] at h1 h2
  cases v with
  | none =>
    cases a <;> simp at hn
    exact ⟨g, rfl, hr⟩
  | str s =>
    cases s with
    | none => cases a <;> exact ⟨g, rfl, hr⟩
    | some b =>
      have e := cstr_eq hv.1
      cases a
      case name =>
        refine ⟨_, rfl, fun c => ?_⟩
        cases c <;> simp [gidGetAttr, GroupId.setName, assign, meantGid, compsStr, h2, e, cstrOut_some hv.2]
      all_goals exact ⟨g, rfl, hr⟩
  | bytes b => cases a <;> exact ⟨g, rfl, hr⟩
  | other => cases a <;> exact ⟨g, rfl, hr⟩
  | int n => cases a <;> exact ⟨g, rfl, hr⟩
  | bool b =>
    cases a
    case default =>
      refine ⟨_, rfl, fun c => ?_⟩
      cases c <;> cases b <;> simp [gidGetAttr, assign, meantGid, boolInt, h1]
    all_goals exact ⟨g, rfl, hr⟩

end Comps.PyElem
