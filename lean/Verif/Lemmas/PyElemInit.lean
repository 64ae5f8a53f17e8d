import Verif.Lemmas.PyElem

/-! # Lemmas about the constructors of Python entries -/

namespace Comps.PyElem
open Comps Comps.Obj Comps.Spec Comps.Text

variable {lt : UInt8 → UInt8 → Bool} {utf8 : Bytes → Bool}

/-- The text of a taken argument. -/
def argText : Option Arg → Option Bytes
  | some (.str (some b)) => some b
  | _ => none

/-- The number of a taken argument. -/
def argNum (d : Int) : Option Arg → Int
  | some (.int n) => n
  | some (.bool b) => boolInt b
  | _ => d

theorem parseStr_taken {o : Option Arg} (h : takenText o = true) : parseStr o = .ok (argText o) := by
  cases o with
  | none => rfl
  | some v =>
    cases v with
    | str s =>
      cases s with
      | none => simp [takenText] at h
      | some b => simp [takenText] at h; simp [parseStr, argText, h]
    | _ => simp [takenText] at h

theorem parseStr_bad {o : Option Arg} (h : takenText o = false) : ∃ e, parseStr o = .error e := by
  cases o with
  | none => simp [takenText] at h
  | some v =>
    cases v with
    | str s =>
      cases s with
      | none => exact ⟨_, rfl⟩
      | some b => simp [takenText] at h; exact ⟨.valueError, by simp [parseStr, h]⟩
    | _ => exact ⟨_, rfl⟩

theorem parseInt_taken {o : Option Arg} (d : Int) (h : takenNum o = true) :
    parseInt d o = .ok (argNum d o) := by
  cases o with
  | none => rfl
  | some v =>
    cases v with
    | int n => simp [takenNum] at h; simp only [parseInt, argNum]; rw [if_pos (by omega)]
    | bool b => rfl
    | _ => simp [takenNum] at h

theorem parseInt_bad {o : Option Arg} (d : Int) (h : takenNum o = false) :
    ∃ e, parseInt d o = .error e := by
  cases o with
  | none => simp [takenNum] at h
  | some v =>
    cases v with
    | int n =>
      refine ⟨.overflowError, ?_⟩
      simp only [takenNum, Bool.and_eq_false_iff, decide_eq_false_iff_not] at h
      simp only [parseInt]
      rw [if_neg (by omega)]
    | bool b => simp [takenNum] at h
    | _ => exact ⟨_, rfl⟩

/-- The string property after the constructor. -/
def strVal (o : Option Arg) : Option PVal := (argText o).map fun b => .str ⟨some b⟩

theorem run_str_get {t : RTree PVal} (h : PropInv lt t) (p : StrProp) (o : Option Bytes) (k : Bytes) :
    ((PropCall.str p o).run lt t).get k =
      if k = p.key then (match o with | none => t.get k | some b => some (.str ⟨some b⟩)) else t.get k := by
  rw [h.run_get (.str p o) k]
  cases o
  · show t.get k = _
    split <;> rfl
  · rfl

theorem run_num_get {t : RTree PVal} (h : PropInv lt t) (p : NumProp) (n : Int) (k : Bytes) :
    ((PropCall.num p n false).run lt t).get k = if k = p.key then some (.num n) else t.get k :=
  h.run_get (.num p n false) k

theorem readVal_text {a : Attr} (ha : isText a = true) {o : Option Arg} (h : takenText o = true)
    (he : Encoded utf8 o) : readVal utf8 a (strVal o) = .ok (.ok (newText o)) := by
  unfold readVal
  rw [if_pos ha]
  cases o with
  | none => rfl
  | some v =>
    cases v with
    | str s =>
      cases s with
      | none => simp [takenText] at h
      | some b =>
        obtain ⟨b1, h2, h3⟩ := strToStr_ok (some b)
        simp [strVal, argText, getStrAttr, pvalText, h2, h3, bind, Except.bind, pure, Except.pure, textOut,
          he b rfl, newText]
    | _ => simp [takenText] at h

theorem readVal_flag {a : Attr} (ha : isText a = false) (hb : a ≠ .displayOrder) {o : Option Arg} (d : Bool)
    (h : takenNum o = true) :
    readVal utf8 a (some (.num (argNum (boolInt d) o))) = .ok (.ok (newFlag d o)) := by
  unfold readVal
  rw [if_neg (by simp [ha]), if_neg hb]
  cases o with
  | none => cases d <;> rfl
  | some v =>
    cases v with
    | int n => simp [argNum, getFlagAttr, asNum, bind, Except.bind, pure, Except.pure, newFlag, bne]; exact rfl
    | bool b => cases b <;> rfl
    | _ => simp [takenNum] at h

theorem readVal_num {o : Option Arg} (d : Int) (h : takenNum o = true) (ho : o ≠ none) (e : Val) :
    readVal utf8 .displayOrder (some (.num (argNum d o))) = .ok (.ok (newNum e o)) := by
  cases o with
  | none => exact absurd rfl ho
  | some v =>
    cases v with
    | int n => rfl
    | bool b => cases b <;> rfl
    | _ => simp [takenNum] at h

theorem create_get (k : Bytes) : (RTree.create : RTree PVal).get k = none := by
  cases k <;> rfl

theorem groupInit_ok {a : GroupArgs} (h1 : takenText a.id = true) (h2 : takenText a.name = true)
    (h3 : takenText a.desc = true) (h4 : takenNum a.displayOrder = true) (h5 : takenNum a.default = true)
    (h6 : takenNum a.uservisible = true) (h7 : takenText a.langonly = true) :
    ∃ t, groupInit lt a = .ok t ∧ PropInv lt t ∧
      t.get b!"id" = strVal a.id ∧ t.get b!"name" = strVal a.name ∧ t.get b!"desc" = strVal a.desc ∧
      t.get b!"langonly" = strVal a.langonly ∧
      t.get b!"def" = some (.num (argNum 0 a.default)) ∧
      t.get b!"uservisible" = some (.num (argNum 1 a.uservisible)) ∧ t.get b!"biarchonly" = none ∧
      t.get b!"display_order" = (if argNum (-1) a.displayOrder > 0 then
        some (.num (argNum (-1) a.displayOrder)) else none) := by
  unfold groupInit
  simp only [parseStr_taken h1, parseStr_taken h2, parseStr_taken h3, parseStr_taken h7,
    parseInt_taken _ h4, parseInt_taken _ h5, parseInt_taken _ h6, bind, Except.bind, pure, Except.pure]
  have i0 : PropInv lt (RTree.create : RTree PVal) := .create
  have i1 := i0.run (.str .id (argText a.id))
  have i2 := i1.run (.str .name (argText a.name))
  have i3 := i2.run (.str .desc (argText a.desc))
  have i4 := i3.run (.num .dflt (argNum 0 a.default) false)
  have i5 := i4.run (.num .uservisible (argNum 1 a.uservisible) false)
  have i6 := i5.run (.num .displayOrder (argNum (-1) a.displayOrder) false)
  by_cases hp : argNum (-1) a.displayOrder > 0
  · simp only [if_pos hp]
    refine ⟨_, rfl, i6.run _, ?_⟩
    simp only [run_str_get i6, run_num_get i5, run_num_get i4, run_num_get i3, run_str_get i2, run_str_get i1,
      run_str_get i0, create_get, StrProp.key, NumProp.key]
    simp [strVal]
    cases argText a.id <;> cases argText a.name <;> cases argText a.desc <;> cases argText a.langonly <;> simp
  · simp only [if_neg hp]
    refine ⟨_, rfl, i5.run _, ?_⟩
    simp only [run_str_get i5, run_num_get i4, run_num_get i3, run_str_get i2, run_str_get i1,
      run_str_get i0, create_get, StrProp.key, NumProp.key]
    simp [strVal]
    cases argText a.id <;> cases argText a.name <;> cases argText a.desc <;> cases argText a.langonly <;> simp

theorem entryInit_ok {a : EntryArgs} (h1 : takenText a.id = true) (h2 : takenText a.name = true)
    (h3 : takenText a.desc = true) (h4 : takenNum a.displayOrder = true) :
    ∃ t, entryInit lt a = .ok t ∧ PropInv lt t ∧
      t.get b!"id" = strVal a.id ∧ t.get b!"name" = strVal a.name ∧ t.get b!"desc" = strVal a.desc ∧
      t.get b!"langonly" = none ∧ t.get b!"def" = none ∧ t.get b!"uservisible" = none ∧
      t.get b!"biarchonly" = none ∧
      t.get b!"display_order" = (if argNum (-1) a.displayOrder ≠ -1 then
        some (.num (argNum (-1) a.displayOrder)) else none) := by
  unfold entryInit
  simp only [parseStr_taken h1, parseStr_taken h2, parseStr_taken h3,
    parseInt_taken _ h4, bind, Except.bind, pure, Except.pure]
  have i0 : PropInv lt (RTree.create : RTree PVal) := .create
  have i1 := i0.run (.str .id (argText a.id))
  have i2 := i1.run (.str .name (argText a.name))
  have i3 := i2.run (.str .desc (argText a.desc))
  have i6 := i3.run (.num .displayOrder (argNum (-1) a.displayOrder) false)
  by_cases hp : argNum (-1) a.displayOrder ≠ -1
  · simp only [if_pos hp]
    refine ⟨_, rfl, i6, ?_⟩
    simp only [run_num_get i3, run_str_get i2, run_str_get i1,
      run_str_get i0, create_get, StrProp.key, NumProp.key]
    simp [strVal]
    cases argText a.id <;> cases argText a.name <;> cases argText a.desc <;> simp
  · simp only [if_neg hp]
    refine ⟨_, rfl, i3, ?_⟩
    simp only [run_str_get i2, run_str_get i1, run_str_get i0, create_get, StrProp.key]
    simp [strVal]
    cases argText a.id <;> cases argText a.name <;> cases argText a.desc <;> simp

theorem getAttr_none {t : RTree PVal} {a : Attr} (h : t.get a.key = none) :
    getAttr utf8 a t = .ok (.ok .none) := by
  rw [getAttr_eq, h]
  cases a <;> rfl

theorem Except_bad {ε α β : Type} {x : Except ε α} {f : α → Except ε β} (h : ∃ e, x = .error e) :
    ∃ e, (x >>= f) = .error e := by
  obtain ⟨e, rfl⟩ := h; exact ⟨e, rfl⟩

theorem Except_bind_bad {ε α β : Type} {x : Except ε α} {f : α → Except ε β}
    (h : ∀ a, ∃ e, f a = .error e) : ∃ e, (x >>= f) = .error e := by
  cases x with
  | error e => exact ⟨e, rfl⟩
  | ok a => exact h a

theorem groupInit_bad {a : GroupArgs} (h : (takenText a.id && takenText a.name && takenText a.desc &&
    takenNum a.displayOrder && takenNum a.default && takenNum a.uservisible && takenText a.langonly) = false) :
    ∃ e, groupInit lt a = .error e := by
  simp only [Bool.and_eq_false_iff] at h
  unfold groupInit
  rcases h with (((((h | h) | h) | h) | h) | h) | h
  · exact Except_bad (parseStr_bad h)
  · exact Except_bind_bad fun _ => Except_bad (parseStr_bad h)
  · exact Except_bind_bad fun _ => Except_bind_bad fun _ => Except_bad (parseStr_bad h)
  · exact Except_bind_bad fun _ => Except_bind_bad fun _ => Except_bind_bad fun _ =>
      Except_bad (parseInt_bad _ h)
  · exact Except_bind_bad fun _ => Except_bind_bad fun _ => Except_bind_bad fun _ =>
      Except_bind_bad fun _ => Except_bad (parseInt_bad _ h)
  · exact Except_bind_bad fun _ => Except_bind_bad fun _ => Except_bind_bad fun _ =>
      Except_bind_bad fun _ => Except_bind_bad fun _ => Except_bad (parseInt_bad _ h)
  · exact Except_bind_bad fun _ => Except_bind_bad fun _ => Except_bind_bad fun _ =>
      Except_bind_bad fun _ => Except_bind_bad fun _ => Except_bind_bad fun _ => Except_bad (parseStr_bad h)

theorem entryInit_bad {a : EntryArgs} (h : (takenText a.id && takenText a.name && takenText a.desc &&
    takenNum a.displayOrder) = false) : ∃ e, entryInit lt a = .error e := by
  simp only [Bool.and_eq_false_iff] at h
  unfold entryInit
  rcases h with ((h | h) | h) | h
  · exact Except_bad (parseStr_bad h)
  · exact Except_bind_bad fun _ => Except_bad (parseStr_bad h)
  · exact Except_bind_bad fun _ => Except_bind_bad fun _ => Except_bad (parseStr_bad h)
  · exact Except_bind_bad fun _ => Except_bind_bad fun _ => Except_bind_bad fun _ =>
      Except_bad (parseInt_bad _ h)

theorem pkgInit_bad {a : PkgArgs} (h : (takenText a.name && takenNum a.type && takenText a.requires) = false) :
    ∃ e, pkgInit a = .error e := by
  simp only [Bool.and_eq_false_iff] at h
  unfold pkgInit
  rcases h with (h | h) | h
  · exact Except_bad (parseStr_bad h)
  · exact Except_bind_bad fun _ => Except_bad (parseInt_bad _ h)
  · exact Except_bind_bad fun _ => Except_bind_bad fun _ => Except_bad (parseStr_bad h)

end Comps.PyElem
