import Verif.Lemmas.PyHeapTyped

/-! # Python programs crash in no other calls -/

namespace Comps.PyHeap
open Comps Comps.Obj
open Comps.Props (Texts)
open Comps.PyElem (Pkg EKind Attr PkgAttr GidAttr Arg)
open Comps.PyDict (cstr)

variable {lt : UInt8 → UInt8 → Bool} {utf8 : Bytes → Bool}

/-- The call is done. -/
def Done (lt : UInt8 → UInt8 → Bool) (m : Nat) (x : Res (R × Obs)) : Prop :=
  ∃ r o, x = .ok (r, o) ∧ Typed lt m r

/-- The call is done, or crashes as foreseen. -/
def Outcome (lt : UInt8 → UInt8 → Bool) (m : Nat) (c : Option Fault) (x : Res (R × Obs)) : Prop :=
  match c with
  | some f => x = .error f
  | none => Done lt m x

theorem Done.ret {m : Nat} {r : R} (h : Typed lt m r) (o : Obs) : Done lt (m + 1) (.ok (r, o)) :=
  ⟨r, o, rfl, h.mono (Nat.le_succ m)⟩

theorem Done.ret1 {m : Nat} {r : R} (h : Typed lt (m + 1) r) (o : Obs) : Done lt (m + 1) (.ok (r, o)) :=
  ⟨r, o, rfl, h⟩

theorem Done.bind {m : Nat} {α : Type} {x : Res α} {f : α → Res (R × Obs)} (e : ∃ v, x = .ok v)
    (hk : ∀ v, x = .ok v → Done lt m (f v)) : Done lt m (x >>= f) := by
  obtain ⟨v, rfl⟩ := e
  exact hk v rfl

theorem Typed.with1 {m : Nat} {r : R} (h : Typed lt m r) (v : Nat)
    {f : Nat → PType → Nat → Option Nat → Option Nat → Res (R × Obs)} {P : Res (R × Obs) → Prop}
    (h0 : var r.vars v = none → P (.ok (r, .noVar)))
    (h1 : ∀ w t a n d, var r.vars v = some w → r.objs[w]? = some (.wrap t a n d) →
      shapeAt r.objs a = some (false, t) → P (f w t a n d)) : P (r.with1 v f) := by
  unfold R.with1
  cases e : var r.vars v with
  | none => exact h0 e
  | some w =>
    obtain ⟨t, ht⟩ := h.vars w (var_mem e)
    obtain ⟨a, n, d, hb, hl⟩ := get_wrap ht
    simp only [asWrap, hl, bind, Except.bind]
    exact h1 w t a n d e hb (h.body _ _ hb).1

theorem Typed.with2 {m : Nat} {r : R} (h : Typed lt m r) (v v2 : Nat)
    {f : Nat → PType → Nat → Nat → PType → Nat → Res (R × Obs)} {P : Res (R × Obs) → Prop}
    (h0 : var r.vars v = none ∨ var r.vars v2 = none → P (.ok (r, .noVar)))
    (h1 : ∀ w t a n d w2 t2 a2 n2 d2, var r.vars v = some w → r.objs[w]? = some (.wrap t a n d) →
      shapeAt r.objs a = some (false, t) → var r.vars v2 = some w2 →
      r.objs[w2]? = some (.wrap t2 a2 n2 d2) →
      shapeAt r.objs a2 = some (false, t2) → P (f w t a w2 t2 a2)) : P (r.with2 v v2 f) :=
  h.with1 v (P := P) (fun e => h0 (.inl e)) fun w t a n d hw hb ha =>
    h.with1 v2 (P := P) (fun e => h0 (.inr e)) fun w2 t2 a2 n2 d2 hw2 hb2 ha2 =>
      h1 w t a n d w2 t2 a2 n2 d2 hw hb ha hw2 hb2 ha2

/-- A list with other members. -/
theorem Typed.putList {m : Nat} {r : R} (h : Typed lt m r) {l : Nat} {k : LKind} {items : List Nat}
    (hl : shapeAt r.objs l = some (false, .list k)) (hn : items.length ≤ m)
    (hi : ∀ a ∈ items, shapeAt r.objs a = some (false, k.elem)) :
    Typed lt m (r.put l (.list k items)) := h.put hl ⟨hn, hi⟩

theorem putIn_done {m : Nat} {r : R} (h : Typed lt m r) (hm : m ≤ 1000000000) {l i a : Nat} {k : LKind}
    (hl : shapeAt r.objs l = some (false, .list k)) (ha : shapeAt r.objs a = some (false, k.elem)) :
    Done lt (m + 1) (r.putIn l i a) := by
  unfold R.putIn
  refine Done.bind (passes_ok h hm ha) fun x hx => ?_
  split
  · obtain ⟨items, h1, -, h3⟩ := get_list hl
    obtain ⟨hn, hi⟩ := h.body _ _ h1
    simp only [h3, bind, Except.bind, pure, Except.pure]
    refine Done.ret1 ((h.mono (Nat.le_succ m)).putList hl ?_ ?_) _
    · simp; omega
    · intro x hx
      rw [List.mem_append, List.mem_cons] at hx
      rcases hx with hx | rfl | hx
      · exact hi x (List.mem_of_mem_take hx)
      · exact ha
      · exact hi x (List.mem_of_mem_drop hx)
  · exact Done.ret h _

theorem append_done {m : Nat} {r : R} (h : Typed lt m r) (hm : m ≤ 1000000000) {l a : Nat} {k : LKind}
    (hl : shapeAt r.objs l = some (false, .list k)) (ha : shapeAt r.objs a = some (false, k.elem)) :
    Done lt (m + 1) (r.append k l a) := by
  unfold R.append
  obtain ⟨items, h1, -, h3⟩ := get_list hl
  obtain ⟨hn, hi⟩ := h.body _ _ h1
  refine Done.bind ⟨_, h3⟩ fun v hv => ?_
  rw [h3] at hv; cases hv
  refine Done.bind ?_ fun x hx => ?_
  · cases k with
    | packages => exact ⟨true, rfl⟩
    | ids => exact ⟨true, rfl⟩
    | groups => exact unique_entries h hi ha
    | categories => exact unique_entries h hi ha
    | environments => exact unique_entries h hi ha
  · split
    · exact putIn_done h hm hl ha
    · exact Done.ret h _

theorem setItem_outcome {m : Nat} {r : R} (h : Typed lt m r) (hm : m ≤ 1000000000) {l i a : Nat}
    {k : LKind} {items : List Nat} (hb : r.objs[l]? = some (.list k items))
    (ha : shapeAt r.objs a = some (false, k.elem)) :
    Outcome lt (m + 1) (if k = .packages ∧ i < items.length then some .typeConfusion else none)
      (r.setItem k l i a) := by
  have hl : shapeAt r.objs l = some (false, .list k) := by simp [shapeAt, hb, shape]
  obtain ⟨items', h1, -, h3⟩ := get_list hl
  rw [hb] at h1; cases h1
  obtain ⟨hn, hi⟩ := h.body _ _ hb
  unfold R.setItem
  simp only [h3, bind, Except.bind]
  by_cases e : items.length ≤ i
  · rw [if_pos e, if_neg (by omega)]
    exact Done.ret (h.lose a) _
  · rw [if_neg e]
    have hset : Typed lt m ((r.put l (.list k (items.set i a))).lose a) := by
      refine (h.putList hl (by simpa using hn) ?_).lose a
      intro x hx
      rcases List.mem_or_eq_of_mem_set hx with hx | rfl
      · exact hi x hx
      · exact ha
    have uniq : k.extra = true → k ≠ .packages → ∃ x, unique (look r.objs) items a = .ok x := by
      intro h1 h2
      cases k with
      | packages => exact absurd rfl h2
      | ids => simp [LKind.extra] at h1
      | groups => exact unique_entries h hi ha
      | categories => exact unique_entries h hi ha
      | environments => exact unique_entries h hi ha
    by_cases ep : k = .packages
    · subst ep
      rw [if_pos ⟨rfl, by omega⟩]
      simp only [Outcome, LKind.extra, unique, idOf_pkg h ha, bind, Except.bind, if_true]
    · rw [if_neg (by simp [ep])]
      by_cases ex : k.extra = true
      · obtain ⟨x, hx⟩ := uniq ex ep
        rw [if_pos ex, hx]
        cases x
        · exact Done.ret h _
        · exact Done.ret hset _
      · obtain ⟨x, hx⟩ := passes_ok h hm ha
        rw [if_neg ex, hx]
        cases x
        · exact Done.ret h _
        · exact Done.ret hset _

theorem getAttr_ok {t : RTree PVal} (h : PropInv lt t) (a : Attr) :
    ∃ x, PyElem.getAttr utf8 a t = .ok x := by
  rw [PyElem.getAttr_eq]
  cases e : t.get a.key with
  | none => cases a <;> exact ⟨_, rfl⟩
  | some v =>
    have hk := h.typed.get h.wf e
    cases v with
    | str s =>
      obtain ⟨b, hb, -⟩ := PyElem.strToStr_ok s.val
      cases a
      case id => exact ⟨_, by simp [PyElem.readVal, Spec.isText, PyElem.getStrAttr, PyElem.pvalText, hb, bind, Except.bind, pure, Except.pure]; rfl⟩
      case name => exact ⟨_, by simp [PyElem.readVal, Spec.isText, PyElem.getStrAttr, PyElem.pvalText, hb, bind, Except.bind, pure, Except.pure]; rfl⟩
      case desc => exact ⟨_, by simp [PyElem.readVal, Spec.isText, PyElem.getStrAttr, PyElem.pvalText, hb, bind, Except.bind, pure, Except.pure]; rfl⟩
      case langOnly => exact ⟨_, by simp [PyElem.readVal, Spec.isText, PyElem.getStrAttr, PyElem.pvalText, hb, bind, Except.bind, pure, Except.pure]; rfl⟩
      all_goals exact absurd (show (_, 0) ∈ Spec.propKinds from hk) (by decide)
    | num n =>
      cases a
      case displayOrder => exact ⟨_, rfl⟩
      case userVisible => exact ⟨_, rfl⟩
      case biarchOnly => exact ⟨_, rfl⟩
      case default => exact ⟨_, rfl⟩
      all_goals exact absurd (show (_, 1) ∈ Spec.propKinds from hk) (by decide)
    | list l => cases a <;> exact absurd (show (_, 2) ∈ Spec.propKinds from hk) (by decide)

theorem cstrOut_ok (o : Option CStr) : ∃ x, PyElem.cstrOut utf8 o = .ok x := by
  cases o with
  | none => exact ⟨_, rfl⟩
  | some s => exact ⟨_, by simp only [PyElem.cstrOut, PyElem.strText_ok, bind, Except.bind]; rfl⟩

theorem getStrAttr_ok {t : RTree PVal} (h : LangInv lt t) (k : Bytes) :
    ∃ x, PyElem.getStrAttr utf8 (t.get k) = .ok x := by
  cases e : t.get k with
  | none => exact ⟨_, rfl⟩
  | some v =>
    have hk := h.typed.get h.wf e
    cases v with
    | str s =>
      obtain ⟨b, hb, -⟩ := PyElem.strToStr_ok s.val
      exact ⟨_, by simp only [PyElem.getStrAttr, PyElem.pvalText, hb, bind, Except.bind]; rfl⟩
    | num n => simp [Spec.kind] at hk
    | list l => simp [Spec.kind] at hk

theorem stored_text {a : Attr} {v : Arg} {x : PVal} (h : PyElem.stored a v = some (some x)) :
    x ≠ .str ⟨none⟩ := by
  cases v with
  | none => simp only [PyElem.stored] at h; split at h <;> simp at h
  | str b =>
    cases b with
    | none => simp [PyElem.stored] at h
    | some b => simp only [PyElem.stored] at h; split at h <;> simp at h; subst h; simp
  | int n => simp only [PyElem.stored] at h; split at h <;> simp at h; subst h; simp
  | bool b => simp only [PyElem.stored] at h; split at h <;> simp at h; subst h; simp
  | bytes b => simp [PyElem.stored] at h
  | other => simp [PyElem.stored] at h

theorem setAttr_outcome {t : RTree PVal} (h : PropInv lt t ∧ Texts t) (a : Attr) (x : Option Arg) :
    (a = .displayOrder ∧ x = none ∧ PyElem.setAttr lt a t x = .error .nullDeref) ∨
    (¬ (a = .displayOrder ∧ x = none) ∧
      ∃ t' o, PyElem.setAttr lt a t x = .ok (t', o) ∧ PropInv lt t' ∧ Texts t') := by
  cases x with
  | some v =>
    obtain ⟨t', o, h1, h2, -, h4⟩ := PyElem.setAttr_cases h.1 a v
    refine .inr ⟨by simp, t', o, h1, h2, ?_⟩
    cases e : PyElem.stored a v with
    | none => rw [e] at h4; rw [show t' = t from h4]; exact h.2
    | some x =>
      rw [e] at h4
      intro k ek
      rw [h4.2 k] at ek
      split at ek
      · subst ek; exact stored_text e rfl
      · exact h.2 k ek
  | none =>
    cases a
    case displayOrder => exact .inl ⟨rfl, rfl, rfl⟩
    all_goals exact .inr ⟨by simp, t, _, rfl, h⟩

theorem pkgSet_outcome {p : Pkg} (hp : p.name.isSome = true) (a : PkgAttr) (x : Option Arg) :
    ((a = .type ∨ a = .basearchonly) ∧ x = none ∧ p.setAttr a x = .error .nullDeref) ∨
    (¬ ((a = .type ∨ a = .basearchonly) ∧ x = none) ∧
      ∃ p' o, p.setAttr a x = .ok (p', o) ∧ p'.name.isSome = true) := by
  cases a with
  | name =>
    refine .inr ⟨by simp, ?_⟩
    simp only [Pkg.setAttr]
    cases PyElem.strIn x with
    | error e => exact ⟨_, _, rfl, hp⟩
    | ok s => exact ⟨_, _, rfl, rfl⟩
  | requires =>
    refine .inr ⟨by simp, ?_⟩
    simp only [Pkg.setAttr]
    cases PyElem.strIn x with
    | error e => exact ⟨_, _, rfl, hp⟩
    | ok s => exact ⟨_, _, rfl, hp⟩
  | type =>
    cases x with
    | none => exact .inl ⟨.inl rfl, rfl, rfl⟩
    | some v =>
      refine .inr ⟨by simp, ?_⟩
      have : ∃ n, PyElem.numIn (some v) = .ok n := by
        cases v <;> try exact ⟨_, rfl⟩
        rename_i n
        simp only [PyElem.numIn]
        cases PyElem.asLong n <;> exact ⟨_, rfl⟩
      obtain ⟨n, hn⟩ := this
      simp only [Pkg.setAttr, hn, bind, Except.bind]
      cases n <;> exact ⟨_, _, rfl, hp⟩
  | basearchonly =>
    cases x with
    | none => exact .inl ⟨.inr rfl, rfl, rfl⟩
    | some v =>
      refine .inr ⟨by simp, ?_⟩
      cases v <;> exact ⟨_, _, rfl, hp⟩

theorem gidSet_outcome (g : GroupId) (a : GidAttr) (x : Option Arg) :
    (a = .default ∧ x = none ∧ PyElem.gidSetAttr g a x = .error .nullDeref) ∨
    (¬ (a = .default ∧ x = none) ∧ ∃ g' o, PyElem.gidSetAttr g a x = .ok (g', o)) := by
  cases a with
  | name =>
    refine .inr ⟨by simp, ?_⟩
    simp only [PyElem.gidSetAttr]
    cases PyElem.strIn x <;> exact ⟨_, _, rfl⟩
  | default =>
    cases x with
    | none => exact .inl ⟨rfl, rfl, rfl⟩
    | some v => exact .inr ⟨by simp, by cases v <;> exact ⟨_, _, rfl⟩⟩

theorem strVal_text (o : Option Arg) : PyElem.strVal o ≠ some (.str ⟨none⟩) := by
  unfold PyElem.strVal
  cases PyElem.argText o <;> simp

theorem texts_of {t : RTree PVal} (h : PropInv lt t)
    (h1 : t.get b!"id" ≠ some (.str ⟨none⟩)) (h2 : t.get b!"name" ≠ some (.str ⟨none⟩))
    (h3 : t.get b!"desc" ≠ some (.str ⟨none⟩)) (h4 : t.get b!"langonly" ≠ some (.str ⟨none⟩)) :
    Texts t := by
  intro k e
  have hm : (k, 0) ∈ Spec.propKinds := h.typed.get h.wf e
  have : ∀ q ∈ Spec.propKinds, q.2 = 0 → q.1 = b!"id" ∨ q.1 = b!"name" ∨ q.1 = b!"desc" ∨
    q.1 = b!"langonly" := by decide
  rcases this _ hm rfl with h | h | h | h <;> subst h
  · exact h1 e
  · exact h2 e
  · exact h3 e
  · exact h4 e

theorem groupInit_inv {args : PyElem.GroupArgs} {p : RTree PVal} (h : PyElem.groupInit lt args = .ok p) :
    PropInv lt p ∧ Texts p := by
  cases e : (Spec.takenText args.id && Spec.takenText args.name && Spec.takenText args.desc &&
    Spec.takenNum args.displayOrder && Spec.takenNum args.default && Spec.takenNum args.uservisible &&
    Spec.takenText args.langonly) with
  | false => obtain ⟨f, hf⟩ := PyElem.groupInit_bad (lt := lt) e; rw [h] at hf; simp at hf
  | true =>
    simp only [Bool.and_eq_true] at e
    obtain ⟨⟨⟨⟨⟨⟨h1, h2⟩, h3⟩, h4⟩, h5⟩, h6⟩, h7⟩ := e
    obtain ⟨t, ht, hp, g1, g2, g3, g4, -⟩ := PyElem.groupInit_ok (lt := lt) h1 h2 h3 h4 h5 h6 h7
    rw [h] at ht; cases ht
    exact ⟨hp, texts_of hp (g1 ▸ strVal_text _) (g2 ▸ strVal_text _) (g3 ▸ strVal_text _)
      (g4 ▸ strVal_text _)⟩

theorem entryInit_inv {args : PyElem.EntryArgs} {p : RTree PVal} (h : PyElem.entryInit lt args = .ok p) :
    PropInv lt p ∧ Texts p := by
  cases e : (Spec.takenText args.id && Spec.takenText args.name && Spec.takenText args.desc &&
    Spec.takenNum args.displayOrder) with
  | false => obtain ⟨f, hf⟩ := PyElem.entryInit_bad (lt := lt) e; rw [h] at hf; simp at hf
  | true =>
    simp only [Bool.and_eq_true] at e
    obtain ⟨⟨⟨h1, h2⟩, h3⟩, h4⟩ := e
    obtain ⟨t, ht, hp, g1, g2, g3, g4, -⟩ := PyElem.entryInit_ok (lt := lt) h1 h2 h3 h4
    rw [h] at ht; cases ht
    exact ⟨hp, texts_of hp (g1 ▸ strVal_text _) (g2 ▸ strVal_text _) (g3 ▸ strVal_text _)
      (by rw [g4]; simp)⟩

theorem pkgInit_named {args : PyElem.PkgArgs} {p : Pkg} (h : PyElem.pkgInit args = .ok p) :
    p.name.isSome = true := by
  unfold PyElem.pkgInit at h
  simp only [bind, Except.bind, pure, Except.pure] at h
  split at h
  · simp at h
  split at h
  · simp at h
  split at h
  · simp at h
  cases h; rfl

theorem typeOf_some {r : R} {v w : Nat} {t : PType} {a : Nat} {n d : Option Nat}
    (hw : var r.vars v = some w) (hb : r.objs[w]? = some (.wrap t a n d)) : r.typeOf v = some t := by
  simp [R.typeOf, hw, hb]

theorem typeOf_none {r : R} {v : Nat} (hw : var r.vars v = none) : r.typeOf v = none := by
  simp [R.typeOf, hw]

theorem entry_list {m : Nat} {r : R} (h : Typed lt m r) {a : Nat} {k : EKind} {o : Bool}
    (ha : shapeAt r.objs a = some (false, .entry k)) (ho : (o && k != .environment) = false) :
    ∃ e l, asEnt (look r.objs) a = .ok e ∧ e.kind = k ∧ r.objs[a]? = some e.body ∧ e.listOf o = some l ∧
      shapeAt r.objs l = some (false, .list (listType k)) := by
  obtain ⟨p, n, d, l, op, h1, h2, h3⟩ := get_entry ha
  obtain ⟨-, -, -, ⟨l', rfl, hl⟩, h5, -⟩ := h.body _ _ h1
  cases o with
  | false => exact ⟨_, l', h3, rfl, h1, rfl, hl⟩
  | true =>
    have : k = .environment := by simpa using ho
    subst this
    obtain ⟨o', eo, h6⟩ := h5 rfl
    subst eo
    exact ⟨_, o', h3, rfl, h1, rfl, h6⟩

theorem step_outcome {m : Nat} {r : R} (h : Typed lt m r) (hm : m ≤ 1000000000) (op : Op) :
    Outcome lt (m + 1) (r.crash op) (r.step lt utf8 op) := by
  cases op with
  | newGroup args =>
    show Done _ _ _
    rw [R.step]
    cases e : PyElem.groupInit lt args with
    | error x => exact Done.ret h _
    | ok p => exact Done.ret (h.entry _ (groupInit_inv e)) _
  | newEntry env args =>
    show Done _ _ _
    rw [R.step]
    cases e : PyElem.entryInit lt args with
    | error x => exact Done.ret h _
    | ok p => exact Done.ret (h.entry _ (entryInit_inv e)) _
  | newPackage args =>
    show Done _ _ _
    rw [R.step]
    cases e : PyElem.pkgInit args with
    | error x => exact Done.ret h _
    | ok p => exact Done.ret (h.plain (b := .pkg p) rfl (pkgInit_named e)) _
  | newGroupId args =>
    show Done _ _ _
    rw [R.step]
    cases e : PyElem.gidInit args with
    | error x => exact Done.ret h _
    | ok p => exact Done.ret (h.plain (b := .gid p) rfl trivial) _
  | newDict => exact Done.ret (h.plain (b := .dict RTree.create) rfl emptyDict_ok) _
  | newList k => exact Done.ret (h.plain (b := .list k []) rfl ⟨Nat.zero_le _, by simp⟩) _
  | dup v =>
    show Done _ _ _
    rw [R.step]
    cases e : var r.vars v with
    | none => exact Done.ret h _
    | some w =>
      obtain ⟨t, ht⟩ := h.vars w (var_mem e)
      exact Done.ret (h.push ht) _
  | del v =>
    show Done _ _ _
    rw [R.step]
    cases e : var r.vars v with
    | none => exact Done.ret h _
    | some w =>
      exact Done.ret (r := { r with vars := r.vars.set v none }) ⟨h.body, fun x hx => h.vars x
        ((roots_del e).mem_iff.2 (List.mem_cons_of_mem _ hx))⟩ _
  | same v v2 =>
    show Done _ _ _
    rw [R.step]
    split <;> exact Done.ret h _
  | getAttr v at' =>
    show Done _ _ _
    rw [R.step]
    refine h.with1 v (fun _ => Done.ret h _) fun w t a n d hw hb ha => ?_
    cases t <;> try exact Done.ret h _
    rename_i k
    dsimp only
    split
    · obtain ⟨p, n, d, l, o, h1, h2, h3⟩ := get_entry ha
      obtain ⟨x, hx⟩ := getAttr_ok (utf8 := utf8) (h.body _ _ h1).1.1 at'
      simp only [h3, hx, bind, Except.bind, pure, Except.pure]
      exact Done.ret h _
    · exact Done.ret h _
  | setAttr v at' x =>
    rw [R.step]
    refine h.with1 v (fun hv => ?_) fun w t a n d hw hb ha => ?_
    · have : r.crash (.setAttr v at' x) = none := by
        unfold R.crash
        split <;> first | rfl | simp_all [typeOf_none]
      rw [this]; exact Done.ret h _
    · have hty := typeOf_some hw hb
      by_cases et : ∃ k, t = .entry k
      · obtain ⟨k, rfl⟩ := et
        dsimp only
        obtain ⟨p, n, d, l, o, h1, h2, h3⟩ := get_entry ha
        obtain ⟨hp, hrest⟩ := h.body _ _ h1
        rcases setAttr_outcome hp at' x with ⟨rfl, rfl, he⟩ | ⟨hne, t', o', he, hp'⟩
        · have : k.has .displayOrder = true := by cases k <;> rfl
          rw [if_pos this]
          simp only [R.crash, hty, Outcome, h3, he, bind, Except.bind]
        · have : r.crash (.setAttr v at' x) = none := by
            unfold R.crash
            split <;> first | rfl | simp_all
          rw [this]
          split
          · simp only [h3, he, bind, Except.bind, pure, Except.pure]
            exact Done.ret (h.put (b := .entry k t' n d l o) (by rw [ha]; rfl) ⟨hp', hrest⟩) _
          · exact Done.ret h _
      · have : r.crash (.setAttr v at' x) = none := by
          unfold R.crash
          split <;> first | rfl | skip
          all_goals rename_i h'
          all_goals cases h'
          rw [hty]
          cases t <;> first | rfl | exact absurd ⟨_, rfl⟩ et
        rw [this]
        cases t <;> first | exact Done.ret h _ | exact absurd ⟨_, rfl⟩ et
  | getPkg v at' =>
    show Done _ _ _
    rw [R.step]
    refine h.with1 v (fun _ => Done.ret h _) fun w t a n d hw hb ha => ?_
    cases t <;> try exact Done.ret h _
    obtain ⟨p, h1, h2⟩ := get_pkg ha
    have : ∃ x, p.getAttr utf8 at' = .ok x := by
      cases at' with
      | name => exact cstrOut_ok _
      | requires => exact cstrOut_ok _
      | type => exact ⟨_, rfl⟩
      | basearchonly => exact ⟨_, rfl⟩
    obtain ⟨x, hx⟩ := this
    simp only [h2, hx, bind, Except.bind, pure, Except.pure]
    exact Done.ret h _
  | setPkg v at' x =>
    rw [R.step]
    refine h.with1 v (fun hv => ?_) fun w t a n d hw hb ha => ?_
    · have : r.crash (.setPkg v at' x) = none := by
        unfold R.crash
        split <;> first | rfl | simp_all [typeOf_none]
      rw [this]; exact Done.ret h _
    · have hty := typeOf_some hw hb
      by_cases et : t = .package
      · subst et
        obtain ⟨p, h1, h2⟩ := get_pkg ha
        rcases pkgSet_outcome (h.body _ _ h1) at' x with ⟨hat, rfl, he⟩ | ⟨hne, p', o', he, hp'⟩
        · have : r.crash (.setPkg v at' none) = some .nullDeref := by
            rcases hat with rfl | rfl <;> simp [R.crash, hty]
          rw [this]
          simp only [Outcome, h2, he, bind, Except.bind]
        · have : r.crash (.setPkg v at' x) = none := by
            unfold R.crash
            split <;> first | rfl | simp_all
          rw [this]
          simp only [h2, he, bind, Except.bind, pure, Except.pure]
          exact Done.ret (h.put (b := .pkg p') (by rw [ha]; rfl) hp') _
      · have : r.crash (.setPkg v at' x) = none := by
          unfold R.crash
          split <;> first | rfl | simp_all
        rw [this]
        cases t <;> first | exact Done.ret h _ | exact absurd rfl et
  | getGid v at' =>
    show Done _ _ _
    rw [R.step]
    refine h.with1 v (fun _ => Done.ret h _) fun w t a n d hw hb ha => ?_
    cases t <;> try exact Done.ret h _
    obtain ⟨p, h1, h2⟩ := get_gid ha
    have : ∃ x, PyElem.gidGetAttr utf8 p at' = .ok x := by
      cases at' with
      | name => exact cstrOut_ok _
      | default => exact ⟨_, rfl⟩
    obtain ⟨x, hx⟩ := this
    simp only [h2, hx, bind, Except.bind, pure, Except.pure]
    exact Done.ret h _
  | setGid v at' x =>
    rw [R.step]
    refine h.with1 v (fun hv => ?_) fun w t a n d hw hb ha => ?_
    · have : r.crash (.setGid v at' x) = none := by
        unfold R.crash
        split <;> first | rfl | simp_all [typeOf_none]
      rw [this]; exact Done.ret h _
    · have hty := typeOf_some hw hb
      by_cases et : t = .groupId
      · subst et
        obtain ⟨p, h1, h2⟩ := get_gid ha
        rcases gidSet_outcome p at' x with ⟨rfl, rfl, he⟩ | ⟨hne, p', o', he⟩
        · have : r.crash (.setGid v .default none) = some .nullDeref := by simp [R.crash, hty]
          rw [this]
          simp only [Outcome, h2, he, bind, Except.bind]
        · have : r.crash (.setGid v at' x) = none := by
            unfold R.crash
            split <;> first | rfl | simp_all
          rw [this]
          simp only [h2, he, bind, Except.bind, pure, Except.pure]
          exact Done.ret (h.put (b := .gid p') (by rw [ha]; rfl) trivial) _
      · have : r.crash (.setGid v at' x) = none := by
          unfold R.crash
          split <;> first | rfl | simp_all
        rw [this]
        cases t <;> first | exact Done.ret h _ | exact absurd rfl et
  | getList v o =>
    show Done _ _ _
    rw [R.step]
    refine h.with1 v (fun _ => Done.ret h _) fun w t a n d hw hb ha => ?_
    cases t <;> try exact Done.ret h _
    rename_i k
    dsimp only
    by_cases e : (o && k != .environment) = true
    · rw [if_pos e]; exact Done.ret h _
    · rw [if_neg e]
      obtain ⟨en, l, h1, -, -, h2, h3⟩ := entry_list h ha (by simpa using e)
      simp only [h1, h2, nonNull, bind, Except.bind, pure, Except.pure]
      exact Done.ret (h.wrapUp h3) _
  | setList v o v2 =>
    show Done _ _ _
    rw [R.step]
    refine h.with2 v v2 (fun _ => Done.ret h _) fun w t a n d w2 t2 l n2 d2 hw hb ha hw2 hb2 ha2 => ?_
    cases t <;> try exact Done.ret h _
    rename_i k
    dsimp only
    by_cases e : (o && k != .environment) = true
    · rw [if_pos e]; exact Done.ret h _
    · rw [if_neg e]
      by_cases et : t2 = .list (listType k)
      · rw [if_pos et]
        subst et
        obtain ⟨en, l', h1, hk, h4, h2, h3⟩ := entry_list h ha (by simpa using e)
        subst hk
        simp only [h1, bind, Except.bind, pure, Except.pure]
        obtain ⟨g1, g2, g3, g4, g5, g6⟩ := h.body _ _ h4
        refine Done.ret (Typed.lose (h.put ?_ ?_) _) _
        · cases o <;> exact ha
        · cases o with
          | false => exact ⟨g1, g2, g3, ⟨l, rfl, ha2⟩, g5, g6⟩
          | true =>
            have ek : en.kind = .environment := by simpa using e
            refine ⟨g1, g2, g3, g4, fun _ => ⟨l, rfl, ?_⟩, fun ne => absurd ek ne⟩
            rw [ek] at ha2; exact ha2
      · rw [if_neg et]; exact Done.ret h _
  | getDict v desc =>
    show Done _ _ _
    rw [R.step]
    refine h.with1 v (fun _ => Done.ret h _) fun w t a n d hw hb ha => ?_
    cases t <;> try exact Done.ret h _
    rename_i k
    dsimp only
    obtain ⟨-, hn, hd⟩ := h.body _ _ hb
    cases ec : (if desc then d else n) with
    | some w' =>
      dsimp only
      have : shapeAt r.objs w' = some (true, .dict) := by
        cases desc
        · exact (hn w' ec).1
        · exact (hd w' ec).1
      exact Done.ret (h.push this) _
    | none =>
      dsimp only
      obtain ⟨p, n', d', l, o, h1, h2, h3⟩ := get_entry ha
      obtain ⟨-, ⟨x, rfl, hx⟩, ⟨y, rfl, hy⟩, -⟩ := h.body _ _ h1
      cases desc
      · simp only [h3, Ent.dictOf, nonNull, bind, Except.bind, pure, Except.pure]
        exact Done.ret (h.wrapUp hx) _
      · simp only [h3, Ent.dictOf, nonNull, bind, Except.bind, pure, Except.pure]
        exact Done.ret (h.wrapUp hy) _
  | setDict v desc v2 =>
    show Done _ _ _
    rw [R.step]
    refine h.with2 v v2 (fun _ => Done.ret h _) fun w t a n d w2 t2 dd n2 d2 hw hb ha hw2 hb2 ha2 => ?_
    cases t <;> try exact Done.ret h _
    rename_i k
    dsimp only
    by_cases et : t2 = .dict
    · rw [if_pos et]
      subst et
      obtain ⟨p, n', d', l, o, h1, h2, h3⟩ := get_entry ha
      obtain ⟨g1, g2, g3, g4, g5, g6⟩ := h.body _ _ h1
      have hlw : asWrap (look r.objs) w = .ok (.entry k, a, n, d) := by
        simp [asWrap, look, hb, bind, Except.bind]
      simp only [h3, hlw, bind, Except.bind, pure, Except.pure]
      have t1 : Typed lt m (r.put a (Ent.withDict ⟨k, p, n', d', l, o⟩ desc dd).body) := by
        refine h.put ?_ ?_
        · cases desc <;> exact ha
        · cases desc with
          | false => exact ⟨g1, ⟨dd, rfl, ha2⟩, g3, g4, g5, g6⟩
          | true => exact ⟨g1, g2, ⟨dd, rfl, ha2⟩, g4, g5, g6⟩
      have hsh : ∀ x, shapeAt (r.put a (Ent.withDict ⟨k, p, n', d', l, o⟩ desc dd).body).objs x =
          shapeAt r.objs x := by
        intro x
        exact shapeAt_set (by cases desc <;> exact ha) x
      obtain ⟨w1, w2', w3⟩ := h.body _ _ hb
      have hw2s : shapeAt r.objs w2 = some (true, .dict) := by simp [shapeAt, hb2, shape]
      refine Done.ret (t1.put ?_ ?_) _
      · rw [hsh]
        cases desc <;> simp [shapeAt, hb, shape]
      · cases desc with
        | false =>
          refine ⟨by rw [hsh]; exact w1, ?_, ?_⟩
          · intro x hx; cases hx; rw [hsh]; exact ⟨hw2s, k, rfl⟩
          · intro x hx; rw [hsh]; exact w3 x hx
        | true =>
          refine ⟨by rw [hsh]; exact w1, ?_, ?_⟩
          · intro x hx; rw [hsh]; exact w2' x hx
          · intro x hx; cases hx; rw [hsh]; exact ⟨hw2s, k, rfl⟩
    · rw [if_neg et]; exact Done.ret h _
  | dictSet v k x =>
    show Done _ _ _
    rw [R.step]
    refine h.with1 v (fun _ => Done.ret h _) fun w t a n d hw hb ha => ?_
    cases t <;> try exact Done.ret h _
    obtain ⟨t, h1, h2⟩ := get_dict ha
    simp only [h2, bind, Except.bind, pure, Except.pure]
    obtain ⟨hl, ht⟩ := h.body _ _ h1
    refine Done.ret (h.put (b := .dict _) (by rw [ha]; rfl) ⟨hl.set _ _, ht.set hl.wf _ _ ?_⟩) _
    intro x e; cases e; simp
  | dictGet v k =>
    show Done _ _ _
    rw [R.step]
    refine h.with1 v (fun _ => Done.ret h _) fun w t a n d hw hb ha => ?_
    cases t <;> try exact Done.ret h _
    obtain ⟨t, h1, h2⟩ := get_dict ha
    obtain ⟨x, hx⟩ := getStrAttr_ok (utf8 := utf8) (lt := lt) (h.body _ _ h1).1 (cstr k)
    simp only [h2, hx, bind, Except.bind, pure, Except.pure]
    exact Done.ret h _
  | len v =>
    show Done _ _ _
    rw [R.step]
    refine h.with1 v (fun _ => Done.ret h _) fun w t a n d hw hb ha => ?_
    cases t <;> try exact Done.ret h _
    obtain ⟨items, -, -, h3⟩ := get_list ha
    simp only [h3, bind, Except.bind, pure, Except.pure]
    exact Done.ret h _
  | getItem v i =>
    show Done _ _ _
    rw [R.step]
    refine h.with1 v (fun _ => Done.ret h _) fun w t a n d hw hb ha => ?_
    cases t <;> try exact Done.ret h _
    obtain ⟨items, h1, -, h3⟩ := get_list ha
    simp only [h3, bind, Except.bind, pure, Except.pure]
    cases e : items[i]? with
    | none => exact Done.ret h _
    | some x => exact Done.ret (h.wrapUp ((h.body _ _ h1).2 x (List.mem_of_getElem? e))) _
  | getById v id =>
    show Done _ _ _
    rw [R.step]
    refine h.with1 v (fun _ => Done.ret h _) fun w t a n d hw hb ha => ?_
    cases t <;> try exact Done.ret h _
    rename_i k
    dsimp only
    by_cases ex : k.extra = true
    · rw [if_pos ex]
      obtain ⟨items, h1, -, h3⟩ := get_list ha
      obtain ⟨x, hx⟩ := findId_ok h ex id (h.body _ _ h1).2
      simp only [h3, hx, bind, Except.bind, pure, Except.pure]
      cases x with
      | none => exact Done.ret h _
      | some x => exact Done.ret (h.wrapUp ((h.body _ _ h1).2 x (findId_mem _ _ hx))) _
    · rw [if_neg ex]; exact Done.ret h _
  | append v v2 =>
    show Done _ _ _
    rw [R.step]
    refine h.with2 v v2 (fun _ => Done.ret h _) fun w t a n d w2 t2 l n2 d2 hw hb ha hw2 hb2 ha2 => ?_
    cases t <;> try exact Done.ret h _
    dsimp only
    split
    · rename_i e; subst e; exact append_done h hm ha ha2
    · exact Done.ret h _
  | appendStr v s =>
    show Done _ _ _
    rw [R.step]
    refine h.with1 v (fun _ => Done.ret h _) fun w t a n d hw hb ha => ?_
    cases t <;> try exact Done.ret h _
    rename_i k
    cases k <;> try exact Done.ret h _
    cases s with
    | none => exact Done.ret h _
    | some b =>
      have h' := h.make (b := .gid { GroupId.create with name := some (compsStr (some (cstr b))) }) trivial
      have ha' := shapeAt_append ha [.gid { GroupId.create with name := some (compsStr (some (cstr b))) }]
      obtain ⟨items, h1, -, h3⟩ := get_list (objs := (r.make _).objs) ha'
      refine Done.bind ⟨_, h3⟩ fun v hv => ?_
      exact putIn_done h' hm ha' (shapeAt_new _ _)
  | insert v i v2 =>
    show Done _ _ _
    rw [R.step]
    refine h.with2 v v2 (fun _ => Done.ret h _) fun w t a n d w2 t2 l n2 d2 hw hb ha hw2 hb2 ha2 => ?_
    cases t <;> try exact Done.ret h _
    dsimp only
    split
    · rename_i e; subst e
      obtain ⟨items, h1, -, h3⟩ := get_list ha
      refine Done.bind ⟨_, h3⟩ fun v hv => ?_
      exact putIn_done h hm ha ha2
    · exact Done.ret h _
  | setItem v i v2 =>
    rw [R.step]
    refine h.with2 v v2 (fun hv => ?_) fun w t l n d w2 t2 a n2 d2 hw hb ha hw2 hb2 ha2 => ?_
    · have : r.crash (.setItem v i v2) = none := by
        unfold R.crash
        rcases hv with hv | hv <;> simp [typeOf_none hv]
      rw [this]; exact Done.ret h _
    · have hty := typeOf_some hw hb
      have hty2 := typeOf_some hw2 hb2
      have hno : (∀ k, t ≠ .list k) ∨ (∃ k, t = .list k ∧ t2 ≠ k.elem) →
          r.crash (.setItem v i v2) = none := by
        intro hh
        rw [R.crash, hty, hty2, if_neg]
        rintro ⟨e1, e2, -⟩
        cases e1; cases e2
        rcases hh with hh | ⟨k, e, hh⟩
        · exact hh _ rfl
        · cases e; exact hh rfl
      by_cases et : ∃ k, t = .list k
      · obtain ⟨k, rfl⟩ := et
        dsimp only
        by_cases ee : t2 = k.elem
        · rw [if_pos ee]
          subst ee
          obtain ⟨items, h1, -, h3⟩ := get_list ha
          have := setItem_outcome h hm (i := i) h1 ha2
          have ec : r.crash (.setItem v i v2) =
              if k = .packages ∧ i < items.length then some .typeConfusion else none := by
            rw [R.crash, hty, hty2]
            have : r.members v = items := by simp [R.members, hw, hb, h1]
            rw [this]
            by_cases ep : k = .packages
            · subst ep; simp [LKind.elem]
            · simp [ep]
          rw [ec]; exact this
        · rw [if_neg ee, hno (.inr ⟨k, rfl, ee⟩)]; exact Done.ret h _
      · rw [hno (.inl fun k e => et ⟨k, e⟩)]
        cases t <;> first | exact Done.ret h _ | exact absurd ⟨_, rfl⟩ et
  | delItem v i =>
    show Done _ _ _
    rw [R.step]
    refine h.with1 v (fun _ => Done.ret h _) fun w t a n d hw hb ha => ?_
    cases t <;> try exact Done.ret h _
    obtain ⟨items, h1, -, h3⟩ := get_list ha
    obtain ⟨hn, hi⟩ := h.body _ _ h1
    simp only [R.delItem, h3, bind, Except.bind, pure, Except.pure]
    split
    · refine Done.ret (h.putList ha ?_ fun x hx => hi x (List.mem_of_mem_eraseIdx hx)) _
      exact Nat.le_trans (List.length_eraseIdx_le _ _) hn
    · exact Done.ret h _
  | remove v v2 =>
    show Done _ _ _
    rw [R.step]
    refine h.with2 v v2 (fun _ => Done.ret h _) fun w t l n d w2 t2 a n2 d2 hw hb ha hw2 hb2 ha2 => ?_
    cases t <;> try exact Done.ret h _
    dsimp only
    split
    · obtain ⟨items, h1, -, h3⟩ := get_list ha
      obtain ⟨hn, hi⟩ := h.body _ _ h1
      simp only [R.remove, h3, bind, Except.bind, pure, Except.pure]
      split
      · refine Done.ret (Typed.lose (h.putList ha ?_ fun x hx => hi x (List.mem_of_mem_erase hx)) _) _
        exact Nat.le_trans (List.length_erase_le) hn
      · exact Done.ret (h.lose _) _
    · exact Done.ret h _
  | clear v =>
    show Done _ _ _
    rw [R.step]
    refine h.with1 v (fun _ => Done.ret h _) fun w t a n d hw hb ha => ?_
    cases t <;> try exact Done.ret h _
    · obtain ⟨items, h1, -, h3⟩ := get_list ha
      simp only [h3, bind, Except.bind, pure, Except.pure]
      exact Done.ret (h.putList ha (Nat.zero_le _) (by simp)) _
    · obtain ⟨ls, cs, h1, h2⟩ := get_doc ha
      obtain ⟨hl, hc⟩ := h.body _ _ h1
      simp only [h2, bind, Except.bind, pure, Except.pure]
      refine Done.ret (h.put (b := .doc _ _) ha ⟨fun s a e => ?_, hc⟩) _
      rw [Three.get_none] at e; cases e
  | packagesMatch v name type =>
    show Done _ _ _
    rw [R.step]
    refine h.with1 v (fun _ => Done.ret h _) fun w t a n d hw hb ha => ?_
    cases t <;> try exact Done.ret h _
    rename_i k
    cases k <;> try exact Done.ret h _
    dsimp only
    unfold R.packagesMatch
    split
    · exact Done.ret h _
    · exact Done.ret h _
    · obtain ⟨e, l, h1, -, -, h2, h3⟩ := entry_list h ha (o := false) rfl
      obtain ⟨items, h4, -, h5⟩ := get_list h3
      obtain ⟨hn, hi⟩ := h.body _ _ h4
      rename_i name' type' _ _
      obtain ⟨xs, hx, hxl⟩ := matching_ok name' type' hi
      have h2 : e.list = some l := h2
      simp only [h1, h2, nonNull, h5, hx, bind, Except.bind, pure, Except.pure]
      exact Done.ret (h.plain (b := .list .packages xs) rfl
        ⟨by omega, fun a ha => hi a (matching_sub _ _ _ hx a ha)⟩) _
  | validate v =>
    show Done _ _ _
    rw [R.step]
    refine h.with1 v (fun _ => Done.ret h _) fun w t a n d hw hb ha => ?_
    have go : ∀ k : LKind, t = k.elem → ∃ x, passes (look r.objs) a = .ok x := by
      intro k e; subst e; exact passes_ok h hm ha
    cases t <;> try exact Done.ret h _
    · obtain ⟨x, hx⟩ := go .packages rfl
      simp only [hx, bind, Except.bind, pure, Except.pure]; exact Done.ret h _
    · obtain ⟨x, hx⟩ := go .ids rfl
      simp only [hx, bind, Except.bind, pure, Except.pure]; exact Done.ret h _
    · rename_i k
      obtain ⟨x, hx⟩ := go (match k with
        | .group => .groups | .category => .categories | .environment => .environments) (by cases k <;> rfl)
      simp only [hx, bind, Except.bind, pure, Except.pure]; exact Done.ret h _
  | newComps =>
    refine Done.ret (h.plain (b := .doc Three.none Three.none) rfl ⟨?_, ?_⟩) _
    · intro s a e; rw [Three.get_none] at e; cases e
    · intro s a e; rw [Three.get_none] at e; cases e
  | getSec v s =>
    show Done _ _ _
    rw [R.step]
    refine h.with1 v (fun _ => Done.ret h _) fun w t a n d hw hb ha => ?_
    cases t <;> try exact Done.ret h _
    obtain ⟨ls, cs, h1, h2⟩ := get_doc ha
    obtain ⟨hl, hc⟩ := h.body _ _ h1
    simp only [R.getSec, h2, bind, Except.bind, pure, Except.pure]
    cases e : cs.get s with
    | some w' => exact Done.ret (h.push (hc s w' e)) _
    | none =>
      dsimp only
      obtain ⟨r', l, g1, g2, g3, g4⟩ := secList_ok h s ha
      have ha' := g4 _ _ ha
      obtain ⟨ls', cs', h1', h2'⟩ := get_doc ha'
      obtain ⟨hl', hc'⟩ := g2.body _ _ h1'
      simp only [g1, h2']
      have t1 := g2.make (b := .wrap (.list s.kind) l none none) ⟨g3, by simp, by simp⟩
      have hm' : ∀ x t, shapeAt r'.objs x = some t →
          shapeAt (r'.make (.wrap (.list s.kind) l none none)).objs x = some t :=
        fun x t e => shapeAt_append e _
      have hn : shapeAt (r'.make (.wrap (.list s.kind) l none none)).objs r'.objs.length =
          some (true, .list s.kind) := shapeAt_new _ _
      refine Done.ret ((t1.put (b := .doc _ _) (hm' _ _ ha') ⟨fun s' x e' => hm' _ _ (hl' s' x e'), ?_⟩).push
        (t := .list s.kind) ?_) _
      · intro s' x e'
        rcases Three.get_set_of e' with ⟨rfl, e''⟩ | e''
        · cases e''; exact hn
        · exact hm' _ _ (hc' s' x e'')
      · rw [← hn]; exact shapeAt_set (hm' _ _ ha') _
  | setSec v s v2 =>
    show Done _ _ _
    rw [R.step]
    refine h.with2 v v2 (fun _ => Done.ret h _) fun w t a n d w2 t2 l n2 d2 hw hb ha hw2 hb2 ha2 => ?_
    cases t <;> try exact Done.ret h _
    dsimp only
    by_cases et : t2 = .list s.kind
    · rw [if_pos et]
      subst et
      obtain ⟨ls, cs, h1, h2⟩ := get_doc ha
      obtain ⟨hl, hc⟩ := h.body _ _ h1
      simp only [R.setSec, h2, bind, Except.bind, pure, Except.pure]
      refine Done.ret (h.put (b := .doc _ _) ha ⟨?_, ?_⟩) _
      · intro s' x e'
        rcases Three.get_set_of e' with ⟨rfl, e''⟩ | e''
        · cases e''; exact ha2
        · exact hl s' x e''
      · intro s' x e'
        rcases Three.get_set_of e' with ⟨rfl, e''⟩ | e''
        · cases e''; simp [shapeAt, hb2, shape]
        · exact hc s' x e''
    · rw [if_neg et]; exact Done.ret h _
  | delSec v s =>
    rw [R.step]
    refine h.with1 v (fun hv => ?_) fun w t a n d hw hb ha => ?_
    · rw [show r.crash (.delSec v s) = none by simp [R.crash, typeOf_none hv]]
      exact Done.ret h _
    · have hty := typeOf_some hw hb
      by_cases et : t = .comps
      · subst et
        rw [show r.crash (.delSec v s) = some .nullDeref by simp [R.crash, hty]]
        rfl
      · rw [show r.crash (.delSec v s) = none by simp [R.crash, hty, et]]
        cases t <;> first | exact Done.ret h _ | exact absurd rfl et
  | search v s args =>
    show Done _ _ _
    rw [R.step]
    refine h.with1 v (fun _ => Done.ret h _) fun w t a n d hw hb ha => ?_
    cases t <;> try exact Done.ret h _
    dsimp only
    unfold R.search
    split
    · exact Done.ret h _
    · rename_i q _
      obtain ⟨r', l, g1, g2, g3, g4⟩ := secList_ok h s ha
      obtain ⟨items, i1, -, i3⟩ := get_list g3
      obtain ⟨hn, hi⟩ := g2.body _ _ i1
      have hi' := hi
      rw [DSec.elem] at hi'
      obtain ⟨xs, hx, hxl⟩ := matchingEnts_ok g2 args.fn s q hi'
      simp only [g1, i3, hx, bind, Except.bind, pure, Except.pure]
      exact Done.ret (g2.plain (b := .list s.kind xs) rfl
        ⟨by omega, fun a ha => hi a (matchingEnts_sub _ _ _ _ hx a ha)⟩) _

end Comps.PyHeap
