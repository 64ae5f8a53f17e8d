import Verif.Lemmas.Built
import Verif.Spec.Doc

/-! # Searches: one entry -/

namespace Comps.Props
open Comps Comps.Spec Comps.Obj

variable {lt : UInt8 → UInt8 → Bool}

/-- No string in a dictionary has a NULL text. -/
def Texts (t : RTree PVal) : Prop := ∀ k, t.get k ≠ some (.str ⟨none⟩)

theorem propMatch_ok (fn : Bytes → Bytes → Bool) {v : Option PVal} (p : Bytes)
    (h : ∀ x, v = some x → kind x = 0) (ht : v ≠ some (.str ⟨none⟩)) :
    propMatch fn v p = .ok (fits fn (some p) v) := by
  cases v with
  | none => rfl
  | some x =>
    cases x with
    | str s =>
      cases s with | mk o =>
      cases o with
      | none => exact absurd rfl ht
      | some t => rfl
    | num n => exact absurd (h _ rfl) (by simp [kind])
    | list l => exact absurd (h _ rfl) (by simp [kind])

theorem prop_str {t : RTree PVal} (h : PropInv lt t) {k : Bytes} (hk : k ∈ [b!"id", b!"name", b!"desc"])
    (x : PVal) (e : t.get k = some x) : kind x = 0 := by
  have hm : (k, kind x) ∈ propKinds := h.typed.get h.wf e
  have : ∀ k ∈ [b!"id", b!"name", b!"desc"], ∀ q ∈ propKinds, q.1 = k → q.2 = 0 := by decide
  exact this k hk _ hm rfl

theorem lang_str {t : RTree PVal} (h : LangInv lt t) (k : Bytes)
    (x : PVal) (e : t.get k = some x) : kind x = 0 := h.typed.get h.wf e

/-- 1 if a given criterion holds. -/
def hit (crit : Option Bytes) (b : Bool) : Nat := if crit.isSome && b then 1 else 0

theorem matchId_ok (fn : Bytes → Bytes → Bool) {t : RTree PVal} (h : PropInv lt t) (ht : Texts t)
    (q : Query) : matchId fn t q = .ok (hit q.id (fits fn q.id (idOf t))) := by
  unfold matchId hit idOf
  cases q.id with
  | none => rfl
  | some p =>
    simp only [propMatch_ok fn p (prop_str h (by simp)) (ht b!"id"), bind, Except.bind, pure,
      Except.pure, Option.isSome_some, Bool.true_and]

theorem matchLang_ok (fn : Bytes → Bytes → Bool) {t l : RTree PVal} (h : PropInv lt t)
    (hl : LangInv lt l) (ht : Texts t) (htl : Texts l) {k : Bytes}
    (hk : k ∈ [b!"id", b!"name", b!"desc"]) (pat lang : Option Bytes) :
    matchLang fn k t l pat lang = .ok (hit pat (fits fn pat (shown (t.get k) l lang))) := by
  unfold matchLang hit shown
  cases pat with
  | none => rfl
  | some p =>
    cases lang with
    | none =>
      simp only [propMatch_ok fn p (prop_str h hk) (ht k), bind, Except.bind, pure,
        Except.pure, Option.isSome_some, Bool.true_and]
    | some g =>
      simp only [propMatch_ok fn p (lang_str hl g) (htl g), bind, Except.bind, pure,
        Except.pure, Option.isSome_some, Bool.true_and]

theorem matchDescGroup_ok (fn : Bytes → Bytes → Bool) {t l : RTree PVal} (h : PropInv lt t)
    (hl : LangInv lt l) (ht : Texts t) (htl : Texts l) (pat lang : Option Bytes) :
    matchDescGroup fn t l pat lang = .ok (hit pat (fits fn pat (t.get b!"desc") ||
      (lang.isSome && fits fn pat (shown (t.get b!"desc") l lang)))) := by
  unfold matchDescGroup hit shown
  cases pat with
  | none => rfl
  | some p =>
    simp only [propMatch_ok fn p (prop_str h (k := b!"desc") (by simp)) (ht b!"desc"), bind,
      Except.bind, pure, Except.pure, Option.isSome_some, Bool.true_and]
    cases fits fn (some p) (t.get b!"desc") with
    | true => simp
    | false =>
      cases lang with
      | none => simp
      | some g =>
        simp [propMatch_ok fn p (lang_str hl g) (htl g)]

theorem hits (a b c : Option Bytes) (x y z : Bool) (ha : a = none → x = true)
    (hb : b = none → y = true) (hc : c = none → z = true) :
    (hit a x + hit b y + hit c z == (if a.isSome then 1 else 0) + (if b.isSome then 1 else 0) +
      (if c.isSome then 1 else 0)) = (x && y && z) := by
  cases a <;> cases b <;> cases c <;> simp at ha hb hc <;> cases x <;> cases y <;> cases z <;>
    simp_all [hit]

theorem fits_none (fn : Bytes → Bytes → Bool) (c : Option Bytes) (v : Option PVal) :
    c = none → fits fn c v = true := by
  rintro rfl; rfl

end Comps.Props
