import Verif.Lemmas.PyMDict

/-!
# Lemmas: what programs with multi-dictionaries observe
-/

namespace Comps.PyMDict
open Comps Comps.Obj Comps.Spec Comps.Spec.PyM Comps.RTree Comps.MTree Comps.Xml
open Comps.PyDict (Arg)

/-! ## Writes -/

/-- Where keys come from. -/
theorem _root_.Comps.Spec.Wrote.support {V : Type} {g g' : Bytes → Option (List (MVal V))} {k : Bytes}
    {vs : List (MVal V)} (h : Wrote g k vs g') {q : Bytes} (hq : (g' q).isSome = true) :
    q = k ∨ (g q).isSome = true ∨ Splits g k q := by
  classical
  by_cases h1 : q = k
  · exact .inl h1
  by_cases h2 : Splits g k q
  · exact .inr (.inr h2)
  by_cases h3 : ∀ p, Splits g k p → ¬ First g p q
  · rw [h.other q h1 h2 h3] at hq
    exact .inr (.inl hq)
  · simp only [Classical.not_forall, Classical.not_not] at h3
    obtain ⟨p, -, hf⟩ := h3
    exact .inr (.inl hf.2.1)

theorem splits_prefix {V : Type} {g : Bytes → Option (List (MVal V))} {k p : Bytes} (h : Splits g k p) :
    p <+: k := by
  obtain ⟨-, -, a, as, b, bs, -, rfl, -⟩ := h
  exact List.prefix_append _ _

theorem removed_nil {V : Type} {g g' : Bytes → Option (List (MVal V))} {k : Bytes} (h : Removed g k g') :
    (g' k).getD [] = [] := by
  classical
  cases hk : g k with
  | none => rw [h.absent hk]; rfl
  | some v =>
    by_cases hq : ∀ q, (g q).isSome = true → k <+: q → q = k
    · rw [h.here hq]; rfl
    · simp only [Classical.not_forall] at hq
      obtain ⟨q, h1, h2, h3⟩ := hq
      rw [h.inner q (by rw [hk]; rfl) h1 h2 h3]
      rfl

theorem removed_support {V : Type} {g g' : Bytes → Option (List (MVal V))} {k : Bytes}
    (h : Removed g k g') {q : Bytes} (hq : (g' q).isSome = true) : (g q).isSome = true := by
  by_cases e : q = k
  · subst e
    cases hk : g q with
    | none => rw [h.absent hk] at hq; cases hq
    | some v => rfl
  · rw [h.other q e] at hq
    exact hq

/-- What a branch away from `k` needs is not about `k`. -/
theorem splits_removed {V : Type} {g g' : Bytes → Option (List (MVal V))} {k p : Bytes}
    (h : ∀ q, q ≠ k → g' q = g q) (hs : Splits g' k p) : Splits g k p := by
  obtain ⟨h1, h2, a, as, b, bs, hab, e, h3⟩ := hs
  have n1 : p ≠ k := by
    rw [e]; intro h; simpa using congrArg List.length h
  have n2 : p ++ a :: as ≠ k := by
    rw [e]
    intro h
    exact hab (List.cons.inj (List.append_cancel_left h)).1
  exact ⟨h1, by rw [← h p n1]; exact h2, a, as, b, bs, hab, e, by rw [← h _ n2]; exact h3⟩

/-! ## Answers -/

/-- The answer of a call. -/
def answer (utf8 : Bytes → Bool) (st : St) (op : Op) : Res Ans := (step utf8 st op).map (·.2)

theorem answer_abs (utf8 : Bytes → Bool) (st : St) (op : Op) :
    answer utf8 st op = (absR (step utf8 st op)).map (·.2) := by
  rw [answer]
  cases step utf8 st op <;> rfl

/-- The answer of a read. -/
def lookAns (utf8 : Bytes → Bool) (d : SD) (k : Bytes) : Res Ans :=
  if k = [] then .ok (.exc (.py .keyError)) else if d.dead then .error .useAfterFree
  else match d.map k with
    | none => .ok (.exc (.py .keyError))
    | some l => .ok (.seq (PyM.shown utf8 l))

theorem answer_get (utf8 : Bytes → Bool) {st : St} (hg : Good st) {i : Nat} {d : SD}
    (hi : (st.map absD)[i]? = some d) {key : Arg} {k : Bytes} (hk : keyOf key = .ok k) :
    answer utf8 st (.get i key) = lookAns utf8 d k := by
  have := (step_ok utf8 hg (.get i key)).1
  simp only [Does, onD, hi, hk, reads] at this
  rw [answer_abs, lookAns]
  split at this
  · rw [if_pos (by assumption), this]; rfl
  · rw [if_neg (by assumption)]
    split at this
    · rw [if_pos (by assumption), this]; rfl
    · rw [if_neg (by assumption)]
      split at this
      · rename_i hx; rw [this, hx]; rfl
      · rename_i hx; rw [this, hx]; rfl

theorem answer_hasKey (utf8 : Bytes → Bool) {st : St} (hg : Good st) {i : Nat} {d : SD}
    (hi : (st.map absD)[i]? = some d) {key : Arg} {k : Bytes} (hk : keyOf key = .ok k) :
    answer utf8 st (.hasKey i key) = if k = [] then .ok (.bool false) else if d.dead then
      .error .useAfterFree else .ok (.bool (d.map k).isSome) := by
  have := (step_ok utf8 hg (.hasKey i key)).1
  simp only [Does, onD, hi, hk, reads] at this
  rw [answer_abs]
  split at this
  · rw [if_pos (by assumption), this]; rfl
  · rw [if_neg (by assumption)]
    split at this
    · rw [if_pos (by assumption), this]; rfl
    · rw [if_neg (by assumption), this]; rfl

theorem answer_len (utf8 : Bytes → Bool) {st : St} (hg : Good st) {i : Nat} {d : SD}
    (hi : (st.map absD)[i]? = some d) : answer utf8 st (.len i) = .ok (.num d.len.toNat) := by
  have := (step_ok utf8 hg (.len i)).1
  simp only [Does, onD, hi] at this
  rw [answer_abs, this]; rfl

/-! ## Assignment -/

theorem stores_ok {w w' : World} {i : Nat} {d : SD} {k : Bytes} {vs : List (MVal CStr)} {a a' : Ans}
    (h : stores w i d k vs a (.ok (w', a'))) : a' = a ∧ (k = [] ∧ w' = w ∨
      k ≠ [] ∧ d.dead = false ∧ ¬ OnlyChild d.map k ∧ ∃ g g', Removed d.map k g ∧ Wrote g k vs g' ∧
        w' = w.set i ⟨g', d.len - UInt32.ofNat ((d.map k).getD []).length +
          UInt32.ofNat (if vs = [] then 1 else vs.length), false⟩) := by
  rw [stores] at h
  split at h
  · cases h
    exact ⟨rfl, .inl ⟨by assumption, rfl⟩⟩
  · rename_i hk
    rw [takes] at h
    split at h
    · cases h
    · rename_i hd
      rcases h with ⟨-, h⟩ | ⟨ho, g, hr, g', hw, h⟩
      · cases h
      · cases h
        exact ⟨rfl, .inr ⟨hk, by simpa using hd, ho, g, g', hr, hw, rfl⟩⟩

/-- An assignment stores a list, or changes nothing, or reads a cleared dictionary. -/
theorem set_outcome {utf8 : Bytes → Bool} {w : World} {r : Out} {i : Nat} {key : Arg} {v : Val}
    (h : Does utf8 w r (.set i key v)) : (∃ a, r = .ok (w, a)) ∨
    (r = .error .useAfterFree ∧ ∃ d ∈ w, d.dead = true) ∨
    ∃ d k vs a, w[i]? = some d ∧ keyOf key = .ok k ∧ stores w i d k vs a r := by
  cases v with
  | list as =>
    simp only [Does, onD] at h
    cases hi : w[i]? with
    | none => rw [hi] at h; exact .inl ⟨_, h⟩
    | some d =>
      simp only [hi] at h
      cases hk : keyOf key with
      | error e =>
        rw [hk] at h
        by_cases hn : e = .noException
        · subst hn
          simp only at h
          obtain ⟨h1, h2, h3⟩ := h
          by_cases c1 : ∃ a ∈ as, elemOf a = none
          · exact .inl ⟨_, h1 c1⟩
          · have c1' : ∀ a ∈ as, elemOf a ≠ none := fun a ha e => c1 ⟨a, ha, e⟩
            by_cases c2 : ∃ a ∈ as, Unencodable a
            · exact .inl ⟨_, h2 c1' c2⟩
            · exact .inl ⟨_, h3 c1' fun a ha hu => c2 ⟨a, ha, hu⟩⟩
        · cases e <;> first | exact absurd rfl hn | exact .inl ⟨_, h⟩
      | ok k =>
        rw [hk] at h
        obtain ⟨h1, h2⟩ := h
        rcases listIn_cases as with hb | ⟨vs, hv⟩
        · exact .inl ⟨_, h1 hb⟩
        · obtain ⟨h3, h4⟩ := h2 vs hv
          by_cases c2 : ∃ a ∈ as, Unencodable a
          · exact .inr (.inr ⟨d, k, _, _, rfl, rfl, h3 c2⟩)
          · exact .inr (.inr ⟨d, k, _, _, rfl, rfl, h4 fun a ha hu => c2 ⟨a, ha, hu⟩⟩)
  | item j src =>
    simp only [Does, onD] at h
    cases hi : w[i]? with
    | none => rw [hi] at h; exact .inl ⟨_, h⟩
    | some d =>
      simp only [hi] at h
      cases hj : w[j]? with
      | none => rw [hj] at h; exact .inl ⟨_, h⟩
      | some n =>
        simp only [hj] at h
        cases hl : keyOf src with
        | error e => rw [hl] at h; exact .inl ⟨_, h⟩
        | ok l =>
          simp only [hl, reads] at h
          split at h
          · exact .inl ⟨_, h⟩
          · split at h
            · exact .inr (.inl ⟨h, n, List.mem_of_getElem? hj, by assumption⟩)
            · split at h
              · exact .inl ⟨_, h⟩
              · cases hk : keyOf key with
                | error e => rw [hk] at h; exact .inl ⟨_, h⟩
                | ok k =>
                  simp only [hk] at h
                  by_cases hc : i = j ∧ k = l ∧ ∃ q, (d.map q).isSome = true ∧ k <+: q ∧ q ≠ k
                  · exact .inr (.inr ⟨d, k, _, _, rfl, rfl, h.1 hc⟩)
                  · exact .inr (.inr ⟨d, k, _, _, rfl, rfl, h.2 hc⟩)
  | other =>
    simp only [Does, onD] at h
    cases hi : w[i]? with
    | none => rw [hi] at h; exact .inl ⟨_, h⟩
    | some d =>
      simp only [hi] at h
      cases hk : keyOf key with
      | error e => rw [hk] at h; exact .inl ⟨_, h⟩
      | ok k => rw [hk] at h; exact .inl ⟨_, h⟩

/-- An assignment that does not fault stores a list, or changes nothing. -/
theorem set_effect {utf8 : Bytes → Bool} {w w' : World} {i : Nat} {key : Arg} {v : Val} {a : Ans}
    (h : Does utf8 w (.ok (w', a)) (.set i key v)) : w' = w ∨
    ∃ d k vs g g', w[i]? = some d ∧ keyOf key = .ok k ∧ k ≠ [] ∧ d.dead = false ∧
      Removed d.map k g ∧ Wrote g k vs g' ∧
      w' = w.set i ⟨g', d.len - UInt32.ofNat ((d.map k).getD []).length +
        UInt32.ofNat (if vs = [] then 1 else vs.length), false⟩ := by
  rcases set_outcome h with ⟨b, e⟩ | ⟨e, -⟩ | ⟨d, k, vs, b, hd, hk, hs⟩
  · cases e; exact .inl rfl
  · cases e
  · obtain ⟨-, ⟨-, h⟩ | ⟨h1, h2, -, g, g', h3, h4, h5⟩⟩ := stores_ok hs
    · exact .inl h
    · exact .inr ⟨d, k, vs, g, g', hd, hk, h1, h2, h3, h4, h5⟩

/-! ## Where keys come from -/

theorem writes_support {g g' : Bytes → Option (List (MVal CStr))} {ws : List (Bytes × MVal CStr)}
    (h : Writes g ws g') {q : Bytes} (hq : (g' q).isSome = true) :
    (g q).isSome = true ∨ ∃ e ∈ ws, q <+: e.1 := by
  induction h with
  | nil g => exact .inl hq
  | @cons g g1 g' k v ws h1 _ ih =>
    rcases ih hq with h | ⟨e, he, h⟩
    · rcases h1.support h with rfl | h | h
      · exact .inr ⟨(q, v), by simp, List.prefix_refl _⟩
      · exact .inl h
      · exact .inr ⟨(k, v), by simp, splits_prefix h⟩
    · exact .inr ⟨e, by simp [he], h⟩

/-- A key of the world after a call was there, or begins the key given, or begins a key that was there. -/
def From (w : World) (q : Bytes) : Prop :=
  (∃ key k, keyOf key = .ok k ∧ q <+: k) ∨ ∃ d ∈ w, ∃ q', (d.map q').isSome = true ∧ q <+: q'

theorem From.of {w : World} {d : SD} {q : Bytes} (hd : d ∈ w) (h : (d.map q).isSome = true) : From w q :=
  .inr ⟨d, hd, q, h, List.prefix_refl _⟩

theorem from_set {w : World} {i : Nat} {d d' : SD} (_ : w[i]? = some d)
    (h : ∀ q, (d'.map q).isSome = true → From w q) :
    ∀ x ∈ w.set i d', ∀ q, (x.map q).isSome = true → From w q := by
  intro x hx q hq
  rcases List.mem_or_eq_of_mem_set hx with hx | rfl
  · exact .of hx hq
  · exact h q hq

theorem does_from {utf8 : Bytes → Bool} {w w' : World} {op : Op} {a : Ans}
    (h : Does utf8 w (.ok (w', a)) op) : ∀ d ∈ w', ∀ q, (d.map q).isSome = true → From w q := by
  have same : w' = w → ∀ d ∈ w', ∀ q, (d.map q).isSome = true → From w q := by
    rintro rfl d hd q hq
    exact .of hd hq
  cases op with
  | new =>
    simp only [Does] at h
    cases h
    intro d hd q hq
    rcases List.mem_append.1 hd with hd | hd
    · exact .of hd hq
    · rw [List.mem_singleton] at hd
      subst hd
      cases hq
  | set i key v =>
    rcases set_effect h with e | ⟨d, k, vs, g, g', h1, h2, -, -, h5, h6, rfl⟩
    · exact same e
    · refine from_set h1 fun q hq => ?_
      rcases h6.support hq with rfl | h | h
      · exact .inl ⟨key, q, h2, List.prefix_refl _⟩
      · exact .of (List.mem_of_getElem? h1) (removed_support h5 h)
      · exact .inl ⟨key, k, h2, splits_prefix h⟩
  | del i key =>
    simp only [Does, onD] at h
    cases hi : w[i]? with
    | none => rw [hi] at h; cases h; exact same rfl
    | some d =>
      simp only [hi] at h
      cases hk : keyOf key with
      | error e => rw [hk] at h; cases h; exact same rfl
      | ok k =>
        simp only [hk, takes] at h
        split at h
        · cases h; exact same rfl
        · split at h
          · cases h
          · rcases h with ⟨-, h⟩ | ⟨-, g, hr, h⟩
            · cases h
            · cases h
              exact from_set hi fun q hq => .of (List.mem_of_getElem? hi) (removed_support hr hq)
  | get i key =>
    simp only [Does, onD] at h
    split at h
    · cases h; exact same rfl
    · split at h
      · cases h; exact same rfl
      · simp only [reads] at h
        split at h
        · cases h; exact same rfl
        · split at h
          · cases h
          · split at h <;> cases h <;> exact same rfl
  | append i key v =>
    simp only [Does, onD] at h
    cases hi : w[i]? with
    | none => rw [hi] at h; cases h; exact same rfl
    | some d =>
      simp only [hi] at h
      cases hk : keyOf key with
      | error e => rw [hk] at h; cases h; exact same rfl
      | ok k =>
        simp only [hk, reads] at h
        split at h
        · cases h; exact same rfl
        · split at h
          · cases h
          · split at h
            · cases h; exact same rfl
            · rename_i l hl
              split at h
              · cases h; exact same rfl
              · obtain ⟨g', h1, h2, h3, h4⟩ := h
                have fin : ∀ q, (g' q).isSome = true → From w q := by
                  intro q hq
                  by_cases e : q = k
                  · subst e
                    exact .of (List.mem_of_getElem? hi) (by rw [hl]; rfl)
                  · rw [h2 q e] at hq
                    exact .of (List.mem_of_getElem? hi) hq
                by_cases hu : Unencodable v
                · have := h3 hu; cases this; exact from_set hi fin
                · have := h4 hu; cases this; exact from_set hi fin
  | hasKey i key =>
    simp only [Does, onD] at h
    split at h
    · cases h; exact same rfl
    · split at h
      · cases h; exact same rfl
      · simp only [reads] at h
        split at h
        · cases h; exact same rfl
        · split at h <;> cases h
          exact same rfl
  | len i =>
    simp only [Does, onD] at h
    split at h <;> cases h <;> exact same rfl
  | keys i =>
    simp only [Does, onD] at h
    split at h
    · cases h; exact same rfl
    · split at h
      · cases h
      · obtain ⟨l, -, h1, h2⟩ := h
        by_cases hb : ∃ e ∈ l, utf8 e.1 = false
        · have := h2 hb; cases this; exact same rfl
        · have := h1 fun e he => by
            cases hu : utf8 e.1 with
            | true => rfl
            | false => exact absurd ⟨e, he, hu⟩ hb
          cases this; exact same rfl
  | items i =>
    simp only [Does, onD] at h
    split at h
    · cases h; exact same rfl
    · split at h
      · cases h
      · obtain ⟨l, -, h1, h2⟩ := h
        by_cases hb : ∃ e ∈ l, utf8 e.1 = false
        · have := h2 hb; cases this
        · have := h1 fun e he => by
            cases hu : utf8 e.1 with
            | true => rfl
            | false => exact absurd ⟨e, he, hu⟩ hb
          cases this; exact same rfl
  | values i =>
    simp only [Does, onD] at h
    split at h
    · cases h; exact same rfl
    · rename_i d _
      split at h
      · cases h
      · by_cases hn : ∀ k, d.map k = none
        · have := h.1 hn; cases this; exact same rfl
        · simp only [Classical.not_forall] at hn
          obtain ⟨k, hk⟩ := hn
          obtain ⟨v, hv⟩ := Option.ne_none_iff_exists'.1 hk
          have := h.2 ⟨k, v, hv⟩; cases this
  | str i =>
    simp only [Does, onD] at h
    split at h
    · cases h; exact same rfl
    · split at h
      · cases h
      · obtain ⟨l, -, h1, h2⟩ := h
        by_cases hb : l = [] ∨ ∃ e ∈ l, utf8 e.1 = false ∨ utf8 (listText (mvalueTexts e.2)) = false
        · have := h1 hb; cases this
        · have := h2 (fun e => hb (.inl e)) fun e he => by
            constructor
            · cases hu : utf8 e.1 with
              | true => rfl
              | false => exact absurd (.inr ⟨e, he, .inl hu⟩) hb
            · cases hu : utf8 (listText (mvalueTexts e.2)) with
              | true => rfl
              | false => exact absurd (.inr ⟨e, he, .inr hu⟩) hb
          cases this; exact same rfl
  | clear i =>
    simp only [Does, onD] at h
    cases hi : w[i]? with
    | none => rw [hi] at h; cases h; exact same rfl
    | some d =>
      simp only [hi] at h
      split at h
      · cases h
      · by_cases hn : ∀ k, d.map k = none
        · have := h.1 hn; cases this; exact same rfl
        · simp only [Classical.not_forall] at hn
          obtain ⟨k, hk⟩ := hn
          obtain ⟨v, hv⟩ := Option.ne_none_iff_exists'.1 hk
          have := h.2 ⟨k, v, hv⟩; cases this
          exact from_set hi fun q hq => .of (List.mem_of_getElem? hi) hq
  | copy i =>
    simp only [Does, onD] at h
    split at h
    · cases h; exact same rfl
    · rename_i d _
      split at h
      · cases h
      · by_cases hn : ∀ k, d.map k = none
        · have := h.1 hn; cases this; exact same rfl
        · simp only [Classical.not_forall] at hn
          obtain ⟨k, hk⟩ := hn
          obtain ⟨v, hv⟩ := Option.ne_none_iff_exists'.1 hk
          have := h.2 ⟨k, v, hv⟩; cases this
  | update i j =>
    simp only [Does] at h
    cases hi : w[i]? with
    | none => simp only [hi] at h; cases h; exact same rfl
    | some d =>
      cases hj : w[j]? with
      | none => simp only [hi, hj] at h; cases h; exact same rfl
      | some n =>
        simp only [hi, hj] at h
        split at h
        · cases h
        · obtain ⟨h1, h2, h3⟩ := h
          by_cases he : HasElem n.map
          · by_cases hij : i = j
            · have := h2 he hij; cases this
            · have := h3 he hij
              split at this
              · cases this
              · obtain ⟨l, g', hl, -, hw, e⟩ := this
                cases e
                refine from_set hi fun q hq => ?_
                rcases writes_support hw hq with h | ⟨e, he, h⟩
                · exact .of (List.mem_of_getElem? hi) h
                · simp only [elements, List.mem_flatMap, List.mem_map] at he
                  obtain ⟨x, hx, v, -, rfl⟩ := he
                  exact .inr ⟨n, List.mem_of_getElem? hj, x.1, by rw [(hl.2 _ _).1 hx]; rfl, h⟩
          · have := h1 he; cases this; exact same rfl
  | eq i j =>
    simp only [Does] at h
    split at h
    · split at h
      · cases h
      · obtain ⟨b, h, -⟩ := h
        cases h; exact same rfl
    · cases h; exact same rfl

/-- No key holds a NUL. -/
def NulFree (w : World) : Prop := ∀ d ∈ w, ∀ q, (d.map q).isSome = true → (0 : UInt8) ∉ q

theorem upTo0_free (b : Bytes) : (0 : UInt8) ∉ upTo0 b := by
  induction b with
  | nil => simp [upTo0]
  | cons c cs ih =>
    simp only [upTo0]
    split
    · simp
    · rename_i h
      simp only [List.mem_cons, not_or]
      exact ⟨fun e => h e.symm, ih⟩

theorem upTo0_of_free {b : Bytes} (h : (0 : UInt8) ∉ b) : upTo0 b = b := by
  induction b with
  | nil => rfl
  | cons c cs ih =>
    simp only [List.mem_cons, not_or] at h
    simp only [upTo0]
    rw [if_neg (fun e => h.1 e.symm), ih h.2]

theorem keyOf_free {key : Arg} {k : Bytes} (h : keyOf key = .ok k) : (0 : UInt8) ∉ k := by
  cases key with
  | str o =>
    cases o with
    | none => cases h
    | some b => cases h; exact upTo0_free b
  | _ => cases h

theorem nulFree_from {w : World} (hw : NulFree w) {q : Bytes} (h : From w q) : (0 : UInt8) ∉ q := by
  rcases h with ⟨key, k, h, hp⟩ | ⟨d, hd, q', h, hp⟩
  · exact fun h0 => keyOf_free h (hp.subset h0)
  · exact fun h0 => hw d hd q' h (hp.subset h0)

theorem run_nulFree (utf8 : Bytes → Bool) {st st' : St} (hg : Good st) (hn : NulFree (st.map absD))
    {ops : List Op} {as : List Ans} (h : run utf8 st ops = .ok (st', as)) :
    Good st' ∧ NulFree (st'.map absD) := by
  induction ops generalizing st as with
  | nil => cases h; exact ⟨hg, hn⟩
  | cons op ops ih =>
    obtain ⟨d, g⟩ := step_ok utf8 hg op
    simp only [run, bind, Except.bind] at h
    cases hs : step utf8 st op with
    | error f => rw [hs] at h; cases h
    | ok r =>
      obtain ⟨st1, a⟩ := r
      rw [hs] at d h
      simp only at h
      cases hr : run utf8 st1 ops with
      | error f => rw [hr] at h; cases h
      | ok x =>
        rw [hr] at h
        cases h
        exact ih (g st1 a hs) (fun x hx q hq => nulFree_from hn (does_from d x hx q hq)) hr

/-- The states programs reach. -/
def Reached (utf8 : Bytes → Bool) (st : St) : Prop := ∃ ops as, run utf8 [] ops = .ok (st, as)

theorem Reached.inv {utf8 : Bytes → Bool} {st : St} (h : Reached utf8 st) :
    Good st ∧ NulFree (st.map absD) := by
  obtain ⟨ops, as, h⟩ := h
  exact run_nulFree utf8 (fun m hm => by simp at hm) (fun d hd => by simp at hd) h

/-! ## Programs that do not crash -/

/-- Every key present is in `S`, or two keys of `S` that are present leave each other there. -/
def Forked (S : Bytes → Prop) (g : Bytes → Option (List (MVal CStr))) : Prop :=
  ∀ p, (g p).isSome = true → S p ∨ ∃ a as b bs, a ≠ b ∧ S (p ++ a :: as) ∧ S (p ++ b :: bs) ∧
    (g (p ++ a :: as)).isSome = true ∧ (g (p ++ b :: bs)).isSome = true

/-- No key of `S` extends another. -/
def PrefixFree (S : Bytes → Prop) : Prop := ∀ p q, S p → S q → p <+: q → p = q

theorem forked_not_onlyChild {S : Bytes → Prop} (hS : PrefixFree S)
    {g : Bytes → Option (List (MVal CStr))} (hg : Forked S g) {k : Bytes} (hk : S k) :
    ¬ OnlyChild g k := by
  rintro ⟨-, p, hpk, hp, hs, hall⟩
  rcases hg p hs with h | ⟨a, as, b, bs, hab, h1, h2, h3, h4⟩
  · exact hpk (hS p k h hk hp)
  · have e1 := (hall _ h3 (List.prefix_append _ _)).resolve_left (by
      intro e; simpa using congrArg List.length e)
    have e2 := (hall _ h4 (List.prefix_append _ _)).resolve_left (by
      intro e; simpa using congrArg List.length e)
    exact hab (List.cons.inj (List.append_cancel_left (e1.trans e2.symm))).1

theorem forked_stored {S : Bytes → Prop} {g g1 g' : Bytes → Option (List (MVal CStr))} (hg : Forked S g)
    {k : Bytes} (hk : S k) {vs : List (MVal CStr)} (hr : Removed g k g1) (hw : Wrote g1 k vs g') :
    Forked S g' := by
  have keep : ∀ q, (g q).isSome = true → (g' q).isSome = true := by
    intro q hq
    by_cases e : q = k
    · subst e; rw [hw.here]; rfl
    · exact hw.grows (by rw [hr.other q e]; exact hq)
  intro p hp
  rcases hw.support hp with rfl | h | h
  · exact .inl hk
  · rcases hg p (removed_support hr h) with h | ⟨a, as, b, bs, hab, h1, h2, h3, h4⟩
    · exact .inl h
    · exact .inr ⟨a, as, b, bs, hab, h1, h2, keep _ h3, keep _ h4⟩
  · obtain ⟨-, -, a, as, b, bs, hab, e, hs⟩ := h
    have hkk : (g' k).isSome = true := by rw [hw.here]; rfl
    rcases hg _ (removed_support hr hs) with h | ⟨c, cs, -, -, -, h1, -, h3, -⟩
    · exact .inr ⟨a, as, b, bs, hab, h, e ▸ hk, keep _ (removed_support hr hs), e ▸ hkk⟩
    · refine .inr ⟨a, as ++ c :: cs, b, bs, hab, ?_, e ▸ hk, ?_, e ▸ hkk⟩
      · simpa using h1
      · simpa using keep _ h3

/-- The calls of a program that does not crash. -/
def Tame (S : Bytes → Prop) : Op → Prop
  | .new | .get .. | .append .. | .hasKey .. | .len _ | .keys _ | .eq .. => True
  | .set _ key _ => ∀ k, keyOf key = .ok k → k = [] ∨ S k
  | _ => False

def TameW (S : Bytes → Prop) (w : World) : Prop := ∀ d ∈ w, d.dead = false ∧ Forked S d.map

theorem tame_set {S : Bytes → Prop} {w : World} (hw : TameW S w) {d : SD} (hd : d.dead = false ∧ Forked S d.map)
    (i : Nat) : TameW S (w.set i d) := by
  intro x hx
  rcases List.mem_or_eq_of_mem_set hx with hx | rfl
  · exact hw x hx
  · exact hd

theorem does_tame {utf8 : Bytes → Bool} {S : Bytes → Prop} (hS : PrefixFree S) {w : World}
    (hw : TameW S w) {r : Out} {op : Op} (ht : Tame S op) (h : Does utf8 w r op) :
    ∃ w' a, r = .ok (w', a) ∧ TameW S w' := by
  have dead : ∀ {i : Nat} {d : SD}, w[i]? = some d → ¬ d.dead = true := by
    intro i d hi
    rw [(hw d (List.mem_of_getElem? hi)).1]
    simp
  cases op with
  | new =>
    simp only [Does] at h
    refine ⟨_, _, h, fun d hd => ?_⟩
    rcases List.mem_append.1 hd with hd | hd
    · exact hw d hd
    · rw [List.mem_singleton] at hd
      subst hd
      exact ⟨rfl, fun p hp => by cases hp⟩
  | set i key v =>
    rcases set_outcome h with ⟨a, e⟩ | ⟨-, d, hd, hdd⟩ | ⟨d, k, vs, a, hi, hk, hs⟩
    · exact ⟨w, a, e, hw⟩
    · rw [(hw d hd).1] at hdd; cases hdd
    · have hd := hw d (List.mem_of_getElem? hi)
      rw [stores] at hs
      split at hs
      · exact ⟨_, _, hs, hw⟩
      · rename_i hk0
        have hSk := (ht k hk).resolve_left hk0
        rw [takes, if_neg (dead hi)] at hs
        rcases hs with ⟨ho, -⟩ | ⟨-, g, hr, g', hw', e⟩
        · exact absurd ho (forked_not_onlyChild hS hd.2 hSk)
        · exact ⟨_, _, e, tame_set hw (d := ⟨g', _, false⟩) ⟨rfl, forked_stored hd.2 hSk hr hw'⟩ i⟩
  | get i key =>
    simp only [Does, onD] at h
    split at h
    · exact ⟨_, _, h, hw⟩
    · split at h
      · exact ⟨_, _, h, hw⟩
      · simp only [reads] at h
        split at h
        · exact ⟨_, _, h, hw⟩
        · rw [if_neg (dead (by assumption))] at h
          split at h <;> exact ⟨_, _, h, hw⟩
  | append i key v =>
    simp only [Does, onD] at h
    cases hi : w[i]? with
    | none => rw [hi] at h; exact ⟨_, _, h, hw⟩
    | some d =>
      have hd := hw d (List.mem_of_getElem? hi)
      simp only [hi] at h
      split at h
      · exact ⟨_, _, h, hw⟩
      · rename_i k hk
        simp only [reads] at h
        split at h
        · exact ⟨_, _, h, hw⟩
        · rw [if_neg (dead hi)] at h
          split at h
          · exact ⟨_, _, h, hw⟩
          · rename_i l hl
            split at h
            · exact ⟨_, _, h, hw⟩
            · obtain ⟨g', h1, h2, h3, h4⟩ := h
              have iff : ∀ q, (g' q).isSome = true ↔ (d.map q).isSome = true := by
                intro q
                by_cases e : q = k
                · subst e; rw [h1, hl]; simp
                · rw [h2 q e]
              have hf : Forked S g' := by
                intro p hp
                rcases hd.2 p ((iff p).1 hp) with h | ⟨a, as, b, bs, hab, x1, x2, x3, x4⟩
                · exact .inl h
                · exact .inr ⟨a, as, b, bs, hab, x1, x2, (iff _).2 x3, (iff _).2 x4⟩
              by_cases hu : Unencodable v
              · exact ⟨_, _, h3 hu, tame_set hw (d := ⟨g', _, false⟩) ⟨rfl, hf⟩ i⟩
              · exact ⟨_, _, h4 hu, tame_set hw (d := ⟨g', _, false⟩) ⟨rfl, hf⟩ i⟩
  | hasKey i key =>
    simp only [Does, onD] at h
    split at h
    · exact ⟨_, _, h, hw⟩
    · split at h
      · exact ⟨_, _, h, hw⟩
      · simp only [reads] at h
        split at h
        · exact ⟨_, _, h, hw⟩
        · rw [if_neg (dead (by assumption))] at h
          exact ⟨_, _, h, hw⟩
  | len i =>
    simp only [Does, onD] at h
    split at h <;> exact ⟨_, _, h, hw⟩
  | keys i =>
    simp only [Does, onD] at h
    split at h
    · exact ⟨_, _, h, hw⟩
    · rw [if_neg (dead (by assumption))] at h
      obtain ⟨l, -, h1, h2⟩ := h
      by_cases hb : ∃ e ∈ l, utf8 e.1 = false
      · exact ⟨_, _, h2 hb, hw⟩
      · refine ⟨_, _, h1 fun e he => ?_, hw⟩
        cases hu : utf8 e.1 with
        | true => rfl
        | false => exact absurd ⟨e, he, hu⟩ hb
  | eq i j =>
    simp only [Does] at h
    split at h
    · rw [if_neg (by
        rintro (h | h)
        · exact dead (by assumption) h
        · exact dead (by assumption) h)] at h
      obtain ⟨b, h, -⟩ := h
      exact ⟨_, _, h, hw⟩
    · exact ⟨_, _, h, hw⟩
  | del => exact ht.elim
  | items => exact ht.elim
  | values => exact ht.elim
  | str => exact ht.elim
  | clear => exact ht.elim
  | copy => exact ht.elim
  | update => exact ht.elim

theorem run_tame {utf8 : Bytes → Bool} {S : Bytes → Prop} (hS : PrefixFree S) {st : St} (hg : Good st)
    (hw : TameW S (st.map absD)) {ops : List Op} (ht : ∀ op ∈ ops, Tame S op) :
    ∃ r, run utf8 st ops = .ok r := by
  induction ops generalizing st with
  | nil => exact ⟨_, rfl⟩
  | cons op ops ih =>
    obtain ⟨d, g⟩ := step_ok utf8 hg op
    obtain ⟨w', a, e, hw'⟩ := does_tame hS hw (ht op (by simp)) d
    simp only [run, bind, Except.bind]
    cases hs : step utf8 st op with
    | error f => rw [hs] at e; cases e
    | ok r =>
      obtain ⟨st1, b⟩ := r
      rw [hs] at e
      cases e
      obtain ⟨r, hr⟩ := ih (g st1 _ hs) hw' fun o ho => ht o (by simp [ho])
      simp only [hr]
      exact ⟨_, rfl⟩

/-! ## Updates -/

theorem no_splits_wrote {g g' : Bytes → Option (List (MVal CStr))} {k : Bytes} {vs : List (MVal CStr)}
    (h : Wrote g k vs g') (hn : ∀ p, ¬ Splits g k p) {q : Bytes} (hq : q ≠ k) : g' q = g q :=
  h.other q hq (hn q) fun p hp => absurd hp (hn p)

theorem writes_append {g g' : Bytes → Option (List (MVal CStr))} {ws : List (Bytes × MVal CStr)}
    (h : Writes g ws g')
    (hb : ∀ p a as b bs, p ≠ [] → a ≠ b → (g (p ++ a :: as)).isSome = true ∨ (∃ e ∈ ws, e.1 = p ++ a :: as) →
      (∃ e ∈ ws, e.1 = p ++ b :: bs) → (g p).isSome = true) (k : Bytes) :
    (g' k).getD [] = (g k).getD [] ++ (ws.filter (·.1 = k)).map (·.2) ∧
    ((g' k).isSome = true ↔ (g k).isSome = true ∨ ∃ e ∈ ws, e.1 = k) := by
  induction h with
  | nil g => simp
  | @cons g g1 g' k0 v ws h1 _ ih =>
    have hn : ∀ p, ¬ Splits g k0 p := by
      rintro p ⟨h2, h3, a, as, b, bs, hab, e, h4⟩
      have := hb p a as b bs h2 hab (.inl h4) ⟨(k0, v), by simp, e⟩
      rw [h3] at this
      cases this
    have hsome : ∀ q, (g1 q).isSome = true → (g q).isSome = true ∨ q = k0 := by
      intro q hq
      by_cases e : q = k0
      · exact .inr e
      · rw [no_splits_wrote h1 hn e] at hq; exact .inl hq
    obtain ⟨i1, i2⟩ := ih (by
      intro p a as b bs hp hab hx hy
      have := hb p a as b bs hp hab (by
        rcases hx with hx | ⟨e, he, hx⟩
        · rcases hsome _ hx with hx | hx
          · exact .inl hx
          · exact .inr ⟨(k0, v), by simp, hx.symm⟩
        · exact .inr ⟨e, by simp [he], hx⟩) (by
        obtain ⟨e, he, hy⟩ := hy
        exact ⟨e, by simp [he], hy⟩)
      exact h1.grows this)
    by_cases e : k = k0
    · subst e
      rw [i1, i2, h1.here]
      simp
    · rw [i1, i2, no_splits_wrote h1 hn e]
      have e' : ¬ k0 = k := fun x => e x.symm
      simp [e']

theorem mvalueTexts_append (a b : List (MVal CStr)) :
    mvalueTexts (a ++ b) = mvalueTexts a ++ mvalueTexts b := by
  induction a with
  | nil => simp [mvalueTexts]
  | cons x xs ih => simp [mvalueTexts, ih]

theorem shown_append (utf8 : Bytes → Bool) (a b : List (MVal CStr)) :
    PyM.shown utf8 (a ++ b) = PyM.shown utf8 a ++ PyM.shown utf8 b := by
  simp [PyM.shown, mvalueTexts_append]

theorem mvalueTexts_length (l : List (MVal CStr)) : (mvalueTexts l).length = l.length := by
  induction l with
  | nil => simp [mvalueTexts]
  | cons x xs ih => simp [mvalueTexts, ih]

theorem shown_length (utf8 : Bytes → Bool) (l : List (MVal CStr)) :
    (PyM.shown utf8 l).length = l.length := by
  simp [PyM.shown, mvalueTexts_length]

theorem mvalueTexts_one (l : List CStr) : mvalueTexts (l.map .one) = l.map fun s => textOf (some s) := by
  induction l with
  | nil => simp [mvalueTexts]
  | cons x xs ih => simp [mvalueTexts, mvalueText, ih]

theorem abs_nil {st : St} (hg : Good st) {i : Nat} {d : SD} (hi : (st.map absD)[i]? = some d) :
    d.map [] = none := by
  rw [getElem_abs] at hi
  cases hm : st[i]? with
  | none => rw [hm] at hi; cases hi
  | some m =>
    rw [hm] at hi
    cases hi
    exact MTree.get_nil (good_get hg hm)

end Comps.PyMDict
