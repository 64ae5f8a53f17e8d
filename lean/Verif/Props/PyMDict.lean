import Verif.Lemmas.PyMDictUse

/-!
# Properties of Python multi-dictionaries (C122-C129)

`libcomps.MDict`, the type of `Comps.blacklist` and `Comps.whiteout`.  A program is a list of calls on the
dictionaries it makes; `run` gives the final state and the answers, `answer` the answer of one more call.
`utf8` says which byte strings Python decodes.
-/

namespace Comps.Props.PyM
open Comps Comps.Obj Comps.Spec Comps.Spec.PyM Comps.PyMDict
open Comps.PyDict (Arg)

/-- The `str` with this text. -/
def pys (b : Bytes) : Arg := .str (some b)

/-- A list of `str`. -/
def strs (bs : List Bytes) : Val := .list (bs.map pys)

/-- What Python makes of a text that comes back. -/
def back (utf8 : Bytes → Bool) (b : Bytes) : Option Bytes := if utf8 (upTo0 b) then some (upTo0 b) else none

/-- `m.has_key(k)` answers true. -/
def Has (utf8 : Bytes → Bool) (st : St) (i : Nat) (k : Bytes) : Prop :=
  answer utf8 st (.hasKey i (pys k)) = .ok (.bool true)

/-- For the examples: ASCII decodes. -/
def ascii (b : Bytes) : Bool := b.all (· < 128)

/-- For the examples: the answers of a program. -/
def answersOf (ops : List Op) : Except Fault (List Ans) := (run ascii [] ops).map (·.2)

theorem has_iff {utf8 : Bytes → Bool} {st : St} (h : Reached utf8 st) {i : Nat} {d : SD}
    (hi : (st.map absD)[i]? = some d) (hd : d.dead = false) (k : Bytes) :
    Has utf8 st i k ↔ (d.map (upTo0 k)).isSome = true := by
  rw [Has, answer_hasKey utf8 h.inv.1 hi (k := upTo0 k) rfl]
  by_cases hk : upTo0 k = []
  · rw [if_pos hk, hk, abs_nil h.inv.1 hi]
    simp
  · rw [if_neg hk, hd]
    simp

theorem has_of {utf8 : Bytes → Bool} {st : St} (h : Reached utf8 st) {i : Nat} {d : SD}
    (hi : (st.map absD)[i]? = some d) (hd : d.dead = false) {k : Bytes} (hk : (d.map k).isSome = true) :
    Has utf8 st i k := by
  rw [has_iff h hi hd, upTo0_of_free (h.inv.2 d (List.mem_of_getElem? hi) k hk)]
  exact hk

theorem get_set_self {w : World} {i : Nat} {d d' : SD} (h : w[i]? = some d) : (w.set i d')[i]? = some d' := by
  have : i < w.length := by
    apply Classical.byContradiction
    intro hn
    rw [List.getElem?_eq_none (by omega)] at h
    cases h
  simp [this]

theorem step_abs {utf8 : Bytes → Bool} {st st' : St} {op : Op} {a : Ans} (hg : Good st)
    (h : step utf8 st op = .ok (st', a)) :
    Does utf8 (st.map absD) (.ok (st'.map absD, a)) op ∧ Good st' := by
  obtain ⟨d, g⟩ := step_ok utf8 hg op
  rw [h] at d
  exact ⟨d, g _ _ h⟩

theorem look_live (utf8 : Bytes → Bool) {g : Bytes → Option (List (MVal CStr))} {n : UInt32} {k : Bytes}
    (hk : k ≠ []) : lookAns utf8 ⟨g, n, false⟩ k = match g k with
      | none => .ok (.exc (.py .keyError))
      | some l => .ok (.seq (PyM.shown utf8 l)) := by
  rw [lookAns, if_neg hk]
  rfl

/-- A key that is present leaves no other outside a key. -/
theorem splits_none {st : St} (hg : Good st) {i : Nat} {d : SD} (hi : (st.map absD)[i]? = some d)
    {k p : Bytes} (h : Splits d.map k p) : d.map k = none := by
  rw [getElem_abs] at hi
  cases hm : st[i]? with
  | none => rw [hm] at hi; cases hi
  | some m =>
    rw [hm] at hi
    cases hi
    have hk : k ≠ [] := by
      obtain ⟨-, -, a, as, b, bs, -, rfl, -⟩ := h
      simp
    exact (MTree.setVal_wrote (good_get hg hm) k hk (.nested [])).fresh p h

/-- What an assignment of strings does. -/
theorem strs_stored {utf8 : Bytes → Bool} {st st' : St} (hg : Good st) {i : Nat} {key : Arg}
    {k : Bytes} (hk : keyOf key = .ok k) (hk0 : k ≠ []) {bs : List Bytes}
    (hs : step utf8 st (.set i key (strs bs)) = .ok (st', .done)) :
    Good st' ∧ ∃ d g g', (st.map absD)[i]? = some d ∧ d.dead = false ∧ Removed d.map k g ∧
      Wrote g k (bs.map fun b => .one ⟨some (upTo0 b)⟩) g' ∧
      (st'.map absD)[i]? = some ⟨g', d.len - UInt32.ofNat ((d.map k).getD []).length +
        UInt32.ofNat (if bs = [] then 1 else bs.length), false⟩ := by
  obtain ⟨d, g⟩ := step_abs hg hs
  refine ⟨g, ?_⟩
  simp only [strs, Does, onD] at d
  cases hi : (st.map absD)[i]? with
  | none => rw [hi] at d; simp at d
  | some e =>
    simp only [hi, hk] at d
    have hv : (bs.map pys).map elemOf = (bs.map fun b => CStr.mk (some (upTo0 b))).map some := by
      simp [List.map_map, pys, elemOf, Function.comp_def]
    have hu : ∀ a ∈ bs.map pys, ¬ Unencodable a := by
      intro a ha
      obtain ⟨b, -, rfl⟩ := List.mem_map.1 ha
      simp [Unencodable, pys]
    obtain ⟨-, ⟨e0, -⟩ | ⟨-, hd, -, g1, g', hr, hw, e1⟩⟩ := stores_ok ((d.2 _ hv).2 hu)
    · exact absurd e0 hk0
    · refine ⟨e, g1, g', rfl, hd, hr, by simpa [Function.comp_def] using hw, ?_⟩
      rw [e1, get_set_self hi]
      simp

/-! ## C122: what is assigned is read back -/

/-- `m[k] = [...]` followed by `m[k]` gives the strings assigned.  Missing: the empty key, and
`m[k] = m[k]` (C122_false). -/
theorem C122_partial {utf8 : Bytes → Bool} {st st' : St} (h : Reached utf8 st) (i : Nat) (key : Arg)
    {k : Bytes} (hk : keyOf key = .ok k) (hk0 : k ≠ []) (bs : List Bytes)
    (hs : step utf8 st (.set i key (strs bs)) = .ok (st', .done)) :
    answer utf8 st' (.get i key) = .ok (.seq (bs.map (back utf8))) := by
  obtain ⟨g, d, g1, g', -, -, hr, hw, e⟩ := strs_stored h.inv.1 hk hk0 hs
  rw [answer_get utf8 g e hk, look_live utf8 hk0, hw.here, removed_nil hr,
    show (bs.map fun b => MVal.one (CStr.mk (some (upTo0 b)))) =
      (bs.map fun b => CStr.mk (some (upTo0 b))).map .one from by simp [Function.comp_def]]
  simp only [PyM.shown, List.nil_append, mvalueTexts_one]
  simp [List.map_map, textOf, back, Function.comp_def]

/-- `m[k] = n[l]` followed by `m[k]` gives what `n[l]` gave, unless it is the same dictionary and key. -/
theorem C122_item_partial {utf8 : Bytes → Bool} {st st' : St} (h : Reached utf8 st) (i j : Nat)
    (key src : Arg) {k l : Bytes} (hk : keyOf key = .ok k) (hl : keyOf src = .ok l) (hk0 : k ≠ [])
    (hne : ¬ (i = j ∧ k = l))
    (hs : step utf8 st (.set i key (.item j src)) = .ok (st', .done)) :
    answer utf8 st' (.get i key) = answer utf8 st (.get j src) ∧
    ∃ vs, answer utf8 st (.get j src) = .ok (.seq vs) := by
  obtain ⟨d, g⟩ := step_abs h.inv.1 hs
  simp only [Does, onD] at d
  cases hi : (st.map absD)[i]? with
  | none => rw [hi] at d; simp at d
  | some e =>
    cases hj : (st.map absD)[j]? with
    | none => simp [hi, hj] at d
    | some n =>
      simp only [hi, hj, hk, hl, reads] at d
      rw [answer_get utf8 h.inv.1 hj hl, lookAns]
      split at d
      · simp at d
      · rename_i hl0
        split at d
        · simp at d
        · rename_i hd
          split at d
          · simp at d
          · rename_i vs hvs
            obtain ⟨-, ⟨e0, -⟩ | ⟨-, -, -, g1, g', hr, hw, e1⟩⟩ :=
              stores_ok (d.2 fun h => hne ⟨h.1, h.2.1⟩)
            · exact absurd e0 hk0
            · rw [answer_get utf8 g (by rw [e1]; exact get_set_self hi) hk, look_live utf8 hk0, hw.here,
                removed_nil hr, if_neg hl0, if_neg hd, hvs]
              exact ⟨rfl, _, rfl⟩

/-- Nothing is stored under the empty key, and `m[k] = m[k]` empties the list when a longer key is
present. -/
theorem C122_false :
    (¬ ∀ (st st' : St) (i : Nat) (k : Bytes) (bs : List Bytes), Reached ascii st →
      step ascii st (.set i (pys k) (strs bs)) = .ok (st', .done) →
      answer ascii st' (.get i (pys k)) = .ok (.seq (bs.map (back ascii)))) ∧
    (¬ ∀ (st st' : St) (i : Nat) (k : Bytes) (vs), Reached ascii st →
      answer ascii st (.get i (pys k)) = .ok (.seq vs) →
      step ascii st (.set i (pys k) (.item i (pys k))) = .ok (st', .done) →
      answer ascii st' (.get i (pys k)) = .ok (.seq vs)) := by
  constructor
  · intro h
    have := h [MD.new] _ 0 [] [b!"1"] ⟨[.new], _, rfl⟩ rfl
    cases this
  · intro h
    have := h _ _ 0 b!"a" [some b!"1"] ⟨[.new, .set 0 (pys b!"a") (strs [b!"1"]),
      .set 0 (pys b!"ab") (strs [b!"2"])], _, rfl⟩ rfl rfl
    cases this

/-- The hypotheses of C122_partial hold after writes of other keys. -/
example : ∃ st st', Reached ascii st ∧ step ascii st (.set 0 (pys b!"ab") (strs [b!"3", b!"4"])) = .ok (st', .done) ∧
    answer ascii st' (.get 0 (pys b!"ab")) = .ok (.seq [some b!"3", some b!"4"]) :=
  ⟨_, _, ⟨[.new, .set 0 (pys b!"a") (strs [b!"1"])], _, rfl⟩, rfl, rfl⟩

/-- Those of C122_item_partial. -/
example : ∃ st st', Reached ascii st ∧ step ascii st (.set 0 (pys b!"b") (.item 0 (pys b!"a"))) = .ok (st', .done) ∧
    answer ascii st' (.get 0 (pys b!"b")) = .ok (.seq [some b!"1"]) :=
  ⟨_, _, ⟨[.new, .set 0 (pys b!"a") (strs [b!"1"])], _, rfl⟩, rfl, rfl⟩

/-! ## C123: an assignment leaves other keys alone -/

/-- If `m[k]` is assigned, and wherever `k` leaves a key that is present the common part is itself a key,
then every other key, and every key of another dictionary, reads the same as before.  Missing: keys that
leave another one elsewhere (C123_false, C123_wraps_partial). -/
theorem C123_partial {utf8 : Bytes → Bool} {st st' : St} (h : Reached utf8 st) (i : Nat) (key : Arg)
    (v : Val) (a : Ans) (hs : step utf8 st (.set i key v) = .ok (st', a))
    (hb : ∀ k p b bs c cs, keyOf key = .ok k → k = p ++ b :: bs → p ≠ [] → c ≠ b →
      Has utf8 st i (p ++ c :: cs) → Has utf8 st i p)
    (j : Nat) (key' : Arg) {k' : Bytes} (hk' : keyOf key' = .ok k') (hne : j ≠ i ∨ keyOf key ≠ .ok k') :
    answer utf8 st' (.get j key') = answer utf8 st (.get j key') := by
  obtain ⟨d, g⟩ := step_abs h.inv.1 hs
  have main : (st'.map absD)[j]? = (st.map absD)[j]? ∨ ∃ d d', (st.map absD)[j]? = some d ∧
      (st'.map absD)[j]? = some d' ∧ d.dead = false ∧ d'.dead = false ∧ d'.map k' = d.map k' := by
    rcases set_effect d with e | ⟨e, k, vs, g1, g', hi, hk, hk0, hd, hr, hw, hw'⟩
    · exact .inl (by rw [e])
    · by_cases hij : j = i
      · subst hij
        have hkk : k' ≠ k := by
          rcases hne with hne | hne
          · exact absurd rfl hne
          · rintro rfl; exact hne hk
        refine .inr ⟨e, _, hi, by rw [hw']; exact get_set_self hi, hd, rfl, ?_⟩
        have hns : ∀ p, ¬ Splits g1 k p := by
          intro p hp
          have hp := splits_removed hr.other hp
          obtain ⟨h1, h2, c, cs, b, bs, hab, e', h3⟩ := hp
          have hx := hb k p b bs c cs hk e' h1 hab (has_of h hi hd h3)
          have hpf : (0 : UInt8) ∉ p := fun h0 => h.inv.2 e (List.mem_of_getElem? hi) _ h3 (by simp [h0])
          rw [has_iff h hi hd, upTo0_of_free hpf, h2] at hx
          cases hx
        rw [show (_ : SD).map k' = g' k' from rfl, no_splits_wrote hw hns hkk, hr.other k' hkk]
      · rw [hw']
        exact .inl (List.getElem?_set_ne fun x => hij x.symm)
  rcases main with e | ⟨d, d', h1, h2, h3, h4, h5⟩
  · cases hj : (st.map absD)[j]? with
    | some d =>
      rw [answer_get utf8 g (by rw [e]; exact hj) hk', answer_get utf8 h.inv.1 hj hk']
    | none =>
      have no : ∀ s : St, (s.map absD)[j]? = none → answer utf8 s (.get j key') = .ok (.exc .nameError) := by
        intro s hj
        rw [getElem_abs] at hj
        cases hm : s[j]? with
        | none => simp [answer, step, hm, Except.map]
        | some m => rw [hm] at hj; cases hj
      rw [no _ hj, no _ (by rw [e]; exact hj)]
  · rw [answer_get utf8 g h2 hk', answer_get utf8 h.inv.1 h1 hk', lookAns, lookAns, h3, h4, h5]

/-- If `k` leaves a key that is present at a place `p` that is not a key, `p` becomes a key with an empty
list, and the first key from there on reads as one string, the text of the list it held. -/
theorem C123_wraps_partial {utf8 : Bytes → Bool} {st st' : St} (h : Reached utf8 st) (i : Nat) (key : Arg)
    {k p : Bytes} (hk : keyOf key = .ok k) (bs : List Bytes)
    (hs : step utf8 st (.set i key (strs bs)) = .ok (st', .done))
    {b c : UInt8} {cs ds : Bytes} (e : k = p ++ b :: cs) (hp0 : p ≠ []) (hcb : c ≠ b)
    (hc : Has utf8 st i (p ++ c :: ds)) (hp : ¬ Has utf8 st i p) :
    answer utf8 st' (.get i (pys p)) = .ok (.seq []) ∧
    ∀ q ts, p <+: q → (∀ q', p <+: q' → q' <+: q → Has utf8 st i q' → q' = q) →
      answer utf8 st (.get i (pys q)) = .ok (.seq (ts.map some)) → (0 : UInt8) ∉ q →
      answer utf8 st' (.get i (pys q)) = .ok (.seq [if utf8 (listText ts) then some (listText ts) else none]) := by
  have hkf := keyOf_free hk
  have hpf : (0 : UInt8) ∉ p := fun h0 => hkf (by rw [e]; simp [h0])
  have hk0 : k ≠ [] := by rw [e]; simp
  obtain ⟨g, x, g1, g', hi, hd, hr, hw, e1⟩ := strs_stored h.inv.1 hk hk0 hs
  have hpk : p ≠ k := by rw [e]; intro h; simpa using congrArg List.length h
  rw [has_iff h hi hd, upTo0_of_free hpf] at hp
  have hpn : x.map p = none := by simpa using hp
  have hsp : Splits g1 k p := by
    rw [has_iff h hi hd] at hc
    have h2 : ∃ ds', upTo0 (p ++ c :: ds) = p ++ c :: ds' := by
      have h3 : ∀ p : Bytes, (0 : UInt8) ∉ p → ∀ s, upTo0 (p ++ s) = p ++ upTo0 s := by
        intro p
        induction p with
        | nil => intro _ s; rfl
        | cons y ys ih =>
          intro hn s
          simp only [List.mem_cons, not_or] at hn
          simp only [List.cons_append, upTo0]
          rw [if_neg (fun e => hn.1 e.symm), ih hn.2]
      rw [h3 p hpf]
      by_cases hc0 : c = 0
      · subst hc0
        rw [h3 p hpf] at hc
        simp only [upTo0, if_true, List.append_nil, hpn] at hc
        cases hc
      · exact ⟨upTo0 ds, by simp [upTo0, hc0]⟩
    obtain ⟨ds', h2⟩ := h2
    rw [h2] at hc
    have hck : p ++ c :: ds' ≠ k := by
      rw [e]
      intro h
      exact hcb (List.cons.inj (List.append_cancel_left h)).1
    exact ⟨hp0, by rw [hr.other p hpk]; exact hpn, c, ds', b, cs, hcb, e, by
      rw [hr.other _ hck]; exact hc⟩
  have hget : ∀ q, (0 : UInt8) ∉ q → q ≠ [] →
      answer utf8 st' (.get i (pys q)) = match g' q with
        | none => .ok (.exc (.py .keyError))
        | some l => .ok (.seq (PyM.shown utf8 l)) := by
    intro q hq hq0
    rw [answer_get utf8 g e1 (k := q) (by simp [pys, keyOf, upTo0_of_free hq]), look_live utf8 hq0]
  refine ⟨?_, ?_⟩
  · rw [hget p hpf hp0, hw.split p hsp]
    simp [PyM.shown, mvalueTexts]
  · intro q ts hpq hfirst hold hqf
    have hq0 : q ≠ [] := by
      rintro rfl
      exact hp0 (List.prefix_nil.1 hpq)
    have hkq : keyOf (pys q) = .ok q := by simp [pys, keyOf, upTo0_of_free hqf]
    rw [answer_get utf8 h.inv.1 hi hkq, lookAns, if_neg hq0, hd] at hold
    cases hmq : x.map q with
    | none => rw [hmq] at hold; cases hold
    | some l =>
      simp only [hmq, Bool.false_eq_true, if_false, Except.ok.injEq, Ans.seq.injEq] at hold
      have hqk : q ≠ k := by
        rintro rfl
        have := splits_none h.inv.1 hi (splits_removed hr.other hsp)
        rw [hmq] at this
        cases this
      have hf : First g1 p q := by
        refine ⟨hpq, by rw [hr.other q hqk, hmq]; rfl, ?_⟩
        intro q' h1 h2 h3
        exact hfirst q' h1 h2 (has_of h hi hd (removed_support hr h3))
      rw [hget q hqf hq0, hw.moved p q hsp hf, hr.other q hqk, hmq]
      have ht : mvalueTexts l = ts := by
        have : ∀ (xs ts : List Bytes), (xs.map fun b => if utf8 b then some b else none) = ts.map some →
            xs = ts := by
          intro xs
          induction xs with
          | nil => intro ts h; cases ts <;> simp_all
          | cons y ys ih =>
            intro ts h
            cases ts with
            | nil => simp at h
            | cons t ts =>
              simp only [List.map_cons, List.cons.injEq] at h
              rw [ih ts h.2]
              have := h.1
              split at this
              · simp_all
              · cases this
        exact this _ _ hold
      simp [PyM.shown, mvalueTexts, mvalueText, ht]

/-- A key that shares a first letter with another and is not separated by a key changes what that key
reads, and makes a key that nobody assigned. -/
theorem C123_false : ¬ ∀ (st st' : St) (i : Nat) (k : Bytes) (bs : List Bytes) (a : Ans), Reached ascii st →
    step ascii st (.set i (pys k) (strs bs)) = .ok (st', a) →
    ∀ k', k' ≠ k → answer ascii st' (.get i (pys k')) = answer ascii st (.get i (pys k')) := by
  intro h
  have := h _ _ 0 b!"ac" [b!"2"] .done
    ⟨[.new, .set 0 (pys b!"ab") (strs [b!"1"])], _, rfl⟩ rfl b!"ab" (by decide)
  cases this

/-- The hypotheses of C123_partial: "a" is present when "ac" leaves "ab". -/
example : ∃ st st', Reached ascii st ∧ step ascii st (.set 0 (pys b!"ac") (strs [b!"3"])) = .ok (st', .done) ∧
    Has ascii st 0 b!"ab" ∧ Has ascii st 0 b!"a" ∧
    answer ascii st' (.get 0 (pys b!"ab")) = .ok (.seq [some b!"2"]) :=
  ⟨_, _, ⟨[.new, .set 0 (pys b!"a") (strs [b!"1"]), .set 0 (pys b!"ab") (strs [b!"2"])], _, rfl⟩,
    rfl, rfl, rfl, rfl⟩

/-- Those of C123_wraps_partial: "ac" leaves "ab" after "a", which is not a key. -/
example : ∃ st st', Reached ascii st ∧ step ascii st (.set 0 (pys b!"ac") (strs [b!"3"])) = .ok (st', .done) ∧
    Has ascii st 0 b!"ab" ∧ ¬ Has ascii st 0 b!"a" ∧
    answer ascii st' (.get 0 (pys b!"a")) = .ok (.seq []) ∧
    answer ascii st' (.get 0 (pys b!"ab")) = .ok (.seq [some b!"[1, 2]"]) :=
  ⟨_, _, ⟨[.new, .set 0 (pys b!"ab") (strs [b!"1", b!"2"])], _, rfl⟩, rfl, rfl, (fun h => by cases h), rfl, rfl⟩

/-! ## C124: programs do not crash -/

/-- Every program does, call by call, what the specification `Does` says: the answers, the contents and
counters afterwards, and the crashes. -/
theorem C124_exact (utf8 : Bytes → Bool) (ops : List Op) :
    Runs utf8 [] ops (absR (run utf8 [] ops)) :=
  (run_ok utf8 (st := []) (fun m hm => by simp at hm) ops).1

/-- Programs that assign only keys none of which extends another, and otherwise read lists, append to
them, ask for keys and lengths, list keys and compare, do not crash.  Missing: removal, keys that extend
others, `items`, `str`, `values`, `clear`, `copy`, `update` (C124_false; exactly: C124_exact). -/
theorem C124_partial (utf8 : Bytes → Bool) {S : Bytes → Prop} (hS : PrefixFree S) (ops : List Op)
    (ht : ∀ op ∈ ops, Tame S op) : ∃ r, run utf8 [] ops = .ok r :=
  run_tame hS (st := []) (fun m hm => by simp at hm) (fun d hd => by simp at hd) ht

/-- Each of these programs crashes. -/
theorem C124_false :
    -- removal, and assignment, of the only key that extends another
    answersOf [.new, .set 0 (pys b!"a") (strs [b!"1"]), .set 0 (pys b!"ab") (strs [b!"2"]),
      .del 0 (pys b!"ab")] = .error .useAfterFree ∧
    answersOf [.new, .set 0 (pys b!"a") (strs [b!"1"]), .set 0 (pys b!"ab") (strs [b!"2"]),
      .set 0 (pys b!"ab") (strs [b!"3"])] = .error .useAfterFree ∧
    -- the text of an empty dictionary
    answersOf [.new, .str 0] = .error .nullDeref ∧
    -- a read, and another `clear`, of a cleared one
    answersOf [.new, .set 0 (pys b!"a") (strs [b!"1"]), .clear 0, .get 0 (pys b!"a")] =
      .error .useAfterFree ∧
    answersOf [.new, .set 0 (pys b!"a") (strs [b!"1"]), .clear 0, .clear 0] = .error .useAfterFree ∧
    -- values, copies
    answersOf [.new, .set 0 (pys b!"a") (strs [b!"1"]), .values 0] = .error .typeConfusion ∧
    answersOf [.new, .set 0 (pys b!"a") (strs [b!"1"]), .copy 0] = .error .typeConfusion ∧
    -- an update with itself never ends
    answersOf [.new, .set 0 (pys b!"a") (strs [b!"1"]), .update 0 0] = .error .diverges ∧
    -- the pairs, when two keys part inside a character
    (run (fun b => b = [0xc3, 0xa9] || b = [0xc3, 0xa8] || b.all (· < 128)) []
      [.new, .set 0 (pys [0xc3, 0xa9]) (strs [b!"1"]), .set 0 (pys [0xc3, 0xa8]) (strs [b!"2"]), .items 0]).map
      (·.2) = .error .nullDeref :=
  ⟨rfl, rfl, rfl, rfl, rfl, rfl, rfl, rfl, rfl⟩

/-- A program as in C124_partial, with keys that share a beginning. -/
example : ∃ S, PrefixFree S ∧ (∀ op ∈ [Op.new, .set 0 (pys b!"ab") (strs [b!"1"]), .set 0 (pys b!"ac") (strs []),
    .set 0 (pys b!"ab") (.item 0 (pys b!"ab")), .append 0 (pys b!"a") (pys b!"x"), .keys 0], Tame S op) ∧
    answersOf [Op.new, .set 0 (pys b!"ab") (strs [b!"1"]), .set 0 (pys b!"ac") (strs []),
    .set 0 (pys b!"ab") (.item 0 (pys b!"ab")), .append 0 (pys b!"a") (pys b!"x"), .keys 0] =
      .ok [.done, .done, .done, .done, .done, .keys [b!"a", b!"ac", b!"ab"]] := by
  refine ⟨fun k => k = b!"ab" ∨ k = b!"ac", ?_, ?_, rfl⟩
  · rintro p q (rfl | rfl) (rfl | rfl) h
    · rfl
    · exact absurd h (by decide)
    · exact absurd h (by decide)
    · rfl
  · intro op hop
    simp only [List.mem_cons, List.not_mem_nil, or_false] at hop
    rcases hop with rfl | rfl | rfl | rfl | rfl | rfl <;> simp [Tame, pys, keyOf, upTo0]

/-! ## C125: the length -/

/-- An assignment of strings takes the number of elements that were there from the length and adds the
number assigned, or one for an empty list, modulo 2^32. -/
theorem C125_partial {utf8 : Bytes → Bool} {st st' : St} (h : Reached utf8 st) (i : Nat) (key : Arg)
    {k : Bytes} (hk : keyOf key = .ok k) (hk0 : k ≠ []) (bs : List Bytes)
    (hs : step utf8 st (.set i key (strs bs)) = .ok (st', .done)) :
    ∃ n old : Nat, answer utf8 st (.len i) = .ok (.num n) ∧
      (answer utf8 st (.get i key) = .ok (.exc (.py .keyError)) ∧ old = 0 ∨
        ∃ l, answer utf8 st (.get i key) = .ok (.seq l) ∧ old = l.length) ∧
      answer utf8 st' (.len i) =
        .ok (.num (UInt32.ofNat n - UInt32.ofNat old + UInt32.ofNat (if bs = [] then 1 else bs.length)).toNat) := by
  obtain ⟨g, d, g1, g', hi, hd, -, -, e⟩ := strs_stored h.inv.1 hk hk0 hs
  refine ⟨d.len.toNat, ((d.map k).getD []).length, answer_len utf8 h.inv.1 hi, ?_, ?_⟩
  · rw [answer_get utf8 h.inv.1 hi hk, lookAns, if_neg hk0, hd]
    cases hm : d.map k with
    | none => exact .inl ⟨rfl, rfl⟩
    | some l => exact .inr ⟨PyM.shown utf8 l, rfl, by rw [shown_length]; rfl⟩
  · rw [answer_len utf8 g e]
    simp

/-- A removal takes the number of elements that are there from the length. -/
theorem C125_del_partial {utf8 : Bytes → Bool} {st st' : St} (h : Reached utf8 st) (i : Nat) (key : Arg)
    {k : Bytes} (hk : keyOf key = .ok k) (hk0 : k ≠ [])
    (hs : step utf8 st (.del i key) = .ok (st', .done)) :
    ∃ n old : Nat, answer utf8 st (.len i) = .ok (.num n) ∧
      (answer utf8 st (.get i key) = .ok (.exc (.py .keyError)) ∧ old = 0 ∨
        ∃ l, answer utf8 st (.get i key) = .ok (.seq l) ∧ old = l.length) ∧
      answer utf8 st' (.len i) = .ok (.num (UInt32.ofNat n - UInt32.ofNat old).toNat) := by
  obtain ⟨d, g⟩ := step_abs h.inv.1 hs
  simp only [Does, onD] at d
  cases hi : (st.map absD)[i]? with
  | none => rw [hi] at d; simp at d
  | some x =>
    simp only [hi, hk, if_neg hk0, takes] at d
    split at d
    · cases d
    · rename_i hd
      rcases d with ⟨-, d⟩ | ⟨-, g1, hr, d⟩
      · cases d
      · have e : (st'.map absD)[i]? = some ⟨g1, x.len - UInt32.ofNat ((x.map k).getD []).length, false⟩ := by
          rw [(Prod.mk.inj (Except.ok.inj d)).1]
          exact get_set_self hi
        refine ⟨x.len.toNat, ((x.map k).getD []).length, answer_len utf8 h.inv.1 hi, ?_, ?_⟩
        · rw [answer_get utf8 h.inv.1 hi hk, lookAns, if_neg hk0, if_neg hd]
          cases hm : x.map k with
          | none => exact .inl ⟨rfl, rfl⟩
          | some l => exact .inr ⟨PyM.shown utf8 l, rfl, by rw [shown_length]; rfl⟩
        · rw [answer_len utf8 g e]
          simp

/-- The length is not the number of keys: it counts elements, an empty list counts for ever, and an
element that was appended makes it wrap around on removal. -/
theorem C125_false :
    answersOf [.new, .set 0 (pys b!"a") (strs [b!"1", b!"2"]), .keys 0, .len 0] =
      .ok [.done, .done, .keys [b!"a"], .num 2] ∧
    answersOf [.new, .set 0 (pys b!"a") (strs []), .del 0 (pys b!"a"), .keys 0, .len 0] =
      .ok [.done, .done, .done, .keys [], .num 1] ∧
    answersOf [.new, .set 0 (pys b!"a") (strs [b!"1"]), .append 0 (pys b!"a") (pys b!"2"),
      .del 0 (pys b!"a"), .keys 0, .len 0] =
      .ok [.done, .done, .done, .done, .keys [], .num 4294967295] :=
  ⟨rfl, rfl, rfl⟩

/-- The hypotheses of C125_partial and C125_del_partial: one element replaced by two, then removed. -/
example : ∃ st st' st'', Reached ascii st ∧ step ascii st (.set 0 (pys b!"a") (strs [b!"1", b!"2"])) = .ok (st', .done) ∧
    answer ascii st (.len 0) = .ok (.num 1) ∧ answer ascii st' (.len 0) = .ok (.num 2) ∧
    step ascii st' (.del 0 (pys b!"a")) = .ok (st'', .done) ∧ answer ascii st'' (.len 0) = .ok (.num 0) :=
  ⟨_, _, _, ⟨[.new, .set 0 (pys b!"a") (strs [b!"1"])], _, rfl⟩, rfl, rfl, rfl, rfl, rfl⟩

/-! ## C126: update -/

/-- `m.update(n)` adds the lists of `n` to those of `m`, if wherever two keys of `m` and `n` part the common
part is a key of `m`; `n` is left as it was. -/
theorem C126_partial {utf8 : Bytes → Bool} {st st' : St} (h : Reached utf8 st) (i j : Nat) (hij : i ≠ j)
    (hs : step utf8 st (.update i j) = .ok (st', .done))
    (hb : ∀ p a as b bs, p ≠ [] → a ≠ b → Has utf8 st i (p ++ a :: as) ∨ Has utf8 st j (p ++ a :: as) →
      Has utf8 st j (p ++ b :: bs) → Has utf8 st i p) (key : Arg) {k : Bytes} (hk : keyOf key = .ok k) :
    answer utf8 st' (.get j key) = answer utf8 st (.get j key) ∧
    (∀ l1 l2, answer utf8 st (.get i key) = .ok (.seq l1) → answer utf8 st (.get j key) = .ok (.seq l2) →
      answer utf8 st' (.get i key) = .ok (.seq (l1 ++ l2))) ∧
    (∀ l2, answer utf8 st (.get i key) = .ok (.exc (.py .keyError)) →
      answer utf8 st (.get j key) = .ok (.seq l2) → l2 ≠ [] → answer utf8 st' (.get i key) = .ok (.seq l2)) ∧
    (answer utf8 st (.get j key) = .ok (.exc (.py .keyError)) →
      answer utf8 st' (.get i key) = answer utf8 st (.get i key)) := by
  obtain ⟨d, g⟩ := step_abs h.inv.1 hs
  simp only [Does] at d
  cases hi : (st.map absD)[i]? with
  | none => simp [hi] at d
  | some m =>
    cases hj : (st.map absD)[j]? with
    | none => simp [hi, hj] at d
    | some n =>
      simp only [hi, hj] at d
      split at d
      · cases d
      · rename_i hnd
        have hnd' : n.dead = false := by simpa using hnd
        obtain ⟨d1, -, d3⟩ := d
        rw [answer_get utf8 h.inv.1 hi hk, answer_get utf8 h.inv.1 hj hk]
        by_cases he : HasElem n.map
        · have d4 := d3 he hij
          split at d4
          · cases d4
          · rename_i hmd
            have hmd' : m.dead = false := by simpa using hmd
            obtain ⟨l, g', hl, -, hw, e⟩ := d4
            have e := (Prod.mk.inj (Except.ok.inj e)).1
            rw [answer_get utf8 g (by rw [e]; exact (List.getElem?_set_ne hij).trans hj) hk,
              answer_get utf8 g (by rw [e]; exact get_set_self hi) hk]
            have hmem : ∀ q, (∃ e ∈ elements l, e.1 = q) → (n.map q).isSome = true := by
              rintro q ⟨e, he, rfl⟩
              simp only [elements, List.mem_flatMap, List.mem_map] at he
              obtain ⟨x, hx, v, -, rfl⟩ := he
              rw [(hl.2 _ _).1 hx]
              rfl
            obtain ⟨w1, w2⟩ := writes_append hw (by
              intro p a as b bs hp hab hx hy
              have hz := hb p a as b bs hp hab (by
                rcases hx with hx | hx
                · exact .inl (has_of h hi hmd' hx)
                · exact .inr (has_of h hj hnd' (hmem _ hx))) (has_of h hj hnd' (hmem _ hy))
              have hpf : (0 : UInt8) ∉ p := fun h0 =>
                h.inv.2 n (List.mem_of_getElem? hj) _ (hmem _ hy) (by simp [h0])
              rw [has_iff h hi hmd', upTo0_of_free hpf] at hz
              exact hz) k
            by_cases hk0 : k = []
            · simp [lookAns, hk0]
            · rw [look_live utf8 hk0]
              simp only [lookAns, if_neg hk0, hmd', hnd', Bool.false_eq_true, if_false]
              cases hmk : m.map k with
              | none =>
                cases hnk : n.map k with
                | none =>
                  have : g' k = none := by
                    cases hg : g' k with
                    | none => rfl
                    | some x =>
                      rcases w2.1 (by rw [hg]; rfl) with h | h
                      · rw [hmk] at h; cases h
                      · have := hmem k h; rw [hnk] at this; cases this
                  simp [this]
                | some l2 =>
                  have hf : ((elements l).filter (·.1 = k)).map (·.2) = l2 :=
                    MTree.writesOf_filter hl.1 k l2 ((hl.2 _ _).2 hnk)
                  rw [hmk, hf] at w1
                  refine ⟨trivial, by simp, ?_, by simp⟩
                  rintro l2' - h2 hne
                  simp only [Except.ok.injEq, Ans.seq.injEq] at h2
                  subst h2
                  cases hg : g' k with
                  | none =>
                    rw [hg] at w1
                    simp only [Option.getD_none, List.nil_append] at w1
                    subst w1
                    exact absurd rfl hne
                  | some x =>
                    rw [hg] at w1
                    simp only [Option.getD_some, Option.getD_none, List.nil_append] at w1
                    simp [w1]
              | some l1 =>
                have hs : (g' k).isSome = true := w2.2 (.inl (by rw [hmk]; rfl))
                obtain ⟨x, hx⟩ := Option.isSome_iff_exists.1 hs
                rw [hx, hmk] at w1
                simp only [Option.getD_some] at w1
                cases hnk : n.map k with
                | none =>
                  have hf : ((elements l).filter (·.1 = k)).map (·.2) = [] :=
                    MTree.writesOf_filter_none k fun e he e' => by
                      have := (hl.2 e.1 e.2).1 he
                      rw [e', hnk] at this
                      cases this
                  rw [hf, List.append_nil] at w1
                  simp [hx, w1]
                | some l2 =>
                  have hf : ((elements l).filter (·.1 = k)).map (·.2) = l2 :=
                    MTree.writesOf_filter hl.1 k l2 ((hl.2 _ _).2 hnk)
                  rw [hf] at w1
                  refine ⟨trivial, ?_, by simp, by simp⟩
                  rintro a1 a2 h1 h2
                  simp only [Except.ok.injEq, Ans.seq.injEq] at h1 h2
                  rw [hx, ← h1, ← h2, ← shown_append, w1]
        · have e := (Prod.mk.inj (Except.ok.inj (d1 he))).1
          rw [answer_get utf8 g (by rw [e]; exact hj) hk, answer_get utf8 g (by rw [e]; exact hi) hk]
          have hn0 : ∀ l2, n.map k = some l2 → l2 = [] := by
            intro l2 h2
            cases l2 with
            | nil => rfl
            | cons v vs => exact absurd ⟨k, v, vs, h2⟩ he
          have hl2 : ∀ l2, lookAns utf8 n k = .ok (.seq l2) → l2 = [] := by
            intro l2 h2
            simp only [lookAns, hnd', Bool.false_eq_true, if_false] at h2
            split at h2
            · simp at h2
            · cases hnk : n.map k with
              | none => simp [hnk] at h2
              | some x =>
                rw [hn0 x hnk] at hnk
                simp only [hnk, Except.ok.injEq, Ans.seq.injEq] at h2
                rw [← h2]
                simp [PyM.shown, mvalueTexts]
          refine ⟨rfl, ?_, ?_, fun _ => rfl⟩
          · intro l1 l2 h1 h2
            rw [hl2 l2 h2, h1, List.append_nil]
          · intro l2 _ h2 hne
            exact absurd (hl2 l2 h2) hne

/-- `update` is documented to overwrite existing pairs; it adds to them.  And an empty dictionary updated with
another does not always read like it. -/
theorem C126_false :
    answersOf [.new, .new, .set 0 (pys b!"a") (strs [b!"1"]), .set 1 (pys b!"a") (strs [b!"2"]), .update 0 1,
      .get 0 (pys b!"a")] = .ok [.done, .done, .done, .done, .done, .seq [some b!"1", some b!"2"]] ∧
    answersOf [.new, .new, .set 1 (pys b!"ab") (strs [b!"1"]), .set 1 (pys b!"ac") (strs [b!"2"]), .update 0 1,
      .get 1 (pys b!"ab"), .get 0 (pys b!"ab")] =
      .ok [.done, .done, .done, .done, .done, .seq [some b!"[1]"], .seq [some b!"[[1]]"]] :=
  ⟨rfl, rfl⟩

/-- The hypotheses of C126_partial: the keys of the second dictionary begin with different letters. -/
example : ∃ st st', Reached ascii st ∧ step ascii st (.update 0 1) = .ok (st', .done) ∧
    answer ascii st (.get 0 (pys b!"a")) = .ok (.seq [some b!"1"]) ∧
    answer ascii st (.get 1 (pys b!"a")) = .ok (.seq [some b!"2"]) ∧
    answer ascii st' (.get 0 (pys b!"a")) = .ok (.seq [some b!"1", some b!"2"]) ∧
    answer ascii st' (.get 0 (pys b!"b")) = .ok (.seq [some b!"3"]) :=
  ⟨_, _, ⟨[.new, .new, .set 0 (pys b!"a") (strs [b!"1"]), .set 1 (pys b!"a") (strs [b!"2"]),
    .set 1 (pys b!"b") (strs [b!"3"])], _, rfl⟩, rfl, rfl, rfl, rfl, rfl⟩

/-! ## C127: listings -/

/-- `list(m)`, when it succeeds, lists exactly the keys `has_key` knows, each once. -/
theorem C127_keys_partial {utf8 : Bytes → Bool} {st st' : St} (h : Reached utf8 st) (i : Nat) (l : List Bytes)
    (hs : step utf8 st (.keys i) = .ok (st', .keys l)) :
    l.Nodup ∧ ∀ key k, keyOf key = .ok k →
      (k ∈ l ↔ answer utf8 st (.hasKey i key) = .ok (.bool true)) := by
  obtain ⟨d, -⟩ := step_abs h.inv.1 hs
  simp only [Does, onD] at d
  cases hi : (st.map absD)[i]? with
  | none => rw [hi] at d; simp at d
  | some x =>
    simp only [hi] at d
    split at d
    · cases d
    · rename_i hd
      obtain ⟨ls, hl, d1, d2⟩ := d
      have hall : ∀ e ∈ ls, utf8 e.1 = true := by
        intro e he
        cases hu : utf8 e.1 with
        | true => rfl
        | false => have := d2 ⟨e, he, hu⟩; simp at this
      have e := d1 hall
      simp only [Except.ok.injEq, Prod.mk.injEq, Ans.keys.injEq] at e
      rw [e.2]
      refine ⟨?_, ?_⟩
      · rw [List.Nodup, List.pairwise_map]
        exact hl.1
      · intro key k hk
        rw [answer_hasKey utf8 h.inv.1 hi hk, if_neg hd]
        have hm : k ∈ ls.map Prod.fst ↔ (x.map k).isSome = true := by
          rw [List.mem_map, Option.isSome_iff_exists]
          constructor
          · rintro ⟨⟨k', v⟩, he, rfl⟩
            exact ⟨v, (hl.2 _ _).1 he⟩
          · rintro ⟨v, hv⟩
            exact ⟨(k, v), (hl.2 _ _).2 hv, rfl⟩
        rw [hm]
        by_cases hk0 : k = []
        · subst hk0
          rw [abs_nil h.inv.1 hi]
          simp
        · rw [if_neg hk0]
          simp

/-- `m.items()`, when it succeeds, lists every key once, with what reading it gives. -/
theorem C127_items_partial {utf8 : Bytes → Bool} {st st' : St} (h : Reached utf8 st) (i : Nat)
    (l : List (Bytes × List (Option Bytes))) (hs : step utf8 st (.items i) = .ok (st', .items l)) :
    (l.map Prod.fst).Nodup ∧ ∀ key k vs, keyOf key = .ok k →
      ((k, vs) ∈ l ↔ answer utf8 st (.get i key) = .ok (.seq vs)) := by
  obtain ⟨d, -⟩ := step_abs h.inv.1 hs
  simp only [Does, onD] at d
  cases hi : (st.map absD)[i]? with
  | none => rw [hi] at d; simp at d
  | some x =>
    simp only [hi] at d
    split at d
    · cases d
    · rename_i hd
      obtain ⟨ls, hl, d1, d2⟩ := d
      have hall : ∀ e ∈ ls, utf8 e.1 = true := by
        intro e he
        cases hu : utf8 e.1 with
        | true => rfl
        | false => have := d2 ⟨e, he, hu⟩; simp at this
      have e := d1 hall
      simp only [Except.ok.injEq, Prod.mk.injEq, Ans.items.injEq] at e
      rw [e.2]
      refine ⟨?_, ?_⟩
      · rw [List.Nodup, List.map_map, List.pairwise_map]
        exact hl.1
      · intro key k vs hk
        rw [answer_get utf8 h.inv.1 hi hk, lookAns, if_neg hd]
        have hm : (k, vs) ∈ (ls.map fun e => (e.1, PyM.shown utf8 e.2)) ↔
            ∃ v, x.map k = some v ∧ PyM.shown utf8 v = vs := by
          rw [List.mem_map]
          constructor
          · rintro ⟨⟨k', v⟩, he, e⟩
            cases e
            exact ⟨v, (hl.2 _ _).1 he, rfl⟩
          · rintro ⟨v, hv, rfl⟩
            exact ⟨(k, v), (hl.2 _ _).2 hv, rfl⟩
        rw [hm]
        by_cases hk0 : k = []
        · subst hk0
          rw [abs_nil h.inv.1 hi]
          simp
        · rw [if_neg hk0]
          cases x.map k <;> simp

/-- Listed keys are not only the assigned ones, and listing fails although every key assigned decodes. -/
theorem C127_false :
    answersOf [.new, .set 0 (pys b!"ab") (strs [b!"1"]), .set 0 (pys b!"ac") (strs [b!"2"]), .keys 0] =
      .ok [.done, .done, .done, .keys [b!"a", b!"ab", b!"ac"]] ∧
    (run (fun b => b = [0xc3, 0xa9] || b = [0xc3, 0xa8] || b.all (· < 128)) []
      [.new, .set 0 (pys [0xc3, 0xa9]) (strs [b!"1"]), .set 0 (pys [0xc3, 0xa8]) (strs [b!"2"]), .keys 0]).map
      (·.2) = .ok [.done, .done, .done, .exc (.py .unicodeError)] :=
  ⟨rfl, rfl⟩

/-- The hypotheses of C127_keys_partial and C127_items_partial. -/
example : ∃ st, Reached ascii st ∧ step ascii st (.keys 0) = .ok (st, .keys [b!"a", b!"ab", b!"b"]) ∧
    step ascii st (.items 0) = .ok (st, .items [(b!"a", [some b!"1"]), (b!"ab", []), (b!"b", [some b!"2"])]) :=
  ⟨_, ⟨[.new, .set 0 (pys b!"ab") (strs []), .set 0 (pys b!"a") (strs [b!"1"]),
    .set 0 (pys b!"b") (strs [b!"2"])], _, rfl⟩, rfl, rfl⟩

/-! ## C128: reading a key that is not there -/

/-- `m.get(k)` gives a list exactly when `has_key(k)` is true, and raises `KeyError` when it is false. -/
theorem C128_partial {utf8 : Bytes → Bool} {st : St} (h : Reached utf8 st) (i : Nat) (key : Arg) :
    (answer utf8 st (.hasKey i key) = .ok (.bool true) ↔
      ∃ vs, answer utf8 st (.get i key) = .ok (.seq vs)) ∧
    (answer utf8 st (.hasKey i key) = .ok (.bool false) ↔
      answer utf8 st (.get i key) = .ok (.exc (.py .keyError))) := by
  cases hi : (st.map absD)[i]? with
  | none =>
    rw [getElem_abs] at hi
    cases hm : st[i]? with
    | some m => rw [hm] at hi; cases hi
    | none => simp [answer, step, hm, Except.map]
  | some d =>
    cases hk : keyOf key with
    | ok k =>
      rw [answer_hasKey utf8 h.inv.1 hi hk, answer_get utf8 h.inv.1 hi hk, lookAns]
      by_cases hk0 : k = []
      · simp [hk0]
      · rw [if_neg hk0, if_neg hk0]
        cases d.dead
        · cases d.map k <;> simp
        · simp
    | error e =>
      have hne : e ≠ .keyError := by
        rintro rfl
        cases key with
        | str o => cases o <;> cases hk
        | _ => cases hk
      have h1 := (step_ok utf8 h.inv.1 (.hasKey i key)).1
      have h2 := (step_ok utf8 h.inv.1 (.get i key)).1
      simp only [Does, onD, hi, hk] at h1 h2
      rw [answer_abs, answer_abs, h1, h2]
      simp [Except.map, hne]

/-- It is documented to answer `None`. -/
theorem C128_false : answersOf [.new, .get 0 (pys b!"a")] = .ok [.done, .exc (.py .keyError)] := rfl

/-- Both cases of C128_partial. -/
example : ∃ st, Reached ascii st ∧ answer ascii st (.hasKey 0 (pys b!"a")) = .ok (.bool true) ∧
    answer ascii st (.hasKey 0 (pys b!"b")) = .ok (.bool false) :=
  ⟨_, ⟨[.new, .set 0 (pys b!"a") (strs [b!"1"])], _, rfl⟩, rfl, rfl⟩

/-! ## C129: comparison -/

/-- `m == n`, when neither was cleared, is true exactly when both have the same keys. -/
theorem C129_partial {utf8 : Bytes → Bool} {st : St} (h : Reached utf8 st) (i j : Nat) (b : Bool)
    (hs : answer utf8 st (.eq i j) = .ok (.bool b)) :
    b = true ↔ ∀ k, Has utf8 st i k ↔ Has utf8 st j k := by
  have d := (step_ok utf8 h.inv.1 (.eq i j)).1
  rw [answer_abs] at hs
  simp only [Does] at d
  cases hi : (st.map absD)[i]? with
  | none => simp only [hi] at d; rw [d] at hs; cases hs
  | some m =>
    cases hj : (st.map absD)[j]? with
    | none => simp only [hi, hj] at d; rw [d] at hs; cases hs
    | some n =>
      simp only [hi, hj] at d
      split at d
      · rw [d] at hs; cases hs
      · rename_i hd
        simp only [not_or, Bool.not_eq_true] at hd
        obtain ⟨b', e, hb⟩ := d
        rw [e] at hs
        cases hs
        rw [hb]
        constructor
        · intro hall k
          rw [has_iff h hi hd.1, has_iff h hj hd.2, hall]
        · intro hall k
          have key : ∀ {a c : Nat} {da dc : SD}, (st.map absD)[a]? = some da → (st.map absD)[c]? = some dc →
              da.dead = false → dc.dead = false → (Has utf8 st a k → Has utf8 st c k) →
              (da.map k).isSome = true → (dc.map k).isSome = true := by
            intro a c da dc ha hc h1 h2 himp hs
            have hf := h.inv.2 da (List.mem_of_getElem? ha) k hs
            have := himp (has_of h ha h1 hs)
            rwa [has_iff h hc h2, upTo0_of_free hf] at this
          have l := key hi hj hd.1 hd.2 (hall k).1
          have r := key hj hi hd.2 hd.1 (hall k).2
          cases h1 : (m.map k).isSome with
          | true => exact (l h1).symm
          | false =>
            cases h2 : (n.map k).isSome with
            | false => rfl
            | true => rw [r h2] at h1; cases h1

/-- Dictionaries with different lists compare equal. -/
theorem C129_false :
    answersOf [.new, .new, .set 0 (pys b!"a") (strs [b!"1"]), .set 1 (pys b!"a") (strs [b!"2"]), .eq 0 1] =
      .ok [.done, .done, .done, .done, .bool true] := rfl

/-- Both answers of C129_partial. -/
example : ∃ st, Reached ascii st ∧ answer ascii st (.eq 0 0) = .ok (.bool true) ∧
    answer ascii st (.eq 0 1) = .ok (.bool false) :=
  ⟨_, ⟨[.new, .new, .set 0 (pys b!"a") (strs [b!"1"])], _, rfl⟩, rfl, rfl⟩

#print axioms C122_partial
#print axioms C122_item_partial
#print axioms C122_false
#print axioms C123_partial
#print axioms C123_wraps_partial
#print axioms C123_false
#print axioms C124_exact
#print axioms C124_partial
#print axioms C124_false
#print axioms C125_partial
#print axioms C125_del_partial
#print axioms C125_false
#print axioms C126_partial
#print axioms C126_false
#print axioms C127_keys_partial
#print axioms C127_items_partial
#print axioms C127_false
#print axioms C128_partial
#print axioms C128_false
#print axioms C129_partial
#print axioms C129_false

end Comps.Props.PyM
