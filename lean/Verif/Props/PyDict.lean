import Verif.Lemmas.PyDictRun

/-!
# Properties of Python string dictionaries (C72-C80)

A program is a list of operations on the dictionaries and iterators it makes; `run` gives the final
state and the answers.  `utf8` says which byte strings Python decodes.
-/

namespace Comps.Props
open Comps Comps.Spec Comps.Spec.PyD Comps.PyDict

/-- The `str` with this text. -/
def pys (b : Bytes) : Arg := .str (some b)

/-- For the examples: ASCII decodes. -/
def ascii (b : Bytes) : Bool := b.all (· < 128)

/-- For the examples: the order of bytes. -/
def ltb (a b : UInt8) : Bool := decide (a < b)

/-- For the examples: the answers of a program. -/
def answersOf (ops : List Op) : Except Fault (List Ans) := (run ltb ascii start ops).map (·.2)

/-- For the examples: two dictionaries, filled, copied, merged. -/
def dictDemo : List Op :=
  [.new, .set 0 (pys b!"a") (pys b!"1"), .set 0 (pys b!"ab") (.bytes b!"2"), .copy 0,
   .set 1 (pys b!"c") (pys b!"3"), .update 0 1]

theorem dictDemo_permitted : PermittedRun ascii World.start dictDemo := by
  refine ⟨trivial, ⟨b!"a", b!"1", rfl, rfl, by decide, by decide, by decide, ?_⟩,
    ⟨b!"ab", b!"2", rfl, rfl, by decide, by decide, by decide, ?_⟩, trivial,
    ⟨b!"c", b!"3", rfl, rfl, by decide, by decide, by decide, ?_⟩, ?_, trivial⟩
  · rintro _ ⟨⟩
    exact .inr (by simp)
  · rintro _ ⟨⟩
    right
    intro s hs
    simp only [List.mem_cons, List.not_mem_nil, or_false] at hs
    subst hs
    rintro ⟨b, bs, h⟩
    simp at h
  · rintro _ ⟨⟩
    right
    intro s hs
    simp only [List.mem_cons, List.not_mem_nil, or_false] at hs
    rcases hs with rfl | rfl <;> (rintro ⟨b, bs, h⟩; simp at h)
  · rintro - _ _ ⟨⟩ ⟨⟩ k hk
    by_cases h1 : k = [99]
    · right
      subst h1
      intro s hs
      simp only [List.mem_cons, List.not_mem_nil, or_false] at hs
      rcases hs with rfl | rfl <;> (rintro ⟨b, bs, h⟩; simp at h)
    · left
      simpa [FMap.upd, h1] using hk

/-- For the examples: reads of the dictionaries of `dictDemo`. -/
def dictReads : List Op :=
  [.getItem 0 (pys b!"c"), .get 0 (pys b!"b"), .getItem 0 (pys b!"b"), .hasKey 0 (pys b!"ab"),
   .str 0, .cmp .eq 0 1, .len 0]

theorem dictReads_permitted : PermittedRun ascii World.start (dictDemo ++ dictReads) := by
  rw [permitted_append]
  refine ⟨dictDemo_permitted, ?_⟩
  simp [dictReads, PermittedRun, Permitted, keyText, pys]

/-! ## C72 dictionaries are finite maps -/

/-- C72, part that holds: a permitted program runs without fault, and every answer is that of finite
maps from text to text.  Missing: keys that are proper prefixes of keys written before, `del`, and
the other cases `Permitted` leaves out (see C73, C75, C78 and C80). -/
theorem C72_partial (lt : UInt8 → UInt8 → Bool) {utf8 : Bytes → Bool} (h0 : utf8 [] = true)
    {ops : List Op} (hp : PermittedRun utf8 World.start ops) :
    ∃ st xs, run lt utf8 start ops = .ok (st, xs) ∧ Answers Answer World.start ops xs := by
  obtain ⟨st, xs, e, -, -, h, -, -⟩ := run_ref lt h0 ops (w := World.start) inv_start ref_start hp
  exact ⟨st, xs, e, h⟩

example : ∃ st xs, run ltb ascii start (dictDemo ++ dictReads) = .ok (st, xs) ∧
    Answers Answer World.start (dictDemo ++ dictReads) xs :=
  C72_partial ltb rfl dictReads_permitted

example : answersOf (dictDemo ++ dictReads) =
    .ok [.object, .done, .done, .object, .done, .done,
      .text b!"3", .none, .exc .keyError, .bool true, .text b!"{a = '1', ab = '2', c = '3', }",
      .bool true, .num 3] := by rfl

/-- C72 is false: after `d["ab"] = "1"; d["c"] = "2"; d["a"] = "3"`, `d["c"]` is missing. -/
theorem C72_false : answersOf [.new, .set 0 (pys b!"ab") (pys b!"1"), .set 0 (pys b!"c") (pys b!"2"),
    .set 0 (pys b!"a") (pys b!"3"), .getItem 0 (pys b!"c")] =
    .ok [.object, .done, .done, .done, .exc .keyError] := by rfl

/-! ## C73 deletion -/

/-- C73 is false: `del d[k]` uses NULL, whatever the dictionary and the key. -/
theorem C73_false (lt : UInt8 → UInt8 → Bool) (utf8 : Bytes → Bool) (st : St) (i : Nat) (k : Arg)
    (h : dictAt st i ≠ none) : step lt utf8 st (.del i k) = .error .nullDeref := by
  cases ht : dictAt st i with
  | none => exact absurd ht h
  | some t => simp [step, ht, setItem, bind, Except.bind]

example : answersOf [.new, .set 0 (pys b!"a") (pys b!"1"), .del 0 (pys b!"a")] =
    .error .nullDeref := by rfl

/-- C73 as a user sees it: no program goes on after deleting from a dictionary it has. -/
theorem C73_false_programs (lt : UInt8 → UInt8 → Bool) (utf8 : Bytes → Bool) {ops : List Op} {st : St}
    {xs : List Ans} (h : run lt utf8 start ops = .ok (st, xs)) {i : Nat} (hi : dictAt st i ≠ none)
    (k : Arg) (rest : List Op) : ¬ ∃ r, run lt utf8 start (ops ++ .del i k :: rest) = .ok r := by
  rintro ⟨⟨st', ys⟩, hr⟩
  obtain ⟨st1, zs, ws, h1, h2, -, -⟩ := run_append_inv hr
  rw [h] at h1
  cases h1
  obtain ⟨st2, x, xs', h3, -, -⟩ := run_cons_inv h2
  rw [C73_false lt utf8 st i k hi] at h3
  simp at h3

/-! ## C74 len -/

/-- C74, part that holds: in permitted programs `len(d)` is the number of keys, if `d` was not made
by `copy` or was cleared since.  Missing: copies, and what `Permitted` leaves out. -/
theorem C74_partial (lt : UInt8 → UInt8 → Bool) {utf8 : Bytes → Bool} (h0 : utf8 [] = true)
    {ops : List Op} (hp : PermittedRun utf8 World.start ops) :
    ∃ st xs, run lt utf8 start ops = .ok (st, xs) ∧ Answers LenAnswer World.start ops xs := by
  obtain ⟨st, xs, e, -, -, -, h, -⟩ := run_ref lt h0 ops (w := World.start) inv_start ref_start hp
  exact ⟨st, xs, e, h⟩

example : ∃ st xs, run ltb ascii start (dictDemo ++ dictReads) = .ok (st, xs) ∧
    Answers LenAnswer World.start (dictDemo ++ dictReads) xs :=
  C74_partial ltb rfl dictReads_permitted

/-- C74 is false for every copy: in any state, the length of a copy is 0. -/
theorem C74_false (lt : UInt8 → UInt8 → Bool) (utf8 : Bytes → Bool) {st st' : St} {i : Nat}
    (h : step lt utf8 st (.copy i) = .ok (st', .object)) :
    step lt utf8 st' (.len st.dicts.length) = .ok (st', .num 0) := by
  simp only [step] at h
  split at h
  · cases h
  · rename_i t ht
    simp only [bind, Except.bind] at h
    split at h
    · simp at h
    · cases h
      simp [step, dictAt, RTree.copy]

example : answersOf (dictDemo ++ [.copy 0, .len 2, .str 2]) =
    .ok [.object, .done, .done, .object, .done, .done, .object, .num 0,
      .text b!"{a = '1', ab = '2', c = '3', }"] := by rfl

/-- C74 is false, witness 2: `d["ab"]`, `d["ac"]` and `d["a"]` are written and there; `len(d)` is
2. -/
theorem C74_false_fork : answersOf [.new, .set 0 (pys b!"ab") (pys b!"1"),
    .set 0 (pys b!"ac") (pys b!"2"), .set 0 (pys b!"a") (pys b!"3"), .str 0, .len 0] =
    .ok [.object, .done, .done, .done, .text b!"{a = '3', ab = '1', ac = '2', }", .num 2] := by rfl

/-! ## C75 no crash -/

/-- C75, part that holds: careful programs run without fault.  They may use any keys, also proper
prefixes of others, and objects of any type.  Missing: `del`, bytes that do not decode, and
advancing an iterator over values or items after its dictionary changed. -/
theorem C75_partial (lt : UInt8 → UInt8 → Bool) {utf8 : Bytes → Bool} (h0 : utf8 [] = true)
    {ops : List Op} (hc : CarefulRun utf8 [] ops) :
    ∃ st xs, run lt utf8 start ops = .ok (st, xs) ∧ xs.length = ops.length := by
  obtain ⟨st, xs, e, hl, -⟩ := run_safe lt h0 ops inv_start hc
  exact ⟨st, xs, e, hl⟩

/-- For the examples: ASCII text without NUL decodes. -/
theorem decodes_pys {b : Bytes} (h : ascii b = true) : Decodes ascii (pys b) := by
  rintro p q rfl - -
  simp only [ascii, List.all_append, Bool.and_eq_true] at h
  exact h.1

/-- For the examples: keys that are prefixes of others, keys and values of wrong types, updates of a
dictionary with itself, reading after `drop`. -/
def carelessDemo : List Op :=
  [.new, .set 0 (pys b!"ab") (pys b!"1"), .set 0 (pys b!"c") (pys b!"2"),
   .set 0 (pys b!"a") (.str none), .set 0 .none (pys b!"x"), .set 0 .other .other, .update 0 0,
   .copy 0, .iterItems 1, .drop 0, .next 0, .next 0, .get 0 (pys b!"a"), .clear 1]

theorem carelessDemo_careful : CarefulRun ascii [] carelessDemo := by
  refine ⟨trivial, ⟨decodes_pys rfl, decodes_pys rfl⟩, ⟨decodes_pys rfl, decodes_pys rfl⟩,
    ⟨decodes_pys rfl, trivial⟩, ⟨trivial, decodes_pys rfl⟩, ⟨trivial, trivial⟩, trivial,
    trivial, trivial, trivial, ?_, ?_, trivial, trivial, trivial⟩
  · rintro it ⟨⟩; exact .inr rfl
  · rintro it ⟨⟩; exact .inr rfl

example : ∃ st xs, run ltb ascii start carelessDemo = .ok (st, xs) ∧ xs.length = 14 :=
  C75_partial ltb rfl carelessDemo_careful

example : answersOf carelessDemo =
    .ok [.object, .done, .done, .exc .pending, .exc .noException, .exc .typeError, .done,
      .object, .object, .done, .pair b!"a" [], .pair b!"ab" b!"1", .exc .typeError, .done] := by rfl

/-- C75 is false, witness 1: `it = d.values(); d["a"] = "2"; next(it)` reads freed memory. -/
theorem C75_false_values : answersOf [.new, .set 0 (pys b!"a") (pys b!"1"), .iterValues 0,
    .set 0 (pys b!"a") (pys b!"2"), .next 0] = .error .useAfterFree := by rfl

/-- C75 is false, witness 2: `it = d.items(); d.clear(); next(it)`. -/
theorem C75_false_items : answersOf [.new, .set 0 (pys b!"a") (pys b!"1"), .iterItems 0,
    .clear 0, .next 0] = .error .useAfterFree := by rfl

/-- C75 is false, witness 3: the iterator outlives the dictionary, as in
`it = iter(StrDict().values())`. -/
theorem C75_false_outlives : answersOf [.new, .set 0 (pys b!"a") (pys b!"1"), .iterValues 0,
    .drop 0, .next 0] = .error .useAfterFree := by rfl

/-- C75 is false, witness 4: `d["a"] = b"\xff"; str(d)`. -/
theorem C75_false_bytes : answersOf [.new, .set 0 (pys b!"a") (.bytes [255]), .str 0] =
    .error .nullDeref := by rfl

/-! ## C76 no leaks -/

/-- C76, part that holds: a permitted program that does not call `has_key` and in the end has no
dictionaries left has freed every string it stored.  Missing: `has_key`, refused keys, and keys that
are proper prefixes of others. -/
theorem C76_partial (lt : UInt8 → UInt8 → Bool) {utf8 : Bytes → Bool} (h0 : utf8 [] = true)
    {ops : List Op} (hp : PermittedRun utf8 World.start ops) (hh : ∀ i k, Op.hasKey i k ∉ ops)
    (hd : ∀ i, (World.start.afterAll ops).dict i = none) :
    ∃ st xs, run lt utf8 start ops = .ok (st, xs) ∧ ∀ o ∈ st.store, o = none := by
  obtain ⟨st, xs, e, -, r, -, -, hx⟩ := run_ref lt h0 ops (w := World.start) inv_start ref_start hp
  refine ⟨st, xs, e, ?_⟩
  have ht : ∀ a, total st.dicts a = 0 := by
    intro a
    apply total_none
    intro d hm
    obtain ⟨i, hi, rfl⟩ := List.mem_iff_getElem.1 hm
    cases hdi : st.dicts[i] with
    | none => rfl
    | some t =>
      obtain ⟨d, h1, -⟩ := r.yes i t (by simp [dictAt, List.getElem?_eq_getElem hi, hdi])
      rw [hd i] at h1
      simp at h1
  intro o ho
  obtain ⟨a, ha, rfl⟩ := List.mem_iff_getElem.1 ho
  have h1 := hx hh a
  rw [ht a] at h1
  simp only [start, total, holders, List.getElem?_nil] at h1
  cases hs : st.store[a] with
  | none => rfl
  | some o =>
    rw [List.getElem?_eq_getElem ha, hs] at h1
    simp at h1

example : ∃ st xs, run ltb ascii start (dictDemo ++ [.drop 0, .drop 1]) = .ok (st, xs) ∧
    ∀ o ∈ st.store, o = none := by
  refine C76_partial ltb rfl ?_ (by simp [dictDemo]) ?_
  · rw [permitted_append]
    exact ⟨dictDemo_permitted, trivial, trivial, trivial⟩
  · intro i
    rcases i with _ | _ | i <;> rfl

example : (run ltb ascii start (dictDemo ++ [.drop 0, .drop 1])).map (·.1.store) =
    .ok [none, none, none] := by rfl

/-- C76 is false for every program in which `has_key` answered `True`: however it goes on, some string
is never freed. -/
theorem C76_false (lt : UInt8 → UInt8 → Bool) {utf8 : Bytes → Bool} (h0 : utf8 [] = true)
    {ops rest : List Op} {i : Nat} {k : Arg} (hc : CarefulRun utf8 [] (ops ++ .hasKey i k :: rest))
    {st : St} {xs : List Ans} (h : run lt utf8 start (ops ++ .hasKey i k :: rest) = .ok (st, xs))
    (ht : xs[ops.length]? = some (.bool true)) : ∃ o ∈ st.store, o ≠ none := by
  obtain ⟨st1, ys, zs, h1, h2, rfl, hl⟩ := run_append_inv h
  obtain ⟨st2, x, ws, h3, h4, rfl⟩ := run_cons_inv h2
  rw [careful_append] at hc
  obtain ⟨i1, -⟩ := run_inv lt h0 ops inv_start hc.1 h1
  have hx : x = .bool true := by
    rw [List.getElem?_append_right (by omega), hl] at ht
    simpa using ht
  subst hx
  obtain ⟨a, ha⟩ := has_surplus i1 h3
  obtain ⟨st2', x', e2, i2, -⟩ := step_safe lt h0 i1 (.hasKey i k) hc.2.1
  rw [h3] at e2
  cases e2
  obtain ⟨-, m⟩ := run_inv lt h0 rest i2 hc.2.2 h4
  have := m a
  have hp : 0 < holders st.store a := by omega
  obtain ⟨o, -, ho, -⟩ := load_ok hp
  exact ⟨some o, List.mem_of_getElem? ho, by simp⟩

example : (run ltb ascii start [.new, .set 0 (pys b!"a") (pys b!"1"), .hasKey 0 (pys b!"a"),
    .drop 0]).map (·.1.store) = .ok [some ⟨0, some b!"1"⟩] := by rfl

example {st : St} {xs : List Ans} (h : run ltb ascii start ([.new, .set 0 (pys b!"a") (pys b!"1")] ++
    .hasKey 0 (pys b!"a") :: [.clear 0, .drop 0]) = .ok (st, xs)) : ∃ o ∈ st.store, o ≠ none := by
  refine C76_false ltb rfl (utf8 := ascii) ?_ h ?_
  · exact ⟨trivial, ⟨decodes_pys rfl, decodes_pys rfl⟩, trivial, trivial, trivial, trivial⟩
  · cases h; rfl

/-- C76 is false, witness 2: a value refused because of its key, `d[None] = "1"`, is not freed. -/
theorem C76_false_refused : (run ltb ascii start [.new, .set 0 .none (pys b!"1"), .drop 0]).map
    (·.1.store) = .ok [some ⟨0, some b!"1"⟩] := by rfl

/-- C76 is false, witness 3: a value lost by writing a proper prefix of a key is not freed. -/
theorem C76_false_lost : (run ltb ascii start [.new, .set 0 (pys b!"ab") (pys b!"1"),
    .set 0 (pys b!"c") (pys b!"2"), .set 0 (pys b!"a") (pys b!"3"), .drop 0]).map (·.1.store) =
    .ok [none, some ⟨0, some b!"2"⟩, none] := by rfl

/-! ## C77 iterators -/

/-- What an iterator of a kind gives for the keys `ks` of a map. -/
def yields (m : FMap Bytes) : Kind → List Bytes → List Ans
  | .keys, ks => ks.map .text
  | .values, ks => ks.map fun k => .text ((m k).getD [])
  | .items, ks => ks.map fun k => .pair k ((m k).getD [])

/-- The call that makes an iterator. -/
def iterOp (i : Nat) : Kind → Op
  | .keys => .iterKeys i
  | .values => .iterValues i
  | .items => .iterItems i

/-- C77, part that holds: in a permitted program, the calls of `next` on an iterator give the keys
(values, pairs) its dictionary had when the iterator was made, each once, and then `StopIteration`.
For keys this is so even if the dictionary is changed or dropped in the meantime.
Missing: iterators over values and items after changes. -/
theorem C77_partial (lt : UInt8 → UInt8 → Bool) {utf8 : Bytes → Bool} (h0 : utf8 [] = true)
    {pre post : List Op} {i : Nat} {kd : Kind}
    (hp : PermittedRun utf8 World.start (pre ++ iterOp i kd :: post)) {d : Dict}
    (hd : (World.start.afterAll pre).dict i = some d) {st : St} {xs : List Ans}
    (h : run lt utf8 start (pre ++ iterOp i kd :: post) = .ok (st, xs)) :
    ∃ ks, Lists ks d.map ∧ ∀ (n : Nat) (y : Ans),
      (nextAnswers (World.start.afterAll pre).iters.length post (xs.drop (pre.length + 1)))[n]? =
        some y → y = (yields d.map kd ks)[n]?.getD Ans.stop := by
  rw [permitted_append] at hp
  obtain ⟨st1, ys, e1, i1, r1, -, -, -⟩ := run_ref lt h0 pre (w := World.start) inv_start ref_start hp.1
  obtain ⟨st1', ys', zs, h1, h2, rfl, hl⟩ := run_append_inv h
  rw [e1] at h1
  cases h1
  obtain ⟨st2, x, ws, h3, h4, rfl⟩ := run_cons_inv h2
  obtain ⟨st2', x', e2, g⟩ := step_ref lt h0 i1 r1 hp.2.1
  rw [h3] at e2
  cases e2
  have hlen : (World.start.afterAll pre).iters.length = st1.iters.length := i1.ilen.symm
  have hdrop : (ys ++ x :: ws).drop (pre.length + 1) = ws := by
    rw [← hl, List.drop_append]
    simp
  rw [hdrop, hlen]
  cases ht : dictAt st1 i with
  | none => rw [r1.no i ht] at hd; simp at hd
  | some t =>
    obtain ⟨d', hd', hr⟩ := r1.yes i t ht
    rw [hd] at hd'
    cases hd'
    refine ⟨t.keys, hr.lists (r1.vals i1 ht), ?_⟩
    have hwf := hr.inv.wf
    have hpair : ∀ e ∈ t.pairs, d.map e.1 = valAt st1.store e.2 := by
      intro e he
      rw [hr.map, (RTree.mem_pairs hwf _ _).1 he]
      rfl
    cases kd with
    | keys =>
      simp only [iterOp, step, ht] at h3
      cases h3
      refine run_script lt h0 post (j := st1.iters.length) (it := ⟨i, .keys, false⟩) (x := .keys t.keys) g.inv g.ref hp.2.2
        (by simp) (by simp [World.after, itersAfter, iterOp, ← hlen]) ⟨rfl, (i1.good i t ht).2⟩ h4
    | values =>
      simp only [iterOp, step, ht] at h3
      cases h3
      refine run_script lt h0 post (j := st1.iters.length) (it := ⟨i, .values, false⟩) (x := .values t.values) g.inv g.ref
        hp.2.2 (by simp) (by simp [World.after, itersAfter, iterOp, ← hlen]) (fun _ => ?_) h4
      simp only [yields, RTree.keys, RTree.values, List.map_map]
      apply List.map_congr_left
      intro e he
      simp only [Function.comp, hpair e he]
    | items =>
      simp only [iterOp, step, ht] at h3
      cases h3
      refine run_script lt h0 post (j := st1.iters.length) (it := ⟨i, .items, false⟩) (x := .items t.pairs) g.inv g.ref
        hp.2.2 (by simp) (by simp [World.after, itersAfter, iterOp, ← hlen]) (fun _ => ?_) h4
      simp only [yields, RTree.keys, List.map_map]
      apply List.map_congr_left
      intro e he
      simp only [Function.comp, hpair e he]

/-- For the examples: an iterator over keys, used while its dictionary is changed and dropped. -/
def iterDemo : List Op := [.next 0, .clear 0, .next 0, .drop 0, .next 0, .next 0]

theorem iterDemo_permitted :
    PermittedRun ascii World.start (dictDemo ++ iterOp 0 .keys :: iterDemo) := by
  rw [permitted_append]
  refine ⟨dictDemo_permitted, trivial, ?_, trivial, ?_, trivial, ?_, ?_, trivial⟩ <;>
    (rintro it ⟨⟩; exact .inl rfl)

example {st : St} {xs : List Ans} (h : run ltb ascii start (dictDemo ++ iterOp 0 .keys :: iterDemo) =
    .ok (st, xs)) : ∃ ks : List Bytes, ks.Nodup ∧ b!"ab" ∈ ks ∧ b!"b" ∉ ks ∧ ∀ (n : Nat) (y : Ans),
      (nextAnswers 0 iterDemo (xs.drop 7))[n]? = some y → y = (ks.map Ans.text)[n]?.getD Ans.stop := by
  obtain ⟨ks, h1, h2⟩ := C77_partial ltb rfl iterDemo_permitted rfl h
  exact ⟨ks, h1.1, (h1.2 _).2 (by decide), fun hm => (h1.2 _).1 hm (by decide), h2⟩

example : (answersOf (dictDemo ++ iterOp 0 .keys :: iterDemo)).map (·.drop 6) =
    .ok [.object, .text b!"a", .done, .text b!"ab", .done, .text b!"c", .stop] := by rfl

/-- C77 is false for values: the iterator gives freed memory, see `C75_false_values`.  Even when it
does not, as here, what it gives is not a listing: `"1"` is the value of `d["a"]` at the start, which
another dictionary keeps alive. -/
theorem C77_false : answersOf [.new, .set 0 (pys b!"a") (pys b!"1"), .copy 0, .iterValues 0,
    .clear 0, .next 0] = .ok [.object, .done, .object, .object, .done, .text b!"1"] ∧
    answersOf [.new, .set 0 (pys b!"a") (pys b!"1"), .iterValues 0,
    .clear 0, .next 0] = .error .useAfterFree := ⟨by rfl, by rfl⟩

/-! ## C78 exceptions -/

/-- C78, part that holds: after a call that raises an exception, in a program that was careful up to
then, all dictionaries read as before.  Missing: exceptions left pending. -/
theorem C78_partial (lt : UInt8 → UInt8 → Bool) {utf8 : Bytes → Bool} (h0 : utf8 [] = true)
    {ops : List Op} (hc : CarefulRun utf8 [] ops) {st st' : St} {xs : List Ans}
    (h : run lt utf8 start ops = .ok (st, xs)) {op : Op} {e : Exc}
    (hs : step lt utf8 st op = .ok (st', .exc e)) (he : e ≠ .pending) (i : Nat) (k : Arg) :
    (step lt utf8 st' (.get i k)).map (·.2) = (step lt utf8 st (.get i k)).map (·.2) ∧
    (step lt utf8 st' (.len i)).map (·.2) = (step lt utf8 st (.len i)).map (·.2) := by
  obtain ⟨hi, -⟩ := run_inv lt h0 ops inv_start hc h
  obtain ⟨h1, h2⟩ := step_calm hs he
  constructor
  · rw [step_get_any, step_get_any, h1 i]
    cases ht : dictAt st i with
    | none => rfl
    | some t =>
      simp only
      cases hk : keyIn k with
      | error e => rfl
      | ok kb =>
        simp only
        cases hg : t.get kb with
        | none => rfl
        | some a =>
          simp only
          have hl := hi.live ht (mem_values (hi.good i t ht).1 hg)
          obtain ⟨h3, h4⟩ := h2 a hl
          obtain ⟨o, ho, -, hv⟩ := load_ok hl
          obtain ⟨o', ho', -, hv'⟩ := load_ok h3
          rw [ho, ho']
          simp only [tostr, hv, hv', h4]
  · simp only [step, h1 i]
    cases dictAt st i <;> rfl

example : ∃ st st' xs, run ltb ascii start carelessDemo = .ok (st, xs) ∧
    step ltb ascii st (.set 1 .none (pys b!"2")) = .ok (st', .exc .noException) ∧ ∀ i k,
      (step ltb ascii st' (.get i k)).map (·.2) = (step ltb ascii st (.get i k)).map (·.2) :=
  ⟨_, _, _, rfl, rfl, fun i k =>
    (C78_partial ltb rfl carelessDemo_careful rfl (op := .set 1 .none (pys b!"2")) rfl (by decide) i k).1⟩

/-- C78: which exceptions.  A key that is not a string, or one without encoding, is a `TypeError` of
`d[k]`, `d.get(k)`, `d.has_key(k)` and `d[k] = v`; so is a value that is neither `str` nor `bytes` one
of `d[k] = v`; so is an update with anything but a dictionary. -/
theorem C78_type_errors (lt : UInt8 → UInt8 → Bool) (utf8 : Bytes → Bool) {st : St} {i : Nat}
    (hi : dictAt st i ≠ none) {k : Arg} (hk : k = .other ∨ k = .str none ∨ ∃ b, k = .bytes b) :
    step lt utf8 st (.getItem i k) = .ok (st, .exc .typeError) ∧
    step lt utf8 st (.get i k) = .ok (st, .exc .typeError) ∧
    step lt utf8 st (.hasKey i k) = .ok (st, .exc .typeError) ∧
    (∀ b v, v = .none ∨ v = .other →
      (step lt utf8 st (.set i (pys b) v)).map (·.2) = .ok (.exc .typeError)) ∧
    (∀ v, (step lt utf8 st (.set i k v)).map (·.2) = .ok (.exc .typeError)) ∧
    step lt utf8 st (.updateOther i) = .ok (st, .exc .typeError) := by
  cases ht : dictAt st i with
  | none => exact absurd ht hi
  | some t =>
    have hki : keyIn k = .error .typeError := by
      rcases hk with rfl | rfl | ⟨b, rfl⟩ <;> rfl
    refine ⟨?_, ?_, ?_, ?_, ?_, rfl⟩
    · simp [step, ht, getItem, hki, bind, Except.bind, pure, Except.pure]
    · simp [step, ht, getMethod, hki, bind, Except.bind, pure, Except.pure]
    · simp [step, ht, hasKey, hki, bind, Except.bind, pure, Except.pure]
    · rintro b v (rfl | rfl) <;>
        simp [step, ht, setItem, valueIn, keyIn, pys, bind, Except.bind, pure, Except.pure, Except.map]
    · intro v
      cases hv : valueIn v <;>
        simp [step, ht, setItem, hv, hki, bind, Except.bind, pure, Except.pure, Except.map]

example : answersOf [.new, .get 0 .other, .set 0 (pys b!"a") .none, .getItem 0 (.bytes b!"a")] =
    .ok [.object, .exc .typeError, .exc .typeError, .exc .typeError] := by rfl

/-- C78 is false for `None` as key: the calls fail without an exception, for every dictionary. -/
theorem C78_false_none (lt : UInt8 → UInt8 → Bool) (utf8 : Bytes → Bool) {st : St} {i : Nat}
    (hi : dictAt st i ≠ none) :
    step lt utf8 st (.getItem i .none) = .ok (st, .exc .noException) ∧
    step lt utf8 st (.get i .none) = .ok (st, .exc .noException) ∧
    step lt utf8 st (.hasKey i .none) = .ok (st, .exc .noException) ∧
    ∀ v, (step lt utf8 st (.set i .none v)).map (·.2) = .ok (.exc .noException) := by
  cases ht : dictAt st i with
  | none => exact absurd ht hi
  | some t =>
    refine ⟨?_, ?_, ?_, ?_⟩
    · simp [step, ht, getItem, keyIn, bind, Except.bind, pure, Except.pure]
    · simp [step, ht, getMethod, keyIn, bind, Except.bind, pure, Except.pure]
    · simp [step, ht, hasKey, keyIn, bind, Except.bind, pure, Except.pure]
    · intro v
      cases hv : valueIn v <;>
        simp [step, ht, setItem, hv, keyIn, bind, Except.bind, pure, Except.pure, Except.map]

example : answersOf [.new, .get 0 .none, .set 0 .none .other] =
    .ok [.object, .exc .noException, .exc .noException] := by rfl

/-- C78 is false for values without encoding: `d["a"] = "\ud800"` leaves an exception pending and
replaces the value. -/
theorem C78_false_pending : answersOf [.new, .set 0 (pys b!"a") (pys b!"1"),
    .set 0 (pys b!"a") (.str none), .get 0 (pys b!"a")] =
    .ok [.object, .done, .exc .pending, .text []] := by rfl

/-! ## C79 comparison -/

/-- C79, part that holds: in a careful program without values that have no encoding, `a == b` is true
exactly if `get` answers the same for all keys, and `a != b` is its negation.
Missing: such values, operands that are not dictionaries. -/
theorem C79_partial (lt : UInt8 → UInt8 → Bool) {utf8 : Bytes → Bool} (h0 : utf8 [] = true)
    {ops : List Op} (hc : CarefulRun utf8 [] ops) (hn : ∀ i k, Op.set i k (.str none) ∉ ops)
    {st : St} {xs : List Ans} (h : run lt utf8 start ops = .ok (st, xs)) {i j : Nat}
    (hi : dictAt st i ≠ none) (hj : dictAt st j ≠ none) :
    ∃ b, step lt utf8 st (.cmp .eq i j) = .ok (st, .bool b) ∧
      step lt utf8 st (.cmp .ne i j) = .ok (st, .bool !b) ∧
      (b = true ↔ ∀ k, (step lt utf8 st (.get i k)).map (·.2) =
        (step lt utf8 st (.get j k)).map (·.2)) := by
  obtain ⟨iv, -⟩ := run_inv lt h0 ops inv_start hc h
  have hf := run_full ops h hn (by intro a o ha; simp [start] at ha)
  have pl := run_plain ops plain_start h
  cases ht : dictAt st i with
  | none => exact absurd ht hi
  | some t =>
    cases hu : dictAt st j with
    | none => exact absurd hu hj
    | some u =>
      have hl : loadAll st.store (t.values ++ u.values) = .ok () := by
        apply loadAll_ok
        intro a ha
        rcases List.mem_append.1 ha with ha | ha
        · exact iv.live ht ha
        · exact iv.live hu ha
      have wt := (iv.good i t ht).1
      have wu := (iv.good j u hu).1
      refine ⟨RTree.cmp (strCmp st.store) t u, ?_, ?_, ?_⟩
      · simp [step, ht, hu, same, hl, bind, Except.bind, pure, Except.pure]
      · simp [step, ht, hu, same, hl, bind, Except.bind, pure, Except.pure]
      · rw [RTree.cmp_iff _ wt wu]
        have val : ∀ a, 0 < holders st.store a → ∃ v, valAt st.store a = some v := fun a ha => by
          obtain ⟨o, -, h1, h2⟩ := load_ok ha
          have h3 := hf a o h1
          rw [← h2]
          cases hv : o.val with
          | none => exact absurd hv h3
          | some v => exact ⟨v, rfl⟩
        constructor
        · intro hk k
          rw [step_get iv ht, step_get iv hu]
          cases keyIn k with
          | error e => rfl
          | ok kb =>
            simp only
            have := hk kb
            cases h1 : t.get kb with
            | none =>
              cases h2 : u.get kb with
              | none => rfl
              | some b => rw [h1, h2] at this; exact this.elim
            | some a =>
              cases h2 : u.get kb with
              | none => rw [h1, h2] at this; exact this.elim
              | some b =>
                rw [h1, h2] at this
                have l1 := iv.live ht (mem_values wt h1)
                have l2 := iv.live hu (mem_values wu h2)
                obtain ⟨x, hx⟩ := val a l1
                obtain ⟨y, hy⟩ := val b l2
                simp only at this
                rw [strCmp_iff l2 l1 hy hx] at this
                simp [hx, hy, this]
        · intro hk kb
          by_cases hz : 0 ∈ kb
          · have h1 : t.get kb = none := by
              cases hg : t.get kb with
              | none => rfl
              | some a =>
                exact absurd hz ((pl i t ht).2 kb ((RTree.mem_keys wt kb).2 (by simp [hg])))
            have h2 : u.get kb = none := by
              cases hg : u.get kb with
              | none => rfl
              | some a =>
                exact absurd hz ((pl j u hu).2 kb ((RTree.mem_keys wu kb).2 (by simp [hg])))
            rw [h1, h2]
            trivial
          · have := hk (pys kb)
            rw [step_get iv ht, step_get iv hu] at this
            have hkk : keyIn (pys kb) = .ok kb := by simp [pys, keyIn, cstr_id hz]
            rw [hkk] at this
            simp only [Except.ok.injEq] at this
            cases h1 : t.get kb with
            | none =>
              cases h2 : u.get kb with
              | none => trivial
              | some b => rw [h1, h2] at this; simp at this
            | some a =>
              cases h2 : u.get kb with
              | none => rw [h1, h2] at this; simp at this
              | some b =>
                rw [h1, h2] at this
                have l1 := iv.live ht (mem_values wt h1)
                have l2 := iv.live hu (mem_values wu h2)
                obtain ⟨x, hx⟩ := val a l1
                obtain ⟨y, hy⟩ := val b l2
                simp only [hx, hy, Option.getD_some, Ans.text.injEq] at this
                simp only
                rw [strCmp_iff l2 l1 hy hx]
                exact this.symm

example : ∃ st xs, run ltb ascii start dictDemo = .ok (st, xs) ∧
    ∃ b, step ltb ascii st (.cmp .eq 0 1) = .ok (st, .bool b) ∧
      step ltb ascii st (.cmp .ne 0 1) = .ok (st, .bool !b) ∧
      (b = true ↔ ∀ k, (step ltb ascii st (.get 0 k)).map (·.2) =
        (step ltb ascii st (.get 1 k)).map (·.2)) := by
  refine ⟨_, _, rfl, C79_partial ltb rfl (utf8 := ascii) (ops := dictDemo) ?_ (by simp [dictDemo, pys])
    rfl (by decide) (by decide)⟩
  exact ⟨trivial, ⟨decodes_pys rfl, decodes_pys rfl⟩, ⟨decodes_pys rfl, decodes_pys rfl⟩, trivial,
    ⟨decodes_pys rfl, decodes_pys rfl⟩, trivial, trivial⟩

example : answersOf (dictDemo ++ [.cmp .eq 0 1, .set 1 (pys b!"c") (pys b!"4"), .cmp .eq 0 1,
    .cmp .ne 0 1]) = .ok [.object, .done, .done, .object, .done, .done, .bool true, .done,
      .bool false, .bool true] := by rfl

/-- C79 is false for values without encoding: the two dictionaries read the same and are not
equal. -/
theorem C79_false : answersOf [.new, .set 0 (pys b!"a") (.str none), .new,
    .set 1 (pys b!"a") (pys []), .get 0 (pys b!"a"), .get 1 (pys b!"a"), .cmp .eq 0 1] =
    .ok [.object, .exc .pending, .object, .done, .text [], .text [], .bool false] := by rfl

/-- C79 is false for other operands: `d == 1` and `d != None` raise `TypeError`; a comparison of order
of two dictionaries leaves an exception pending. -/
theorem C79_false_other (lt : UInt8 → UInt8 → Bool) (utf8 : Bytes → Bool) {st : St} (r : Rel)
    {i j : Nat} (hi : dictAt st i ≠ none) (hj : dictAt st j ≠ none) :
    step lt utf8 st (.cmpOther r i) = .ok (st, .exc .typeError) ∧
    step lt utf8 st (.cmp .order i j) = .ok (st, .exc .pending) := by
  refine ⟨rfl, ?_⟩
  cases ht : dictAt st i with
  | none => exact absurd ht hi
  | some t =>
    cases hu : dictAt st j with
    | none => exact absurd hu hj
    | some u => simp [step, ht, hu]

example : answersOf [.new, .cmpOther .eq 0, .cmp .order 0 0] =
    .ok [.object, .exc .typeError, .exc .pending] := by rfl

/-! ## C80 what is read is what was written -/

/-- C80, part that holds: after any careful program, `d[k] = v` with text that decodes succeeds, and
then `d[k]` is `v`, whatever other keys there are.
Missing: the empty key, text with NUL, bytes that do not decode. -/
theorem C80_partial (lt : UInt8 → UInt8 → Bool) {utf8 : Bytes → Bool} (h0 : utf8 [] = true)
    {ops : List Op} (hc : CarefulRun utf8 [] ops) {st : St} {xs : List Ans}
    (h : run lt utf8 start ops = .ok (st, xs)) {i : Nat} (hi : dictAt st i ≠ none) {k v : Arg}
    {kb vb : Bytes} (hk : keyText k = some kb) (hv : valText v = some vb) (hne : kb ≠ [])
    (hu1 : utf8 kb = true) (hu2 : utf8 vb = true) :
    ∃ st', step lt utf8 st (.set i k v) = .ok (st', .done) ∧
      (step lt utf8 st' (.getItem i k)).map (·.2) = .ok (.text vb) ∧
      (step lt utf8 st' (.get i k)).map (·.2) = .ok (.text vb) ∧
      (step lt utf8 st' (.hasKey i k)).map (·.2) = .ok (.bool true) := by
  obtain ⟨iv, -⟩ := run_inv lt h0 ops inv_start hc h
  cases ht : dictAt st i with
  | none => exact absurd ht hi
  | some t =>
    have wt := (iv.good i t ht).1
    obtain ⟨ha, hah, hav, hal⟩ := alloc_spec st.store (some vb)
    obtain ⟨s2, e2, c2, v2, -⟩ := treeSet_ok lt (s := (alloc st.store (some vb)).1) (t := t) kb
      (alloc st.store (some vb)).2 (by
        intro o ho
        have := iv.live ht (mem_values wt ho)
        rw [hah]
        omega)
    have e : step lt utf8 st (.set i k v) =
        .ok (⟨s2, st.dicts.set i (some (t.set lt kb (some (alloc st.store (some vb)).2))), st.iters⟩,
          .done) := by
      simp only [step, ht, setItem, valueIn_text hv, keyIn_text hk, e2, bind, Except.bind, pure,
        Except.pure, Option.isNone_some, Bool.false_eq_true, if_false]
    refine ⟨_, e, ?_⟩
    obtain ⟨st', x, e', iv', -⟩ := step_safe lt h0 iv (.set i k v)
      ⟨decodes_text hk hu1, decodes_valText hv hu2⟩
    rw [e] at e'
    cases e'
    have ht' := dictAt_set ht s2 (some (t.set lt kb (some (alloc st.store (some vb)).2))) i
    rw [if_pos rfl] at ht'
    have hg := RTree.set_get lt wt kb hne (some (alloc st.store (some vb)).2)
    have hl := iv'.live ht' (mem_values (iv'.good i _ ht').1 hg)
    have hval : valAt s2 (alloc st.store (some vb)).2 = some vb := by
      rw [v2 _ hl, hav, if_pos ha]
    obtain ⟨s3, y3, g3, -, -, hx3⟩ := getItem_ok iv' ht' k
    obtain ⟨s4, y4, g4, -, -, hx4⟩ := hasKey_ok iv' ht' k
    simp only [keyIn_text hk, hg, hval] at hx3 hx4
    refine ⟨?_, ?_, ?_⟩
    · simp only [step, ht', g3, hx3, bind, Except.bind, pure, Except.pure, Except.map]
      rfl
    · rw [step_get iv' ht']
      simp only [keyIn_text hk, hg, hval]
      rfl
    · simp only [step, ht', g4, hx4, bind, Except.bind, pure, Except.pure, Except.map]
      rfl

example : ∃ st xs, run ltb ascii start carelessDemo = .ok (st, xs) ∧
    ∃ st', step ltb ascii st (.set 1 (pys b!"a") (.bytes b!"x")) = .ok (st', .done) ∧
      (step ltb ascii st' (.getItem 1 (pys b!"a"))).map (·.2) = .ok (.text b!"x") ∧
      (step ltb ascii st' (.get 1 (pys b!"a"))).map (·.2) = .ok (.text b!"x") ∧
      (step ltb ascii st' (.hasKey 1 (pys b!"a"))).map (·.2) = .ok (.bool true) :=
  ⟨_, _, rfl, C80_partial ltb rfl carelessDemo_careful rfl (by decide) rfl rfl (by decide)
    (by decide) (by decide)⟩

/-- What `d.get` gives for the texts without NUL. -/
def readsOf (lt : UInt8 → UInt8 → Bool) (utf8 : Bytes → Bool) (st : St) (i : Nat) : FMap Bytes :=
  fun k => if 0 ∈ k then none else
    match ((step lt utf8 st (.get i (pys k))).map (·.2) : Res Ans) with
    | .ok (Ans.text v) => some v
    | _ => none

/-- C80, `str(d)`: after any careful program it shows every key for which `get` has a text, once, with
that text. -/
theorem C80_str_partial (lt : UInt8 → UInt8 → Bool) {utf8 : Bytes → Bool} (h0 : utf8 [] = true)
    {ops : List Op} (hc : CarefulRun utf8 [] ops) {st : St} {xs : List Ans}
    (h : run lt utf8 start ops = .ok (st, xs)) {i : Nat} (hi : dictAt st i ≠ none) :
    ∃ ks, Lists ks (readsOf lt utf8 st i) ∧
      step lt utf8 st (.str i) = .ok (st, .text (render (readsOf lt utf8 st i) ks)) := by
  obtain ⟨iv, -⟩ := run_inv lt h0 ops inv_start hc h
  have pl := run_plain ops plain_start h
  cases ht : dictAt st i with
  | none => exact absurd ht hi
  | some t =>
    obtain ⟨wt, hz⟩ := pl i t ht
    have hr : ∀ k, readsOf lt utf8 st i k = (t.get k).map fun a => (valAt st.store a).getD [] := by
      intro k
      unfold readsOf
      by_cases h0k : 0 ∈ k
      · rw [if_pos h0k]
        cases hg : t.get k with
        | none => rfl
        | some a => exact absurd h0k (hz k ((RTree.mem_keys wt k).2 (by simp [hg])))
      · rw [if_neg h0k, step_get iv ht]
        have hkk : keyIn (pys k) = .ok k := by simp [pys, keyIn, cstr_id h0k]
        rw [hkk]
        simp only
        cases t.get k <;> rfl
    refine ⟨t.keys, ⟨RTree.keys_nodup wt, fun k => ?_⟩, ?_⟩
    · rw [RTree.mem_keys wt, hr]
      simp
    · simp only [step, ht, str, strLoop_ok _ (iv.pairs_live ht), bind, Except.bind, pure, Except.pure]
      congr 3
      unfold render RTree.keys
      rw [lit1, lit2, lit3, lit4, List.flatMap_map]
      congr 2
      rw [List.flatMap_def, List.flatMap_def]
      congr 1
      apply List.map_congr_left
      intro e he
      rw [hr, (RTree.mem_pairs wt _ _).1 he]
      rfl

example : ∃ st xs, run ltb ascii start dictDemo = .ok (st, xs) ∧
    ∃ ks, Lists ks (readsOf ltb ascii st 0) ∧
      step ltb ascii st (.str 0) = .ok (st, .text (render (readsOf ltb ascii st 0) ks)) :=
  ⟨_, _, rfl, C80_str_partial ltb rfl (utf8 := ascii) (ops := dictDemo)
    ⟨trivial, ⟨decodes_pys rfl, decodes_pys rfl⟩, ⟨decodes_pys rfl, decodes_pys rfl⟩, trivial,
      ⟨decodes_pys rfl, decodes_pys rfl⟩, trivial, trivial⟩ rfl (by decide)⟩

/-- C80 is false for the empty key: `d[""] = "1"` succeeds and stores nothing. -/
theorem C80_false_empty : answersOf [.new, .set 0 (pys []) (pys b!"1"), .getItem 0 (pys []), .len 0] =
    .ok [.object, .done, .exc .keyError, .num 0] := by rfl

/-- C80 is false for text with NUL: `d["a\0b"] = "1\0 2"` stores `"1"` for `"a"`. -/
theorem C80_false_nul : answersOf [.new, .set 0 (pys [97, 0, 98]) (pys [49, 0, 50]),
    .getItem 0 (pys [97, 0, 98]), .getItem 0 (pys b!"a")] =
    .ok [.object, .done, .text b!"1", .text b!"1"] := by rfl

/-- C80 is false for bytes that do not decode: they are stored, and `d["a"]` raises
`UnicodeDecodeError`; see also `C75_false_bytes`. -/
theorem C80_false_bytes : answersOf [.new, .set 0 (pys b!"a") (.bytes [255]),
    .hasKey 0 (pys b!"a"), .getItem 0 (pys b!"a")] =
    .ok [.object, .done, .bool true, .exc .unicodeError] := by rfl

end Comps.Props

section
open Comps.Props
#print axioms C72_partial
#print axioms C72_false
#print axioms C73_false
#print axioms C73_false_programs
#print axioms C74_partial
#print axioms C74_false
#print axioms C74_false_fork
#print axioms C75_partial
#print axioms C75_false_values
#print axioms C75_false_items
#print axioms C75_false_outlives
#print axioms C75_false_bytes
#print axioms C76_partial
#print axioms C76_false
#print axioms C76_false_refused
#print axioms C76_false_lost
#print axioms C77_partial
#print axioms C77_false
#print axioms C78_partial
#print axioms C78_type_errors
#print axioms C78_false_none
#print axioms C78_false_pending
#print axioms C79_partial
#print axioms C79_false
#print axioms C79_false_other
#print axioms C80_partial
#print axioms C80_str_partial
#print axioms C80_false_empty
#print axioms C80_false_nul
#print axioms C80_false_bytes
end
