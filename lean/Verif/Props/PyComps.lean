import Verif.Lemmas.PyCompsFacts
import Verif.Model.PyOpts

/-!
# Properties of Python documents (C81-C95)

A program is a list of calls on the `Comps` objects it makes and on the lists and dictionaries it holds
in variables; `run lt start ops` gives the answers of the calls and the state in the end.  `answer lt st o`
is what the call `o` would answer in the state `st`; `.dump c` looks at all of a document and `.read v` at
all of a list.  `lt` is the comparison of characters of the machine.
-/

namespace Comps.Props.PyC
open Comps Comps.Obj Comps.Spec.PyComps Comps.PyComps
open Comps.Parse (Ctx Chunk Parsed parseStr parseFile init)
open Comps.Xml (Options Defaults)

variable (lt : UInt8 → UInt8 → Bool)

/-- For the examples: two groups. -/
def gA : Group := Group.create
def gB : Group := { Group.create with packages := none }

/-- For the examples: a way to parse, texts of a document without entries and of none. -/
def cx0 : Ctx := ⟨fun a b => a < b, Defaults.standard, some [], some []⟩
def goodText : Chunk := ⟨[(⟨1, 1⟩, .start b!"comps" []), (⟨1, 9⟩, .stop b!"comps")], none⟩
def badText : Chunk := ⟨[(⟨1, 1⟩, .start b!"comps" [])], some (⟨1, 9⟩, b!"no element found")⟩

/-- For the examples: the order of bytes. -/
def lt0 (a b : UInt8) : Bool := decide (a < b)

/-- For the examples: a program, its state. -/
def at! (ops : List Op) : PyComps.St :=
  match run lt0 start ops with
  | .ok (_, st) => st
  | .error _ => start

/-! ## C81 attributes show what the document holds -/

/-- **C81, partial.**  In programs that call `clear()` only on documents of which no attribute was read
or assigned before, every answer is that of the reference machine in which an attribute is the list the
document holds; and at any point what `v = c.attr` gives is what the document holds.
Missing: `clear()` after an attribute was read or assigned (`C81_false`). -/
theorem C81_partial {ops : List Op} (h : clearsFirst [] ops = true) :
    (run lt start ops).map (·.1) = (rrun lt RDoc.part rstart ops).map (·.1) ∧
    ∀ as st c s y, run lt start ops = .ok (as, st) → answer lt st (.dump c) = .ok (.content y) →
      ∃ x y', answers lt st [.get c s, .read st.vars.length, .dump c] =
        .ok [.view, .value x, .content y'] ∧ y'.part s = x := by
  constructor
  · rw [← rrun_coh ops coh_start h]
    have := run_sim lt ops good_start
    revert this
    cases run lt start ops <;> cases rrun lt RDoc.shown rstart ops
    · rintro (rfl : _ = _)
      rfl
    · exact fun h => absurd h id
    · exact fun h => absurd h id
    · rintro ⟨e, -⟩
      simp only [Except.map, e]
  · intro as st c s y hr hd
    obtain ⟨r, er, g⟩ := reach hr
    obtain ⟨t, ht⟩ := rrun_coh_end ops coh_start h er
    obtain ⟨d, hd, -⟩ := (dump_some g).1 hd
    have h1 : rstep lt RDoc.shown r (.get c s) = .ok (.view, readAttr RDoc.shown r c d s) := by
      simp only [rstep, hd]
    obtain ⟨st1, e1, g1⟩ := rstep_ok g h1
    obtain ⟨d', b, k1, k2, k3, -⟩ := get_coh ht hd h1
    obtain ⟨x, hx, -⟩ := g1.wf.parts c d' s b k1 k2
    have h2 : rstep lt RDoc.shown (readAttr RDoc.shown r c d s) (.read st.vars.length) =
        .ok (.value x, readAttr RDoc.shown r c d s) := by
      rw [g.2.lenV]
      simp only [rstep, k3, RSt.value, hx]
      rfl
    obtain ⟨st2, e2, g2⟩ := rstep_ok g1 h2
    have h3 : rstep lt RDoc.shown (readAttr RDoc.shown r c d s) (.dump c) =
        .ok (.content (look (readAttr RDoc.shown r c d s) d'), readAttr RDoc.shown r c d s) := by
      simp only [rstep, k1]
    obtain ⟨st3, e3, g3⟩ := rstep_ok g2 h3
    refine ⟨x, look (readAttr RDoc.shown r c d s) d', ?_, ?_⟩
    · simp only [answers, run, e1, e2, e3, bind, Except.bind]
      rfl
    · simp [look, k2, hx]

example : clearsFirst [] [.new b!"UTF-8", .clear 0, .get 0 .groups, .write 0 (.groups [gA])] = true := rfl

example : ∃ x y', answers lt0 (at! [.new b!"UTF-8", .get 0 .groups, .write 0 (.groups [gA])])
      [.get 0 .groups, .read 1, .dump 0] = .ok [.view, .value x, .content y'] ∧ y'.part .groups = x :=
  (C81_partial lt0 (ops := [.new b!"UTF-8", .get 0 .groups, .write 0 (.groups [gA])]) rfl).2
    _ _ 0 .groups _ rfl rfl

/-- **C81, false.**  After `clear()` an attribute that was read before still shows the old entries,
which are not in the document any more; and what is added to it then is not in the document either. -/
theorem C81_false (x : List Group) : ∃ y y',
    answers lt start [.new b!"UTF-8", .get 0 .groups, .write 0 (.groups [gA]), .clear 0, .get 0 .groups,
      .read 1, .dump 0, .write 1 (.groups x), .dump 0] =
      .ok [.comps, .view, .done, .done, .view, .value (.groups [gA]), .content y, .done, .content y'] ∧
    y.part .groups = .groups [] ∧ y'.part .groups = .groups [] :=
  ⟨_, _, rfl, rfl, rfl⟩

/-! ## C82 memory management cannot be seen -/

/-- **C82.**  Every program gets the answers of a machine that never frees anything and has no
reference counts. -/
theorem C82_answers (ops : List Op) :
    answers lt start ops = (rrun lt RDoc.shown rstart ops).map (·.1) := by
  have := run_sim lt ops good_start
  revert this
  unfold answers
  cases run lt start ops <;> cases rrun lt RDoc.shown rstart ops
  · rintro (rfl : _ = _)
    rfl
  · exact fun h => absurd h id
  · exact fun h => absurd h id
  · rintro ⟨e, -⟩
    simp only [Except.map, e]

/-- **C82.**  No program of the calls named in `plain` uses freed memory or fails in any other way, and
neither does such a program after any other one. -/
theorem C82_safe {ops more : List Op} {as : List Ans} {st : PyComps.St}
    (h : run lt start ops = .ok (as, st)) (hm : more.all plain = true) :
    ∃ as', answers lt st more = .ok as' := by
  obtain ⟨r, -, g⟩ := reach h
  obtain ⟨⟨as', st'⟩, e⟩ := plain_run (lt := lt) more g hm
  exact ⟨as', by simp only [answers, e]; rfl⟩

/-- A list outlives the document it came from and the document it was put into. -/
example : answers lt0 start [.new b!"a", .new b!"b", .get 0 .groups, .write 0 (.groups [gA]),
    .set 1 .groups 0, .drop 0, .get 1 .groups, .del 0, .drop 1, .read 1] =
    .ok [.comps, .comps, .view, .done, .done, .done, .view, .done, .done, .value (.groups [gA])] := rfl

example : ∃ as', answers lt0 (at! [.new b!"a", .get 0 .groups]) [.drop 0, .read 0, .dump 0] = .ok as' :=
  C82_safe lt0 (ops := [.new b!"a", .get 0 .groups]) rfl rfl

/-! ## C83 loading from a string -/

/-- What is true after the document `c` was loaded. -/
structure Loaded (st st' : PyComps.St) (c : Nat) (p : Parsed) : Prop where
  content : answer lt st' (.dump c) = .ok (.content (parsedContent p))
  log : answer lt st' (.lastLog c) = .ok (.log p.log)
  attr : ∀ s, answers lt st' [.get c s, .read st'.vars.length] =
    .ok [.view, .value ((parsedContent p).part s)]
  vars : ∀ v, answer lt st' (.read v) = answer lt st (.read v)
  others : ∀ c', c' ≠ c → answer lt st' (.dump c') = answer lt st (.dump c') ∧
    answer lt st' (.lastLog c') = answer lt st (.lastLog c')
  apart : ∀ v x a st'', step lt st' (.write v x) = .ok (a, st'') →
    answer lt st'' (.dump c) = .ok (.content (parsedContent p))

theorem mkLoaded {st st' : PyComps.St} {r r' : RSt} {c : Nat} {p : Parsed} {d0 : RDoc} (g : Good st r)
    (hd : r.doc c = some d0) (h : takeParsed r c p = .ok r') (g' : Good st' r') :
    Loaded lt st st' c p := by
  obtain ⟨h1, h2, h3, h4, h5, h6⟩ := loaded (lt := lt) g hd h g'
  exact ⟨h1, h2, h3, h4, h5, h6⟩

/-- **C83.**  `c.fromxml_str(text)`: when it raises an exception nothing has changed; otherwise the
document is what the parser read, its attributes included, lists taken from it before keep what they
held and are not its lists any more, and other documents stay as they are. -/
theorem C83_fromxml_str {ops : List Op} {as : List Ans} {st st' : PyComps.St}
    (h : run lt start ops = .ok (as, st)) {c : Nat} {cx : Ctx} {text : Chunk} {a : Ans}
    (hs : step lt st (.fromStr c cx text) = .ok (a, st')) :
    ((∃ e, a = .exc e) ∧ st' = st) ∨
    ∃ n p, a = .num n ∧ n ≠ -1 ∧ parseStr cx (init (some b!"UTF-8")) text = .ok (n, p) ∧
      Loaded lt st st' c p := by
  obtain ⟨r, -, g⟩ := reach h
  obtain ⟨r', e, g'⟩ := step_ok g hs
  simp only [step] at hs
  simp only [rstep, bind, Except.bind] at e
  cases hd : st.doc c with
  | none =>
    simp only [hd] at hs
    cases hs
    exact .inl ⟨⟨_, rfl⟩, rfl⟩
  | some d =>
    simp only [hd, fromStr, bind, Except.bind] at hs
    cases hp : parseStr cx (init (some b!"UTF-8")) text with
    | error f => simp [hp] at hs
    | ok q =>
      obtain ⟨n, p⟩ := q
      simp only [hp] at hs e
      by_cases hn : n = -1
      · rw [if_pos hn] at hs
        cases hs
        exact .inl ⟨⟨_, rfl⟩, rfl⟩
      · right
        rcases g.2.doc c with ⟨e0, _⟩ | ⟨d', rd, e1, e2, -⟩
        · rw [e0] at hd
          cases hd
        · simp only [e2, if_neg hn] at e
          cases ht : takeParsed r c p with
          | error f => simp [ht] at e
          | ok r1 =>
            simp only [ht] at e
            cases e
            exact ⟨n, p, rfl, hn, rfl, mkLoaded lt g e2 ht g'⟩

example : ∃ st', step lt0 (at! [.new b!"a", .get 0 .groups, .write 0 (.groups [gA])])
      (.fromStr 0 cx0 goodText) = .ok (.num 0, st') ∧
    answer lt0 st' (.read 0) = .ok (.value (.groups [gA])) := ⟨_, rfl, rfl⟩

example : ∃ st', step lt0 (at! [.new b!"a", .get 0 .groups, .write 0 (.groups [gA])])
      (.fromStr 0 cx0 badText) = .ok (.exc .parserError, st') := ⟨_, rfl⟩

/-! ## C84 loading from a file -/

/-- **C84, partial.**  `c.fromxml_f(name)`: when the file cannot be opened nothing has changed; when a
result is returned the document is what the parser read, as in C83.
Missing: a `ParserError` should leave the document alone (`C84_false`). -/
theorem C84_partial {ops : List Op} {as : List Ans} {st st' : PyComps.St}
    (h : run lt start ops = .ok (as, st)) {c : Nat} {cx : Ctx} {file : Option (List Chunk)} {a : Ans}
    (hs : step lt st (.fromFile c cx file) = .ok (a, st')) :
    (file = none → (∃ e, a = .exc e) ∧ st' = st) ∧
    (∀ n, a = .num n → ∃ p, n ≠ -1 ∧
      parseFile cx (init (some b!"UTF-8")) file = .ok (n, p) ∧ Loaded lt st st' c p) := by
  obtain ⟨r, -, g⟩ := reach h
  obtain ⟨r', e, g'⟩ := step_ok g hs
  constructor
  · rintro rfl
    simp only [step] at hs
    split at hs
    · cases hs
      exact ⟨⟨_, rfl⟩, rfl⟩
    · simp only [fromFile] at hs
      cases hs
      exact ⟨⟨_, rfl⟩, rfl⟩
  · rintro n rfl
    simp only [rstep, bind, Except.bind] at e
    cases hd : r.doc c with
    | none =>
      simp only [hd] at e
      cases e
    | some d =>
      cases file with
      | none =>
        simp only [hd] at e
        cases e
      | some cs =>
        simp only [hd] at e
        cases hp : parseFile cx (init (some b!"UTF-8")) (some cs) with
        | error f => simp [hp] at e
        | ok q =>
          obtain ⟨m, p⟩ := q
          simp only [hp] at e
          cases ht : takeParsed r c p with
          | error f => simp [ht] at e
          | ok r1 =>
            simp only [ht] at e
            by_cases hm : m = -1
            · rw [if_pos hm] at e
              cases e
            · rw [if_neg hm] at e
              cases e
              exact ⟨p, hm, rfl, mkLoaded lt g hd ht g'⟩

example : ∃ st', step lt0 (at! [.new b!"a", .get 0 .groups, .write 0 (.groups [gA])])
      (.fromFile 0 cx0 (some [goodText])) = .ok (.num 0, st') := ⟨_, rfl⟩

example : ∃ st', step lt0 (at! [.new b!"a"]) (.fromFile 0 cx0 none) = .ok (.exc .ioError, st') :=
  ⟨_, rfl⟩

/-- **C84, false.**  `fromxml_f` on a file that is not well-formed raises `ParserError` and throws the
document away all the same. -/
theorem C84_false : ∃ y, answers lt start [.new b!"UTF-8", .get 0 .groups, .write 0 (.groups [gA]),
    .fromFile 0 cx0 (some [badText]), .dump 0] =
    .ok [.comps, .view, .done, .exc .parserError, .content y] ∧ y.part .groups = .groups [] :=
  ⟨_, rfl, rfl⟩

/-! ## C85 the log -/

/-- **C85, partial.**  After a load that returned a result, and after `fromxml_f` on any file that could
be opened, `get_last_log()` gives the messages of that load.
Missing: `fromxml_str` that raised an exception (`C85_false`). -/
theorem C85_partial {ops : List Op} {as : List Ans} {st st' : PyComps.St}
    (h : run lt start ops = .ok (as, st)) {c : Nat} {cx : Ctx} {a : Ans} :
    (∀ text n, step lt st (.fromStr c cx text) = .ok (.num n, st') →
      ∃ p, parseStr cx (init (some b!"UTF-8")) text = .ok (n, p) ∧
        answer lt st' (.lastLog c) = .ok (.log p.log)) ∧
    (∀ cs, step lt st (.fromFile c cx (some cs)) = .ok (a, st') → a ≠ .exc .nameError →
      ∃ n p, parseFile cx (init (some b!"UTF-8")) (some cs) = .ok (n, p) ∧
        answer lt st' (.lastLog c) = .ok (.log p.log)) := by
  constructor
  · intro text n hs
    rcases C83_fromxml_str lt h hs with ⟨⟨e, he⟩, -⟩ | ⟨m, p, he, -, hp, hl⟩
    · cases he
    · cases he
      exact ⟨p, hp, hl.log⟩
  · intro cs hs hne
    obtain ⟨r, -, g⟩ := reach h
    obtain ⟨r', e, g'⟩ := step_ok g hs
    simp only [rstep, bind, Except.bind] at e
    cases hd : r.doc c with
    | none =>
      simp only [hd] at e
      cases e
      exact absurd rfl hne
    | some d =>
      simp only [hd] at e
      cases hp : parseFile cx (init (some b!"UTF-8")) (some cs) with
      | error f => simp [hp] at e
      | ok q =>
        obtain ⟨m, p⟩ := q
        simp only [hp] at e
        cases ht : takeParsed r c p with
        | error f => simp [ht] at e
        | ok r1 =>
          simp only [ht] at e
          cases e
          exact ⟨m, p, rfl, (mkLoaded lt g hd ht g').log⟩

example : ∃ l, answers lt0 start [.new b!"a", .fromFile 0 cx0 (some [badText]), .lastLog 0] =
    .ok [.comps, .exc .parserError, .log l] ∧ l.map (·.code) = [4] := ⟨_, rfl, rfl⟩

/-- **C85, false.**  After `fromxml_str` raised `ParserError`, `get_last_log()` knows nothing of it: it
still gives the messages of the load before. -/
theorem C85_false : answers lt start [.new b!"UTF-8", .fromStr 0 cx0 goodText, .fromStr 0 cx0 badText,
    .lastLog 0] = .ok [.comps, .num 0, .exc .parserError, .log []] ∧
    ∃ p, parseStr cx0 (init (some b!"UTF-8")) badText = .ok (-1, p) ∧ p.log.map (·.code) = [4] :=
  ⟨rfl, _, rfl, rfl⟩

/-! ## C86 assignment -/

/-- **C86.**  `c.attr = v` makes the list in `v` that part of the document and changes nothing else: not
the other parts, not what any variable holds, not any other document. -/
theorem C86_assign {ops : List Op} {as : List Ans} {st st' : PyComps.St}
    (h : run lt start ops = .ok (as, st)) {c v : Nat} {s : Sec}
    (hs : step lt st (.set c s v) = .ok (.done, st')) :
    ∃ x y, answer lt st (.read v) = .ok (.value x) ∧ answer lt st (.dump c) = .ok (.content y) ∧
      answer lt st' (.dump c) = .ok (.content { y with part := fun t => if t = s then x else y.part t }) ∧
      (∀ v', answer lt st' (.read v') = answer lt st (.read v')) ∧
      (∀ c', c' ≠ c → answer lt st' (.dump c') = answer lt st (.dump c')) ∧
      (∀ c', answer lt st' (.lastLog c') = answer lt st (.lastLog c')) ∧
      answers lt st' [.get c s, .read st'.vars.length] = .ok [.view, .value x] := by
  obtain ⟨r, -, g⟩ := reach h
  obtain ⟨r', e, g'⟩ := step_ok g hs
  rcases set_facts g e with ⟨h0, -⟩ | ⟨d, b, x, hd, hv, hx, ⟨h0, -⟩ | ⟨-, hk, rfl⟩⟩
  · cases h0
  · cases h0
  · refine ⟨x, look r d, (read_some g).2 ⟨b, hv, hx⟩, (dump_some g).2 ⟨d, hd, rfl⟩,
      (dump_some g').2 ⟨_, doc_put_self hd, ?_⟩, fun v' => read_congr g g' rfl, fun c' hc => ?_,
      fun c' => ?_, ?_⟩
    · simp only [look]
      congr 1
      funext t
      by_cases et : t = s
      · simp [et, RSt.put, hx]
      · simp [et, RSt.put]
    · exact dump_congr g g' (by rw [doc_put_ne hc]; rfl)
    · unfold answer
      rw [log_ans g, log_ans g']
      by_cases ec : c' = c
      · subst ec
        rw [doc_put_self hd, hd]
      · rw [doc_put_ne ec]
    · obtain ⟨st1, e1, g1⟩ := get_step (lt := lt) g' (doc_put_self hd) s
      obtain ⟨k1, k2, -⟩ := readAttr_shown (r := r.put c _) (c := c) (s := s) (b := b) (d := { d with
        part := fun t => if t = s then some b else d.part t
        shown := fun t => if t = s then some b else d.shown t }) (if_pos rfl)
      rw [← g'.2.lenV] at k2
      obtain ⟨st2, e2, g2⟩ := read_step (lt := lt) g1 k2 (by rw [k1]; exact hx)
      simp only [answers, run, e1, e2, bind, Except.bind]
      rfl

/-- **C86.**  Afterwards the list is shared: what is written to the variable is in the document, and what
is written to the attribute is in the variable. -/
theorem C86_shared {ops : List Op} {as : List Ans} {st st' : PyComps.St}
    (h : run lt start ops = .ok (as, st)) {c v : Nat} {s : Sec} {x : DocVal}
    (hs : step lt st (.set c s v) = .ok (.done, st')) (hk : kindOf x = some s.kind) :
    (∃ y, answers lt st' [.write v x, .dump c] = .ok [.done, .content y] ∧ y.part s = x) ∧
    answers lt st' [.get c s, .write st'.vars.length x, .read v] = .ok [.view, .done, .value x] := by
  obtain ⟨r, -, g⟩ := reach h
  obtain ⟨r', e, g'⟩ := step_ok g hs
  rcases set_facts g e with ⟨h0, -⟩ | ⟨d, b, x0, hd, hv, hx, ⟨h0, -⟩ | ⟨-, hk0, rfl⟩⟩
  · cases h0
  · cases h0
  · have hl := (List.getElem?_eq_some_iff.1 hx).1
    have hkk : kindOf x = kindOf x0 := hk.trans hk0.symm
    constructor
    · obtain ⟨st1, e1, g1⟩ := write_step (lt := lt) g' (v := v) (x := x) hv hx hkk
      obtain ⟨st2, e2, g2⟩ := dump_step (lt := lt) g1 (c := c) (doc_put_self hd)
      refine ⟨_, by simp only [answers, run, e1, e2, bind, Except.bind]; rfl, ?_⟩
      simp [look, RSt.put, List.getElem?_set_self hl]
    · obtain ⟨st1, e1, g1⟩ := get_step (lt := lt) g' (doc_put_self hd) s
      obtain ⟨k1, k2, k3⟩ := readAttr_shown (r := r.put c _) (c := c) (s := s) (b := b) (d := { d with
        part := fun t => if t = s then some b else d.part t
        shown := fun t => if t = s then some b else d.shown t }) (if_pos rfl)
      rw [← g'.2.lenV] at k2
      obtain ⟨st2, e2, g2⟩ := write_step (lt := lt) g1 (x := x) k2 (by rw [k1]; exact hx) hkk
      obtain ⟨st3, e3, g3⟩ := read_step (lt := lt) g2 (v := v) (b := b) (y := x)
        ((k3 v (var_lt hv)).trans hv) (by
          rw [k1]
          exact List.getElem?_set_self hl)
      simp only [answers, run, e1, e2, e3, bind, Except.bind]
      rfl

/-- **C86.**  The assignment is done if the list is of the type of the attribute; otherwise it raises
`TypeError` and nothing has changed. -/
theorem C86_types {ops : List Op} {as : List Ans} {st : PyComps.St}
    (h : run lt start ops = .ok (as, st)) {c v : Nat} {s : Sec} {x : DocVal} {y : Content}
    (hx : answer lt st (.read v) = .ok (.value x)) (hy : answer lt st (.dump c) = .ok (.content y)) :
    (kindOf x = some s.kind → ∃ st', step lt st (.set c s v) = .ok (.done, st')) ∧
    (kindOf x ≠ some s.kind → step lt st (.set c s v) = .ok (.exc .typeError, st)) := by
  obtain ⟨r, -, g⟩ := reach h
  obtain ⟨a, st', e⟩ := plain_ok (lt := lt) g (o := .set c s v) rfl
  obtain ⟨r', e', -⟩ := step_ok g e
  obtain ⟨b, hb, hbx⟩ := (read_some g).1 hx
  obtain ⟨d, hd, -⟩ := (dump_some g).1 hy
  rcases set_facts g e' with ⟨-, -, h0 | h0⟩ | ⟨d', b', x', -, hv', hx', h0⟩
  · rw [hd] at h0
    cases h0
  · rw [hb] at h0
    cases h0
  · rw [hb] at hv'
    cases hv'
    rw [hbx] at hx'
    cases hx'
    rcases h0 with ⟨rfl, -, hk⟩ | ⟨rfl, hk, -⟩
    · refine ⟨fun hk' => absurd hk' hk, fun _ => ?_⟩
      rw [e, set_same lt e (by simp)]
    · exact ⟨fun _ => ⟨st', e⟩, fun hk' => absurd hk hk'⟩

example : ∃ st', step lt0 (at! [.new b!"a", .make .groups, .write 0 (.groups [gA]), .get 0 .groups,
    .write 1 (.groups [gB])]) (.set 0 .groups 0) = .ok (.done, st') ∧
    answer lt0 st' (.read 1) = .ok (.value (.groups [gB])) := ⟨_, rfl, rfl⟩

example : answer lt0 (at! [.new b!"a", .make .dict]) (.set 0 .groups 0) = .ok (.exc .typeError) := rfl

/-! ## C87 refused arguments -/

/-- **C87, partial.**  Assigning a list of another type and comparing with another document are fine:
`TypeError`, or an answer.  Missing: deleting an attribute, and comparing with anything else
(`C87_false_del`, `C87_false_eq`). -/
theorem C87_partial {ops : List Op} {as : List Ans} {st : PyComps.St}
    (h : run lt start ops = .ok (as, st)) (c v : Nat) (s : Sec) :
    ∃ a st', step lt st (.set c s v) = .ok (a, st') ∧ (a ≠ .done → (∃ e, a = .exc e) ∧ st' = st) := by
  obtain ⟨r, -, g⟩ := reach h
  obtain ⟨a, st', e⟩ := plain_ok (lt := lt) g (o := .set c s v) rfl
  obtain ⟨r', e', -⟩ := step_ok g e
  refine ⟨a, st', e, fun ha => ⟨?_, set_same lt e ha⟩⟩
  rcases set_facts g e' with ⟨rfl, -⟩ | ⟨_, _, _, -, -, -, ⟨rfl, -⟩ | ⟨rfl, -⟩⟩
  · exact ⟨_, rfl⟩
  · exact ⟨_, rfl⟩
  · exact absurd rfl ha

example : ∃ a st', step lt0 (at! [.new b!"a", .make .dict]) (.set 0 .groups 0) = .ok (a, st') ∧
    (a ≠ .done → (∃ e, a = .exc e) ∧ st' = at! [.new b!"a", .make .dict]) :=
  C87_partial lt0 (ops := [.new b!"a", .make .dict]) rfl 0 0 .groups

/-- **C87, false.**  `del c.attr` reads through a NULL pointer, whatever the state. -/
theorem C87_false_del {ops : List Op} {as : List Ans} {st : PyComps.St} {c : Nat} {y : Content}
    (h : run lt start ops = .ok (as, st)) (hy : answer lt st (.dump c) = .ok (.content y)) (s : Sec) :
    step lt st (.delAttr c s) = .error .nullDeref := by
  obtain ⟨r, -, g⟩ := reach h
  obtain ⟨d, hd, -⟩ := (dump_some g).1 hy
  rcases g.2.doc c with ⟨_, e⟩ | ⟨d', rd, e1, -, -⟩
  · rw [e] at hd
    cases hd
  · simp only [step, e1]

/-- **C87, false.**  `c == x` takes any other object for a document, whatever the state. -/
theorem C87_false_eq {ops : List Op} {as : List Ans} {st : PyComps.St} {c : Nat} {y : Content}
    (h : run lt start ops = .ok (as, st)) (hy : answer lt st (.dump c) = .ok (.content y)) :
    step lt st (.eq c none) = .error .typeConfusion := by
  obtain ⟨r, -, g⟩ := reach h
  obtain ⟨d, hd, -⟩ := (dump_some g).1 hy
  rcases g.2.doc c with ⟨_, e⟩ | ⟨d', rd, e1, -, -⟩
  · rw [e] at hd
    cases hd
  · simp only [step, e1]

example : step lt0 (at! [.new b!"a"]) (.delAttr 0 .groups) = .error .nullDeref ∧
    step lt0 (at! [.new b!"a"]) (.eq 0 none) = .error .typeConfusion :=
  ⟨C87_false_del lt0 (ops := [.new b!"a"]) rfl rfl .groups,
   C87_false_eq lt0 (ops := [.new b!"a"]) rfl rfl⟩

/-! ## C88 documents do not share lists by themselves -/

/-- One part of a document, as far as there is one. -/
def partOf (st : PyComps.St) (c : Nat) (s : Sec) : Option DocVal :=
  match answer lt st (.dump c) with
  | .ok a => partIn s a
  | .error _ => none

theorem partOf_eq {st : PyComps.St} {r : RSt} (g : Good st r) (c : Nat) (s : Sec) :
    partOf lt st c s = (r.doc c).map fun d => (look r d).part s := by
  unfold partOf answer
  rw [dump_ans g]
  cases r.doc c <;> rfl

/-- **C88.**  As long as no attribute was assigned, a change made to a list is seen in at most one part
of one document: documents read from the same text, sums and filtered documents share nothing. -/
theorem C88_apart {ops : List Op} {as : List Ans} {st st' : PyComps.St}
    (h : run lt start ops = .ok (as, st)) (hn : ops.all noAssign = true) {v : Nat} {x : DocVal}
    {a : Ans} (hs : step lt st (.write v x) = .ok (a, st')) :
    ∃ c s, ∀ c' s', (c', s') ≠ (c, s) → partOf lt st' c' s' = partOf lt st c' s' := by
  obtain ⟨r, g, ho⟩ := run_owned hn h
  obtain ⟨r', e, g'⟩ := step_ok g hs
  rcases write_facts g e with ⟨-, rfl, -⟩ | ⟨b, z, hv, hz, ⟨-, rfl, -⟩ | ⟨-, -, rfl⟩⟩
  · exact ⟨0, .groups, fun c' s' _ => by rw [partOf_eq lt g, partOf_eq lt g']⟩
  · exact ⟨0, .groups, fun c' s' _ => by rw [partOf_eq lt g, partOf_eq lt g']⟩
  · have hl := (List.getElem?_eq_some_iff.1 hz).1
    have key : ∀ c' s', (∀ d, r.doc c' = some d → d.part s' ≠ some b) →
        partOf lt st' c' s' = partOf lt st c' s' := by
      intro c' s' hne
      rw [partOf_eq lt g, partOf_eq lt g']
      show (r.doc c').map _ = _
      cases hd : r.doc c' with
      | none => rfl
      | some d =>
        simp only [Option.map_some]
        rw [look_write d hl]
        simp only [hne d hd, if_false]
    by_cases hex : ∃ c d s, r.doc c = some d ∧ d.part s = some b
    · obtain ⟨c, d, s, hd, hp⟩ := hex
      refine ⟨c, s, fun c' s' hne => key c' s' fun d' hd' hp' => hne ?_⟩
      obtain ⟨e1, e2⟩ := ho c c' d d' s s' b hd hd' hp hp'
      rw [e1, e2]
    · exact ⟨0, .groups, fun c' s' _ => key c' s' fun d' hd' hp' => hex ⟨c', d', s', hd', hp'⟩⟩

/-- A document, one with the same content, and their sum. -/
example : ∃ c s, ∀ c' s', (c', s') ≠ (c, s) →
    partOf lt0 (at! ([.new b!"a", .new b!"b", .get 0 .groups, .get 1 .groups] ++
      [.write 0 (.groups [gA])])) c' s' =
    partOf lt0 (at! [.new b!"a", .new b!"b", .get 0 .groups, .get 1 .groups]) c' s' :=
  C88_apart lt0 (ops := [.new b!"a", .new b!"b", .get 0 .groups, .get 1 .groups]) (v := 0)
    (x := .groups [gA]) (a := .done) rfl rfl rfl

/-! ## C89 everything is freed -/

/-- **C89, partial.**  When a program has let go of all its documents and lists, everything is freed, if it
never read or assigned `langpacks`, `blacklist` or `whiteout` as attribute.
Missing: programs that do (`C89_false`). -/
theorem C89_partial {ops : List Op} {as : List Ans} {st : PyComps.St}
    (h : run lt start ops = .ok (as, st)) (hn : ops.all threeOnly = true)
    (hv : ∀ x ∈ st.vars, x = none) (hd : ∀ x ∈ st.docs, x = none) :
    (∀ x ∈ st.wraps, x = none) ∧ ∀ x ∈ st.objs, x = none := by
  obtain ⟨hl, r, g⟩ := run_three ops good_start
    (by intro c d s hd; simp [rstart, RSt.doc] at hd) rfl hn h
  exact all_freed g hl hd hv

example : (at! [.new b!"a", .get 0 .groups, .new b!"b", .set 1 .groups 0, .clear 0, .del 0, .drop 1,
    .drop 0]).objs = [none] := rfl

example : (∀ x ∈ (at! [.new b!"a", .get 0 .groups, .del 0, .drop 0]).wraps, x = none) ∧
    ∀ x ∈ (at! [.new b!"a", .get 0 .groups, .del 0, .drop 0]).objs, x = none :=
  C89_partial lt0 (ops := [.new b!"a", .get 0 .groups, .del 0, .drop 0]) rfl rfl
    (by intro x hx; exact List.mem_singleton.1 hx) (by intro x hx; exact List.mem_singleton.1 hx)

/-- **C89, false.**  `v = c.langpacks; del v; del c` leaves the dictionary and the Python object around it
for ever. -/
theorem C89_false (s : Sec) (hs : s = .langpacks ∨ s = .blacklist ∨ s = .whiteout) : ∃ as st o w,
    run lt start [.new b!"UTF-8", .get 0 s, .del 0, .drop 0] = .ok (as, st) ∧
    (∀ x ∈ st.vars, x = none) ∧ (∀ x ∈ st.docs, x = none) ∧
    st.objs = [some o] ∧ st.wraps = [some w] := by
  rcases hs with rfl | rfl | rfl
  · exact ⟨_, _, _, _, rfl, fun _ h => List.mem_singleton.1 h,
      fun _ h => List.mem_singleton.1 h, rfl, rfl⟩
  · exact ⟨_, _, _, _, rfl, fun _ h => List.mem_singleton.1 h,
      fun _ h => List.mem_singleton.1 h, rfl, rfl⟩
  · exact ⟨_, _, _, _, rfl, fun _ h => List.mem_singleton.1 h,
      fun _ h => List.mem_singleton.1 h, rfl, rfl⟩

/-! ## C90 clear -/

/-- **C90.**  After `c.clear()` the document is that of `Comps(encoding)`, with the encoding it had, and
an empty log; lists held in variables keep what they hold, and other documents stay as they are. -/
theorem C90_clear {ops : List Op} {as : List Ans} {st : PyComps.St} {c : Nat} {y : Content}
    (h : run lt start ops = .ok (as, st)) (hy : answer lt st (.dump c) = .ok (.content y)) :
    ∃ st', step lt st (.clear c) = .ok (.done, st') ∧
      answer lt st' (.dump c) = .ok (.content (emptyContent y.encoding)) ∧
      answer lt st' (.lastLog c) = .ok (.log []) ∧
      (∀ v, answer lt st' (.read v) = answer lt st (.read v)) ∧
      ∀ c', c' ≠ c → answer lt st' (.dump c') = answer lt st (.dump c') ∧
        answer lt st' (.lastLog c') = answer lt st (.lastLog c') := by
  obtain ⟨r, -, g⟩ := reach h
  obtain ⟨d, hd, rfl⟩ := (dump_some g).1 hy
  obtain ⟨st', e, g'⟩ := clear_step (lt := lt) g hd
  refine ⟨st', e, (dump_some g').2 ⟨_, doc_put_self hd, ?_⟩, (log_some g').2 ⟨_, doc_put_self hd, rfl⟩,
    fun v => read_congr g g' rfl, fun c' hc => ⟨?_, ?_⟩⟩
  · simp [look, emptyDoc, emptyContent]
  · exact dump_congr g g' (by rw [doc_put_ne hc]; rfl)
  · unfold answer
    rw [log_ans g, log_ans g', doc_put_ne hc]

example : ∃ y, answers lt0 start [.new b!"a", .get 0 .groups, .write 0 (.groups [gA]), .clear 0, .read 0,
    .dump 0] = .ok [.comps, .view, .done, .done, .value (.groups [gA]), .content y] ∧
    y.part .groups = .groups [] := ⟨_, rfl, rfl⟩

/-! ## C91 validation -/

/-- **C91.**  `validate()` and `validate_nf()` agree: without messages `validate()` returns, otherwise it
raises `ValueError` with the first message; neither changes anything. -/
theorem C91_agree {ops : List Op} {as : List Ans} {st : PyComps.St}
    (h : run lt start ops = .ok (as, st)) (c : Nat) :
    (∀ l, answer lt st (.validateNf c) = .ok (.msgs l) →
      step lt st (.validate c) = .ok (match l with
        | [] => .done
        | m :: _ => .exc (.valueError m), st)) ∧
    (∀ a st', step lt st (.validateNf c) = .ok (a, st') → st' = st ∧
      (a = .exc .nameError ∨ ∃ l, a = .msgs l)) ∧
    (∀ f, step lt st (.validateNf c) = .error f → step lt st (.validate c) = .error f) := by
  obtain ⟨r, -, g⟩ := reach h
  have hdoc : ∀ {d}, st.doc c = some d → ∃ x, content st d = .ok x := by
    intro d hd
    rcases g.2.doc c with ⟨e, _⟩ | ⟨d', rd, e1, e2, hr⟩
    · rw [e] at hd
      cases hd
    · have := dump_ans (lt := lt) g c
      simp only [step, e1, e2, bind, Except.bind] at this
      rw [e1] at hd
      cases hd
      cases hc : content st d with
      | error f =>
        rw [hc] at this
        cases this
      | ok x => exact ⟨x, rfl⟩
  unfold answer
  simp only [step]
  cases hd : st.doc c with
  | none =>
    refine ⟨fun l e => ?_, fun a st' e => ?_, fun f e => ?_⟩
    · cases e
    · cases e
      exact ⟨rfl, .inl rfl⟩
    · cases e
  | some d =>
    obtain ⟨x, hx⟩ := hdoc hd
    simp only [hx, bind, Except.bind]
    cases hv : Val.execute (.doc (x.toDoc lt)) (Val.docRules lt) with
    | error f =>
      refine ⟨fun l e => ?_, fun a st' e => ?_, fun f' e => ?_⟩
      · cases e
      · cases e
      · cases e
        rfl
    | ok v =>
      cases v with
      | ok =>
        refine ⟨fun l e => ?_, fun a st' e => ?_, fun f e => ?_⟩
        · cases e
          rfl
        · cases e
          exact ⟨rfl, .inr ⟨_, rfl⟩⟩
        · cases e
      | err es =>
        cases es with
        | nil => exact absurd hv (docRules_ne _)
        | cons m ms =>
          refine ⟨fun l e => ?_, fun a st' e => ?_, fun f e => ?_⟩
          · cases e
            rfl
          · cases e
            exact ⟨rfl, .inr ⟨_, rfl⟩⟩
          · cases e

/-- A group without an id. -/
example : (match answer lt0 (at! [.new b!"a", .get 0 .groups, .write 0 (.groups [gA])])
      (.validateNf 0) with
    | .ok (.msgs l) => l.length
    | _ => 0) = 1 := by decide +kernel

example : answer lt0 (at! [.new b!"a"]) (.validate 0) = .ok .done := rfl

/-! ## C92 options -/

/-- The documented names of the options for writing. -/
def optionNames : List (Bytes × (Options → Bool)) :=
  [(b!"empty_groups", Options.emptyGroups), (b!"empty_categories", Options.emptyCategories),
   (b!"empty_environments", Options.emptyEnvironments), (b!"empty_langpacks", Options.emptyLangpacks),
   (b!"empty_blacklist", Options.emptyBlacklist), (b!"empty_whiteout", Options.emptyWhiteout),
   (b!"empty_packages", Options.emptyPackages), (b!"empty_grouplist", Options.emptyGrouplist),
   (b!"empty_optionlist", Options.emptyOptionlist), (b!"biarchonly_explicit", Options.biarchonlyExplicit),
   (b!"uservisible_explicit", Options.uservisibleExplicit), (b!"default_explicit", Options.defaultExplicit),
   (b!"gid_default_explicit", Options.gidDefaultExplicit), (b!"bao_explicit", Options.baoExplicit),
   (b!"arch_output", Options.archOutput)]

/-- The documented names of the default values, with the values they have by themselves. -/
def defaultNames : List (Bytes × (Defaults → Bool) × Bool) :=
  [(b!"default_uservisible", Defaults.uservisible, true), (b!"default_biarchonly", Defaults.biarchonly, false),
   (b!"default_default", Defaults.dflt, false)]

/-- What a dictionary says about an option. -/
def said (m : PyMap) (k : Bytes) (dflt : Bool) : Bool :=
  match m k with
  | some (.bool b) => b
  | _ => dflt

theorem takeBool_ne {α : Type} {f : α → Bool} {k : Bytes × (α → Bool → α)} {m : PyMap} {o : α}
    (h : ∀ o b, f (k.2 o b) = f o) : f (takeBool m o k) = f o := by
  unfold takeBool
  split
  · exact h _ _
  · rfl

theorem takeBool_eq {α : Type} {f : α → Bool} {k : Bytes × (α → Bool → α)} {m : PyMap} {o : α}
    (h : ∀ o b, f (k.2 o b) = b) : f (takeBool m o k) = said m k.1 (f o) := by
  unfold takeBool said
  cases m k.1 with
  | none => rfl
  | some v => cases v <;> first | exact h _ _ | rfl

/-- The package type with a number. -/
def typeNumber : Text.PkgType → Int
  | .default => 0
  | .optional => 1
  | .conditional => 2
  | .mandatory => 3
  | .unknown => 4

/-- **C92, partial.**  A dictionary of options sets exactly the options it names, with the values `True`
and `False`; all others are `False`, that is the default.  Likewise for the default values.  The package
type is set by its number; a dictionary without package type, or with any number as package type, causes
no exception.  Anything but a dictionary is refused with `TypeError`, and nothing is done.
Missing: a package type that is no number (`C92_false_type`), and `get_xml_default_options()`
(`C92_false_defaults`). -/
theorem C92_partial (m : PyMap) :
    (∃ o, toXmlOpts (some m) = some o ∧ ∀ x ∈ optionNames, x.2 o = said m x.1 false) ∧
    (∃ d e, toDefOpts (some m) = some (d, e) ∧
      (∀ x ∈ defaultNames, x.2.1 d = said m x.1 x.2.2) ∧
      (∀ t, t ≠ .unknown → m b!"default_pkgtype" = some (.int (typeNumber t)) → d.pkgtype = t) ∧
      ((∀ t, t ≠ .unknown → ∀ v, m b!"default_pkgtype" = some v → (asLong v).1 ≠ typeNumber t) →
        d.pkgtype = .mandatory) ∧
      (m b!"default_pkgtype" = none → e = false) ∧
      (∀ n : Int, m b!"default_pkgtype" = some (.int n) → -2 ^ 63 ≤ n → n < 2 ^ 63 → e = false)) ∧
    toXmlOpts none = none ∧ toDefOpts none = none ∧
    (∀ (st : PyComps.St) c df fails,
      callXmlStr lt st c (some none) df fails = .ok (.exc .typeError, st)) ∧
    (∀ (st : PyComps.St) c cx text, callFromStr lt st c cx text (some none) = .ok (.exc .typeError, st)) ∧
    (∀ (st : PyComps.St) c cx file,
      callFromFile lt st c cx file (some none) = .ok (.exc .typeError, st)) := by
  have hp : (defKeys.foldl (takeBool m) (takeType m Defaults.standard).1).pkgtype =
      (takeType m Defaults.standard).1.pkgtype := by
    simp only [defKeys, List.foldl_cons, List.foldl_nil]
    generalize (takeType m Defaults.standard).1 = o
    simp only [takeBool]
    split <;> split <;> split <;> rfl
  refine ⟨⟨_, rfl, ?_⟩, ⟨defKeys.foldl (takeBool m) (takeType m Defaults.standard).1,
    (takeType m Defaults.standard).2, rfl, ?_, ?_, ?_, ?_, ?_⟩, rfl, rfl, ?_, ?_, ?_⟩
  · intro x hx
    simp only [optionNames, List.mem_cons, List.not_mem_nil, or_false] at hx
    rcases hx with rfl | rfl | rfl | rfl | rfl | rfl | rfl | rfl | rfl | rfl | rfl | rfl | rfl | rfl | rfl
    all_goals
      simp only [xmlKeys, List.foldl_cons, List.foldl_nil]
      repeat refine (takeBool_ne (by intro _ _; rfl)).trans ?_
      refine (takeBool_eq (by intro _ _; rfl)).trans ?_
      refine congrArg (said m _) ?_
      repeat refine (takeBool_ne (by intro _ _; rfl)).trans ?_
      rfl
  · intro x hx
    have ht : ∀ f : Defaults → Bool, (∀ o t, f { o with pkgtype := t } = f o) →
        f (takeType m Defaults.standard).1 = f Defaults.standard := by
      intro f hf
      unfold takeType
      split
      · rfl
      · split
        · exact hf _ _
        · rfl
    simp only [defaultNames, List.mem_cons, List.not_mem_nil, or_false] at hx
    rcases hx with rfl | rfl | rfl
    all_goals
      simp only [defKeys, List.foldl_cons, List.foldl_nil]
      repeat refine (takeBool_ne (by intro _ _; rfl)).trans ?_
      refine (takeBool_eq (by intro _ _; rfl)).trans ?_
      refine congrArg (said m _) ?_
      repeat refine (takeBool_ne (by intro _ _; rfl)).trans ?_
      exact ht _ (fun _ _ => rfl)
  · intro t ht hm
    rw [hp]
    simp only [takeType, hm]
    cases t <;> first | rfl | exact absurd rfl ht
  · intro hm
    rw [hp]
    unfold takeType
    split
    · rfl
    · next v hv =>
      have h := fun t ht => hm t ht v hv
      have h0 := h .default (by simp)
      have h1 := h .optional (by simp)
      have h2 := h .conditional (by simp)
      have h3 := h .mandatory (by simp)
      simp only [typeNumber] at h0 h1 h2 h3
      simp only [pkgTypeOf, h0, h1, h2, h3, if_false]
      rfl
  · intro hm
    simp only [takeType, hm]
  · intro n hm h1 h2
    simp only [takeType, hm, asLong]
    rw [if_pos ⟨by simpa using h1, by simpa using h2⟩]
  · intro st c df fails
    simp only [callXmlStr, PyComps.optional, toXmlOpts, Option.map_none]
  · intro st c cx text
    simp only [callFromStr, PyComps.optional, toDefOpts, Option.map_none]
  · intro st c cx file
    simp only [callFromFile, PyComps.optional, toDefOpts, Option.map_none]

/-- **C92.**  What a call with dictionaries does is what the operation does with the options they say:
writing a string, writing a file, reading a string, reading a file.  If the package type was no number
the same is done, and an exception is raised instead of the result: the one of the operation, or
`SystemError`. -/
theorem C92_calls (st : PyComps.St) (c : Nat) (xm dm : PyMap) (o : Options) (d : Defaults) (e : Bool)
    (ho : toXmlOpts (some xm) = some o) (hd : toDefOpts (some dm) = some (d, e)) :
    (∀ fails, callXmlStr lt st c none none fails = step lt st (.xmlStr c none none fails)) ∧
    (∀ name fails saved, callXmlFile lt st c name none none fails saved =
      step lt st (.xmlFile c name none none fails saved)) ∧
    (∀ cx text, callFromStr lt st c cx text none =
      step lt st (.fromStr c { cx with opts := Defaults.standard } text)) ∧
    (∀ cx file, callFromFile lt st c cx file none =
      step lt st (.fromFile c { cx with opts := Defaults.standard } file)) ∧
    (∀ fails a st', step lt st (.xmlStr c (some o) (some d) fails) = .ok (a, st') →
      ∃ a', callXmlStr lt st c (some (some xm)) (some (some dm)) fails = .ok (a', st') ∧
        (e = false → a' = a) ∧ (e = true → a' = a ∧ (∃ x, a = .exc x) ∨ a' = .exc .systemError ∧ ¬ ∃ x, a = .exc x)) ∧
    (∀ name fails saved a st', step lt st (.xmlFile c name (some o) (some d) fails saved) = .ok (a, st') →
      ∃ a', callXmlFile lt st c name (some (some xm)) (some (some dm)) fails saved = .ok (a', st') ∧
        (e = false → a' = a) ∧ (e = true → a' = a ∧ (∃ x, a = .exc x) ∨ a' = .exc .systemError ∧ ¬ ∃ x, a = .exc x)) ∧
    (∀ cx text a st', step lt st (.fromStr c { cx with opts := d } text) = .ok (a, st') →
      ∃ a', callFromStr lt st c cx text (some (some dm)) = .ok (a', st') ∧
        (e = false → a' = a) ∧ (e = true → a' = a ∧ (∃ x, a = .exc x) ∨ a' = .exc .systemError ∧ ¬ ∃ x, a = .exc x)) ∧
    (∀ cx file a st', step lt st (.fromFile c { cx with opts := d } file) = .ok (a, st') →
      ∃ a', callFromFile lt st c cx file (some (some dm)) = .ok (a', st') ∧
        (e = false → a' = a) ∧ (e = true → a' = a ∧ (∃ x, a = .exc x) ∨ a' = .exc .systemError ∧ ¬ ∃ x, a = .exc x)) ∧
    (∀ xo name fails saved, callXmlFile lt st c name xo (some none) fails saved = .ok (.exc .typeError, st)) ∧
    (∀ df name fails saved, callXmlFile lt st c name (some none) df fails saved = .ok (.exc .typeError, st)) ∧
    (∀ xo fails, callXmlStr lt st c xo (some none) fails = .ok (.exc .typeError, st)) := by
  have hf : ∀ a, (e = false → finish e a = a) ∧
      (e = true → finish e a = a ∧ (∃ x, a = .exc x) ∨ finish e a = .exc .systemError ∧ ¬ ∃ x, a = .exc x) := by
    intro a
    cases e
    · exact ⟨fun _ => rfl, nofun⟩
    · refine ⟨nofun, fun _ => ?_⟩
      cases a <;> simp [finish]
  have hn : ∀ r : Res (Ans × PyComps.St), (r >>= fun x => pure (finish false x.1, x.2)) = r := by
    intro r
    cases r with
    | error f => rfl
    | ok x => rfl
  refine ⟨fun fails => hn _, fun name fails saved => hn _, fun cx text => hn _, fun cx file => hn _,
    fun fails a st' h => ⟨finish e a, ?_, hf a⟩, fun name fails saved a st' h => ⟨finish e a, ?_, hf a⟩,
    fun cx text a st' h => ⟨finish e a, ?_, hf a⟩, fun cx file a st' h => ⟨finish e a, ?_, hf a⟩, ?_, ?_, ?_⟩
  · simp only [callXmlStr, PyComps.optional, ho, hd, Option.map_some, h, bind, Except.bind, pendingOf]
    rfl
  · simp only [callXmlFile, PyComps.optional, ho, hd, Option.map_some, h, bind, Except.bind, pendingOf]
    rfl
  · simp only [callFromStr, PyComps.optional, hd, Option.map_some, withOpts, Option.getD_some, h, bind,
      Except.bind, pendingOf]
    rfl
  · simp only [callFromFile, PyComps.optional, hd, Option.map_some, withOpts, Option.getD_some, h, bind,
      Except.bind, pendingOf]
    rfl
  · intro xo name fails saved
    simp only [callXmlFile, PyComps.optional, toDefOpts, Option.map_none]
    split <;> simp_all
  · intro xo name fails saved
    simp only [callXmlFile, PyComps.optional, toXmlOpts, Option.map_none]
  · intro xo fails
    simp only [callXmlStr, PyComps.optional, toDefOpts, Option.map_none]
    split <;> simp_all

/-- A dictionary with an option, an unknown key and a value that is not used. -/
def optDemo : PyMap := fun k =>
  if k = b!"empty_groups" then some (.bool true)
  else if k = b!"color" then some (.bool true)
  else if k = b!"default_pkgtype" then some (.int 1)
  else if k = b!"default_uservisible" then some (.int 0)
  else none

example : toXmlOpts (some optDemo) = some { Options.standard with emptyGroups := true } ∧
    toDefOpts (some optDemo) = some ({ Defaults.standard with pkgtype := .optional }, false) :=
  ⟨rfl, rfl⟩

/-- **C92, false.**  A package type that is no number is not refused: `fromxml_str` loads the document
and then raises `SystemError`. -/
theorem C92_false_type (m : PyMap) (hm : m b!"default_pkgtype" = some .other) :
    ∃ st', callFromStr lt (at! [.new b!"UTF-8", .get 0 .groups, .write 0 (.groups [gA])]) 0 cx0 goodText
      (some (some m)) = .ok (.exc .systemError, st') ∧
    ∃ y, answer lt st' (.dump 0) = .ok (.content y) ∧ y.part .groups = .groups [] := by
  have e : toDefOpts (some m) = some ((defKeys.foldl (takeBool m) Defaults.standard), true) := by
    simp only [toDefOpts, takeType, hm]
    rfl
  simp only [callFromStr, PyComps.optional, e, Option.map_some]
  refine ⟨_, rfl, ?_⟩
  refine ⟨_, rfl, ?_⟩
  rfl

/-- How many calls of the libxml2 writer are in a string of XML. -/
def xmlLen : Res (Ans × PyComps.St) → Option Nat
  | .ok (.xml w, _) => some w.length
  | _ => none

/-- **C92, false.**  `get_xml_default_options()` does not give the defaults: it says `True` where the
default is `False`, and `xml_str(xml_options=get_xml_default_options())` is not `xml_str()`. -/
theorem C92_false_defaults :
    toXmlOpts (some xmlDefault) = some ⟨true, true, true, true, true, true, true, true, true, true, true,
      true, true, true, false⟩ ∧
    toXmlOpts (some fun _ => none) = some Options.standard ∧
    let st := at! [.new b!"UTF-8", .get 0 .groups, .write 0 (.groups [gA])]
    xmlLen (callXmlStr lt0 st 0 none none (fun _ => false)) = some 6 ∧
    xmlLen (callXmlStr lt0 st 0 (some (some xmlDefault)) none (fun _ => false)) = some 19 := by
  refine ⟨rfl, rfl, by decide +kernel, by decide +kernel⟩

/-! ## C93 writing a file -/

/-- **C93, partial.**  `c.xml_f(name)` returns a list of messages, which `get_last_log()` gives again, or
raises an exception; a file that could not be written is among the messages.
Missing: the exception should be `XMLGenError` (`C93_false`). -/
theorem C93_partial {ops : List Op} {as : List Ans} {st st' : PyComps.St}
    (h : run lt start ops = .ok (as, st)) {c : Nat} {name : Bytes} {o : Option Options}
    {df : Option Defaults} {fails : Nat → Bool} {saved : Bool} {a : Ans}
    (hs : step lt st (.xmlFile c name o df fails saved) = .ok (a, st')) :
    a = .exc .nameError ∨ ∃ l, answer lt st' (.lastLog c) = .ok (.log l) ∧
      (a = .log l ∨ a = .exc .systemError) ∧
      (saved = false → ∃ l', l = l' ++ [⟨19, [some (.str (compsStr (some name)))]⟩]) := by
  obtain ⟨r, -, g⟩ := reach h
  obtain ⟨r', e, g'⟩ := step_ok g hs
  simp only [rstep, bind, Except.bind] at e
  cases hd : r.doc c with
  | none =>
    simp only [hd] at e
    cases e
    exact .inl rfl
  | some d =>
    right
    simp only [hd] at e
    cases hx : xmlFile lt (look r d) name o df fails saved with
    | error f => simp [hx] at e
    | ok q =>
      obtain ⟨a', l⟩ := q
      simp only [hx] at e
      cases e
      refine ⟨l, (log_some g').2 ⟨_, doc_put_self hd, rfl⟩, ?_⟩
      simp only [xmlFile, bind, Except.bind] at hx
      split at hx
      · cases hx
      · cases hx
        constructor
        · split
          · exact .inr rfl
          · exact .inl rfl
        · intro hsv
          subst hsv
          exact ⟨_, rfl⟩

/-- For the examples: the answer of `xml_f` when the call of the writer with this number fails. -/
def fileAns (n : Nat) : Option (List Nat) :=
  match answer lt0 (at! [.new b!"UTF-8"]) (.xmlFile 0 b!"f" none none (· == n) true) with
  | .ok (.log l) => some (l.map (·.code))
  | _ => none

example : fileAns 100 = some [] := by decide +kernel

example : (match answer lt0 (at! [.new b!"UTF-8"]) (.xmlFile 0 b!"f" none none (fun _ => false) false) with
  | .ok (.log l) => l.map (·.code)
  | _ => []) = [19] := by decide +kernel

/-- **C93, false.**  When generating fails, the exception that Python sees is `SystemError`: the function
sets `XMLGenError` and returns its list all the same. -/
theorem C93_false : (match answer lt0 (at! [.new b!"UTF-8"]) (.xmlFile 0 b!"f" none none (· == 3) true) with
  | .ok (.exc .systemError) => true
  | _ => false) = true := by decide +kernel

/-! ## C94 looking changes nothing -/

/-- **C94.**  Reading, comparing, validating, adding, filtering and `xml_str` leave every document and every
list as it is.  Only `xml_str` adds to the log of its document. -/
theorem C94_looking {ops : List Op} {as : List Ans} {st st' : PyComps.St}
    (h : run lt start ops = .ok (as, st)) {o : Op} {a : Ans} (ho : looking o = true)
    (hs : step lt st o = .ok (a, st')) :
    (∀ c x, answer lt st (.dump c) = .ok (.content x) →
      answer lt st' (.dump c) = .ok (.content x)) ∧
    (∀ v x, answer lt st (.read v) = .ok (.value x) → answer lt st' (.read v) = .ok (.value x)) ∧
    (∀ c l, answer lt st (.lastLog c) = .ok (.log l) →
      ∃ l', answer lt st' (.lastLog c) = .ok (.log (l ++ l')) ∧
        ((∀ c' w df f, o ≠ .xmlStr c' w df f) → l' = [])) := by
  obtain ⟨r, -, g⟩ := reach h
  obtain ⟨r', e, g'⟩ := step_ok g hs
  exact looking_keeps g g' ho e

/-- **C94.**  `xml_f` gives the document the encoding UTF-8 if it had none, and replaces its log; it
changes nothing else. -/
theorem C94_xml_f {ops : List Op} {as : List Ans} {st st' : PyComps.St}
    (h : run lt start ops = .ok (as, st)) {c : Nat} {name : Bytes} {o : Option Options}
    {df : Option Defaults} {fails : Nat → Bool} {saved : Bool} {a : Ans}
    (hs : step lt st (.xmlFile c name o df fails saved) = .ok (a, st')) :
    (∀ y, answer lt st (.dump c) = .ok (.content y) → answer lt st' (.dump c) = .ok (.content
      { y with encoding := some (y.encoding.getD ⟨some b!"UTF-8"⟩) })) ∧
    (∀ v, answer lt st' (.read v) = answer lt st (.read v)) ∧
    ∀ c', c' ≠ c → answer lt st' (.dump c') = answer lt st (.dump c') ∧
      answer lt st' (.lastLog c') = answer lt st (.lastLog c') := by
  obtain ⟨r, -, g⟩ := reach h
  obtain ⟨r', e, g'⟩ := step_ok g hs
  simp only [rstep, bind, Except.bind] at e
  cases hd : r.doc c with
  | none =>
    simp only [hd] at e
    cases e
    refine ⟨fun y hy => ?_, fun v => read_congr g g' rfl,
      fun c' _ => ⟨dump_congr g g' rfl, ?_⟩⟩
    · obtain ⟨d, hd', -⟩ := (dump_some g).1 hy
      rw [hd] at hd'
      cases hd'
    · unfold answer
      rw [log_ans g, log_ans g']
  | some d =>
    simp only [hd] at e
    cases hx : xmlFile lt (look r d) name o df fails saved with
    | error f => simp [hx] at e
    | ok q =>
      simp only [hx] at e
      cases e
      refine ⟨fun y hy => ?_, fun v => read_congr g g' rfl, fun c' hc => ⟨?_, ?_⟩⟩
      · obtain ⟨d', hd', rfl⟩ := (dump_some g).1 hy
        rw [hd] at hd'
        cases hd'
        exact (dump_some g').2 ⟨_, doc_put_self hd, rfl⟩
      · exact dump_congr g g' (by rw [doc_put_ne hc]; rfl)
      · unfold answer
        rw [log_ans g, log_ans g', doc_put_ne hc]

/-- **C94.**  `xml_str` gives what the C library writes for the contents of the document, with the options
given, and adds its messages to the log. -/
theorem C94_xml_str {ops : List Op} {as : List Ans} {st st' : PyComps.St}
    (h : run lt start ops = .ok (as, st)) {c : Nat} {o : Option Options} {df : Option Defaults}
    {fails : Nat → Bool} {a : Ans} (hs : step lt st (.xmlStr c o df fails) = .ok (a, st'))
    {y : Content} {l : List LogEntry} (hy : answer lt st (.dump c) = .ok (.content y))
    (hl : answer lt st (.lastLog c) = .ok (.log l)) :
    ∃ n w, Xml.toStr lt o df (y.toDoc lt) (Xml.start fails (y.toDoc lt)) = .ok (n, w) ∧
      a = .xml w.calls ∧ answer lt st' (.lastLog c) = .ok (.log (l ++ w.log)) := by
  obtain ⟨r, -, g⟩ := reach h
  obtain ⟨r', e, g'⟩ := step_ok g hs
  obtain ⟨d, hd, rfl⟩ := (dump_some g).1 hy
  obtain ⟨d', hd', rfl⟩ := (log_some g).1 hl
  rw [hd] at hd'
  cases hd'
  simp only [rstep, hd, bind, Except.bind, xmlStr] at e
  cases hx : Xml.toStr lt o df ((look r d).toDoc lt) (Xml.start fails ((look r d).toDoc lt)) with
  | error f => simp [hx] at e
  | ok q =>
    obtain ⟨n, w⟩ := q
    simp only [hx] at e
    cases e
    exact ⟨n, w, rfl, rfl, (log_some g').2 ⟨_, doc_put_self hd, rfl⟩⟩

/-- **C93.**  `xml_f` writes what the C library writes for the contents of the document, with encoding
UTF-8 if it has none, and the options given; its messages become the log. -/
theorem C93_messages {ops : List Op} {as : List Ans} {st st' : PyComps.St}
    (h : run lt start ops = .ok (as, st)) {c : Nat} {name : Bytes} {o : Option Options}
    {df : Option Defaults} {fails : Nat → Bool} {saved : Bool} {a : Ans}
    (hs : step lt st (.xmlFile c name o df fails saved) = .ok (a, st'))
    {y : Content} (hy : answer lt st (.dump c) = .ok (.content y)) :
    let d := { y with encoding := some (y.encoding.getD ⟨some b!"UTF-8"⟩) }.toDoc lt
    ∃ n w, Xml.toFile lt o df d (Xml.start fails d) = .ok (n, w) ∧
      answer lt st' (.lastLog c) = .ok (.log (w.log ++
        if saved then [] else [⟨19, [some (.str (compsStr (some name)))]⟩])) ∧
      (a = .exc .systemError ↔ n = -1) := by
  obtain ⟨r, -, g⟩ := reach h
  obtain ⟨r', e, g'⟩ := step_ok g hs
  obtain ⟨d, hd, rfl⟩ := (dump_some g).1 hy
  simp only [rstep, hd, bind, Except.bind, xmlFile, withEncoding, compsStr] at e
  intro dd
  cases hx : Xml.toFile lt o df dd (Xml.start fails dd) with
  | error f => simp only [dd] at hx; simp [hx] at e
  | ok q =>
    obtain ⟨n, w⟩ := q
    simp only [dd] at hx
    simp only [hx] at e
    cases e
    refine ⟨n, w, rfl, (log_some g').2 ⟨_, doc_put_self hd, rfl⟩, ?_⟩
    by_cases hn : n = -1 <;> simp [hn]

example : ∃ a st', step lt0 (at! [.new b!"a", .new b!"b", .get 0 .groups, .write 0 (.groups [gA])])
    (.union 0 1) = .ok (a, st') := ⟨_, _, rfl⟩

example : ∃ a st', step lt0 (at! [.new b!"a"]) (.xmlFile 0 b!"f" none none (fun _ => false) true) =
    .ok (a, st') := ⟨_, _, rfl⟩

/-! ## C95 new documents -/

/-- **C95.**  `c1 + c2` is a new document.  Its content is that of the union (C40), its log is empty, and
it shares no list with anything: nothing written to a list that was there before is seen in it. -/
theorem C95_union {ops : List Op} {as : List Ans} {st st' : PyComps.St}
    (h : run lt start ops = .ok (as, st)) {c1 c2 : Nat} {a : Ans}
    (hs : step lt st (.union c1 c2) = .ok (a, st')) (ha : a ≠ .exc .nameError) :
    a = .comps ∧ ∃ y1 y2 x, answer lt st (.dump c1) = .ok (.content y1) ∧
      answer lt st (.dump c2) = .ok (.content y2) ∧
      Doc.union lt (y1.toDoc lt) (y2.toDoc lt) = .ok x ∧
      answer lt st' (.dump st.docs.length) = .ok (.content (contentOf x)) ∧
      answer lt st' (.lastLog st.docs.length) = .ok (.log []) ∧
      ∀ v z b st'', step lt st' (.write v z) = .ok (b, st'') →
        answer lt st'' (.dump st.docs.length) = .ok (.content (contentOf x)) := by
  obtain ⟨r, -, g⟩ := reach h
  obtain ⟨r', e, g'⟩ := step_ok g hs
  simp only [rstep, bind, Except.bind] at e
  split at e
  · next d1 d2 h1 h2 =>
    split at e
    · cases e
    · next x hx =>
      obtain ⟨k1, k2, k3, k4⟩ := addDoc_facts (lt := lt) g g' e
      exact ⟨k1, _, _, x, (dump_some g).2 ⟨d1, h1, rfl⟩, (dump_some g).2 ⟨d2, h2, rfl⟩, hx, k2, k3, k4⟩
  · cases e
    exact absurd rfl ha

/-- **C95.**  The same for `c.arch_filter(arches)`. -/
theorem C95_arch_filter {ops : List Op} {as : List Ans} {st st' : PyComps.St}
    (h : run lt start ops = .ok (as, st)) {c : Nat} {arches : List CStr} {a : Ans}
    (hs : step lt st (.archFilter c arches) = .ok (a, st')) (ha : a ≠ .exc .nameError) :
    a = .comps ∧ ∃ y x, answer lt st (.dump c) = .ok (.content y) ∧
      Doc.archFilter lt (y.toDoc lt) arches = .ok x ∧
      answer lt st' (.dump st.docs.length) = .ok (.content (contentOf x)) ∧
      answer lt st' (.lastLog st.docs.length) = .ok (.log []) ∧
      ∀ v z b st'', step lt st' (.write v z) = .ok (b, st'') →
        answer lt st'' (.dump st.docs.length) = .ok (.content (contentOf x)) := by
  obtain ⟨r, -, g⟩ := reach h
  obtain ⟨r', e, g'⟩ := step_ok g hs
  simp only [rstep, bind, Except.bind] at e
  split at e
  · cases e
    exact absurd rfl ha
  · next d1 h1 =>
    split at e
    · cases e
    · next x hx =>
      obtain ⟨k1, k2, k3, k4⟩ := addDoc_facts (lt := lt) g g' e
      exact ⟨k1, _, x, (dump_some g).2 ⟨d1, h1, rfl⟩, hx, k2, k3, k4⟩

example : ∃ st', step lt0 (at! [.new b!"a", .new b!"b", .get 0 .groups, .write 0 (.groups [gA])])
    (.union 0 1) = .ok (.comps, st') := ⟨_, rfl⟩

example : ∃ st', step lt0 (at! [.new b!"a", .get 0 .groups, .write 0 (.groups [gA])])
    (.archFilter 0 [⟨some b!"x86_64"⟩]) = .ok (.comps, st') := ⟨_, rfl⟩

/-! ## Axioms -/

#print axioms C81_partial
#print axioms C81_false
#print axioms C82_answers
#print axioms C82_safe
#print axioms C83_fromxml_str
#print axioms C84_partial
#print axioms C84_false
#print axioms C85_partial
#print axioms C85_false
#print axioms C86_assign
#print axioms C86_shared
#print axioms C86_types
#print axioms C87_partial
#print axioms C87_false_del
#print axioms C87_false_eq
#print axioms C88_apart
#print axioms C89_partial
#print axioms C89_false
#print axioms C90_clear
#print axioms C91_agree
#print axioms C92_partial
#print axioms C92_calls
#print axioms C92_false_type
#print axioms C92_false_defaults
#print axioms C93_partial
#print axioms C93_messages
#print axioms C93_false
#print axioms C94_looking
#print axioms C94_xml_f
#print axioms C94_xml_str
#print axioms C95_union
#print axioms C95_arch_filter

end Comps.Props.PyC
