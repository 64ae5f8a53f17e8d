import Verif.Lemmas.PyLog
import Verif.Props.PyTyped

/-!
# Messages of the log (C141, C142, C143)

`lastLog utf8 es` and `lastErrors utf8 es` (Model/PyLog) are what `get_last_log()` and
`get_last_errors()` make of the entries `es` of the log of a document.  `Tells es ts` (Spec/PyLog): the
texts `ts` are the messages of the entries, each complete, in order.
-/

namespace Comps.Props.PyC
open Comps Comps.Obj Comps.Spec Comps.Spec.PyComps Comps.Spec.PyLog Comps.PyComps Comps.PyLog Comps.Props
open Comps.Parse (Ctx Chunk Parsed Event parseStr parseFile init)
open Comps.Xml (Options Defaults)

variable (lt : UInt8 → UInt8 → Bool)

/-! ## C141 -/

/-- **C141.**  What is in the log of a document at any time has messages, one for each entry, and only
one way to say each. -/
theorem C141_messages {ops : List Op} {as : List Ans} {st : PyComps.St}
    (hn : ∀ o ∈ ops, NativeOp lt o ∧ OpOk o) (h : run lt start ops = .ok (as, st)) {a : Nat}
    {es : List LogEntry} (he : answer lt st (.lastLog a) = .ok (.log es)) :
    ∃ ts, Tells es ts ∧ ∀ ts', Tells es ts' → ts' = ts := by
  obtain ⟨r, g, -, lg⟩ := logged_reach hn good_start typed_start logged_start h
  obtain ⟨d, hd, rfl⟩ := (log_some g).1 he
  obtain ⟨ts, -, k⟩ := lastLog_ok (utf8 := fun _ => true) (pre := []) (lg a d hd) fun _ _ _ _ => rfl
  exact ⟨ts, k, fun ts' h' => tells_unique h' k⟩

/-- **C141, partial.**  `get_last_log()` gives the messages of all entries, complete and in order, if
they are in UTF-8.  Missing: entries about input with more than 2^31 lines (`C141_false`). -/
theorem C141_log_partial {ops : List Op} {as : List Ans} {st : PyComps.St}
    (hn : ∀ o ∈ ops, NativeOp lt o ∧ OpOk o) (h : run lt start ops = .ok (as, st)) {a : Nat}
    {es : List LogEntry} (he : answer lt st (.lastLog a) = .ok (.log es)) {utf8 : Bytes → Bool}
    (hu : ∀ e ∈ es, ∀ t, Says e t → utf8 t = true) :
    ∃ ts, lastLog utf8 es = .ok ts ∧ Tells es ts := by
  obtain ⟨r, g, -, lg⟩ := logged_reach hn good_start typed_start logged_start h
  obtain ⟨d, hd, rfl⟩ := (log_some g).1 he
  obtain ⟨ts, k1, k2⟩ := lastLog_ok (utf8 := utf8) (pre := []) (lg a d hd) hu
  exact ⟨ts, k1, k2⟩

/-- What the entries say is in UTF-8. -/
theorem says_utf8 {es : List LogEntry} (h : FineAll Utf8 es) : ∀ e ∈ es, ∀ t, Says e t → Utf8 t :=
  fun e he _ ht => says_all texty_utf8 (h e he) ht

/-- **C141.**  All messages about input in UTF-8 are in UTF-8 (`get_last_log()` can give them), whether
the input is a string or a file, well-formed or not. -/
theorem C141_load {cx : Ctx} {enc : Option Bytes} {utf8 : Bytes → Bool} (hu : ∀ b, Utf8 b → utf8 b = true)
    {cs : List Chunk} (hc : ∀ c ∈ cs, ChunkOk c ∧ Utf8Chunk c) {code : Int} {p : Parsed}
    (h : parseFile cx (init enc) (some cs) = .ok (code, p) ∨
      ∃ c, cs = [c] ∧ parseStr cx (init enc) c = .ok (code, p)) :
    ∃ ts, lastLog utf8 p.log = .ok ts ∧ Tells p.log ts ∧ ∀ t ∈ ts, Utf8 t := by
  have hp : FineAll Utf8 p.log := by
    rcases h with h | ⟨c, rfl, h⟩
    · exact (parseFile_held texty_utf8 (fun l hl c hm => by
        cases hl; exact input_utf8 (hc c hm).1 (hc c hm).2) (held_init enc) h).log
    · exact (parseStr_held texty_utf8 (input_utf8 (hc c (by simp)).1 (hc c (by simp)).2)
        (held_init enc) h).log
  obtain ⟨ts, k1, k2⟩ := lastLog_ok (pre := []) hp fun e he t ht => hu t (says_utf8 hp e he t ht)
  refine ⟨ts, k1, k2, ?_⟩
  clear k1 h
  generalize p.log = es at hp k2
  induction es generalizing ts with
  | nil => cases ts with
    | nil => nofun
    | cons => cases k2
  | cons e es ih => cases ts with
    | nil => cases k2
    | cons t ts =>
      intro x hx
      rcases List.mem_cons.1 hx with rfl | hx
      · exact says_utf8 hp e (by simp) x k2.1
      · exact ih ts (fun y hy => hp y (by simp [hy])) k2.2 x hx

/-- **C141.**  All messages of `xml_f()` are in UTF-8 if the ids of the document and the name of the file
are. -/
theorem C141_write {ops : List Op} {as : List Ans} {st : PyComps.St} (hn : ∀ o ∈ ops, NativeOp lt o)
    (h : run lt start ops = .ok (as, st)) {a : Nat} {y : Content} (hy : Holds lt st a y)
    {c : DocContent} (hm : Made lt y c) (hid : IdsAre Utf8 c) {name : Bytes} (hname : Utf8 name)
    {o : Option Options} {df : Option Defaults} {fails : Nat → Bool} {saved : Bool} {st' : PyComps.St}
    {x : Ans} (hx : step lt st (.xmlFile a name o df fails saved) = .ok (x, st')) {utf8 : Bytes → Bool}
    (hu : ∀ b, Utf8 b → utf8 b = true) {es : List LogEntry}
    (he : answer lt st' (.lastLog a) = .ok (.log es)) : ∃ ts, lastLog utf8 es = .ok ts ∧ Tells es ts := by
  obtain ⟨r, g, -⟩ := typed_reach hn good_start typed_start h
  obtain ⟨d, hd, rfl⟩ := (dump_some g).1 hy
  obtain ⟨r1, e1, g1⟩ := step_ok g hx
  obtain ⟨d', hd', rfl⟩ := (log_some g1).1 he
  simp only [rstep, hd, bind, Except.bind] at e1
  split at e1
  · cases e1
  · next q hq =>
    cases e1
    rw [doc_put_self hd] at hd'
    cases hd'
    have hf := xmlFile_log hm hid hname hq
    obtain ⟨ts, k1, k2⟩ := lastLog_ok (pre := []) hf fun e he t ht => hu t (says_utf8 hf e he t ht)
    exact ⟨ts, k1, k2⟩

/-- For the examples: reading a text in which something is at the given place. -/
def oneGroup (es : List (Parse.Pos × Event)) : Chunk :=
  ⟨[(⟨1, 0⟩, .start b!"comps" []), (⟨1, 7⟩, .start b!"group" [])] ++ es ++
    [(⟨9, 0⟩, .stop b!"group"), (⟨9, 8⟩, .stop b!"comps")], none⟩

/-- For the examples: the reading of files. -/
def cxL : Ctx := (Reading.plain asc .standard fun _ => []).ctx

/-- For the examples: what a run ends with. -/
def okOf {α : Type} : Res α → Option α
  | .ok x => some x
  | .error _ => none

theorem okOf_ok {α : Type} {x : Res α} {a : α} (h : okOf x = some a) : x = .ok a := by
  cases x <;> cases h
  rfl

/-- **C141, false**: after input whose lines cannot be counted in an `int` (2^31 lines; the number read is
negative) the messages cannot be had.  `parser_line` is an `int`. -/
theorem C141_false : ∃ es, answers asc start [.new b!"UTF-8",
      .fromStr 0 cxL (oneGroup [(⟨-1, 0⟩, .start b!"unknown" []), (⟨-1, 9⟩, .stop b!"unknown")]),
      .lastLog 0] = .ok [.comps, .num 1, .log es] ∧
    ∀ utf8, lastLog utf8 es = .error .badConversion :=
  ⟨_, rfl, fun _ => rfl⟩

/-- For the examples: a group with two ids. -/
def twoIds : Chunk := oneGroup [(⟨2, 0⟩, .start b!"id" []), (⟨2, 4⟩, .text b!"a"), (⟨2, 5⟩, .stop b!"id"),
  (⟨3, 0⟩, .start b!"id" []), (⟨3, 4⟩, .text b!"b"), (⟨3, 5⟩, .stop b!"id")]

/-- For the examples: the last messages of a program. -/
def messages (get : List LogEntry → Res (List Bytes)) (ops : List Op) : Res (List Bytes) :=
  match answers asc start ops with
  | .ok as => match as.getLast? with
    | some (.log es) => get es
    | _ => .error .typeConfusion
  | .error f => .error f

/-- The messages after reading a group with two ids. -/
example : messages (lastLog fun _ => true) [.new b!"UTF-8", .fromStr 0 cxL twoIds, .lastLog 0] =
    .ok [b!"WARNING: Element <id> at line:3 col:5 has been already found\n",
      b!"Element name is required at line:9 column :0 but missing\n",
      b!"Element description is required at line:9 column :0 but missing\n"] :=
  okOf_ok (by decide +kernel)

theorem twoIds_ok : ChunkOk twoIds := by
  refine ⟨?_, nofun⟩
  simp only [twoIds, oneGroup, List.cons_append, List.nil_append, List.forall_mem_cons, PosOk]
  simp

theorem utf8_of_ascii {b : Bytes} (h : (b.all (· < 128)) = true) : Utf8 b :=
  texty_utf8.ascii b fun c hc => by simpa using List.all_eq_true.1 h c hc

theorem twoIds_utf8 : Utf8Chunk twoIds := by
  refine ⟨fun p n attrs h => ?_, fun p b h => ?_, nofun⟩
  · simp only [twoIds, oneGroup, List.cons_append, List.nil_append, List.mem_cons, List.not_mem_nil,
      Prod.mk.injEq, Event.start.injEq, reduceCtorEq, and_false, or_false, false_or] at h
    rcases h with ⟨-, rfl, rfl⟩ | ⟨-, rfl, rfl⟩ | ⟨-, rfl, rfl⟩ | ⟨-, rfl, rfl⟩ <;>
      exact ⟨utf8_of_ascii rfl, nofun⟩
  · simp only [twoIds, oneGroup, List.cons_append, List.nil_append, List.mem_cons, List.not_mem_nil,
      Prod.mk.injEq, Event.text.injEq, reduceCtorEq, and_false, or_false, false_or] at h
    rcases h with ⟨-, rfl⟩ | ⟨-, rfl⟩ <;> exact utf8_of_ascii rfl

/-- For the examples: the program that reads it. -/
def twoIdsOps : List Op := [.new b!"UTF-8", .fromStr 0 cxL twoIds]

theorem twoIdsOps_ok : ∀ o ∈ twoIdsOps, NativeOp asc o ∧ OpOk o := by
  simp only [twoIdsOps, List.forall_mem_cons, List.not_mem_nil, false_implies, implies_true, NativeOp, OpOk,
    and_true, true_and]
  exact ⟨rfl, twoIds_ok⟩

example : ∃ as st es ts, run asc start twoIdsOps = .ok (as, st) ∧
    answer asc st (.lastLog 0) = .ok (.log es) ∧ es.length = 3 ∧ Tells es ts := by
  obtain ⟨ts, h, -⟩ := C141_messages asc twoIdsOps_ok (a := 0) rfl rfl
  exact ⟨_, _, _, ts, rfl, rfl, rfl, h⟩

example : ∃ as st es ts, run asc start twoIdsOps = .ok (as, st) ∧
    answer asc st (.lastLog 0) = .ok (.log es) ∧ es.length = 3 ∧ lastLog (fun _ => true) es = .ok ts ∧
    Tells es ts := by
  obtain ⟨ts, h, h'⟩ := C141_log_partial asc twoIdsOps_ok (a := 0) (utf8 := fun _ => true) rfl rfl
    fun _ _ _ _ => rfl
  exact ⟨_, _, _, ts, rfl, rfl, rfl, h, h'⟩

example : ∃ p ts, parseStr cxL (init (some b!"UTF-8")) twoIds = .ok (1, p) ∧ p.log.length = 3 ∧
    lastLog (fun _ => true) p.log = .ok ts ∧ ∀ t ∈ ts, Utf8 t := by
  obtain ⟨ts, h, -, h'⟩ := C141_load (cx := cxL) (enc := some b!"UTF-8") (utf8 := fun _ => true)
    (fun _ _ => rfl) (cs := [twoIds]) (by simpa using ⟨twoIds_ok, twoIds_utf8⟩) (.inr ⟨_, rfl, rfl⟩)
  exact ⟨_, ts, rfl, rfl, h, h'⟩

/-! ## C142 -/

/-- **C142.**  `get_last_errors()` gives the messages of the entries that are not warnings, complete, in
order, and no others. -/
theorem C142_errors {ops : List Op} {as : List Ans} {st : PyComps.St}
    (hn : ∀ o ∈ ops, NativeOp lt o ∧ OpOk o) (h : run lt start ops = .ok (as, st)) {a : Nat}
    {es : List LogEntry} (he : answer lt st (.lastLog a) = .ok (.log es)) {l : List LogEntry}
    (hl : Errors es l) {utf8 : Bytes → Bool} (hu : ∀ e ∈ l, ∀ t, Says e t → utf8 t = true) :
    ∃ ts, lastErrors utf8 es = .ok ts ∧ Tells l ts := by
  obtain ⟨r, g, -, lg⟩ := logged_reach hn good_start typed_start logged_start h
  obtain ⟨d, hd, rfl⟩ := (log_some g).1 he
  have e := errors_unique hl (errors_filter d.log)
  subst e
  obtain ⟨ts, k1, k2⟩ := lastLog_ok (utf8 := utf8) (pre := [])
    (fun x hx => lg a d hd x (List.mem_filter.1 hx).1) hu
  exact ⟨ts, by rw [lastErrors, lastErrors_eq]; exact k1, k2⟩

/-- **C142, false**: messages that call themselves warnings are among the errors. -/
theorem C142_false : ∃ l, messages (lastErrors fun _ => true)
      [.new b!"UTF-8", .fromStr 0 cxL twoIds, .lastLog 0] = .ok
      (b!"WARNING: Element <id> at line:3 col:5 has been already found\n" :: l) :=
  ⟨[b!"Element name is required at line:9 column :0 but missing\n",
    b!"Element description is required at line:9 column :0 but missing\n"], okOf_ok (by decide +kernel)⟩

/-- For the examples: a group with two display orders and a flag that is neither true nor false. -/
def twoOrders : Chunk := oneGroup [(⟨2, 0⟩, .start b!"display_order" []), (⟨2, 15⟩, .text b!"1"),
  (⟨2, 16⟩, .stop b!"display_order"), (⟨3, 0⟩, .start b!"display_order" []), (⟨3, 15⟩, .text b!"2"),
  (⟨3, 16⟩, .stop b!"display_order"), (⟨4, 0⟩, .start b!"uservisible" []), (⟨4, 13⟩, .text b!"maybe"),
  (⟨4, 18⟩, .stop b!"uservisible")]

/-- The errors and the warnings after reading such a group. -/
example : messages (lastErrors fun _ => true) [.new b!"UTF-8", .fromStr 0 cxL twoOrders, .lastLog 0] =
    .ok [b!"Element id is required at line:9 column :0 but missing\n",
      b!"Element name is required at line:9 column :0 but missing\n",
      b!"Element description is required at line:9 column :0 but missing\n"] :=
  okOf_ok (by decide +kernel)

example : ∃ as st es l ts, run asc start twoIdsOps = .ok (as, st) ∧
    answer asc st (.lastLog 0) = .ok (.log es) ∧ Errors es l ∧ lastErrors (fun _ => true) es = .ok ts ∧
    Tells l ts := by
  obtain ⟨ts, h, h'⟩ := C142_errors asc twoIdsOps_ok (a := 0) (utf8 := fun _ => true) rfl rfl
    (errors_filter _) fun _ _ _ _ => rfl
  exact ⟨_, _, _, _, ts, rfl, rfl, errors_filter _, h, h'⟩

/-! ## C143 -/

theorem says_left {t : RTree PVal} (ht : PropInv lt t) :
    Says ⟨25, [t.get b!"id"]⟩ (groupLeft (t.get b!"id")) := by
  have key : ∀ b : Bytes, Renders b!"Group with id %s has no packages.skipping xml output\n" [b]
      (b!"Group with id " ++ b ++ b!" has no packages.skipping xml output\n") := fun b =>
    renders_one (pre := b!"Group with id ") (suf := b!" has no packages.skipping xml output\n") (b := b)
      (by decide) (by decide)
  refine ⟨_, [idText (t.get b!"id")], rfl, ⟨?_, trivial⟩, key _⟩
  cases hg : t.get b!"id" with
  | none => rfl
  | some v =>
    have hk := ht.typed.get ht.wf hg
    have hx : ∀ k ∈ propKinds, k.1 = b!"id" → k.2 = 0 := by decide
    have := hx _ hk rfl
    cases v with
    | str s => obtain ⟨s⟩ := s; cases s <;> rfl
    | num n => simp [kind] at this
    | list l => simp [kind] at this

theorem tells_map : ∀ {ids : List (Option PVal)}, (∀ i ∈ ids, Says ⟨25, [i]⟩ (groupLeft i)) →
    Tells (ids.map fun i => ⟨25, [i]⟩) (ids.map groupLeft)
  | [], _ => trivial
  | i :: l, h => ⟨h i (by simp), tells_map fun x hx => h x (by simp [hx])⟩

/-- **C143, partial.**  If no call of the writer fails and the file can be written, `xml_f()` leaves one
message for each entry that was left out, and this names its id; it returns the messages (unless there
are 255, or 511, ...: C58).  For the groups it is the right message.  Missing: for categories and
environments it is the message for groups (`C143_category_false`, `C143_env_false`). -/
theorem C143_left_out_partial {ops : List Op} {as : List Ans} {st : PyComps.St}
    (hn : ∀ o ∈ ops, NativeOp lt o) (h : run lt start ops = .ok (as, st)) {a : Nat} {y : Content}
    (hy : Holds lt st a y) (ho : ¬ NegativeOrder y) (ht : DoctypeOk (y.toDoc lt)) (name : Bytes)
    (o : Option Options) (df : Option Defaults) {fails : Nat → Bool} (hf : ∀ n, fails n = false) :
    ∃ c es x st', Made lt y c ∧ step lt st (.xmlFile a name o df fails true) = .ok (x, st') ∧
      answer lt st' (.lastLog a) = .ok (.log es) ∧
      Tells es ((leftOut (o.getD .standard) c).map groupLeft) ∧
      ((leftOut (o.getD .standard) c).length % 256 ≠ 255 → x = .log es) := by
  obtain ⟨c, hm, hl⟩ := C140_made lt hn h hy
  obtain ⟨r, g, ty⟩ := typed_reach hn good_start typed_start h
  obtain ⟨d, hd, rfl⟩ := (dump_some g).1 hy
  have hm' : Made lt { look r d with encoding := withEncoding (look r d).encoding } c :=
    { hm with encoding := ⟨_, rfl⟩ }
  obtain ⟨h1, h2⟩ := made_built hm'
  have hi := docBuilt_inv h1
  have hc := shows_unique h2 (shows_content hi)
  have hw := made_writable lt hm hl ho
  rw [hc] at hw
  have hx := Xml.toFile_ok (o := o) (df := df) hi ⟨ht.name, ht.pubid, ht.sysid, ht.both⟩ hw
    (s := Xml.start fails ({ look r d with encoding := withEncoding (look r d).encoding }.toDoc lt)) hf rfl
    rfl
  rw [← hc] at hx
  have hq : xmlFile lt (look r d) name o df fails true = .ok
      (if Xml.addRet 0 (leftOut (o.getD .standard) c).length = -1 then .exc .systemError
        else .log ((leftOut (o.getD .standard) c).map fun i => ⟨25, [i]⟩),
       (leftOut (o.getD .standard) c).map fun i => ⟨25, [i]⟩) := by
    simp only [xmlFile, bind, Except.bind]
    rw [hx]
    simp only [if_true, pure, Except.pure, List.append_nil]
    simp only [Xml.addLog, Xml.put, Xml.start, List.nil_append]
    rfl
  have hr : rstep lt RDoc.shown r (.xmlFile a name o df fails true) = .ok
      (if Xml.addRet 0 (leftOut (o.getD .standard) c).length = -1 then .exc .systemError
        else .log ((leftOut (o.getD .standard) c).map fun i => ⟨25, [i]⟩),
       r.put a { d with
        encoding := withEncoding d.encoding
        log := (leftOut (o.getD .standard) c).map fun i => ⟨25, [i]⟩ }) := by
    simp only [rstep, hd, hq, bind, Except.bind]
    rfl
  obtain ⟨st', hs, g'⟩ := rstep_ok g hr
  refine ⟨c, _, _, st', hm, hs, (log_some g').2 ⟨_, doc_put_self hd, rfl⟩, tells_map ?_, fun hk => ?_⟩
  · obtain ⟨xg, xc, xe, -⟩ := contents_built hi
    rw [← hc] at xg xc xe
    intro i hi
    simp only [leftOut, List.mem_append, List.mem_map, List.mem_filter] at hi
    rcases hi with (⟨x, hx, rfl⟩ | ⟨x, hx, rfl⟩) | ⟨x, hx, rfl⟩
    · exact says_left lt (groupBuilt_inv (xg x hx.1)).props
    · exact says_left lt (categoryBuilt_inv (xc x hx.1)).props
    · exact says_left lt (envBuilt_inv (xe x hx.1)).props
  · rw [if_neg]
    rw [Xml.addRet_eq (by decide)]
    unfold Xml.schar
    omega

/-- For the examples: a group, a category and an environment without members. -/
def bareGroup : Group :=
  { Group.create with props := (PropCall.str .id (some b!"g1")).run asc Group.create.props }
def bareCategory : Category :=
  { Category.create with props := (PropCall.str .id (some b!"c1")).run asc Category.create.props }
def bareEnv : Env :=
  { Env.create with props := (PropCall.str .id (some b!"e1")).run asc Env.create.props }

/-- For the examples: a document with such entries. -/
def bareOps : List Op := [.new b!"UTF-8", .get 0 .groups, .write 0 (.groups [bareGroup]),
  .get 0 .categories, .write 1 (.cats [bareCategory]), .get 0 .environments, .write 2 (.envs [bareEnv])]

theorem bareOps_native : ∀ o ∈ bareOps, NativeOp asc o := by
  simp only [bareOps, List.forall_mem_cons, List.not_mem_nil, false_implies, implies_true,
    NativeOp, and_true, true_and]
  refine ⟨fun g hg => ?_, fun g hg => ?_, fun g hg => ?_⟩ <;> rw [List.mem_singleton.1 hg]
  · exact ⟨.prop _ .create, nofun⟩
  · exact ⟨.prop _ .create, nofun⟩
  · exact ⟨.prop _ .create, nofun, nofun⟩

/-- **C143, false**: a category that is left out is called a group, although there is a message for
categories. -/
theorem C143_category_false : (∃ as st, run asc start bareOps = .ok (as, st)) ∧ ∃ a b,
    messages (lastLog fun _ => true) (bareOps ++ [.xmlFile 0 b!"f" none none (fun _ => false) true]) =
      .ok [a, groupLeft (bareCategory.props.get b!"id"), b] ∧
    groupLeft (bareCategory.props.get b!"id") ≠ categoryLeft (bareCategory.props.get b!"id") :=
  ⟨⟨_, _, rfl⟩, groupLeft (bareGroup.props.get b!"id"), groupLeft (bareEnv.props.get b!"id"),
    okOf_ok (by decide +kernel), by decide⟩

/-- **C143, false**: an environment that is left out is called a group. -/
theorem C143_env_false : (∃ as st, run asc start bareOps = .ok (as, st)) ∧ ∃ a b,
    messages (lastLog fun _ => true) (bareOps ++ [.xmlFile 0 b!"f" none none (fun _ => false) true]) =
      .ok [a, b, groupLeft (bareEnv.props.get b!"id")] ∧
    groupLeft (bareEnv.props.get b!"id") ≠ envLeft (bareEnv.props.get b!"id") :=
  ⟨⟨_, _, rfl⟩, groupLeft (bareGroup.props.get b!"id"), groupLeft (bareCategory.props.get b!"id"),
    okOf_ok (by decide +kernel), by decide⟩

/-- **C143, false**: the message about a second `<display_order>` does not name the element, and the one
about a wrong `<uservisible>` names another. -/
theorem C143_element_false : ∃ l,
    messages (lastLog fun _ => true) [.new b!"UTF-8", .fromStr 0 cxL twoOrders, .lastLog 0] =
      .ok (b!"WARNING: Element <> at line:3 col:16 has been already found\n" ::
        b!"WARNING: Wrong default param value 'maybe' at line:4 col:18\n" :: l) :=
  ⟨[b!"Element id is required at line:9 column :0 but missing\n",
    b!"Element name is required at line:9 column :0 but missing\n",
    b!"Element description is required at line:9 column :0 but missing\n"], okOf_ok (by decide +kernel)⟩

theorem bare_run : ∃ as st y, run asc start bareOps = .ok (as, st) ∧ Holds asc st 0 y ∧
    y.part .groups = .groups [bareGroup] ∧ y.part .categories = .cats [bareCategory] ∧
    y.part .environments = .envs [bareEnv] ∧ DoctypeOk (y.toDoc asc) :=
  ⟨_, _, _, rfl, rfl, rfl, rfl, rfl, ⟨b!"comps", rfl, by decide⟩, ⟨_, rfl⟩, ⟨_, rfl⟩, nofun⟩

theorem bare_order {y : Content} (h1 : y.part .groups = .groups [bareGroup])
    (h2 : y.part .categories = .cats [bareCategory]) (h3 : y.part .environments = .envs [bareEnv]) :
    ¬ NegativeOrder y := by
  rintro (⟨l, hl, g, hg, n, hn, -⟩ | ⟨l, hl, g, hg, n, hn, -⟩ | ⟨l, hl, g, hg, n, hn, -⟩)
  · rw [h1] at hl; cases hl; rw [List.mem_singleton.1 hg] at hn; cases hn
  · rw [h2] at hl; cases hl; rw [List.mem_singleton.1 hg] at hn; cases hn
  · rw [h3] at hl; cases hl; rw [List.mem_singleton.1 hg] at hn; cases hn

/-- The document with the bare entries. -/
example : ∃ as st x st' es, ∃ l : List (Option PVal), run asc start bareOps = .ok (as, st) ∧
    step asc st (.xmlFile 0 b!"f" none none (fun _ => false) true) = .ok (x, st') ∧
    answer asc st' (.lastLog 0) = .ok (.log es) ∧ Tells es (l.map groupLeft) := by
  obtain ⟨as, st, y, h, hy, k1, k2, k3, hd⟩ := bare_run
  obtain ⟨c, es, x, st', -, h1, h2, h3, -⟩ := C143_left_out_partial asc bareOps_native h hy
    (bare_order k1 k2 k3) hd b!"f" none none (fails := fun _ => false) fun _ => rfl
  exact ⟨as, st, x, st', es, _, h, h1, h2, h3⟩

/-- The messages about it are in UTF-8. -/
example : ∃ as st x st' es ts, run asc start bareOps = .ok (as, st) ∧
    step asc st (.xmlFile 0 b!"f" none none (fun _ => false) true) = .ok (x, st') ∧
    answer asc st' (.lastLog 0) = .ok (.log es) ∧ lastLog (fun _ => true) es = .ok ts ∧ Tells es ts := by
  obtain ⟨as, st, y, h, hy, k1, k2, k3, hd⟩ := bare_run
  obtain ⟨c, es, x, st', hm, h1, h2, -, -⟩ := C143_left_out_partial asc bareOps_native h hy
    (bare_order k1 k2 k3) hd b!"f" none none (fails := fun _ => false) fun _ => rfl
  have e1 := hm.groups.1
  have e2 := hm.categories.1
  have e3 := hm.environments.1
  rw [k1] at e1; rw [k2] at e2; rw [k3] at e3
  have hid : IdsAre Utf8 c := by
    rintro t (⟨g, hg, rfl⟩ | ⟨g, hg, rfl⟩ | ⟨g, hg, rfl⟩) s b hs hb
    · rw [← DocVal.groups.inj e1, List.mem_singleton] at hg
      subst hg; cases hs; cases hb; exact utf8_of_ascii rfl
    · rw [← DocVal.cats.inj e2, List.mem_singleton] at hg
      subst hg; cases hs; cases hb; exact utf8_of_ascii rfl
    · rw [← DocVal.envs.inj e3, List.mem_singleton] at hg
      subst hg; cases hs; cases hb; exact utf8_of_ascii rfl
  obtain ⟨ts, h4, h5⟩ := C141_write asc bareOps_native h hy hm hid (utf8_of_ascii (b := b!"f") rfl) h1
    (utf8 := fun _ => true) (fun _ _ => rfl) h2
  exact ⟨as, st, x, st', es, ts, h, h1, h2, h4, h5⟩

/-! ## Axioms -/

#print axioms C141_messages
#print axioms C141_log_partial
#print axioms C141_load
#print axioms C141_write
#print axioms C141_false
#print axioms C142_errors
#print axioms C142_false
#print axioms C143_left_out_partial
#print axioms C143_category_false
#print axioms C143_env_false
#print axioms C143_element_false

end Comps.Props.PyC
