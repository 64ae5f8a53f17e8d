import Verif.Lemmas.PyTyped
import Verif.Props.PyRound
import Verif.Props.XmlFail
import Verif.Props.ParseAny

/-!
# Python programs do not crash (C140), `validate_nf` (C138)

`NativeOp lt o` (Spec/PyTyped): Python can make the call `o`.  `MayCrash lt st o`: the calls that are
excepted.
-/

namespace Comps.Props.PyC
open Comps Comps.Obj Comps.Spec Comps.Spec.PyComps Comps.PyComps Comps.Props
open Comps.Parse (Ctx Chunk Parsed parseStr parseFile init)
open Comps.Xml (Options Defaults)

variable (lt : UInt8 → UInt8 → Bool)

/-! ## C140 -/

/-- **C140.**  Every document of a program has an encoding and a document type, and its entries are ones
made through the API, each with its lists. -/
theorem C140_made {ops : List Op} {as : List Ans} {st : PyComps.St} (hn : ∀ o ∈ ops, NativeOp lt o)
    (h : run lt start ops = .ok (as, st)) {a : Nat} {y : Content} (hy : Holds lt st a y) :
    ∃ c, Made lt y c ∧ FullLists c := by
  obtain ⟨r, g, ty⟩ := typed_reach hn good_start typed_start h
  obtain ⟨d, hd, rfl⟩ := (dump_some g).1 hy
  obtain ⟨c, hm, hl⟩ := ty.made g.wf hd
  exact ⟨c, hm, fun x hx => Option.ne_none_iff_exists'.1 (hl.packages x hx),
    fun x hx => Option.ne_none_iff_exists'.1 (hl.ids x hx),
    fun x hx => ⟨Option.ne_none_iff_exists'.1 (hl.envs x hx).1,
      Option.ne_none_iff_exists'.1 (hl.envs x hx).2⟩⟩

/-- A document that is not enormous can be validated. -/
theorem made_listed {y : Content} {c : DocContent} (hm : Made lt y c) (hl : FullLists c)
    (he : ¬ Enormous y) : Listed c := by
  have short : ∀ {α : Type} {l : Option (List α)}, (∃ x, l = some x) → ¬ Long l →
      ∃ x, l = some x ∧ x.length ≤ 10 ^ 9 := by
    rintro α l ⟨x, rfl⟩ h
    refine ⟨x, rfl, Nat.le_of_not_lt fun hx => h ⟨x, rfl, hx⟩⟩
  refine ⟨fun g hg => short (hl.1 g hg) fun hx => he (.inl ⟨_, hm.groups.1, .inr ⟨g, hg, hx⟩⟩),
    fun g hg => short (hl.2.1 g hg) fun hx => he (.inr (.inl ⟨_, hm.categories.1, .inr ⟨g, hg, hx⟩⟩)),
    fun g hg => ⟨short (hl.2.2 g hg).1 fun hx =>
        he (.inr (.inr ⟨_, hm.environments.1, .inr ⟨g, hg, .inl hx⟩⟩)),
      short (hl.2.2 g hg).2 fun hx =>
        he (.inr (.inr ⟨_, hm.environments.1, .inr ⟨g, hg, .inr hx⟩⟩))⟩, ?_, ?_, ?_⟩
  · exact Nat.lt_of_not_le fun hx => he (.inl ⟨_, hm.groups.1, .inl hx⟩)
  · exact Nat.lt_of_not_le fun hx => he (.inr (.inl ⟨_, hm.categories.1, .inl hx⟩))
  · exact Nat.lt_of_not_le fun hx => he (.inr (.inr ⟨_, hm.environments.1, .inl hx⟩))

/-- A document without negative display orders can be written. -/
theorem made_writable {y : Content} {c : DocContent} (hm : Made lt y c) (hl : FullLists c)
    (he : ¬ NegativeOrder y) : Writable c := by
  have here : ∀ {α : Type} {l : Option (List α)}, (∃ x, l = some x) → l.isSome = true := by
    rintro α l ⟨x, rfl⟩; rfl
  have pos : ∀ {t : RTree PVal}, ¬ NegOrder t → ∀ n, t.get b!"display_order" = some (.num n) → 0 ≤ n :=
    fun h n hn => Int.not_lt.1 fun hx => h ⟨n, hn, hx⟩
  exact ⟨fun g hg => ⟨here (hl.1 g hg), pos fun hx => he (.inl ⟨_, hm.groups.1, g, hg, hx⟩)⟩,
    fun g hg => ⟨here (hl.2.1 g hg),
      pos fun hx => he (.inr (.inl ⟨_, hm.categories.1, g, hg, hx⟩))⟩,
    fun g hg => ⟨here (hl.2.2 g hg).1, here (hl.2.2 g hg).2,
      pos fun hx => he (.inr (.inr ⟨_, hm.environments.1, g, hg, hx⟩))⟩⟩

theorem made_doctype {y : Content} {c : DocContent} (hm : Made lt y c) : DoctypeSet (y.toDoc lt) := by
  obtain ⟨n, hn⟩ := hm.name
  obtain ⟨s, hs⟩ := hm.sysid
  obtain ⟨p, hp⟩ := hm.pubid
  refine ⟨?_, ?_, ?_⟩
  · show y.doctypeName.isSome = true
    rw [hn]; rfl
  · show y.doctypePubid.isSome = true
    rw [hp]; rfl
  · show y.doctypeSysid.isSome = true
    rw [hs]; rfl

/-- **C140.**  A call that Python can make ends without a crash, whatever the program did before, unless
it is one of the excepted calls. -/
theorem C140_call_partial {ops : List Op} {as : List Ans} {st : PyComps.St} (hn : ∀ o ∈ ops, NativeOp lt o)
    (h : run lt start ops = .ok (as, st)) {o : Op} (ho : NativeOp lt o) (hc : ¬ MayCrash lt st o) :
    ∃ a st', step lt st o = .ok (a, st') := by
  obtain ⟨r, g, ty⟩ := typed_reach hn good_start typed_start h
  have back : (∃ q, rstep lt RDoc.shown r o = .ok q) → ∃ a st', step lt st o = .ok (a, st') := by
    rintro ⟨⟨a, r'⟩, e⟩
    obtain ⟨st', h1, -⟩ := rstep_ok g e
    exact ⟨a, st', h1⟩
  have holds : ∀ {c d}, r.doc c = some d → Holds lt st c (look r d) := fun hd =>
    (dump_some g).2 ⟨_, hd, rfl⟩
  have made : ∀ {c d}, r.doc c = some d → ∃ x, Made lt (look r d) x ∧ FullLists x := fun hd =>
    C140_made lt hn h (holds hd)
  have built : ∀ {c d}, r.doc c = some d → ∃ x, Made lt (look r d) x ∧ PyComps.Lists x := fun hd =>
    ty.made g.wf hd
  by_cases hp : plain o = true
  · exact plain_ok g hp
  cases o with
  | new | get | set | make | write | read | dump | clear | lastLog | del | drop =>
    exact absurd rfl hp
  | delAttr c s =>
    refine back ?_
    simp only [rstep]
    cases hd : r.doc c with
    | none => exact ⟨_, rfl⟩
    | some d => exact absurd ⟨_, holds hd⟩ hc
  | fromStr c cx text =>
    refine back ?_
    simp only [rstep]
    cases hd : r.doc c with
    | none => exact ⟨_, rfl⟩
    | some d =>
      cases hq : parseStr cx (init (some b!"UTF-8")) text with
      | error f => exact absurd ⟨⟨_, holds hd⟩, f, hq⟩ hc
      | ok q =>
        obtain ⟨h1, h2⟩ := fromStr_native ho hq
        obtain ⟨r1, e1, -⟩ := takeParsed_total ty h1 h2 c
        simp only [bind, Except.bind, e1]
        split <;> exact ⟨_, rfl⟩
  | fromFile c cx file =>
    refine back ?_
    simp only [rstep]
    cases hd : r.doc c with
    | none => exact ⟨_, rfl⟩
    | some d =>
      cases file with
      | none => exact ⟨_, rfl⟩
      | some cs =>
        cases hq : parseFile cx (init (some b!"UTF-8")) (some cs) with
        | error f => exact absurd ⟨⟨_, holds hd⟩, f, hq⟩ hc
        | ok q =>
          obtain ⟨h1, h2⟩ := fromFile_native ho hq
          obtain ⟨r1, e1, -⟩ := takeParsed_total ty h1 h2 c
          simp only [hq, bind, Except.bind, e1]
          exact ⟨_, rfl⟩
  | union c1 c2 =>
    refine back ?_
    simp only [rstep]
    cases h1 : r.doc c1 with
    | none => exact ⟨_, rfl⟩
    | some d1 =>
      cases h2 : r.doc c2 with
      | none => exact ⟨_, rfl⟩
      | some d2 =>
        obtain ⟨x1, m1, l1⟩ := built h1
        obtain ⟨x2, m2, l2⟩ := built h2
        obtain ⟨b1, e1, k1⟩ := made_lists m1 l1
        obtain ⟨b2, -, k2⟩ := made_lists m2 l2
        obtain ⟨d, hd, hnat⟩ := union_native b1 b2 e1 k1 k2
        obtain ⟨a', r1, j1, -⟩ := addDoc_total ty hnat
        exact ⟨_, by simp only [hd, bind, Except.bind, j1]; rfl⟩
  | archFilter c arches =>
    refine back ?_
    simp only [rstep]
    cases h1 : r.doc c with
    | none => exact ⟨_, rfl⟩
    | some d1 =>
      obtain ⟨x1, m1, l1⟩ := built h1
      obtain ⟨b1, e1, k1⟩ := made_lists m1 l1
      obtain ⟨d, hd, hnat⟩ := filter_native b1 e1 k1 arches
      obtain ⟨a', r1, j1, -⟩ := addDoc_total ty hnat
      exact ⟨_, by simp only [hd, bind, Except.bind, j1]; rfl⟩
  | eq c x =>
    refine back ?_
    simp only [rstep]
    cases h1 : r.doc c with
    | none => exact ⟨_, rfl⟩
    | some d1 =>
      cases x with
      | none => exact absurd ⟨_, holds h1⟩ hc
      | some c' =>
        simp only
        cases h2 : r.doc c' with
        | none => exact ⟨_, rfl⟩
        | some d2 =>
          obtain ⟨x1, m1, -⟩ := built h1
          obtain ⟨x2, m2, -⟩ := built h2
          obtain ⟨b1, s1⟩ := made_built m1
          obtain ⟨b2, s2⟩ := made_built m2
          obtain ⟨v, e, -⟩ := C41_doc_meaning b1 b2 s1 s2
          exact ⟨_, by simp only [e, bind, Except.bind]; rfl⟩
  | validate c =>
    refine back ?_
    simp only [rstep]
    cases h1 : r.doc c with
    | none => exact ⟨_, rfl⟩
    | some d1 =>
      obtain ⟨x1, m1, l1⟩ := made h1
      obtain ⟨b1, s1⟩ := made_built m1
      obtain ⟨num, -, v, e, -⟩ := C61_partial b1 s1
        (made_listed lt m1 l1 fun hx => hc ⟨_, holds h1, hx⟩)
      have hne := docRules_ne (lt := lt) (.doc ((look r d1).toDoc lt))
      rw [e] at hne
      simp only [e, bind, Except.bind]
      cases v with
      | ok => exact ⟨_, rfl⟩
      | err es =>
        cases es with
        | nil => exact absurd rfl hne
        | cons x xs => exact ⟨_, rfl⟩
  | validateNf c =>
    refine back ?_
    simp only [rstep]
    cases h1 : r.doc c with
    | none => exact ⟨_, rfl⟩
    | some d1 =>
      obtain ⟨x1, m1, l1⟩ := made h1
      obtain ⟨b1, s1⟩ := made_built m1
      obtain ⟨num, -, v, e, -⟩ := C61_partial b1 s1
        (made_listed lt m1 l1 fun hx => hc ⟨_, holds h1, hx⟩)
      exact ⟨_, by simp only [e, bind, Except.bind]; rfl⟩
  | xmlStr c o df fails =>
    refine back ?_
    simp only [rstep]
    cases h1 : r.doc c with
    | none => exact ⟨_, rfl⟩
    | some d1 =>
      obtain ⟨x1, m1, l1⟩ := made h1
      obtain ⟨b1, s1⟩ := made_built m1
      obtain ⟨n, w, e, -⟩ := C60_string b1 s1 (made_doctype lt m1)
        (made_writable lt m1 l1 fun hx => hc ⟨_, holds h1, hx⟩) rfl o df fails
      exact ⟨_, by simp only [xmlStr, e, bind, Except.bind]; rfl⟩
  | xmlFile c name o df fails saved =>
    refine back ?_
    simp only [rstep]
    cases h1 : r.doc c with
    | none => exact ⟨_, rfl⟩
    | some d1 =>
      obtain ⟨x1, m1, l1⟩ := made h1
      have he : withEncoding (look r d1).encoding = (look r d1).encoding := by
        obtain ⟨e, he⟩ := m1.encoding
        rw [he]; rfl
      have hl : { look r d1 with encoding := withEncoding (look r d1).encoding } = look r d1 := by
        rw [he]
      obtain ⟨b1, s1⟩ := made_built m1
      obtain ⟨n, w, e, -⟩ := C60_file b1 s1 (made_doctype lt m1)
        (made_writable lt m1 l1 fun hx => hc ⟨_, holds h1, hx⟩) rfl o df fails
      exact ⟨_, by simp only [xmlFile, hl, e, bind, Except.bind]; rfl⟩

/-- **C140.**  A program that Python can write runs to its end, unless it comes to one of the excepted
calls. -/
theorem C140_program_partial : ∀ (ops : List Op), (∀ o ∈ ops, NativeOp lt o) →
    (∃ as st, run lt start ops = .ok (as, st)) ∨
    ∃ pre o post as st, ops = pre ++ o :: post ∧ run lt start pre = .ok (as, st) ∧ MayCrash lt st o := by
  intro ops hn
  have app : ∀ (pre : List Op) {s as st}, run lt s pre = .ok (as, st) → ∀ {o a st'},
      step lt st o = .ok (a, st') → run lt s (pre ++ [o]) = .ok (as ++ [a], st') := by
    intro pre
    induction pre with
    | nil =>
      intro s as st h o a st' hs
      cases h
      simp only [List.nil_append, run, hs, bind, Except.bind]
      rfl
    | cons p pre ih =>
      intro s as st h o a st' hs
      simp only [run, bind, Except.bind, List.cons_append] at h ⊢
      cases h1 : step lt s p with
      | error e => rw [h1] at h; cases h
      | ok q =>
        rw [h1] at h
        simp only at h ⊢
        cases h2 : run lt q.2 pre with
        | error e => rw [h2] at h; cases h
        | ok q2 =>
          rw [h2] at h
          cases h
          rw [ih h2 hs]
          rfl
  have gen : ∀ (post pre : List Op) {as st}, ops = pre ++ post → run lt start pre = .ok (as, st) →
      (∃ as st, run lt start ops = .ok (as, st)) ∨
      ∃ pre o post as st, ops = pre ++ o :: post ∧ run lt start pre = .ok (as, st) ∧
        MayCrash lt st o := by
    intro post
    induction post with
    | nil => intro pre as st e h; rw [e, List.append_nil]; exact .inl ⟨as, st, h⟩
    | cons o post ih =>
      intro pre as st e h
      by_cases hc : MayCrash lt st o
      · exact .inr ⟨pre, o, post, as, st, e, h, hc⟩
      · obtain ⟨a, st', hs⟩ := C140_call_partial lt (fun x hx => hn x (by rw [e]; simp [hx])) h
          (hn o (by rw [e]; simp)) hc
        exact ih (pre ++ [o]) (by rw [e]; simp) (app pre h hs)
  exact gen ops [] rfl rfl

/-- **C140, false**: deleting an attribute crashes, and comparing with something else. -/
theorem C140_false {ops : List Op} {as : List Ans} {st : PyComps.St}
    (h : run lt start ops = .ok (as, st)) {c : Nat} {y : Content} (hy : Holds lt st c y) (s : Sec) :
    answer lt st (.delAttr c s) = .error .nullDeref ∧
    answer lt st (.eq c none) = .error .typeConfusion := by
  obtain ⟨r, -, g⟩ := reach h
  obtain ⟨d, hd, -⟩ := (dump_some g).1 hy
  unfold answer
  rw [answer_eq g, answer_eq g]
  simp only [rstep, hd]
  exact ⟨rfl, rfl⟩

/-- For the examples: a group with a display order and a package, twice. -/
def ordered (n : Int) : Group := (({ Group.create with
  props := (PropCall.num .displayOrder n false).run asc Group.create.props } : Group).addPackage
    Package.create).addPackage Package.create

theorem ordered_native (n : Int) : Native asc (.groups [ordered n]) := by
  intro g hg
  rw [List.mem_singleton.1 hg]
  exact ⟨.add _ (.add _ (.prop _ .create)), nofun⟩

/-- For the examples: a document with such a group. -/
def orderedOps (n : Int) : List Op := [.new b!"UTF-8", .get 0 .groups, .write 0 (.groups [ordered n])]

theorem orderedOps_native (n : Int) : ∀ o ∈ orderedOps n, NativeOp asc o := by
  simp only [orderedOps, List.forall_mem_cons, List.not_mem_nil, false_implies, implies_true,
    NativeOp, and_true, true_and]
  exact ordered_native n

/-- For the examples: the crash a run ends with. -/
def faultOf {α : Type} : Res α → Option Fault
  | .ok _ => none
  | .error f => some f

theorem faultOf_error {α : Type} {x : Res α} {f : Fault} (h : faultOf x = some f) : x = .error f := by
  cases x <;> cases h
  rfl

/-- **C140, false**: with a negative display order neither `xml_str()` nor `xml_f()` ends. -/
theorem C140_order_false : (∃ as st, run asc start (orderedOps (-1)) = .ok (as, st)) ∧
    answers asc start (orderedOps (-1) ++ [.xmlStr 0 none none fun _ => false]) =
      .error .badConversion ∧
    answers asc start (orderedOps (-1) ++ [.xmlFile 0 b!"f" none none (fun _ => false) true]) =
      .error .badConversion :=
  ⟨⟨_, _, rfl⟩, faultOf_error (by decide +kernel), faultOf_error (by decide +kernel)⟩

/-- **C140, false**: loading a file with an empty `<uservisible>` crashes the program. -/
theorem C140_parse_false : ∃ as st, run asc start (orderedOps 1) = .ok (as, st) ∧
    answer asc st (.fromStr 0 (Reading.plain asc .standard fun _ => []).ctx
      ⟨[(⟨1, 0⟩, .start b!"comps" []), (⟨1, 7⟩, .start b!"group" []), (⟨1, 14⟩, .start b!"uservisible" []),
        (⟨1, 28⟩, .stop b!"uservisible")], none⟩) = .error .nullDeref :=
  ⟨_, _, rfl, rfl⟩

/-- The document that is neither enormous nor of negative order can be validated and written. -/
example : ∃ as st, run asc start (orderedOps 7) = .ok (as, st) ∧
    (∃ a st', step asc st (.validateNf 0) = .ok (a, st')) ∧
    ∃ a st', step asc st (.xmlStr 0 none none fun n => n == 3) = .ok (a, st') := by
  refine ⟨_, _, rfl, C140_call_partial asc (orderedOps_native 7) rfl trivial ?_,
    C140_call_partial asc (orderedOps_native 7) rfl trivial ?_⟩
  · rintro ⟨y, hy, he⟩
    cases hy
    rcases he with ⟨l, hl, h⟩ | ⟨l, hl, h⟩ | ⟨l, hl, h⟩
    · cases hl
      rcases h with h | ⟨g, hg, x, hx, h⟩
      · exact absurd h (by decide)
      · rw [List.mem_singleton.1 hg] at hx
        cases hx
        exact absurd h (by decide)
    · cases hl
      rcases h with h | ⟨g, hg, -⟩
      · exact absurd h (by decide)
      · cases hg
    · cases hl
      rcases h with h | ⟨g, hg, -⟩
      · exact absurd h (by decide)
      · cases hg
  · rintro ⟨y, hy, he⟩
    cases hy
    rcases he with ⟨l, hl, g, hg, n, hn, h⟩ | ⟨l, hl, g, hg, h⟩ | ⟨l, hl, g, hg, h⟩
    · cases hl
      rw [List.mem_singleton.1 hg] at hn
      cases hn
      exact absurd h (by decide)
    · cases hl; cases hg
    · cases hl; cases hg

/-- A program with calls that may crash and others. -/
example : (∃ as st, run asc start (orderedOps 7 ++ [.union 0 0, .delAttr 0 .groups]) = .ok (as, st)) ∨
    ∃ pre o post as st, orderedOps 7 ++ [.union 0 0, .delAttr 0 .groups] = pre ++ o :: post ∧
      run asc start pre = .ok (as, st) ∧ MayCrash asc st o :=
  C140_program_partial asc _ fun o ho => by
    rcases List.mem_append.1 ho with ho | ho
    · exact orderedOps_native 7 o ho
    · simp only [List.mem_cons, List.not_mem_nil, or_false] at ho
      rcases ho with rfl | rfl <;> trivial

/-! ## C138 -/

/-- **C138.**  `validate_nf()` gives all complaints about the document, in order, and nothing else:
entries without an id, and members that occur twice (C61); for every program that Python can write and
every document of it that is not enormous. -/
theorem C138_reported {ops : List Op} {as : List Ans} {st : PyComps.St} (hn : ∀ o ∈ ops, NativeOp lt o)
    (h : run lt start ops = .ok (as, st)) {a : Nat} {y : Content} (hy : Holds lt st a y)
    (he : ¬ Enormous y) : ∃ c, Made lt y c ∧ ∃ num : Nat → Bytes, (∀ n, IsDec n (num n)) ∧
      answer lt st (.validateNf a) = .ok (.msgs ((docReport num c).map (·.2))) := by
  obtain ⟨c, hm, hl⟩ := C140_made lt hn h hy
  exact ⟨c, hm, validateNf_says lt h hy hm (made_listed lt hm hl he)⟩

/-- A document with a group without an id that has a package twice. -/
example : ∃ as st y c num, run asc start (orderedOps 7) = .ok (as, st) ∧ Holds asc st 0 y ∧
    Made asc y c ∧ answer asc st (.validateNf 0) = .ok (.msgs ((docReport num c).map (·.2))) := by
  obtain ⟨c, hm, num, -, h⟩ := C138_reported asc (orderedOps_native 7) (a := 0) rfl rfl (by
    rintro (⟨l, hl, h⟩ | ⟨l, hl, h⟩ | ⟨l, hl, h⟩)
    · cases hl
      rcases h with h | ⟨g, hg, x, hx, h⟩
      · exact absurd h (by decide)
      · rw [List.mem_singleton.1 hg] at hx
        cases hx
        exact absurd h (by decide)
    · cases hl
      rcases h with h | ⟨g, hg, -⟩
      · exact absurd h (by decide)
      · cases hg
    · cases hl
      rcases h with h | ⟨g, hg, -⟩
      · exact absurd h (by decide)
      · cases hg)
  exact ⟨_, _, _, c, num, rfl, rfl, hm, h⟩

/-! ## Axioms -/

#print axioms C140_made
#print axioms C140_call_partial
#print axioms C140_program_partial
#print axioms C140_false
#print axioms C140_order_false
#print axioms C140_parse_false
#print axioms C138_reported

end Comps.Props.PyC
