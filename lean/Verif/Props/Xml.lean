import Verif.Lemmas.XmlDoc
import Verif.Props.DocCopy
import Verif.Props.Dict

/-!
# XML output (C27, C42, C58)

`start fails d` is a new libxml2 writer for the document `d`; `fails n` says whether the `n`-th call
of a writer function fails for a reason outside of the library.  The field `calls` of the final state
lists the calls made with their results.
-/

namespace Comps.Props
open Comps Comps.Spec Comps.Obj Comps.Xml

variable {lt : UInt8 → UInt8 → Bool}

/-- The calls of a run that had an effect. -/
def effective (st : St) : List Call := (st.calls.filter fun c => c.2).map fun c => c.1

/-! ## counters -/

theorem setLoop_empty (v : Option PVal) (c : UInt8) (k : Bytes) :
    (RTree.setLoop lt v [] (c :: k).length (c :: k) (HSList.empty : HSList (Node PVal))).2 = 1 := rfl

theorem langs_counted (ws : List (Bytes × CStr)) (t : RTree PVal) (ht : LangBuilt lt t)
    (h : (t.subnodes = HSList.empty ∧ t.len = 0) ∨ (t.pairs ≠ [] ∧ t.len ≠ 0)) :
    let t' := ws.foldl (fun t w => t.set lt w.1 (some (.str w.2))) t
    (t'.subnodes = HSList.empty ∧ t'.len = 0) ∨ (t'.pairs ≠ [] ∧ t'.len ≠ 0) := by
  induction ws generalizing t with
  | nil => exact h
  | cons w ws ih =>
    refine ih _ (.set w.1 w.2 ht) ?_
    obtain ⟨k, v⟩ := w
    cases k with
    | nil =>
      have : t.set lt [] (some (.str v)) = t := rfl
      simp only [this]; exact h
    | cons c k =>
      right
      have hw := (langBuilt_inv ht).reach.wf
      have hg := RTree.set_get lt hw (c :: k) (by simp) (some (.str v))
      have hm := (RTree.mem_pairs (RTree.set_wf lt hw _ _) _ _).2 hg
      refine ⟨fun e => (by simp only at e; rw [e] at hm; cases hm), ?_⟩
      rcases h with ⟨h1, h2⟩ | ⟨h1, h2⟩
      · show t.len + (RTree.setLoop lt _ [] _ _ t.subnodes).2 ≠ 0
        rw [h1, setLoop_empty]; omega
      · show t.len + _ ≠ 0
        omega

theorem multi_counted (ws : List (Bytes × CStr)) :
    let t := mrun ws
    (t.subnodes = HSList.empty ∧ t.len = 0) ∨ (multiItems t ≠ [] ∧ t.len ≠ 0) := by
  have key : ∀ (ws : List (Bytes × CStr)) (t : MTree CStr), MReach t →
      ((t.subnodes = HSList.empty ∧ t.len = 0) ∨ (multiItems t ≠ [] ∧ t.len ≠ 0)) →
      let t' := ws.foldl (fun t w => MTree.set t w.1 w.2) t
      (t'.subnodes = HSList.empty ∧ t'.len = 0) ∨ (multiItems t' ≠ [] ∧ t'.len ≠ 0) := by
    intro ws
    induction ws with
    | nil => exact fun t _ h => h
    | cons w ws ih =>
      intro t ht h
      refine ih _ (.set w.1 w.2 ht) ?_
      obtain ⟨k, v⟩ := w
      cases k with
      | nil =>
        have : MTree.set t [] v = t := rfl
        simp only [this]; exact h
      | cons c k =>
        right
        have hr : MReach (MTree.set t (c :: k) v) := .set _ _ ht
        refine ⟨?_, ?_⟩
        · have hw := C10_write_partial ht (c :: k) (by simp) v (c :: k)
          rw [if_pos rfl] at hw
          intro e
          cases hg : MTree.get (MTree.set t (c :: k) v) (c :: k) with
          | none => rw [hg] at hw; simp [objects, flatL] at hw
          | some vs =>
            rw [hg] at hw
            have hm : (c :: k, vs) ∈ MTree.pairs (MTree.set t (c :: k) v) :=
              (RTree.mem_pairs (MTree.mreach_ok hr).wf _ _).2 hg
            cases vs with
            | nil => simp [objects, flatL] at hw
            | cons x xs =>
              have : (c :: k, mvalueText x) ∈ multiItems (MTree.set t (c :: k) v) :=
                List.mem_flatMap.2 ⟨_, hm, List.mem_map.2 ⟨x, by simp, rfl⟩⟩
              simp only at e
              rw [e] at this; cases this
        · show t.len + (if (c :: k).isEmpty then 0 else 1) ≠ 0
          rcases h with h | h <;> simp
  exact key ws _ .create (.inl ⟨rfl, rfl⟩)

/-- A dictionary that is the result of writes only has a count telling whether it is empty. -/
theorem counted {c : DocContent} (h : OnlyWrites lt c) : Counted c := by
  obtain ⟨w1, h1⟩ := h.langpacks
  obtain ⟨w2, h2⟩ := h.blacklist
  obtain ⟨w3, h3⟩ := h.whiteout
  have m : ∀ ws : List (Bytes × CStr), (mrun ws).len = 0 ↔ multiItems (mrun ws) = [] := by
    intro ws
    rcases multi_counted ws with ⟨q1, q2⟩ | ⟨q1, q2⟩
    · refine iff_of_true q2 ?_
      unfold multiItems MTree.pairs RTree.pairs
      rw [q1]; rfl
    · exact iff_of_false q2 q1
  refine ⟨?_, by rw [h2]; exact m w2, by rw [h3]; exact m w3⟩
  rw [h1]
  rcases langs_counted w1 RTree.create (lt := lt) .create (.inl ⟨rfl, rfl⟩) with ⟨q1, q2⟩ | ⟨q1, q2⟩
  · refine iff_of_true q2 ?_
    unfold packItems RTree.pairs
    rw [q1]; rfl
  · refine iff_of_false q2 ?_
    unfold packItems
    simpa using q1

/-! ## C27: nesting -/

theorem allCalls_eq {o : Options} {df : Defaults} {d : Doc} (h : Counted (content d)) :
    allCalls o df d = docCalls o df d (content d) := by
  unfold allCalls docCalls
  rw [written_eq h]

/-- C27, part that holds: when no call of the writer fails, a document is written as exactly the tree
it stands for.  All calls succeed, no element is left open, and each entry left out is logged with its
id.  This holds for the file and for the string (which logs once more when the result is not 0).
The document type must be there, the display orders must not be negative, and the counters of the
language packs, the black list and the whiteout must be right (`C27_counted`; not so in copies, C42).
Missing: writers that fail (`C27_false`). -/
theorem C27_partial {d : Doc} (hd : DocBuilt lt d) {c : DocContent} (hs : Shows lt d c)
    (ht : DoctypeOk d) (hw : Writable c) (hn : Counted c) (o : Option Options) (df : Option Defaults)
    {fails : Nat → Bool} (hf : ∀ n, fails n = false) :
    (d.logSet = true → ∃ code st, toFile lt o df d (start fails d) = .ok (code, st) ∧
      st.calls = (docCalls (o.getD .standard) (df.getD .standard) d c).map (fun c => (c, true)) ∧
      st.opened = [] ∧ st.log = (leftOut (o.getD .standard) c).map fun id => ⟨25, [id]⟩) ∧
    (d.logSet = true ∨ leftOut (o.getD .standard) c = [] →
      ∃ code st, toStr lt o df d (start fails d) = .ok (code, st) ∧
        st.calls = (docCalls (o.getD .standard) (df.getD .standard) d c).map (fun c => (c, true)) ∧
        st.opened = [] ∧
        st.log = (leftOut (o.getD .standard) c).map (fun id => ⟨25, [id]⟩) ++
          (if code = 0 then [] else [⟨20, []⟩])) := by
  have hi := docBuilt_inv hd
  have hc := shows_unique hs (shows_content hi)
  subst hc
  have ho : ∀ (l : List Call) (s : St), (put s (l ++ [.endDocument])).opened = [] := by
    intro l s
    show (l ++ [Call.endDocument]).foldl after s.opened = []
    rw [List.foldl_append]; rfl
  refine ⟨fun hl => ?_, fun hl => ?_⟩
  · refine ⟨_, _, toFile_ok hi ht hw (s := start fails d) hf rfl hl, ?_, ?_, ?_⟩
    · rw [allCalls_eq hn]; simp [addLog, put, start]
    · exact ho _ _
    · simp [addLog, put, start, skipEntry]
  · refine ⟨_, _, toStr_ok hi ht hw (s := start fails d) hf rfl hl, ?_, ?_, ?_⟩
    · rw [allCalls_eq hn]; simp [addLog, put, start]
    · exact ho _ _
    · simp [addLog, put, start, skipEntry]

/-- C27: the calls between the first and the last are properly nested, for every tree. -/
theorem C27_nested (o : Options) (df : Defaults) (c : DocContent) :
    ProperlyNested (docTree o df c).calls := tree_nested _

/-- C27: the counters are right when the three dictionaries are the result of writes only, as after
`add` calls on a new document. -/
theorem C27_counted {c : DocContent} (h : OnlyWrites lt c) : Counted c := counted h

theorem runCalls_rest {calls : List DocCall} {d d' : Doc} (h : runCalls lt d calls = .ok d')
    (hc : ∀ x ∈ calls, (∀ s, x ≠ .doctypeName s) ∧ (∀ s, x ≠ .doctypeSysid s) ∧
      (∀ s, x ≠ .doctypePubid s)) : rest d' = rest d := by
  have hget : ∀ {α : Type} {s : Slot α} {d d' : Doc}, (·.2) <$> d.getObj lt s = .ok d' →
      rest d' = rest d := by
    intro α s d d' h
    unfold Doc.getObj at h
    split at h
    · simp [Functor.map, Except.map] at h; subst h; rfl
    · split at h <;> simp [Functor.map, Except.map] at h
      subst h; rfl
  have hadd : ∀ {α : Type} {s : Slot α} {f : α → α} {d d' : Doc}, d.addObj lt s f = .ok d' →
      rest d' = rest d := by
    intro α s f d d' h
    unfold Doc.addObj at h
    split at h
    · simp at h; subst h; rfl
    · split at h <;> simp at h
      subst h; rfl
  induction calls generalizing d with
  | nil => simp [runCalls, pure, Except.pure] at h; rw [h]
  | cons x xs ih =>
    simp only [runCalls, List.foldlM_cons, bind, Except.bind] at h
    split at h
    · simp at h
    · rename_i d1 h1
      rw [ih h fun y hy => hc y (by simp [hy])]
      obtain ⟨c1, c2, c3⟩ := hc x (by simp)
      cases x <;> first
        | exact hget h1
        | (simp only [DocCall.run, Doc.addGroup, Doc.addCategory, Doc.addEnvironment, Doc.addLangpack,
            Doc.addBlacklist, Doc.addWhiteout] at h1; exact hadd h1)
        | (simp [DocCall.run] at h1; subst h1; rfl)
        | exact absurd rfl (c1 _)
        | exact absurd rfl (c2 _)
        | exact absurd rfl (c3 _)

/-- A document made by calls on a new one, with the document type of a new one. -/
theorem made' (calls : List DocCall) (hg : ∀ x ∈ calls, x.Good lt)
    (hc : ∀ x ∈ calls, (∀ s, x ≠ .doctypeName s) ∧ (∀ s, x ≠ .doctypeSysid s) ∧
      (∀ s, x ≠ .doctypePubid s)) :
    ∃ d, DocBuilt lt d ∧ DoctypeOk d ∧ d.logSet = true ∧
      Shows lt d (calls.foldl (DocCall.effect lt) noContent) := by
  obtain ⟨a, h1, h2, h3⟩ := C44_calls newDoc_built
    (C44_new (args := some (some (cs b!"UTF-8"))) rfl none).1 _ hg
  have hr := runCalls_rest h1 hc
  simp only [rest, Prod.mk.injEq] at hr
  refine ⟨a, h2, ⟨⟨_, hr.2.1, by decide⟩, ⟨_, hr.2.2.2.1⟩, ⟨_, hr.2.2.1⟩, fun p _ => ?_⟩, hr.2.2.2.2.1, h3⟩
  rw [hr.2.2.1]; simp [newDoc, Doc.make, compsStr]

/-- A group, an empty category (left out), a language pack and an entry of the black list. -/
def exCalls (lt : UInt8 → UInt8 → Bool) : List DocCall :=
  [.addGroup (idGrp lt b!"g" [pkg b!"a" b!"1", pkg b!"b" b!"2"]), .addCategory (cat []),
    .addLangpack b!"cs" (cs b!"x-%s"), .addBlacklist b!"p" (cs b!"x86_64")]

theorem exCalls_good : ∀ x ∈ exCalls lt, x.Good lt := by
  simp [exCalls, DocCall.Good, idGrp_built, cat_built]

theorem exCalls_plain : ∀ x ∈ exCalls lt, (∀ s, x ≠ .doctypeName s) ∧ (∀ s, x ≠ .doctypeSysid s) ∧
    (∀ s, x ≠ .doctypePubid s) := by simp [exCalls]

theorem exContent_writable : Writable ((exCalls lt).foldl (DocCall.effect lt) noContent) := by
  refine ⟨?_, ?_, ?_⟩
  · intro g hg
    rw [List.mem_singleton.1 (show g ∈ [_] from hg)]
    exact ⟨rfl, fun n hn => by cases hn⟩
  · intro g hg
    rw [List.mem_singleton.1 (show g ∈ [_] from hg)]
    exact ⟨rfl, fun n hn => by cases hn⟩
  · intro g hg
    cases (show g ∈ [] from hg)

theorem exContent_writes : OnlyWrites lt ((exCalls lt).foldl (DocCall.effect lt) noContent) :=
  ⟨⟨[(b!"cs", cs b!"x-%s")], rfl⟩, ⟨[(b!"p", cs b!"x86_64")], rfl⟩, ⟨[], rfl⟩⟩

/-- The example document is written as its tree, and the empty category is logged. -/
example : ∃ d c code st, DocBuilt lt d ∧ Shows lt d c ∧ c.groups.length = 1 ∧
    toFile lt none none d (start (fun _ => false) d) = .ok (code, st) ∧
    st.calls = (docCalls .standard .standard d c).map (fun c => (c, true)) ∧
    st.log = [⟨25, [none]⟩] := by
  obtain ⟨d, h1, h2, h3, h4⟩ := made' (exCalls lt) exCalls_good exCalls_plain
  obtain ⟨code, st, k1, k2, -, k3⟩ := (C27_partial h1 h4 h2 exContent_writable
    (C27_counted exContent_writes) none none (fun _ => rfl)).1 h3
  exact ⟨d, _, code, st, h1, h4, rfl, k1, k2, k3⟩

theorem nested_count {l : List Call} (h : ProperlyNested l) :
    (l.filter fun c => match c with | .startElement _ => true | _ => false).length =
      (l.filter fun c => match c with | .endElement => true | _ => false).length := by
  induction h with
  | nil => rfl
  | text s rest _ ih => simpa using ih
  | elem n as inner rest _ _ h1 h2 =>
    have e1 : (as.map fun a => Call.attribute a.1 a.2).filter
        (fun c => match c with | .startElement _ => true | _ => false) = [] := by
      rw [List.filter_eq_nil_iff]; rintro _ h; obtain ⟨a, -, rfl⟩ := List.mem_map.1 h; simp
    have e2 : (as.map fun a => Call.attribute a.1 a.2).filter
        (fun c => match c with | .endElement => true | _ => false) = [] := by
      rw [List.filter_eq_nil_iff]; rintro _ h; obtain ⟨a, -, rfl⟩ := List.mem_map.1 h; simp
    simp only [List.cons_append, List.filter_cons, List.filter_append, e1, e2, List.append_assoc,
      List.nil_append, if_true, List.length_cons, List.length_append]
    simp
    omega

/-- The document with one group of two packages. -/
def exDoc : Doc :=
  newDoc.setObj (fun a b => a < b) groupsSlot
    (some [idGrp (fun a b => a < b) b!"g" [pkg b!"a" b!"1", pkg b!"b" b!"2"]])

theorem exDoc_built : DocBuilt (fun a b => a < b) exDoc :=
  .call (.setGroups (some [idGrp _ b!"g" [pkg b!"a" b!"1", pkg b!"b" b!"2"]]))
    (by simp [DocCall.Good, idGrp_built]) newDoc_built rfl

/-- The file written for the document when some calls of the writer fail. -/
def exRun (fails : Nat → Bool) : Int × St :=
  match toFile (fun a b => a < b) none none exDoc (start fails exDoc) with
  | .ok x => x
  | .error _ => (-2, start fails exDoc)

theorem exRun_ok {fails : Nat → Bool} (h : (exRun fails).1 = 0) :
    toFile (fun a b => a < b) none none exDoc (start fails exDoc) = .ok (0, (exRun fails).2) := by
  have : ∀ r : Except Fault (Int × St), (match r with
      | .ok x => x
      | .error _ => (-2, start fails exDoc)).1 = 0 →
      r = .ok (0, (match r with
        | .ok x => x
        | .error _ => (-2, start fails exDoc)).2) := by
    intro r hr
    cases r with
    | error f => cases hr
    | ok x => obtain ⟨a, b⟩ := x; cases hr; rfl
  exact this _ h

/-- C27 is false when one call of the writer fails: the text of the first package cannot be written;
its element stays open, the second package goes inside of it, and the end tags that follow each close
the wrong element.  The calls that had an effect are not properly nested, and 0 is returned. -/
theorem C27_false : ∃ (d : Doc) (fails : Nat → Bool) (st : St), DocBuilt (fun a b => a < b) d ∧
    (∃ n, ∀ m, fails m = true ↔ m = n) ∧
    toFile (fun a b => a < b) none none d (start fails d) = .ok (0, st) ∧
    (st.calls.filter fun c => !c.2) = [(.string b!"a", false)] ∧
    ¬ ProperlyNested ((effective st).filter fun c => match c with
      | .startDocument _ | .startDTD _ _ _ | .endDTD | .endDocument => false
      | _ => true) := by
  refine ⟨exDoc, (· == 12), _, exDoc_built, ⟨12, by simp⟩, exRun_ok (by decide +kernel),
    by decide +kernel, fun h => ?_⟩
  have := nested_count h
  revert this
  decide +kernel

/-! ## C58: the result code -/

/-- C58, part that holds: when no call of the writer fails, the result is the number of entries left
out as a signed byte; below 128 it is that number.  Missing: 128 or more entries left out
(`C58_false_wrap`), writers that fail (`C58_false_text`). -/
theorem C58_partial {d : Doc} (hd : DocBuilt lt d) {c : DocContent} (hs : Shows lt d c)
    (ht : DoctypeOk d) (hw : Writable c) (hl : d.logSet = true) (o : Option Options)
    (df : Option Defaults) {fails : Nat → Bool} (hf : ∀ n, fails n = false) :
    ∃ (code : Int) (st st' : St), toFile lt o df d (start fails d) = .ok (code, st) ∧
      toStr lt o df d (start fails d) = .ok (code, st') ∧
      (code - (leftOut (o.getD .standard) c).length) % 256 = 0 ∧ -128 ≤ code ∧ code < 128 ∧
      ((leftOut (o.getD .standard) c).length < 128 →
        code = (leftOut (o.getD .standard) c).length) := by
  have hi := docBuilt_inv hd
  have hc := shows_unique hs (shows_content hi)
  subst hc
  refine ⟨_, _, _, toFile_ok hi ht hw (s := start fails d) hf rfl hl,
    toStr_ok hi ht hw (s := start fails d) hf rfl (.inl hl), ?_⟩
  rw [addRet_eq (by decide)]
  unfold schar
  refine ⟨?_, ?_, ?_, fun h => ?_⟩ <;> omega

example : ∃ d st, DocBuilt lt d ∧
    toFile lt none none d (start (fun _ => false) d) = .ok (1, st) := by
  obtain ⟨d, h1, h2, h3, h4⟩ := made' (exCalls lt) exCalls_good exCalls_plain
  obtain ⟨code, st, st', k1, k2, -, -, -, k3⟩ :=
    C58_partial h1 h4 h2 exContent_writable h3 none none (fun _ => rfl)
  exact ⟨d, st, h1, by rw [k1, k3 (show (1 : Nat) < 128 by decide)]; rfl⟩

/-- C58 is false: the result is 0 for a document whose 256 groups are all left out. -/
theorem C58_false_wrap : ∃ (d : Doc) (c : DocContent) (st : St), DocBuilt lt d ∧ Shows lt d c ∧
    (leftOut .standard c).length = 256 ∧
    toFile lt none none d (start (fun _ => false) d) = .ok (0, st) := by
  obtain ⟨d, h1, h2, h3, h4⟩ := made' (lt := lt) [.setGroups (some (List.replicate 256 (grp [])))]
    (by
      intro x hx
      rw [List.mem_singleton.1 hx]
      intro g hg
      rw [List.eq_of_mem_replicate (show g ∈ List.replicate 256 (grp []) from hg)]
      exact grp_built _) (by
      intro x hx
      rw [List.mem_singleton.1 hx]
      exact ⟨fun _ => nofun, fun _ => nofun, fun _ => nofun⟩)
  have hw : Writable ([DocCall.setGroups (some (List.replicate 256 (grp [])))].foldl
      (DocCall.effect lt) noContent) := by
    refine ⟨?_, fun g hg => (by cases (show g ∈ [] from hg)), fun g hg => (by cases (show g ∈ [] from hg))⟩
    intro g hg
    rw [List.eq_of_mem_replicate (show g ∈ List.replicate 256 (grp []) from hg)]
    exact ⟨rfl, fun n hn => by cases hn⟩
  have hlen : (leftOut .standard ([DocCall.setGroups (some (List.replicate 256 (grp [])))].foldl
      (DocCall.effect lt) noContent)).length = 256 := by
    show (((List.replicate 256 (grp [])).filter fun g => !groupShown .standard g).map _ ++ [] ++
      []).length = 256
    rw [List.filter_replicate_of_pos (by rfl), List.append_nil, List.append_nil, List.length_map,
      List.length_replicate]
  obtain ⟨code, st, st', k1, k2, k3, k4, k5, -⟩ := C58_partial h1 h4 h2 hw h3 none none (fun _ => rfl)
  refine ⟨d, _, st, h1, h4, hlen, ?_⟩
  rw [show (none : Option Options).getD .standard = .standard from rfl, hlen] at k3
  rw [k1]
  have : code = 0 := by omega
  rw [this]

/-- C58 is false: the text of the id of a group cannot be written, but the result is 0 and nothing is
logged. -/
theorem C58_false_text : ∃ (d : Doc) (fails : Nat → Bool) (st : St), DocBuilt (fun a b => a < b) d ∧
    toFile (fun a b => a < b) none none d (start fails d) = .ok (0, st) ∧
    (.string b!"g", false) ∈ st.calls ∧ .string b!"g" ∉ effective st ∧ st.log = [] :=
  ⟨exDoc, (· == 6), _, exDoc_built, exRun_ok (by decide +kernel), by decide +kernel, by decide +kernel,
    by decide +kernel⟩

/-! ## C42: language packs of copies -/

theorem copy_pairs {t : RTree PVal} (h : Reachable lt t) : (t.copy PVal.copy).pairs = t.pairs := by
  obtain ⟨S, h⟩ := h
  rw [(C06_copies_partial h PVal.copy).2.2.2.1, PVal.copy_id]
  simp

/-- The content of a copy. -/
theorem copy_content {a d : Doc} (ha : DocBuilt lt a) (h : a.copy = .ok d) :
    (content d).groups = (content a).groups.map Group.copy ∧
    (content d).categories = (content a).categories.map Category.copy ∧
    (content d).environments = (content a).environments.map Env.copy ∧
    (content d).langpacks.len = 0 ∧
    (content d).blacklist.len = (content a).blacklist.len ∧ multiItems (content a).blacklist = [] ∧
    (content d).whiteout.len = (content a).whiteout.len ∧ multiItems (content a).whiteout = [] := by
  have ia := docBuilt_inv ha
  have hg : ∀ k, d.objects.get k = (a.objects.get k).map DocVal.copy := by
    intro k; rw [(copy_inv h).1]; exact copy_get ia.reachable _ k
  have typed : ∀ k v, a.objects.get k = some v → k ∈ keysOf v ∧ contentOk lt v :=
    fun k v e => ia.typed.get ia.wf e
  have hm : ∀ {t t' : MTree CStr}, MTree.copy t = .ok t' → t'.len = t.len ∧ multiItems t = [] := by
    intro t t' e
    unfold MTree.copy at e
    split at e
    · rename_i he
      cases e
      refine ⟨rfl, ?_⟩
      unfold multiItems MTree.pairs RTree.pairs
      rw [List.isEmpty_iff.1 he]; rfl
    · cases e
  refine ⟨?_, ?_, ?_, ?_, ?_⟩
  · show view groupsSlot d = (view groupsSlot a).map Group.copy
    unfold view
    rw [hg]
    cases e : a.objects.get groupsSlot.key with
    | none => rfl
    | some v =>
      cases v <;> first
        | rfl
        | exact absurd (typed _ _ e).1 (by simp only [keysOf]; decide)
  · show view categoriesSlot d = (view categoriesSlot a).map Category.copy
    unfold view
    rw [hg]
    cases e : a.objects.get categoriesSlot.key with
    | none => rfl
    | some v =>
      cases v <;> first
        | rfl
        | exact absurd (typed _ _ e).1 (by simp only [keysOf]; decide)
  · show view environmentsSlot d = (view environmentsSlot a).map Env.copy
    unfold view
    rw [hg]
    cases e : a.objects.get environmentsSlot.key with
    | none => rfl
    | some v =>
      cases v <;> first
        | rfl
        | exact absurd (typed _ _ e).1 (by simp only [keysOf]; decide)
  · show (view langpacksSlot d).len = 0
    unfold view
    rw [hg]
    cases e : a.objects.get langpacksSlot.key with
    | none => rfl
    | some v =>
      cases v <;> first
        | rfl
        | exact absurd (typed _ _ e).1 (by simp only [keysOf]; decide)
  · have hx : ∀ {s : Slot (MTree CStr)}, s = blacklistSlot ∨ s = whiteoutSlot →
        (view s d).len = (view s a).len ∧ multiItems (view s a) = [] := by
      intro s hs
      unfold view
      rw [hg]
      cases e : a.objects.get s.key with
      | none => rcases hs with rfl | rfl <;> exact ⟨rfl, rfl⟩
      | some v =>
        have hf := copy_mdict ia h e
        cases v with
        | mdict t =>
          simp only [DocVal.copyFault] at hf
          simp only [Option.map, DocVal.copy]
          cases hc : MTree.copy t with
          | error f => simp [hc] at hf
          | ok t' => rcases hs with rfl | rfl <;> exact hm hc
        | _ =>
          rcases hs with rfl | rfl <;>
            exact absurd (typed _ _ e).1 (by simp only [keysOf]; decide)
    exact ⟨(hx (.inl rfl)).1, (hx (.inl rfl)).2, (hx (.inr rfl)).1, (hx (.inr rfl)).2⟩

theorem textTrees_copy {p n q : RTree PVal} (h : DictsInv lt p n q) :
    textTrees (p.copy PVal.copy) (n.copy PVal.copy) (q.copy PVal.copy) = textTrees p n q := by
  simp only [textTrees, langTrees, copy_same h.props.reachable, copy_pairs h.name.reach,
    copy_pairs h.desc.reach]

theorem objCopy_list {α : Type} {f : α → α} (hf : ∀ x, f x = x) (l : Option (List α)) :
    objCopy (listCopy f) l = l := by
  cases l with
  | none => rfl
  | some l => simp only [objCopy, listCopy]; rw [filter_copy hf]

/-- The trees of a copied document, and what is left out. -/
theorem copy_trees {a d : Doc} (ha : DocBuilt lt a) (h : a.copy = .ok d) (hn : Counted (content a))
    (o : Options) (df : Defaults) :
    written o df (content d) = docTree o df { content a with langpacks := RTree.create } ∧
    leftOut o (content d) = leftOut o (content a) ∧
    (Writable (content a) → Writable (content d)) := by
  obtain ⟨xg, xc, xe, -⟩ := contents_built (docBuilt_inv ha)
  obtain ⟨c1, c2, c3, c4, c5, c6, c7, c8⟩ := copy_content ha h
  have ag : ∀ p : RTree PVal, PropInv lt p → archesOf (p.copy PVal.copy) = archesOf p := by
    intro p hp
    unfold archesOf
    rw [copy_same hp.reachable]
  have gT : ∀ g ∈ (content a).groups, groupTree o df g.copy = groupTree o df g := by
    intro g hg
    have hi := groupBuilt_inv (xg g hg)
    simp only [groupTree, Group.copy, textTrees_copy hi, ag _ hi.props, copy_same hi.props.reachable,
      objCopy_list Package.copy_eq]
  have kT : ∀ g ∈ (content a).categories, categoryTree o g.copy = categoryTree o g := by
    intro g hg
    have hi := categoryBuilt_inv (xc g hg)
    simp only [categoryTree, Category.copy, textTrees_copy hi, ag _ hi.props,
      copy_same hi.props.reachable, objCopy_list GroupId.copy_eq]
  have eT : ∀ g ∈ (content a).environments, envTree o g.copy = envTree o g := by
    intro g hg
    have hi := envBuilt_inv (xe g hg)
    simp only [envTree, Env.copy, textTrees_copy hi, ag _ hi.props,
      copy_same hi.props.reachable, objCopy_list GroupId.copy_eq]
  have gS : ∀ g : Group, groupShown o g.copy = groupShown o g := fun g => by
    simp only [groupShown, Group.copy, objCopy_list Package.copy_eq]
  have kS : ∀ g : Category, categoryShown o g.copy = categoryShown o g := fun g => by
    simp only [categoryShown, Category.copy, objCopy_list GroupId.copy_eq]
  have eS : ∀ g : Env, envShown o g.copy = envShown o g := fun g => by
    simp only [envShown, Env.copy, objCopy_list GroupId.copy_eq]
  have lst : ∀ {α β : Type} (copy : α → α) (sh : α → Bool) (f : α → β) (l : List α),
      (∀ x, sh (copy x) = sh x) → (∀ x ∈ l, f (copy x) = f x) →
      ((l.map copy).filter sh).map f = (l.filter sh).map f := by
    intro α β copy sh f l h1 h2
    rw [List.filter_map, List.map_map]
    have : (sh ∘ copy) = sh := funext h1
    rw [this]
    exact List.map_congr_left fun x hx => h2 x (List.mem_filter.1 hx).1
  refine ⟨?_, ?_, ?_⟩
  · unfold Xml.written docTree
    rw [c1, c2, c3, c4, c5, c7]
    rw [lst Group.copy (groupShown o) (groupTree o df) _ gS gT,
      lst Category.copy (categoryShown o) (categoryTree o) _ kS kT,
      lst Env.copy (envShown o) (envTree o) _ eS eT]
    rw [hn.blacklist.2 c6, hn.whiteout.2 c8, c6, c8]
    rfl
  · unfold leftOut
    rw [c1, c2, c3]
    rw [lst Group.copy (fun g => !groupShown o g) _ _ (fun g => by rw [gS])
        (fun g hg => copy_same (groupBuilt_inv (xg g hg)).props.reachable _),
      lst Category.copy (fun g => !categoryShown o g) _ _ (fun g => by rw [kS])
        (fun g hg => copy_same (categoryBuilt_inv (xc g hg)).props.reachable _),
      lst Env.copy (fun g => !envShown o g) _ _ (fun g => by rw [eS])
        (fun g hg => copy_same (envBuilt_inv (xe g hg)).props.reachable _)]
  · intro hw
    refine ⟨?_, ?_, ?_⟩
    · rw [c1]
      intro g hg
      obtain ⟨x, hx, rfl⟩ := List.mem_map.1 hg
      refine ⟨?_, ?_⟩
      · simp only [Group.copy, objCopy_list Package.copy_eq]; exact (hw.groups x hx).1
      · simp only [Group.copy, copy_same (groupBuilt_inv (xg x hx)).props.reachable]
        exact (hw.groups x hx).2
    · rw [c2]
      intro g hg
      obtain ⟨x, hx, rfl⟩ := List.mem_map.1 hg
      refine ⟨?_, ?_⟩
      · simp only [Category.copy, objCopy_list GroupId.copy_eq]; exact (hw.categories x hx).1
      · simp only [Category.copy, copy_same (categoryBuilt_inv (xc x hx)).props.reachable]
        exact (hw.categories x hx).2
    · rw [c3]
      intro g hg
      obtain ⟨x, hx, rfl⟩ := List.mem_map.1 hg
      refine ⟨?_, ?_, ?_⟩
      · simp only [Env.copy, objCopy_list GroupId.copy_eq]; exact (hw.environments x hx).1
      · simp only [Env.copy, objCopy_list GroupId.copy_eq]; exact (hw.environments x hx).2.1
      · simp only [Env.copy, copy_same (envBuilt_inv (xe x hx)).props.reachable]
        exact (hw.environments x hx).2.2

/-- What is written for a copy (when nothing is left out, since the copy has no log): everything the
document itself is written as, but no language packs. -/
theorem C42_what {a d : Doc} (ha : DocBuilt lt a) {c : DocContent} (hs : Shows lt a c)
    (h : a.copy = .ok d) (ht : DoctypeOk a) (hw : Writable c) (hn : Counted c) (o : Option Options)
    (df : Option Defaults) (hl : leftOut (o.getD .standard) c = []) {fails : Nat → Bool}
    (hf : ∀ n, fails n = false) :
    ∃ st, toStr lt o df d (start fails d) = .ok (0, st) ∧
      st.calls = (docCalls (o.getD .standard) (df.getD .standard) a
        { c with langpacks := RTree.create }).map (fun c => (c, true)) ∧ st.log = [] := by
  have hi := docBuilt_inv ha
  have hc := shows_unique hs (shows_content hi)
  subst hc
  obtain ⟨t1, t2, t3⟩ := copy_trees ha h hn (o.getD .standard) (df.getD .standard)
  have hr := (copy_inv h).2.2
  simp only [rest, Prod.mk.injEq] at hr
  have ht' : DoctypeOk d := by
    refine ⟨?_, ?_, ?_, ?_⟩
    · rw [hr.2.1]; exact ht.name
    · rw [hr.2.2.2.1]; exact ht.pubid
    · rw [hr.2.2.1]; exact ht.sysid
    · rw [hr.2.2.1, hr.2.2.2.1]; exact ht.both
  have := toStr_ok (o := o) (df := df) (docBuilt_inv (.copy ha h)) ht' (t3 hw) (s := start fails d)
    hf rfl (.inr (by rw [t2]; exact hl))
  rw [t2, hl] at this
  refine ⟨_, this, ?_, rfl⟩
  simp only [addLog, put, start, List.nil_append, allCalls, docCalls, t1, encodingText, doctypeCalls, hr]

/-- C42, part that holds: a document without language packs is written exactly like its copy.
Missing: documents with language packs (`C42_false`), documents with entries that are left out (a
copy has no log to write that to). -/
theorem C42_partial {a d : Doc} (ha : DocBuilt lt a) {c : DocContent} (hs : Shows lt a c)
    (h : a.copy = .ok d) (ht : DoctypeOk a) (hw : Writable c) (hn : Counted c)
    (hp : c.langpacks.pairs = []) (o : Option Options)
    (df : Option Defaults) (hl : leftOut (o.getD .standard) c = []) {fails : Nat → Bool}
    (hf : ∀ n, fails n = false) :
    ∃ st st', toStr lt o df a (start fails a) = .ok (0, st) ∧
      toStr lt o df d (start fails d) = .ok (0, st') ∧ st.calls = st'.calls := by
  obtain ⟨st', k1, k2, -⟩ := C42_what ha hs h ht hw hn o df hl hf
  have hi := docBuilt_inv ha
  have hc := shows_unique hs (shows_content hi)
  subst hc
  have := toStr_ok (o := o) (df := df) hi ht hw (s := start fails a) hf rfl (.inr hl)
  rw [hl] at this
  refine ⟨_, st', this, k1, ?_⟩
  rw [k2, allCalls_eq hn]
  have : docTree (o.getD .standard) (df.getD .standard) { content a with langpacks := RTree.create } =
      docTree (o.getD .standard) (df.getD .standard) (content a) := by
    simp only [docTree, packItems, hp]
    rfl
  simp only [docCalls, this, addLog, put, start, List.nil_append]

/-- A document with a group of one package, and its copy. -/
example : ∃ (a d : Doc) (st st' : St), DocBuilt lt a ∧ a.copy = .ok d ∧
    toStr lt none none a (start (fun _ => false) a) = .ok (0, st) ∧
    toStr lt none none d (start (fun _ => false) d) = .ok (0, st') ∧ st.calls = st'.calls := by
  have hb : DocBuilt lt (newDoc.setObj lt groupsSlot (some [idGrp lt b!"g" [pkg b!"a" b!"1"]])) :=
    .call (.setGroups (some [idGrp lt b!"g" [pkg b!"a" b!"1"]])) (by simp [DocCall.Good, idGrp_built])
      newDoc_built rfl
  have hs : Shows lt (newDoc.setObj lt groupsSlot (some [idGrp lt b!"g" [pkg b!"a" b!"1"]]))
      { noContent with groups := [idGrp lt b!"g" [pkg b!"a" b!"1"]] } :=
    ⟨⟨_, rfl⟩, ⟨_, rfl⟩, ⟨_, rfl⟩, ⟨_, rfl⟩, ⟨_, rfl⟩, ⟨_, rfl⟩⟩
  obtain ⟨st, st', h1, h2, h3⟩ := C42_partial hb hs rfl
    ⟨⟨_, rfl, by decide⟩, ⟨_, rfl⟩, ⟨_, rfl⟩, fun _ _ => nofun⟩
    ⟨fun g hg => by
      rw [List.mem_singleton.1 hg]; exact ⟨rfl, fun n hn => by cases hn⟩, nofun, nofun⟩
    (counted (lt := lt) ⟨⟨[], rfl⟩, ⟨[], rfl⟩, ⟨[], rfl⟩⟩) rfl none none rfl
    (fails := fun _ => false) (fun _ => rfl)
  exact ⟨_, _, st, st', hb, rfl, h1, h2, h3⟩

/-- A document with one language pack. -/
def packDoc (lt : UInt8 → UInt8 → Bool) : Doc :=
  newDoc.setObj lt langpacksSlot (some (RTree.create.set lt b!"cs" (some (.str (cs b!"x-%s")))))

/-- C42 is false: a document with a language pack can be copied, and when both are written, only the
output of the document has an element for it. -/
theorem C42_false : ∃ (a d : Doc) (st st' : St), DocBuilt lt a ∧ a.copy = .ok d ∧
    toStr lt none none a (start (fun _ => false) a) = .ok (0, st) ∧
    toStr lt none none d (start (fun _ => false) d) = .ok (0, st') ∧
    (.startElement b!"langpacks", true) ∈ st.calls ∧
    ∀ r, (.startElement b!"langpacks", r) ∉ st'.calls := by
  have hb : DocBuilt lt (packDoc lt) :=
    .call (.setLangpacks (some (RTree.create.set lt b!"cs" (some (.str (cs b!"x-%s"))))))
      (by intro x hx; cases hx; exact .set _ _ .create) newDoc_built rfl
  have hs : Shows lt (packDoc lt)
      { noContent with langpacks := RTree.create.set lt b!"cs" (some (.str (cs b!"x-%s"))) } :=
    ⟨⟨_, rfl⟩, ⟨_, rfl⟩, ⟨_, rfl⟩, ⟨_, rfl⟩, ⟨_, rfl⟩, ⟨_, rfl⟩⟩
  have ht : DoctypeOk (packDoc lt) :=
    ⟨⟨_, rfl, by decide⟩, ⟨_, rfl⟩, ⟨_, rfl⟩, fun _ _ => nofun⟩
  have hw : Writable
      { noContent with langpacks := RTree.create.set lt b!"cs" (some (.str (cs b!"x-%s"))) } :=
    ⟨nofun, nofun, nofun⟩
  have hn : Counted
      { noContent with langpacks := RTree.create.set lt b!"cs" (some (.str (cs b!"x-%s"))) } :=
    counted (lt := lt) ⟨⟨[(b!"cs", cs b!"x-%s")], rfl⟩, ⟨[], rfl⟩, ⟨[], rfl⟩⟩
  obtain ⟨st', k1, k2, -⟩ := C42_what hb hs (d := _) rfl ht hw hn none none rfl
    (fails := fun _ => false) (fun _ => rfl)
  obtain ⟨code, st, j1, j2, -, -⟩ := (C27_partial hb hs ht hw hn none none
    (fails := fun _ => false) (fun _ => rfl)).2 (.inl rfl)
  obtain ⟨code', st1, st2, i1, i2, -, -, -, i3⟩ := C58_partial hb hs ht hw rfl none none
    (fails := fun _ => false) (fun _ => rfl)
  rw [i2] at j1
  cases j1
  have : code = 0 := i3 (show (0 : Nat) < 128 by decide)
  subst this
  refine ⟨packDoc lt, _, st, st', hb, rfl, i2, k1, ?_, ?_⟩
  · rw [j2]
    refine List.mem_map.2 ⟨_, ?_, rfl⟩
    show _ ∈ [_, _, _, _, Call.startElement b!"langpacks", _, _, _, _, _, _, _]
    simp
  · intro r
    rw [k2]
    show _ ∉ [_, _, _, (Call.startElement b!"comps", true), (.endElement, true), (.endDocument, true)]
    simp

end Comps.Props

section
open Comps.Props
#print axioms C27_partial
#print axioms C27_nested
#print axioms C27_counted
#print axioms C27_false
#print axioms C58_partial
#print axioms C58_false_wrap
#print axioms C58_false_text
#print axioms C42_what
#print axioms C42_partial
#print axioms C42_false
end
