import Verif.Lemmas.PyCompsOwn

/-!
# Single calls on Python documents
-/

namespace Comps.PyComps
open Comps Comps.Obj Comps.Spec.PyComps Comps.Xml Comps.Parse

variable {lt : UInt8 → UInt8 → Bool} {st st' : St} {r r' : RSt}

theorem dump_some (g : Good st r) {c : Nat} {x : Content} :
    answer lt st (.dump c) = .ok (.content x) ↔ ∃ d, r.doc c = some d ∧ look r d = x := by
  unfold answer
  rw [dump_ans g]
  cases r.doc c <;> simp

theorem read_some (g : Good st r) {v : Nat} {x : DocVal} :
    answer lt st (.read v) = .ok (.value x) ↔ ∃ a, r.var v = some a ∧ r.lists[a]? = some x := by
  unfold answer
  rw [read_ans g]
  cases hv : r.var v with
  | none => simp
  | some a =>
    obtain ⟨y, hy⟩ : ∃ y, r.lists[a]? = some y :=
      ⟨_, List.getElem?_eq_getElem (g.wf.vars v a hv)⟩
    simp [hy]

theorem log_some (g : Good st r) {c : Nat} {l : List LogEntry} :
    answer lt st (.lastLog c) = .ok (.log l) ↔ ∃ d, r.doc c = some d ∧ d.log = l := by
  unfold answer
  rw [log_ans g]
  cases r.doc c <;> simp

/-- The list in place of a part. -/
theorem look_put {c : Nat} {d0 d : RDoc} : look (r.put c d0) d = look r d := rfl
theorem look_bind {a : Nat} {d : RDoc} : look (r.bindVar a) d = look r d := rfl

/-! ## Assignment -/

theorem set_facts (g : Good st r) {c v : Nat} {s : Sec} {a : Ans}
    (h : rstep lt RDoc.shown r (.set c s v) = .ok (a, r')) :
    (a = .exc .nameError ∧ r' = r ∧ (r.doc c = none ∨ r.var v = none)) ∨
    ∃ d b x, r.doc c = some d ∧ r.var v = some b ∧ r.lists[b]? = some x ∧
      ((a = .exc .typeError ∧ r' = r ∧ kindOf x ≠ some s.kind) ∨
       (a = .done ∧ kindOf x = some s.kind ∧ r' = r.put c { d with
          part := fun t => if t = s then some b else d.part t
          shown := fun t => if t = s then some b else d.shown t })) := by
  simp only [rstep, bind, Except.bind] at h
  cases hd : r.doc c with
  | none =>
    simp only [hd] at h
    cases h
    exact .inl ⟨rfl, rfl, .inl rfl⟩
  | some d =>
    cases hv : r.var v with
    | none =>
      simp only [hd, hv] at h
      cases h
      exact .inl ⟨rfl, rfl, .inr rfl⟩
    | some b =>
      obtain ⟨y, hy⟩ : ∃ y, r.lists[b]? = some y :=
        ⟨_, List.getElem?_eq_getElem (g.wf.vars v b hv)⟩
      simp only [hd, hv, RSt.value, hy] at h
      right
      refine ⟨d, b, y, rfl, rfl, hy, ?_⟩
      split at h
      · next hk =>
        cases h
        exact .inl ⟨rfl, rfl, hk⟩
      · next hk =>
        cases h
        exact .inr ⟨rfl, Classical.not_not.1 hk, rfl⟩

theorem set_same (lt : UInt8 → UInt8 → Bool) {c v : Nat} {s : Sec} {a : Ans}
    (h : step lt st (.set c s v) = .ok (a, st')) (ha : a ≠ .done) : st' = st := by
  simp only [step, bind, Except.bind] at h
  split at h
  · split at h
    · cases h
    · split at h
      · cases h
        rfl
      · split at h
        · cases h
        · cases h
          exact absurd rfl ha
  · cases h
    rfl

/-! ## Writing to a list -/

theorem write_facts (g : Good st r) {v : Nat} {x : DocVal} {a : Ans}
    (h : rstep lt RDoc.shown r (.write v x) = .ok (a, r')) :
    (a = .exc .nameError ∧ r' = r ∧ r.var v = none) ∨
    ∃ b y, r.var v = some b ∧ r.lists[b]? = some y ∧
      ((a = .exc .typeError ∧ r' = r ∧ kindOf x ≠ kindOf y) ∨
       (a = .done ∧ kindOf x = kindOf y ∧ r' = { r with lists := r.lists.set b x })) := by
  simp only [rstep, bind, Except.bind] at h
  cases hv : r.var v with
  | none =>
    simp only [hv] at h
    cases h
    exact .inl ⟨rfl, rfl, rfl⟩
  | some b =>
    obtain ⟨y, hy⟩ : ∃ y, r.lists[b]? = some y :=
      ⟨_, List.getElem?_eq_getElem (g.wf.vars v b hv)⟩
    simp only [hv, RSt.value, hy] at h
    right
    refine ⟨b, y, rfl, hy, ?_⟩
    split at h
    · next hk =>
      cases h
      exact .inl ⟨rfl, rfl, hk⟩
    · next hk =>
      cases h
      exact .inr ⟨rfl, Classical.not_not.1 hk, rfl⟩

theorem look_write (d : RDoc) {b : Nat} {x : DocVal}
    (hb : b < r.lists.length) :
    look { r with lists := r.lists.set b x } d = { look r d with
      part := fun s => if d.part s = some b then x else (look r d).part s } := by
  simp only [look]
  congr 1
  funext s
  cases hs : d.part s with
  | none => simp
  | some a =>
    by_cases e : a = b
    · subst e
      simp [List.getElem?_set_self hb]
    · simp [e, List.getElem?_set_ne (Ne.symm e)]

/-! ## Calls that look -/

theorem looking_facts {o : Op} {a : Ans} (ho : looking o = true)
    (h : rstep lt RDoc.shown r o = .ok (a, r')) :
    (∃ xs, r'.lists = r.lists ++ xs) ∧ r'.vars = r.vars ∧
    ∀ c d, r.doc c = some d → ∃ d', r'.doc c = some d' ∧ d' = { d with log := d'.log } ∧
      ((∀ c' w df f, o ≠ .xmlStr c' w df f) → d'.log = d.log) ∧ ∃ l, d'.log = d.log ++ l := by
  have same : ∀ {r1 : RSt}, r1 = r → (∃ xs, r1.lists = r.lists ++ xs) ∧ r1.vars = r.vars ∧
      ∀ c d, r.doc c = some d → ∃ d', r1.doc c = some d' ∧ d' = { d with log := d'.log } ∧
      ((∀ c' w df f, o ≠ .xmlStr c' w df f) → d'.log = d.log) ∧ ∃ l, d'.log = d.log ++ l := by
    rintro _ rfl
    exact ⟨⟨[], by simp⟩, rfl, fun c d hd => ⟨d, hd, rfl, fun _ => rfl, [], by simp⟩⟩
  have add : ∀ {r1 : RSt} {x : Doc} {a : Ans}, addDoc r x = .ok (a, r1) →
      (∃ xs, r1.lists = r.lists ++ xs) ∧ r1.vars = r.vars ∧
      ∀ c d, r.doc c = some d → ∃ d', r1.doc c = some d' ∧ d' = { d with log := d'.log } ∧
      ((∀ c' w df f, o ≠ .xmlStr c' w df f) → d'.log = d.log) ∧ ∃ l, d'.log = d.log ++ l := by
    intro r1 x a e
    simp only [addDoc, bind, Except.bind] at e
    cases ht : takeDoc r x [] with
    | error e' => simp [ht] at e
    | ok q =>
      obtain ⟨d, r2⟩ := q
      simp only [ht, pure, Except.pure] at e
      cases e
      obtain ⟨i1, i2, i3, -⟩ := takeDoc_facts ht
      refine ⟨i1, i3, fun c d' hd => ⟨d', ?_, rfl, fun _ => rfl, [], by simp⟩⟩
      have hl := doc_lt hd
      simp only [RSt.doc, i2] at hd ⊢
      rw [List.getElem?_append_left hl, hd]
  cases o <;> simp [looking] at ho <;> simp only [rstep, bind, Except.bind, pure, Except.pure] at h
  case read v =>
    split at h
    · cases h
      exact same rfl
    · split at h
      · cases h
      · cases h
        exact same rfl
  case dump c =>
    split at h <;> cases h <;> exact same rfl
  case lastLog c =>
    split at h <;> cases h <;> exact same rfl
  case union c1 c2 =>
    split at h
    · split at h
      · cases h
      · exact add h
    · cases h
      exact same rfl
  case archFilter c ar =>
    split at h
    · cases h
      exact same rfl
    · split at h
      · cases h
      · exact add h
  case eq c x =>
    split at h
    · cases h
      exact same rfl
    · cases h
    · split at h
      · cases h
        exact same rfl
      · split at h
        · cases h
        · cases h
          exact same rfl
  case validate c =>
    split at h
    · cases h
      exact same rfl
    · split at h
      · cases h
      · split at h
        · cases h
        · cases h
          exact same rfl
  case validateNf c =>
    split at h
    · cases h
      exact same rfl
    · split at h
      · cases h
      · cases h
        exact same rfl
  case xmlStr c o df f =>
    split at h
    · cases h
      exact same rfl
    · next d hd =>
      split at h
      · cases h
      · next q hq =>
        cases h
        refine ⟨⟨[], by simp [RSt.put]⟩, rfl, fun c' d' hd' => ?_⟩
        by_cases e : c' = c
        · subst e
          rw [hd] at hd'
          cases hd'
          exact ⟨_, doc_put_self hd, rfl, fun hn => absurd rfl (hn _ _ _ _), _, rfl⟩
        · rw [doc_put_ne e]
          exact ⟨d', hd', rfl, fun _ => rfl, [], by simp⟩

theorem looking_keeps (g : Good st r) (g' : Good st' r') {o : Op} {a : Ans} (ho : looking o = true)
    (h : rstep lt RDoc.shown r o = .ok (a, r')) :
    (∀ c x, answer lt st (.dump c) = .ok (.content x) →
      answer lt st' (.dump c) = .ok (.content x)) ∧
    (∀ v x, answer lt st (.read v) = .ok (.value x) → answer lt st' (.read v) = .ok (.value x)) ∧
    (∀ c l, answer lt st (.lastLog c) = .ok (.log l) →
      ∃ l', answer lt st' (.lastLog c) = .ok (.log (l ++ l')) ∧
        ((∀ c' w df f, o ≠ .xmlStr c' w df f) → l' = [])) := by
  obtain ⟨⟨xs, h1⟩, h2, h3⟩ := looking_facts ho h
  refine ⟨fun c x hx => ?_, fun v x hx => ?_, fun c l hl => ?_⟩
  · obtain ⟨d, hd, rfl⟩ := (dump_some g).1 hx
    obtain ⟨d', hd', e, -⟩ := h3 c d hd
    refine (dump_some g').2 ⟨d', hd', ?_⟩
    rw [← look_append g.wf h1 hd, e]
    rfl
  · obtain ⟨b, hb, hx⟩ := (read_some g).1 hx
    refine (read_some g').2 ⟨b, by simpa only [RSt.var, h2] using hb, ?_⟩
    rw [value_append h1 (List.getElem?_eq_some_iff.1 hx).1, hx]
  · obtain ⟨d, hd, rfl⟩ := (log_some g).1 hl
    obtain ⟨d', hd', -, e, l', el⟩ := h3 c d hd
    refine ⟨l', (log_some g').2 ⟨d', hd', el⟩, fun hn => ?_⟩
    have := e hn
    rw [el] at this
    simpa using this

/-! ## New documents -/

theorem addDoc_facts (g : Good st r) (g' : Good st' r') {x : Doc} {a : Ans}
    (h : addDoc r x = .ok (a, r')) : a = .comps ∧
    answer lt st' (.dump st.docs.length) = .ok (.content (contentOf x)) ∧
    answer lt st' (.lastLog st.docs.length) = .ok (.log []) ∧
    ∀ v y b st'', step lt st' (.write v y) = .ok (b, st'') →
      answer lt st'' (.dump st.docs.length) = .ok (.content (contentOf x)) := by
  simp only [addDoc, bind, Except.bind] at h
  cases ht : takeDoc r x [] with
  | error e' => simp [ht] at h
  | ok q =>
    obtain ⟨d, r2⟩ := q
    simp only [ht, pure, Except.pure] at h
    cases h
    obtain ⟨⟨xs, i1⟩, i2, i3, i4, -, -, i7, i8⟩ := takeDoc_facts ht
    have hnew : RSt.doc { r2 with docs := r2.docs ++ [some d] } st.docs.length = some d := by
      simp [RSt.doc, g.2.lenD, ← i2]
    refine ⟨rfl, (dump_some g').2 ⟨d, hnew, i8⟩, (log_some g').2 ⟨d, hnew, i7⟩,
      fun v y b st'' hw => ?_⟩
    obtain ⟨r3, e3, g3⟩ := step_ok g' hw
    rcases write_facts g' e3 with ⟨-, rfl, -⟩ | ⟨b', z, hv, hz, ⟨-, rfl, -⟩ | ⟨-, -, rfl⟩⟩
    · exact (dump_some g3).2 ⟨d, hnew, i8⟩
    · exact (dump_some g3).2 ⟨d, hnew, i8⟩
    · refine (dump_some g3).2 ⟨d, hnew, ?_⟩
      rw [look_write d (List.getElem?_eq_some_iff.1 hz).1]
      have : ∀ s, d.part s ≠ some b' := by
        intro s e
        have h1 := i4 s b' e
        have h2 := g.wf.vars v b' (by simpa only [RSt.var, i3] using hv)
        omega
      simp only [this, if_false]
      exact i8

/-! ## Attributes -/

theorem rrun_coh_end (os : List Op) : ∀ {t : List Nat} {r r' : RSt} {as : List Ans}, Coh t r →
    clearsFirst t os = true → rrun lt RDoc.shown r os = .ok (as, r') → ∃ t', Coh t' r' := by
  induction os with
  | nil =>
    intro t r r' as h _ e
    cases e
    exact ⟨t, h⟩
  | cons o os ih =>
    intro t r r' as h hc e
    rw [clearsFirst_cons, Bool.and_eq_true] at hc
    obtain ⟨-, e2⟩ := rstep_coh (lt := lt) h o hc.1
    simp only [rrun, bind, Except.bind] at e
    cases hs : rstep lt RDoc.shown r o with
    | error e' => simp [hs] at e
    | ok q =>
      obtain ⟨a, r1⟩ := q
      simp only [hs] at e
      cases hr : rrun lt RDoc.shown r1 os with
      | error e' => simp [hr] at e
      | ok q' =>
        obtain ⟨as', r2⟩ := q'
        simp only [hr] at e
        cases e
        exact ih (e2 a r1 hs) hc.2 hr

/-- After `v = c.s` the variable holds the list of the document. -/
theorem get_coh {t : List Nat} (h : Coh t r) {c : Nat} {s : Sec} {a : Ans} {d : RDoc}
    (hd : r.doc c = some d) (e : rstep lt RDoc.shown r (.get c s) = .ok (a, r')) :
    ∃ d' b, r'.doc c = some d' ∧ d'.part s = some b ∧ r'.var r.vars.length = some b ∧ a = .view := by
  simp only [rstep, hd] at e
  cases e
  have e : (d.shown s).or (d.part s) = d.part s := by
    cases hs : d.shown s with
    | none => rfl
    | some a => rw [(h c d hd).1 s a hs]; rfl
  simp only [readAttr, e]
  cases hp : d.part s with
  | some b =>
    refine ⟨_, b, doc_put_self hd, hp, ?_, by first | trivial | rfl⟩
    exact var_bind_new (r := r.put c _) b
  | none =>
    refine ⟨_, r.lists.length, doc_put_self (r := r.newList _) hd, by simp, ?_, by first | trivial | rfl⟩
    exact var_bind_new (r := (r.newList _).put c _) _

/-! ## Calls that never fail -/

theorem plain_ok (g : Good st r) {o : Op} (ho : plain o = true) :
    ∃ a st', step lt st o = .ok (a, st') := by
  suffices h : ∃ q, rstep lt RDoc.shown r o = .ok q by
    obtain ⟨⟨a, r'⟩, e⟩ := h
    obtain ⟨st', e', -⟩ := rstep_ok g e
    exact ⟨a, st', e'⟩
  have val : ∀ {v a}, r.var v = some a → ∃ x, r.value a = .ok x := by
    intro v a hv
    exact ⟨r.lists[a]'(g.wf.vars v a hv), by
      simp [RSt.value, List.getElem?_eq_getElem (g.wf.vars v a hv)]⟩
  cases o <;> simp [plain] at ho <;> simp only [rstep, bind, Except.bind, pure, Except.pure]
  case new => exact ⟨_, rfl⟩
  case make => exact ⟨_, rfl⟩
  case get => split <;> exact ⟨_, rfl⟩
  case dump => split <;> exact ⟨_, rfl⟩
  case clear => split <;> exact ⟨_, rfl⟩
  case lastLog => split <;> exact ⟨_, rfl⟩
  case del => split <;> exact ⟨_, rfl⟩
  case drop => split <;> exact ⟨_, rfl⟩
  case set =>
    split
    · next hv =>
      obtain ⟨x, hx⟩ := val hv
      rw [hx]
      simp only
      split <;> exact ⟨_, rfl⟩
    · exact ⟨_, rfl⟩
  case write =>
    split
    · exact ⟨_, rfl⟩
    · next hv =>
      obtain ⟨x, hx⟩ := val hv
      rw [hx]
      simp only
      split <;> exact ⟨_, rfl⟩
  case read =>
    split
    · exact ⟨_, rfl⟩
    · next hv =>
      obtain ⟨x, hx⟩ := val hv
      rw [hx]
      exact ⟨_, rfl⟩

theorem plain_run (os : List Op) : ∀ {st : St} {r : RSt}, Good st r → os.all plain = true →
    ∃ q, run lt st os = .ok q := by
  induction os with
  | nil => exact fun _ _ => ⟨_, rfl⟩
  | cons o os ih =>
    intro st r g h
    simp only [List.all_cons, Bool.and_eq_true] at h
    obtain ⟨a, st1, e⟩ := plain_ok (lt := lt) g h.1
    obtain ⟨r1, -, g1⟩ := step_ok g e
    obtain ⟨⟨as, st2⟩, e2⟩ := ih g1 h.2
    exact ⟨(a :: as, st2), by simp only [run, e, e2, bind, Except.bind]; rfl⟩

/-! ## Calls that are sure to work -/

theorem get_step (g : Good st r) {c : Nat} {d : RDoc} (hd : r.doc c = some d) (s : Sec) :
    ∃ st1, step lt st (.get c s) = .ok (.view, st1) ∧ Good st1 (readAttr RDoc.shown r c d s) :=
  rstep_ok g (by simp only [rstep, hd])

theorem write_step (g : Good st r) {v b : Nat} {x y : DocVal} (hv : r.var v = some b)
    (hy : r.lists[b]? = some y) (hk : kindOf x = kindOf y) :
    ∃ st1, step lt st (.write v x) = .ok (.done, st1) ∧
      Good st1 { r with lists := r.lists.set b x } :=
  rstep_ok g (by simp [rstep, hv, RSt.value, hy, bind, Except.bind, pure, Except.pure, hk])

theorem read_step (g : Good st r) {v b : Nat} {y : DocVal} (hv : r.var v = some b)
    (hy : r.lists[b]? = some y) : ∃ st1, step lt st (.read v) = .ok (.value y, st1) ∧ Good st1 r :=
  rstep_ok g (by simp [rstep, hv, RSt.value, hy, bind, Except.bind, pure, Except.pure])

theorem dump_step (g : Good st r) {c : Nat} {d : RDoc} (hd : r.doc c = some d) :
    ∃ st1, step lt st (.dump c) = .ok (.content (look r d), st1) ∧ Good st1 r :=
  rstep_ok g (by simp only [rstep, hd])

theorem clear_step (g : Good st r) {c : Nat} {d : RDoc} (hd : r.doc c = some d) :
    ∃ st1, step lt st (.clear c) = .ok (.done, st1) ∧
      Good st1 (r.put c { emptyDoc d.encoding with shown := d.shown }) :=
  rstep_ok g (by simp only [rstep, hd])

/-- Reading an attribute that was given before. -/
theorem readAttr_shown {c b : Nat} {d : RDoc} {s : Sec} (hs : d.shown s = some b) :
    (readAttr RDoc.shown r c d s).lists = r.lists ∧
    (readAttr RDoc.shown r c d s).var r.vars.length = some b ∧
    ∀ v, v < r.vars.length → (readAttr RDoc.shown r c d s).var v = r.var v := by
  simp only [readAttr, hs, Option.some_or]
  exact ⟨by first | trivial | rfl, var_bind_new (r := r.put c _) b,
    fun v hv => var_bind_old (r := r.put c _) hv⟩

end Comps.PyComps
