import Verif.Lemmas.PyCompsStep

/-!
# The reference machine of Python documents
-/

namespace Comps.PyComps
open Comps Comps.Obj Comps.Spec.PyComps Comps.Xml Comps.Parse

variable {lt : UInt8 → UInt8 → Bool} {st st' : St} {r r' : RSt}

/-! ## From the model to the reference machine -/

theorem RelA.ok {α β : Type} {P : α → β → Prop} {a : α} {y : Res β} (h : RelA P (.ok a) y) :
    ∃ b, y = .ok b ∧ P a b := by
  cases y with
  | ok b => exact ⟨b, rfl, h⟩
  | error e => exact absurd h id

theorem RelA.ok' {α β : Type} {P : α → β → Prop} {b : β} {x : Res α} (h : RelA P x (.ok b)) :
    ∃ a, x = .ok a ∧ P a b := by
  cases x with
  | ok a => exact ⟨a, rfl, h⟩
  | error e => exact absurd h id

theorem reach {ops : List Op} {as : List Ans} (h : run lt start ops = .ok (as, st)) :
    ∃ r, rrun lt RDoc.shown rstart ops = .ok (as, r) ∧ Good st r := by
  have := run_sim lt ops good_start
  rw [h] at this
  obtain ⟨⟨as', r⟩, e, e1, g⟩ := this.ok
  exact ⟨r, by rw [e, show as = as' from e1], g⟩

theorem step_ok (g : Good st r) {o : Op} {a : Ans} (h : step lt st o = .ok (a, st')) :
    ∃ r', rstep lt RDoc.shown r o = .ok (a, r') ∧ Good st' r' := by
  have := step_sim lt g o
  rw [h] at this
  obtain ⟨⟨as', r'⟩, e, e1, g'⟩ := this.ok
  exact ⟨r', by rw [e, show a = as' from e1], g'⟩

theorem rstep_ok (g : Good st r) {o : Op} {a : Ans} (h : rstep lt RDoc.shown r o = .ok (a, r')) :
    ∃ st', step lt st o = .ok (a, st') ∧ Good st' r' := by
  have := step_sim lt g o
  rw [h] at this
  obtain ⟨⟨a', st'⟩, e, e1, g'⟩ := this.ok'
  exact ⟨st', by rw [e, show a' = a from e1], g'⟩

theorem answer_eq (g : Good st r) (o : Op) :
    (step lt st o).map (·.1) = (rstep lt RDoc.shown r o).map (·.1) := by
  have := step_sim lt g o
  revert this
  cases step lt st o <;> cases rstep lt RDoc.shown r o
  · rintro (rfl : _ = _)
    rfl
  · exact fun h => absurd h id
  · exact fun h => absurd h id
  · rintro ⟨e, -⟩
    simp only [Except.map, e]

/-! ## Invariants -/

/-- Variables and documents refer to lists that exist, of the right type. -/
structure WF (r : RSt) : Prop where
  vars : ∀ v a, r.var v = some a → a < r.lists.length
  parts : ∀ c d s a, r.doc c = some d → d.part s = some a →
    ∃ x, r.lists[a]? = some x ∧ kindOf x = some s.kind
  shown : ∀ c d s a, r.doc c = some d → d.shown s = some a →
    ∃ x, r.lists[a]? = some x ∧ kindOf x = some s.kind

theorem Good.wf (g : Good st r) : WF r := by
  obtain ⟨hi, h⟩ := g
  refine ⟨fun v a hv => ?_, fun c rd s a hc hs => ?_, fun c rd s a hc hs => ?_⟩
  · rcases h.var v with ⟨_, e⟩ | ⟨w, a', e1, e2, hr⟩
    · rw [e] at hv
      cases hv
    · rw [e2] at hv
      cases hv
      obtain ⟨o, ho⟩ := hi.var_live (var_get e1)
      obtain ⟨b, hb⟩ := hi.obj_live ho
      rw [← hr o ho, ← h.lenO]
      exact (List.getElem?_eq_some_iff.1 hb).1
  · rcases h.doc c with ⟨_, e⟩ | ⟨d, rd', e1, e2, hr⟩
    · rw [e] at hc
      cases hc
    · rw [e2] at hc
      cases hc
      rw [hr.1] at hs
      obtain ⟨b, hb⟩ := hi.sec_live (doc_get e1) hs
      exact ⟨b.val, h.objs a b hb, hi.ks c d s a b (doc_get e1) hs hb⟩
  · rcases h.doc c with ⟨_, e⟩ | ⟨d, rd', e1, e2, hr⟩
    · rw [e] at hc
      cases hc
    · rw [e2] at hc
      cases hc
      cases hcs : d.cache s with
      | none =>
        rw [hr.2.2.2.2.2.2.1 s hcs] at hs
        cases hs
      | some w =>
        obtain ⟨o, ho⟩ := hi.cache_live (doc_get e1) hcs
        obtain ⟨b, hb⟩ := hi.obj_live ho
        rw [hr.2.2.2.2.2.2.2 s w o hcs ho] at hs
        cases hs
        refine ⟨b.val, h.objs _ b hb, ?_⟩
        rw [hi.kw w o b ho hb, hi.kc c d s w o (doc_get e1) hcs ho]

/-! ## Documents and variables after an update -/

theorem doc_put (c : Nat) (d : RDoc) (c' : Nat) :
    (r.put c d).doc c' = if c' = c ∧ c < r.docs.length then some d else
      if c' = c then none else r.doc c' := by
  simp only [RSt.doc, RSt.put, List.getElem?_set]
  by_cases e : c = c'
  · subst e
    by_cases hl : c < r.docs.length <;> simp [hl]
  · simp [e, Ne.symm e]

theorem doc_lt {c : Nat} {d : RDoc} (h : r.doc c = some d) : c < r.docs.length :=
  (List.getElem?_eq_some_iff.1 (rdoc_get h)).1

theorem doc_put_self {c : Nat} {d0 d : RDoc} (h : r.doc c = some d0) :
    (r.put c d).doc c = some d := by
  rw [doc_put]
  simp [doc_lt h]

theorem doc_put_ne {c c' : Nat} {d : RDoc} (h : c' ≠ c) : (r.put c d).doc c' = r.doc c' := by
  rw [doc_put]
  simp [h]

theorem var_put (c : Nat) (d : RDoc) (v : Nat) : (r.put c d).var v = r.var v := rfl
theorem doc_bind (a c : Nat) : (r.bindVar a).doc c = r.doc c := rfl
theorem doc_new (v : DocVal) (c : Nat) : (r.newList v).doc c = r.doc c := rfl
theorem var_new (x : DocVal) (v : Nat) : (r.newList x).var v = r.var v := rfl

theorem var_lt {v a : Nat} (h : r.var v = some a) : v < r.vars.length := by
  simp only [RSt.var, Option.join_eq_some_iff] at h
  exact (List.getElem?_eq_some_iff.1 h).1

theorem var_bind_new (a : Nat) : (r.bindVar a).var r.vars.length = some a := by
  simp [RSt.var, RSt.bindVar]

theorem var_bind_old {a v : Nat} (h : v < r.vars.length) : (r.bindVar a).var v = r.var v := by
  simp [RSt.var, RSt.bindVar, List.getElem?_append_left h]

/-! ## Documents of the C library -/

theorem takeParts_facts (x : Doc) : ∀ (l : List Sec) {r r' : RSt} {f : Sec → Option Nat},
    takeParts x r l = .ok (f, r') →
    (∃ xs, r'.lists = r.lists ++ xs) ∧ r'.docs = r.docs ∧ r'.vars = r.vars ∧
    (∀ s a, f s = some a → r.lists.length ≤ a ∧ s ∈ l ∧ x.objects.get s.key = r'.lists[a]? ∧
      a < r'.lists.length) ∧
    (∀ s, s ∈ l → f s = none → x.objects.get s.key = none) ∧
    (∀ s t a, f s = some a → f t = some a → s = t) := by
  intro l
  induction l with
  | nil =>
    intro r r' f h
    cases h
    exact ⟨⟨[], by simp⟩, rfl, rfl, by simp, by simp, by simp⟩
  | cons s l ih =>
    intro r r' f h
    simp only [takeParts, bind, Except.bind] at h
    cases h1 : takeParts x r l with
    | error e => simp [h1] at h
    | ok q =>
      obtain ⟨g, r1⟩ := q
      obtain ⟨⟨xs, i1⟩, i2, i3, i4, i5, i6⟩ := ih h1
      simp only [h1] at h
      cases hg : x.objects.get s.key with
      | none =>
        simp only [hg, pure, Except.pure] at h
        cases h
        refine ⟨⟨xs, i1⟩, i2, i3, fun t a ha => ?_, fun t ht hn => ?_, i6⟩
        · obtain ⟨a1, a2, a3⟩ := i4 t a ha
          exact ⟨a1, List.mem_cons_of_mem _ a2, a3⟩
        · rcases List.mem_cons.1 ht with rfl | hm
          · exact hg
          · exact i5 t hm hn
      | some v =>
        simp only [hg, pure, Except.pure] at h
        split at h
        · cases h
          have hle : r.lists.length ≤ r1.lists.length := by rw [i1]; simp
          refine ⟨⟨xs ++ [v], by simp [RSt.newList, i1]⟩, i2, i3, fun t a ha => ?_,
            fun t ht hn => ?_, fun t u a ht hu => ?_⟩
          · simp only at ha
            split at ha
            · next et =>
              cases ha
              subst et
              exact ⟨hle, List.mem_cons_self, by simp [RSt.newList, hg], by simp [RSt.newList]⟩
            · obtain ⟨a1, a2, a3, a4⟩ := i4 t a ha
              refine ⟨a1, List.mem_cons_of_mem _ a2, ?_, by simp [RSt.newList]; omega⟩
              simp only [RSt.newList]
              rw [List.getElem?_append_left a4]
              exact a3
          · simp only at hn
            split at hn
            · cases hn
            · next et =>
              rcases List.mem_cons.1 ht with rfl | hm
              · exact absurd rfl et
              · exact i5 t hm hn
          · simp only at ht hu
            split at ht
            · next et =>
              split at hu
              · next eu => rw [et, eu]
              · cases ht
                have := (i4 u _ hu).2.2.2
                omega
            · split at hu
              · cases hu
                have := (i4 t _ ht).2.2.2
                omega
              · exact i6 t u a ht hu
        · cases h

theorem mem_allSecs (s : Sec) : s ∈ allSecs := by cases s <;> simp [allSecs]

theorem takeDoc_facts {x : Doc} {log : List LogEntry} {d : RDoc} (h : takeDoc r x log = .ok (d, r')) :
    (∃ xs, r'.lists = r.lists ++ xs) ∧ r'.docs = r.docs ∧ r'.vars = r.vars ∧
    (∀ s a, d.part s = some a → r.lists.length ≤ a) ∧
    (∀ s t a, d.part s = some a → d.part t = some a → s = t) ∧
    d.shown = (fun _ => none) ∧ d.log = log ∧ look r' d = contentOf x := by
  simp only [takeDoc, bind, Except.bind] at h
  cases h1 : takeParts x r allSecs with
  | error e => simp [h1] at h
  | ok q =>
    obtain ⟨f, r1⟩ := q
    simp only [h1, pure, Except.pure] at h
    cases h
    obtain ⟨i1, i2, i3, i4, i5, i6⟩ := takeParts_facts x allSecs h1
    refine ⟨i1, i2, i3, fun s a ha => (i4 s a ha).1, i6, rfl, rfl, ?_⟩
    simp only [look, contentOf]
    congr 1
    funext s
    cases hf : f s with
    | none => simp [i5 s (mem_allSecs s) hf]
    | some a => simp [(i4 s a hf).2.2.1]

theorem value_append {r r' : RSt} {xs : List DocVal} (h : r'.lists = r.lists ++ xs) {a : Nat}
    (ha : a < r.lists.length) : r'.lists[a]? = r.lists[a]? := by
  rw [h, List.getElem?_append_left ha]

theorem look_append (wf : WF r) {xs : List DocVal} (h : r'.lists = r.lists ++ xs)
    {c : Nat} {d : RDoc} (hd : r.doc c = some d) : look r' d = look r d := by
  simp only [look]
  congr 1
  funext s
  cases hs : d.part s with
  | none => rfl
  | some a =>
    obtain ⟨y, hy, -⟩ := wf.parts c d s a hd hs
    simp only [Option.bind_some]
    rw [value_append h (List.getElem?_eq_some_iff.1 hy).1]

/-! ## What is seen -/

theorem dump_ans (g : Good st r) (c : Nat) : (step lt st (.dump c)).map (·.1) =
    .ok (match r.doc c with | none => .exc .nameError | some d => .content (look r d)) := by
  rw [answer_eq g]
  simp only [rstep]
  cases r.doc c <;> rfl

theorem log_ans (g : Good st r) (c : Nat) : (step lt st (.lastLog c)).map (·.1) =
    .ok (match r.doc c with | none => .exc .nameError | some d => .log d.log) := by
  rw [answer_eq g]
  simp only [rstep]
  cases r.doc c <;> rfl

theorem read_ans (g : Good st r) (v : Nat) : (step lt st (.read v)).map (·.1) =
    .ok (match (r.var v).bind (r.lists[·]?) with
      | none => .exc .nameError | some x => .value x) := by
  rw [answer_eq g]
  simp only [rstep]
  cases hv : r.var v with
  | none => rfl
  | some a =>
    have hl := g.wf.vars v a hv
    simp [RSt.value, List.getElem?_eq_getElem hl, bind, Except.bind, pure, Except.pure, Except.map]

/-- Two states in which a document reads the same. -/
theorem dump_congr {st2 : St} {r2 : RSt} (g : Good st r) (g2 : Good st2 r2) {c : Nat}
    (h : (r2.doc c).map (look r2) = (r.doc c).map (look r)) :
    (step lt st2 (.dump c)).map (·.1) = (step lt st (.dump c)).map (·.1) := by
  rw [dump_ans g, dump_ans g2]
  revert h
  cases r2.doc c <;> cases r.doc c <;> simp

theorem read_congr {st2 : St} {r2 : RSt} (g : Good st r) (g2 : Good st2 r2) {v : Nat}
    (h : (r2.var v).bind (r2.lists[·]?) = (r.var v).bind (r.lists[·]?)) :
    (step lt st2 (.read v)).map (·.1) = (step lt st (.read v)).map (·.1) := by
  rw [read_ans g, read_ans g2, h]

theorem read_append {xs : List DocVal} (wf : WF r) (h : r'.lists = r.lists ++ xs)
    (hv : r'.vars = r.vars) (v : Nat) :
    (r'.var v).bind (r'.lists[·]?) = (r.var v).bind (r.lists[·]?) := by
  have : r'.var v = r.var v := by simp only [RSt.var, hv]
  rw [this]
  cases hr : r.var v with
  | none => rfl
  | some a => exact value_append h (wf.vars v a hr)

theorem get_read (g : Good st r) {c : Nat} {d : RDoc} {s : Sec} (hd : r.doc c = some d)
    (hs : d.shown s = none) :
    (run lt st [.get c s, .read st.vars.length]).map (·.1) =
      .ok [.view, .value ((look r d).part s)] := by
  have h1 : rstep lt RDoc.shown r (.get c s) = .ok (.view, readAttr RDoc.shown r c d s) := by
    simp only [rstep, hd]
  obtain ⟨st1, e1, g1⟩ := rstep_ok g h1
  have h2 := read_ans (lt := lt) g1 st.vars.length
  rw [g.2.lenV] at h2
  simp only [run, e1, bind, Except.bind]
  cases hr : step lt st1 (.read st.vars.length) with
  | error e =>
    rw [← g.2.lenV, hr] at h2
    cases h2
  | ok q =>
    rw [← g.2.lenV, hr] at h2
    simp only [Except.map, Except.ok.injEq] at h2
    simp only [pure, Except.pure, Except.map, h2]
    rw [g.2.lenV]
    congr 3
    simp only [readAttr, hs, Option.none_or]
    cases hp : d.part s with
    | none =>
      have : ((r.newList s.kind.empty).put c { d with
          part := fun t => if t = s then some r.lists.length else d.part t
          shown := fun t => if t = s then some r.lists.length else d.shown t }).vars.length =
          r.vars.length := rfl
      simp only [← this, var_bind_new]
      simp [RSt.bindVar, RSt.put, RSt.newList, look, hp]
    | some a =>
      obtain ⟨y, hy, -⟩ := g.wf.parts c d s a hd hp
      have : (r.put c { d with shown := fun t => if t = s then some a else d.shown t }).vars.length =
          r.vars.length := rfl
      simp only [← this, var_bind_new]
      simp [RSt.bindVar, RSt.put, look, hp, hy]

/-! ## Loading -/

theorem takeParsed_facts {c : Nat} {d0 : RDoc} {p : Parsed} (hd : r.doc c = some d0)
    (h : takeParsed r c p = .ok r') :
    (∃ xs, r'.lists = r.lists ++ xs) ∧ r'.vars = r.vars ∧ (∀ c', c' ≠ c → r'.doc c' = r.doc c') ∧
    ∃ d, r'.doc c = some d ∧ look r' d = parsedContent p ∧ d.log = p.log ∧
      d.shown = (fun _ => none) ∧ (∀ s a, d.part s = some a → r.lists.length ≤ a) := by
  simp only [takeParsed] at h
  cases hp : p.doc with
  | freed => simp [hp] at h
  | null =>
    simp only [hp] at h
    cases h
    refine ⟨⟨[], by simp [RSt.put]⟩, rfl, fun c' hc => doc_put_ne hc,
      _, doc_put_self hd, ?_, rfl, rfl, by simp [emptyDoc]⟩
    simp [parsedContent, hp, look, emptyDoc, emptyContent]
  | live x =>
    simp only [hp, bind, Except.bind] at h
    cases ht : takeDoc r x p.log with
    | error e => simp [ht] at h
    | ok q =>
      obtain ⟨d, r1⟩ := q
      simp only [ht, pure, Except.pure] at h
      cases h
      obtain ⟨i1, i2, i3, i4, -, i5, i6, i7⟩ := takeDoc_facts ht
      have e : ∀ c', r1.doc c' = r.doc c' := fun c' => by simp only [RSt.doc, i2]
      refine ⟨i1, i3, fun c' hc => by rw [doc_put_ne hc, e], d,
        doc_put_self (by rw [e]; exact hd), ?_, i6, i5, i4⟩
      show look r1 d = _
      rw [i7]
      simp [parsedContent, hp]

/-- Everything that holds after a document was loaded. -/
theorem loaded (g : Good st r) {c : Nat} {d0 : RDoc} {p : Parsed} (hd : r.doc c = some d0)
    (h : takeParsed r c p = .ok r') (g' : Good st' r') :
    (step lt st' (.dump c)).map (·.1) = .ok (.content (parsedContent p)) ∧
    (step lt st' (.lastLog c)).map (·.1) = .ok (.log p.log) ∧
    (∀ s, (run lt st' [.get c s, .read st'.vars.length]).map (·.1) =
      .ok [.view, .value ((parsedContent p).part s)]) ∧
    (∀ v, (step lt st' (.read v)).map (·.1) = (step lt st (.read v)).map (·.1)) ∧
    (∀ c', c' ≠ c → (step lt st' (.dump c')).map (·.1) = (step lt st (.dump c')).map (·.1) ∧
      (step lt st' (.lastLog c')).map (·.1) = (step lt st (.lastLog c')).map (·.1)) ∧
    (∀ v x a st'', step lt st' (.write v x) = .ok (a, st'') →
      (step lt st'' (.dump c)).map (·.1) = .ok (.content (parsedContent p))) := by
  obtain ⟨⟨xs, i1⟩, i2, i3, d, j1, j2, j3, j4, j5⟩ := takeParsed_facts hd h
  have hdump : (step lt st' (.dump c)).map (·.1) = .ok (.content (parsedContent p)) := by
    rw [dump_ans g', j1]
    simp only [j2]
  refine ⟨hdump, ?_, fun s => ?_, fun v => ?_, fun c' hc => ⟨?_, ?_⟩, fun v x a st'' hw => ?_⟩
  · rw [log_ans g', j1]
    simp only [j3]
  · rw [get_read g' j1 (by rw [j4]), j2]
  · exact read_congr g g' (read_append g.wf i1 i2 v)
  · refine dump_congr g g' ?_
    rw [i3 c' hc]
    cases hc' : r.doc c' with
    | none => rfl
    | some d' => simp only [Option.map_some, look_append g.wf i1 hc']
  · rw [log_ans g', log_ans g, i3 c' hc]
  · obtain ⟨r2, e2, g2⟩ := step_ok g' hw
    rw [← hdump]
    refine dump_congr g' g2 ?_
    simp only [rstep] at e2
    have hvar : r'.var v = r.var v := by simp only [RSt.var, i2]
    cases hv : r'.var v with
    | none =>
      simp only [hv] at e2
      cases e2
      rfl
    | some b =>
      have hb : b < r.lists.length := g.wf.vars v b (by rw [← hvar, hv])
      simp only [hv, bind, Except.bind] at e2
      cases hval : r'.value b with
      | error e => simp [hval] at e2
      | ok y =>
        simp only [hval] at e2
        split at e2
        · cases e2
          rfl
        · cases e2
          have : ∀ c', ({ r' with lists := r'.lists.set b x } : RSt).doc c' = r'.doc c' := fun _ => rfl
          rw [this, j1]
          simp only [Option.map_some, look]
          congr 2
          funext s
          cases hs : d.part s with
          | none => rfl
          | some a' =>
            have := j5 s a' hs
            simp only [Option.bind_some]
            rw [List.getElem?_set_ne (by omega)]

end Comps.PyComps
