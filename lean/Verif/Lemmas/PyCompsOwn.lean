import Verif.Lemmas.PyCompsProps

/-!
# Who holds which list
-/

namespace Comps.PyComps
open Comps Comps.Obj Comps.Spec.PyComps Comps.Xml Comps.Parse

variable {lt : UInt8 → UInt8 → Bool} {st st' : St} {r r' : RSt}

def touches (s : Sec) : Op → Prop
  | .get _ s' => s' = s
  | .set _ s' _ => s' = s
  | _ => False

/-- What a call may do to a document. -/
structure DocOk (o : Op) (r : RSt) (c : Nat) (d' : RDoc) : Prop where
  part : ∀ s a, d'.part s = some a → r.lists.length ≤ a ∨
    (∃ d, r.doc c = some d ∧ d.part s = some a) ∨ noAssign o = false
  inj : ∀ s t a, r.lists.length ≤ a → d'.part s = some a → d'.part t = some a → s = t
  shown : ∀ s a, d'.shown s = some a →
    (∃ d, r.doc c = some d ∧ d.shown s = some a) ∨ touches s o

def DocStep (o : Op) (r r' : RSt) : Prop :=
  ∃ c0, (∀ c, c ≠ c0 → r'.doc c = r.doc c) ∧ ∀ d', r'.doc c0 = some d' → DocOk o r c0 d'

theorem docOk_old {o : Op} (wf : WF r) {c : Nat} {d d' : RDoc} (h : r.doc c = some d)
    (h1 : d'.part = d.part) (h2 : ∀ s a, d'.shown s = some a → d.shown s = some a ∨ touches s o) :
    DocOk o r c d' := by
  refine ⟨fun s a ha => .inr (.inl ⟨d, h, by rw [← h1]; exact ha⟩), fun s t a hl ha _ => ?_,
    fun s a ha => (h2 s a ha).imp (fun e => ⟨d, h, e⟩) id⟩
  obtain ⟨x, hx, -⟩ := wf.parts c d s a h (by rw [← h1]; exact ha)
  have := (List.getElem?_eq_some_iff.1 hx).1
  omega

theorem docStep_same {o : Op} (wf : WF r) (e : r'.docs = r.docs) : DocStep o r r' := by
  have : ∀ c, r'.doc c = r.doc c := fun c => by simp only [RSt.doc, e]
  exact ⟨0, fun c _ => this c, fun d' hd' => docOk_old wf (by rw [← this]; exact hd') rfl
    fun s a ha => .inl ha⟩

theorem docStep_put {o : Op} {c : Nat} {d d' : RDoc} (h : r.doc c = some d)
    (e : r'.docs = (r.put c d').docs) (hd : DocOk o r c d') : DocStep o r r' := by
  have : ∀ c', r'.doc c' = (r.put c d').doc c' := fun c' => by simp only [RSt.doc, e]
  refine ⟨c, fun c' hc => by rw [this, doc_put_ne hc], fun d2 h2 => ?_⟩
  rw [this, doc_put_self h] at h2
  cases h2
  exact hd

theorem docStep_add {o : Op} {d' : RDoc} (e : r'.docs = r.docs ++ [some d'])
    (h1 : ∀ s a, d'.part s = some a → r.lists.length ≤ a)
    (h2 : ∀ s t a, d'.part s = some a → d'.part t = some a → s = t)
    (h3 : d'.shown = fun _ => none) : DocStep o r r' := by
  refine ⟨r.docs.length, fun c hc => ?_, fun d2 hd2 => ?_⟩
  · simp only [RSt.doc, e]
    by_cases hl : c < r.docs.length
    · rw [List.getElem?_append_left hl]
    · rw [List.getElem?_eq_none (by simp; omega), List.getElem?_eq_none (by omega)]
  · simp only [RSt.doc, e, List.getElem?_concat_length, Option.join_some, Option.some.injEq] at hd2
    subst hd2
    exact ⟨fun s a ha => .inl (h1 s a ha), fun s t a _ => h2 s t a, by simp [h3]⟩

theorem docStep_fresh {o : Op} {c : Nat} {d d' : RDoc} {x : Doc} {log : List LogEntry} {r1 : RSt}
    (h : r.doc c = some d) (ht : takeDoc r x log = .ok (d', r1)) : DocStep o r (r1.put c d') := by
  obtain ⟨-, i2, -, i4, i5, i6, -, -⟩ := takeDoc_facts ht
  refine docStep_put (d' := d') h (by simp only [RSt.put, i2]) ?_
  exact ⟨fun s a ha => .inl (i4 s a ha), fun s t a _ => i5 s t a, by simp [i6]⟩

theorem docStep_parsed {o : Op} {c : Nat} {d : RDoc} {p : Parsed} (h : r.doc c = some d)
    (ht : takeParsed r c p = .ok r') : DocStep o r r' := by
  simp only [takeParsed] at ht
  cases hp : p.doc with
  | freed => simp [hp] at ht
  | null =>
    simp only [hp] at ht
    cases ht
    exact docStep_put h rfl ⟨by simp [emptyDoc], by simp [emptyDoc], by simp [emptyDoc]⟩
  | live x =>
    simp only [hp, bind, Except.bind] at ht
    cases ht' : takeDoc r x p.log with
    | error e' => simp [ht'] at ht
    | ok q =>
      simp only [ht', pure, Except.pure] at ht
      cases ht
      exact docStep_fresh h ht'

theorem docStep_addDoc {o : Op} {x : Doc} {a : Ans} (e : addDoc r x = .ok (a, r')) :
    DocStep o r r' := by
  simp only [addDoc, bind, Except.bind] at e
  cases ht : takeDoc r x [] with
  | error e' => simp [ht] at e
  | ok q =>
    obtain ⟨d, r1⟩ := q
    simp only [ht, pure, Except.pure] at e
    cases e
    obtain ⟨-, i2, -, i4, i5, i6, -, -⟩ := takeDoc_facts ht
    exact docStep_add (by simp only [i2]) i4 i5 i6

theorem rstep_docs (wf : WF r) (o : Op) {a : Ans} (e : rstep lt RDoc.shown r o = .ok (a, r')) :
    DocStep o r r' := by
  have same : ∀ {r1 : RSt}, r1.docs = r.docs → DocStep o r r1 := fun h => docStep_same wf h
  cases o with
  | new enc =>
    cases e
    exact docStep_add rfl (by simp [emptyDoc]) (by simp [emptyDoc]) rfl
  | get c s =>
    simp only [rstep] at e
    cases hd : r.doc c with
    | none =>
      simp only [hd] at e
      cases e
      exact same rfl
    | some d =>
      simp only [hd] at e
      cases e
      simp only [readAttr]
      cases hp : (d.shown s).or (d.part s) with
      | some b =>
        refine docStep_put hd rfl (docOk_old wf hd rfl fun u b' hu => ?_)
        simp only at hu
        split at hu
        · next eu => exact .inr eu.symm
        · exact .inl hu
      | none =>
        have hps : d.part s = none := by
          cases hs : d.shown s with
          | none => simpa [hs] using hp
          | some b => simp [hs] at hp
        refine docStep_put hd rfl ⟨fun u b hu => ?_, fun u v b hl hu hv => ?_, fun u b hu => ?_⟩
        · simp only at hu
          split at hu
          · cases hu
            exact .inl (Nat.le_refl _)
          · exact .inr (.inl ⟨d, hd, hu⟩)
        · have old : ∀ w, d.part w = some b → False := by
            intro w hw
            obtain ⟨x, hx, -⟩ := wf.parts c d w b hd hw
            have := (List.getElem?_eq_some_iff.1 hx).1
            omega
          simp only at hu hv
          split at hu
          · next eu =>
            split at hv
            · next ev => rw [eu, ev]
            · exact absurd hv (fun h => old v h)
          · exact absurd hu (fun h => old u h)
        · simp only at hu
          split at hu
          · next eu => exact .inr eu.symm
          · exact .inl ⟨d, hd, hu⟩
  | set c s v =>
    simp only [rstep, bind, Except.bind] at e
    cases hd : r.doc c with
    | none =>
      simp only [hd] at e
      cases e
      exact same rfl
    | some d =>
      cases hv : r.var v with
      | none =>
        simp only [hd, hv] at e
        cases e
        exact same rfl
      | some b =>
        simp only [hd, hv] at e
        cases hx : r.value b with
        | error e' => simp [hx] at e
        | ok x =>
          simp only [hx] at e
          split at e
          · cases e
            exact same rfl
          · cases e
            refine docStep_put hd rfl ⟨fun u b hu => .inr (.inr rfl), fun u w b' hl hu hw => ?_,
              fun u b hu => ?_⟩
            · have hb := wf.vars v b hv
              have old : ∀ w, d.part w = some b' → False := by
                intro w hw
                obtain ⟨x, hx, -⟩ := wf.parts c d w b' hd hw
                have := (List.getElem?_eq_some_iff.1 hx).1
                omega
              simp only at hu
              split at hu
              · cases hu
                omega
              · exact absurd hu (fun h => old u h)
            · simp only at hu
              split at hu
              · next eu => exact .inr eu.symm
              · exact .inl ⟨d, hd, hu⟩
  | delAttr c s =>
    simp only [rstep] at e
    cases hd : r.doc c with
    | none =>
      simp only [hd] at e
      cases e
      exact same rfl
    | some d =>
      simp only [hd] at e
      cases e
  | make k =>
    cases e
    exact same rfl
  | write v x =>
    simp only [rstep, bind, Except.bind] at e
    cases hv : r.var v with
    | none =>
      simp only [hv] at e
      cases e
      exact same rfl
    | some b =>
      simp only [hv] at e
      cases hx : r.value b with
      | error e' => simp [hx] at e
      | ok y =>
        simp only [hx] at e
        split at e <;> cases e <;> exact same rfl
  | read v =>
    simp only [rstep, bind, Except.bind] at e
    cases hv : r.var v with
    | none =>
      simp only [hv] at e
      cases e
      exact same rfl
    | some b =>
      simp only [hv] at e
      cases hx : r.value b with
      | error e' => simp [hx] at e
      | ok y =>
        simp only [hx] at e
        cases e
        exact same rfl
  | dump c =>
    simp only [rstep] at e
    cases hd : r.doc c <;> simp only [hd] at e <;> cases e <;> exact same rfl
  | clear c =>
    simp only [rstep] at e
    cases hd : r.doc c with
    | none =>
      simp only [hd] at e
      cases e
      exact same rfl
    | some d =>
      simp only [hd] at e
      cases e
      exact docStep_put hd rfl ⟨by simp [emptyDoc], by simp [emptyDoc],
        fun s a hs => .inl ⟨d, hd, hs⟩⟩
  | fromStr c cx text =>
    simp only [rstep, bind, Except.bind] at e
    cases hd : r.doc c with
    | none =>
      simp only [hd] at e
      cases e
      exact same rfl
    | some d =>
      simp only [hd] at e
      cases hp : parseStr cx (init (some b!"UTF-8")) text with
      | error e' => simp [hp] at e
      | ok q =>
        simp only [hp] at e
        split at e
        · cases e
          exact same rfl
        · cases ht : takeParsed r c q.2 with
          | error e' => simp [ht] at e
          | ok r1 =>
            simp only [ht] at e
            cases e
            exact docStep_parsed hd ht
  | fromFile c cx file =>
    simp only [rstep, bind, Except.bind] at e
    cases hd : r.doc c with
    | none =>
      simp only [hd] at e
      cases e
      exact same rfl
    | some d =>
      cases file with
      | none =>
        simp only [hd] at e
        cases e
        exact same rfl
      | some cs =>
        simp only [hd] at e
        cases hp : parseFile cx (init (some b!"UTF-8")) (some cs) with
        | error e' => simp [hp] at e
        | ok q =>
          simp only [hp] at e
          cases ht : takeParsed r c q.2 with
          | error e' => simp [ht] at e
          | ok r1 =>
            simp only [ht] at e
            cases e
            exact docStep_parsed hd ht
  | union c1 c2 =>
    simp only [rstep, bind, Except.bind] at e
    cases hd : r.doc c1 with
    | none =>
      simp only [hd] at e
      cases e
      exact same rfl
    | some d =>
      cases hd2 : r.doc c2 with
      | none =>
        simp only [hd, hd2] at e
        cases e
        exact same rfl
      | some d2 =>
        simp only [hd, hd2] at e
        cases hu : Doc.union lt ((look r d).toDoc lt) ((look r d2).toDoc lt) with
        | error e' => simp [hu] at e
        | ok x =>
          simp only [hu] at e
          exact docStep_addDoc e
  | archFilter c arches =>
    simp only [rstep, bind, Except.bind] at e
    cases hd : r.doc c with
    | none =>
      simp only [hd] at e
      cases e
      exact same rfl
    | some d =>
      simp only [hd] at e
      cases hu : Doc.archFilter lt ((look r d).toDoc lt) arches with
      | error e' => simp [hu] at e
      | ok x =>
        simp only [hu] at e
        exact docStep_addDoc e
  | eq c x =>
    simp only [rstep, bind, Except.bind] at e
    cases hd : r.doc c with
    | none =>
      simp only [hd] at e
      cases e
      exact same rfl
    | some d =>
      cases x with
      | none =>
        simp only [hd] at e
        cases e
      | some c2 =>
        simp only [hd] at e
        cases hd2 : r.doc c2 with
        | none =>
          simp only [hd2] at e
          cases e
          exact same rfl
        | some d2 =>
          simp only [hd2] at e
          cases hu : Doc.cmp lt ((look r d).toDoc lt) ((look r d2).toDoc lt) with
          | error e' => simp [hu] at e
          | ok x =>
            simp only [hu] at e
            cases e
            exact same rfl
  | validate c =>
    simp only [rstep, bind, Except.bind] at e
    cases hd : r.doc c with
    | none =>
      simp only [hd] at e
      cases e
      exact same rfl
    | some d =>
      simp only [hd] at e
      cases hu : Val.execute (.doc ((look r d).toDoc lt)) (Val.docRules lt) with
      | error e' => simp [hu] at e
      | ok x =>
        simp only [hu] at e
        cases hv : validateAns x with
        | error e' => simp [hv] at e
        | ok y =>
          simp only [hv] at e
          cases e
          exact same rfl
  | validateNf c =>
    simp only [rstep, bind, Except.bind] at e
    cases hd : r.doc c with
    | none =>
      simp only [hd] at e
      cases e
      exact same rfl
    | some d =>
      simp only [hd] at e
      cases hu : Val.execute (.doc ((look r d).toDoc lt)) (Val.docRules lt) with
      | error e' => simp [hu] at e
      | ok x =>
        simp only [hu] at e
        cases e
        exact same rfl
  | xmlStr c o df fails =>
    simp only [rstep, bind, Except.bind] at e
    cases hd : r.doc c with
    | none =>
      simp only [hd] at e
      cases e
      exact same rfl
    | some d =>
      simp only [hd] at e
      cases hu : xmlStr lt (look r d) o df fails with
      | error e' => simp [hu] at e
      | ok x =>
        simp only [hu] at e
        cases e
        exact docStep_put hd rfl (docOk_old wf hd rfl fun _ _ h => .inl h)
  | xmlFile c name o df fails saved =>
    simp only [rstep, bind, Except.bind] at e
    cases hd : r.doc c with
    | none =>
      simp only [hd] at e
      cases e
      exact same rfl
    | some d =>
      simp only [hd] at e
      cases hu : xmlFile lt (look r d) name o df fails saved with
      | error e' => simp [hu] at e
      | ok x =>
        simp only [hu] at e
        cases e
        exact docStep_put hd rfl (docOk_old wf hd rfl fun _ _ h => .inl h)
  | lastLog c =>
    simp only [rstep] at e
    cases hd : r.doc c <;> simp only [hd] at e <;> cases e <;> exact same rfl
  | del v =>
    simp only [rstep] at e
    cases hv : r.var v <;> simp only [hv] at e <;> cases e <;> exact same rfl
  | drop c =>
    simp only [rstep] at e
    cases hd : r.doc c with
    | none =>
      simp only [hd] at e
      cases e
      exact same rfl
    | some d =>
      simp only [hd] at e
      cases e
      refine ⟨c, fun c' hc => ?_, fun d' hd' => ?_⟩
      · simp [RSt.doc, List.getElem?_set_ne (Ne.symm hc)]
      · have hl := doc_lt hd
        simp [RSt.doc, List.getElem?_set_self hl] at hd'

/-! ## No list in two places -/

def Owned (r : RSt) : Prop := ∀ c c' d d' s s' a, r.doc c = some d → r.doc c' = some d' →
  d.part s = some a → d'.part s' = some a → c = c' ∧ s = s'

theorem owned_step {o : Op} (wf : WF r) (hn : noAssign o = true) (h : Owned r)
    (hs : DocStep o r r') : Owned r' := by
  obtain ⟨c0, h1, h2⟩ := hs
  have lt_len : ∀ {c d s a}, r.doc c = some d → d.part s = some a → a < r.lists.length := by
    intro c d s a hd hp
    obtain ⟨x, hx, -⟩ := wf.parts c d s a hd hp
    exact (List.getElem?_eq_some_iff.1 hx).1
  have key : ∀ {d s a}, r'.doc c0 = some d → d.part s = some a →
      r.lists.length ≤ a ∨ ∃ d0, r.doc c0 = some d0 ∧ d0.part s = some a := by
    intro d s a hd hp
    rcases (h2 d hd).part s a hp with e | e | e
    · exact .inl e
    · exact .inr e
    · rw [hn] at e
      cases e
  intro c c' d d' s s' a hd hd' hp hp'
  by_cases e : c = c0
  · by_cases e' : c' = c0
    · subst e
      subst e'
      rw [hd] at hd'
      cases hd'
      refine ⟨rfl, ?_⟩
      rcases key hd hp with k | ⟨d0, k1, k2⟩
      · exact (h2 d hd).inj s s' a k hp hp'
      · rcases key hd hp' with k | ⟨d1, k3, k4⟩
        · exact (h2 d hd).inj s s' a k hp hp'
        · exact (h _ _ _ _ _ _ _ k1 k3 k2 k4).2
    · subst e
      rw [h1 c' e'] at hd'
      rcases key hd hp with k | ⟨d0, k1, k2⟩
      · have := lt_len hd' hp'
        omega
      · exact h _ _ _ _ _ _ _ k1 hd' k2 hp'
  · rw [h1 c e] at hd
    by_cases e' : c' = c0
    · subst e'
      rcases key hd' hp' with k | ⟨d0, k1, k2⟩
      · have := lt_len hd hp
        omega
      · exact h _ _ _ _ _ _ _ hd k1 hp k2
    · rw [h1 c' e'] at hd'
      exact h _ _ _ _ _ _ _ hd hd' hp hp'

/-- An invariant of the reference machine, along a run of the model. -/
theorem run_inv {P : RSt → Prop} {Q : Op → Bool}
    (hP : ∀ {r r' : RSt} {o : Op} {a : Ans}, WF r → Q o = true → P r →
      rstep lt RDoc.shown r o = .ok (a, r') → P r') (os : List Op) :
    ∀ {st st' : St} {r : RSt} {as : List Ans}, Good st r → P r → os.all Q = true →
    run lt st os = .ok (as, st') → ∃ r', Good st' r' ∧ P r' := by
  induction os with
  | nil =>
    intro st st' r as g hp _ e
    cases e
    exact ⟨r, g, hp⟩
  | cons o os ih =>
    intro st st' r as g hp hq e
    simp only [List.all_cons, Bool.and_eq_true] at hq
    simp only [run, bind, Except.bind] at e
    cases hs : step lt st o with
    | error e' => simp [hs] at e
    | ok q =>
      obtain ⟨a, st1⟩ := q
      obtain ⟨r1, e1, g1⟩ := step_ok g hs
      simp only [hs] at e
      cases hr : run lt st1 os with
      | error e' => simp [hr] at e
      | ok q' =>
        obtain ⟨as', st2⟩ := q'
        simp only [hr] at e
        cases e
        exact ih g1 (hP g.wf hq.1 hp e1) hq.2 hr

theorem run_owned {os : List Op} {as : List Ans} (hn : os.all noAssign = true)
    (h : run lt start os = .ok (as, st)) : ∃ r, Good st r ∧ Owned r :=
  run_inv (P := Owned) (Q := noAssign) (fun wf hq hp e => owned_step wf hq hp (rstep_docs wf _ e)) os
    good_start (by intro c c' d d' s s' a hd; simp [rstart, RSt.doc] at hd) hn h

/-! ## Nothing is lost -/

theorem decObj_lost {a : Nat} (h : decObj st a = .ok st') : st'.lost = st.lost := by
  simp only [decObj, bind, Except.bind] at h
  cases hl : loadObj st a with
  | error e => simp [hl] at h
  | ok o =>
    simp only [hl] at h
    split at h <;> cases h <;> rfl

theorem decObjs_lost (l : List (Option Nat)) : ∀ {st st' : St}, decObjs st l = .ok st' →
    st'.lost = st.lost := by
  induction l with
  | nil =>
    intro st st' h
    cases h
    rfl
  | cons x l ih =>
    intro st st' h
    cases x with
    | none => exact ih h
    | some a =>
      simp only [decObjs, bind, Except.bind] at h
      cases hd : decObj st a with
      | error e => simp [hd] at h
      | ok s1 =>
        simp only [hd] at h
        rw [ih h, decObj_lost hd]

theorem decWrap_lost {a : Nat} (h : decWrap st a = .ok st') : st'.lost = st.lost := by
  simp only [decWrap, bind, Except.bind] at h
  cases hl : loadWrap st a with
  | error e => simp [hl] at h
  | ok o =>
    simp only [hl] at h
    split at h
    · rw [decObj_lost h]
    · cases h
      rfl

theorem decWraps_lost (l : List (Option Nat)) : ∀ {st st' : St}, decWraps st l = .ok st' →
    st'.lost = st.lost := by
  induction l with
  | nil =>
    intro st st' h
    cases h
    rfl
  | cons x l ih =>
    intro st st' h
    cases x with
    | none => exact ih h
    | some a =>
      simp only [decWraps, bind, Except.bind] at h
      cases hd : decWrap st a with
      | error e => simp [hd] at h
      | ok s1 =>
        simp only [hd] at h
        rw [ih h, decWrap_lost hd]

theorem incObj_lost {a : Nat} (h : incObj st a = .ok st') : st'.lost = st.lost := by
  simp only [incObj, bind, Except.bind] at h
  cases hl : loadObj st a with
  | error e => simp [hl] at h
  | ok o =>
    simp only [hl] at h
    cases h
    rfl

theorem incWrap_lost {a : Nat} (h : incWrap st a = .ok st') : st'.lost = st.lost := by
  simp only [incWrap, bind, Except.bind] at h
  cases hl : loadWrap st a with
  | error e => simp [hl] at h
  | ok o =>
    simp only [hl] at h
    cases h
    rfl

theorem docGet_lost {c a : Nat} {d d' : PyDoc} {s : Sec} (h : docGet st c d s = .ok (a, d', st')) :
    st'.lost = st.lost := by
  simp only [docGet, bind, Except.bind] at h
  cases hs : d.secs s with
  | some b =>
    simp only [hs] at h
    cases hi : incObj st b with
    | error e => simp [hi] at h
    | ok s1 =>
      simp only [hi] at h
      cases h
      exact incObj_lost hi
  | none =>
    simp only [hs] at h
    split at h
    · cases h
    · next hi =>
      cases h
      rw [incObj_lost hi]
      rfl

theorem getAttr_lost {c : Nat} {d : PyDoc} {s : Sec} (h : getAttr st c d s = .ok st') :
    st'.lost = st.lost := by
  simp only [getAttr, bind, Except.bind] at h
  cases hs : d.cache s with
  | some w =>
    simp only [hs] at h
    cases hi : incWrap st w with
    | error e => simp [hi] at h
    | ok s1 =>
      simp only [hi] at h
      cases h
      exact (incWrap_lost hi : s1.lost = st.lost)
  | none =>
    simp only [hs] at h
    cases hg : docGet st c d s with
    | error e => simp [hg] at h
    | ok q =>
      obtain ⟨a, d1, s1⟩ := q
      simp only [hg] at h
      split at h
      · cases h
      · next hi =>
        cases h
        have e1 := incWrap_lost hi
        have e2 := docGet_lost hg
        simp only [pushVar]
        rw [e1, ← e2]
        rfl

theorem setAttr_lost {c w : Nat} {d : PyDoc} {s : Sec} (h : setAttr st c d s w = .ok st') :
    st'.lost = st.lost := by
  simp only [setAttr, docSet, bind, Except.bind] at h
  split at h
  · cases h
  · next s1 h1 =>
    split at h
    · cases h
    · next o ho =>
      split at h
      · cases h
      · next q hq =>
        split at hq
        · cases hq
        · next s2 h2 =>
          split at hq
          · cases hq
          · next s3 h3 =>
            cases hq
            split at h
            · cases h
            · next s4 h4 =>
              cases h
              simp only [putDoc]
              rw [incWrap_lost h4]
              simp only
              rw [decObjs_lost _ h3]
              simp only [putDoc]
              rw [incObj_lost h2, decWraps_lost _ h1]
              rfl

theorem adoptSecs_lost (x : Doc) (l : List Sec) : ∀ {st st' : St} {f : Sec → Option Nat},
    adoptSecs x st l = .ok (f, st') → st'.lost = st.lost := by
  induction l with
  | nil =>
    intro st st' f h
    cases h
    rfl
  | cons s l ih =>
    intro st st' f h
    simp only [adoptSecs, bind, Except.bind] at h
    cases ha : adoptSecs x st l with
    | error e => simp [ha] at h
    | ok q =>
      obtain ⟨f1, s1⟩ := q
      simp only [ha] at h
      have := ih ha
      cases hg : x.objects.get s.key with
      | none =>
        simp only [hg] at h
        cases h
        exact this
      | some v =>
        simp only [hg] at h
        split at h
        · cases h
          exact this
        · cases h

theorem adopt_lost {x : Doc} {log : List LogEntry} {d : PyDoc} (h : adopt st x log = .ok (d, st')) :
    st'.lost = st.lost := by
  simp only [adopt, bind, Except.bind] at h
  cases ha : adoptSecs x st allSecs with
  | error e => simp [ha] at h
  | ok q =>
    simp only [ha] at h
    cases h
    exact adoptSecs_lost x allSecs ha

theorem replace_lost {c : Nat} {d : PyDoc} {p : Parsed} (h : replace st c d p = .ok st') :
    st'.lost = st.lost := by
  simp only [replace, bind, Except.bind] at h
  split at h
  · cases h
  · next s1 h1 =>
    split at h
    · cases h
    · next s2 h2 =>
      have e : s2.lost = st.lost := by
        rw [decObjs_lost _ h2]
        simp only [putDoc]
        rw [decWraps_lost _ h1]
        rfl
      cases hp : p.doc with
      | freed => simp [hp] at h
      | null =>
        simp only [hp] at h
        cases h
        exact e
      | live x =>
        simp only [hp] at h
        cases ha : adopt s2 x p.log with
        | error e => simp [ha] at h
        | ok q =>
          simp only [ha] at h
          cases h
          simp only [putDoc]
          rw [adopt_lost ha, e]

theorem wrapDoc_lost {x : Doc} {a : Ans} (h : wrapDoc st x = .ok (a, st')) : st'.lost = st.lost := by
  simp only [wrapDoc, bind, Except.bind] at h
  cases ha : adopt st x [] with
  | error e => simp [ha] at h
  | ok q =>
    obtain ⟨d, s1⟩ := q
    simp only [ha] at h
    cases h
    exact (adopt_lost ha : s1.lost = st.lost)

theorem dealloc_lost {c : Nat} {d : PyDoc} (h : dealloc st c d = .ok st')
    (h1 : d.cache .langpacks = none) (h2 : d.cache .blacklist = none)
    (h3 : d.cache .whiteout = none) : st'.lost = st.lost := by
  simp only [dealloc, bind, Except.bind] at h
  split at h
  · cases h
  · next s1 e1 =>
    rw [decObjs_lost _ h, decWraps_lost _ e1]
    simp [h1, h2, h3]

/-- A call keeps the lost references, unless it drops a document. -/
theorem step_lost {o : Op} {a : Ans} (h : step lt st o = .ok (a, st')) (ho : ∀ c, o ≠ .drop c) :
    st'.lost = st.lost := by
  cases o with
  | new enc =>
    cases h
    rfl
  | get c s =>
    simp only [step, bind, Except.bind] at h
    cases hd : st.doc c with
    | none =>
      simp only [hd] at h
      cases h
      rfl
    | some d =>
      simp only [hd] at h
      cases hg : getAttr st c d s with
      | error e => simp [hg] at h
      | ok s1 =>
        simp only [hg] at h
        cases h
        exact getAttr_lost hg
  | set c s v =>
    simp only [step, bind, Except.bind] at h
    split at h
    · split at h
      · cases h
      · split at h
        · cases h
          rfl
        · split at h
          · cases h
          · next hs =>
            cases h
            exact setAttr_lost hs
    · cases h
      rfl
  | delAttr c s =>
    simp only [step] at h
    split at h <;> cases h
    rfl
  | make k =>
    cases h
    rfl
  | write v x =>
    simp only [step, bind, Except.bind] at h
    split at h
    · cases h
      rfl
    · split at h
      · cases h
      · split at h
        · cases h
          rfl
        · split at h
          · cases h
          · cases h
            rfl
  | read v =>
    simp only [step, bind, Except.bind] at h
    split at h
    · cases h
      rfl
    · split at h
      · cases h
      · split at h
        · cases h
        · cases h
          rfl
  | dump c =>
    simp only [step, bind, Except.bind] at h
    split at h
    · cases h
      rfl
    · split at h
      · cases h
      · cases h
        rfl
  | clear c =>
    simp only [step, bind, Except.bind] at h
    split at h
    · cases h
      rfl
    · split at h
      · cases h
      · next hc =>
        cases h
        simp only [clear] at hc
        rw [decObjs_lost _ hc]
        rfl
  | fromStr c cx text =>
    simp only [step, fromStr, bind, Except.bind] at h
    split at h
    · cases h
      rfl
    · split at h
      · cases h
      · split at h
        · cases h
          rfl
        · split at h
          · cases h
          · next hr =>
            cases h
            exact replace_lost hr
  | fromFile c cx file =>
    simp only [step] at h
    split at h
    · cases h
      rfl
    · simp only [fromFile, bind, Except.bind] at h
      split at h
      · cases h
        rfl
      · split at h
        · cases h
        · split at h
          · cases h
          · next hr =>
            cases h
            exact replace_lost hr
  | union c1 c2 =>
    simp only [step, bind, Except.bind] at h
    split at h
    · split at h
      · cases h
      · split at h
        · cases h
        · split at h
          · cases h
          · exact wrapDoc_lost h
    · cases h
      rfl
  | archFilter c arches =>
    simp only [step, bind, Except.bind] at h
    split at h
    · cases h
      rfl
    · split at h
      · cases h
      · split at h
        · cases h
        · exact wrapDoc_lost h
  | eq c x =>
    simp only [step, bind, Except.bind] at h
    split at h
    · cases h
      rfl
    · cases h
    · split at h
      · cases h
        rfl
      · split at h
        · cases h
        · split at h
          · cases h
          · split at h
            · cases h
            · cases h
              rfl
  | validate c =>
    simp only [step, bind, Except.bind] at h
    split at h
    · cases h
      rfl
    · split at h
      · cases h
      · split at h
        · cases h
        · split at h
          · cases h
          · cases h
            rfl
  | validateNf c =>
    simp only [step, bind, Except.bind] at h
    split at h
    · cases h
      rfl
    · split at h
      · cases h
      · split at h
        · cases h
        · cases h
          rfl
  | xmlStr c o df fails =>
    simp only [step, bind, Except.bind] at h
    split at h
    · cases h
      rfl
    · split at h
      · cases h
      · split at h
        · cases h
        · cases h
          rfl
  | xmlFile c name o df fails saved =>
    simp only [step, bind, Except.bind] at h
    split at h
    · cases h
      rfl
    · split at h
      · cases h
      · split at h
        · cases h
        · cases h
          rfl
  | lastLog c =>
    simp only [step] at h
    split at h <;> cases h <;> rfl
  | del v =>
    simp only [step, bind, Except.bind] at h
    split at h
    · cases h
      rfl
    · split at h
      · cases h
      · next hw =>
        cases h
        rw [decWrap_lost hw]
  | drop c => exact absurd rfl (ho c)

/-- No `langpacks`, `blacklist` or `whiteout` has been handed out. -/
def Three (r : RSt) : Prop := ∀ c d s, r.doc c = some d → s = .langpacks ∨ s = .blacklist ∨
  s = .whiteout → d.shown s = none

theorem three_step {o : Op} (hq : threeOnly o = true) (h : Three r) (hs : DocStep o r r') :
    Three r' := by
  obtain ⟨c0, h1, h2⟩ := hs
  intro c d s hd hs
  by_cases e : c = c0
  · subst e
    cases hsh : d.shown s with
    | none => rfl
    | some a =>
      rcases (h2 d hd).shown s a hsh with ⟨d0, k1, k2⟩ | k
      · rw [h c d0 s k1 hs] at k2
        cases k2
      · exfalso
        cases o <;> simp only [touches] at k
        all_goals
          subst k
          rcases hs with rfl | rfl | rfl <;> simp [threeOnly] at hq
  · rw [h1 c e] at hd
    exact h c d s hd hs

theorem three_cache (g : Good st r) (h : Three r) {c : Nat} {d : PyDoc} {s : Sec}
    (hd : st.doc c = some d) (hs : s = .langpacks ∨ s = .blacklist ∨ s = .whiteout) :
    d.cache s = none := by
  rcases g.2.doc c with ⟨e, _⟩ | ⟨d', rd, e1, e2, hr⟩
  · rw [e] at hd
    cases hd
  · rw [hd] at e1
    cases e1
    cases hcs : d.cache s with
    | none => rfl
    | some w =>
      obtain ⟨o, ho⟩ := g.1.cache_live (doc_get hd) hcs
      have := hr.2.2.2.2.2.2.2 s w o hcs ho
      rw [h c rd s e2 hs] at this
      cases this

theorem run_three (os : List Op) : ∀ {st st' : St} {r : RSt} {as : List Ans}, Good st r → Three r →
    st.lost = [] → os.all threeOnly = true → run lt st os = .ok (as, st') →
    st'.lost = [] ∧ ∃ r', Good st' r' := by
  induction os with
  | nil =>
    intro st st' r as g _ hl _ e
    cases e
    exact ⟨hl, r, g⟩
  | cons o os ih =>
    intro st st' r as g hp hl hq e
    simp only [List.all_cons, Bool.and_eq_true] at hq
    simp only [run, bind, Except.bind] at e
    cases hs : step lt st o with
    | error e' => simp [hs] at e
    | ok q =>
      obtain ⟨a, st1⟩ := q
      obtain ⟨r1, e1, g1⟩ := step_ok g hs
      simp only [hs] at e
      cases hr : run lt st1 os with
      | error e' => simp [hr] at e
      | ok q' =>
        obtain ⟨as', st2⟩ := q'
        simp only [hr] at e
        cases e
        refine ih g1 (three_step hq.1 hp (rstep_docs g.wf o e1)) ?_ hq.2 hr
        by_cases ho : ∀ c, o ≠ .drop c
        · rw [step_lost hs ho, hl]
        · simp only [ne_eq, Classical.not_forall, Classical.not_not] at ho
          obtain ⟨c, rfl⟩ := ho
          simp only [step, bind, Except.bind] at hs
          cases hd : st.doc c with
          | none =>
            simp only [hd] at hs
            cases hs
            exact hl
          | some d =>
            simp only [hd] at hs
            cases hde : dealloc st c d with
            | error e' => simp [hde] at hs
            | ok s1 =>
              simp only [hde] at hs
              cases hs
              rw [dealloc_lost hde (three_cache g hp hd (.inl rfl))
                (three_cache g hp hd (.inr (.inl rfl))) (three_cache g hp hd (.inr (.inr rfl))), hl]

theorem hold_none {α : Type} (f : α → Nat → Nat) (l : List (Option α)) (a : Nat)
    (h : ∀ x ∈ l, x = none) : hold f l a = 0 := by
  induction l with
  | nil => rfl
  | cons x l ih =>
    have := h x (by simp)
    subst this
    simp [hold, ov, ih fun y hy => h y (by simp [hy])]

theorem all_freed (g : Good st r) (hl : st.lost = []) (hd : ∀ x ∈ st.docs, x = none)
    (hv : ∀ x ∈ st.vars, x = none) : (∀ x ∈ st.wraps, x = none) ∧ ∀ x ∈ st.objs, x = none := by
  have hw : ∀ x ∈ st.wraps, x = none := by
    intro x hx
    obtain ⟨w, hlt, e⟩ := List.getElem_of_mem hx
    cases x with
    | none => rfl
    | some o =>
      exfalso
      have e' : st.wraps[w]? = some (some o) := List.getElem?_eq_some_iff.2 ⟨hlt, e⟩
      have h1 := g.1.w w
      have h2 := g.1.pos w o e'
      rw [refsW_eq e'] at h1
      have : cntW st w = 0 := by
        unfold cntW
        rw [hl, hold_none _ _ _ hd, hold_none _ _ _ hv]
        rfl
      rw [this] at h1
      simp at h1
      omega
  refine ⟨hw, fun x hx => ?_⟩
  obtain ⟨a, hlt, e⟩ := List.getElem_of_mem hx
  cases x with
  | none => rfl
  | some b =>
    exfalso
    have e' : st.objs[a]? = some (some b) := List.getElem?_eq_some_iff.2 ⟨hlt, e⟩
    have h1 := g.1.o a
    rw [refsO_eq e'] at h1
    have : cntO st a = 0 := by
      unfold cntO
      rw [hold_none _ _ _ hd, hold_none _ _ _ hw]
    rw [this] at h1
    simp at h1

end Comps.PyComps
