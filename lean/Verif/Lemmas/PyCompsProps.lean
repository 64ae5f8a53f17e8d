import Verif.Lemmas.PyCompsRef

/-!
# Attributes, ownership, freed memory, reports
-/

namespace Comps.PyComps
open Comps Comps.Obj Comps.Spec.PyComps Comps.Xml Comps.Parse

variable {lt : UInt8 → UInt8 → Bool} {st st' : St} {r r' : RSt}

/-! ## Both ways of giving attributes agree -/

/-- The lists given as attributes are those of the documents. -/
def Coh (t : List Nat) (r : RSt) : Prop := ∀ c d, r.doc c = some d →
  (∀ s a, d.shown s = some a → d.part s = some a) ∧ (c ∉ t → d.shown = fun _ => none)

theorem coh_put {t : List Nat} {c : Nat} {d : RDoc} (h : Coh t r)
    (h1 : ∀ s a, d.shown s = some a → d.part s = some a) (h2 : c ∉ t → d.shown = fun _ => none) :
    Coh t (r.put c d) := by
  intro c' d' hd'
  rw [doc_put] at hd'
  split at hd'
  · next e =>
    cases hd'
    rw [e.1]
    exact ⟨h1, h2⟩
  · split at hd'
    · cases hd'
    · exact h c' d' hd'

theorem coh_docs {t : List Nat} (h : Coh t r) (e : r'.docs = r.docs) : Coh t r' := by
  intro c d hd
  exact h c d (by simpa only [RSt.doc, e] using hd)

theorem coh_more {t : List Nat} (h : Coh t r) (c : Nat) : Coh (c :: t) r := by
  intro c' d hd
  exact ⟨(h c' d hd).1, fun hn => (h c' d hd).2 (fun hm => hn (List.mem_cons_of_mem _ hm))⟩

theorem coh_add {t : List Nat} {d : RDoc} (h : Coh t r) (hd : d.shown = fun _ => none) :
    Coh t { r with docs := r.docs ++ [some d] } := by
  intro c' d' hd'
  have hd2 : (r.docs ++ [some d])[c']? = some (some d') := rdoc_get hd'
  rcases getElem?_append_one hd2 with ⟨_, e⟩ | ⟨_, e⟩
  · cases e
    exact ⟨by simp [hd], fun _ => hd⟩
  · exact h c' d' (by simp [RSt.doc, e])

theorem coh_drop {t : List Nat} (h : Coh t r) (c : Nat) :
    Coh t { r with docs := r.docs.set c none } := by
  intro c' d' hd'
  have hd2 : (r.docs.set c none)[c']? = some (some d') := rdoc_get hd'
  rcases getElem?_set_cases hd2 with ⟨_, e⟩ | ⟨_, e⟩
  · cases e
  · exact h c' d' (by simp [RSt.doc, e])

theorem coh_takeParsed {t : List Nat} {c : Nat} {p : Parsed} (h : Coh t r)
    (e : takeParsed r c p = .ok r') : Coh t r' := by
  simp only [takeParsed] at e
  cases hp : p.doc with
  | freed => simp [hp] at e
  | null =>
    simp only [hp] at e
    cases e
    exact coh_put h (by simp [emptyDoc]) (fun _ => rfl)
  | live x =>
    simp only [hp, bind, Except.bind] at e
    cases ht : takeDoc r x p.log with
    | error e' => simp [ht] at e
    | ok q =>
      obtain ⟨d, r1⟩ := q
      simp only [ht, pure, Except.pure] at e
      cases e
      obtain ⟨-, i2, -, -, -, i5, -, -⟩ := takeDoc_facts ht
      exact coh_put (coh_docs h i2) (by simp [i5]) (fun _ => i5)

theorem coh_addDoc {t : List Nat} {x : Doc} {a : Ans} (h : Coh t r)
    (e : addDoc r x = .ok (a, r')) : Coh t r' := by
  simp only [addDoc, bind, Except.bind] at e
  cases ht : takeDoc r x [] with
  | error e' => simp [ht] at e
  | ok q =>
    obtain ⟨d, r1⟩ := q
    simp only [ht, pure, Except.pure] at e
    cases e
    obtain ⟨-, i2, -, -, -, i5, -, -⟩ := takeDoc_facts ht
    exact coh_add (coh_docs h i2) i5

theorem readAttr_coh {t : List Nat} (h : Coh t r) {c : Nat} {d : RDoc} (hd : r.doc c = some d)
    (s : Sec) : readAttr RDoc.shown r c d s = readAttr RDoc.part r c d s ∧
      Coh (c :: t) (readAttr RDoc.shown r c d s) := by
  have h1 := (h c d hd).1
  have e : (d.shown s).or (d.part s) = d.part s := by
    cases hs : d.shown s with
    | none => rfl
    | some a => rw [h1 s a hs]; rfl
  have e' : (d.part s).or (d.part s) = d.part s := by cases d.part s <;> rfl
  constructor
  · simp only [readAttr, e, e']
  · simp only [readAttr, e]
    cases hp : d.part s with
    | some a =>
      refine coh_docs (r := r.put c _) (coh_put (coh_more h c) (fun u b hu => ?_) ?_) rfl
      · simp only at hu
        split at hu
        · next eu =>
          cases hu
          rw [eu]
          exact hp
        · exact h1 u b hu
      · exact fun hn => absurd List.mem_cons_self hn
    | none =>
      refine coh_docs (r := (r.newList s.kind.empty).put c _)
        (coh_put (coh_docs (coh_more h c) rfl) (fun u b hu => ?_) ?_) rfl
      · simp only at hu ⊢
        split at hu
        · next eu =>
          cases hu
          simp [eu]
        · next eu => simp only [eu, if_false]; exact h1 u b hu
      · exact fun hn => absurd List.mem_cons_self hn

/-- What a call does to the set of touched documents. -/
def touch (t : List Nat) : Op → List Nat
  | .get c _ => c :: t
  | .set c _ _ => c :: t
  | _ => t

/-- The call is no `clear()` of a touched document. -/
def fine (t : List Nat) : Op → Bool
  | .clear c => !t.contains c
  | _ => true

theorem clearsFirst_cons (t : List Nat) (o : Op) (os : List Op) :
    clearsFirst t (o :: os) = (fine t o && clearsFirst (touch t o) os) := by
  cases o <;> simp [clearsFirst, fine, touch]

theorem rstep_coh {t : List Nat} (h : Coh t r) (o : Op) (hf : fine t o = true) :
    rstep lt RDoc.shown r o = rstep lt RDoc.part r o ∧
    ∀ a r', rstep lt RDoc.shown r o = .ok (a, r') → Coh (touch t o) r' := by
  cases o with
  | get c s =>
    simp only [rstep, touch]
    cases hd : r.doc c with
    | none =>
      refine ⟨rfl, fun a r' e => ?_⟩
      cases e
      exact coh_more h c
    | some d =>
      obtain ⟨e1, e2⟩ := readAttr_coh h hd s
      refine ⟨by simp only [e1], fun a r' e => ?_⟩
      cases e
      exact e2
  | new enc =>
    refine ⟨rfl, fun a r' e => ?_⟩
    cases e
    exact coh_add h rfl
  | set c s v =>
    refine ⟨rfl, fun a r' e => ?_⟩
    simp only [rstep, bind, Except.bind] at e
    cases hd : r.doc c with
    | none =>
      simp only [hd] at e
      cases e
      exact coh_more h c
    | some d =>
      cases hv : r.var v with
      | none =>
        simp only [hd, hv] at e
        cases e
        exact coh_more h c
      | some b =>
        simp only [hd, hv] at e
        cases hx : r.value b with
        | error e' => simp [hx] at e
        | ok x =>
          simp only [hx] at e
          split at e
          · cases e
            exact coh_more h c
          · cases e
            refine coh_put (coh_more h c) (fun u b' hu => ?_)
              (fun hn => absurd List.mem_cons_self hn)
            simp only at hu ⊢
            split at hu
            · next eu => simp only [eu, if_true]; exact hu
            · next eu => simp only [eu, if_false]; exact (h c d hd).1 u b' hu
  | delAttr c s =>
    refine ⟨rfl, fun a r' e => ?_⟩
    simp only [rstep] at e
    cases hd : r.doc c with
    | none =>
      simp only [hd] at e
      cases e
      exact h
    | some d =>
      simp only [hd] at e
      cases e
  | make k =>
    refine ⟨rfl, fun a r' e => ?_⟩
    cases e
    exact coh_docs h rfl
  | write v x =>
    refine ⟨rfl, fun a r' e => ?_⟩
    simp only [rstep, bind, Except.bind] at e
    cases hv : r.var v with
    | none =>
      simp only [hv] at e
      cases e
      exact h
    | some b =>
      simp only [hv] at e
      cases hx : r.value b with
      | error e' => simp [hx] at e
      | ok y =>
        simp only [hx] at e
        split at e
        · cases e
          exact h
        · cases e
          exact coh_docs h rfl
  | read v =>
    refine ⟨rfl, fun a r' e => ?_⟩
    simp only [rstep, bind, Except.bind] at e
    cases hv : r.var v with
    | none =>
      simp only [hv] at e
      cases e
      exact h
    | some b =>
      simp only [hv] at e
      cases hx : r.value b with
      | error e' => simp [hx] at e
      | ok y =>
        simp only [hx] at e
        cases e
        exact h
  | dump c =>
    refine ⟨rfl, fun a r' e => ?_⟩
    simp only [rstep] at e
    cases hd : r.doc c <;> simp only [hd] at e <;> cases e <;> exact h
  | clear c =>
    refine ⟨rfl, fun a r' e => ?_⟩
    simp only [rstep] at e
    cases hd : r.doc c with
    | none =>
      simp only [hd] at e
      cases e
      exact h
    | some d =>
      simp only [hd] at e
      cases e
      have hn : c ∉ t := by simpa [fine] using hf
      have := (h c d hd).2 hn
      exact coh_put h (by simp [this]) (fun _ => this)
  | fromStr c cx text =>
    refine ⟨rfl, fun a r' e => ?_⟩
    simp only [rstep, bind, Except.bind] at e
    cases hd : r.doc c with
    | none =>
      simp only [hd] at e
      cases e
      exact h
    | some d =>
      simp only [hd] at e
      cases hp : parseStr cx (init (some b!"UTF-8")) text with
      | error e' => simp [hp] at e
      | ok q =>
        simp only [hp] at e
        split at e
        · cases e
          exact h
        · cases ht : takeParsed r c q.2 with
          | error e' => simp [ht] at e
          | ok r1 =>
            simp only [ht] at e
            cases e
            exact coh_takeParsed h ht
  | fromFile c cx file =>
    refine ⟨rfl, fun a r' e => ?_⟩
    simp only [rstep, bind, Except.bind] at e
    cases hd : r.doc c with
    | none =>
      simp only [hd] at e
      cases e
      exact h
    | some d =>
      cases file with
      | none =>
        simp only [hd] at e
        cases e
        exact h
      | some cs =>
        simp only [hd] at e
        cases hp : parseFile cx (init (some b!"UTF-8")) (some cs) with
        | error e' => simp [hp] at e
        | ok q =>
          simp only [hp] at e
          cases ht : takeParsed r c q.2 with
          | error e' => simp [ht] at e
          | ok r1 =>
            simp only [ht] at e
            cases e
            exact coh_takeParsed h ht
  | union c1 c2 =>
    refine ⟨rfl, fun a r' e => ?_⟩
    simp only [rstep, bind, Except.bind] at e
    cases hd : r.doc c1 with
    | none =>
      simp only [hd] at e
      cases e
      exact h
    | some d =>
      cases hd2 : r.doc c2 with
      | none =>
        simp only [hd, hd2] at e
        cases e
        exact h
      | some d2 =>
        simp only [hd, hd2] at e
        cases hu : Doc.union lt ((look r d).toDoc lt) ((look r d2).toDoc lt) with
        | error e' => simp [hu] at e
        | ok x =>
          simp only [hu] at e
          exact coh_addDoc h e
  | archFilter c arches =>
    refine ⟨rfl, fun a r' e => ?_⟩
    simp only [rstep, bind, Except.bind] at e
    cases hd : r.doc c with
    | none =>
      simp only [hd] at e
      cases e
      exact h
    | some d =>
      simp only [hd] at e
      cases hu : Doc.archFilter lt ((look r d).toDoc lt) arches with
      | error e' => simp [hu] at e
      | ok x =>
        simp only [hu] at e
        exact coh_addDoc h e
  | eq c x =>
    refine ⟨rfl, fun a r' e => ?_⟩
    simp only [rstep, bind, Except.bind] at e
    cases hd : r.doc c with
    | none =>
      simp only [hd] at e
      cases e
      exact h
    | some d =>
      cases x with
      | none =>
        simp only [hd] at e
        cases e
      | some c2 =>
        simp only [hd] at e
        cases hd2 : r.doc c2 with
        | none =>
          simp only [hd2] at e
          cases e
          exact h
        | some d2 =>
          simp only [hd2] at e
          cases hu : Doc.cmp lt ((look r d).toDoc lt) ((look r d2).toDoc lt) with
          | error e' => simp [hu] at e
          | ok x =>
            simp only [hu] at e
            cases e
            exact h
  | validate c =>
    refine ⟨rfl, fun a r' e => ?_⟩
    simp only [rstep, bind, Except.bind] at e
    cases hd : r.doc c with
    | none =>
      simp only [hd] at e
      cases e
      exact h
    | some d =>
      simp only [hd] at e
      cases hu : Val.execute (.doc ((look r d).toDoc lt)) (Val.docRules lt) with
      | error e' => simp [hu] at e
      | ok x =>
        simp only [hu] at e
        cases hv : validateAns x with
        | error e' => simp [hv] at e
        | ok y =>
          simp only [hv] at e
          cases e
          exact h
  | validateNf c =>
    refine ⟨rfl, fun a r' e => ?_⟩
    simp only [rstep, bind, Except.bind] at e
    cases hd : r.doc c with
    | none =>
      simp only [hd] at e
      cases e
      exact h
    | some d =>
      simp only [hd] at e
      cases hu : Val.execute (.doc ((look r d).toDoc lt)) (Val.docRules lt) with
      | error e' => simp [hu] at e
      | ok x =>
        simp only [hu] at e
        cases e
        exact h
  | xmlStr c o df fails =>
    refine ⟨rfl, fun a r' e => ?_⟩
    simp only [rstep, bind, Except.bind] at e
    cases hd : r.doc c with
    | none =>
      simp only [hd] at e
      cases e
      exact h
    | some d =>
      simp only [hd] at e
      cases hu : xmlStr lt (look r d) o df fails with
      | error e' => simp [hu] at e
      | ok x =>
        simp only [hu] at e
        cases e
        exact coh_put h (h c d hd).1 (h c d hd).2
  | xmlFile c name o df fails saved =>
    refine ⟨rfl, fun a r' e => ?_⟩
    simp only [rstep, bind, Except.bind] at e
    cases hd : r.doc c with
    | none =>
      simp only [hd] at e
      cases e
      exact h
    | some d =>
      simp only [hd] at e
      cases hu : xmlFile lt (look r d) name o df fails saved with
      | error e' => simp [hu] at e
      | ok x =>
        simp only [hu] at e
        cases e
        exact coh_put h (h c d hd).1 (h c d hd).2
  | lastLog c =>
    refine ⟨rfl, fun a r' e => ?_⟩
    simp only [rstep] at e
    cases hd : r.doc c <;> simp only [hd] at e <;> cases e <;> exact h
  | del v =>
    refine ⟨rfl, fun a r' e => ?_⟩
    simp only [rstep] at e
    cases hv : r.var v <;> simp only [hv] at e <;> cases e
    · exact h
    · exact coh_docs h rfl
  | drop c =>
    refine ⟨rfl, fun a r' e => ?_⟩
    simp only [rstep] at e
    cases hd : r.doc c <;> simp only [hd] at e <;> cases e
    · exact h
    · exact coh_drop h c

theorem rrun_coh (os : List Op) : ∀ {t : List Nat} {r : RSt}, Coh t r → clearsFirst t os = true →
    rrun lt RDoc.shown r os = rrun lt RDoc.part r os := by
  induction os with
  | nil => intro t r _ _; rfl
  | cons o os ih =>
    intro t r h hc
    rw [clearsFirst_cons, Bool.and_eq_true] at hc
    obtain ⟨e1, e2⟩ := rstep_coh (lt := lt) h o hc.1
    simp only [rrun, ← e1, bind, Except.bind]
    cases hs : rstep lt RDoc.shown r o with
    | error e => rfl
    | ok q =>
      obtain ⟨a, r1⟩ := q
      simp only
      rw [ih (e2 a r1 hs) hc.2]

theorem coh_start : Coh [] rstart := by
  intro c d hd
  simp [rstart, RSt.doc] at hd

/-! ## Reports -/

theorem mapM_ne_nil {α β : Type} {f : α → Res β} {l : List α} {m : List β} (h : l.mapM f = .ok m)
    (hl : l ≠ []) : m ≠ [] := by
  cases l with
  | nil => exact absurd rfl hl
  | cons x l =>
    simp only [List.mapM_cons, bind, Except.bind, pure, Except.pure] at h
    cases hx : f x with
    | error e => simp [hx] at h
    | ok y =>
      simp only [hx] at h
      cases hm : l.mapM f with
      | error e => simp [hm] at h
      | ok m' =>
        simp only [hm] at h
        cases h
        simp

theorem executeLoop_ne {O : Type} {o : O} {rules : List (Val.Rule O)}
    (h : ∀ rl ∈ rules, rl.check o ≠ .ok (.err [])) : ∀ {v w : Option (List (Val.Err O))},
    v ≠ some [] → Val.executeLoop o v rules = .ok w → w ≠ some [] := by
  induction rules with
  | nil =>
    intro v w hv e
    cases e
    exact hv
  | cons rl rules ih =>
    intro v w hv e
    have ih' := fun {v w} => ih (fun rl' hr => h rl' (List.mem_cons_of_mem _ hr)) (v := v) (w := w)
    simp only [Val.executeLoop, bind, Except.bind] at e
    cases hc : rl.check o with
    | error e' => simp [hc] at e
    | ok t =>
      simp only [hc] at e
      cases t with
      | ok => exact ih' hv e
      | err es =>
        have hes : es ≠ [] := by
          intro hn
          exact h rl List.mem_cons_self (hn ▸ hc)
        simp only [Val.prefixRes, bind, Except.bind] at e
        cases hm : es.mapM (Val.prefixErr rl.msg) with
        | error e' => simp [hm] at e
        | ok es' =>
          have := mapM_ne_nil hm hes
          simp only [hm, Val.concatErr] at e
          refine ih' ?_ e
          simp [this]

theorem execute_ne {O : Type} {o : O} {rules : List (Val.Rule O)}
    (h : ∀ rl ∈ rules, rl.check o ≠ .ok (.err [])) : Val.execute o rules ≠ .ok (.err []) := by
  intro e
  simp only [Val.execute, bind, Except.bind] at e
  cases hl : Val.executeLoop o none rules with
  | error e' => simp [hl] at e
  | ok w =>
    have := executeLoop_ne h (by simp) hl
    simp only [hl] at e
    cases w with
    | none => simp at e
    | some es => simp at e; exact this (by rw [e])

theorem emptyCheck_ne {O : Type} (o : O) (x : Option (Option Bytes)) :
    Val.emptyCheck o x ≠ .ok (.err []) := by
  cases x <;> simp only [Val.emptyCheck]
  · simp
  · split <;> simp

theorem uniqueCheck_ne {O α : Type} (cmp : α → α → Bool) (o : O) (l : Option (List (Val.Ref α))) :
    Val.uniqueCheck cmp o l ≠ .ok (.err []) := by
  cases l with
  | none => simp [Val.uniqueCheck]
  | some l =>
    simp only [Val.uniqueCheck, bind, Except.bind]
    cases Val.uniqueLoop cmp l [] 0 l with
    | error e => simp
    | ok ms => cases ms <;> simp

theorem listLoop_ne {O : Type} {rules : List (Val.Rule O)} (os : List O)
    (h : ∀ o, Val.execute o rules ≠ .ok (.err [])) : ∀ {v w : Option (List (Val.Err O))} {x : Nat},
    v ≠ some [] → Val.listLoop rules v x os = .ok w → w ≠ some [] := by
  induction os with
  | nil =>
    intro v w x hv e
    cases e
    exact hv
  | cons o os ih =>
    intro v w x hv e
    simp only [Val.listLoop, bind, Except.bind] at e
    cases hc : Val.execute o rules with
    | error e' => simp [hc] at e
    | ok t =>
      simp only [hc] at e
      cases t with
      | ok => exact ih hv e
      | err es =>
        have hes : es ≠ [] := by
          intro hn
          exact h o (hn ▸ hc)
        cases hb : Text.Buf.fill (Text.digitsCount x * 3) (Text.dec x ++ b!".") with
        | error e' => simp [hb] at e
        | ok b =>
          simp only [hb, Val.prefixRes, bind, Except.bind] at e
          cases hm : es.mapM (Val.prefixErr b.str) with
          | error e' => simp [hm] at e
          | ok es' =>
            have := mapM_ne_nil hm hes
            simp only [hm, Val.concatErr] at e
            refine ih ?_ e
            simp [this]

theorem listValidate_ne {O : Type} {rules : List (Val.Rule O)}
    (h : ∀ o, Val.execute o rules ≠ .ok (.err [])) (l : Option (List O)) :
    Val.listValidate rules l ≠ .ok (.err []) := by
  cases l with
  | none => simp [Val.listValidate]
  | some l =>
    simp only [Val.listValidate, bind, Except.bind]
    cases hl : Val.listLoop rules none 0 l with
    | error e => simp
    | ok w =>
      have := listLoop_ne l h (by simp) hl
      cases w with
      | none => simp
      | some es =>
        simp only [ne_eq, Except.ok.injEq, Val.ValRes.err.injEq]
        intro e
        exact this (by rw [e])

theorem propRule_ne {O P : Type} {msg : Bytes} {get : O → Res P} {check : O → P → Res (Val.ValRes O)}
    (h : ∀ o p, check o p ≠ .ok (.err [])) (o : O) :
    (Val.propRule msg get check).check o ≠ .ok (.err []) := by
  simp only [Val.propRule, bind, Except.bind]
  cases get o with
  | error e => simp
  | ok p => exact h o p

theorem docRules_ne (o : Val.VObj) : Val.execute o (Val.docRules lt) ≠ .ok (.err []) := by
  refine execute_ne fun rl hr => ?_
  simp only [Val.docRules, List.mem_cons, List.not_mem_nil, or_false] at hr
  rcases hr with rfl | rfl | rfl
  · refine propRule_ne (fun o p => listValidate_ne (fun o => execute_ne fun rl hr => ?_) p) o
    simp only [Val.groupRules, List.mem_cons, List.not_mem_nil, or_false] at hr
    rcases hr with rfl | rfl
    · exact propRule_ne (fun o p => emptyCheck_ne o p) o
    · cases o <;> simp [Val.checkPackages, Val.uniqueList, uniqueCheck_ne]
  · refine propRule_ne (fun o p => listValidate_ne (fun o => execute_ne fun rl hr => ?_) p) o
    simp only [Val.categoryRules, List.mem_cons, List.not_mem_nil, or_false] at hr
    rcases hr with rfl | rfl
    · exact propRule_ne (fun o p => emptyCheck_ne o p) o
    · cases o <;> simp [Val.checkGroupIds, Val.uniqueList, uniqueCheck_ne]
  · refine propRule_ne (fun o p => listValidate_ne (fun o => execute_ne fun rl hr => ?_) p) o
    simp only [Val.envRules, List.mem_cons, List.not_mem_nil, or_false] at hr
    rcases hr with rfl | rfl | rfl
    · exact propRule_ne (fun o p => emptyCheck_ne o p) o
    · cases o <;> simp [Val.checkGroupList, Val.uniqueList, uniqueCheck_ne]
    · cases o <;> simp [Val.checkOptionList, Val.uniqueList, uniqueCheck_ne]

end Comps.PyComps
