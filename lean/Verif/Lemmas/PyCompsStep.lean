import Verif.Lemmas.PyCompsSim

/-!
# Each call against the reference machine
-/

namespace Comps.PyComps
open Comps Comps.Obj Comps.Spec.PyComps Comps.Xml Comps.Parse

variable {st st' : St} {r : RSt} {tw to : Nat → Nat}

theorem put_put (r : RSt) (c : Nat) (x y : RDoc) : (r.put c x).put c y = r.put c y := by
  simp [RSt.put]

theorem setAttr_sim (g : Good st r) {c v w : Nat} {d : PyDoc} {rd : RDoc} {o : Wrap} (s : Sec)
    (hd : st.docs[c]? = some (some d)) (hr : DRel st.wraps (some d) (some rd))
    (hv : st.vars[v]? = some (some w)) (hw : st.wraps[w]? = some (some o)) (hk : o.kind = s.kind) :
    ∃ st', setAttr st c d s w = .ok st' ∧
      Good st' (r.put c { rd with part := upd rd.part s (some o.obj)
                                  shown := upd rd.shown s (some o.obj) }) := by
  obtain ⟨hi, h⟩ := g
  obtain ⟨q1, q2, q3, q4, q5, q6, q7, q8⟩ := hr
  -- the old Python object is released
  let d1 : PyDoc := { d with cache := upd d.cache s none }
  have i1 : Inv (putDoc st c d1) (fun x => 0 + lcount [d.cache s] x) (fun _ => 0) := by
    refine putDoc_inv hi hd (fun x => ?_) (fun x => rfl) (fun t a b ht hb => hi.ks c d t a b hd ht hb)
      (fun t x y ht hy => ?_)
    · have e := secCount_upd d.cache s none x
      rw [one_none] at e
      simp only [d1, lcount]
      omega
    · simp only [d1, upd] at ht
      split at ht
      · simp at ht
      · exact hi.kc c d t x y hd ht hy
  have h1 : Sim (putDoc st c d1) (r.put c { rd with shown := upd rd.shown s none }) := by
    refine h.put ⟨q1, q2, q3, q4, q5, q6, fun t ht => ?_, fun t x y ht hy => ?_⟩
    · simp only [d1, upd] at ht ⊢
      split at ht
      · next et => simp [et]
      · next et => simp only [et, if_false]; exact q7 t ht
    · simp only [d1, upd] at ht ⊢
      split at ht
      · simp at ht
      · next et => simp only [et, if_false]; exact q8 t x y ht hy
  obtain ⟨s1, e1, i2, k1⟩ := decWraps_ok _ i1
  have h2 := h1.keeps k1
  have hd1 : s1.docs[c]? = some (some d1) := by rw [k1.docs]; exact putDoc_get hd
  -- the new one
  obtain ⟨o1, hw1⟩ := i2.var_live (v := v) (w := w) (by rw [k1.vars]; exact hv)
  obtain ⟨o1', hw1', ek, eo⟩ := k1.wraps w o1 hw1
  rw [show (putDoc st c d1).wraps[w]? = some (some o) from hw] at hw1'
  cases hw1'
  obtain ⟨b, hb⟩ := i2.obj_live hw1
  rw [eo] at hb
  have hkb : ∀ b' : Obj, s1.objs[o.obj]? = some (some b') → kindOf b'.val = some s.kind := by
    intro b' hb'
    rw [i2.kw w o1 b' hw1 (by rw [eo]; exact hb'), ek, hk]
  -- its list goes into the document
  obtain ⟨s2, e2, i3, k2⟩ := incObj_ok i2 hb
  have hd2 : s2.docs[c]? = some (some d1) := by rw [k2.docs]; exact hd1
  let d2 : PyDoc := { d1 with secs := upd d.secs s (some o.obj) }
  have i4 : Inv (putDoc s2 c d2) (fun _ => 0) (fun x => 0 + lcount [d.secs s] x) := by
    refine putDoc_inv i3 hd2 (fun x => rfl) (fun x => ?_) (fun t a b' ht hb' => ?_)
      (fun t x y ht hy => i3.kc c d1 t x y hd2 ht hy)
    · have e := secCount_upd d.secs s (some o.obj) x
      simp only [d1, d2, lcount]
      omega
    · simp only [d2, upd] at ht
      split at ht
      · next et =>
        cases ht
        obtain ⟨b2, hb2, ev⟩ := k2.objs _ b' hb'
        rw [ev, et]
        exact hkb b2 hb2
      · exact i3.ks c d1 t a b' hd2 ht hb'
  have h3 : Sim (putDoc s2 c d2)
      (r.put c { rd with part := upd rd.part s (some o.obj), shown := upd rd.shown s none }) := by
    have hs2 := h2.keeps k2
    have hr2 := hs2.docs c _ (some { rd with shown := upd rd.shown s none }) hd2 (by
      have hl := (List.getElem?_eq_some_iff.1 hd).1
      rw [h.lenD] at hl
      simp [RSt.put, List.getElem?_set_self hl])
    obtain ⟨p1, p2⟩ := hr2
    have := hs2.put (c := c) (d' := d2)
      (rd' := { rd with part := upd rd.part s (some o.obj), shown := upd rd.shown s none })
      ⟨by simp [d2, q1], p2⟩
    rw [put_put] at this
    exact this
  obtain ⟨s3, e3, i5, k3⟩ := decObjs_ok _ i4
  have h4 := h3.keeps k3
  have hd3 : s3.docs[c]? = some (some d2) := by rw [k3.docs]; exact putDoc_get hd2
  -- the Python object goes into the field
  obtain ⟨o3, hw3⟩ := i5.var_live (v := v) (w := w) (by
    rw [k3.vars]
    show s2.vars[v]? = _
    rw [k2.vars, k1.vars]
    exact hv)
  obtain ⟨o3', hw3', ek3, eo3⟩ := k3.wraps w o3 hw3
  obtain ⟨o3'', hw3'', ek4, eo4⟩ := k2.wraps w o3' hw3'
  rw [hw1] at hw3''
  cases hw3''
  obtain ⟨s4, e4, i6, k4⟩ := incWrap_ok i5 hw3
  have hd4 : s4.docs[c]? = some (some d2) := by rw [k4.docs]; exact hd3
  have hc2 : d2.cache s = none := by simp [d2, d1, upd]
  have hwk : ∀ o4 : Wrap, s4.wraps[w]? = some (some o4) → o4.kind = s.kind ∧ o4.obj = o.obj := by
    intro o4 ho4
    obtain ⟨o5, ho5, a1, a2⟩ := k4.wraps w o4 ho4
    rw [hw3] at ho5
    cases ho5
    exact ⟨by rw [a1, ek3, ek4, ek, hk], by rw [a2, eo3, eo4, eo]⟩
  let d3 : PyDoc := { d2 with cache := upd d2.cache s (some w) }
  have i7 : Inv (putDoc s4 c d3) (fun _ => 0) (fun _ => 0) := by
    refine putDoc_inv i6 hd4 (fun x => ?_) (fun x => rfl)
      (fun t a b' ht hb' => i6.ks c d2 t a b' hd4 ht hb') (fun t x y ht hy => ?_)
    · have e := secCount_upd d2.cache s (some w) x
      rw [hc2, one_none] at e
      simp only [d3]
      omega
    · simp only [d3, upd] at ht
      split at ht
      · next et =>
        cases ht
        rw [et]
        exact (hwk y hy).1
      · exact i6.kc c d2 t x y hd4 ht hy
  have h5 : Sim (putDoc s4 c d3) (r.put c { rd with part := upd rd.part s (some o.obj)
                                                    shown := upd rd.shown s (some o.obj) }) := by
    have hs4 := h4.keeps k4
    have hr4 := hs4.docs c _
      (some { rd with part := upd rd.part s (some o.obj), shown := upd rd.shown s none }) hd4 (by
      have hl := (List.getElem?_eq_some_iff.1 hd).1
      rw [h.lenD] at hl
      simp [RSt.put, List.getElem?_set_self hl])
    obtain ⟨p1, p2, p3, p4, p5, p6, p7, p8⟩ := hr4
    have := hs4.put (c := c) (d' := d3)
      (rd' := { rd with part := upd rd.part s (some o.obj), shown := upd rd.shown s (some o.obj) })
      ⟨p1, p2, p3, p4, p5, p6, fun t ht => ?_, fun t x y ht hy => ?_⟩
    · rw [put_put] at this
      exact this
    · simp only [d3, upd] at ht ⊢
      split at ht
      · simp at ht
      · next et =>
        have := p7 t ht
        simp only [upd, et, if_false] at this ⊢
        exact this
    · simp only [d3, upd] at ht ⊢
      split at ht
      · next et =>
        cases ht
        simp only [et, if_true, (hwk y hy).2]
      · next et =>
        have := p8 t x y ht hy
        simp only [upd, et, if_false] at this ⊢
        exact this
  refine ⟨_, ?_, i7, h5⟩
  have ed : docSet s1 c d1 s o1.obj = .ok (d2, s3) := by
    have : docSet s1 c d1 s o1.obj = (do
        let s2 ← incObj s1 o.obj
        return (d2, ← decObjs (putDoc s2 c d2) [d.secs s])) := by
      simp only [docSet, eo]
      rfl
    rw [this, e2]
    show (do return (d2, ← decObjs (putDoc s2 c d2) [d.secs s])) = _
    rw [e3]
    rfl
  have : setAttr st c d s w = (do
      let s1 ← decWraps (putDoc st c d1) [d.cache s]
      let o ← loadWrap s1 w
      let (d, st) ← docSet s1 c d1 s o.obj
      let st ← incWrap st w
      return putDoc st c { d with cache := upd d.cache s (some w) }) := rfl
  rw [this, e1]
  simp only [bind, Except.bind, loadWrap_eq hw1, ed, e4]
  rfl

theorem clear_sim (g : Good st r) {c : Nat} {d : PyDoc} {rd : RDoc}
    (hd : st.docs[c]? = some (some d)) (hr : DRel st.wraps (some d) (some rd)) :
    ∃ st', clear st c d = .ok st' ∧
      Good st' (r.put c { emptyDoc rd.encoding with shown := rd.shown }) := by
  obtain ⟨hi, h⟩ := g
  obtain ⟨q1, q2, q3, q4, q5, q6, q7, q8⟩ := hr
  have i1 : Inv (putDoc st c { freshDoc d.encoding with cache := d.cache }) (fun _ => 0)
      (fun x => 0 + lcount (allSecs.map d.secs) x) := by
    refine putDoc_inv hi hd (fun x => rfl) (fun x => ?_) (fun t a b ht hb => ?_)
      (fun t x y ht hy => hi.kc c d t x y hd ht hy)
    · rw [lcount_secs]
      simp only [freshDoc, secCount_none]
      omega
    · simp [freshDoc] at ht
  have h1 : Sim (putDoc st c { freshDoc d.encoding with cache := d.cache })
      (r.put c { emptyDoc rd.encoding with shown := rd.shown }) :=
    h.put ⟨rfl, q2, rfl, rfl, rfl, rfl, q7, q8⟩
  obtain ⟨s1, e1, i2, k1⟩ := decObjs_ok _ i1
  exact ⟨s1, e1, i2, h1.keeps k1⟩

theorem replace_sim (g : Good st r) {c : Nat} {d : PyDoc} {rd : RDoc}
    (hd : st.docs[c]? = some (some d)) (hr : DRel st.wraps (some d) (some rd)) (p : Parsed) :
    RelA Good (replace st c d p) (takeParsed r c p) := by
  obtain ⟨hi, h⟩ := g
  obtain ⟨q1, q2, q3, q4, q5, q6, q7, q8⟩ := hr
  have i1 : Inv (putDoc st c { d with cache := fun _ => none })
      (fun x => 0 + lcount (allSecs.map d.cache) x) (fun _ => 0) := by
    refine putDoc_inv hi hd (fun x => ?_) (fun x => rfl) (fun t a b ht hb => hi.ks c d t a b hd ht hb)
      (fun t x y ht hy => ?_)
    · rw [lcount_secs]
      simp only [secCount_none]
      omega
    · simp at ht
  have h1 : Sim (putDoc st c { d with cache := fun _ => none })
      (r.put c { rd with shown := fun _ => none }) :=
    h.put ⟨q1, q2, q3, q4, q5, q6, fun _ _ => rfl, by simp⟩
  obtain ⟨s1, e1, i2, k1⟩ := decWraps_ok _ i1
  have h2 := h1.keeps k1
  have hd1 : s1.docs[c]? = some (some { d with cache := fun _ => none }) := by
    rw [k1.docs]
    exact putDoc_get hd
  have i3 : Inv (putDoc s1 c (freshDoc d.encoding)) (fun _ => 0)
      (fun x => 0 + lcount (allSecs.map d.secs) x) := by
    refine putDoc_inv i2 hd1 (fun x => rfl) (fun x => ?_) (fun t a b ht hb => ?_)
      (fun t x y ht hy => ?_)
    · rw [lcount_secs]
      simp only [freshDoc, secCount_none]
      omega
    · simp [freshDoc] at ht
    · simp [freshDoc] at ht
  have h3 : Sim (putDoc s1 c (freshDoc d.encoding)) (r.put c (emptyDoc d.encoding)) := by
    have := h2.put (c := c) (d' := freshDoc d.encoding) (rd' := emptyDoc d.encoding)
      ⟨rfl, rfl, rfl, rfl, rfl, rfl, fun _ _ => rfl, by simp [freshDoc]⟩
    rw [put_put] at this
    exact this
  obtain ⟨s2, e2, i4, k2⟩ := decObjs_ok _ i3
  have h4 := h3.keeps k2
  have hd2 : s2.docs[c]? = some (some (freshDoc d.encoding)) := by
    rw [k2.docs]
    exact putDoc_get hd1
  simp only [replace, e1, e2, bind, Except.bind, takeParsed]
  cases p.doc with
  | freed => rfl
  | null =>
    refine ⟨putDoc_inv i4 hd2 (fun x => rfl) (fun x => rfl) (fun t a b ht hb => ?_)
      (fun t x y ht hy => ?_), ?_⟩
    · simp [freshDoc] at ht
    · simp [freshDoc] at ht
    · have := h4.put (c := c)
        (d' := { freshDoc (some (compsStr (some b!"UTF-8"))) with log := p.log })
        (rd' := { emptyDoc (some (compsStr (some b!"UTF-8"))) with log := p.log })
        ⟨rfl, rfl, rfl, rfl, rfl, rfl, fun _ _ => rfl, by simp [freshDoc]⟩
      rw [put_put] at this
      exact this
  | live x =>
    have hbase : takeDoc (r.put c (emptyDoc d.encoding)) x p.log =
        (takeDoc r x p.log).map fun q => (q.1, q.2.put c (emptyDoc d.encoding)) := by
      have : ∀ (l : List Sec) (r : RSt) (y : RDoc), takeParts x (r.put c y) l =
          (takeParts x r l).map fun q => (q.1, q.2.put c y) := by
        intro l
        induction l with
        | nil => intro r y; rfl
        | cons s l ih =>
          intro r y
          simp only [takeParts, ih, bind, Except.bind]
          cases takeParts x r l with
          | error e => rfl
          | ok q =>
            simp only [Except.map]
            cases x.objects.get s.key with
            | none => rfl
            | some v =>
              simp only
              split <;> rfl
      simp only [takeDoc, this, bind, Except.bind]
      cases takeParts x r allSecs <;> rfl
    have := adopt_sim x p.log i4 h4
    rw [hbase] at this
    simp only
    revert this
    cases adopt s2 x p.log with
    | error e =>
      cases takeDoc r x p.log with
      | error e' => exact id
      | ok q => exact fun h => absurd h id
    | ok pp =>
      cases takeDoc r x p.log with
      | error e' => exact fun h => absurd h id
      | ok q =>
        obtain ⟨d', s3⟩ := pp
        obtain ⟨rd', r3⟩ := q
        rintro ⟨a1, a2, a3, a4, a5, a6, a7⟩
        simp only at a1 a2 a3 a4 a5 a6 a7 ⊢
        have hd3 : s3.docs[c]? = some (some (freshDoc d.encoding)) := by rw [a4]; exact hd2
        refine ⟨putDoc_inv a1 hd3 (fun x => ?_) (fun x => ?_) a7 (fun t x y ht hy => ?_), ?_⟩
        · rw [a2]
          rfl
        · simp only [freshDoc, secCount_none]
          omega
        · rw [a2] at ht
          simp at ht
        · have := a3.put (c := c) a6
          rw [put_put] at this
          exact this

theorem lost_inv (h : Inv st (fun x => tw x + lcount [some w0] x) to) :
    Inv { st with lost := st.lost ++ [w0] } tw to := by
  refine ⟨fun w => ?_, h.o, h.pos, h.kw, h.ks, h.kc⟩
  show refsW st w = _
  rw [h.w w]
  have : [w0].count w = one (some w0) w := by
    by_cases e : w0 = w <;> simp [one, e]
  simp only [cntW, List.count_append, lcount, this]
  omega

theorem losts_inv (l : List (Option Nat)) : ∀ {st : St},
    Inv st (fun x => tw x + lcount l x) to →
    Inv { st with lost := st.lost ++ l.filterMap id } tw to := by
  induction l with
  | nil =>
    intro st h
    simp only [List.filterMap_nil, List.append_nil]
    exact h.congr (fun a => by simp [lcount]) (fun _ => rfl)
  | cons x l ih =>
    intro st h
    cases x with
    | none => exact ih (h.congr (fun a => by simp [lcount, one_none]) (fun _ => rfl))
    | some w =>
      have h1 := lost_inv (tw := fun x => tw x + lcount l x) (w0 := w)
        (h.congr (fun a => by simp [lcount]; omega) (fun _ => rfl))
      have h2 := ih h1
      simpa [List.append_assoc] using h2

theorem Sim.lost (h : Sim st r) (l : List Nat) : Sim { st with lost := l } r :=
  ⟨h.lenO, h.lenD, h.lenV, h.objs, h.docs, h.vars⟩

theorem dropDoc_inv (h : Inv st tw to) {c : Nat} {d : PyDoc} (hd : st.docs[c]? = some (some d))
    (hc : d.cache = fun _ => none) :
    Inv { st with docs := st.docs.set c none } tw (fun x => to x + lcount (allSecs.map d.secs) x) := by
  refine ⟨fun w => ?_, fun a => ?_, h.pos, h.kw, ?_, ?_⟩
  · show refsW st w = _
    have e := hold_set (fun (d : PyDoc) w => secCount d.cache w) hd none w
    have := h.w w
    simp only [cntW, ov, hc, secCount_none] at *
    omega
  · show refsO st a = _
    rw [lcount_secs]
    have e := hold_set (fun (d : PyDoc) w => secCount d.secs w) hd none a
    have := h.o a
    simp only [cntO, ov] at *
    omega
  · intro c' d2 s a b hc hs hb
    rcases getElem?_set_cases hc with ⟨rfl, e⟩ | ⟨_, e⟩
    · cases e
    · exact h.ks c' d2 s a b e hs hb
  · intro c' d2 s w o hc hs hw
    rcases getElem?_set_cases hc with ⟨rfl, e⟩ | ⟨_, e⟩
    · cases e
    · exact h.kc c' d2 s w o e hs hw

theorem dealloc_sim (g : Good st r) {c : Nat} {d : PyDoc} {rd : RDoc}
    (hd : st.docs[c]? = some (some d)) (hr : DRel st.wraps (some d) (some rd)) :
    ∃ st', dealloc st c d = .ok st' ∧ Good st' { r with docs := r.docs.set c none } := by
  obtain ⟨hi, h⟩ := g
  obtain ⟨q1, q2, q3, q4, q5, q6, q7, q8⟩ := hr
  let d1 : PyDoc := { d with cache := fun _ => none }
  have i1 : Inv (putDoc st c d1)
      (fun x => (0 + lcount [d.cache .groups, d.cache .categories, d.cache .environments] x) +
        lcount [d.cache .langpacks, d.cache .blacklist, d.cache .whiteout] x) (fun _ => 0) := by
    refine putDoc_inv hi hd (fun x => ?_) (fun x => rfl) (fun t a b ht hb => hi.ks c d t a b hd ht hb)
      (fun t x y ht hy => ?_)
    · simp only [d1, lcount, secCount, one_none]
      omega
    · simp [d1] at ht
  have h1 : Sim (putDoc st c d1) (r.put c { rd with shown := fun _ => none }) :=
    h.put ⟨q1, q2, q3, q4, q5, q6, fun _ _ => rfl, by simp [d1]⟩
  have i2 := losts_inv _ i1
  have h2 := h1.lost (st.lost ++
    [d.cache .langpacks, d.cache .blacklist, d.cache .whiteout].filterMap id)
  obtain ⟨s1, e1, i3, k1⟩ := decWraps_ok _ i2
  have h3 := h2.keeps k1
  have hd1 : s1.docs[c]? = some (some d1) := by
    rw [k1.docs]
    exact putDoc_get hd
  have i4 := dropDoc_inv i3 hd1 rfl
  have h4 := h3.dropDoc c
  obtain ⟨s2, e2, i5, k2⟩ := decObjs_ok _ i4
  have h5 := h4.keeps k2
  refine ⟨s2, ?_, i5, ?_⟩
  · have : dealloc st c d = (do
        let s1 ← decWraps { putDoc st c d1 with lost := (putDoc st c d1).lost ++
          [d.cache .langpacks, d.cache .blacklist, d.cache .whiteout].filterMap id }
          [d.cache .groups, d.cache .categories, d.cache .environments]
        decObjs { s1 with docs := s1.docs.set c none } (allSecs.map d.secs)) := rfl
    rw [this, e1]
    exact e2
  · simpa [RSt.put] using h5

theorem wrapDoc_sim (g : Good st r) (x : Doc) :
    RelA (fun p q => p.1 = q.1 ∧ Good p.2 q.2) (wrapDoc st x) (addDoc r x) := by
  obtain ⟨hi, h⟩ := g
  have := adopt_sim x [] hi h
  simp only [wrapDoc, addDoc, bind, Except.bind]
  revert this
  cases adopt st x [] with
  | error e =>
    cases takeDoc r x [] with
    | error e' => exact id
    | ok q => exact fun h => absurd h id
  | ok pp =>
    cases takeDoc r x [] with
    | error e' => exact fun h => absurd h id
    | ok q =>
      obtain ⟨d', s3⟩ := pp
      obtain ⟨rd', r3⟩ := q
      rintro ⟨a1, a2, a3, a4, a5, a6, a7⟩
      exact ⟨rfl, addDoc_inv a1 a2 a7, a3.addDoc a6⟩

/-! ## Calls -/

theorem putLog_sim (g : Good st r) {c : Nat} {d : PyDoc} {rd : RDoc}
    (hd : st.docs[c]? = some (some d)) (hr : DRel st.wraps (some d) (some rd))
    (e : Option CStr) (l : List LogEntry) :
    Good (putDoc st c { d with encoding := e, log := l })
      (r.put c { rd with encoding := e, log := l }) := by
  obtain ⟨hi, h⟩ := g
  obtain ⟨q1, q2, q3, q4, q5, q6, q7, q8⟩ := hr
  exact ⟨putDoc_inv hi hd (fun x => rfl) (fun x => rfl)
    (fun t a b ht hb => hi.ks c d t a b hd ht hb) (fun t x y ht hy => hi.kc c d t x y hd ht hy),
    h.put ⟨q1, rfl, q3, q4, q5, rfl, q7, q8⟩⟩

theorem step_sim (lt : UInt8 → UInt8 → Bool) (g : Good st r) (o : Op) :
    RelA (fun p q => p.1 = q.1 ∧ Good p.2 q.2) (step lt st o) (rstep lt RDoc.shown r o) := by
  have hi := g.1
  have h := g.2
  cases o with
  | new enc =>
    refine ⟨rfl, addDoc_inv (hi.congr (fun _ => rfl) (fun a => ?_)) rfl ?_, h.addDoc ?_⟩
    · simp [freshDoc, secCount_none]
    · simp [freshDoc]
    · exact ⟨rfl, rfl, rfl, rfl, rfl, rfl, fun _ _ => rfl, by simp [freshDoc]⟩
  | get c s =>
    rcases h.doc c with ⟨e1, e2⟩ | ⟨d, rd, e1, e2, hr⟩
    · simp only [step, rstep, e1, e2]
      exact ⟨rfl, g⟩
    · obtain ⟨st', e, g'⟩ := getAttr_sim g s (doc_get e1) (rdoc_get e2) hr
      simp only [step, rstep, e1, e2, e, bind, Except.bind]
      exact ⟨rfl, g'⟩
  | set c s v =>
    rcases h.doc c with ⟨e1, e2⟩ | ⟨d, rd, e1, e2, hr⟩
    · simp only [step, rstep, e1, e2]
      exact ⟨rfl, g⟩
    · rcases h.var v with ⟨v1, v2⟩ | ⟨w, a, v1, v2, hv⟩
      · simp only [step, rstep, e1, e2, v1, v2]
        exact ⟨rfl, g⟩
      · obtain ⟨o, hw⟩ := hi.var_live (var_get v1)
        obtain ⟨b, hb⟩ := hi.obj_live hw
        have ea := hv o hw
        have hx := h.objs _ b hb
        have hk := hi.kw w o b hw hb
        simp only [step, rstep, e1, e2, v1, v2, loadWrap_eq hw, RSt.value, ← ea, hx, hk, bind,
          Except.bind]
        by_cases hks : o.kind = s.kind
        · obtain ⟨st', e, g'⟩ := setAttr_sim g s (doc_get e1) hr (var_get v1) hw hks
          simp only [hks, e, ne_eq, not_true_eq_false, if_false]
          exact ⟨rfl, g'⟩
        · have : some o.kind ≠ some s.kind := fun e => hks (Option.some.inj e)
          simp only [hks, this, ne_eq, not_false_eq_true, if_true]
          exact ⟨rfl, g⟩
  | delAttr c s =>
    rcases h.doc c with ⟨e1, e2⟩ | ⟨d, rd, e1, e2, hr⟩
    · simp only [step, rstep, e1, e2]
      exact ⟨rfl, g⟩
    · simp only [step, rstep, e1, e2]
      rfl
  | make k =>
    have i1 := newObj_inv hi k.empty
    have h1 := h.newObj k.empty
    have hget := newObj_get st k.empty
    have i2 := newWrap_inv (k := k) i1 (fun b hb => by
      rw [hget] at hb
      cases hb
      cases k <;> rfl)
    have h2 := h1.newWrap i1 k st.objs.length
    have hw : (newWrap (newObj st k.empty).2 k st.objs.length).2.wraps[(newObj st
        k.empty).2.wraps.length]? = some (some ⟨1, k, st.objs.length⟩) := by simp [newWrap]
    refine ⟨rfl, pushVar_inv i2, ?_⟩
    exact h2.pushVar hw h.lenO
  | write v x =>
    rcases h.var v with ⟨v1, v2⟩ | ⟨w, a, v1, v2, hv⟩
    · simp only [step, rstep, v1, v2]
      exact ⟨rfl, g⟩
    · obtain ⟨o, hw⟩ := hi.var_live (var_get v1)
      obtain ⟨b, hb⟩ := hi.obj_live hw
      have ea := hv o hw
      have hx := h.objs _ b hb
      have hk := hi.kw w o b hw hb
      simp only [step, rstep, v1, v2, loadWrap_eq hw, RSt.value, ← ea, hx, hk, bind, Except.bind,
        loadObj_eq hb]
      by_cases hkx : kindOf x = some o.kind
      · simp only [hkx, ne_eq, not_true_eq_false, if_false]
        refine ⟨rfl, ⟨hi.w, fun a' => ?_, hi.pos, fun w' o' b' hw' hb' => ?_,
          fun c d s a' b' hd hs hb' => ?_, hi.kc⟩, h.write⟩
        · show refsO { st with objs := _ } a' = cntO st a' + 0
          rw [← hi.o a']
          have hl := (List.getElem?_eq_some_iff.1 hb).1
          by_cases e : a' = o.obj
          · subst e
            simp only [refsO, List.getElem?_set_self hl, hb]
          · simp only [refsO, List.getElem?_set_ne (Ne.symm e)]
        · rcases getElem?_set_cases hb' with ⟨e, e'⟩ | ⟨_, e⟩
          · cases e'
            rw [hkx, ← hk]
            exact hi.kw w' o' b hw' (e ▸ hb)
          · exact hi.kw w' o' b' hw' e
        · rcases getElem?_set_cases hb' with ⟨e, e'⟩ | ⟨_, e⟩
          · cases e'
            rw [hkx, ← hk]
            exact hi.ks c d s a' b hd hs (e ▸ hb)
          · exact hi.ks c d s a' b' hd hs e
      · simp only [hkx, ne_eq, not_false_eq_true, if_true]
        exact ⟨rfl, g⟩
  | read v =>
    rcases h.var v with ⟨v1, v2⟩ | ⟨w, a, v1, v2, hv⟩
    · simp only [step, rstep, v1, v2]
      exact ⟨rfl, g⟩
    · obtain ⟨o, hw⟩ := hi.var_live (var_get v1)
      obtain ⟨b, hb⟩ := hi.obj_live hw
      have ea := hv o hw
      have hx := h.objs _ b hb
      simp only [step, rstep, v1, v2, loadWrap_eq hw, RSt.value, ← ea, hx, bind, Except.bind,
        loadObj_eq hb]
      exact ⟨rfl, g⟩
  | dump c =>
    rcases h.doc c with ⟨e1, e2⟩ | ⟨d, rd, e1, e2, hr⟩
    · simp only [step, rstep, e1, e2]
      exact ⟨rfl, g⟩
    · simp only [step, rstep, e1, e2, content_eq hi h (doc_get e1) hr, bind, Except.bind]
      exact ⟨rfl, g⟩
  | clear c =>
    rcases h.doc c with ⟨e1, e2⟩ | ⟨d, rd, e1, e2, hr⟩
    · simp only [step, rstep, e1, e2]
      exact ⟨rfl, g⟩
    · obtain ⟨st', e, g'⟩ := clear_sim g (doc_get e1) hr
      simp only [step, rstep, e1, e2, e, bind, Except.bind]
      exact ⟨rfl, g'⟩
  | fromStr c cx text =>
    rcases h.doc c with ⟨e1, e2⟩ | ⟨d, rd, e1, e2, hr⟩
    · simp only [step, rstep, e1, e2]
      exact ⟨rfl, g⟩
    · simp only [step, rstep, e1, e2, fromStr, bind, Except.bind]
      cases parseStr cx (init (some b!"UTF-8")) text with
      | error e => rfl
      | ok q =>
        obtain ⟨ret, p⟩ := q
        simp only
        by_cases hret : ret = -1
        · simp only [hret, if_true]
          exact ⟨rfl, g⟩
        · simp only [hret, if_false]
          have := replace_sim g (doc_get e1) hr p
          revert this
          cases replace st c d p <;> cases takeParsed r c p
          · exact id
          · exact fun h => absurd h id
          · exact fun h => absurd h id
          · exact fun h => ⟨rfl, h⟩
  | fromFile c cx file =>
    rcases h.doc c with ⟨e1, e2⟩ | ⟨d, rd, e1, e2, hr⟩
    · simp only [step, rstep, e1, e2]
      exact ⟨rfl, g⟩
    · cases file with
      | none =>
        simp only [step, rstep, e1, e2, fromFile]
        exact ⟨rfl, g⟩
      | some cs =>
        simp only [step, rstep, e1, e2, fromFile, bind, Except.bind]
        cases parseFile cx (init (some b!"UTF-8")) (some cs) with
        | error e => rfl
        | ok q =>
          obtain ⟨ret, p⟩ := q
          simp only
          have := replace_sim g (doc_get e1) hr p
          revert this
          cases replace st c d p <;> cases takeParsed r c p
          · exact id
          · exact fun h => absurd h id
          · exact fun h => absurd h id
          · exact fun h => ⟨rfl, h⟩
  | union c1 c2 =>
    rcases h.doc c1 with ⟨e1, e2⟩ | ⟨d, rd, e1, e2, hr⟩
    · simp only [step, rstep, e1, e2]
      exact ⟨rfl, g⟩
    · rcases h.doc c2 with ⟨e3, e4⟩ | ⟨d2, rd2, e3, e4, hr2⟩
      · simp only [step, rstep, e1, e2, e3, e4]
        exact ⟨rfl, g⟩
      · simp only [step, rstep, e1, e2, e3, e4, content_eq hi h (doc_get e1) hr,
          content_eq hi h (doc_get e3) hr2, bind, Except.bind]
        cases Doc.union lt ((look r rd).toDoc lt) ((look r rd2).toDoc lt) with
        | error e => rfl
        | ok x => exact wrapDoc_sim g x
  | archFilter c arches =>
    rcases h.doc c with ⟨e1, e2⟩ | ⟨d, rd, e1, e2, hr⟩
    · simp only [step, rstep, e1, e2]
      exact ⟨rfl, g⟩
    · simp only [step, rstep, e1, e2, content_eq hi h (doc_get e1) hr, bind, Except.bind]
      cases Doc.archFilter lt ((look r rd).toDoc lt) arches with
      | error e => rfl
      | ok x => exact wrapDoc_sim g x
  | eq c x =>
    rcases h.doc c with ⟨e1, e2⟩ | ⟨d, rd, e1, e2, hr⟩
    · simp only [step, rstep, e1, e2]
      exact ⟨rfl, g⟩
    · cases x with
      | none =>
        simp only [step, rstep, e1, e2]
        rfl
      | some c2 =>
        rcases h.doc c2 with ⟨e3, e4⟩ | ⟨d2, rd2, e3, e4, hr2⟩
        · simp only [step, rstep, e1, e2, e3, e4]
          exact ⟨rfl, g⟩
        · simp only [step, rstep, e1, e2, e3, e4, content_eq hi h (doc_get e1) hr,
            content_eq hi h (doc_get e3) hr2, bind, Except.bind]
          cases Doc.cmp lt ((look r rd).toDoc lt) ((look r rd2).toDoc lt) with
          | error e => rfl
          | ok x => exact ⟨rfl, g⟩
  | validate c =>
    rcases h.doc c with ⟨e1, e2⟩ | ⟨d, rd, e1, e2, hr⟩
    · simp only [step, rstep, e1, e2]
      exact ⟨rfl, g⟩
    · simp only [step, rstep, e1, e2, content_eq hi h (doc_get e1) hr, bind, Except.bind]
      cases Val.execute (.doc ((look r rd).toDoc lt)) (Val.docRules lt) with
      | error e => rfl
      | ok x =>
        simp only
        cases validateAns x with
        | error e => rfl
        | ok x => exact ⟨rfl, g⟩
  | validateNf c =>
    rcases h.doc c with ⟨e1, e2⟩ | ⟨d, rd, e1, e2, hr⟩
    · simp only [step, rstep, e1, e2]
      exact ⟨rfl, g⟩
    · simp only [step, rstep, e1, e2, content_eq hi h (doc_get e1) hr, bind, Except.bind]
      cases Val.execute (.doc ((look r rd).toDoc lt)) (Val.docRules lt) with
      | error e => rfl
      | ok x => exact ⟨rfl, g⟩
  | xmlStr c o df fails =>
    rcases h.doc c with ⟨e1, e2⟩ | ⟨d, rd, e1, e2, hr⟩
    · simp only [step, rstep, e1, e2]
      exact ⟨rfl, g⟩
    · simp only [step, rstep, e1, e2, content_eq hi h (doc_get e1) hr, bind, Except.bind]
      cases xmlStr lt (look r rd) o df fails with
      | error e => rfl
      | ok x =>
        refine ⟨rfl, ?_⟩
        have := putLog_sim g (doc_get e1) hr d.encoding (d.log ++ x.2)
        obtain ⟨q1, q2, q3, q4, q5, q6, q7, q8⟩ := hr
        simp only [q6]
        simp only [← q2] at this ⊢
        exact this
  | xmlFile c name o df fails saved =>
    rcases h.doc c with ⟨e1, e2⟩ | ⟨d, rd, e1, e2, hr⟩
    · simp only [step, rstep, e1, e2]
      exact ⟨rfl, g⟩
    · simp only [step, rstep, e1, e2, content_eq hi h (doc_get e1) hr, bind, Except.bind]
      cases xmlFile lt (look r rd) name o df fails saved with
      | error e => rfl
      | ok x =>
        refine ⟨rfl, ?_⟩
        have := putLog_sim g (doc_get e1) hr (withEncoding d.encoding) x.2
        obtain ⟨q1, q2, q3, q4, q5, q6, q7, q8⟩ := hr
        simp only [q2]
        exact this
  | lastLog c =>
    rcases h.doc c with ⟨e1, e2⟩ | ⟨d, rd, e1, e2, hr⟩
    · simp only [step, rstep, e1, e2]
      exact ⟨rfl, g⟩
    · simp only [step, rstep, e1, e2]
      exact ⟨by rw [hr.2.2.2.2.2.1], g⟩
  | del v =>
    rcases h.var v with ⟨v1, v2⟩ | ⟨w, a, v1, v2, hv⟩
    · simp only [step, rstep, v1, v2]
      exact ⟨rfl, g⟩
    · obtain ⟨s1, e, i1, k1⟩ := decWrap_ok (dropVar_inv hi (var_get v1))
      simp only [step, rstep, v1, v2, e, bind, Except.bind]
      exact ⟨rfl, i1, (h.dropVar v).keeps k1⟩
  | drop c =>
    rcases h.doc c with ⟨e1, e2⟩ | ⟨d, rd, e1, e2, hr⟩
    · simp only [step, rstep, e1, e2]
      exact ⟨rfl, g⟩
    · obtain ⟨s1, e, g1⟩ := dealloc_sim g (doc_get e1) hr
      simp only [step, rstep, e1, e2, e, bind, Except.bind]
      exact ⟨rfl, g1⟩

theorem run_sim (lt : UInt8 → UInt8 → Bool) (os : List Op) : ∀ {st : St} {r : RSt}, Good st r →
    RelA (fun p q => p.1 = q.1 ∧ Good p.2 q.2) (run lt st os) (rrun lt RDoc.shown r os) := by
  induction os with
  | nil => intro st r g; exact ⟨rfl, g⟩
  | cons o os ih =>
    intro st r g
    have := step_sim lt g o
    simp only [run, rrun, bind, Except.bind]
    revert this
    cases step lt st o <;> cases rstep lt RDoc.shown r o
    · exact id
    · exact fun h => absurd h id
    · exact fun h => absurd h id
    · next p q =>
      rintro ⟨e, g'⟩
      have := ih g'
      simp only
      revert this
      cases run lt p.2 os <;> cases rrun lt RDoc.shown q.2 os
      · exact id
      · exact fun h => absurd h id
      · exact fun h => absurd h id
      · rintro ⟨e', g''⟩
        exact ⟨by simp [e, e'], g''⟩

theorem good_start : Good start rstart := ⟨inv_start, sim_start⟩

end Comps.PyComps
