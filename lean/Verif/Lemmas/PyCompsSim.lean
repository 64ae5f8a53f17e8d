import Verif.Lemmas.PyComps

/-!
# Python documents against the reference machine
-/

namespace Comps.PyComps
open Comps Comps.Obj Comps.Spec.PyComps Comps.Xml Comps.Parse

/-! ## The relation -/

def DRel (ws : List (Option Wrap)) : Option PyDoc → Option RDoc → Prop
  | none, none => True
  | some d, some rd => rd.part = d.secs ∧ rd.encoding = d.encoding ∧
      rd.doctypeName = d.doctypeName ∧ rd.doctypeSysid = d.doctypeSysid ∧
      rd.doctypePubid = d.doctypePubid ∧ rd.log = d.log ∧
      (∀ s, d.cache s = none → rd.shown s = none) ∧
      (∀ (s : Sec) (w : Nat) (o : Wrap), d.cache s = some w → ws[w]? = some (some o) →
        rd.shown s = some o.obj)
  | _, _ => False

def VRel (ws : List (Option Wrap)) : Option Nat → Option Nat → Prop
  | none, none => True
  | some w, some a => ∀ (o : Wrap), ws[w]? = some (some o) → o.obj = a
  | _, _ => False

structure Sim (st : St) (r : RSt) : Prop where
  lenO : st.objs.length = r.lists.length
  lenD : st.docs.length = r.docs.length
  lenV : st.vars.length = r.vars.length
  objs : ∀ (a : Nat) (b : Obj), st.objs[a]? = some (some b) → r.lists[a]? = some b.val
  docs : ∀ (c : Nat) (x : Option PyDoc) (y : Option RDoc), st.docs[c]? = some x →
    r.docs[c]? = some y → DRel st.wraps x y
  vars : ∀ (v : Nat) (x y : Option Nat), st.vars[v]? = some x → r.vars[v]? = some y →
    VRel st.wraps x y

theorem sim_start : Sim start rstart := by
  constructor <;> simp [start, rstart]

theorem DRel.mono {ws ws' : List (Option Wrap)} {x : Option PyDoc} {y : Option RDoc}
    (h : DRel ws x y) (hw : ∀ (s : Sec) (d : PyDoc) (w : Nat) (o' : Wrap), x = some d →
      d.cache s = some w → ws'[w]? = some (some o') →
      ∃ o, ws[w]? = some (some o) ∧ o'.obj = o.obj) : DRel ws' x y := by
  cases x with
  | none => cases y <;> exact h
  | some d =>
    cases y with
    | none => exact h
    | some rd =>
      obtain ⟨h1, h2, h3, h4, h5, h6, h7, h8⟩ := h
      refine ⟨h1, h2, h3, h4, h5, h6, h7, fun s w o' hs ho' => ?_⟩
      obtain ⟨o, ho, e⟩ := hw s d w o' rfl hs ho'
      rw [e]
      exact h8 s w o hs ho

theorem VRel.mono {ws ws' : List (Option Wrap)} {x y : Option Nat}
    (h : VRel ws x y) (hw : ∀ (w : Nat) (o' : Wrap), x = some w → ws'[w]? = some (some o') →
      ∃ o, ws[w]? = some (some o) ∧ o'.obj = o.obj) : VRel ws' x y := by
  cases x with
  | none => cases y <;> exact h
  | some w =>
    cases y with
    | none => exact h
    | some a =>
      intro o' ho'
      obtain ⟨o, ho, e⟩ := hw w o' rfl ho'
      rw [e]
      exact h o ho

variable {st st' : St} {r : RSt} {tw to : Nat → Nat}

theorem Sim.keeps (h : Sim st r) (k : Keeps st st') : Sim st' r := by
  refine ⟨k.lenO.trans h.lenO, by rw [k.docs]; exact h.lenD, by rw [k.vars]; exact h.lenV,
    fun a b' hb' => ?_, fun c x y hx hy => ?_, fun v x y hx hy => ?_⟩
  · obtain ⟨b, hb, e⟩ := k.objs a b' hb'
    rw [e]
    exact h.objs a b hb
  · rw [k.docs] at hx
    refine (h.docs c x y hx hy).mono fun s d w o' _ _ ho' => ?_
    obtain ⟨o, ho, _, e⟩ := k.wraps w o' ho'
    exact ⟨o, ho, e⟩
  · rw [k.vars] at hx
    refine (h.vars v x y hx hy).mono fun w o' _ ho' => ?_
    obtain ⟨o, ho, _, e⟩ := k.wraps w o' ho'
    exact ⟨o, ho, e⟩

theorem Sim.put (h : Sim st r) {c : Nat} {d' : PyDoc} {rd' : RDoc}
    (hr : DRel st.wraps (some d') (some rd')) : Sim (putDoc st c d') (r.put c rd') := by
  refine ⟨h.lenO, by simp [putDoc, RSt.put, h.lenD], h.lenV, h.objs, fun c' x y hx hy => ?_, h.vars⟩
  simp only [putDoc] at hx
  simp only [RSt.put] at hy
  rcases getElem?_set_cases hx with ⟨rfl, e⟩ | ⟨n, e⟩
  · rcases getElem?_set_cases hy with ⟨_, e'⟩ | ⟨n', _⟩
    · rw [← e, ← e']
      exact hr
    · exact absurd rfl n'
  · rcases getElem?_set_cases hy with ⟨n', _⟩ | ⟨_, e'⟩
    · exact absurd n' n
    · exact h.docs c' x y e e'

theorem Sim.dropDoc (h : Sim st r) (c : Nat) :
    Sim { st with docs := st.docs.set c none } { r with docs := r.docs.set c none } := by
  refine ⟨h.lenO, by simp [h.lenD], h.lenV, h.objs, fun c' x y hx hy => ?_, h.vars⟩
  rcases getElem?_set_cases hx with ⟨rfl, e⟩ | ⟨n, e⟩
  · rcases getElem?_set_cases hy with ⟨_, e'⟩ | ⟨n', _⟩
    · rw [← e, ← e']
      exact trivial
    · exact absurd rfl n'
  · rcases getElem?_set_cases hy with ⟨n', _⟩ | ⟨_, e'⟩
    · exact absurd n' n
    · exact h.docs c' x y e e'

theorem Sim.dropVar (h : Sim st r) (v : Nat) :
    Sim { st with vars := st.vars.set v none } { r with vars := r.vars.set v none } := by
  refine ⟨h.lenO, h.lenD, by simp [h.lenV], h.objs, h.docs, fun c' x y hx hy => ?_⟩
  rcases getElem?_set_cases hx with ⟨rfl, e⟩ | ⟨n, e⟩
  · rcases getElem?_set_cases hy with ⟨_, e'⟩ | ⟨n', _⟩
    · rw [← e, ← e']
      exact trivial
    · exact absurd rfl n'
  · rcases getElem?_set_cases hy with ⟨n', _⟩ | ⟨_, e'⟩
    · exact absurd n' n
    · exact h.vars c' x y e e'

theorem getElem?_append_one {α : Type} {l : List α} {x y : α} {i : Nat}
    (h : (l ++ [x])[i]? = some y) : (i = l.length ∧ x = y) ∨ (i < l.length ∧ l[i]? = some y) := by
  by_cases hl : i < l.length
  · exact .inr ⟨hl, by simpa [List.getElem?_append_left hl] using h⟩
  · by_cases e : i = l.length
    · subst e
      exact .inl ⟨rfl, by simpa using h⟩
    · rw [List.getElem?_eq_none (by simp; omega)] at h
      simp at h

theorem Sim.pushVar (h : Sim st r) {w a : Nat} {o : Wrap} (hw : st.wraps[w]? = some (some o))
    (e : o.obj = a) : Sim (pushVar st w) (r.bindVar a) := by
  refine ⟨h.lenO, h.lenD, by simp [PyComps.pushVar, RSt.bindVar, h.lenV], h.objs, h.docs,
    fun v x y hx hy => ?_⟩
  simp only [PyComps.pushVar] at hx
  simp only [RSt.bindVar] at hy
  have hl := h.lenV
  rcases getElem?_append_one hx with ⟨i1, rfl⟩ | ⟨i1, e1⟩
  · rcases getElem?_append_one hy with ⟨i2, rfl⟩ | ⟨i2, e2⟩
    · intro o' ho'
      simp only [PyComps.pushVar] at ho'
      rw [hw] at ho'
      cases ho'
      exact e
    · omega
  · rcases getElem?_append_one hy with ⟨i2, rfl⟩ | ⟨i2, e2⟩
    · omega
    · exact h.vars v x y e1 e2

theorem Sim.addDoc (h : Sim st r) {d : PyDoc} {rd : RDoc}
    (hr : DRel st.wraps (some d) (some rd)) :
    Sim { st with docs := st.docs ++ [some d] } { r with docs := r.docs ++ [some rd] } := by
  refine ⟨h.lenO, by simp [h.lenD], h.lenV, h.objs, fun v x y hx hy => ?_, h.vars⟩
  have hl := h.lenD
  rcases getElem?_append_one hx with ⟨i1, rfl⟩ | ⟨i1, e1⟩
  · rcases getElem?_append_one hy with ⟨i2, rfl⟩ | ⟨i2, e2⟩
    · exact hr
    · omega
  · rcases getElem?_append_one hy with ⟨i2, rfl⟩ | ⟨i2, e2⟩
    · omega
    · exact h.docs v x y e1 e2

theorem Sim.newObj (h : Sim st r) (v : DocVal) : Sim (newObj st v).2 (r.newList v) := by
  refine ⟨by simp [PyComps.newObj, RSt.newList, h.lenO], h.lenD, h.lenV, fun a b hb => ?_, h.docs,
    h.vars⟩
  simp only [PyComps.newObj] at hb
  rcases getElem?_append_one hb with ⟨rfl, e⟩ | ⟨hl, e⟩
  · cases e
    simp [RSt.newList, h.lenO]
  · simp only [RSt.newList]
    rw [List.getElem?_append_left (by rw [← h.lenO]; exact hl)]
    exact h.objs a b e

theorem Sim.newWrap (h : Sim st r) (hi : Inv st tw to) (k : Kind) (a : Nat) :
    Sim (newWrap st k a).2 r := by
  refine ⟨h.lenO, h.lenD, h.lenV, h.objs, fun c x y hx hy => ?_, fun v x y hx hy => ?_⟩
  · refine (h.docs c x y hx hy).mono fun s d w o' hd hs ho' => ?_
    subst hd
    obtain ⟨o, ho⟩ := hi.cache_live hx hs
    have hl := (List.getElem?_eq_some_iff.1 ho).1
    simp only [PyComps.newWrap, List.getElem?_append_left hl] at ho'
    exact ⟨o', ho', rfl⟩
  · refine (h.vars v x y hx hy).mono fun w o' hd ho' => ?_
    subst hd
    obtain ⟨o, ho⟩ := hi.var_live hx
    have hl := (List.getElem?_eq_some_iff.1 ho).1
    simp only [PyComps.newWrap, List.getElem?_append_left hl] at ho'
    exact ⟨o', ho', rfl⟩

theorem Sim.write (h : Sim st r) {a : Nat} {b : Obj} {x : DocVal} :
    Sim { st with objs := st.objs.set a (some { b with val := x }) }
      { r with lists := r.lists.set a x } := by
  refine ⟨by simp [h.lenO], h.lenD, h.lenV, fun a' b' hb' => ?_, h.docs, h.vars⟩
  have hlen := (List.getElem?_eq_some_iff.1 hb').1
  simp only [List.length_set] at hlen
  rcases getElem?_set_cases hb' with ⟨rfl, e⟩ | ⟨n, e⟩
  · cases e
    exact List.getElem?_set_self (by rw [← h.lenO]; exact hlen)
  · simp only
    rw [List.getElem?_set_ne n]
    exact h.objs a' b' e

/-! ## Looking at both -/

theorem doc_get {c : Nat} {d : PyDoc} (h : st.doc c = some d) : st.docs[c]? = some (some d) := by
  simpa [St.doc, Option.join_eq_some_iff] using h

theorem rdoc_get {c : Nat} {d : RDoc} (h : r.doc c = some d) : r.docs[c]? = some (some d) := by
  simpa [RSt.doc, Option.join_eq_some_iff] using h

theorem var_get {v w : Nat} (h : st.var v = some w) : st.vars[v]? = some (some w) := by
  simpa [St.var, Option.join_eq_some_iff] using h

theorem Sim.doc (h : Sim st r) (c : Nat) :
    (st.doc c = none ∧ r.doc c = none) ∨
    ∃ d rd, st.doc c = some d ∧ r.doc c = some rd ∧ DRel st.wraps (some d) (some rd) := by
  by_cases hl : c < st.docs.length
  · have hl' : c < r.docs.length := by rw [← h.lenD]; exact hl
    have e1 : st.docs[c]? = some st.docs[c] := List.getElem?_eq_getElem hl
    have e2 : r.docs[c]? = some r.docs[c] := List.getElem?_eq_getElem hl'
    have := h.docs c _ _ e1 e2
    simp only [St.doc, RSt.doc, e1, e2, Option.join_some]
    generalize st.docs[c] = x at *
    generalize r.docs[c] = y at *
    cases x <;> cases y
    · simp
    · exact absurd this id
    · exact absurd this id
    · exact .inr ⟨_, _, rfl, rfl, this⟩
  · refine .inl ⟨?_, ?_⟩
    · simp [St.doc, List.getElem?_eq_none (by omega : st.docs.length ≤ c)]
    · simp [RSt.doc, List.getElem?_eq_none (by rw [← h.lenD]; omega : r.docs.length ≤ c)]

theorem Sim.var (h : Sim st r) (v : Nat) :
    (st.var v = none ∧ r.var v = none) ∨
    ∃ w a, st.var v = some w ∧ r.var v = some a ∧ VRel st.wraps (some w) (some a) := by
  by_cases hl : v < st.vars.length
  · have hl' : v < r.vars.length := by rw [← h.lenV]; exact hl
    have e1 : st.vars[v]? = some st.vars[v] := List.getElem?_eq_getElem hl
    have e2 : r.vars[v]? = some r.vars[v] := List.getElem?_eq_getElem hl'
    have := h.vars v _ _ e1 e2
    simp only [St.var, RSt.var, e1, e2, Option.join_some]
    generalize st.vars[v] = x at *
    generalize r.vars[v] = y at *
    cases x <;> cases y
    · simp
    · exact absurd this id
    · exact absurd this id
    · exact .inr ⟨_, _, rfl, rfl, this⟩
  · refine .inl ⟨?_, ?_⟩
    · simp [St.var, List.getElem?_eq_none (by omega : st.vars.length ≤ v)]
    · simp [RSt.var, List.getElem?_eq_none (by rw [← h.lenV]; omega : r.vars.length ≤ v)]

theorem readParts_eq (hi : Inv st tw to) (h : Sim st r) {c : Nat} {d : PyDoc} {rd : RDoc}
    (hd : st.docs[c]? = some (some d)) (hr : DRel st.wraps (some d) (some rd)) :
    ∀ l, ∃ f, readParts st d l = .ok f ∧
      ∀ s, f s = if s ∈ l then (look r rd).part s else s.kind.empty := by
  have hp : rd.part = d.secs := hr.1
  intro l
  induction l with
  | nil => exact ⟨_, rfl, by simp⟩
  | cons s l ih =>
    obtain ⟨f, hf, hfs⟩ := ih
    cases hs : d.secs s with
    | none =>
      refine ⟨f, by simp [readParts, hf, hs, bind, Except.bind, pure, Except.pure], fun t => ?_⟩
      rw [hfs t]
      by_cases e : t = s
      · subst e
        have : (look r rd).part t = t.kind.empty := by simp [look, hp, hs]
        simp [this]
      · simp [e]
    | some a =>
      obtain ⟨b, hb⟩ := hi.sec_live hd hs
      refine ⟨upd f s b.val,
        by simp [readParts, hf, hs, loadObj_eq hb, bind, Except.bind, pure, Except.pure], fun t => ?_⟩
      by_cases e : t = s
      · subst e
        have : (look r rd).part t = b.val := by simp [look, hp, hs, h.objs a b hb]
        simp [this, upd]
      · simp [upd, e, hfs t]

theorem content_eq (hi : Inv st tw to) (h : Sim st r) {c : Nat} {d : PyDoc} {rd : RDoc}
    (hd : st.docs[c]? = some (some d)) (hr : DRel st.wraps (some d) (some rd)) :
    content st d = .ok (look r rd) := by
  obtain ⟨f, hf, hfs⟩ := readParts_eq hi h hd hr allSecs
  obtain ⟨h1, h2, h3, h4, h5, -⟩ := hr
  simp only [content, hf, bind, Except.bind, pure, Except.pure, ← h2, ← h3, ← h4, ← h5]
  congr 1
  have : f = (look r rd).part := by
    funext s
    rw [hfs s]
    cases s <;> simp [allSecs]
  rw [this]
  rfl

/-! ## Documents of the C library -/

def RelA {α β : Type} (P : α → β → Prop) : Res α → Res β → Prop
  | .ok a, .ok b => P a b
  | .error e, .error e' => e = e'
  | _, _ => False

theorem upd_eq {α : Type} (f : Sec → α) (s : Sec) (v : α) :
    (fun t => if t = s then v else f t) = upd f s v := rfl

theorem adoptSecs_sim (x : Doc) : ∀ (l : List Sec), l.Nodup → ∀ {st : St} {r : RSt},
    Inv st tw to → Sim st r →
    RelA (fun (p : (Sec → Option Nat) × St) (q : (Sec → Option Nat) × RSt) =>
      q.1 = p.1 ∧ (∀ s, s ∉ l → p.1 s = none) ∧ Inv p.2 tw (fun a => to a + secCount p.1 a) ∧
      Sim p.2 q.2 ∧ p.2.docs = st.docs ∧ q.2.docs = r.docs ∧ p.2.wraps = st.wraps ∧
      (∀ (s : Sec) (a : Nat) (b : Obj), p.1 s = some a → p.2.objs[a]? = some (some b) →
        kindOf b.val = some s.kind)) (adoptSecs x st l) (takeParts x r l) := by
  intro l
  induction l with
  | nil =>
    intro _ st r hi h
    refine ⟨rfl, fun _ _ => rfl, hi.congr (fun _ => rfl) (fun a => ?_), h, rfl, rfl, rfl, ?_⟩
    · simp [secCount_none]
    · simp
  | cons s l ih =>
    intro hn st r hi h
    have hns : s ∉ l := (List.nodup_cons.1 hn).1
    have := ih (List.nodup_cons.1 hn).2 hi h
    simp only [adoptSecs, takeParts, bind, Except.bind]
    revert this
    cases adoptSecs x st l with
    | error e =>
      cases takeParts x r l with
      | error e' => exact id
      | ok q => exact fun h => absurd h id
    | ok p =>
      cases takeParts x r l with
      | error e' => exact fun h => absurd h id
      | ok q =>
        obtain ⟨f, s1⟩ := p
        obtain ⟨g, r1⟩ := q
        rintro ⟨h1, h2, h3, h4, h5, h6, h7, h8⟩
        simp only at h1 h2 h3 h4 h5 h6 h7 h8
        subst h1
        simp only
        cases x.objects.get s.key with
        | none =>
          exact ⟨rfl, fun t ht => h2 t (fun hm => ht (List.mem_cons_of_mem _ hm)), h3, h4, h5, h6,
            h7, h8⟩
        | some v =>
          simp only
          by_cases hk : kindOf v = some s.kind
          · simp only [hk, if_true]
            have hfs := h2 s hns
            have hn := newObj_inv h3 v
            have hlen := h4.lenO
            refine ⟨by rw [upd_eq, ← hlen]; rfl, fun t ht => ?_, hn.congr (fun _ => rfl) (fun a => ?_),
              h4.newObj v, h5, h6, h7, fun t a b ht hb => ?_⟩
            · have : t ≠ s := fun e => ht (e ▸ List.mem_cons_self)
              simp only [upd, this, if_false]
              exact h2 t (fun hm => ht (List.mem_cons_of_mem _ hm))
            · have e := secCount_upd g s (some s1.objs.length) a
              rw [hfs, one_none] at e
              simp only [newObj]
              omega
            · simp only [newObj] at hb
              simp only [newObj, upd] at ht
              rcases getElem?_append_one hb with ⟨rfl, e⟩ | ⟨hl, e⟩
              · cases e
                split at ht
                · next et => rw [et]; exact hk
                · obtain ⟨b', hb'⟩ : ∃ b', s1.objs[s1.objs.length]? = some (some b') := by
                    refine live_obj ?_
                    rw [h3.o]
                    have := secCount_pos ht
                    omega
                  simp at hb'
              · split at ht
                · cases ht
                  omega
                · exact h8 t a b ht e
          · simp only [hk, if_false]
            rfl

theorem adopt_sim (x : Doc) (log : List LogEntry) (hi : Inv st tw to) (h : Sim st r) :
    RelA (fun (p : PyDoc × St) (q : RDoc × RSt) =>
      Inv p.2 tw (fun a => to a + secCount p.1.secs a) ∧ p.1.cache = (fun _ => none) ∧
      Sim p.2 q.2 ∧ p.2.docs = st.docs ∧ q.2.docs = r.docs ∧ DRel p.2.wraps (some p.1) (some q.1) ∧
      (∀ (s : Sec) (a : Nat) (b : Obj), p.1.secs s = some a → p.2.objs[a]? = some (some b) →
        kindOf b.val = some s.kind)) (adopt st x log) (takeDoc r x log) := by
  have := adoptSecs_sim x allSecs (by decide) hi h
  simp only [adopt, takeDoc, bind, Except.bind]
  revert this
  cases adoptSecs x st allSecs with
  | error e =>
    cases takeParts x r allSecs with
    | error e' => exact id
    | ok q => exact fun h => absurd h id
  | ok p =>
    cases takeParts x r allSecs with
    | error e' => exact fun h => absurd h id
    | ok q =>
      obtain ⟨f, s1⟩ := p
      obtain ⟨g, r1⟩ := q
      rintro ⟨h1, h2, h3, h4, h5, h6, h7, h8⟩
      simp only at h1 h2 h3 h4 h5 h6 h7 h8
      subst h1
      refine ⟨h3, rfl, h4, h5, h6, ⟨rfl, rfl, rfl, rfl, rfl, rfl, fun _ _ => rfl, ?_⟩, h8⟩
      simp

/-! ## Attributes -/

/-- The state after a call: nothing held by the C code, related to the reference machine. -/
def Good (st : St) (r : RSt) : Prop := Inv st (fun _ => 0) (fun _ => 0) ∧ Sim st r

theorem getAttr_sim (g : Good st r) {c : Nat} {d : PyDoc} {rd : RDoc} (s : Sec)
    (hd : st.docs[c]? = some (some d)) (hrd : r.docs[c]? = some (some rd))
    (hr : DRel st.wraps (some d) (some rd)) :
    ∃ st', getAttr st c d s = .ok st' ∧ Good st' (readAttr RDoc.shown r c rd s) := by
  obtain ⟨hi, h⟩ := g
  have hp : rd.part = d.secs := hr.1
  cases hc : d.cache s with
  | some w =>
    obtain ⟨o, ho⟩ := hi.cache_live hd hc
    have hs : rd.shown s = some o.obj := hr.2.2.2.2.2.2.2 s w o hc ho
    obtain ⟨s1, e1, i1, k1⟩ := incWrap_ok hi ho
    obtain ⟨o1, ho1⟩ : ∃ o1, s1.wraps[w]? = some (some o1) := by
      refine live_wrap ?_
      rw [i1.w]
      simp only [one_self]
      omega
    obtain ⟨o2, ho2, -, eo⟩ := k1.wraps w o1 ho1
    rw [ho] at ho2
    cases ho2
    refine ⟨pushVar s1 w, by simp [getAttr, hc, e1, bind, Except.bind, pure, Except.pure],
      pushVar_inv i1, ?_⟩
    have e1 : upd rd.shown s (some o.obj) = rd.shown := by
      funext t
      by_cases e : t = s
      · simp [upd, e, hs]
      · simp [upd, e]
    have e2 : r.put c rd = r := by
      obtain ⟨hl, e⟩ := List.getElem?_eq_some_iff.1 hrd
      simp only [RSt.put, ← e, List.set_getElem_self]
    simp only [readAttr, hs, Option.some_or, upd_eq, e1, e2]
    exact (h.keeps k1).pushVar ho1 eo
  | none =>
    have hs : rd.shown s = none := hr.2.2.2.2.2.2.1 s hc
    -- the list of the document, counted for the caller
    obtain ⟨a, d1, s1, rd1, r1, e1, i1, h1, hd1, hr1, hrd1, hc1, ha1, hk1, hshow⟩ :
        ∃ a d1 s1 rd1 r1, docGet st c d s = .ok (a, d1, s1) ∧
          Inv s1 (fun _ => 0) (fun x => 0 + one (some a) x) ∧ Sim s1 r1 ∧
          s1.docs[c]? = some (some d1) ∧ DRel s1.wraps (some d1) (some rd1) ∧
          r1.docs[c]? = some (some rd1) ∧ d1.cache = d.cache ∧ d1.secs s = some a ∧
          (∀ b : Obj, s1.objs[a]? = some (some b) → kindOf b.val = some s.kind) ∧
          readAttr RDoc.shown r c rd s =
            (r1.put c { rd1 with shown := upd rd1.shown s (some a) }).bindVar a := by
      cases hsec : d.secs s with
      | some a =>
        obtain ⟨b, hb⟩ := hi.sec_live hd hsec
        obtain ⟨s1, e1, i1, k1⟩ := incObj_ok hi hb
        refine ⟨a, d, s1, rd, r, by simp [docGet, hsec, e1, bind, Except.bind, pure, Except.pure], i1,
          h.keeps k1, by rw [k1.docs]; exact hd, ?_, hrd, rfl, hsec, fun b' hb' => ?_, ?_⟩
        · exact (h.keeps k1).docs c _ _ (by rw [k1.docs]; exact hd) hrd
        · exact i1.ks c d s a b' (by rw [k1.docs]; exact hd) hsec hb'
        · simp only [readAttr, hs, hp, hsec, upd_eq, Option.none_or]
      | none =>
        have i1 := newObj_inv hi s.kind.empty
        have h1 := h.newObj s.kind.empty
        let d1 : PyDoc := { d with secs := upd d.secs s (some st.objs.length) }
        let rd1 : RDoc := { rd with part := upd rd.part s (some st.objs.length) }
        have hget := newObj_get st s.kind.empty
        have i2 : Inv (putDoc (newObj st s.kind.empty).2 c d1) (fun _ => 0) (fun _ => 0) := by
          refine putDoc_inv i1 (d := d) hd (fun w => rfl) (fun a => ?_) (fun t a b ht hb => ?_)
            (fun t w o ht hw => hi.kc c d t w o hd ht hw)
          · have e := secCount_upd d.secs s (some st.objs.length) a
            rw [hsec, one_none] at e
            simp only [d1]
            omega
          · simp only [d1, upd] at ht
            split at ht
            · next et =>
              cases ht
              rw [hget] at hb
              cases hb
              rw [et]
              cases s <;> rfl
            · exact i1.ks c d t a b hd ht hb
        have h2 : Sim (putDoc (newObj st s.kind.empty).2 c d1) ((r.newList s.kind.empty).put c rd1) := by
          refine h1.put ?_
          obtain ⟨q1, q2⟩ := hr
          exact ⟨by simp [rd1, d1, q1], q2⟩
        obtain ⟨s3, e3, i3, k3⟩ := incObj_ok i2 (a := st.objs.length) hget
        have hd3 : s3.docs[c]? = some (some d1) := by
          rw [k3.docs]
          exact putDoc_get (st := (newObj st s.kind.empty).2) hd
        have hrd3 : ((r.newList s.kind.empty).put c rd1).docs[c]? = some (some rd1) := by
          have hl := (List.getElem?_eq_some_iff.1 hrd).1
          simp [RSt.put, RSt.newList, List.getElem?_set_self hl]
        refine ⟨st.objs.length, d1, s3, rd1, (r.newList s.kind.empty).put c rd1, ?_, i3, h2.keeps k3,
          hd3, (h2.keeps k3).docs c _ _ hd3 hrd3, hrd3, rfl, by simp [d1, upd], fun b' hb' => ?_, ?_⟩
        · have : docGet st c d s = (do
              return (st.objs.length, d1,
                ← incObj (putDoc (newObj st s.kind.empty).2 c d1) st.objs.length)) := by
            simp only [docGet, hsec]
            rfl
          rw [this, e3]
          rfl
        · exact i3.ks c d1 s _ b' hd3 (by simp [d1, upd]) hb'
        · simp only [readAttr, hs, hp, hsec, upd_eq, Option.none_or, RSt.put, RSt.newList, List.set_set, rd1, h.lenO]
    -- the Python object
    have i2 := newWrap_inv i1 hk1
    have h2 := h1.newWrap i1 s.kind a
    have hget : (newWrap s1 s.kind a).2.wraps[s1.wraps.length]? = some (some ⟨1, s.kind, a⟩) := by
      simp [newWrap]
    let d2 : PyDoc := { d1 with cache := upd d1.cache s (some s1.wraps.length) }
    have hcs : d1.cache s = none := by rw [hc1]; exact hc
    have i3 : Inv (putDoc (newWrap s1 s.kind a).2 c d2) (fun _ => 0) (fun _ => 0) := by
      refine putDoc_inv i2 (d := d1) hd1 (fun w => ?_) (fun a => rfl)
        (fun t a b ht hb => i2.ks c d1 t a b hd1 ht hb) (fun t w o ht hw => ?_)
      · have e := secCount_upd d1.cache s (some s1.wraps.length) w
        rw [hcs, one_none] at e
        simp only [d2]
        omega
      · simp only [d2, upd] at ht
        split at ht
        · next et =>
          cases ht
          rw [hget] at hw
          cases hw
          rw [et]
        · exact i2.kc c d1 t w o hd1 ht hw
    have hr2 : DRel (newWrap s1 s.kind a).2.wraps (some d1) (some rd1) := h2.docs c _ _ hd1 hrd1
    have h3 : Sim (putDoc (newWrap s1 s.kind a).2 c d2)
        (r1.put c { rd1 with shown := upd rd1.shown s (some a) }) := by
      refine h2.put ?_
      obtain ⟨q1, q2, q3, q4, q5, q6, q7, q8⟩ := hr2
      refine ⟨q1, q2, q3, q4, q5, q6, fun t ht => ?_, fun t w o ht hw => ?_⟩
      · simp only [d2, upd] at ht ⊢
        split at ht
        · simp at ht
        · next et => simp only [et, if_false]; exact q7 t ht
      · simp only [d2, upd] at ht ⊢
        split at ht
        · next et =>
          cases ht
          rw [hget] at hw
          cases hw
          simp [et]
        · next et => simp only [et, if_false]; exact q8 t w o ht hw
    obtain ⟨s4, e4, i4, k4⟩ := incWrap_ok i3 (w := s1.wraps.length) hget
    obtain ⟨o4, ho4⟩ : ∃ o4, s4.wraps[s1.wraps.length]? = some (some o4) := by
      refine live_wrap ?_
      rw [i4.w]
      simp only [one_self]
      omega
    obtain ⟨o5, ho5, -, eo⟩ := k4.wraps _ o4 ho4
    have ho6 : (putDoc (newWrap s1 s.kind a).2 c d2).wraps[s1.wraps.length]? =
      some (some ⟨1, s.kind, a⟩) := hget
    rw [ho6] at ho5
    cases ho5
    refine ⟨pushVar s4 s1.wraps.length, ?_, pushVar_inv i4, ?_⟩
    · have : getAttr st c d s = (do
          return pushVar (← incWrap (putDoc (newWrap s1 s.kind a).2 c d2) s1.wraps.length)
            s1.wraps.length) := by
        simp only [getAttr, hc, e1]
        rfl
      rw [this, e4]
      rfl
    · rw [hshow]
      exact (h3.keeps k4).pushVar ho4 eo

end Comps.PyComps
