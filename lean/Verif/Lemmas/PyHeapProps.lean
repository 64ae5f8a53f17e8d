import Verif.Lemmas.PyHeapReach

/-! # Helpers for the properties of Python programs -/

namespace Comps.PyHeap
open Comps Comps.Obj
open Comps.PyElem (Pkg EKind Attr PkgAttr GidAttr Arg)

variable {lt : UInt8 → UInt8 → Bool} {utf8 : Bytes → Bool}

theorem run_obs (ops : List Op) {st : St} {r : R} (h : Rel st r) :
    (run lt utf8 st ops).map Prod.snd = (r.run lt utf8 ops).map Prod.snd := by
  have := run_sim lt utf8 ops h
  cases e : r.run lt utf8 ops with
  | error f => rw [e] at this; simp only at this; rw [this]; rfl
  | ok p =>
    obtain ⟨r', os⟩ := p
    rw [e] at this
    obtain ⟨st', h1, -⟩ := this
    rw [h1]; rfl

theorem step_back {st st' : St} {r : R} {op : Op} {o : Obs} (h : Rel st r)
    (hs : step lt utf8 st op = .ok (st', o)) : ∃ r', r.step lt utf8 op = .ok (r', o) ∧ Rel st' r' := by
  have := step_sim lt utf8 h op
  unfold Sim at this
  cases e : r.step lt utf8 op with
  | error f => rw [e] at this; simp only at this; rw [hs] at this; simp at this
  | ok p =>
    obtain ⟨r', o'⟩ := p
    rw [e] at this
    obtain ⟨st2, h1, h2⟩ := this
    rw [hs] at h1
    cases h1
    exact ⟨r', rfl, h2⟩

theorem step_forth {st : St} {r r' : R} {op : Op} {o : Obs} (h : Rel st r)
    (hs : r.step lt utf8 op = .ok (r', o)) : ∃ st', step lt utf8 st op = .ok (st', o) ∧ Rel st' r' := by
  have := step_sim lt utf8 h op
  rw [hs] at this
  exact this

theorem run_back {ops : List Op} {st st' : St} {r : R} {os : List Obs} (h : Rel st r)
    (hs : run lt utf8 st ops = .ok (st', os)) : ∃ r', r.run lt utf8 ops = .ok (r', os) ∧ Rel st' r' := by
  have := run_sim lt utf8 ops h
  cases e : r.run lt utf8 ops with
  | error f => rw [e] at this; simp only at this; rw [hs] at this; simp at this
  | ok p =>
    obtain ⟨r', o'⟩ := p
    rw [e] at this
    obtain ⟨st2, h1, h2⟩ := this
    rw [hs] at h1
    cases h1
    exact ⟨r', rfl, h2⟩

theorem run_parts {pre ops : List Op} {r r' : R} {os : List Obs}
    (h : r.run lt utf8 pre = .ok (r', os)) :
    r.run lt utf8 (pre ++ ops) = (do
      let (r'', os') ← r'.run lt utf8 ops
      return (r'', os ++ os')) := by
  rw [run_append, h]; rfl

theorem run_cons {op : Op} {ops : List Op} {r r' : R} {o : Obs}
    (h : r.step lt utf8 op = .ok (r', o)) :
    r.run lt utf8 (op :: ops) = (do
      let (r'', os') ← r'.run lt utf8 ops
      return (r'', o :: os')) := by
  rw [R.run, h]; rfl

/-- Keeping a list in an entry: the attribute is the list. -/
theorem setList_sharing {r r1 : R} {v w : Nat} {o : Bool}
    (h : r.step lt utf8 (.setList v o w) = .ok (r1, .none)) :
    ∃ r2, r1.step lt utf8 (.getList v o) = .ok (r2, .object) ∧ r2.sharing r.vars.length w := by
  have hk := step_kept (op := .setList v o w) rfl h
  rw [R.step] at h
  obtain ⟨x, t, a, n, d, hx, hb, h⟩ := with1_ok h (by simp)
  obtain ⟨x2, t2, l, n2, d2, hx2, hb2, h⟩ := with1_ok h (by simp)
  rw [R.step, with1_run (hk.vars _ _ hx) (hk.wraps _ _ _ _ _ hb)]
  cases t <;> try (cases h; done)
  rename_i k _
  dsimp only at h ⊢
  split at h
  · cases h
  rename_i hc
  split at h
  · rename_i et
    subst et
    simp only [bind, Except.bind, pure, Except.pure] at h
    split at h
    · cases h
    rename_i e he
    cases h
    rw [if_neg hc]
    have hla : a < r.objs.length := by
      unfold asEnt look at he
      cases e' : r.objs[a]? with
      | none => rw [e'] at he; simp [bind, Except.bind] at he
      | some b => exact (List.getElem?_eq_some_iff.1 e').1
    have he' : asEnt (look ((r.put a (e.withList o l).body).lose x2).objs) a = .ok (e.withList o l) := by
      have : ((r.put a (e.withList o l).body).lose x2).objs[a]? = some (e.withList o l).body := by
        simp [R.put, R.lose, hla]
      unfold asEnt look
      rw [this]
      rfl
    have hl : nonNull ((e.withList o l).listOf o) = .ok l := by
      cases o <;> rfl
    simp only [he', hl, bind, Except.bind, pure, Except.pure]
    refine ⟨_, rfl, ?_⟩
    have hk2 := Kept.wrapUp (q := .newComps) ((r.put a (e.withList o l).body).lose x2) (.list (listType k)) l
    refine ⟨((r.put a (e.withList o l).body).lose x2).objs.length, x2, .list (listType k), l, none, none, n2, d2, ?_, hk2.vars _ _ (hk.vars _ _ hx2), ?_,
      hk2.wraps _ _ _ _ _ (hk.wraps _ _ _ _ _ hb2), ?_⟩
    · exact var_new _ _
    · simp [R.wrapUp, R.push, R.make]
    · rintro k e; cases e
  · cases h

/-- An entry's Python object remembers the dictionary assigned through it. -/
theorem setDict_cached {r r1 : R} {v w : Nat} {desc : Bool}
    (h : r.step lt utf8 (.setDict v desc w) = .ok (r1, .none)) :
    ∃ x k a n d x2, var r1.vars v = some x ∧ r1.objs[x]? = some (.wrap (.entry k) a n d) ∧
      (if desc then d else n) = some x2 ∧ var r1.vars w = some x2 := by
  rw [R.step] at h
  obtain ⟨x, t, a, n, d, hx, hb, h⟩ := with1_ok h (by simp)
  obtain ⟨x2, t2, l, n2, d2, hx2, hb2, h⟩ := with1_ok h (by simp)
  cases t <;> try (cases h; done)
  rename_i k _
  dsimp only at h
  split at h
  · simp only [bind, Except.bind, pure, Except.pure] at h
    split at h
    · cases h
    rename_i e he
    have hw : asWrap (look r.objs) x = .ok (.entry k, a, n, d) := by
      simp [asWrap, look, hb, bind, Except.bind]
    rw [hw] at h
    cases h
    have hlt := (List.getElem?_eq_some_iff.1 hb).1
    cases desc
    · refine ⟨x, k, a, some x2, d, x2, hx, ?_, rfl, hx2⟩
      simp [R.put, hlt]
    · refine ⟨x, k, a, n, some x2, x2, hx, ?_, rfl, hx2⟩
      simp [R.put, hlt]
  · cases h

theorem run_kept : ∀ (ops : List Op) {r r' : R} {os : List Obs} {v w : Nat}
    (_ : ∀ op ∈ ops, op.leaves v w = true) (_ : r.run lt utf8 ops = .ok (r', os)),
    (∀ (x : Nat) (t : PType) (a : Nat) (n d : Option Nat), r.objs[x]? = some (.wrap t a n d) →
      r'.objs[x]? = some (.wrap t a n d)) ∧
    (∀ x, var r.vars v = some x → var r'.vars v = some x) ∧
    (∀ x, var r.vars w = some x → var r'.vars w = some x) := by
  intro ops
  induction ops with
  | nil => intro r r' os v w _ h; cases h; exact ⟨fun _ _ _ _ _ h => h, fun _ h => h, fun _ h => h⟩
  | cons op ops ih =>
    intro r r' os v w hf h
    simp only [R.run, bind, Except.bind, pure, Except.pure] at h
    split at h
    · simp at h
    rename_i p hp
    split at h
    · simp at h
    rename_i p' hp'
    cases h
    obtain ⟨h1, h2, h3⟩ := ih (v := v) (w := w) (fun o ho => hf o (by simp [ho])) hp'
    have hop := hf op (by simp)
    have : (∀ (x : Nat) (t : PType) (a : Nat) (n d : Option Nat), r.objs[x]? = some (.wrap t a n d) →
      p.1.objs[x]? = some (.wrap t a n d)) ∧
      (∀ x, var r.vars v = some x → var p.1.vars v = some x) ∧
      (∀ x, var r.vars w = some x → var p.1.vars w = some x) := by
      by_cases hk : op.keeps = true
      · have := step_kept hk hp
        exact ⟨this.wraps, this.vars v, this.vars w⟩
      · cases op <;> simp [Op.keeps] at hk
        case setDict => simp [Op.leaves] at hop
        case del u =>
          simp [Op.leaves] at hop
          rw [R.step] at hp
          split at hp <;> cases hp
          · exact ⟨fun _ _ _ _ _ h => h, fun _ h => h, fun _ h => h⟩
          · refine ⟨fun _ _ _ _ _ h => h, fun x hx => ?_, fun x hx => ?_⟩
            · simpa [var, List.getElem?_set, hop.1] using hx
            · simpa [var, List.getElem?_set, hop.2] using hx
    obtain ⟨g1, g2, g3⟩ := this
    exact ⟨fun x t a n d e => h1 x t a n d (g1 x t a n d e), fun x e => h2 x (g2 x e),
      fun x e => h3 x (g3 x e)⟩

/-- What a search finds. -/
theorem matching_spec {objs : List Body} (name : Option Bytes) (type : Int) : ∀ {items xs : List Nat},
    matching (look objs) name type items = .ok xs → xs.Sublist items ∧
      packagesOf objs xs = (packagesOf objs items).filter (PyElem.pkgMatches name type) := by
  intro items
  induction items with
  | nil => intro xs h; cases h; exact ⟨.slnil, rfl⟩
  | cons a as ih =>
    intro xs h
    simp only [matching, asLeaf, look, bind, Except.bind, pure, Except.pure] at h
    cases e : objs[a]? with
    | none => rw [e] at h; simp at h
    | some b =>
      rw [e] at h
      cases b <;> simp at h
      rename_i p
      split at h
      · cases h
      rename_i ys hys
      obtain ⟨h1, h2⟩ := ih hys
      cases h
      split
      · rename_i hm
        refine ⟨h1.cons_cons a, ?_⟩
        simp only [packagesOf, e, List.filter_cons, hm, if_true]
        rw [h2]
      · rename_i hm
        refine ⟨h1.cons a, ?_⟩
        simp only [packagesOf, e, List.filter_cons, hm]
        exact h2

theorem matching_append {objs : List Body} {name : Option Bytes} {type : Int} (bs : List Body) :
    ∀ {items xs : List Nat}, matching (look objs) name type items = .ok xs →
      matching (look (objs ++ bs)) name type items = .ok xs := by
  intro items
  induction items with
  | nil => intro xs h; exact h
  | cons a as ih =>
    intro xs h
    simp only [matching, asLeaf, look, bind, Except.bind, pure, Except.pure] at h ⊢
    cases e : objs[a]? with
    | none => rw [e] at h; simp at h
    | some b =>
      have e' : (objs ++ bs)[a]? = some b := by
        rw [List.getElem?_append_left (List.getElem?_eq_some_iff.1 e).1, e]
      rw [e] at h
      rw [e']
      cases b <;> simp at h
      split at h
      · cases h
      rename_i ys hys
      rw [ih hys]
      exact congrArg Except.ok (Except.ok.inj h)

/-- What a search gives. -/
theorem search_spec {r r1 : R} {v : Nat} {name type : Option Arg}
    (h : r.step lt utf8 (.packagesMatch v name type) = .ok (r1, .object)) :
    ∃ r2, r1.step lt utf8 (.getList v false) = .ok (r2, .object) ∧
      (r2.members r.vars.length).Sublist (r2.members (r.vars.length + 1)) ∧
      PyElem.packagesMatch (r2.packages (r.vars.length + 1)) name type = .ok (r2.packages r.vars.length) ∧
      (∀ a < r.objs.length, r2.objs[a]? = r.objs[a]?) := by
  have hk := step_kept (op := .packagesMatch v name type) rfl h
  rw [R.step] at h
  replace h := with1_ok h (by simp)
  obtain ⟨w, t, a, n, d, hw, hb, h⟩ := h
  cases t <;> try (cases h; done)
  rename_i k
  cases k <;> try (cases h; done)
  rw [R.step, with1_run (hk.vars _ _ hw) (hk.wraps _ _ _ _ _ hb)]
  dsimp only at h ⊢
  unfold R.packagesMatch at h
  split at h
  · cases h
  · cases h
  rename_i nm ty hn hty
  simp only [bind, Except.bind, pure, Except.pure] at h
  split at h
  · cases h
  rename_i e he
  split at h
  · cases h
  rename_i l hl
  split at h
  · cases h
  rename_i p hp
  split at h
  · cases h
  rename_i xs hx
  cases h
  have he' : asEnt (look (r.plain (.list .packages) (.list .packages xs)).objs) a = .ok e := by
    have := asEnt_append (asEnt_append he [.list .packages xs]) [.wrap (.list .packages) r.objs.length none none]
    exact this
  have hl' : nonNull (e.listOf false) = .ok l := hl
  simp only [he', hl', bind, Except.bind, pure, Except.pure]
  refine ⟨_, rfl, ?_⟩
  have hp' : r.objs[l]? = some (.list p.1 p.2) := by
    unfold asList look at hp
    cases e' : r.objs[l]? with
    | none => rw [e'] at hp; simp [bind, Except.bind] at hp
    | some b => rw [e'] at hp; cases b <;> simp [bind, Except.bind] at hp; cases hp; rfl
  have hlt := (List.getElem?_eq_some_iff.1 hp').1
  have m1 : R.members ((r.plain (.list .packages) (.list .packages xs)).wrapUp (.list (listType .group)) l)
      r.vars.length = xs := by
    simp [R.members, R.plain, R.wrapUp, R.push, R.make, var]
  have m2 : R.members ((r.plain (.list .packages) (.list .packages xs)).wrapUp (.list (listType .group)) l)
      (r.vars.length + 1) = p.2 := by
    simp [R.members, R.plain, R.wrapUp, R.push, R.make, var, List.getElem?_append_left, hlt]
    rw [← List.getElem?_eq_getElem hlt, hp']
  unfold R.packages
  rw [m1, m2]
  have hx2 := matching_append [.list .packages xs, .wrap (.list .packages) r.objs.length none none,
    .wrap (.list (listType .group)) l none none] hx
  have eo : ((r.plain (.list .packages) (.list .packages xs)).wrapUp (.list (listType .group)) l).objs =
      r.objs ++ [.list .packages xs, .wrap (.list .packages) r.objs.length none none,
        .wrap (.list (listType .group)) l none none] := by
    simp [R.plain, R.wrapUp, R.push, R.make]
  rw [eo]
  obtain ⟨g1, g2⟩ := matching_spec nm ty hx2
  refine ⟨g1, ?_, fun a ha => List.getElem?_append_left ha⟩
  unfold PyElem.packagesMatch
  rw [hn, hty, g2]
  rfl

end Comps.PyHeap
