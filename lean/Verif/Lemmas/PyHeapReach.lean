import Verif.Lemmas.PyHeapAlias

/-! # What stays in memory -/

namespace Comps.PyHeap
open Comps Comps.Obj
open Comps.PyElem (Pkg EKind Attr PkgAttr GidAttr Arg)

variable {lt : UInt8 → UInt8 → Bool} {utf8 : Bytes → Bool}

/-- Objects only refer to objects of lower rank. -/
def rank : Bool × PType → Nat
  | (false, .list .packages) => 1
  | (false, .list .ids) => 1
  | (false, .list _) => 3
  | (false, .entry _) => 2
  | (false, .comps) => 6
  | (false, _) => 0
  | (true, .dict) => 4
  | (true, .comps) => 7
  | (true, _) => 5

theorem rank_le (s : Bool × PType) : rank s ≤ 7 := by
  obtain ⟨b, t⟩ := s
  cases b <;> cases t <;> simp [rank]
  rename_i k; cases k <;> simp

theorem rank_obj (t : PType) : rank (false, t) < rank (true, t) := by
  cases t <;> simp [rank]
  rename_i k; cases k <;> simp

theorem child_rank {sh : Nat → Option (Bool × PType)} {m : Nat} {b : Body} (h : OkBody lt sh m b)
    {c : Nat} (hc : c ∈ b.children) : ∃ s, sh c = some s ∧ rank s < rank (shape b) := by
  cases b with
  | pkg p => simp [Body.children] at hc
  | gid g => simp [Body.children] at hc
  | dict t => simp [Body.children] at hc
  | list k items =>
    refine ⟨_, h.2 c hc, ?_⟩
    cases k <;> simp [LKind.elem, rank, shape]
  | entry k p n d l o =>
    obtain ⟨-, ⟨x, rfl, hx⟩, ⟨y, rfl, hy⟩, ⟨z, rfl, hz⟩, h5, h6⟩ := h
    simp only [Body.children, Option.toList_some, List.mem_append, List.mem_singleton] at hc
    rcases hc with ((rfl | rfl) | rfl) | hc
    · exact ⟨_, hx, by simp [rank, shape]⟩
    · exact ⟨_, hy, by simp [rank, shape]⟩
    · exact ⟨_, hz, by cases k <;> simp [rank, shape, listType]⟩
    · by_cases e : k = .environment
      · obtain ⟨o', eo, ho⟩ := h5 e
        rw [eo] at hc
        simp at hc; subst hc
        exact ⟨_, ho, by simp [rank, shape]⟩
      · rw [h6 e] at hc; simp at hc
  | wrap t a n d =>
    obtain ⟨h1, h2, h3⟩ := h
    simp only [Body.children, List.mem_append, Option.mem_toList, List.mem_singleton] at hc
    rcases hc with (hc | hc) | rfl
    · obtain ⟨hs, k, rfl⟩ := h2 c hc
      exact ⟨_, hs, by simp [rank, shape]⟩
    · obtain ⟨hs, k, rfl⟩ := h3 c hc
      exact ⟨_, hs, by simp [rank, shape]⟩
    · exact ⟨_, h1, rank_obj t⟩
  | doc ls cs =>
    simp only [Body.children, List.mem_append] at hc
    rcases hc with hc | hc <;> obtain ⟨s, hs⟩ := Three.mem_toList hc
    · exact ⟨_, h.2 s c hs, by simp [rank, shape]⟩
    · exact ⟨_, h.1 s c hs, by cases s <;> simp [rank, shape, DSec.kind]⟩

/-- An object in memory is in memory for a reason. -/
theorem Good.why {h : Heap} {e : List Nat} {objs : List Body} (g : Good h e objs) {a : Nat} {c : Cell}
    (hc : h[a]? = some (some c)) : a ∈ e ∨ ∃ (p : Nat) (b : Body), Has h p b ∧ a ∈ b.children := by
  have hcnt := g.inv.of_live (proj_live hc)
  by_cases hm : a ∈ e
  · exact .inl hm
  · have h0 : e.count a = 0 := List.count_eq_zero.2 hm
    have hm2 : a ∈ edges h := by
      rw [← proj_edges, ← List.count_pos_iff]
      have : RefC.ecount (proj h) a = (RefC.edges (proj h)).count a := rfl
      omega
    unfold edges at hm2
    rw [List.mem_flatMap] at hm2
    obtain ⟨x, hx, hax⟩ := hm2
    cases x with
    | none => simp at hax
    | some cell =>
      obtain ⟨p, hp⟩ := List.getElem?_of_mem hx
      exact .inr ⟨p, cell.body, ⟨cell, hp, rfl⟩, hax⟩

theorem reach_of_live {st : St} {r : R} (h : Rel st r) {m : Nat} (ht : Typed lt m r) :
    ∀ (n : Nat) {a : Nat} {c : Cell}, st.heap[a]? = some (some c) → 7 - rank (shape c.body) ≤ n →
      Reach r.objs (roots st.vars ++ r.lost) a := by
  intro n
  induction n with
  | zero =>
    intro a c hc hn
    rcases h.good.why hc with hm | ⟨p, b, hp, hab⟩
    · exact .here hm
    · exfalso
      have hb : r.objs[p]? = some b := by
        obtain ⟨c', h1, h2⟩ := hp
        rw [← h2]; exact h.good.same p c' h1
      obtain ⟨s, hs, hlt⟩ := child_rank (ht.body p b hb) hab
      have : s = shape c.body := by
        have := h.good.same a c hc
        simp [shapeAt, this] at hs; exact hs.symm
      subst this
      have := rank_le (shape b)
      omega
  | succ n ih =>
    intro a c hc hn
    rcases h.good.why hc with hm | ⟨p, b, hp, hab⟩
    · exact .here hm
    · obtain ⟨c', h1, h2⟩ := hp
      have hb : r.objs[p]? = some b := by
        rw [← h2]; exact h.good.same p c' h1
      obtain ⟨s, hs, hlt⟩ := child_rank (ht.body p b hb) hab
      have : s = shape c.body := by
        have := h.good.same a c hc
        simp [shapeAt, this] at hs; exact hs.symm
      subst this
      subst h2
      exact .inside (ih h1 (by have := rank_le (shape c'.body); omega)) hb hab

theorem live_of_reach {st : St} {r : R} (h : Rel st r) {a : Nat}
    (hr : Reach r.objs (roots st.vars ++ r.lost) a) : ∃ b, Has st.heap a b := by
  induction hr with
  | here hm => exact h.good.has hm
  | inside _ hb hc ih =>
    obtain ⟨b', hb'⟩ := ih
    have := h.good.look hb'
    simp [look, hb] at this
    subst this
    exact h.good.child hb' hc

/-- Memory holds what can be got at from the variables and from forgotten references. -/
theorem live_iff {st : St} {r : R} (h : Rel st r) {m : Nat} (ht : Typed lt m r) (a : Nat) :
    (∃ c : Cell, st.heap[a]? = some (some c)) ↔ Reach r.objs (roots st.vars ++ r.lost) a := by
  constructor
  · rintro ⟨c, hc⟩; exact reach_of_live h ht 7 hc (by omega)
  · intro hr
    obtain ⟨b, c, hc, -⟩ := live_of_reach h hr
    exact ⟨c, hc⟩

theorem step_lost {r r' : R} {op : Op} {o : Obs} (hf : op.forgets = false)
    (h : r.step lt utf8 op = .ok (r', o)) : r'.lost = r.lost := by
  by_cases hk : op.keeps = true
  · exact (step_kept hk h).lost hf
  · cases op <;> simp [Op.keeps] at hk
    case del v => rw [R.step] at h; split at h <;> cases h <;> rfl
    case setDict v d w =>
      rw [R.step] at h
      refine with2_inv (P := fun x => x.lost = r.lost) h rfl fun w t a w2 t2 a2 h => ?_
      split at h
      · split at h
        · simp only [bind, Except.bind, pure, Except.pure] at h
          split at h
          · simp at h
          split at h
          · simp at h
          cases h; rfl
        · cases h; rfl
      · cases h; rfl

theorem run_lost : ∀ (ops : List Op) {r r' : R} {os : List Obs}, (∀ op ∈ ops, op.forgets = false) →
    r.run lt utf8 ops = .ok (r', os) → r'.lost = r.lost := by
  intro ops
  induction ops with
  | nil => intro r r' os _ h; cases h; rfl
  | cons op ops ih =>
    intro r r' os hf h
    simp only [R.run, bind, Except.bind, pure, Except.pure] at h
    split at h
    · simp at h
    rename_i v hv
    split at h
    · simp at h
    rename_i v' hv'
    cases h
    rw [ih (fun o ho => hf o (by simp [ho])) hv', step_lost (hf op (by simp)) hv]

/-- Programs: done, or stopped by a call that crashes. -/
theorem run_outcome : ∀ (ops : List Op) {m : Nat} {r : R}, Typed lt m r → m + ops.length ≤ 1000000000 →
    (∃ r' os, r.run lt utf8 ops = .ok (r', os) ∧ Typed lt (m + ops.length) r') ∨
    (∃ pre op post r' os f, ops = pre ++ op :: post ∧ r.run lt utf8 pre = .ok (r', os) ∧
      r'.crash op = some f ∧ r.run lt utf8 ops = .error f) := by
  intro ops
  induction ops with
  | nil => intro m r h _; exact .inl ⟨r, [], rfl, h⟩
  | cons op ops ih =>
    intro m r h hm
    simp only [List.length_cons] at hm
    have ho := step_outcome (utf8 := utf8) h (by omega) op
    cases hc : r.crash op with
    | some f =>
      rw [hc] at ho
      have ho : r.step lt utf8 op = .error f := ho
      exact .inr ⟨[], op, ops, r, [], f, rfl, rfl, hc, by simp [R.run, ho, bind, Except.bind]⟩
    | none =>
      rw [hc] at ho
      obtain ⟨r1, o, h1, ht⟩ := ho
      rcases ih ht (by omega) with ⟨r2, os, h2, ht2⟩ | ⟨pre, op', post, r2, os, f, e, h2, h3, h4⟩
      · refine .inl ⟨r2, o :: os, by simp [R.run, h1, h2, bind, Except.bind, pure, Except.pure], ?_⟩
        simp only [List.length_cons]
        rw [show m + (ops.length + 1) = m + 1 + ops.length by omega]; exact ht2
      · refine .inr ⟨op :: pre, op', post, r2, o :: os, f, by rw [e]; rfl, ?_, h3, ?_⟩
        · simp [R.run, h1, h2, bind, Except.bind, pure, Except.pure]
        · simp [R.run, h1, h4, bind, Except.bind]

theorem start_typed : Typed lt 0 R.start := ⟨by simp [R.start], by simp [R.start, roots]⟩

end Comps.PyHeap
