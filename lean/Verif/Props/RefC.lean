import Verif.Lemmas.RefC

/-! # Properties of reference counting: C19, C54 -/

namespace Comps.Props
open RefC

/-- A program used in the examples: a list (0) holding an element (1) the client gave away, and a
second element (2) shared by the list and the client. -/
def demoCalls : List Call :=
  [.create, .create, .appendX 0 1, .create, .append 0 2, .get 0 0, .release 1]

/-- What the demo program leaves. -/
def demoSt : St := ⟨[some ⟨0, [1, 2]⟩, some ⟨0, []⟩, some ⟨1, []⟩], [2, 0], []⟩

theorem demo_runs : Runs St.init demoCalls (.ok demoSt) := by
  refine .step (s' := ⟨[some ⟨0, []⟩], [0], []⟩) (by decide) (by rfl) ?_
  refine .step (s' := ⟨[some ⟨0, []⟩, some ⟨0, []⟩], [1, 0], []⟩) (by decide) (by rfl) ?_
  refine .step (s' := ⟨[some ⟨0, [1]⟩, some ⟨0, []⟩], [0], []⟩) (by decide) (by rfl) ?_
  refine .step (s' := ⟨[some ⟨0, [1]⟩, some ⟨0, []⟩, some ⟨0, []⟩], [2, 0], []⟩)
    (by decide) (by rfl) ?_
  refine .step (s' := ⟨[some ⟨0, [1, 2]⟩, some ⟨0, []⟩, some ⟨1, []⟩], [2, 0], []⟩)
    (by decide) (by rfl) ?_
  refine .step (s' := ⟨[some ⟨0, [1, 2]⟩, some ⟨1, []⟩, some ⟨1, []⟩], [1, 2, 0], []⟩)
    (by decide) (by rfl) ?_
  exact .step (s' := demoSt) (by decide) (by rfl) (.done _)

theorem good_of {cs : List Call} {s : St} (h : Runs St.init cs (.ok s)) : Good s := by
  obtain ⟨s', e, g⟩ := runs_ok good_init h
  injection e with e; subst e; exact g

/-- **C19.** A program that only uses references it owns never touches freed memory, whatever the
interleaving of its calls and whatever lists its objects sit in: no call faults.  At every moment
an object is in memory exactly if a reference to it exists (in the hands of the program or inside
an object in memory), its counter is one less than their number, and the destructors that ran are
those of the objects gone, once each. -/
theorem C19_counts (cs : List Call) (r : Res St) (h : Runs St.init cs r) :
    ∃ s, r = .ok s ∧
      (∀ o, s.heap.alive o ↔ 0 < s.refs o) ∧
      (∀ o ob, s.heap[o]? = some (some ob) → ob.rc + 1 = s.refs o) ∧
      s.log.Nodup ∧
      (∀ o, o ∈ s.log ↔ o < s.heap.length ∧ ¬ s.heap.alive o) := by
  obtain ⟨s, rfl, hi, hl⟩ := runs_ok good_init h
  refine ⟨s, rfl, ?_, ?_, hl.1, ?_⟩
  · intro o
    rw [refs_eq]
    constructor
    · rintro ⟨ob, ho⟩
      have := hi.of_live ho; omega
    · intro hp
      obtain ⟨ob, h1, -⟩ := hi.live hp
      exact ⟨ob, h1⟩
  · intro o ob ho
    rw [refs_eq]; exact hi.of_live ho
  · intro o
    rw [hl.2 o]
    constructor
    · intro h0
      refine ⟨?_, ?_⟩
      · rcases Nat.lt_or_ge o s.heap.length with h1 | h1
        · exact h1
        · rw [List.getElem?_eq_none h1] at h0; simp at h0
      · rintro ⟨ob, hb⟩; rw [h0] at hb; simp at hb
    · rintro ⟨h1, h2⟩
      rw [List.getElem?_eq_getElem h1]
      cases hc : s.heap[o] with
      | none => rfl
      | some ob => exact absurd ⟨ob, by rw [List.getElem?_eq_getElem h1, hc]⟩ h2

example : ∃ s, (Except.ok demoSt : Res St) = .ok s ∧ (∀ o, s.heap.alive o ↔ 0 < s.refs o) ∧
    (∀ o ob, s.heap[o]? = some (some ob) → ob.rc + 1 = s.refs o) ∧ s.log.Nodup ∧
    (∀ o, o ∈ s.log ↔ o < s.heap.length ∧ ¬ s.heap.alive o) :=
  C19_counts demoCalls _ demo_runs

/-- **C19**, what a client may still touch: everything reachable from an object it owns. -/
theorem C19_access (cs : List Call) (s : St) (h : Runs St.init cs (.ok s)) (p o : Nat)
    (hp : p ∈ s.hands) (hr : s.heap.Reaches p o) : s.heap.alive o := by
  obtain ⟨hi, -⟩ := good_of h
  obtain ⟨ob, hb, -⟩ := hi.mem hp
  have ha : s.heap.alive p := ⟨ob, hb⟩
  clear hp hb
  induction hr with
  | refl o => exact ha
  | step hq hm rest ih => exact ih (hi.owned_alive hq hm)

example : demoSt.heap.alive 1 :=
  C19_access demoCalls _ demo_runs 0 1 (by decide) (.step (ob := ⟨0, [1, 2]⟩) rfl (by decide) (.refl 1))

/-- Calls that only create, retain and release. -/
def plain : Call → Bool
  | .create => true
  | .retain _ => true
  | .release _ => true
  | _ => false

theorem plain_run {s s' : St} {c : Call} (hc : plain c = true) (he : edges s.heap = [])
    (hg : Good s) (ha : c.allowed s) (hr : c.run s = .ok s') (o : Nat) :
    edges s'.heap = [] ∧
    s'.hands.count o + (if c = .release o then 1 else 0) =
      s.hands.count o + (if c = .retain o then 1 else 0) +
        (if c = .create ∧ o = s.heap.length then 1 else 0) ∧
    s'.heap.length = s.heap.length + (if c = .create then 1 else 0) := by
  have hnil : ∀ (i : Nat) (c : Option Obj), s.heap[i]? = some c → ownedOf c = [] := by
    intro i c hi
    have := List.mem_of_getElem? hi
    rw [edges, List.flatMap_eq_nil_iff] at he
    exact he c this
  cases c with
  | create =>
    simp only [Call.run, RefC.create] at hr
    injection hr with hr; subst hr
    refine ⟨by simp only [edges, List.flatMap_append] at he ⊢; simp [he, ownedOf], ?_, by simp⟩
    simp only [List.count_cons]
    by_cases e : o = s.heap.length
    · subst e; simp
    · have e' : ¬ s.heap.length = o := fun h => e h.symm
      simp [e, e']
  | retain p =>
    obtain ⟨ob, hl, -⟩ := hg.1.mem ha
    simp only [Call.run, incref, load_ok hl, bind, Except.bind] at hr
    injection hr with hr; subst hr
    refine ⟨?_, ?_, by simp⟩
    · rw [List.eq_nil_iff_length_eq_zero]
      have := edges_len_set s.heap p (some ob) (some { ob with rc := ob.rc + 1 }) hl
      simp only [ownedOf, he, List.length_nil] at this
      simp only; omega
    · simp only [List.count_cons, Call.retain.injEq, reduceCtorEq, false_and, if_false]
      by_cases e : p = o <;> simp [e]
  | release p =>
    obtain ⟨ob, hl, -⟩ := hg.1.mem ha
    have hn := hnil p _ hl
    simp only [ownedOf] at hn
    have hc : s.hands.count o = (s.hands.erase p).count o + if p = o then 1 else 0 := by
      rw [(List.perm_cons_erase ha).count_eq o, List.count_cons]; simp
    simp only [Call.run, destroy, he, List.length_nil, destroyAll, load_ok hl, hn,
      List.append_nil, bind, Except.bind] at hr
    by_cases hz : ob.rc = 0
    · simp only [hz, if_true] at hr
      injection hr with hr; subst hr
      refine ⟨?_, ?_, by simp⟩
      · rw [List.eq_nil_iff_length_eq_zero]
        have := edges_len_set s.heap p (some ob) none hl
        simp only [ownedOf, he, List.length_nil] at this
        simp only; omega
      · simp [hc]
    · simp only [hz, if_false] at hr
      injection hr with hr; subst hr
      refine ⟨?_, ?_, by simp⟩
      · rw [List.eq_nil_iff_length_eq_zero]
        have := edges_len_set s.heap p (some ob) (some { ob with rc := ob.rc - 1 }) hl
        simp only [ownedOf, he, hn, List.length_nil] at this
        simp only; omega
      · simp [hc]
  | _ => simp [plain] at hc

theorem plain_runs {s : St} {cs : List Call} {r : Res St} (h : Runs s cs r) (hg : Good s)
    (he : edges s.heap = []) (hp : ∀ c ∈ cs, plain c = true) (s' : St) (hr : r = .ok s') (o : Nat)
    (ho : o < s'.heap.length) :
    s.heap.length ≤ s'.heap.length ∧ edges s'.heap = [] ∧
    s'.hands.count o + cs.count (.release o) =
      s.hands.count o + cs.count (.retain o) + if s.heap.length ≤ o then 1 else 0 := by
  induction h with
  | done s =>
    injection hr with hr; subst hr
    have : ¬ s.heap.length ≤ o := by omega
    refine ⟨by omega, he, by simp [this]⟩
  | fault ha hrun => simp at hr
  | @step s s1 c cs r ha hrun rest ih =>
    obtain ⟨e1, c1, l1⟩ := plain_run (hp c (by simp)) he hg ha hrun o
    have g1 : Good s1 := by
      obtain ⟨s2, e, g⟩ := step_ok hg ha
      rw [hrun] at e; injection e with e; subst e; exact g
    obtain ⟨a, b, d⟩ := ih g1 e1 (fun c hc => hp c (by simp [hc])) hr
    refine ⟨by rw [l1] at a; omega, b, ?_⟩
    simp only [List.count_cons]
    simp only [beq_iff_eq]
    cases c with
    | create =>
      simp only [if_true] at l1
      simp only [reduceCtorEq, if_false, true_and] at c1 ⊢
      rw [l1] at d
      by_cases x : o = s.heap.length
      · have n1 : ¬ s.heap.length + 1 ≤ o := by omega
        have n2 : s.heap.length ≤ o := by omega
        simp only [if_pos x, if_neg n1, if_pos n2] at c1 d ⊢; omega
      · by_cases y : s.heap.length ≤ o
        · have : s.heap.length + 1 ≤ o := by omega
          simp [x, y, this] at c1 d ⊢; omega
        · have : ¬ s.heap.length + 1 ≤ o := by omega
          simp [x, y, this] at c1 d ⊢; omega
    | _ =>
      simp only [reduceCtorEq, if_false, false_and] at l1 c1 ⊢
      rw [l1] at d
      simp only [Nat.add_zero] at *
      omega

/-- **C19**, the count of a single object: in every interleaving of creations, retains and releases
on any number of objects, an object retained `n` times survives its first `n` releases and is
freed, its destructor run, by the next one; no call faults and no further release is possible. -/
theorem C19_releases (cs : List Call) (hp : ∀ c ∈ cs, plain c = true) (r : Res St)
    (h : Runs St.init cs r) :
    ∃ s, r = .ok s ∧ ∀ o, o < s.heap.length →
      cs.count (.release o) ≤ cs.count (.retain o) + 1 ∧
      (s.heap.alive o ↔ cs.count (.release o) ≤ cs.count (.retain o)) ∧
      (s.log.count o = if cs.count (.release o) ≤ cs.count (.retain o) then 0 else 1) := by
  obtain ⟨s, rfl, ha, -, hnd, hlog⟩ := C19_counts cs r h
  refine ⟨s, rfl, fun o ho => ?_⟩
  obtain ⟨-, he, hc⟩ := plain_runs h good_init rfl hp s rfl o ho
  have h0 : s.refs o = s.hands.count o := by rw [refs_eq, ecount, he]; simp
  simp only [St.init, List.count_nil, List.length_nil, Nat.zero_le, if_true] at hc
  have hal : s.heap.alive o ↔ cs.count (.release o) ≤ cs.count (.retain o) := by
    rw [ha o, h0]; omega
  refine ⟨by omega, hal, ?_⟩
  split
  · rename_i hle
    rw [List.count_eq_zero, hlog]
    exact fun hx => hx.2 (hal.2 hle)
  · rename_i hle
    have hm : o ∈ s.log := (hlog o).2 ⟨ho, fun hx => hle (hal.1 hx)⟩
    have h1 := List.count_pos_iff.2 hm
    have h2 : s.log.count o ≤ 1 := List.nodup_iff_count.1 hnd o
    omega

/-- Two objects, one retained twice; releases interleaved; the first object is freed by its second
release, the other one is still alive after two. -/
example : ∃ s, Runs St.init [.create, .create, .retain 1, .retain 0, .release 1, .retain 1,
      .release 0, .release 0, .release 1] (.ok s) ∧ s.log = [0] ∧ s.hands = [1] := by
  refine ⟨⟨[none, some ⟨0, []⟩], [1], [0]⟩, ?_, rfl, rfl⟩
  refine .step (s' := ⟨[some ⟨0, []⟩], [0], []⟩) (by decide) (by rfl) ?_
  refine .step (s' := ⟨[some ⟨0, []⟩, some ⟨0, []⟩], [1, 0], []⟩) (by decide) (by rfl) ?_
  refine .step (s' := ⟨[some ⟨0, []⟩, some ⟨1, []⟩], [1, 1, 0], []⟩) (by decide) (by rfl) ?_
  refine .step (s' := ⟨[some ⟨1, []⟩, some ⟨1, []⟩], [0, 1, 1, 0], []⟩) (by decide) (by rfl) ?_
  refine .step (s' := ⟨[some ⟨1, []⟩, some ⟨0, []⟩], [0, 1, 0], []⟩) (by decide) (by rfl) ?_
  refine .step (s' := ⟨[some ⟨1, []⟩, some ⟨1, []⟩], [1, 0, 1, 0], []⟩) (by decide) (by rfl) ?_
  refine .step (s' := ⟨[some ⟨0, []⟩, some ⟨1, []⟩], [1, 1, 0], []⟩) (by decide) (by rfl) ?_
  refine .step (s' := ⟨[none, some ⟨1, []⟩], [1, 1], [0]⟩) (by decide) (by rfl) ?_
  exact .step (s' := ⟨[none, some ⟨0, []⟩], [1], [0]⟩) (by decide) (by rfl) (.done _)

/-- **C19**, nothing is forgotten: once the client has given up all its references, every object
is freed, provided no object (indirectly) owns itself. -/
theorem C19_no_leak (cs : List Call) (s : St) (h : Runs St.init cs (.ok s)) (hh : s.hands = [])
    (rank : Nat → Nat) (hrank : ∀ p q ob, s.heap[p]? = some (some ob) → q ∈ ob.owned →
      rank q < rank p) :
    ∀ o, o < s.heap.length → ¬ s.heap.alive o ∧ s.log.count o = 1 := by
  obtain ⟨s', e, ha, -, hnd, hlog⟩ := C19_counts cs _ h
  injection e with e; subst e
  have hbound : ∀ n, ∃ B, ∀ o, o < n → rank o < B := by
    intro n
    induction n with
    | zero => exact ⟨0, by omega⟩
    | succ n ih =>
      obtain ⟨B, hB⟩ := ih
      refine ⟨max B (rank n + 1), fun o ho => ?_⟩
      by_cases e : o = n
      · subst e; omega
      · have := hB o (by omega); omega
  obtain ⟨B, hB⟩ := hbound s.heap.length
  have hup : ∀ o, s.heap.alive o → ∃ p, s.heap.alive p ∧ rank o < rank p := by
    intro o ho
    have := (ha o).1 ho
    rw [refs_eq, hh, List.count_nil, Nat.zero_add, ecount, List.count_pos_iff, edges,
      List.mem_flatMap] at this
    obtain ⟨c, hc, hm⟩ := this
    obtain ⟨p, hp⟩ := List.getElem?_of_mem hc
    cases c with
    | none => simp [ownedOf] at hm
    | some ob => exact ⟨p, ⟨ob, hp⟩, hrank p o ob hp hm⟩
  have hnone : ∀ o, ¬ s.heap.alive o := by
    intro o ho
    have hclimb : ∀ k, ∃ p, s.heap.alive p ∧ k ≤ rank p := by
      intro k
      induction k with
      | zero => exact ⟨o, ho, by omega⟩
      | succ k ih =>
        obtain ⟨p, hp, hk⟩ := ih
        obtain ⟨q, hq, hlt⟩ := hup p hp
        exact ⟨q, hq, by omega⟩
    obtain ⟨p, ⟨ob, hp⟩, hk⟩ := hclimb B
    have hlt : p < s.heap.length := by
      rcases Nat.lt_or_ge p s.heap.length with h1 | h1
      · exact h1
      · rw [List.getElem?_eq_none h1] at hp; simp at hp
    have := hB p hlt
    omega
  intro o ho
  refine ⟨hnone o, ?_⟩
  have hm : o ∈ s.log := (hlog o).2 ⟨ho, hnone o⟩
  have h1 := List.count_pos_iff.2 hm
  have h2 : s.log.count o ≤ 1 := List.nodup_iff_count.1 hnd o
  omega

/-- The list of the demo program owns both elements; releasing the shared element and then the
list frees the list, then its elements in order. -/
example : ∃ s, Runs demoSt [.release 2, .release 0] (.ok s) ∧ s.hands = [] ∧ s.log = [0, 1, 2] := by
  refine ⟨⟨[none, none, none], [], [0, 1, 2]⟩, ?_, rfl, rfl⟩
  refine .step (s' := ⟨[some ⟨0, [1, 2]⟩, some ⟨0, []⟩, some ⟨0, []⟩], [0], []⟩)
    (by decide) (by rfl) ?_
  exact .step (s' := ⟨[none, none, none], [], [0, 1, 2]⟩) (by decide) (by rfl) (.done _)

/-- The acyclicity hypothesis of `C19_no_leak` is needed: a list appended to itself is never
freed. -/
theorem C19_cycle_leaks : ∃ s, Runs St.init [.create, .append 0 0, .release 0] (.ok s) ∧
    s.hands = [] ∧ s.heap.alive 0 := by
  refine ⟨⟨[some ⟨0, [0]⟩], [], []⟩, ?_, rfl, ⟨⟨0, [0]⟩, rfl⟩⟩
  refine .step (s' := ⟨[some ⟨0, []⟩], [0], []⟩) (by decide) (by rfl) ?_
  refine .step (s' := ⟨[some ⟨1, [0]⟩], [0], []⟩) (by decide) (by rfl) ?_
  exact .step (s' := ⟨[some ⟨0, [0]⟩], [], []⟩) (by decide) (by rfl) (.done _)

/-! ## C54 -/

/-- **C54 is false of the code**: overwriting an element by itself, borrowed with
`comps_objlist_get_x`, reads freed memory when the list holds the only reference. -/
theorem C54_false : ∃ cs s, Runs St.init cs (.ok s) ∧ 0 ∈ s.hands ∧
    getX s.heap 0 0 = .ok (some 1) ∧ setAt s.heap s.log 0 0 1 = .error .useAfterFree := by
  refine ⟨[.create, .create, .appendX 0 1], ⟨[some ⟨0, [1]⟩, some ⟨0, []⟩], [0], []⟩, ?_,
    by decide, by rfl, by rfl⟩
  refine .step (s' := ⟨[some ⟨0, []⟩], [0], []⟩) (by decide) (by rfl) ?_
  refine .step (s' := ⟨[some ⟨0, []⟩, some ⟨0, []⟩], [1, 0], []⟩) (by decide) (by rfl) ?_
  exact .step (s' := ⟨[some ⟨0, [1]⟩, some ⟨0, []⟩], [0], []⟩) (by decide) (by rfl) (.done _)

theorem shrinks_ecount {h h' : Heap} (hs : Shrinks h h') {o : Nat} (hz : ecount h o = 0) :
    ecount h' o = 0 := by
  rw [ecount, List.count_eq_zero] at *
  intro hm
  rw [edges, List.mem_flatMap] at hm
  obtain ⟨c, hc, hm⟩ := hm
  cases c with
  | none => simp [ownedOf] at hm
  | some ob' =>
    obtain ⟨p, hp⟩ := List.getElem?_of_mem hc
    obtain ⟨ob, hb, e⟩ := hs.2 p ob' hp
    refine hz ?_
    rw [edges, List.mem_flatMap]
    exact ⟨some ob, List.mem_of_getElem? hb, by simp only [ownedOf] at hm ⊢; rw [← e]; exact hm⟩

theorem set_take_drop {α : Type} (l : List α) (i : Nat) (o : α) (hi : i < l.length) :
    (l.eraseIdx i).take i ++ o :: (l.eraseIdx i).drop i = l.set i o := by
  induction l generalizing i with
  | nil => simp at hi
  | cons x xs ih =>
    cases i with
    | zero => simp
    | succ i => simp at hi ⊢; exact ih i hi

theorem set_self {α : Type} {l : List α} {i : Nat} {o : α} (h : l[i]? = some o) : l.set i o = l := by
  induction l generalizing i with
  | nil => rfl
  | cons x xs ih =>
    cases i with
    | zero => simp at h; simp [h]
    | succ i => simp at h ⊢; exact ih h

/-- **C54**, exactly when it fails (partial: the property asks that it never fails): in every
reachable state, overwriting position `i` by the element borrowed from there faults if and only if
the list holds the only reference; otherwise list and element are as before. -/
theorem C54_exact_partial (cs : List Call) (s : St) (h : Runs St.init cs (.ok s)) (l i o : Nat)
    (ob : Obj) (hb : s.heap[l]? = some (some ob)) (ho : ob.owned[i]? = some o) :
    (s.refs o = 1 → setAt s.heap s.log l i o = .error .useAfterFree) ∧
    (1 < s.refs o → ∃ h', setAt s.heap s.log l i o = .ok (h', s.log) ∧ h'.alive o ∧
      ∃ ob', h'[l]? = some (some ob') ∧ ob'.owned = ob.owned ∧ ob'.rc = ob.rc) := by
  obtain ⟨hi, hlog⟩ := good_of h
  have hu := hi.unlink hb ho
  have hlog' := hlog.set_some (ob' := { ob with owned := ob.owned.eraseIdx i }) hb
  have hil : i < ob.owned.length := by
    rcases Nat.lt_or_ge i ob.owned.length with h1 | h1
    · exact h1
    · rw [List.getElem?_eq_none h1] at ho; simp at ho
  constructor
  · intro href
    rw [refs_eq] at href
    obtain ⟨h', log', e, i', l', hs⟩ := destroy_ok _ s.log o s.hands hu hlog'
    have hec : ecount (s.heap.set l (some { ob with owned := ob.owned.eraseIdx i })) o = 0 := by
      have := edges_set s.heap l (some ob) (some { ob with owned := ob.owned.eraseIdx i }) hb o
      have h2 := count_eraseIdx ho o
      simp only [ownedOf] at this
      simp at h2
      omega
    have hcnt : s.hands.count o = 0 := by
      have := edges_set s.heap l (some ob) (some { ob with owned := ob.owned.eraseIdx i }) hb o
      have h2 := count_eraseIdx ho o
      simp only [ownedOf] at this
      simp at h2
      omega
    have hdead : load h' o = .error .useAfterFree := by
      have hz := shrinks_ecount hs hec
      rcases i' o with ⟨ob2, h1, h2⟩ | ⟨h1, -, -⟩
      · omega
      · unfold load
        split
        · rename_i ob2 hx; exact absurd hx (h1 ob2)
        · rfl
    simp only [setAt, load_ok hb, bind, Except.bind, ho, e, incref, hdead]
  · intro href
    rw [refs_eq] at href
    -- the object released is still referenced: only its counter goes down and up again
    have hal := hi.owned_alive hb (List.mem_of_getElem? ho)
    obtain ⟨obo, hoo⟩ := hal
    have hrc := hi.of_live hoo
    let h1 := s.heap.set l (some { ob with owned := ob.owned.eraseIdx i })
    have hl1 : h1[l]? = some (some { ob with owned := ob.owned.eraseIdx i }) := by
      rw [get_set hb, if_pos rfl]
    by_cases elo : l = o
    · subst elo
      rw [hb] at hoo; injection hoo with hoo; injection hoo with hoo; subst hoo
      have hz : ob.rc ≠ 0 := by omega
      let h2 := h1.set l (some { ob with owned := ob.owned.eraseIdx i, rc := ob.rc - 1 })
      have hl2 : h2[l]? = some (some { ob with owned := ob.owned.eraseIdx i, rc := ob.rc - 1 }) := by
        rw [get_set hl1, if_pos rfl]
      have hd : destroy h1 s.log l = .ok (h2, s.log) := by
        simp only [destroy, destroyAll, load_ok hl1, hz, if_false]
        rfl
      let h3 := h2.set l (some { ob with owned := ob.owned.eraseIdx i, rc := ob.rc - 1 + 1 })
      have hl3 : h3[l]? = some (some { ob with owned := ob.owned.eraseIdx i, rc := ob.rc - 1 + 1 }) := by
        rw [get_set hl2, if_pos rfl]
      have hinc : incref h2 l = .ok h3 := by
        simp only [incref, load_ok hl2]; rfl
      refine ⟨h3.set l (some { ob with owned := ob.owned.set i l, rc := ob.rc - 1 + 1 }), ?_,
        ⟨{ ob with owned := ob.owned.set i l, rc := ob.rc - 1 + 1 },
          by rw [get_set hl3, if_pos rfl]⟩,
        { ob with owned := ob.owned.set i l, rc := ob.rc - 1 + 1 },
        by rw [get_set hl3, if_pos rfl], ?_, by simp; omega⟩
      · simp only [setAt, load_ok hb, bind, Except.bind, ho]
        rw [show destroy (s.heap.set l (some { ob with owned := ob.owned.eraseIdx i })) s.log l =
          .ok (h2, s.log) from hd]
        simp only [hinc, load_ok hl3, set_take_drop _ _ _ hil]
      · exact set_self ho
    · have hz : obo.rc ≠ 0 := by omega
      have ho1 : h1[o]? = some (some obo) := by rw [get_set hb, if_neg elo]; exact hoo
      let h2 := h1.set o (some { obo with rc := obo.rc - 1 })
      have ho2 : h2[o]? = some (some { obo with rc := obo.rc - 1 }) := by
        rw [get_set ho1, if_pos rfl]
      have hd : destroy h1 s.log o = .ok (h2, s.log) := by
        simp only [destroy, destroyAll, load_ok ho1, hz, if_false]
        rfl
      let h3 := h2.set o (some { obo with rc := obo.rc - 1 + 1 })
      have ho3 : h3[o]? = some (some { obo with rc := obo.rc - 1 + 1 }) := by
        rw [get_set ho2, if_pos rfl]
      have hinc : incref h2 o = .ok h3 := by
        simp only [incref, load_ok ho2]; rfl
      have elo' : ¬ o = l := fun h => elo h.symm
      have hl3 : h3[l]? = some (some { ob with owned := ob.owned.eraseIdx i }) := by
        rw [get_set ho2, if_neg elo', get_set ho1, if_neg elo']; exact hl1
      refine ⟨h3.set l (some { ob with owned := ob.owned.set i o }), ?_,
        ⟨{ obo with rc := obo.rc - 1 + 1 }, by rw [get_set hl3, if_neg elo]; exact ho3⟩,
        { ob with owned := ob.owned.set i o },
        by rw [get_set hl3, if_pos rfl], ?_, rfl⟩
      · simp only [setAt, load_ok hb, bind, Except.bind, ho]
        rw [show destroy (s.heap.set l (some { ob with owned := ob.owned.eraseIdx i })) s.log o =
          .ok (h2, s.log) from hd]
        simp only [hinc, load_ok hl3, set_take_drop _ _ _ hil]
      · exact set_self ho

/-- In the demo state, element 1 is owned by the list alone and element 2 is shared. -/
example : setAt demoSt.heap demoSt.log 0 0 1 = .error .useAfterFree ∧
    ∃ h', setAt demoSt.heap demoSt.log 0 1 2 = .ok (h', []) :=
  ⟨(C54_exact_partial demoCalls _ demo_runs 0 0 1 ⟨0, [1, 2]⟩ rfl rfl).1 rfl,
   let ⟨h', e, _⟩ := (C54_exact_partial demoCalls _ demo_runs 0 1 2 ⟨0, [1, 2]⟩ rfl rfl).2
     (by decide)
   ⟨h', e⟩⟩

end Comps.Props

section
open Comps.Props
#print axioms C19_counts
#print axioms C19_access
#print axioms C19_releases
#print axioms C19_no_leak
#print axioms C19_cycle_leaks
#print axioms C54_false
#print axioms C54_exact_partial
end
