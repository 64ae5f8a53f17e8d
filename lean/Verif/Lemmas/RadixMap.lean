import Verif.Lemmas.Radix

/-! # The plain dictionary as a map: agreement with the object dictionary, `set_n`, union -/

namespace Comps.Radix
open Comps.Spec Comps.Spec.Plain
open Comps.RTree (AllN findAt_some matchKey_spec TOK WF)
variable {V : Type}

/-! ## Agreement with the object dictionary -/

theorem setLoop_sim {c : Calls V} (hc : c.dtor = true) (lt : UInt8 → UInt8 → Bool) (v : Option V)
    (fuel : Nat) (k : Bytes) (l : HSList (Node V)) :
    ∃ d, setLoop c lt v [] fuel k l = .ok ((RTree.setLoop lt v [] fuel k l).1, d) := by
  induction fuel generalizing k l with
  | zero => exact ⟨[], by simp [setLoop, RTree.setLoop]⟩
  | succ fuel ih =>
    cases k with
    | nil => exact ⟨[], by simp [setLoop, RTree.setLoop]⟩
    | cons b bs =>
      simp only [setLoop, RTree.setLoop, destroyData, hc, if_true, bind, Except.bind, List.append_nil]
      cases hfd : RTree.findAt b l.items with
      | none => cases hls : RTree.lesserAt lt b l.items <;> exact ⟨[], rfl⟩
      | some r =>
        obtain ⟨i, n⟩ := r
        simp only
        cases hmk : RTree.matchKey n.key (b :: bs) with
        | both y => exact ⟨_, rfl⟩
        | keyEnds y => exact ⟨_, rfl⟩
        | differ y => exact ⟨_, rfl⟩
        | nodeEnds y =>
          obtain ⟨d, hd⟩ := ih ((b :: bs).drop y) n.subnodes
          simp only [hd]
          exact ⟨d, rfl⟩

theorem set_sim {c : Calls V} (hc : c.dtor = true) (lt : UInt8 → UInt8 → Bool) (t : RTree V)
    (k : Bytes) (v : Option V) :
    ∃ d, set c lt (.live t.subnodes) k v = .ok (.live (t.set lt k (made c v)).subnodes, d) := by
  obtain ⟨d, hd⟩ := setLoop_sim hc lt (made c v) k.length k t.subnodes
  refine ⟨d, ?_⟩
  simp only [set, setN, Store.list, bind, Except.bind, Nat.lt_irrefl, if_false, List.take_length,
    List.drop_length, made_eq, hd]
  rfl

theorem unsetLoop_sim {c : Calls V} (hc : c.dtor = true) (fuel : Nat) (nested : Bool) (k : Bytes)
    (l : HSList (Node V)) :
    match RTree.unsetLoop fuel nested k l with
    | .error f => unsetLoop c fuel nested k l = .error f
    | .ok none => unsetLoop c fuel nested k l = .ok none
    | .ok (some s) => ∃ d, unsetLoop c fuel nested k l = .ok (some (s, d)) := by
  induction fuel generalizing nested k l with
  | zero => simp [unsetLoop, RTree.unsetLoop]
  | succ fuel ih =>
    cases k with
    | nil => simp [unsetLoop, RTree.unsetLoop]
    | cons b bs =>
      simp only [unsetLoop, RTree.unsetLoop, destroyData, hc, if_true, bind, Except.bind]
      cases hfd : RTree.findAt b l.items with
      | none => rfl
      | some r =>
        obtain ⟨i, n⟩ := r
        simp only
        cases hmk : RTree.matchKey n.key (b :: bs) with
        | keyEnds y => rfl
        | differ y => rfl
        | both y =>
          simp only
          cases n.tail with
          | true =>
            simp only [if_true]
            by_cases hf : (nested && !(l.setAt i (Node.mk n.key none n.sub true)).tailSet) = true
            · simp only [hf, if_true]
            · simp only [hf]
              exact ⟨_, rfl⟩
          | false =>
            simp only [Bool.false_eq_true, if_false]
            by_cases hf : (nested && !(l.removeAt i).tailSet) = true
            · simp only [hf, if_true]
            · simp only [hf]
              exact ⟨_, rfl⟩
        | nodeEnds y =>
          simp only
          have := ih true ((b :: bs).drop y) n.subnodes
          cases hu : RTree.unsetLoop fuel true ((b :: bs).drop y) n.subnodes with
          | error f => simp only [hu] at this ⊢; rw [this]
          | ok o =>
            cases o with
            | none => simp only [hu] at this ⊢; rw [this]
            | some s =>
              simp only [hu] at this ⊢
              obtain ⟨d, hd⟩ := this
              rw [hd]
              exact ⟨d, rfl⟩

theorem unset_sim {c : Calls V} (hc : c.dtor = true) (t : RTree V) (k : Bytes) :
    match t.unset k with
    | .error f => unset c (.live t.subnodes) k = .error f
    | .ok t' => ∃ d, unset c (.live t.subnodes) k = .ok (.live t'.subnodes, d) := by
  have := unsetLoop_sim hc k.length false k t.subnodes
  simp only [RTree.unset, unset, Store.list, bind, Except.bind]
  cases hu : RTree.unsetLoop k.length false k t.subnodes with
  | error f => simp only [hu] at this ⊢; rw [this]
  | ok o =>
    cases o with
    | none => simp only [hu] at this ⊢; rw [this]; exact ⟨[], rfl⟩
    | some s =>
      simp only [hu] at this ⊢
      obtain ⟨d, hd⟩ := this
      rw [hd]
      exact ⟨d, rfl⟩

theorem run_sim {c : Calls V} (hc : c.dtor = true) (lt : UInt8 → UInt8 → Bool) (xs : List (Call V))
    (hx : Whole xs) (t : RTree V) :
    match runObj c lt t xs with
    | .error f => run c lt (.live t.subnodes) xs = .error f
    | .ok t' => ∃ d, run c lt (.live t.subnodes) xs = .ok (.live t'.subnodes, d) := by
  induction xs generalizing t with
  | nil => exact ⟨[], rfl⟩
  | cons x xs ih =>
    have hxs : Whole xs := fun y hy => hx y (by simp [hy])
    obtain ⟨k, ⟨v, rfl⟩ | rfl⟩ := hx x (by simp)
    · obtain ⟨d, hd⟩ := set_sim hc lt t k v
      have := ih hxs (t.set lt k (made c v))
      simp only [runObj, run, call, hd]
      cases hr : runObj c lt (t.set lt k (made c v)) xs with
      | error f => simp only [hr] at this ⊢; rw [this]
      | ok t' =>
        simp only [hr] at this ⊢
        obtain ⟨d', hd'⟩ := this
        rw [hd']
        exact ⟨_, rfl⟩
    · have hu := unset_sim hc t k
      simp only [runObj, run, call]
      cases ht : t.unset k with
      | error f => simp only [ht] at hu ⊢; rw [hu]
      | ok t1 =>
        simp only [ht] at hu ⊢
        obtain ⟨d, hd⟩ := hu
        have := ih hxs t1
        rw [hd]
        cases hr : runObj c lt t1 xs with
        | error f => simp only [hr] at this ⊢; rw [this]
        | ok t' =>
          simp only [hr] at this ⊢
          obtain ⟨d', hd'⟩ := this
          rw [hd']
          exact ⟨_, rfl⟩

theorem runObj_reach {c : Calls V} {lt : UInt8 → UInt8 → Bool} (xs : List (Call V)) (hx : Whole xs)
    {S : List Bytes} {t t' : RTree V} (h : Reach lt S t) (hr : runObj c lt t xs = .ok t') :
    ∃ S', Reach lt S' t' := by
  induction xs generalizing S t with
  | nil => simp only [runObj] at hr; cases hr; exact ⟨S, h⟩
  | cons x xs ih =>
    have hxs : Whole xs := fun y hy => hx y (by simp [hy])
    obtain ⟨k, ⟨v, rfl⟩ | rfl⟩ := hx x (by simp)
    · exact ih hxs (.set k _ h) hr
    · simp only [runObj] at hr
      split at hr
      · cases hr
      · rename_i t1 h1
        exact ih hxs (.unset k h h1) hr

/-! ## Writes: what is destroyed -/

theorem setLoop_destroys (c : Calls V) (lt : UInt8 → UInt8 → Bool) (v : Option V) (rest : Bytes)
    (fuel : Nat) (k : Bytes) (l l' : HSList (Node V)) (d : List (Option V))
    (h : setLoop c lt v rest fuel k l = .ok (l', d)) :
    freed d = (RTree.getLoop fuel k l.items).toList := by
  induction fuel generalizing k l l' d with
  | zero => simp only [setLoop] at h; cases h; rfl
  | succ fuel ih =>
    cases k with
    | nil => simp only [setLoop] at h; cases h; rfl
    | cons b bs =>
      simp only [setLoop] at h
      simp only [RTree.getLoop]
      cases hfd : RTree.findAt b l.items with
      | none =>
        simp only [hfd] at h ⊢
        split at h <;> cases h <;> rfl
      | some r =>
        obtain ⟨i, n⟩ := r
        simp only [hfd] at h ⊢
        cases hmk : RTree.matchKey n.key (b :: bs) with
        | both y =>
          simp only [hmk, destroyData] at h ⊢
          cases hc : c.dtor with
          | false => simp [hc, bind, Except.bind] at h
          | true =>
            simp only [hc, if_true, bind, Except.bind] at h
            cases h
            simp
        | keyEnds y => simp only [hmk] at h ⊢; cases h; rfl
        | differ y => simp only [hmk] at h ⊢; cases h; rfl
        | nodeEnds y =>
          simp only [hmk, bind, Except.bind] at h ⊢
          split at h
          · cases h
          · rename_i x hx
            cases h
            exact ih _ _ _ _ hx

theorem unsetLoop_destroys (c : Calls V) (hc : c.dtor = true) (fuel : Nat) (nested : Bool) (k : Bytes)
    (l l' : HSList (Node V)) (d : List (Option V))
    (h : unsetLoop c fuel nested k l = .ok (some (l', d))) (w : V)
    (hg : RTree.getLoop fuel k l.items = some w) : some w ∈ d := by
  induction fuel generalizing nested k l l' d with
  | zero => simp [unsetLoop] at h
  | succ fuel ih =>
    cases k with
    | nil => simp [unsetLoop] at h
    | cons b bs =>
      simp only [unsetLoop] at h
      simp only [RTree.getLoop] at hg
      cases hfd : RTree.findAt b l.items with
      | none => simp [hfd] at h
      | some r =>
        obtain ⟨i, n⟩ := r
        simp only [hfd] at h hg
        cases hmk : RTree.matchKey n.key (b :: bs) with
        | keyEnds y => simp [hmk] at h
        | differ y => simp [hmk] at h
        | both y =>
          simp only [hmk, destroyData, dropped, hc, if_true, bind, Except.bind] at h hg
          cases hnt : n.tail with
          | true =>
            simp only [hnt, if_true] at h
            split at h
            · cases h
            cases h
            simp [hg]
          | false =>
            simp only [hnt, Bool.false_eq_true, if_false] at h
            split at h
            · cases h
            cases h
            rw [dropNode_eq, hg]
            simp
        | nodeEnds y =>
          simp only [hmk, bind, Except.bind] at h hg
          split at h
          · cases h
          rename_i x hx
          split at h
          · cases h
          rename_i x s
          cases h
          exact ih true _ _ _ _ hx hg

theorem unsetLoop_absent {c : Calls V} (fuel : Nat) (nested : Bool) (k : Bytes) (l : HSList (Node V))
    (h : unsetLoop c fuel nested k l = .ok none) : RTree.getLoop fuel k l.items = none := by
  induction fuel generalizing nested k l with
  | zero => rfl
  | succ fuel ih =>
    cases k with
    | nil => rfl
    | cons b bs =>
      simp only [unsetLoop] at h
      simp only [RTree.getLoop]
      cases hfd : RTree.findAt b l.items with
      | none => rfl
      | some r =>
        obtain ⟨i, n⟩ := r
        simp only [hfd] at h ⊢
        cases hmk : RTree.matchKey n.key (b :: bs) with
        | keyEnds y => rfl
        | differ y => rfl
        | both y =>
          simp only [hmk, bind, Except.bind, destroyData] at h
          cases hnt : n.tail with
          | true =>
            cases hc : c.dtor with
            | true =>
              simp only [hnt, hc, if_true] at h
              split at h <;> cases h
            | false => simp [hnt, hc] at h
          | false =>
            simp only [hnt, Bool.false_eq_true, if_false] at h
            split at h <;> cases h
        | nodeEnds y =>
          simp only [hmk, bind, Except.bind] at h ⊢
          split at h
          · cases h
          rename_i x hx
          split at h
          · exact ih true _ _ hx
          · cases h

/-! ## `set_n` -/

theorem matchFrom_append_node (as bs r : Bytes) (x : Nat) :
    (∀ y, RTree.matchFrom as bs x = .nodeEnds y → RTree.matchFrom as (bs ++ r) x = .nodeEnds y) ∧
    (∀ y, RTree.matchFrom as bs x = .differ y → RTree.matchFrom as (bs ++ r) x = .differ y) := by
  induction as generalizing bs x with
  | nil =>
    cases bs with
    | nil => simp [RTree.matchFrom]
    | cons b bs => simp [RTree.matchFrom]
  | cons a as ih =>
    cases bs with
    | nil => simp [RTree.matchFrom]
    | cons b bs =>
      simp only [RTree.matchFrom, List.cons_append]
      split
      · exact ih bs (x + 1)
      · exact ⟨fun y h => h, fun y h => h⟩

/-- When a node below extends the key, what follows the length does not matter. -/
theorem setLoop_present (c : Calls V) (lt : UInt8 → UInt8 → Bool) (v : Option V) (rest : Bytes)
    (fuel : Nat) (k : Bytes) (l : HSList (Node V)) (fuel' : Nat) (k' : Bytes) (hk : k <+: k') (w : V)
    (hg : RTree.getLoop fuel' k' l.items = some w) :
    setLoop c lt v rest fuel k l = setLoop c lt v [] fuel k l := by
  induction fuel generalizing k l fuel' k' with
  | zero => rfl
  | succ fuel ih =>
    cases k with
    | nil => rfl
    | cons b bs =>
      obtain ⟨r, rfl⟩ := hk
      cases fuel' with
      | zero => simp [RTree.getLoop] at hg
      | succ fuel' =>
        simp only [List.cons_append, RTree.getLoop] at hg
        simp only [setLoop]
        cases hfd : RTree.findAt b l.items with
        | none => simp [hfd] at hg
        | some q =>
          obtain ⟨i, n⟩ := q
          obtain ⟨pr, post, hitems, hi, hh⟩ := findAt_some hfd
          have hm := matchKey_spec bs hh
          have hm' := matchKey_spec (bs ++ r) hh
          simp only [hfd] at hg ⊢
          cases hmk : RTree.matchKey n.key (b :: bs) with
          | both y => rfl
          | keyEnds y => rfl
          | nodeEnds y =>
            simp only [hmk] at hm ⊢
            have e : RTree.matchKey n.key (b :: (bs ++ r)) = .nodeEnds y := by
              simp only [RTree.matchKey, List.drop_succ_cons, List.drop_zero] at hmk ⊢
              exact (matchFrom_append_node _ _ r _).1 _ hmk
            simp only [e] at hg
            rw [ih ((b :: bs).drop y) n.subnodes fuel' ((b :: (bs ++ r)).drop y) ?_ hg]
            obtain ⟨⟨a, as, h1⟩, rfl⟩ := hm
            have h2 : b :: (bs ++ r) = n.key ++ (a :: as ++ r) := by
              rw [← List.cons_append, h1]; simp
            rw [h1, h2]
            simp
          | differ y =>
            have e : RTree.matchKey n.key (b :: (bs ++ r)) = .differ y := by
              simp only [RTree.matchKey, List.drop_succ_cons, List.drop_zero] at hmk ⊢
              exact (matchFrom_append_node _ _ r _).2 _ hmk
            simp [e] at hg

/-- When no node below extends the key, the whole string is stored. -/
theorem setLoop_absent (c : Calls V) (lt : UInt8 → UInt8 → Bool) (v : Option V) (rest : Bytes)
    (fuel fuel' : Nat) (k pre : Bytes) (l : HSList (Node V)) (hk : k ≠ []) (hf : k.length ≤ fuel)
    (hf' : (k ++ rest).length ≤ fuel') (hl : AllN (fun p _ => ¬ (pre ++ k) <+: p) pre l) :
    setLoop c lt v rest fuel k l = setLoop c lt v [] fuel' (k ++ rest) l := by
  induction fuel generalizing k pre l fuel' with
  | zero => simp at hf; exact (hk hf).elim
  | succ fuel ih =>
    cases k with
    | nil => exact (hk rfl).elim
    | cons b bs =>
      cases fuel' with
      | zero => simp at hf'
      | succ fuel' =>
        simp only [List.cons_append, setLoop]
        cases hfd : RTree.findAt b l.items with
        | none => simp
        | some q =>
          obtain ⟨i, n⟩ := q
          obtain ⟨pr, post, hitems, hi, hh⟩ := findAt_some hfd
          have hn : n ∈ l.items := by rw [hitems]; simp
          have hne : n.key ≠ [] := by intro e; rw [e] at hh; cases hh
          have hm := matchKey_spec bs hh
          simp only
          cases hmk : RTree.matchKey n.key (b :: bs) with
          | both y =>
            simp only [hmk] at hm
            exact (hl.top n hn (by rw [hm]; exact List.prefix_refl _)).elim
          | keyEnds y =>
            simp only [hmk] at hm
            obtain ⟨⟨a, as, h1⟩, -⟩ := hm
            exact (hl.top n hn (by rw [h1, ← List.append_assoc]; exact List.prefix_append _ _)).elim
          | nodeEnds y =>
            simp only [hmk] at hm
            have e : RTree.matchKey n.key (b :: (bs ++ rest)) = .nodeEnds y := by
              simp only [RTree.matchKey, List.drop_succ_cons, List.drop_zero] at hmk ⊢
              exact (matchFrom_append_node _ _ rest _).1 _ hmk
            obtain ⟨⟨a, as, h1⟩, rfl⟩ := hm
            simp only [e]
            have h2 : b :: (bs ++ rest) = n.key ++ (a :: as ++ rest) := by
              rw [← List.cons_append, h1]; simp
            have hd1 : (b :: bs).drop n.key.length = a :: as := by rw [h1]; simp
            have hd2 : (b :: (bs ++ rest)).drop n.key.length = a :: as ++ rest := by rw [h2]; simp
            rw [hd1, hd2]
            have hlen := congrArg List.length h1
            have hlen2 := congrArg List.length h2
            have hpos : 0 < n.key.length := List.length_pos_iff.2 hne
            rw [ih fuel' (a :: as) (pre ++ n.key) n.subnodes (by simp) (by simp at *; omega)
              (by simp at *; omega) ?_]
            have := hl.sub n hn
            rw [h1, ← List.append_assoc] at this
            exact this
          | differ y =>
            simp only [hmk] at hm
            have e : RTree.matchKey n.key (b :: (bs ++ rest)) = .differ y := by
              simp only [RTree.matchKey, List.drop_succ_cons, List.drop_zero] at hmk ⊢
              exact (matchFrom_append_node _ _ rest _).2 _ hmk
            obtain ⟨p, a, as, b', bs', h1, h2, h3, rfl⟩ := hm
            simp only [e]
            have hd : (b :: (bs ++ rest)).drop (b :: p).length
                = (b :: bs).drop (b :: p).length ++ rest := by
              rw [← List.cons_append, h2]; simp
            rw [hd]
            simp

/-! ## Union -/

/-- The writes `comps_rtree_unite` makes, each with a clone. -/
def cloneCalls (f : V → V) (ws : List (Bytes × V)) : List (Call V) :=
  ws.map fun w => .set w.1 (some (f w.2))

theorem run_append (c : Calls V) (lt : UInt8 → UInt8 → Bool) (xs ys : List (Call V)) (s : Store V) :
    run c lt s (xs ++ ys) =
      match run c lt s xs with
      | .error f => .error f
      | .ok (s', d) => match run c lt s' ys with
        | .error f => .error f
        | .ok (s'', d') => .ok (s'', d ++ d') := by
  induction xs generalizing s with
  | nil =>
    simp only [List.nil_append, run]
    cases run c lt s ys <;> simp
  | cons x xs ih =>
    simp only [List.cons_append, run]
    cases call c lt s x with
    | error f => rfl
    | ok r =>
      simp only [ih]
      cases run c lt r.1 xs with
      | error f => rfl
      | ok q =>
        simp only
        cases run c lt q.1 ys with
        | error f => rfl
        | ok z => simp

/-- A run with what was destroyed before. -/
def after (d : List (Option V)) (r : Res (Store V × List (Option V))) :
    Res (Store V × List (Option V)) :=
  match r with
  | .error f => .error f
  | .ok (s, d') => .ok (s, d ++ d')

theorem uniteItems_run {c1 c2 : Calls V} {f : V → V} (hf : c2.cloner = some f)
    (lt : UInt8 → UInt8 → Bool) (k : Bytes) (l : List (Node V)) (r : Store V × List (Option V)) :
    uniteItems c1 c2 lt k l r =
      after r.2 (run c1 lt r.1 (cloneCalls f (l.flatMap fun n => RTree.emit (k ++ n.key) n.data))) := by
  induction l generalizing r with
  | nil => simp [uniteItems, cloneCalls, run, after, pure, Except.pure]
  | cons n ns ih =>
    simp only [uniteItems] at ih
    simp only [uniteItems, List.foldlM_cons, List.flatMap_cons, bind, Except.bind]
    cases hd : n.data with
    | none =>
      simp only [uniteData, RTree.emit, List.nil_append]
      exact ih r
    | some v =>
      have e1 : uniteData c1 c2 lt (k ++ n.key) (some v) r =
          match set c1 lt r.1 (k ++ n.key) (some (f v)) with
          | .error g => .error g
          | .ok x => .ok (x.1, r.2 ++ x.2) := by
        simp only [uniteData, hf, bind, Except.bind]
        cases set c1 lt r.1 (k ++ n.key) (some (f v)) <;> rfl
      have e2 : cloneCalls f (RTree.emit (k ++ n.key) (some v) ++
          ns.flatMap fun n => RTree.emit (k ++ n.key) n.data) =
          .set (k ++ n.key) (some (f v)) ::
            cloneCalls f (ns.flatMap fun n => RTree.emit (k ++ n.key) n.data) := by
        simp [cloneCalls, RTree.emit]
      rw [e1, e2]
      simp only [run, call]
      cases hs : set c1 lt r.1 (k ++ n.key) (some (f v)) with
      | error g => rfl
      | ok x =>
        simp only
        rw [ih]
        simp only [after]
        cases run c1 lt x.1 (cloneCalls f (ns.flatMap fun n => RTree.emit (k ++ n.key) n.data)) with
        | error g => rfl
        | ok y => simp

theorem uniteLoop_run {c1 c2 : Calls V} {f : V → V} (hf : c2.cloner = some f)
    (lt : UInt8 → UInt8 → Bool) (fuel : Nat) (q : List (Bytes × List (Node V)))
    (r : Store V × List (Option V)) :
    uniteLoop c1 c2 lt fuel q r = after r.2 (run c1 lt r.1 (cloneCalls f (RTree.uniteCalls fuel q))) := by
  induction fuel generalizing q r with
  | zero => simp [uniteLoop, RTree.uniteCalls, cloneCalls, run, after]
  | succ fuel ih =>
    cases q with
    | nil => simp [uniteLoop, RTree.uniteCalls, cloneCalls, run, after]
    | cons e es =>
      obtain ⟨k, l⟩ := e
      simp only [uniteLoop, RTree.uniteCalls, bind, Except.bind]
      rw [uniteItems_run hf]
      have e : cloneCalls f ((l.flatMap fun n => RTree.emit (k ++ n.key) n.data) ++
          RTree.uniteCalls fuel (es ++ (l.filter fun n => !n.sub.isEmpty).map
            fun n => (k ++ n.key, n.sub))) =
          cloneCalls f (l.flatMap fun n => RTree.emit (k ++ n.key) n.data) ++
          cloneCalls f (RTree.uniteCalls fuel (es ++ (l.filter fun n => !n.sub.isEmpty).map
            fun n => (k ++ n.key, n.sub))) := by simp [cloneCalls]
      rw [e, run_append]
      cases run c1 lt r.1 (cloneCalls f (l.flatMap fun n => RTree.emit (k ++ n.key) n.data)) with
      | error g => rfl
      | ok x =>
        simp only [after]
        rw [ih]
        simp only [after]
        cases run c1 lt x.1 (cloneCalls f (RTree.uniteCalls fuel (es ++
          (l.filter fun n => !n.sub.isEmpty).map fun n => (k ++ n.key, n.sub)))) with
        | error g => rfl
        | ok y => simp

theorem unite_run {c1 c2 : Calls V} {f : V → V} (hf : c2.cloner = some f)
    (lt : UInt8 → UInt8 → Bool) (s : Store V) (t : RTree V) :
    unite c1 c2 lt s (.live t.subnodes) = run c1 lt s (cloneCalls f (RTree.uniteWrites t)) := by
  simp only [unite, Store.list, bind, Except.bind, uniteLoop_run hf, after, RTree.uniteWrites]
  split
  · rename_i h; rw [h]
  · rename_i h; rw [h]; simp

theorem clone_live {c : Calls V} {f : V → V} (hf : c.cloner = some f) (t : RTree V) :
    clone c (.live t.subnodes) = .ok (.live (t.clone f).subnodes) := by
  simp only [clone, Store.list, bind, Except.bind, hf]
  rfl

theorem cloneCalls_whole (f : V → V) (ws : List (Bytes × V)) : Whole (cloneCalls f ws) := by
  intro x hx
  simp only [cloneCalls, List.mem_map] at hx
  obtain ⟨w, -, rfl⟩ := hx
  exact ⟨w.1, .inl ⟨_, rfl⟩⟩

theorem runObj_clone {c : Calls V} (hc : c.ctor = none) (lt : UInt8 → UInt8 → Bool) (f : V → V)
    (ws : List (Bytes × V)) (t : RTree V) :
    runObj c lt t (cloneCalls f ws) =
      .ok (RTree.setAll lt t (ws.map fun w => (w.1, some (f w.2)))) := by
  induction ws generalizing t with
  | nil => rfl
  | cons w ws ih =>
    simp only [cloneCalls, List.map_cons, runObj, made, hc, RTree.setAll, List.foldl_cons]
    simp only [cloneCalls, RTree.setAll] at ih
    exact ih _

end Comps.Radix
