import Verif.Lemmas.PyDictRef

/-!
# Lemmas: programs on string dictionaries
-/

namespace Comps.PyDict
open Comps Comps.RTree Comps.Spec Comps.Spec.PyD

variable {utf8 : Bytes → Bool} {lt : UInt8 → UInt8 → Bool}

theorem run_cons_inv {st st' : St} {op : Op} {ops : List Op} {xs : List Ans}
    (h : run lt utf8 st (op :: ops) = .ok (st', xs)) :
    ∃ st1 x xs', step lt utf8 st op = .ok (st1, x) ∧ run lt utf8 st1 ops = .ok (st', xs') ∧
      xs = x :: xs' := by
  simp only [run, bind, Except.bind] at h
  split at h
  · simp at h
  · rename_i p e1
    split at h
    · simp at h
    · rename_i q e2
      cases h
      exact ⟨_, _, _, e1, e2, rfl⟩

theorem run_cons {st st1 st' : St} {op : Op} {ops : List Op} {x : Ans} {xs : List Ans}
    (h1 : step lt utf8 st op = .ok (st1, x)) (h2 : run lt utf8 st1 ops = .ok (st', xs)) :
    run lt utf8 st (op :: ops) = .ok (st', x :: xs) := by
  simp only [run, h1, h2, bind, Except.bind]
  rfl

theorem run_append_inv {ops ops' : List Op} : ∀ {st st' : St} {xs : List Ans},
    run lt utf8 st (ops ++ ops') = .ok (st', xs) →
    ∃ st1 ys zs, run lt utf8 st ops = .ok (st1, ys) ∧ run lt utf8 st1 ops' = .ok (st', zs) ∧
      xs = ys ++ zs ∧ ys.length = ops.length := by
  induction ops with
  | nil => intro st st' xs h; exact ⟨st, [], xs, rfl, h, rfl, rfl⟩
  | cons op ops ih =>
    intro st st' xs h
    obtain ⟨st1, x, xs', e1, e2, rfl⟩ := run_cons_inv h
    obtain ⟨st2, ys, zs, e3, e4, rfl, hl⟩ := ih e2
    exact ⟨st2, x :: ys, zs, run_cons e1 e3, e4, rfl, by simp [hl]⟩

theorem run_append {ops ops' : List Op} : ∀ {st st1 st' : St} {xs ys : List Ans},
    run lt utf8 st ops = .ok (st1, xs) → run lt utf8 st1 ops' = .ok (st', ys) →
    run lt utf8 st (ops ++ ops') = .ok (st', xs ++ ys) := by
  induction ops with
  | nil => intro st st1 st' xs ys h h'; cases h; exact h'
  | cons op ops ih =>
    intro st st1 st' xs ys h h'
    obtain ⟨st2, x, xs', e1, e2, rfl⟩ := run_cons_inv h
    exact run_cons e1 (ih e2 h')

theorem Mono.trans {a b c : St} (h : Mono a b) (h' : Mono b c) : Mono a c := by
  intro x
  have := h x
  have := h' x
  omega

theorem Exact.trans {a b c : St} (h : Exact a b) (h' : Exact b c) : Exact a c := by
  intro x
  have := h x
  have := h' x
  omega

/-- A permitted program. -/
theorem run_ref (lt : UInt8 → UInt8 → Bool) (h0 : utf8 [] = true) (ops : List Op) :
    ∀ {st : St} {w : World}, Inv utf8 st w.iters → Ref st w → PermittedRun utf8 w ops →
      ∃ st' xs, run lt utf8 st ops = .ok (st', xs) ∧ Inv utf8 st' (w.afterAll ops).iters ∧
        Ref st' (w.afterAll ops) ∧ Answers Answer w ops xs ∧ Answers LenAnswer w ops xs ∧
        ((∀ i k, Op.hasKey i k ∉ ops) → Exact st st') := by
  induction ops with
  | nil => intro st w h r _; exact ⟨st, [], rfl, h, r, trivial, trivial, fun _ _ => rfl⟩
  | cons op ops ih =>
    intro st w h r hp
    obtain ⟨st1, x, e1, g⟩ := step_ref lt h0 h r hp.1
    obtain ⟨st2, xs, e2, i2, r2, a2, l2, x2⟩ := ih g.inv g.ref hp.2
    refine ⟨st2, x :: xs, run_cons e1 e2, i2, r2, ⟨g.ans, a2⟩, ⟨g.lenAns, l2⟩, fun hn => ?_⟩
    refine Exact.trans (g.exact fun i k he => hn i k (by simp [he])) (x2 fun i k hm => hn i k (by simp [hm]))

theorem permitted_append {ops ops' : List Op} : ∀ {w : World},
    PermittedRun utf8 w (ops ++ ops') ↔
      PermittedRun utf8 w ops ∧ PermittedRun utf8 (w.afterAll ops) ops' := by
  induction ops with
  | nil => intro w; simp [PermittedRun, World.afterAll]
  | cons op ops ih => intro w; simp only [List.cons_append, PermittedRun, World.afterAll, ih, and_assoc]

/-! ### Iterators -/

/-- What an iterator has still to give. -/
def Script (utf8 : Bytes → Bool) (st : St) (stale : Bool) (L : List Ans) : Iter → Prop
  | .keys l => L = l.map Ans.text ∧ ∀ k ∈ l, utf8 k = true
  | .values l => stale = false → L = l.map fun a => .text ((valAt st.store a).getD [])
  | .items l => stale = false → L = l.map fun e => .pair e.1 ((valAt st.store e.2).getD [])

theorem step_iters {st st' : St} {op : Op} {x : Ans} (h : step lt utf8 st op = .ok (st', x))
    {j : Nat} (hj : j < st.iters.length) (hn : op ≠ .next j) :
    st'.iters[j]? = st.iters[j]? := by
  have hap : ∀ y : Iter, (st.iters ++ [y])[j]? = st.iters[j]? := fun y =>
    List.getElem?_append_left hj
  cases op with
  | next j' =>
    simp only [step] at h
    split at h
    · cases h; rfl
    · simp only [bind, Except.bind] at h
      split at h
      · simp at h
      · cases h
        simp only
        rw [List.getElem?_set_ne (by rintro rfl; exact hn rfl)]
  | iterKeys i =>
    simp only [step] at h
    split at h <;> (cases h; exact hap _)
  | iterValues i =>
    simp only [step] at h
    split at h <;> (cases h; exact hap _)
  | iterItems i =>
    simp only [step] at h
    split at h <;> (cases h; exact hap _)
  | new => cases h; rfl
  | updateOther i => cases h; rfl
  | cmpOther r i => cases h; rfl
  | len i =>
    simp only [step] at h
    split at h <;> (cases h; rfl)
  | update i j =>
    simp only [step] at h
    split at h
    · simp only [bind, Except.bind] at h
      split at h
      · simp at h
      · cases h; rfl
    · cases h; rfl
  | cmp r i j =>
    simp only [step] at h
    split at h
    · cases r with
      | order => cases h; rfl
      | _ =>
        simp only [bind, Except.bind] at h
        split at h
        · simp at h
        · cases h; rfl
    · cases h; rfl
  | _ =>
    simp only [step] at h
    split at h
    · cases h; rfl
    · simp only [bind, Except.bind] at h
      split at h
      · simp at h
      · cases h; rfl

theorem itersAfter_get (its : List It) (op : Op) {j : Nat} {it : It} (h : its[j]? = some it) :
    ∃ it', (itersAfter its op)[j]? = some it' ∧ it'.dict = it.dict ∧ it'.kind = it.kind ∧
      (it'.stale = false → it.stale = false) := by
  have hlt := (List.getElem?_eq_some_iff.1 h).1
  have ht : ∀ i, ∃ it', (touch i its)[j]? = some it' ∧ it'.dict = it.dict ∧ it'.kind = it.kind ∧
      (it'.stale = false → it.stale = false) := by
    intro i
    refine ⟨if it.dict = i then { it with stale := true } else it, ?_, ?_, ?_, ?_⟩
    · unfold touch
      rw [List.getElem?_map, h]
      rfl
    · split <;> rfl
    · split <;> rfl
    · split
      · simp
      · exact id
  have ha : ∀ y : It, (its ++ [y])[j]? = some it := fun y => by
    rw [List.getElem?_append_left hlt]; exact h
  cases op with
  | set i k v => exact ht i
  | clear i => exact ht i
  | update i k => exact ht i
  | drop i => exact ht i
  | iterKeys i => exact ⟨it, ha _, rfl, rfl, id⟩
  | iterValues i => exact ⟨it, ha _, rfl, rfl, id⟩
  | iterItems i => exact ⟨it, ha _, rfl, rfl, id⟩
  | _ => exact ⟨it, h, rfl, rfl, id⟩

theorem script_keep {st st' : St} {x : Iter} {it it' : It} {L : List Ans}
    (hs : Script utf8 st it.stale L x) (hstale : it'.stale = false → it.stale = false)
    (hl : it'.stale = false → (∀ a, (match x with
      | .keys _ => False
      | .values l => a ∈ l
      | .items l => ∃ k, (k, a) ∈ l) → valAt st'.store a = valAt st.store a)) :
    Script utf8 st' it'.stale L x := by
  cases x with
  | keys l => exact hs
  | values l =>
    intro h
    rw [hs (hstale h)]
    apply List.map_congr_left
    intro a ha
    rw [hl h a ha]
  | items l =>
    intro h
    rw [hs (hstale h)]
    apply List.map_congr_left
    intro e he
    rw [hl h e.2 ⟨e.1, he⟩]

theorem ItOk.lives {st : St} {its : List It} (h : Inv utf8 st its) {x : Iter} {it : It}
    (hi : ItOk st x it) (hs : it.stale = false) : ∀ a, (match x with
      | .keys _ => False
      | .values l => a ∈ l
      | .items l => ∃ k, (k, a) ∈ l) → 0 < holders st.store a := by
  cases x with
  | keys l => intro a ha; exact ha.elim
  | values l =>
    intro a ha
    obtain ⟨t, ht, hl⟩ := hi.2 hs
    exact h.live ht (hl a ha)
  | items l =>
    rintro a ⟨k, ha⟩
    obtain ⟨t, ht, hl⟩ := hi.2 hs
    exact h.live ht (List.mem_map.2 ⟨(k, a), hl _ ha, rfl⟩)

theorem script_next {st : St} {its : List It} (h : Inv utf8 st its) {x : Iter} {it : It}
    {L : List Ans} (hs : Script utf8 st it.stale L x) (hi : ItOk st x it)
    (hc : it.kind = .keys ∨ it.stale = false) :
    ∃ x', iterNext utf8 st.store x = .ok (x', L.head?.getD .stop) ∧
      Script utf8 st it.stale L.tail x' := by
  cases x with
  | keys l =>
    obtain ⟨rfl, hu⟩ := hs
    cases l with
    | nil => exact ⟨_, rfl, rfl, by simp⟩
    | cons k l =>
      refine ⟨.keys l, ?_, rfl, fun k' hk' => hu k' (by simp [hk'])⟩
      simp only [iterNext, textOut, hu k (by simp), if_true]
      rfl
  | values l =>
    have hst : it.stale = false := by
      rcases hc with hc | hc
      · rw [hi.1] at hc; simp at hc
      · exact hc
    have hL := hs hst
    cases l with
    | nil => subst hL; exact ⟨_, rfl, fun _ => rfl⟩
    | cons a l =>
      subst hL
      have hlive := hi.lives h hst a (by simp)
      obtain ⟨o, ho, -, hv⟩ := load_ok hlive
      have htx := h.txt a hlive
      refine ⟨.values l, ?_, fun _ => rfl⟩
      simp only [iterNext, ho, bind, Except.bind, pure, Except.pure, textOut, tostr, hv, htx, if_true]
      rfl
  | items l =>
    have hst : it.stale = false := by
      rcases hc with hc | hc
      · rw [hi.1] at hc; simp at hc
      · exact hc
    have hL := hs hst
    cases l with
    | nil => subst hL; exact ⟨_, rfl, fun _ => rfl⟩
    | cons e l =>
      obtain ⟨k, a⟩ := e
      subst hL
      obtain ⟨t, ht, hl⟩ := hi.2 hst
      obtain ⟨p1, p2, p3⟩ := h.pairs_live ht (k, a) (hl _ (by simp))
      obtain ⟨o, ho, -, hv⟩ := load_ok p2
      simp only at p1 p3 ho hv
      refine ⟨.items l, ?_, fun _ => rfl⟩
      simp only [iterNext, ho, bind, Except.bind, pure, Except.pure, tostr, hv, p1, p3,
        Bool.and_self, if_true]
      rfl

theorem nextAnswers_cons (j : Nat) (op : Op) (ops : List Op) (x : Ans) (xs : List Ans) :
    nextAnswers j (op :: ops) (x :: xs) =
      if op = .next j then x :: nextAnswers j ops xs else nextAnswers j ops xs := by
  unfold nextAnswers
  rw [List.zip_cons_cons, List.filterMap_cons]
  split <;> (rename_i h; split at h <;> simp_all)

/-- An iterator gives what it had to give when it was made, then `StopIteration`. -/
theorem run_script (lt : UInt8 → UInt8 → Bool) (h0 : utf8 [] = true) (ops : List Op) :
    ∀ {st : St} {w : World} {j : Nat} {x : Iter} {it : It} {L : List Ans}, Inv utf8 st w.iters →
      Ref st w → PermittedRun utf8 w ops → st.iters[j]? = some x → w.iters[j]? = some it →
      Script utf8 st it.stale L x → ∀ {st' : St} {xs : List Ans}, run lt utf8 st ops = .ok (st', xs) →
      ∀ (n : Nat) (y : Ans), (nextAnswers j ops xs)[n]? = some y → y = L[n]?.getD Ans.stop := by
  induction ops with
  | nil =>
    intro st w j x it L _ _ _ _ _ _ st' xs e n y hy
    cases e
    simp [nextAnswers] at hy
  | cons op ops ih =>
    intro st w j x it L h r hp hx hit hs st' xs e n y hy
    obtain ⟨st1, z, xs', e1, e2, rfl⟩ := run_cons_inv e
    obtain ⟨st1', z', e1', g⟩ := step_ref lt h0 h r hp.1
    rw [e1] at e1'
    cases e1'
    obtain ⟨it', hit', hd', hk', hst'⟩ := itersAfter_get w.iters op hit
    have hjl := (List.getElem?_eq_some_iff.1 hx).1
    have hok := h.its j x it hx hit
    by_cases hop : op = .next j
    · subst hop
      obtain ⟨x', ex, hs'⟩ := script_next h hs hok (hp.1 it hit)
      simp only [step, hx, ex, bind, Except.bind, pure, Except.pure] at e1
      cases e1
      simp only [itersAfter] at hit'
      rw [hit] at hit'
      cases hit'
      rw [nextAnswers_cons, if_pos rfl] at hy
      have := ih (j := j) (x := x') (it := it) (L := L.tail) g.inv g.ref hp.2
        (by simp only; rw [List.getElem?_set_self hjl]) hit (by
          cases x' with
          | keys l => exact hs'
          | values l => exact hs'
          | items l => exact hs') e2
      cases n with
      | zero =>
        simp at hy
        subst hy
        cases L <;> rfl
      | succ n =>
        simp only [List.getElem?_cons_succ] at hy
        have := this n y hy
        rw [this]
        cases L <;> simp
    · rw [nextAnswers_cons, if_neg hop] at hy
      have hx1 : st1.iters[j]? = some x := by rw [step_iters e1 hjl hop]; exact hx
      refine ih (j := j) (x := x) (it := it') (L := L) g.inv g.ref hp.2 hx1 hit' ?_ e2 n y hy
      refine script_keep hs hst' ?_
      intro hns a ha
      refine g.keeps a (hok.lives h (hst' hns) a ha) ?_
      exact (g.inv.its j x it' hx1 hit').lives g.inv hns a ha

/-! ### Where texts come from -/

/-- The objects of `s'` are objects of `s`. -/
def Old (s s' : Store) : Prop := ∀ (a : Nat) (o' : Str), s'[a]? = some (some o') →
  ∃ o : Str, s[a]? = some (some o) ∧ o'.val = o.val

theorem Old.refl (s : Store) : Old s s := fun _ o h => ⟨o, h, rfl⟩

theorem Old.trans {a b c : Store} (h : Old a b) (h' : Old b c) : Old a c := by
  intro x o hx
  obtain ⟨o1, h1, e1⟩ := h' x o hx
  obtain ⟨o2, h2, e2⟩ := h x o1 h1
  exact ⟨o2, h2, e1.trans e2⟩

theorem load_inv {s : Store} {a : Nat} {o : Str} (h : load s a = .ok o) : s[a]? = some (some o) := by
  unfold load at h
  split at h
  · rename_i o' ho; cases h; exact ho
  · simp at h

theorem old_set {s : Store} {a : Nat} {o : Str} (h : s[a]? = some (some o)) {x : Option Str}
    (hx : ∀ o', x = some o' → o'.val = o.val) : Old s (s.set a x) := by
  intro b o' hb
  by_cases hba : b = a
  · subst hba
    rw [List.getElem?_set_self (List.getElem?_eq_some_iff.1 h).1] at hb
    exact ⟨o, h, hx o' (by simpa using hb)⟩
  · rw [List.getElem?_set_ne (Ne.symm hba)] at hb
    exact ⟨o', hb, rfl⟩

theorem incref_old {s s' : Store} {a : Nat} (h : incref s a = .ok s') : Old s s' := by
  simp only [incref, bind, Except.bind] at h
  split at h
  · simp at h
  · rename_i o ho
    cases h
    exact old_set (load_inv ho) (by rintro _ ⟨⟩; rfl)

theorem destroy_old {s s' : Store} {a : Nat} (h : destroy s a = .ok s') : Old s s' := by
  simp only [destroy, bind, Except.bind] at h
  split at h
  · simp at h
  · rename_i o ho
    split at h
    · cases h; exact old_set (load_inv ho) (by simp)
    · cases h; exact old_set (load_inv ho) (by rintro _ ⟨⟩; rfl)

theorem destroyAll_old (l : List Nat) : ∀ {s s' : Store}, destroyAll s l = .ok s' → Old s s' := by
  induction l with
  | nil => intro s s' h; cases h; exact .refl _
  | cons a l ih =>
    intro s s' h
    simp only [destroyAll, bind, Except.bind] at h
    split at h
    · simp at h
    · rename_i s1 h1; exact (destroy_old h1).trans (ih h)

theorem increfAll_old (l : List Nat) : ∀ {s s' : Store}, increfAll s l = .ok s' → Old s s' := by
  induction l with
  | nil => intro s s' h; cases h; exact .refl _
  | cons a l ih =>
    intro s s' h
    simp only [increfAll, bind, Except.bind] at h
    split at h
    · simp at h
    · rename_i s1 h1; exact (incref_old h1).trans (ih h)

theorem treeSet_old {s : Store} {t : RTree Nat} {k : Bytes} {a : Nat} {r : Store × RTree Nat}
    (h : treeSet lt s t k a = .ok r) : Old s r.1 := by
  unfold treeSet at h
  split at h
  · cases h; exact .refl _
  · simp only [bind, Except.bind] at h
    split at h
    · simp at h
    · rename_i s1 h1; cases h; exact destroy_old h1

theorem uniteSets_old (ws : List (Bytes × Nat)) : ∀ {s : Store} {t : RTree Nat}
    {r : Store × RTree Nat}, uniteSets lt s t ws = .ok r → Old s r.1 := by
  induction ws with
  | nil => intro s t r h; cases h; exact .refl _
  | cons e ws ih =>
    intro s t r h
    obtain ⟨k, a⟩ := e
    simp only [uniteSets, bind, Except.bind] at h
    split at h
    · simp at h
    · rename_i s1 h1
      split at h
      · simp at h
      · rename_i p h2; exact (incref_old h1).trans ((treeSet_old h2).trans (ih h))

theorem setItem_old {s : Store} {t : RTree Nat} {k v : Arg} {r : Store × RTree Nat × Ans}
    (h : setItem lt s t k (some v) = .ok r) : Old s r.1 ∨
      ∃ x, valueIn v = some x ∧ Old (alloc s x).1 r.1 := by
  simp only [setItem] at h
  cases hv : valueIn v with
  | none =>
    rw [hv] at h
    cases hk : keyIn k <;> (rw [hk] at h; cases h; exact .inl (.refl _))
  | some x =>
    right
    refine ⟨x, rfl, ?_⟩
    rw [hv] at h
    cases hk : keyIn k with
    | error e => rw [hk] at h; cases h; exact .refl _
    | ok kb =>
      rw [hk] at h
      simp only [bind, Except.bind] at h
      split at h
      · simp at h
      · rename_i p h2; cases h; exact treeSet_old h2

theorem read_old {s : Store} {a : Nat} {r : Store × Ans}
    (h : (do
      let s ← incref s a
      let o ← load s a
      let s ← destroy s a
      return (s, textOut utf8 (tostr o))) = (Except.ok r : Res (Store × Ans))) : Old s r.1 := by
  simp only [bind, Except.bind] at h
  split at h
  · simp at h
  · rename_i s1 h1
    split at h
    · simp at h
    · split at h
      · simp at h
      · rename_i s2 h2; cases h; exact (incref_old h1).trans (destroy_old h2)

theorem getItem_old {s : Store} {t : RTree Nat} {k : Arg} {r : Store × Ans}
    (h : getItem utf8 s t k = .ok r) : Old s r.1 := by
  unfold getItem at h
  split at h
  · cases h; exact .refl _
  · split at h
    · cases h; exact .refl _
    · exact read_old h

theorem getMethod_old {s : Store} {t : RTree Nat} {k : Arg} {r : Store × Ans}
    (h : getMethod utf8 s t k = .ok r) : Old s r.1 := by
  unfold getMethod at h
  split at h
  · cases h; exact .refl _
  · split at h
    · cases h; exact .refl _
    · exact read_old h

theorem hasKey_old {s : Store} {t : RTree Nat} {k : Arg} {r : Store × Ans}
    (h : hasKey s t k = .ok r) : Old s r.1 := by
  unfold hasKey at h
  split at h
  · cases h; exact .refl _
  · split at h
    · cases h; exact .refl _
    · simp only [bind, Except.bind] at h
      split at h
      · simp at h
      · rename_i s1 h1; cases h; exact incref_old h1

/-- Every object after an operation was there before, or was made by an assignment. -/
theorem step_old {st st' : St} {op : Op} {x : Ans} (h : step lt utf8 st op = .ok (st', x)) :
    Old st.store st'.store ∨ ∃ i k v y, op = .set i k v ∧ valueIn v = some y ∧
      Old (alloc st.store y).1 st'.store := by
  cases op with
  | new => cases h; exact .inl (.refl _)
  | updateOther i => cases h; exact .inl (.refl _)
  | cmpOther r i => cases h; exact .inl (.refl _)
  | set i k v =>
    simp only [step] at h
    split at h
    · cases h; exact .inl (.refl _)
    · simp only [bind, Except.bind] at h
      split at h
      · simp at h
      · rename_i p hp
        cases h
        rcases setItem_old hp with h1 | ⟨y, h1, h2⟩
        · exact .inl h1
        · exact .inr ⟨i, k, v, y, rfl, h1, h2⟩
  | del i k =>
    simp only [step] at h
    split at h
    · cases h; exact .inl (.refl _)
    · simp [setItem, bind, Except.bind] at h
  | getItem i k =>
    simp only [step] at h
    split at h
    · cases h; exact .inl (.refl _)
    · simp only [bind, Except.bind] at h
      split at h
      · simp at h
      · rename_i p hp; cases h; exact .inl (getItem_old hp)
  | get i k =>
    simp only [step] at h
    split at h
    · cases h; exact .inl (.refl _)
    · simp only [bind, Except.bind] at h
      split at h
      · simp at h
      · rename_i p hp; cases h; exact .inl (getMethod_old hp)
  | hasKey i k =>
    simp only [step] at h
    split at h
    · cases h; exact .inl (.refl _)
    · simp only [bind, Except.bind] at h
      split at h
      · simp at h
      · rename_i p hp; cases h; exact .inl (hasKey_old hp)
  | len i =>
    simp only [step] at h
    split at h <;> (cases h; exact .inl (.refl _))
  | clear i =>
    simp only [step] at h
    split at h
    · cases h; exact .inl (.refl _)
    · simp only [bind, Except.bind] at h
      split at h
      · simp at h
      · rename_i p hp; cases h; exact .inl (destroyAll_old _ hp)
  | copy i =>
    simp only [step] at h
    split at h
    · cases h; exact .inl (.refl _)
    · simp only [bind, Except.bind] at h
      split at h
      · simp at h
      · rename_i p hp; cases h; exact .inl (increfAll_old _ hp)
  | update i j =>
    simp only [step] at h
    split at h
    · simp only [bind, Except.bind] at h
      split at h
      · simp at h
      · rename_i p hp; cases h; exact .inl (uniteSets_old _ hp)
    · cases h; exact .inl (.refl _)
  | str i =>
    simp only [step] at h
    split at h
    · cases h; exact .inl (.refl _)
    · simp only [bind, Except.bind] at h
      split at h
      · simp at h
      · cases h; exact .inl (.refl _)
  | cmp r i j =>
    simp only [step] at h
    split at h
    · cases r with
      | order => cases h; exact .inl (.refl _)
      | _ =>
        simp only [bind, Except.bind] at h
        split at h
        · simp at h
        · cases h; exact .inl (.refl _)
    · cases h; exact .inl (.refl _)
  | drop i =>
    simp only [step] at h
    split at h
    · cases h; exact .inl (.refl _)
    · simp only [bind, Except.bind] at h
      split at h
      · simp at h
      · rename_i p hp; cases h; exact .inl (destroyAll_old _ hp)
  | iterKeys i =>
    simp only [step] at h
    split at h <;> (cases h; exact .inl (.refl _))
  | iterValues i =>
    simp only [step] at h
    split at h <;> (cases h; exact .inl (.refl _))
  | iterItems i =>
    simp only [step] at h
    split at h <;> (cases h; exact .inl (.refl _))
  | next j =>
    simp only [step] at h
    split at h
    · cases h; exact .inl (.refl _)
    · simp only [bind, Except.bind] at h
      split at h
      · simp at h
      · cases h; exact .inl (.refl _)

/-- Objects have a text. -/
def Full (s : Store) : Prop := ∀ (a : Nat) (o : Str), s[a]? = some (some o) → o.val ≠ none

theorem Full.old {s s' : Store} (h : Full s) (ho : Old s s') : Full s' := by
  intro a o' ha
  obtain ⟨o, h1, h2⟩ := ho a o' ha
  rw [h2]
  exact h a o h1

theorem run_full (ops : List Op) : ∀ {st st' : St} {xs : List Ans},
    run lt utf8 st ops = .ok (st', xs) → (∀ i k, Op.set i k (.str none) ∉ ops) → Full st.store →
    Full st'.store := by
  induction ops with
  | nil => intro st st' xs h _ hf; cases h; exact hf
  | cons op ops ih =>
    intro st st' xs h hn hf
    obtain ⟨st1, x, xs', e1, e2, rfl⟩ := run_cons_inv h
    refine ih e2 (fun i k hm => hn i k (by simp [hm])) ?_
    rcases step_old e1 with ho | ⟨i, k, v, y, rfl, hv, ho⟩
    · exact hf.old ho
    · refine Full.old ?_ ho
      intro a o ha
      unfold alloc at ha
      rcases Nat.lt_trichotomy a st.store.length with hl | hl | hl
      · rw [List.getElem?_append_left hl] at ha; exact hf a o ha
      · subst hl
        simp at ha
        subst ha
        simp only
        rintro rfl
        cases v with
        | str b =>
          cases b with
          | none => exact hn i k (by simp)
          | some b => simp [valueIn] at hv
        | bytes b => simp [valueIn] at hv
        | none => simp [valueIn] at hv
        | other => simp [valueIn] at hv
      · rw [List.getElem?_eq_none (by simp; omega)] at ha; simp at ha

theorem Full.valAt {s : Store} (h : Full s) {a : Nat} (ha : 0 < holders s a) :
    ∃ v, valAt s a = some v := by
  obtain ⟨o, -, h1, h2⟩ := load_ok ha
  have := h a o h1
  rw [← h2]
  cases hv : o.val with
  | none => exact absurd hv this
  | some v => exact ⟨v, rfl⟩

/-! ### Careful programs -/

theorem run_inv (lt : UInt8 → UInt8 → Bool) (h0 : utf8 [] = true) (ops : List Op) :
    ∀ {st st' : St} {its : List It} {xs : List Ans}, Inv utf8 st its → CarefulRun utf8 its ops →
      run lt utf8 st ops = .ok (st', xs) → Inv utf8 st' (ops.foldl itersAfter its) ∧ Mono st st' := by
  induction ops with
  | nil => intro st st' its xs h _ e; cases e; exact ⟨h, mono_refl st _⟩
  | cons op ops ih =>
    intro st st' its xs h hc e
    obtain ⟨st1, x, xs', e1, e2, rfl⟩ := run_cons_inv e
    obtain ⟨st1', x', e1', i1, m1⟩ := step_safe lt h0 h op hc.1
    rw [e1] at e1'
    cases e1'
    obtain ⟨i2, m2⟩ := ih i1 hc.2 e2
    exact ⟨i2, m1.trans m2⟩

theorem careful_append {ops ops' : List Op} : ∀ {its : List It},
    CarefulRun utf8 its (ops ++ ops') ↔
      CarefulRun utf8 its ops ∧ CarefulRun utf8 (ops.foldl itersAfter its) ops' := by
  induction ops with
  | nil => intro its; simp [CarefulRun]
  | cons op ops ih =>
    intro its
    simp only [List.cons_append, CarefulRun, List.foldl_cons, ih, and_assoc]

/-- What `d.get(k)` answers. -/
theorem step_get {st : St} {its : List It} (h : Inv utf8 st its) {i : Nat} {t : RTree Nat}
    (ht : dictAt st i = some t) (key : Arg) :
    (step lt utf8 st (.get i key)).map (·.2) = .ok (match keyIn key with
      | .error e => .exc e
      | .ok k => match t.get k with
        | none => .none
        | some a => .text ((valAt st.store a).getD [])) := by
  obtain ⟨s', x, e, -, -, hx⟩ := getMethod_ok h ht key
  simp only [step, ht, e, bind, Except.bind, pure, Except.pure, Except.map, hx]
  cases keyIn key with
  | error e => rfl
  | ok k => simp only; cases t.get k <;> rfl

theorem has_surplus {st st' : St} {its : List It} (h : Inv utf8 st its) {i : Nat} {k : Arg}
    (e : step lt utf8 st (.hasKey i k) = .ok (st', .bool true)) :
    ∃ a, total st'.dicts a < holders st'.store a := by
  simp only [step] at e
  split at e
  · cases e
  · rename_i t ht
    obtain ⟨s', x, e1, c1, -, hx⟩ := hasKey_ok h ht k
    simp only [e1, bind, Except.bind, pure, Except.pure] at e
    cases e
    cases hk : keyIn k with
    | error e => rw [hk] at hx; simp at hx
    | ok kb =>
      rw [hk] at hx
      simp only at hx
      cases hg : t.get kb with
      | none => rw [hg] at hx; simp at hx
      | some a =>
        refine ⟨a, ?_⟩
        have h1 := c1 a
        have h2 := h.bal a
        rw [hk] at h1
        simp only [hg, one, if_true] at h1
        simp only
        omega

/-! ### Exceptions -/

theorem holders_pos {s : Store} {a : Nat} {o : Str} (h : load s a = .ok o) : 0 < holders s a := by
  have := load_inv h
  simp [holders, this]

/-- Dictionaries are the same and objects alive keep their text. -/
def Calm (st st' : St) : Prop := (∀ i, dictAt st' i = dictAt st i) ∧
  ∀ a, 0 < holders st.store a → 0 < holders st'.store a ∧ valAt st'.store a = valAt st.store a

theorem Calm.refl (st : St) : Calm st st := ⟨fun _ => rfl, fun _ h => ⟨h, rfl⟩⟩

theorem read_calm {s : Store} {a : Nat} {r : Store × Ans}
    (h : (do
      let s ← incref s a
      let o ← load s a
      let s ← destroy s a
      return (s, textOut utf8 (tostr o))) = (Except.ok r : Res (Store × Ans))) :
    ∀ b, 0 < holders s b → 0 < holders r.1 b ∧ valAt r.1 b = valAt s b := by
  simp only [bind, Except.bind] at h
  split at h
  · simp at h
  · rename_i s1 h1
    have hl : 0 < holders s a := by
      simp only [incref, bind, Except.bind] at h1
      split at h1
      · simp at h1
      · rename_i o ho; exact holders_pos ho
    obtain ⟨s1', e1, c1, v1, -⟩ := incref_ok hl
    rw [h1] at e1
    cases e1
    have hl1 : 0 < holders s1 a := by rw [c1]; omega
    obtain ⟨s2', e2, c2, v2, -⟩ := destroy_ok hl1
    split at h
    · simp at h
    · split at h
      · simp at h
      · rename_i s2 h2
        rw [h2] at e2
        cases e2
        cases h
        intro b hb
        have h3 : holders s2' b = holders s b := by
          have := c1 b
          have := c2 b
          omega
        refine ⟨by simp only; omega, ?_⟩
        simp only
        rw [v2 b (by omega), v1]

theorem getItem_calm {s : Store} {t : RTree Nat} {k : Arg} {r : Store × Ans}
    (h : getItem utf8 s t k = .ok r) :
    ∀ b, 0 < holders s b → 0 < holders r.1 b ∧ valAt r.1 b = valAt s b := by
  unfold getItem at h
  split at h
  · cases h; exact fun _ h => ⟨h, rfl⟩
  · split at h
    · cases h; exact fun _ h => ⟨h, rfl⟩
    · exact read_calm h

theorem getMethod_calm {s : Store} {t : RTree Nat} {k : Arg} {r : Store × Ans}
    (h : getMethod utf8 s t k = .ok r) :
    ∀ b, 0 < holders s b → 0 < holders r.1 b ∧ valAt r.1 b = valAt s b := by
  unfold getMethod at h
  split at h
  · cases h; exact fun _ h => ⟨h, rfl⟩
  · split at h
    · cases h; exact fun _ h => ⟨h, rfl⟩
    · exact read_calm h

theorem setItem_calm {s : Store} {t : RTree Nat} {k v : Arg} {r : Store × RTree Nat × Ans}
    {e : Exc} (h : setItem lt s t k (some v) = .ok r) (hx : r.2.2 = .exc e) (he : e ≠ .pending) :
    r.2.1 = t ∧ ∀ b, 0 < holders s b → 0 < holders r.1 b ∧ valAt r.1 b = valAt s b := by
  simp only [setItem] at h
  cases hv : valueIn v with
  | none =>
    rw [hv] at h
    cases hk : keyIn k <;> (rw [hk] at h; cases h; exact ⟨rfl, fun _ h => ⟨h, rfl⟩⟩)
  | some x =>
    rw [hv] at h
    cases hk : keyIn k with
    | error e =>
      rw [hk] at h
      cases h
      refine ⟨rfl, fun b hb => ?_⟩
      have hlt := holders_lt hb
      simp only [alloc]
      unfold holders valAt at *
      rw [List.getElem?_append_left hlt]
      exact ⟨hb, rfl⟩
    | ok kb =>
      rw [hk] at h
      simp only [bind, Except.bind] at h
      split at h
      · simp at h
      · cases h
        simp only at hx
        split at hx
        · cases hx; exact absurd rfl he
        · cases hx

/-- A call that raises an exception, other than one left pending, changes no dictionary. -/
theorem step_calm {st st' : St} {op : Op} {e : Exc} (h : step lt utf8 st op = .ok (st', .exc e))
    (he : e ≠ .pending) : Calm st st' := by
  cases op with
  | new => cases h
  | updateOther i => cases h; exact .refl _
  | cmpOther r i => cases h; exact .refl _
  | set i k v =>
    simp only [step] at h
    split at h
    · cases h; exact .refl _
    · rename_i t ht
      simp only [bind, Except.bind] at h
      split at h
      · simp at h
      · rename_i p hp
        simp only [pure, Except.pure, Except.ok.injEq, Prod.mk.injEq] at h
        obtain ⟨rfl, hx⟩ := h
        obtain ⟨h1, h2⟩ := setItem_calm hp hx he
        refine ⟨fun i' => ?_, h2⟩
        rw [h1]
        unfold dictAt at ht ⊢
        simp only
        by_cases hi : i' = i
        · subst hi
          have hlt : i' < st.dicts.length := by
            rcases Nat.lt_or_ge i' st.dicts.length with hl | hl
            · exact hl
            · rw [List.getElem?_eq_none hl] at ht; simp at ht
          rw [List.getElem?_set_self hlt, ht]
          rfl
        · rw [List.getElem?_set_ne (Ne.symm hi)]
  | del i k =>
    simp only [step] at h
    split at h
    · cases h; exact .refl _
    · simp [setItem, bind, Except.bind] at h
  | getItem i k =>
    simp only [step] at h
    split at h
    · cases h; exact .refl _
    · simp only [bind, Except.bind] at h
      split at h
      · simp at h
      · rename_i p hp
        simp only [pure, Except.pure, Except.ok.injEq, Prod.mk.injEq] at h
        obtain ⟨rfl, -⟩ := h
        exact ⟨fun _ => rfl, getItem_calm hp⟩
  | get i k =>
    simp only [step] at h
    split at h
    · cases h; exact .refl _
    · simp only [bind, Except.bind] at h
      split at h
      · simp at h
      · rename_i p hp
        simp only [pure, Except.pure, Except.ok.injEq, Prod.mk.injEq] at h
        obtain ⟨rfl, -⟩ := h
        exact ⟨fun _ => rfl, getMethod_calm hp⟩
  | hasKey i k =>
    simp only [step] at h
    split at h
    · cases h; exact .refl _
    · simp only [bind, Except.bind] at h
      split at h
      · simp at h
      · rename_i t ht p hp
        simp only [pure, Except.pure, Except.ok.injEq, Prod.mk.injEq] at h
        obtain ⟨rfl, hx⟩ := h
        unfold hasKey at hp
        split at hp
        · cases hp; exact .refl _
        · split at hp
          · cases hp; exact .refl _
          · simp only [bind, Except.bind] at hp
            split at hp
            · simp at hp
            · cases hp; cases hx
  | len i =>
    simp only [step] at h
    split at h
    · cases h; exact .refl _
    · cases h
  | clear i =>
    simp only [step] at h
    split at h
    · cases h; exact .refl _
    · simp only [bind, Except.bind] at h
      split at h
      · simp at h
      · cases h
  | copy i =>
    simp only [step] at h
    split at h
    · cases h
      refine ⟨fun i' => ?_, fun _ h => ⟨h, rfl⟩⟩
      unfold dictAt
      simp only
      rcases Nat.lt_trichotomy i' st.dicts.length with hl | hl | hl
      · rw [List.getElem?_append_left hl]
      · subst hl; simp
      · rw [List.getElem?_eq_none (by simp; omega), List.getElem?_eq_none (by omega)]
    · simp only [bind, Except.bind] at h
      split at h
      · simp at h
      · cases h
  | update i j =>
    simp only [step] at h
    split at h
    · simp only [bind, Except.bind] at h
      split at h
      · simp at h
      · cases h
    · cases h; exact .refl _
  | str i =>
    simp only [step] at h
    split at h
    · cases h; exact .refl _
    · simp only [bind, Except.bind] at h
      split at h
      · simp at h
      · cases h
  | cmp r i j =>
    simp only [step] at h
    split at h
    · cases r with
      | order => cases h; exact .refl _
      | _ =>
        simp only [bind, Except.bind] at h
        split at h
        · simp at h
        · cases h
    · cases h; exact .refl _
  | drop i =>
    simp only [step] at h
    split at h
    · cases h; exact .refl _
    · simp only [bind, Except.bind] at h
      split at h
      · simp at h
      · cases h
  | iterKeys i =>
    simp only [step] at h
    split at h
    · cases h; exact .refl _
    · cases h
  | iterValues i =>
    simp only [step] at h
    split at h
    · cases h; exact .refl _
    · cases h
  | iterItems i =>
    simp only [step] at h
    split at h
    · cases h; exact .refl _
    · cases h
  | next j =>
    simp only [step] at h
    split at h
    · cases h; exact .refl _
    · simp only [bind, Except.bind] at h
      split at h
      · simp at h
      · simp only [pure, Except.pure, Except.ok.injEq, Prod.mk.injEq] at h
        obtain ⟨rfl, -⟩ := h
        exact .refl _

/-- What `d.get(k)` answers, in any state. -/
theorem step_get_any (st : St) (i : Nat) (key : Arg) :
    (step lt utf8 st (.get i key)).map (·.2) = match dictAt st i with
      | none => .ok (.exc .typeError)
      | some t => match keyIn key with
        | .error e => .ok (.exc e)
        | .ok k => match t.get k with
          | none => .ok .none
          | some a => match load st.store a with
            | .error f => .error f
            | .ok o => .ok (textOut utf8 (tostr o)) := by
  simp only [step]
  cases ht : dictAt st i with
  | none => rfl
  | some t =>
    simp only
    unfold getMethod
    cases hk : keyIn key with
    | error e => rfl
    | ok k =>
      simp only
      cases hg : t.get k with
      | none => rfl
      | some a =>
        simp only
        cases hl : load st.store a with
        | error f => simp [incref, hl, bind, Except.bind, Except.map]
        | ok o =>
          have hp := holders_pos hl
          obtain ⟨s1, e1, c1, v1, -⟩ := incref_ok hp
          have hl1 : 0 < holders s1 a := by rw [c1]; omega
          obtain ⟨o1, ho1, -, hv1⟩ := load_ok hl1
          obtain ⟨s2, e2, -, -, -⟩ := destroy_ok hl1
          simp only [e1, ho1, e2, bind, Except.bind, pure, Except.pure, Except.map]
          obtain ⟨o', ho', -, hv'⟩ := load_ok hp
          rw [hl] at ho'
          cases ho'
          rw [tostr, tostr, hv1, v1, hv']

/-! ### Keys hold no NUL -/

/-- A tree whose keys hold no NUL. -/
def PlainT (t : RTree Nat) : Prop := WF t.subnodes ∧ ∀ k ∈ t.keys, 0 ∉ k

theorem plain_set {t : RTree Nat} (h : PlainT t) {k : Bytes} (hk : 0 ∉ k) (a : Nat) :
    PlainT (t.set lt k (some a)) := by
  refine ⟨set_wf lt h.1 _ _, fun k' hk' => ?_⟩
  rcases mem_keys_set lt h.1 hk' with rfl | h'
  · exact hk
  · exact h.2 _ h'

theorem treeSet_plain {s : Store} {t : RTree Nat} (h : PlainT t) {k : Bytes} (hk : 0 ∉ k) {a : Nat}
    {r : Store × RTree Nat} (e : treeSet lt s t k a = .ok r) : PlainT r.2 := by
  unfold treeSet at e
  split at e
  · cases e; exact plain_set h hk a
  · simp only [bind, Except.bind] at e
    split at e
    · simp at e
    · cases e; exact plain_set h hk a

theorem uniteSets_plain (ws : List (Bytes × Nat)) : ∀ {s : Store} {t : RTree Nat}
    {r : Store × RTree Nat}, PlainT t → (∀ e ∈ ws, 0 ∉ e.1) → uniteSets lt s t ws = .ok r →
    PlainT r.2 := by
  induction ws with
  | nil => intro s t r h _ e; cases e; exact h
  | cons w ws ih =>
    intro s t r h hw e
    obtain ⟨k, a⟩ := w
    simp only [uniteSets, bind, Except.bind] at e
    split at e
    · simp at e
    · split at e
      · simp at e
      · rename_i p hp
        exact ih (treeSet_plain h (hw (k, a) (by simp)) hp) (fun w hm => hw w (by simp [hm])) e

theorem keyIn_nul {k : Arg} {kb : Bytes} (h : keyIn k = .ok kb) : 0 ∉ kb := by
  cases k with
  | str b =>
    cases b with
    | none => simp [keyIn] at h
    | some b =>
      simp only [keyIn, Except.ok.injEq] at h
      rw [← h]
      obtain ⟨q, -, h2, -⟩ := cstr_split b
      exact h2
  | bytes b => simp [keyIn] at h
  | none => simp [keyIn] at h
  | other => simp [keyIn] at h

theorem setItem_plain {s : Store} {t : RTree Nat} {k v : Arg} {r : Store × RTree Nat × Ans}
    (hp : PlainT t) (h : setItem lt s t k (some v) = .ok r) : PlainT r.2.1 := by
  simp only [setItem] at h
  cases hv : valueIn v with
  | none =>
    rw [hv] at h
    cases hk : keyIn k <;> (rw [hk] at h; cases h; exact hp)
  | some x =>
    rw [hv] at h
    cases hk : keyIn k with
    | error e => rw [hk] at h; cases h; exact hp
    | ok kb =>
      rw [hk] at h
      simp only [bind, Except.bind] at h
      split at h
      · simp at h
      · rename_i p h2; cases h; exact treeSet_plain hp (keyIn_nul hk) h2

/-- All dictionaries have keys without NUL. -/
def Plain (st : St) : Prop := ∀ i t, dictAt st i = some t → PlainT t

theorem Plain.put {st : St} (h : Plain st) {i : Nat} {t : RTree Nat} (ht : PlainT t) (s : Store)
    (its : List Iter) : Plain ⟨s, st.dicts.set i (some t), its⟩ := by
  intro i' t' h'
  unfold dictAt at h'
  simp only at h'
  by_cases hi : i' = i
  · subst hi
    rcases Nat.lt_or_ge i' st.dicts.length with hl | hl
    · rw [List.getElem?_set_self hl] at h'
      cases h'
      exact ht
    · rw [List.getElem?_eq_none (by simpa using hl)] at h'
      simp at h'
  · rw [List.getElem?_set_ne (Ne.symm hi)] at h'
    exact h i' t' h'

theorem Plain.add {st : St} (h : Plain st) {d : Option (RTree Nat)} (hd : ∀ t, d = some t → PlainT t)
    (s : Store) (its : List Iter) : Plain ⟨s, st.dicts ++ [d], its⟩ := by
  intro i' t' h'
  unfold dictAt at h'
  simp only at h'
  rcases Nat.lt_trichotomy i' st.dicts.length with hl | hl | hl
  · rw [List.getElem?_append_left hl] at h'; exact h i' t' h'
  · subst hl; simp at h'; exact hd t' h'
  · rw [List.getElem?_eq_none (by simp; omega)] at h'; simp at h'

theorem plain_empty (n : Nat) : PlainT ⟨HSList.empty, n⟩ := by
  refine ⟨wf_empty, fun k hk => ?_⟩
  rw [mem_keys wf_empty, get_empty] at hk
  exact absurd rfl hk

theorem step_plain {st st' : St} {op : Op} {x : Ans} (hp : Plain st)
    (h : step lt utf8 st op = .ok (st', x)) : Plain st' := by
  cases op with
  | new => cases h; exact hp.add (by rintro t ⟨⟩; exact plain_empty _) _ _
  | updateOther i => cases h; exact hp
  | cmpOther r i => cases h; exact hp
  | set i k v =>
    simp only [step] at h
    split at h
    · cases h; exact hp
    · rename_i t ht
      simp only [bind, Except.bind] at h
      split at h
      · simp at h
      · rename_i p e
        cases h
        exact hp.put (setItem_plain (hp i t ht) e) _ _
  | del i k =>
    simp only [step] at h
    split at h
    · cases h; exact hp
    · simp [setItem, bind, Except.bind] at h
  | clear i =>
    simp only [step] at h
    split at h
    · cases h; exact hp
    · simp only [bind, Except.bind] at h
      split at h
      · simp at h
      · cases h; exact hp.put (plain_empty _) _ _
  | copy i =>
    simp only [step] at h
    split at h
    · cases h; exact hp.add (by simp) _ _
    · rename_i t ht
      simp only [bind, Except.bind] at h
      split at h
      · simp at h
      · cases h
        refine hp.add ?_ _ _
        rintro t' ⟨⟩
        obtain ⟨h1, h2⟩ := hp i t ht
        obtain ⟨c1, c2, c3⟩ := copy_spec h1
        refine ⟨c1, fun k hk => h2 k ?_⟩
        unfold RTree.keys at hk ⊢
        rwa [c3] at hk
  | update i j =>
    simp only [step] at h
    split at h
    · rename_i t u ht hu
      simp only [bind, Except.bind] at h
      split at h
      · simp at h
      · rename_i p e
        cases h
        refine hp.put ?_ _ _
        rw [update_eq] at e
        obtain ⟨h1, h2⟩ := hp j u hu
        refine uniteSets_plain _ (hp i t ht) (fun w hm => h2 w.1 ?_) e
        rw [mem_keys h1, mem_uniteWrites h1 hm]
        simp
    · cases h; exact hp
  | drop i =>
    simp only [step] at h
    split at h
    · cases h; exact hp
    · simp only [bind, Except.bind] at h
      split at h
      · simp at h
      · cases h
        intro i' t' h'
        unfold dictAt at h'
        simp only at h'
        by_cases hi : i' = i
        · subst hi
          rcases Nat.lt_or_ge i' st.dicts.length with hl | hl
          · rw [List.getElem?_set_self hl] at h'; cases h'
          · rw [List.getElem?_eq_none (by simpa using hl)] at h'; simp at h'
        · rw [List.getElem?_set_ne (Ne.symm hi)] at h'
          exact hp i' t' h'
  | cmp r i j =>
    simp only [step] at h
    split at h
    · cases r with
      | order => cases h; exact hp
      | _ =>
        simp only [bind, Except.bind] at h
        split at h
        · simp at h
        · cases h; exact hp
    · cases h; exact hp
  | len i =>
    simp only [step] at h
    split at h <;> (cases h; exact hp)
  | iterKeys i =>
    simp only [step] at h
    split at h <;> (cases h; exact hp)
  | iterValues i =>
    simp only [step] at h
    split at h <;> (cases h; exact hp)
  | iterItems i =>
    simp only [step] at h
    split at h <;> (cases h; exact hp)
  | _ =>
    simp only [step] at h
    split at h
    · cases h; exact hp
    · simp only [bind, Except.bind] at h
      split at h
      · simp at h
      · cases h; exact hp

theorem run_plain (ops : List Op) : ∀ {st st' : St} {xs : List Ans}, Plain st →
    run lt utf8 st ops = .ok (st', xs) → Plain st' := by
  induction ops with
  | nil => intro st st' xs h e; cases e; exact h
  | cons op ops ih =>
    intro st st' xs h e
    obtain ⟨st1, x, xs', e1, e2, rfl⟩ := run_cons_inv e
    exact ih (step_plain h e1) e2

theorem plain_start : Plain start := by
  intro i t h
  simp [dictAt, start] at h

end Comps.PyDict
