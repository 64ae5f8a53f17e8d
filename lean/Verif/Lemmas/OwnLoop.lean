import Verif.Lemmas.Own

/-! # Lemmas: the second list of a merge with owners -/

namespace Comps.Own
open Comps Comps.Obj Comps.Spec.Own

set_option linter.unusedSectionVars false
set_option linter.unusedSimpArgs false

variable {α κ : Type} [DecidableEq κ]

theorem index_at {l : List Nat} {i d : Nat} (hi : l[i]? = some d)
    (hb : ∀ j, j < i → l[j]? ≠ some d) : index l d = .ofNat i := by
  induction l generalizing i with
  | nil => simp at hi
  | cons r rs ih =>
    cases i with
    | zero =>
      simp at hi
      simp [index, hi]
    | succ i =>
      have h0 : r ≠ d := fun h => hb 0 (by omega) (by simp [h])
      have := ih (i := i) (by simpa using hi) (fun j hj => by simpa using hb (j + 1) (by omega))
      simp only [index, if_neg h0, this]

theorem index_absent {l : List Nat} {d : Nat} (h : d ∉ l) : index l d = .negSucc 0 := by
  induction l with
  | nil => rfl
  | cons r rs ih =>
    simp only [List.mem_cons, not_or] at h
    simp only [index, if_neg (Ne.symm h.1), ih h.2]

theorem count_set_eq {l : List Nat} {i d : Nat} (h : l[i]? = some d) (y q : Nat) :
    (l.set i y).count q + [d].count q = l.count q + [y].count q := by
  induction l generalizing i with
  | nil => simp at h
  | cons r rs ih =>
    cases i with
    | zero =>
      simp at h
      subst h
      rw [List.set_cons_zero, count_cons_eq y rs, count_cons_eq r rs]
      omega
    | succ i =>
      have := ih (i := i) (by simpa using h)
      rw [List.set_cons_succ, count_cons_eq r (rs.set i y), count_cons_eq r rs]
      omega

theorem repeatsIn_snoc (seen ks : List κ) (k : κ) : repeatsIn seen (ks ++ [k]) =
    repeatsIn seen ks + if k ∈ seen ∨ k ∈ ks then 1 else 0 := by
  induction ks generalizing seen with
  | nil => simp [repeatsIn]
  | cons x xs ih =>
    rw [List.cons_append, repeatsIn, ih, repeatsIn]
    have : (k ∈ x :: seen ∨ k ∈ xs) = (k ∈ seen ∨ k ∈ x :: xs) := by
      simp only [List.mem_cons]
      apply propext
      constructor
      · rintro ((h | h) | h) <;> simp [h]
      · rintro (h | h | h) <;> simp [h]
    simp only [this]
    omega

theorem overlayWith_get (key : α → κ) (join : α → List α → α) (b : List α) (seen : List κ) (a : List α)
    (i : Nat) : (overlayWith key join b seen a)[i]? = (a[i]?).map fun x =>
      if key x ∈ seen ∨ (a.map key).idxOf (key x) ≠ i then x
      else join x (b.filter fun y => key y = key x) := by
  induction a generalizing seen i with
  | nil => simp [overlayWith]
  | cons x xs ih =>
    rw [overlayWith]
    cases i with
    | zero => simp
    | succ i =>
      rw [List.getElem?_cons_succ, ih, List.getElem?_cons_succ]
      congr 1
      funext z
      have : (key z ∈ key x :: seen ∨ (xs.map key).idxOf (key z) ≠ i) =
          (key z ∈ seen ∨ ((x :: xs).map key).idxOf (key z) ≠ i + 1) := by
        apply propext
        rw [List.map_cons]
        by_cases h : key x = key z
        · simp [h]
        · rw [idxOf_cons_ne h]
          simp [Ne.symm h]
      simp only [this]

theorem overlayWith_length (key : α → κ) (join : α → List α → α) (b : List α) (seen : List κ)
    (a : List α) : (overlayWith key join b seen a).length = a.length := by
  induction a generalizing seen with
  | nil => rfl
  | cons x xs ih => simp [overlayWith, ih]

theorem withFirst_filter (g : α → α → α) (x : α) (b : List α) (p : α → Bool) :
    withFirst g x (b.filter p) = match b.find? p with | none => x | some y => g x y := by
  rw [← List.head?_filter]
  cases b.filter p <;> rfl

/-- What replaces a copy. -/
def Makes (make : Mem α → Nat → Nat → Res α) (mk : α → α → α) : Prop :=
  ∀ m d p v w, Live m d v → Live m p w → make m d p = .ok (mk v w)

/-- What is added: the object itself (`share`) or a copy. -/
def Extra (extra : Mem α → Nat → Res (Mem α × Nat)) (ex : α → α) (share : Bool) : Prop :=
  ∀ m p w, Live m p w → ∃ m' q, extra m p = .ok (m', q) ∧ m.length ≤ m'.length ∧
    (∀ r, r < m.length → valAt m' r = valAt m r) ∧ (∀ r, own m' r = own m r + [q].count r) ∧
    valAt m' q = some (ex w) ∧ (share = true → q = p) ∧ (share = false → q = m.length)

theorem makes_copy (copy : α → α) : Makes (makeCopy copy) (fun _ w => copy w) := by
  intro m d p v w _ hp
  simp [makeCopy, load_ok hp, bind, Except.bind, pure, Except.pure]

theorem makes_union (mrg : α → α → α) : Makes (makeUnion mrg) mrg := by
  intro m d p v w hd hp
  simp [makeUnion, load_ok hd, load_ok hp, bind, Except.bind, pure, Except.pure]

theorem extra_copy (copy : α → α) : Extra (extraCopy copy) copy false := by
  intro m p w hp
  refine ⟨m ++ [⟨copy w, 1⟩], m.length, ?_, by simp, fun r hr => ?_, fun r => create_own _ _ _, ?_,
    by simp, fun _ => rfl⟩
  · simp [extraCopy, load_ok hp, bind, Except.bind, pure, Except.pure, create]
  · rw [create_val, if_neg (by omega)]
  · rw [create_val, if_pos rfl]

theorem extra_share : Extra (α := α) extraShare id true := by
  intro m p w hp
  obtain ⟨m', h1, h2, h3, h4⟩ := incref_ok hp
  refine ⟨m', p, ?_, by omega, fun r _ => h3 r, h4, by rw [h3]; exact hp.1, fun _ => rfl, by simp⟩
  simp [extraShare, h1, bind, Except.bind, pure, Except.pure]

section
variable {eqf : α → α → Bool} {copy : α → α} {key : α → κ}

/-- The state within the second loop; `done` are the pointers of the second list that were met, `L` the
number of objects lost before. -/
structure Mid (copy : α → α) (key : α → κ) (mk : α → α → α) (ex : α → α) (share : Bool)
    (m : Mem α) (a : List α) (f : Nat → α) (L : Nat) (done : List Nat) (s : S α) (A X lost : List Nat) :
    Prop where
  len : m.length + a.length ≤ s.mem.length
  old : ∀ p, p < m.length → valAt s.mem p = valAt m p
  copies : ∀ i, i < a.length → valAt s.mem (m.length + i) = (a[i]?).map copy
  set : s.set = firsts m.length [] (a.map key)
  ret : s.ret = A ++ X
  lenA : A.length = a.length
  spots : ∀ i x, a[i]? = some x → match
      (if (a.map key).idxOf (key x) = i then done.find? fun p => key (f p) = key x else none) with
    | none => A[i]? = some (m.length + i)
    | some p => ∃ q, A[i]? = some q ∧ m.length + a.length ≤ q ∧ q < s.mem.length ∧
      valAt s.mem q = some (mk (copy x) (f p))
  nodup : A.Nodup
  boundA : ∀ q ∈ A, m.length ≤ q ∧ q < s.mem.length
  boundX : ∀ q ∈ X, (q < m.length ∨ m.length + a.length ≤ q) ∧ q < s.mem.length
  valX : X.map (valAt s.mem) = (done.filter fun p => key (f p) ∉ a.map key).map fun p => some (ex (f p))
  shareX : share = true → X = done.filter fun p => key (f p) ∉ a.map key
  newX : share = false → (A ++ X).Nodup ∧ ∀ q ∈ X, m.length ≤ q
  ledger : ∀ p, own s.mem p = own m p + s.ret.count p + s.set.count p + lost.count p
  lostLen : lost.length = L + repeats ((done.map fun p => key (f p)).filter fun k => k ∈ a.map key)
  lostNodup : lost.Nodup
  lostB : ∀ p ∈ lost, m.length ≤ p ∧ p < s.mem.length

variable {mk : α → α → α} {ex : α → α} {share : Bool} {m : Mem α} {a : List α} {f : Nat → α} {L : Nat}
  {make : Mem α → Nat → Nat → Res α} {extra : Mem α → Nat → Res (Mem α × Nat)}

theorem Mid.live_old {done A X lost : List Nat} {s : S α}
    (h : Mid copy key mk ex share m a f L done s A X lost) {p : Nat} {v : α} (hp : Live m p v) :
    Live s.mem p v := by
  refine ⟨by rw [h.old p hp.lt]; exact hp.1, ?_⟩
  rw [h.ledger]
  have := hp.2
  omega

/-- The copies by their pointers. -/
def copyAt (copy : α → α) (n : Nat) (a : List α) (d : α) (q : Nat) : α := ((a[q - n]?).map copy).getD d

theorem Mid.holds {done A X lost : List Nat} {s : S α}
    (h : Mid copy key mk ex share m a f L done s A X lost) (d : α) :
    Holds s.mem s.set (copyAt copy m.length a d) := by
  intro q hq
  have hq' := hq
  rw [h.set] at hq'
  obtain ⟨h1, h2⟩ := firsts_ge hq'
  rw [List.length_map] at h2
  have hlt : q - m.length < a.length := by omega
  refine ⟨?_, ?_⟩
  · have := h.copies (q - m.length) hlt
    rw [show m.length + (q - m.length) = q by omega] at this
    rw [this, copyAt, List.getElem?_eq_getElem hlt]
    rfl
  · rw [h.ledger]
    have : 0 < s.set.count q := List.count_pos_iff.2 hq
    omega

/-- What the set finds. -/
theorem Mid.find {done A X lost : List Nat} {s : S α} (hk : ByKey eqf key)
    (hc : ∀ v ∈ a, key (copy v) = key v) (h : Mid copy key mk ex share m a f L done s A X lost)
    {p : Nat} {w : α} (hp : Live s.mem p w) : dataAt eqf s.mem s.set p = .ok
      (if key w ∈ a.map key then some (m.length + (a.map key).idxOf (key w)) else none) := by
  rw [dataAt_ok (h.holds w) hp]
  congr 1
  have hg : ∀ i, i < (a.map key).length →
      (a.map key)[i]? = some ((fun q => key (copyAt copy m.length a w q)) (m.length + i)) := by
    intro i hi
    rw [List.length_map] at hi
    simp only [copyAt, Nat.add_sub_cancel_left, List.getElem?_eq_getElem hi, List.getElem?_map,
      Option.map_some, Option.getD_some]
    rw [hc _ (List.getElem_mem hi)]
  rw [← firsts_find (g := fun q => key (copyAt copy m.length a w q)) hg (key w), h.set]
  congr 1
  funext q
  rw [Bool.eq_iff_iff, hk]
  simp

theorem find_snoc {P : Nat → Bool} {done : List Nat} {p : Nat} : (done ++ [p]).find? P =
    match done.find? P with | some d => some d | none => if P p then some p else none := by
  rw [List.find?_append]
  cases done.find? P <;> simp [List.find?_cons]
  split <;> simp_all

theorem set_append_left {l l' : List Nat} {i : Nat} (h : i < l.length) (x : Nat) :
    (l ++ l').set i x = l.set i x ++ l' := by
  rw [List.set_append, if_pos h]

/-- One object of the second list. -/
theorem Mid.step {done A X lost : List Nat} {s : S α} (hk : ByKey eqf key)
    (hc : ∀ v ∈ a, key (copy v) = key v) (hmk : Makes make mk) (hex : Extra extra ex share)
    (h : Mid copy key mk ex share m a f L done s A X lost)
    {p : Nat} (hp : Live m p (f p)) (ps : List Nat) :
    ∃ s' A' X' lost', secondLoop eqf make extra (p :: ps) s = secondLoop eqf make extra ps s' ∧
      Mid copy key mk ex share m a f L (done ++ [p]) s' A' X' lost' := by
  have hps := h.live_old hp
  have hfind := h.find hk hc hps
  by_cases hmem : key (f p) ∈ a.map key
  · rw [if_pos hmem] at hfind
    generalize hi : (a.map key).idxOf (key (f p)) = i at hfind
    have hilt : i < a.length := by
      have := List.idxOf_lt_length_iff.2 hmem
      rw [hi, List.length_map] at this
      exact this
    obtain ⟨x, hx⟩ : ∃ x, a[i]? = some x := ⟨_, List.getElem?_eq_getElem hilt⟩
    have hkx : key x = key (f p) := by
      have h1 : (a.map key)[i]? = some (key x) := by rw [List.getElem?_map, hx]; rfl
      have h2 : i < (a.map key).length := by simpa using hilt
      rw [List.getElem?_eq_getElem h2] at h1
      have h3 := List.getElem_idxOf (xs := a.map key) (x := key (f p)) (by rw [hi]; exact h2)
      simp only [hi] at h3
      rw [h3] at h1
      simpa using h1.symm
    have hdS : m.length + i ∈ s.set := by
      rw [h.set]
      exact firsts_mem.2 ⟨i, key x, rfl, by rw [List.getElem?_map, hx]; rfl, by simp, by rw [hkx, hi]⟩
    have hdv : valAt s.mem (m.length + i) = some (copy x) := by rw [h.copies i hilt, hx]; rfl
    have hspot := h.spots i x hx
    rw [hkx, if_pos hi] at hspot
    have hshared : (((done ++ [p]).map fun p => key (f p)).filter fun k => decide (k ∈ a.map key)) =
        (((done.map fun p => key (f p)).filter fun k => decide (k ∈ a.map key))) ++ [key (f p)] := by
      rw [List.map_append, List.filter_append]
      simp [-List.mem_map, hmem]
    have hnew : ((done ++ [p]).filter fun p => decide (key (f p) ∉ a.map key)) =
        done.filter fun p => decide (key (f p) ∉ a.map key) := by
      rw [List.filter_append]
      simp [-List.mem_map, hmem]
    cases hfd : done.find? (fun p' => decide (key (f p') = key (f p))) with
    | some p0 =>
      rw [hfd] at hspot
      obtain ⟨q, hq1, hq2, hq3, hq4⟩ := hspot
      have habs : m.length + i ∉ s.ret := by
        rw [h.ret]
        intro hm
        rcases List.mem_append.1 hm with hm | hm
        · obtain ⟨j, hj⟩ := List.getElem?_of_mem hm
          have hjl : j < a.length := by
            have := (List.getElem?_eq_some_iff.1 hj).1
            rw [h.lenA] at this; exact this
          have hsj := h.spots j _ (List.getElem?_eq_getElem hjl)
          split at hsj
          · rw [hj] at hsj
            have : i = j := by
              have := Option.some.inj hsj
              omega
            subst this
            rw [hj] at hq1
            have := Option.some.inj hq1
            omega
          · obtain ⟨q', e1, e2, -, -⟩ := hsj
            rw [hj] at e1
            have := Option.some.inj e1
            omega
        · have := (h.boundX _ hm).1
          omega
      have hidx := index_absent habs
      have hlv : Live s.mem (m.length + i) (copy x) := by
        refine ⟨hdv, ?_⟩
        rw [h.ledger]
        have : 0 < s.set.count (m.length + i) := List.count_pos_iff.2 hdS
        omega
      have hkeep : ∀ r, r < s.mem.length → valAt (s.mem ++ [⟨mk (copy x) (f p), 1⟩]) r = valAt s.mem r :=
        fun r hr => by rw [create_val, if_neg (by omega)]
      refine ⟨⟨s.mem ++ [⟨mk (copy x) (f p), 1⟩], s.ret, s.set⟩, A, X, s.mem.length :: lost, ?_, ?_⟩
      · rw [secondLoop, hfind]
        simp only [bind, Except.bind, pure, Except.pure, takeOut, hidx]
        rw [hmk _ _ _ _ _ hlv hps]
        rfl
      · have hlen := h.len
        refine ⟨by simp; omega, fun r hr => by rw [hkeep r (by omega)]; exact h.old r hr, fun j hj => by
          rw [hkeep _ (by omega)]; exact h.copies j hj, h.set, h.ret, h.lenA, ?_, h.nodup, ?_, ?_, ?_, ?_,
          h.newX, ?_, ?_, ?_, ?_⟩
        · intro j z hz
          have hs := h.spots j z hz
          by_cases hji : (a.map key).idxOf (key z) = j
          · rw [if_pos hji] at hs ⊢
            rw [find_snoc]
            cases hf : done.find? (fun p => decide (key (f p) = key z)) with
            | some r =>
              rw [hf] at hs
              obtain ⟨q', e1, e2, e3, e4⟩ := hs
              exact ⟨q', e1, e2, by simp; omega, by rw [hkeep q' e3]; exact e4⟩
            | none =>
              rw [hf] at hs
              have hne : ¬ key (f p) = key z := by
                intro e
                rw [← e] at hf
                rw [hf] at hfd
                cases hfd
              simp only [hne, decide_false, Bool.false_eq_true, if_false]
              exact hs
          · rw [if_neg hji] at hs ⊢
            exact hs
        · intro r hr; have := h.boundA r hr; simp; omega
        · intro r hr; have := h.boundX r hr; simp; omega
        · rw [hnew, ← h.valX]
          exact List.map_congr_left fun r hr => hkeep r (h.boundX r hr).2
        · rw [hnew]; exact h.shareX
        · intro r
          have := h.ledger r
          rw [create_own, count_cons_eq s.mem.length lost]
          simp only
          omega
        · rw [hshared, repeats, repeatsIn_snoc, List.length_cons, h.lostLen, repeats]
          have : key (f p) ∈ (done.map fun p => key (f p)).filter fun k => decide (k ∈ a.map key) := by
            refine List.mem_filter.2 ⟨List.mem_map.2 ⟨p0, List.mem_of_find?_eq_some hfd, ?_⟩,
              by simpa using hmem⟩
            have := List.find?_some hfd
            simpa using this
          simp only [this, or_true, if_true]
          omega
        · refine List.nodup_cons.2 ⟨fun hm => ?_, h.lostNodup⟩
          have := h.lostB _ hm
          omega
        · intro r hr
          simp only [List.length_append, List.length_singleton]
          rcases List.mem_cons.1 hr with rfl | hr
          · omega
          · have := h.lostB r hr; omega
    | none =>
      rw [hfd] at hspot
      have hretI : s.ret[i]? = some (m.length + i) := by
        rw [h.ret, List.getElem?_append_left (by rw [h.lenA]; exact hilt)]; exact hspot
      have hidx : index s.ret (m.length + i) = .ofNat i := by
        refine index_at hretI fun j hj => ?_
        rw [h.ret, List.getElem?_append_left (by rw [h.lenA]; omega)]
        intro e
        have hsj := h.spots j _ (List.getElem?_eq_getElem (by omega : j < a.length))
        split at hsj
        · rw [e] at hsj
          have := Option.some.inj hsj
          omega
        · obtain ⟨q', e1, e2, -, -⟩ := hsj
          rw [e] at e1
          have := Option.some.inj e1
          omega
      have hcd : 0 < s.ret.count (m.length + i) := List.count_pos_iff.2 (List.mem_of_getElem? hretI)
      have hcs : 0 < s.set.count (m.length + i) := List.count_pos_iff.2 hdS
      have hlv : Live s.mem (m.length + i) (copy x) := by
        refine ⟨hdv, ?_⟩
        rw [h.ledger]
        omega
      obtain ⟨m1, d1, len1, val1, own1⟩ := destroy_ok hlv
      have hlv1 : Live m1 (m.length + i) (copy x) := by
        refine ⟨by rw [val1]; exact hdv, ?_⟩
        have e1 := own1 (m.length + i)
        have e2 := h.ledger (m.length + i)
        have : [m.length + i].count (m.length + i) = 1 := by simp
        omega
      have hp1 : Live m1 p (f p) := by
        refine ⟨by rw [val1]; exact hps.1, ?_⟩
        have e1 := own1 p
        have e2 := h.ledger p
        have e3 := hp.2
        have : [m.length + i].count p = 0 := by
          have := hp.lt
          simp [List.count_cons]
          omega
        omega
      have hilt' : i < s.ret.length := (List.getElem?_eq_some_iff.1 hretI).1
      have hkeep : ∀ r, r < s.mem.length → valAt (m1 ++ [⟨mk (copy x) (f p), 1⟩]) r = valAt s.mem r :=
        fun r hr => by rw [create_val, if_neg (by omega), val1]
      have hlen := h.len
      have hAlt : i < A.length := by rw [h.lenA]; exact hilt
      refine ⟨⟨m1 ++ [⟨mk (copy x) (f p), 1⟩], s.ret.set i m1.length, s.set⟩, A.set i m1.length, X, lost,
        ?_, ?_⟩
      · rw [secondLoop, hfind]
        simp only [bind, Except.bind, pure, Except.pure, takeOut, hidx, d1]
        rw [hmk _ _ _ _ _ hlv1 hp1]
        simp only [create]
        rw [replace_eq _ _ _ hilt']
      · refine ⟨by simp; omega, fun r hr => by rw [hkeep r (by omega)]; exact h.old r hr, fun j hj => by
          rw [hkeep _ (by omega)]; exact h.copies j hj, h.set, ?_, by simp [h.lenA], ?_, ?_, ?_, ?_, ?_, ?_,
          ?_, ?_, ?_, h.lostNodup, ?_⟩
        · simp only [h.ret]
          exact set_append_left hAlt _
        · intro j z hz
          have hs := h.spots j z hz
          rw [List.getElem?_set]
          by_cases hij : i = j
          · subst hij
            rw [hx] at hz
            cases hz
            rw [hkx, if_pos hi, find_snoc, hfd]
            simp only [decide_true, if_true, hAlt]
            exact ⟨m1.length, rfl, by omega, by simp, by rw [create_val, if_pos rfl]⟩
          · rw [if_neg hij]
            by_cases hji : (a.map key).idxOf (key z) = j
            · rw [if_pos hji] at hs ⊢
              have hne : ¬ key (f p) = key z := by
                intro e
                rw [← e, hi] at hji
                exact hij hji
              rw [find_snoc]
              cases hf : done.find? (fun p => decide (key (f p) = key z)) with
              | some r =>
                rw [hf] at hs
                obtain ⟨q', e1, e2, e3, e4⟩ := hs
                exact ⟨q', e1, e2, by simp; omega, by rw [hkeep q' e3]; exact e4⟩
              | none =>
                rw [hf] at hs
                simp only [hne, decide_false, Bool.false_eq_true, if_false]
                exact hs
            · rw [if_neg hji] at hs ⊢
              exact hs
        · rw [List.nodup_iff_count]
          intro r
          have e1 := count_set_eq hspot m1.length r
          have e2 := List.nodup_iff_count.1 h.nodup r
          have e3 : [m1.length].count r = if r = m1.length then 1 else 0 := by
            by_cases e : r = m1.length <;> simp [List.count_cons, e, eq_comm]
          by_cases e : r = m1.length
          · have : A.count r = 0 := List.count_eq_zero.2 fun hm => by
              have := h.boundA r hm
              omega
            rw [if_pos e] at e3
            omega
          · rw [if_neg e] at e3
            omega
        · intro r hr
          simp only [List.length_append, List.length_singleton]
          rcases List.mem_or_eq_of_mem_set hr with hr | rfl
          · have := h.boundA r hr; omega
          · omega
        · intro r hr; have := h.boundX r hr; simp; omega
        · rw [hnew, ← h.valX]
          exact List.map_congr_left fun r hr => hkeep r (h.boundX r hr).2
        · rw [hnew]; exact h.shareX
        · intro e
          refine ⟨?_, (h.newX e).2⟩
          have hA : (A ++ X)[i]? = some (m.length + i) := by rw [← h.ret]; exact hretI
          rw [← set_append_left hAlt, List.nodup_iff_count]
          intro r
          have e1 := count_set_eq hA m1.length r
          have e2 := List.nodup_iff_count.1 (h.newX e).1 r
          have e3 : [m1.length].count r = if r = m1.length then 1 else 0 := by
            by_cases e : r = m1.length <;> simp [List.count_cons, e, eq_comm]
          by_cases e : r = m1.length
          · have : (A ++ X).count r = 0 := List.count_eq_zero.2 fun hm => by
              rcases List.mem_append.1 hm with hm | hm
              · have := h.boundA r hm
                omega
              · have := h.boundX r hm
                omega
            rw [if_pos e] at e3
            omega
          · rw [if_neg e] at e3
            omega
        · intro r
          have e1 := h.ledger r
          have e2 := own1 r
          have e3 := count_set_eq hretI m1.length r
          rw [create_own]
          simp only
          omega
        · rw [hshared, repeats, repeatsIn_snoc, h.lostLen, repeats]
          have : key (f p) ∉ (done.map fun p => key (f p)).filter fun k => decide (k ∈ a.map key) := by
            intro hm
            obtain ⟨p0, e1, e2⟩ := List.mem_map.1 (List.mem_filter.1 hm).1
            exact absurd e2 (by simpa using List.find?_eq_none.1 hfd p0 e1)
          simp only [this, or_false, List.not_mem_nil, if_false]
          omega
        · intro r hr
          have := h.lostB r hr
          simp only [List.length_append, List.length_singleton]
          omega
  · rw [if_neg hmem] at hfind
    obtain ⟨m1, q, x1, x2, x3, x4, x5, x6, x7⟩ := hex _ _ _ hps
    have hshared : (((done ++ [p]).map fun p => key (f p)).filter fun k => decide (k ∈ a.map key)) =
        (((done.map fun p => key (f p)).filter fun k => decide (k ∈ a.map key))) := by
      rw [List.map_append, List.filter_append]
      simp [-List.mem_map, hmem]
    have hnew : ((done ++ [p]).filter fun p => decide (key (f p) ∉ a.map key)) =
        (done.filter fun p => decide (key (f p) ∉ a.map key)) ++ [p] := by
      rw [List.filter_append]
      simp [-List.mem_map, hmem]
    have hlen := h.len
    have hql : q < m1.length := valAt_lt x5
    have hplt := hp.lt
    refine ⟨⟨m1, s.ret ++ [q], s.set⟩, A, X ++ [q], lost, ?_, ?_⟩
    · rw [secondLoop, hfind]
      simp only [bind, Except.bind, pure, Except.pure, x1]
    · refine ⟨by simp only; omega, fun r hr => by rw [x3 r (by omega)]; exact h.old r hr, fun j hj => by
        rw [x3 _ (by omega)]; exact h.copies j hj, h.set, by simp [h.ret], h.lenA, ?_, h.nodup, ?_, ?_, ?_,
        ?_, ?_, ?_, ?_, h.lostNodup, ?_⟩
      · intro j z hz
        have hs := h.spots j z hz
        by_cases hji : (a.map key).idxOf (key z) = j
        · rw [if_pos hji] at hs ⊢
          rw [find_snoc]
          cases hf : done.find? (fun p => decide (key (f p) = key z)) with
          | some r =>
            rw [hf] at hs
            obtain ⟨q', e1, e2, e3, e4⟩ := hs
            exact ⟨q', e1, e2, by simp only; omega, by rw [x3 q' e3]; exact e4⟩
          | none =>
            rw [hf] at hs
            have hne : ¬ key (f p) = key z := by
              intro e
              exact hmem (e ▸ List.mem_map.2 ⟨z, List.mem_of_getElem? hz, rfl⟩)
            simp only [hne, decide_false, Bool.false_eq_true, if_false]
            exact hs
        · rw [if_neg hji] at hs ⊢
          exact hs
      · intro r hr; have := h.boundA r hr; simp only; omega
      · intro r hr
        rcases List.mem_append.1 hr with hr | hr
        · have := h.boundX r hr; simp only; omega
        · simp at hr
          subst hr
          refine ⟨?_, hql⟩
          cases share with
          | true => have := x6 rfl; omega
          | false => have := x7 rfl; omega
      · rw [hnew, List.map_append, List.map_append, ← h.valX]
        congr 1
        · exact List.map_congr_left fun r hr => x3 r (h.boundX r hr).2
        · simp [x5]
      · intro e
        rw [hnew, h.shareX e, x6 e]
      · intro e
        have hq := x7 e
        obtain ⟨n1, n2⟩ := h.newX e
        refine ⟨?_, ?_⟩
        · rw [← List.append_assoc, List.nodup_append]
          refine ⟨n1, by simp, ?_⟩
          intro r hr b hb
          simp at hb
          subst hb
          rcases List.mem_append.1 hr with hr | hr
          · have := h.boundA r hr; omega
          · have := h.boundX r hr; omega
        · intro r hr
          rcases List.mem_append.1 hr with hr | hr
          · exact n2 r hr
          · simp at hr
            omega
      · intro r
        have e1 := h.ledger r
        have e2 := x4 r
        simp only [List.count_append]
        omega
      · rw [hshared]; exact h.lostLen
      · intro r hr
        have := h.lostB r hr
        simp only
        omega

theorem Mid.run {done A X lost : List Nat} {s : S α} (hk : ByKey eqf key)
    (hc : ∀ v ∈ a, key (copy v) = key v) (hmk : Makes make mk) (hex : Extra extra ex share)
    (h : Mid copy key mk ex share m a f L done s A X lost) {l : List Nat}
    (hl : ∀ p ∈ l, Live m p (f p)) :
    ∃ s' A' X' lost', secondLoop eqf make extra l s = .ok s' ∧
      Mid copy key mk ex share m a f L (done ++ l) s' A' X' lost' := by
  induction l generalizing done A X lost s with
  | nil => exact ⟨s, A, X, lost, rfl, by simpa using h⟩
  | cons p ps ih =>
    obtain ⟨s1, A1, X1, lost1, r1, h1⟩ := h.step hk hc hmk hex (hl p (by simp)) ps
    obtain ⟨s2, A2, X2, lost2, r2, h2⟩ := ih h1 fun q hq => hl q (by simp [hq])
    exact ⟨s2, A2, X2, lost2, r1.trans r2, by simpa using h2⟩

end
end Comps.Own
