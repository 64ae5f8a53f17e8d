import Verif.Lemmas.OwnLoop

/-! # Lemmas: whole merges with owners -/

namespace Comps.Own
open Comps Comps.Obj Comps.Spec.Own

set_option linter.unusedSectionVars false
set_option linter.unusedSimpArgs false

variable {α κ : Type} [DecidableEq κ]
variable {eqf : α → α → Bool} {copy : α → α} {key : α → κ} {mk : α → α → α} {ex : α → α} {share : Bool}
  {make : Mem α → Nat → Nat → Res α} {extra : Mem α → Nat → Res (Mem α × Nat)}

/-- A merge that ended in memory `m'` with the list `A ++ X`, having lost the objects `lost`. -/
structure Done (m m' : Mem α) (A X lost : List Nat) (vals : List α) : Prop where
  old : ∀ p, p < m.length → valAt m' p = valAt m p
  vals : (A ++ X).map (valAt m') = vals.map some
  nodup : A.Nodup
  newA : ∀ q ∈ A, m.length ≤ q
  ledger : ∀ p, own m' p = own m p + (A ++ X).count p + lost.count p
  lostNodup : lost.Nodup
  lostB : ∀ p ∈ lost, m.length ≤ p

theorem lives_map {m : Mem α} {f : Nat → α} {l : List Nat} (h : ∀ p ∈ l, Live m p (f p)) :
    Lives m l (l.map f) := by
  refine ⟨by simp, fun i p v h1 h2 => ?_⟩
  rw [List.getElem?_map, h1] at h2
  cases h2
  exact h p (List.mem_of_getElem? h1)

theorem range'_get {n k i : Nat} (h : i < k) : (List.range' n k)[i]? = some (n + i) := by
  rw [List.getElem?_eq_getElem (by simpa using h)]
  simp

/-- After the first list. -/
theorem first_mid (hk : ByKey eqf key) (c : Count) {m : Mem α} {f : Nat → α} {l1 : List Nat}
    (h1 : ∀ p ∈ l1, Live m p (f p)) (hc : ∀ p ∈ l1, key (copy (f p)) = key (f p)) (mk : α → α → α)
    (ex : α → α) (share : Bool) :
    ∃ s lost, firstLoop eqf copy c l1 ⟨m, [], []⟩ = .ok s ∧
      Mid copy key mk ex share m (l1.map f) f
        (if c = .both then repeats ((l1.map f).map key) else 0) [] s (List.range' m.length l1.length) [] lost := by
  obtain ⟨s, lost, r, len, old, new, ret, set, led, ll, ln, lb⟩ := firstLoop_ok (copy := copy) hk c
    (s := ⟨m, [], []⟩) (seen := []) (f := f) (lives_map h1)
    (by
      intro v hv
      obtain ⟨p, hp, rfl⟩ := List.mem_map.1 hv
      exact hc p hp) (by intro q hq; simp at hq) (by simp)
  simp only [List.nil_append] at len old new ret set led lb
  refine ⟨s, lost, r, ?_⟩
  refine ⟨by simp [len], old, fun i hi => new i (by simpa using hi), set, by simp [ret], by simp, ?_,
    List.nodup_range', ?_, by simp, by simp, by simp, ?_, ?_, ?_, ln, lb⟩
  · intro i x hx
    simp only [List.find?_nil, ite_self]
    have := (List.getElem?_eq_some_iff.1 hx).1
    exact range'_get (by simpa using this)
  · intro q hq
    simp at hq
    omega
  · intro _
    simp [List.nodup_range']
  · intro p
    rw [led, ret, set]
  · simp only [ll, List.map_nil, List.filter_nil]
    rfl

theorem spots_vals {m : Mem α} {a : List α} {f : Nat → α} {L : Nat} {l : List Nat} {s : S α}
    {A X lost : List Nat} (hc : ∀ v ∈ a, key (copy v) = key v)
    (h : Mid copy key mk ex share m a f L l s A X lost) :
    A.map (valAt s.mem) = (overlayWith key (withFirst mk) (l.map f) [] (a.map copy)).map some := by
  apply List.ext_getElem?
  intro i
  rw [List.getElem?_map, List.getElem?_map, overlayWith_get, List.getElem?_map]
  cases hx : a[i]? with
  | none =>
    have : A[i]? = none := by
      rw [List.getElem?_eq_none_iff, h.lenA]
      exact List.getElem?_eq_none_iff.1 hx
    simp [this]
  | some x =>
    have hxm := List.mem_of_getElem? hx
    have hkeys : (a.map copy).map key = a.map key := by
      rw [List.map_map]
      exact List.map_congr_left fun v hv => hc v hv
    have hs := h.spots i x hx
    have hcp : valAt s.mem (m.length + i) = some (copy x) := by
      rw [h.copies i (List.getElem?_eq_some_iff.1 hx).1, hx]; rfl
    simp only [Option.map_some, hkeys, hc x hxm, List.not_mem_nil, false_or]
    by_cases hi : (a.map key).idxOf (key x) = i
    · rw [if_pos hi] at hs
      rw [if_neg (by simpa using hi), withFirst_filter, List.find?_map]
      have e : ((fun y => decide (key y = key x)) ∘ f) = fun p => decide (key (f p) = key x) := rfl
      rw [e]
      cases hf : l.find? (fun p => decide (key (f p) = key x)) with
      | none =>
        rw [hf] at hs
        simp only [Option.map_none]
        rw [hs]
        simp [hcp]
      | some p =>
        rw [hf] at hs
        obtain ⟨q, e1, -, -, e4⟩ := hs
        simp [e1, e4]
    · rw [if_neg hi] at hs
      rw [if_pos hi, hs]
      simp [hcp]

/-- A whole merge. -/
theorem whole_ok (hk : ByKey eqf key) (c : Count) (hmk : Makes make mk) (hex : Extra extra ex share)
    {m : Mem α} {f : Nat → α} {l1 l2 : List Nat} (h1 : ∀ p ∈ l1, Live m p (f p))
    (h2 : ∀ p ∈ l2, Live m p (f p)) (hc : ∀ p ∈ l1, key (copy (f p)) = key (f p)) :
    ∃ m' A X lost, (do
        let s ← firstLoop eqf copy c l1 ⟨m, [], []⟩
        let s ← secondLoop eqf make extra l2 s
        return (← destroyAll s.mem s.set, s.ret)) = .ok (m', A ++ X) ∧ A.length = l1.length ∧
      Done m m' A X lost (overlayWith key (withFirst mk) (l2.map f) [] ((l1.map f).map copy) ++
        (newIn key (l1.map f) (l2.map f)).map ex) ∧
      lost.length = (if c = .both then repeats ((l1.map f).map key) else 0) +
        repeats (shared key (l1.map f) (l2.map f)) ∧
      (share = true → X = l2.filter fun p => key (f p) ∉ (l1.map f).map key) ∧
      (share = false → (A ++ X).Nodup ∧ ∀ q ∈ X, m.length ≤ q) := by
  have hc' : ∀ v ∈ l1.map f, key (copy v) = key v := by
    intro v hv
    obtain ⟨p, hp, rfl⟩ := List.mem_map.1 hv
    exact hc p hp
  obtain ⟨s1, lost1, r1, i1⟩ := first_mid hk c h1 hc mk ex share
  obtain ⟨s2, A, X, lost, r2, i2⟩ := i1.run hk hc' hmk hex h2
  obtain ⟨m', r3, len, val, led⟩ := destroyAll_ok (m := s2.mem) (s := s2.set) fun p => by
    rw [i2.ledger]; omega
  rw [List.nil_append] at i2
  refine ⟨m', A, X, lost, ?_, by simpa using i2.lenA, ?_, ?_, i2.shareX, i2.newX⟩
  · rw [r1]
    simp only [bind, Except.bind, r2, r3, pure, Except.pure, i2.ret]
  · refine ⟨fun p hp => by rw [val, i2.old p hp], ?_, i2.nodup, fun q hq => (i2.boundA q hq).1, fun p => ?_,
      i2.lostNodup, fun p hp => (i2.lostB p hp).1⟩
    · have : (A ++ X).map (valAt m') = (A ++ X).map (valAt s2.mem) := List.map_congr_left fun q _ => val q
      rw [this, List.map_append, List.map_append, spots_vals hc' i2, i2.valX]
      congr 1
      simp only [newIn, List.filter_map, List.map_map]
      rfl
    · have e1 := led p
      have e2 := i2.ledger p
      rw [i2.ret] at e2
      omega
  · rw [i2.lostLen, shared]
    simp only [List.map_map]
    rfl

/-- comps_docgroup_union and its like. -/
theorem union_done (hk : ByKey eqf key) (c : Count) {m : Mem α} {f : Nat → α} {l1 l2 : List Nat}
    (h1 : ∀ p ∈ l1, Live m p (f p)) (h2 : ∀ p ∈ l2, Live m p (f p))
    (hc : ∀ p ∈ l1, key (copy (f p)) = key (f p)) :
    ∃ m' A X lost, union eqf copy c m l1 l2 = .ok (m', A ++ X) ∧ A.length = l1.length ∧
      Done m m' A X lost (overlayWith key (withFirst fun _ y => copy y) (l2.map f) [] ((l1.map f).map copy) ++
        (newIn key (l1.map f) (l2.map f)).map copy) ∧
      lost.length = (if c = .both then repeats ((l1.map f).map key) else 0) +
        repeats (shared key (l1.map f) (l2.map f)) ∧
      (A ++ X).Nodup ∧ ∀ q ∈ A ++ X, m.length ≤ q := by
  obtain ⟨m', A, X, lost, r, len, d, ll, -, h⟩ :=
    whole_ok hk c (makes_copy copy) (extra_copy copy) h1 h2 hc
  obtain ⟨n1, n2⟩ := h rfl
  refine ⟨m', A, X, lost, r, len, d, ll, n1, fun q hq => ?_⟩
  rcases List.mem_append.1 hq with hq | hq
  · exact d.newA q hq
  · exact n2 q hq

/-- comps_groups_union and its like. -/
theorem sum_done (hk : ByKey eqf key) {mrg : α → α → α} {m : Mem α} {f : Nat → α} {l1 l2 : List Nat}
    (h1 : ∀ p ∈ l1, Live m p (f p)) (h2 : ∀ p ∈ l2, Live m p (f p))
    (hc : ∀ p ∈ l1, key (copy (f p)) = key (f p)) :
    ∃ m' A lost, sum eqf copy mrg m l1 l2 =
        .ok (m', A ++ l2.filter fun p => key (f p) ∉ (l1.map f).map key) ∧ A.length = l1.length ∧
      Done m m' A (l2.filter fun p => key (f p) ∉ (l1.map f).map key) lost
        (overlayWith key (withFirst mrg) (l2.map f) [] ((l1.map f).map copy) ++
          newIn key (l1.map f) (l2.map f)) ∧
      lost.length = repeats ((l1.map f).map key) + repeats (shared key (l1.map f) (l2.map f)) := by
  obtain ⟨m', A, X, lost, r, len, d, ll, h, -⟩ :=
    whole_ok hk .both (makes_union mrg) extra_share h1 h2 hc
  have hX := h rfl
  subst hX
  rw [List.map_id] at d
  exact ⟨m', A, lost, r, len, d, by simpa using ll⟩

/-! ## The sum of package lists -/

/-- Memory in which the value of `d` was changed. -/
theorem set_val {m : Mem α} {d : Nat} {c : Cell α} (h : m[d]? = some c) (w : α) (r : Nat) :
    valAt (m.set d ⟨w, c.owners⟩) r = if r = d then some w else valAt m r := by
  have hl := (List.getElem?_eq_some_iff.1 h).1
  unfold valAt
  rw [List.getElem?_set]
  by_cases e : d = r
  · subst e; rw [if_pos rfl, if_pos hl, if_pos rfl]; rfl
  · rw [if_neg e, if_neg (Ne.symm e)]

theorem set_own {m : Mem α} {d : Nat} {c : Cell α} (h : m[d]? = some c) (w : α) (r : Nat) :
    own (m.set d ⟨w, c.owners⟩) r = own m r := by
  have hl := (List.getElem?_eq_some_iff.1 h).1
  unfold own
  rw [List.getElem?_set]
  by_cases e : d = r
  · subst e; rw [if_pos rfl, if_pos hl, h]; rfl
  · rw [if_neg e]

/-- The state within the second loop of `comps_pkgs_union`. -/
structure Put (copy : α → α) (key : α → κ) (put : α → α → α) (m : Mem α) (a : List α) (f : Nat → α)
    (lost done : List Nat) (s : S α) : Prop where
  len : s.mem.length = m.length + a.length
  old : ∀ p, p < m.length → valAt s.mem p = valAt m p
  cur : ∀ i x, a[i]? = some x → valAt s.mem (m.length + i) = some
    (if (a.map key).idxOf (key x) = i then
      ((done.map f).filter fun y => key y = key x).foldl put (copy x) else copy x)
  set : s.set = firsts m.length [] (a.map key)
  ret : s.ret = List.range' m.length a.length ++ done.filter fun p => key (f p) ∉ a.map key
  ledger : ∀ p, own s.mem p = own m p + s.ret.count p + s.set.count p + lost.count p

theorem foldl_put_key {put : α → α → α} (hput : ∀ v w, key (put v w) = key v) (l : List α) (x : α) :
    key (l.foldl put x) = key x := by
  induction l generalizing x with
  | nil => rfl
  | cons y ys ih => rw [List.foldl_cons, ih, hput]

theorem Put.step {put : α → α → α} {m : Mem α} {a : List α} {f : Nat → α} {lost done : List Nat} {s : S α}
    (hk : ByKey eqf key) (hc : ∀ v ∈ a, key (copy v) = key v) (hput : ∀ v w, key (put v w) = key v)
    (h : Put copy key put m a f lost done s) {p : Nat} (hp : Live m p (f p)) (ps : List Nat) :
    ∃ s', setLoop eqf put (p :: ps) s = setLoop eqf put ps s' ∧
      Put copy key put m a f lost (done ++ [p]) s' := by
  have hps : Live s.mem p (f p) := by
    refine ⟨by rw [h.old p hp.lt]; exact hp.1, ?_⟩
    rw [h.ledger]
    have := hp.2
    omega
  -- the values in the set
  let g : Nat → α := fun q => (valAt s.mem q).getD (f p)
  have hg : ∀ i x, a[i]? = some x → valAt s.mem (m.length + i) = some (g (m.length + i)) ∧
      key (g (m.length + i)) = key x := by
    intro i x hx
    have hcur := h.cur i x hx
    have hcx := hc x (List.mem_of_getElem? hx)
    refine ⟨by simp only [g, hcur, Option.getD_some], ?_⟩
    simp only [g, hcur, Option.getD_some]
    split
    · rw [foldl_put_key hput, hcx]
    · exact hcx
  have hset : ∀ q ∈ s.set, ∃ i x, q = m.length + i ∧ a[i]? = some x := by
    intro q hq
    rw [h.set] at hq
    obtain ⟨i, k, e1, e2, -, -⟩ := firsts_mem.1 hq
    rw [List.getElem?_map] at e2
    cases hx : a[i]? with
    | none => rw [hx] at e2; simp at e2
    | some x => exact ⟨i, x, e1, hx⟩
  have hholds : Holds s.mem s.set g := by
    intro q hq
    obtain ⟨i, x, rfl, hx⟩ := hset q hq
    refine ⟨(hg i x hx).1, ?_⟩
    rw [h.ledger]
    have : 0 < s.set.count (m.length + i) := List.count_pos_iff.2 hq
    omega
  have hfind : dataAt eqf s.mem s.set p = .ok (if key (f p) ∈ a.map key then
      some (m.length + (a.map key).idxOf (key (f p))) else none) := by
    rw [dataAt_ok hholds hps]
    congr 1
    have hgk : ∀ i, i < (a.map key).length →
        (a.map key)[i]? = some ((fun q => key (g q)) (m.length + i)) := by
      intro i hi
      rw [List.length_map] at hi
      have hx := List.getElem?_eq_getElem hi
      rw [List.getElem?_map, hx]
      simp only [Option.map_some, (hg i _ hx).2]
    rw [← firsts_find (g := fun q => key (g q)) hgk (key (f p)), h.set]
    congr 1
    funext q
    rw [Bool.eq_iff_iff, hk]
    simp
  by_cases hmem : key (f p) ∈ a.map key
  · rw [if_pos hmem] at hfind
    generalize hi : (a.map key).idxOf (key (f p)) = i at hfind
    have hilt : i < a.length := by
      have := List.idxOf_lt_length_iff.2 hmem
      rw [hi, List.length_map] at this
      exact this
    obtain ⟨x, hx⟩ : ∃ x, a[i]? = some x := ⟨_, List.getElem?_eq_getElem hilt⟩
    have hkx : key x = key (f p) := by
      have h1 : (a.map key)[i]? = some (key x) := by rw [List.getElem?_map, hx]; rfl
      have h2 : i < (a.map key).length := by simpa using hilt
      rw [List.getElem?_eq_getElem h2] at h1
      have h3 := List.getElem_idxOf (xs := a.map key) (x := key (f p)) (by rw [hi]; exact h2)
      simp only [hi] at h3
      rw [h3] at h1
      simpa using h1.symm
    have hdS : m.length + i ∈ s.set := by
      rw [h.set]
      exact firsts_mem.2 ⟨i, key x, rfl, by rw [List.getElem?_map, hx]; rfl, by simp, by rw [hkx, hi]⟩
    have hlv := hholds _ hdS
    obtain ⟨n, hcell, -⟩ := hlv.cell
    refine ⟨⟨s.mem.set (m.length + i) ⟨put (g (m.length + i)) (f p), n + 1⟩, s.ret, s.set⟩, ?_, ?_⟩
    · rw [setLoop, hfind]
      simp only [bind, Except.bind, load_ok hlv, load_ok hps, hcell]
    · have hval := set_val hcell (put (g (m.length + i)) (f p))
      have hown := set_own hcell (put (g (m.length + i)) (f p))
      simp only at hval hown
      refine ⟨by simp [h.len], fun r hr => ?_, fun j z hz => ?_, h.set, ?_, fun r => ?_⟩
      · rw [hval, if_neg (by omega)]
        exact h.old r hr
      · rw [hval]
        by_cases hij : j = i
        · subst hij
          rw [hx] at hz
          cases hz
          rw [if_pos rfl, hkx, if_pos hi, List.map_append, List.filter_append, List.foldl_append]
          have hcur := h.cur j x hx
          rw [hkx, if_pos hi] at hcur
          simp only [g, hcur, Option.getD_some, List.map_cons, List.map_nil]
          simp
        · rw [if_neg (by omega), h.cur j z hz]
          congr 1
          by_cases hj : (a.map key).idxOf (key z) = j
          · rw [if_pos hj, if_pos hj]
            have hne : ¬ key (f p) = key z := by
              intro e
              rw [← e, hi] at hj
              exact hij hj.symm
            rw [List.map_append, List.filter_append]
            simp [hne]
          · rw [if_neg hj, if_neg hj]
      · simp only [h.ret]
        congr 1
        rw [List.filter_append]
        simp [-List.mem_map, hmem]
      · rw [hown]
        exact h.ledger r
  · rw [if_neg hmem] at hfind
    obtain ⟨m1, x1, x2, x3, x4⟩ := incref_ok hps
    refine ⟨⟨m1, s.ret ++ [p], s.set⟩, ?_, ?_⟩
    · rw [setLoop, hfind]
      simp only [bind, Except.bind, pure, Except.pure, extraShare, x1]
    · refine ⟨by simp [x2, h.len], fun r hr => by rw [x3]; exact h.old r hr, fun j z hz => ?_, h.set, ?_,
        fun r => ?_⟩
      · rw [x3, h.cur j z hz]
        have hne : ¬ key (f p) = key z := by
          intro e
          exact hmem (e ▸ List.mem_map.2 ⟨z, List.mem_of_getElem? hz, rfl⟩)
        rw [List.map_append, List.filter_append]
        simp [hne]
      · simp only [h.ret, List.append_assoc]
        congr 1
        rw [List.filter_append]
        simp [-List.mem_map, hmem]
      · have e1 := h.ledger r
        have e2 := x4 r
        simp only [List.count_append]
        omega

theorem Put.run {put : α → α → α} {m : Mem α} {a : List α} {f : Nat → α} {lost done : List Nat} {s : S α}
    (hk : ByKey eqf key) (hc : ∀ v ∈ a, key (copy v) = key v) (hput : ∀ v w, key (put v w) = key v)
    (h : Put copy key put m a f lost done s) {l : List Nat} (hl : ∀ p ∈ l, Live m p (f p)) :
    ∃ s', setLoop eqf put l s = .ok s' ∧ Put copy key put m a f lost (done ++ l) s' := by
  induction l generalizing done s with
  | nil => exact ⟨s, rfl, by simpa using h⟩
  | cons p ps ih =>
    obtain ⟨s1, r1, h1⟩ := h.step hk hc hput (hl p (by simp)) ps
    obtain ⟨s2, r2, h2⟩ := ih h1 fun q hq => hl q (by simp [hq])
    exact ⟨s2, r1.trans r2, by simpa using h2⟩

/-- comps_pkgs_union. -/
theorem sumPkgs_done (hk : ByKey eqf key) {put : α → α → α} (hput : ∀ v w, key (put v w) = key v)
    {m : Mem α} {f : Nat → α} {l1 l2 : List Nat}
    (h1 : ∀ p ∈ l1, Live m p (f p)) (h2 : ∀ p ∈ l2, Live m p (f p))
    (hc : ∀ p ∈ l1, key (copy (f p)) = key (f p)) :
    ∃ m' A lost, sumPkgs eqf copy put m l1 l2 =
        .ok (m', A ++ l2.filter fun p => key (f p) ∉ (l1.map f).map key) ∧ A.length = l1.length ∧
      Done m m' A (l2.filter fun p => key (f p) ∉ (l1.map f).map key) lost
        (overlayWith key (fun x l => l.foldl put x) (l2.map f) [] ((l1.map f).map copy) ++
          newIn key (l1.map f) (l2.map f)) ∧
      lost.length = repeats ((l1.map f).map key) := by
  have hc' : ∀ v ∈ l1.map f, key (copy v) = key v := by
    intro v hv
    obtain ⟨p, hp, rfl⟩ := List.mem_map.1 hv
    exact hc p hp
  obtain ⟨s1, lost, r1, len, old, new, ret, set, led, ll, ln, lb⟩ := firstLoop_ok (copy := copy) hk .both
    (s := ⟨m, [], []⟩) (seen := []) (f := f) (lives_map h1) hc' (by intro q hq; simp at hq) (by simp)
  simp only [List.nil_append] at len old new ret set led lb
  have i1 : Put copy key put m (l1.map f) f lost [] s1 := by
    refine ⟨by simp [len], old, fun i x hx => ?_, set, by simp [ret], fun p => by rw [led, ret, set]⟩
    have hi := (List.getElem?_eq_some_iff.1 hx).1
    rw [new i (by simpa using hi), hx]
    simp
  obtain ⟨s2, r2, i2⟩ := i1.run hk hc' hput h2
  rw [List.nil_append] at i2
  obtain ⟨m', r3, len3, val3, led3⟩ := destroyAll_ok (m := s2.mem) (s := s2.set) fun p => by
    rw [i2.ledger]; omega
  have hret := i2.ret
  rw [List.length_map] at hret
  refine ⟨m', List.range' m.length l1.length, lost, ?_, by simp, ?_, by simpa [repeats] using ll⟩
  · rw [sumPkgs, r1]
    simp only [bind, Except.bind, r2, r3, pure, Except.pure, hret]
  · refine ⟨fun p hp => by rw [val3, i2.old p hp], ?_, List.nodup_range', fun q hq => ?_, fun p => ?_, ln,
      fun p hp => (lb p hp).1⟩
    · rw [List.map_append, List.map_append]
      congr 1
      · apply List.ext_getElem?
        intro i
        rw [List.getElem?_map, List.getElem?_map, overlayWith_get, List.getElem?_map]
        cases hx : (l1.map f)[i]? with
        | none =>
          have : (List.range' m.length l1.length)[i]? = none := by
            rw [List.getElem?_eq_none_iff]
            simpa using hx
          simp [this]
        | some x =>
          have hxm := List.mem_of_getElem? hx
          have hi := (List.getElem?_eq_some_iff.1 hx).1
          rw [List.length_map] at hi
          have hkeys : ((l1.map f).map copy).map key = (l1.map f).map key := by
            rw [List.map_map (g := key)]
            exact List.map_congr_left fun v hv => hc' v hv
          simp only [Option.map_some, hkeys, hc' x hxm, List.not_mem_nil, false_or, range'_get hi, val3,
            i2.cur i x hx]
          by_cases e : ((l1.map f).map key).idxOf (key x) = i
          · rw [if_pos e, if_neg (by simpa using e)]
          · rw [if_neg e, if_pos e]
      · simp only [newIn, List.filter_map, List.map_map]
        refine List.map_congr_left fun p hp => ?_
        have hl := h2 p (List.mem_filter.1 hp).1
        rw [val3, i2.old p hl.lt, hl.1]
        rfl
    · simp at hq
      omega
    · have e1 := led3 p
      have e2 := i2.ledger p
      rw [hret] at e2
      omega

end Comps.Own
