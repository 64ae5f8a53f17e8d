import Verif.Model.Validate
import Verif.Spec.Validate
import Verif.Lemmas.Text
import Verif.Lemmas.CSet

namespace Comps.Val
open Text Spec

variable {O α : Type}

/-! ## execution of rules -/

theorem prefixErr_ok (pre : Bytes) (e : Err O) :
    prefixErr pre e = .ok ⟨e.obj, pre ++ e.msg⟩ := by
  unfold prefixErr Buf.fill
  rw [if_pos (by simp; omega)]
  rfl

theorem mapM_ok {β γ : Type} (f : β → Res γ) (g : β → γ) (l : List β)
    (h : ∀ b ∈ l, f b = .ok (g b)) : l.mapM f = .ok (l.map g) := by
  induction l with
  | nil => rfl
  | cons b l ih =>
    rw [List.mapM_cons, h b List.mem_cons_self,
      ih (fun b hb => h b (List.mem_cons_of_mem _ hb))]
    rfl

theorem prefixRes_err (pre : Bytes) (es : List (Err O)) :
    prefixRes pre (.err es) = .ok (.err (es.map fun e => ⟨e.obj, pre ++ e.msg⟩)) := by
  unfold prefixRes
  simp only
  rw [mapM_ok _ (fun e => ⟨e.obj, pre ++ e.msg⟩) _ (fun e _ => prefixErr_ok pre e)]
  rfl

/-- Is it the OK result? -/
def ValRes.isOk : ValRes O → Bool
  | .ok => true
  | .err _ => false

theorem ValRes.isOk_iff (v : ValRes O) : v.isOk = true ↔ v = .ok := by
  cases v <;> simp [ValRes.isOk]

/-- Errors of a result, with a prefix. -/
def errs (pre : Bytes) : ValRes O → List (Err O)
  | .ok => []
  | .err es => es.map fun e => ⟨e.obj, pre ++ e.msg⟩

/-- Collecting one more result. -/
def collect (v : Option (List (Err O))) (pre : Bytes) : ValRes O → Option (List (Err O))
  | .ok => v
  | .err es => some (v.getD [] ++ errs pre (.err es))

theorem executeLoop_ok (o : O) (res : Rule O → ValRes O) (rules : List (Rule O))
    (h : ∀ r ∈ rules, r.check o = .ok (res r)) (v : Option (List (Err O))) :
    executeLoop o v rules = .ok (rules.foldl (fun v r => collect v r.msg (res r)) v) := by
  induction rules generalizing v with
  | nil => rfl
  | cons r rules ih =>
    rw [executeLoop, h r List.mem_cons_self, List.foldl_cons]
    have ih := ih (fun r hr => h r (List.mem_cons_of_mem _ hr))
    simp only [bind, Except.bind]
    cases e : res r with
    | ok => exact ih v
    | err es =>
      simp only [prefixRes_err, concatErr]
      exact ih _

theorem collect_fold {β : Type} (pre : β → Bytes) (res : β → ValRes O) (l : List β)
    (v : Option (List (Err O))) :
    l.foldl (fun v r => collect v (pre r) (res r)) v =
      if v.isNone && l.all (fun r => (res r).isOk) then none
      else some (v.getD [] ++ l.flatMap fun r => errs (pre r) (res r)) := by
  induction l generalizing v with
  | nil =>
    cases v with
    | none => simp
    | some v => simp
  | cons r l ih =>
    rw [List.foldl_cons, ih]
    cases e : res r with
    | ok => simp [collect, e, errs, ValRes.isOk]
    | err es => simp [collect, e, ValRes.isOk]

theorem execute_ok (o : O) (res : Rule O → ValRes O) (rules : List (Rule O))
    (h : ∀ r ∈ rules, r.check o = .ok (res r)) :
    execute o rules = .ok (if rules.all (fun r => (res r).isOk) then .ok
      else .err (rules.flatMap fun r => errs r.msg (res r))) := by
  unfold execute
  rw [executeLoop_ok o res rules h, collect_fold]
  cases hh : rules.all (fun r => (res r).isOk) <;> rfl

theorem listLoop_ok (rules : List (Rule O)) (res : O → ValRes O) (l : List O)
    (h : ∀ o ∈ l, execute o rules = .ok (res o)) (x : Nat) (hx : x + l.length ≤ 10 ^ 25)
    (v : Option (List (Err O))) :
    listLoop rules v x l =
      .ok ((l.zipIdx x).foldl (fun v p => collect v (dec p.2 ++ b!".") (res p.1)) v) := by
  induction l generalizing v x with
  | nil => rfl
  | cons o l ih =>
    rw [listLoop, h o List.mem_cons_self, List.zipIdx_cons, List.foldl_cons]
    have ih := fun v => ih (fun r hr => h r (List.mem_cons_of_mem _ hr)) (x + 1)
      (by simp only [List.length_cons] at hx; omega) v
    simp only [bind, Except.bind]
    cases e : res o with
    | ok => exact ih v
    | err es =>
      simp only
      have hb : Buf.fill (digitsCount x * 3) (dec x ++ b!".") =
          .ok ⟨digitsCount x * 3, dec x ++ b!"."⟩ := by
        unfold Buf.fill
        rw [if_pos]
        simp only [List.length_append, List.length_cons, List.length_nil]
        by_cases hs : x < 1000000000
        · rw [digitsCount_eq hs, dec_length]; omega
        · have h1 : digitsCount x = 9 := by unfold digitsCount; rw [if_pos (by omega)]
          have h2 : log10 x ≤ 24 := (log10_lt x 24).mp
            (by simp only [List.length_cons] at hx; omega)
          rw [h1, dec_length]; omega
      rw [hb]
      simp only [prefixRes_err, concatErr]
      exact ih _

/-! ## repeated elements -/

theorem dataAt_none {eqf : α → α → Bool} {s : List α} {x : α} :
    CSet.dataAt eqf s x = none ↔ ∀ y ∈ s, eqf y x = false := by
  induction s with
  | nil => simp [CSet.dataAt]
  | cons y s ih =>
    rw [CSet.dataAt]
    cases e : eqf y x with
    | true => simp [e]
    | false => simp [e, ih]

theorem dataAt_some {eqf : α → α → Bool} {s : List α} {x d : α} (h : CSet.dataAt eqf s x = some d) :
    d ∈ s ∧ eqf d x = true := by
  induction s with
  | nil => simp [CSet.dataAt] at h
  | cons y s ih =>
    rw [CSet.dataAt] at h
    cases e : eqf y x with
    | true => rw [e] at h; simp at h; subst h; exact ⟨List.mem_cons_self, e⟩
    | false =>
      rw [e] at h; simp at h
      have := ih h
      exact ⟨List.mem_cons_of_mem _ this.1, this.2⟩

theorem add_fresh {eqf : α → α → Bool} {s : List α} {x : α} (h : ∀ y ∈ s, eqf y x = false) :
    CSet.add eqf s x = s ++ [x] := by
  unfold CSet.add
  cases e : CSet.mem eqf s x with
  | false => rfl
  | true =>
    obtain ⟨y, hy, e⟩ := (CSet.mem_iff eqf s x).mp e
    rw [h y hy] at e; simp at e

/-- `comps_objlist_index` finds the first position holding the pointer. -/
theorem index_eq {l : List (Ref α)} {a i : Nat} {r : Ref α} (h : l[i]? = some r) (ha : r.addr = a)
    (hf : ∀ k, k < i → ∀ r', l[k]? = some r' → r'.addr ≠ a) : index l a = .ofNat i := by
  induction l generalizing i with
  | nil => simp at h
  | cons y l ih =>
    cases i with
    | zero =>
      simp at h; subst h
      rw [index, if_pos ha]; rfl
    | succ i =>
      have h0 := hf 0 (by omega) y rfl
      rw [index, if_neg h0, ih (i := i) (by simpa using h)
        (fun k hk r' hr' => hf (k + 1) (by omega) r' (by simpa using hr'))]

/-- The index of a pointer in the list is a position. -/
theorem index_mem {l : List (Ref α)} {r : Ref α} (h : r ∈ l) :
    ∃ i, index l r.addr = .ofNat i ∧ i < l.length := by
  induction l with
  | nil => simp at h
  | cons y l ih =>
    rw [index]
    by_cases e : y.addr = r.addr
    · rw [if_pos e]; exact ⟨0, rfl, by simp⟩
    · rw [if_neg e]
      rcases List.mem_cons.mp h with rfl | h
      · exact absurd rfl e
      · obtain ⟨i, h1, h2⟩ := ih h
        rw [h1]
        exact ⟨i + 1, rfl, by simp; omega⟩

theorem fill_dup {i x : Nat} (hi : i < 1000000000) (hx : x < 1000000000) :
    Buf.fill (28 - 3 + digitsCount x + digitsCountI (.ofNat i)) (dupMsg (.ofNat i) x) =
      .ok ⟨(dupMsg (.ofNat i) x).length + 1, dupMsg (.ofNat i) x⟩ := by
  have hl : (dupMsg (.ofNat i) x).length = 24 + (dec i).length + (dec x).length := by
    simp [dupMsg, decInt]; omega
  have hc : 28 - 3 + digitsCount x + digitsCountI (.ofNat i) =
      24 + (dec i).length + (dec x).length + 1 := by
    show 28 - 3 + digitsCount x + digitsCount i = _
    rw [digitsCount_eq hi, digitsCount_eq hx]; omega
  unfold Buf.fill
  rw [hl, hc, if_pos (Nat.le_refl _)]

/-- A repeated element at a position of ten digits overflows the buffer of its message. -/
theorem fill_overflow {i x : Nat} (hx : 1000000000 ≤ x) :
    Buf.fill (28 - 3 + digitsCount x + digitsCountI (.ofNat i)) (dupMsg (.ofNat i) x) =
      .error .outOfBounds := by
  have hl : (dupMsg (.ofNat i) x).length = 24 + (dec i).length + (dec x).length := by
    simp [dupMsg, decInt]; omega
  have h1 := digitsCount_lt hx
  have h2 : digitsCount i ≤ (dec i).length := by
    rcases Nat.lt_or_ge i 1000000000 with h | h
    · rw [digitsCount_eq h]; exact Nat.le_refl _
    · exact Nat.le_of_lt (digitsCount_lt h)
  have hc : 28 - 3 + digitsCount x + digitsCountI (.ofNat i) =
      25 + digitsCount x + digitsCount i := rfl
  unfold Buf.fill
  rw [hl, hc, if_neg (by omega)]

theorem dupMsg_spec (i x : Nat) : IsDupMsg i x (dupMsg (.ofNat i) x) :=
  ⟨dec i, dec x, dec_isDec i, dec_isDec x, rfl⟩

/-- Below a thousand million elements nothing faults. -/
theorem uniqueLoop_ok (cmp : α → α → Bool) (l : List (Ref α)) (hlen : l.length ≤ 1000000000) :
    ∀ (its set : List (Ref α)) (x : Nat), x + its.length = l.length → (∀ r ∈ set, r ∈ l) →
      (∀ r ∈ its, r ∈ l) → ∃ ms, uniqueLoop cmp l set x its = .ok ms := by
  intro its
  induction its with
  | nil => intro set x _ _ _; exact ⟨[], rfl⟩
  | cons it its ih =>
    intro set x hx hs hi
    simp only [List.length_cons] at hx
    rw [uniqueLoop]
    cases e : CSet.dataAt (fun a b => cmp a.val b.val) set it with
    | none =>
      refine ih _ _ (by omega) ?_ (fun r hr => hi r (List.mem_cons_of_mem _ hr))
      intro r hr
      rw [add_fresh (dataAt_none.mp e)] at hr
      rcases List.mem_append.mp hr with hr | hr
      · exact hs r hr
      · simp at hr; subst hr; exact hi _ List.mem_cons_self
    | some d =>
      obtain ⟨i, h1, h2⟩ := index_mem (hs d (dataAt_some e).1)
      obtain ⟨ms, h3⟩ := ih set (x + 1) (by omega) hs (fun r hr => hi r (List.mem_cons_of_mem _ hr))
      simp only [h1, fill_dup (show i < 1000000000 by omega) (show x < 1000000000 by omega), h3]
      exact ⟨_, rfl⟩

/-- While nothing is repeated the set holds everything read. -/
theorem uniqueLoop_nil (cmp : α → α → Bool) (l : List (Ref α)) :
    ∀ (its set : List (Ref α)) (x : Nat) (ms : List Bytes),
      uniqueLoop cmp l set x its = .ok ms →
      NoRepeat cmp (set.map Ref.val) →
      (ms = [] ↔ NoRepeat cmp ((set ++ its).map Ref.val)) := by
  intro its
  induction its with
  | nil =>
    intro set x ms h hs
    rw [uniqueLoop] at h; injection h with h; subst h
    simp [hs]
  | cons it its ih =>
    intro set x ms h hs
    rw [uniqueLoop] at h
    cases e : CSet.dataAt (fun a b => cmp a.val b.val) set it with
    | none =>
      rw [e] at h
      have hn := dataAt_none.mp e
      simp only at h
      rw [add_fresh (eqf := fun a b : Ref α => cmp a.val b.val) hn] at h
      have := ih _ _ _ h (by
        unfold NoRepeat at hs ⊢
        rw [List.map_append, List.pairwise_append]
        refine ⟨hs, by simp, ?_⟩
        intro a ha b hb
        simp only [List.map_cons, List.map_nil, List.mem_singleton] at hb
        subst hb
        obtain ⟨r, hr, rfl⟩ := List.mem_map.mp ha
        exact hn r hr)
      rw [List.append_assoc] at this
      exact this
    | some d =>
      rw [e] at h
      simp only [bind, Except.bind] at h
      split at h
      · exact absurd h (by simp)
      split at h
      · exact absurd h (by simp)
      injection h with h
      subst h
      refine ⟨fun h => absurd h (by simp), fun h => ?_⟩
      exfalso
      unfold NoRepeat at h
      rw [List.map_append, List.pairwise_append] at h
      have hd := dataAt_some e
      have := h.2.2 d.val (List.mem_map.mpr ⟨d, hd.1, rfl⟩) it.val (by simp)
      have h2 : cmp d.val it.val = true := hd.2
      rw [this] at h2; simp at h2

/-- What the set knows about the elements read so far. -/
structure Firsts (cmp : α → α → Bool) (pre set : List (Ref α)) : Prop where
  cover : ∀ p ∈ pre, ∃ s ∈ set, cmp s.val p.val = true
  least : ∀ s ∈ set, ∃ i : Nat, pre[i]? = some s ∧
    ∀ k : Nat, k < i → ∀ r : Ref α, pre[k]? = some r → cmp r.val s.val = false

theorem uniqueLoop_pairs {cmp : α → α → Bool} (he : IsEquiv cmp) (l : List (Ref α))
    (hc : ∀ r ∈ l, ∀ r' ∈ l, r.addr = r'.addr → r.val = r'.val) :
    ∀ (its pre set : List (Ref α)), pre ++ its = l → Firsts cmp pre set →
      ∃ ps : List (Nat × Nat),
        uniqueLoop cmp l set pre.length its =
          (if ps.all (fun p => p.2 < 1000000000) then
            .ok (ps.map fun p => dupMsg (.ofNat p.1) p.2) else .error .outOfBounds) ∧
        ps.Pairwise (fun p q => p.2 < q.2) ∧
        ∀ i j, (i, j) ∈ ps ↔ pre.length ≤ j ∧ FirstEq cmp (l.map Ref.val) i j := by
  intro its
  induction its with
  | nil =>
    intro pre set hl _
    refine ⟨[], rfl, List.Pairwise.nil, ?_⟩
    intro i j
    simp only [List.append_nil] at hl
    subst hl
    constructor
    · intro h; simp at h
    · rintro ⟨h1, -, a, b, -, hb, -⟩
      rw [List.getElem?_eq_none (by simp; omega)] at hb
      simp at hb
  | cons it its ih =>
    intro pre set hl hf
    have hit : l[pre.length]? = some it := by rw [← hl]; simp
    have hpre : ∀ k, k < pre.length → l[k]? = pre[k]? := by
      intro k hk; rw [← hl, List.getElem?_append_left hk]
    have hl' : (pre ++ [it]) ++ its = l := by rw [List.append_assoc]; exact hl
    have hll : pre.length < l.length := by rw [← hl]; simp
    rw [uniqueLoop]
    cases e : CSet.dataAt (fun a b => cmp a.val b.val) set it with
    | none =>
      have hn := dataAt_none.mp e
      -- no earlier element is equal to this one
      have hno : ∀ p ∈ pre, cmp p.val it.val = false := by
        intro p hp
        cases ec : cmp p.val it.val with
        | false => rfl
        | true =>
          obtain ⟨s, hs, e1⟩ := hf.cover p hp
          have := hn s hs
          rw [he.trans _ _ _ e1 ec] at this
          simp at this
      have hf' : Firsts cmp (pre ++ [it]) (set ++ [it]) := by
        constructor
        · intro p hp
          rcases List.mem_append.mp hp with hp | hp
          · obtain ⟨s, hs, e1⟩ := hf.cover p hp
            exact ⟨s, List.mem_append_left _ hs, e1⟩
          · simp at hp; subst hp
            exact ⟨_, List.mem_append_right _ (by simp), he.refl _⟩
        · intro s hs
          rcases List.mem_append.mp hs with hs | hs
          · obtain ⟨i, h1, h2⟩ := hf.least s hs
            have hi : i < pre.length := (List.getElem?_eq_some_iff.mp h1).1
            refine ⟨i, by rw [List.getElem?_append_left hi]; exact h1, ?_⟩
            intro k hk r hr
            rw [List.getElem?_append_left (by omega)] at hr
            exact h2 k hk r hr
          · simp at hs; subst hs
            refine ⟨pre.length, by simp, ?_⟩
            intro k hk r hr
            rw [List.getElem?_append_left hk] at hr
            exact hno r (List.mem_of_getElem? hr)
      obtain ⟨ps, h1, h2, h3⟩ := ih (pre ++ [it]) (set ++ [it]) hl' hf'
      rw [add_fresh (eqf := fun a b : Ref α => cmp a.val b.val) hn]
      simp only [List.length_append, List.length_cons, List.length_nil] at h1 h3
      refine ⟨ps, h1, h2, ?_⟩
      intro i j
      rw [h3]
      constructor
      · rintro ⟨h, h'⟩; exact ⟨by omega, h'⟩
      · rintro ⟨h, h'⟩
        refine ⟨?_, h'⟩
        rcases Nat.lt_or_ge pre.length j with hj | hj
        · omega
        · exfalso
          have : j = pre.length := by omega
          subst this
          obtain ⟨hij, a, b, ha, hb, hab, -⟩ := h'
          rw [List.getElem?_map, hit] at hb
          rw [List.getElem?_map, hpre i hij] at ha
          cases ep : pre[i]? with
          | none => rw [ep] at ha; simp at ha
          | some p =>
            rw [ep] at ha
            simp at ha hb
            subst ha; subst hb
            rw [hno p (List.mem_of_getElem? ep)] at hab
            simp at hab
    | some d =>
      obtain ⟨hd, hdc⟩ := dataAt_some e
      have hdc : cmp d.val it.val = true := hdc
      obtain ⟨i0, h1, h2⟩ := hf.least d hd
      have hi0 : i0 < pre.length := (List.getElem?_eq_some_iff.mp h1).1
      have hld : l[i0]? = some d := by rw [hpre i0 hi0]; exact h1
      have hidx : index l d.addr = .ofNat i0 := by
        refine index_eq hld rfl ?_
        intro k hk r' hr' ea
        have hv := hc r' (List.mem_of_getElem? hr') d (List.mem_of_getElem? hld) ea
        rw [hpre k (by omega)] at hr'
        have := h2 k hk r' hr'
        rw [hv, he.refl] at this
        simp at this
      have hfe : FirstEq cmp (l.map Ref.val) i0 pre.length := by
        refine ⟨hi0, d.val, it.val, by simp [hld], by simp [hit], hdc, ?_⟩
        intro k hk c hck
        rw [List.getElem?_map, hpre k (by omega)] at hck
        cases ep : pre[k]? with
        | none => rw [ep] at hck; simp at hck
        | some p =>
          rw [ep] at hck; simp at hck; subst hck
          cases ec : cmp p.val it.val with
          | false => rfl
          | true =>
            have := h2 k hk p ep
            rw [he.trans _ _ _ ec (he.symm _ _ hdc)] at this
            simp at this
      have hf' : Firsts cmp (pre ++ [it]) set := by
        constructor
        · intro p hp
          rcases List.mem_append.mp hp with hp | hp
          · exact hf.cover p hp
          · simp at hp; subst hp; exact ⟨d, hd, hdc⟩
        · intro s hs
          obtain ⟨i, h1, h2⟩ := hf.least s hs
          have hi : i < pre.length := (List.getElem?_eq_some_iff.mp h1).1
          refine ⟨i, by rw [List.getElem?_append_left hi]; exact h1, ?_⟩
          intro k hk r hr
          rw [List.getElem?_append_left (by omega)] at hr
          exact h2 k hk r hr
      obtain ⟨ps, g1, g2, g3⟩ := ih (pre ++ [it]) set hl' hf'
      simp only [List.length_append, List.length_cons, List.length_nil] at g1 g3
      simp only [hidx, Nat.zero_add] at g1 ⊢
      refine ⟨(i0, pre.length) :: ps, ?_, ?_, ?_⟩
      · rcases Nat.lt_or_ge pre.length 1000000000 with hx | hx
        · rw [fill_dup (show i0 < 1000000000 by omega) hx]
          simp only [bind, Except.bind, g1, List.map_cons, List.all_cons, hx, decide_true,
            Bool.true_and]
          cases ps.all (fun p => p.2 < 1000000000) <;> rfl
        · rw [fill_overflow hx]
          simp only [bind, Except.bind, List.all_cons, decide_eq_false (Nat.not_lt.mpr hx),
            Bool.false_and, Bool.false_eq_true, if_false]
      · refine List.Pairwise.cons ?_ g2
        rintro ⟨a, b⟩ hab
        have := ((g3 a b).mp hab).1
        show pre.length < b
        omega
      · intro i j
        rw [List.mem_cons, g3]
        constructor
        · rintro (h | ⟨h, h'⟩)
          · injection h with h h'; subst h; subst h'
            exact ⟨Nat.le_refl _, hfe⟩
          · exact ⟨by omega, h'⟩
        · rintro ⟨h, h'⟩
          rcases Nat.lt_or_ge pre.length j with hj | hj
          · exact .inr ⟨by omega, h'⟩
          · left
            have : j = pre.length := by omega
            subst this
            -- the first equal position is unique
            have : i = i0 := by
              obtain ⟨-, a, b, ha, hb, hab, hm⟩ := h'
              obtain ⟨-, a', b', ha', hb', hab', hm'⟩ := hfe
              rw [hb] at hb'; injection hb' with hb'; subst hb'
              rcases Nat.lt_trichotomy i i0 with h | h | h
              · have := hm' i h a ha; rw [hab] at this; simp at this
              · exact h
              · have := hm i0 h a' ha'; rw [hab'] at this; simp at this
            subst this; rfl

end Comps.Val
