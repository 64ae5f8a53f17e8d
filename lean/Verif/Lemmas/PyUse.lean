import Verif.Spec.PyUse
import Verif.Lemmas.PySetSlice

/-! # Lemmas: Python programs using a sequence -/

namespace Comps.PySeq
open Comps Comps.Obj Heap ObjHeap
open Comps.Spec.Py (Call runAll forRemove)
variable {α : Type}

theorem byIdLoop_spec (k : Kind α) {key : α → Option CStr} {h : Heap (Option α)} (id : Bytes) :
    ∀ (fuel : Nat) (as : List (Nat × Option α)) (xs : List α) (it : Option Nat),
      (∀ a ∈ xs, k.key a = .ok (key a)) → IsList h it as → as.map Prod.snd = xs.map some →
      as.length < fuel →
      byIdLoop k h id fuel it = .ok (match xs.find? fun a => key a = some ⟨some id⟩ with
        | some a => .ok a
        | none => .error .keyError)
  | 0, _, _, _, _, _, _, hf => by omega
  | fuel + 1, [], xs, it, hk, hl, e, hf => by
    have : it = none := hl.seg
    subst this
    cases xs with
    | nil => simp [byIdLoop]
    | cons y ys => simp at e
  | fuel + 1, (b, d) :: bs, xs, it, hk, hl, e, hf => by
    obtain ⟨rfl, n, hc, h3, hna⟩ := hl.cons_inv
    cases xs with
    | nil => simp at e
    | cons y ys =>
      simp only [List.map_cons, List.cons.injEq] at e
      obtain ⟨rfl, e⟩ := e
      simp only [byIdLoop, deref_ok hc, bind, Except.bind, hk y (by simp), cmp_eq, List.find?_cons]
      by_cases hm : key y = some ⟨some id⟩
      · simp [hm]
      · simp only [hm, decide_false, Bool.false_eq_true, if_false]
        exact byIdLoop_spec k id fuel bs ys n (fun z hz => hk z (by simp [hz])) h3 e
          (by simp at hf; omega)

theorem getById_holds (k : Kind α) {key : α → Option CStr} {h : Heap (Option α)} {l : OL}
    {xs : List α} (H : Holds h l xs) (hk : ∀ a ∈ xs, k.key a = .ok (key a)) (id : Bytes) :
    getById k h l id = .ok (match xs.find? fun a => key a = some ⟨some id⟩ with
      | some a => .ok a
      | none => .error .keyError) := by
  obtain ⟨as, r, e⟩ := H
  exact byIdLoop_spec k id _ as xs _ hk r.list e (by have := r.list.length_le; omega)

/-! ## Loops -/

theorem forRemove_spec [BEq α] [LawfulBEq α] (k : Kind α) (p : α → Bool) :
    ∀ (fuel : Nat) (h : Heap (Option α)) (l : OL) (pre suf : List (Nat × Option α))
      (ps xs : List α) (it : Option Nat), Rep h l (pre ++ suf) → IsList h it suf →
      pre.map Prod.snd = ps.map some → suf.map Prod.snd = xs.map some →
      (∀ x ∈ ps, p x = false) → suf.length < fuel →
      ∃ h' l', forRemove k p fuel h l it = .ok (xs, h', l') ∧
        Holds h' l' (ps ++ xs.filter fun x => !p x)
  | 0, _, _, _, _, _, _, _, _, _, _, _, _, hf => by omega
  | fuel + 1, h, l, pre, [], ps, xs, it, r, hl, e1, e2, hp, hf => by
    have : it = none := hl.seg
    subst this
    cases xs with
    | cons y ys => simp at e2
    | nil =>
      exact ⟨h, l, by simp [forRemove, iterNext, bind, Except.bind], pre, by simpa using r,
        by simpa using e1⟩
  | fuel + 1, h, l, pre, (b, d) :: suf, ps, xs, it, r, hl, e1, e2, hp, hf => by
    obtain ⟨rfl, n, hc, h3, hna⟩ := hl.cons_inv
    cases xs with
    | nil => simp at e2
    | cons x xs =>
      simp only [List.map_cons, List.cons.injEq] at e2
      obtain ⟨rfl, e2⟩ := e2
      simp only [forRemove, iterNext, deref_ok hc, bind, Except.bind]
      cases hx : p x
      · simp only [Bool.false_eq_true, if_false]
        obtain ⟨h', l', e, H⟩ := forRemove_spec k p fuel h l (pre ++ [(b, some x)]) suf (ps ++ [x])
          xs n (by simpa using r) h3 (by simp [e1]) e2 (by
            intro y hy
            rcases List.mem_append.1 hy with hy | hy
            · exact hp y hy
            · simp only [List.mem_singleton] at hy
              subst hy
              exact hx) (by simp at hf; omega)
        refine ⟨h', l', by rw [e], ?_⟩
        rw [List.filter_cons, if_pos (by simp [hx])]
        simpa using H
      · obtain ⟨h1, l1, er, r1, -⟩ := remove_some r (by
          intro e he hxe
          have h5 : e.2 ∈ pre.map Prod.snd := List.mem_map_of_mem he
          rw [e1, hxe] at h5
          have h6 : x ∈ ps := by simpa using h5
          rw [hp x h6] at hx
          cases hx)
        have hn : IsList h1 n suf := by
          obtain ⟨m', hm', h7⟩ := r1.list.suffix
          have hh := h7.head
          have hh3 := h3.head
          rw [hh3, ← hh]
          exact h7
        simp only [if_true, remove, convert, er, bind, Except.bind]
        obtain ⟨h', l', e, H⟩ := forRemove_spec k p fuel h1 l1 pre suf ps xs n r1 hn e1 e2 hp
          (by simp at hf; omega)
        refine ⟨h', l', by simp [e], ?_⟩
        rw [List.filter_cons, if_neg (by simp [hx])]
        exact H

/-! ## Histories -/

theorem runAll_spec [DecidableEq α] (k : Kind α) {id : α → Option CStr} {good : α → Bool}
    (hu : k.appendUnique = true) (he : k.extra = true) : ∀ (cs : List (Call α))
    (h : Heap (Option α)) (l : OL) (xs : List α), Holds h l xs →
    (∀ c ∈ cs, c.inRange) → xs.length + cs.length < 2147483648 →
    (∀ a ∈ xs, k.ident a = .ok (id a)) →
    (∀ c ∈ cs, ∀ a ∈ c.objs, k.ident a = .ok (id a) ∧ k.passes a = .ok (good a)) →
    ∃ h' l', runAll k cs h l = .ok (h', l') ∧
      Holds h' l' (cs.foldl (fun xs c => c.effect id good xs) xs) := by
  intro cs
  induction cs with
  | nil => exact fun h l xs H _ _ _ _ => ⟨h, l, rfl, H⟩
  | cons c cs ih =>
    intro h l xs H hr hlen hid ho
    have key : ∃ h' l' a, c.run k h l = .ok (h', l', a) ∧ Holds h' l' (c.effect id good xs) ∧
        (c.effect id good xs).length ≤ xs.length + 1 ∧
        ∀ y ∈ c.effect id good xs, y ∈ xs ∨ y ∈ c.objs := by
      have hrc := hr c (by simp)
      have hoc := ho c (by simp)
      cases c with
      | append x =>
        obtain ⟨h', l', e, H'⟩ := append_unique k H hu hid x (hoc x (by simp [Call.objs])).1
          (hoc x (by simp [Call.objs])).2
        refine ⟨h', l', _, e, H', ?_, ?_⟩
        · simp only [Call.effect, Spec.Py.append]
          split
          · simp
          · split <;> simp
        · simp only [Call.effect, Spec.Py.append, Call.objs]
          intro y
          split
          · exact .inl
          · split <;> simp
            exact .inl
      | insert i x =>
        obtain ⟨h', l', e, H'⟩ := insert_holds k H (by simp at hlen; omega) x
          (hoc x (by simp [Call.objs])).2 hrc.1 hrc.2
        refine ⟨h', l', _, e, H', ?_, ?_⟩
        · simp only [Call.effect, Spec.Py.insert]
          split
          · simp; omega
          · simp
        · simp only [Call.effect, Spec.Py.insert, Call.objs]
          intro y
          split
          · simp only [List.mem_append, List.mem_cons]
            rintro (h | rfl | h)
            · exact .inl (List.mem_of_mem_take h)
            · exact .inr (.inl rfl)
            · exact .inl (List.mem_of_mem_drop h)
          · exact .inl
      | set i x =>
        obtain ⟨h', e, H'⟩ := setItem_unique k H he (by simp at hlen; omega) hid x
          (hoc x (by simp [Call.objs])).1 hrc.1 hrc.2
        refine ⟨h', l, _, e, ?_, ?_, ?_⟩
        · simp only [Call.effect]
          have : (i < 0 ∨ i ≥ ↑xs.length ∨ id x ∈ xs.map id) ↔
            (i ≥ ↑xs.length ∨ id x ∈ xs.map id ∨ i < 0) := by
            constructor
            · rintro (h | h | h) <;> simp [h]
            · rintro (h | h | h) <;> simp [h]
          simp only [this]
          exact H'
        · simp only [Call.effect]
          split <;> simp
        · simp only [Call.effect, Call.objs]
          intro y
          split
          · exact .inl
          · intro hy
            rcases List.mem_or_eq_of_mem_set hy with hy | hy
            · exact .inl hy
            · exact .inr (by simp [hy])
      | del i =>
        obtain ⟨h', l', e, H'⟩ := delItem_holds H (by simp at hlen; omega) hrc.1 hrc.2
        refine ⟨h', l', _, e, ?_, ?_, ?_⟩
        · simp only [Call.effect]
          by_cases hi : 0 ≤ i
          · rw [if_pos hi] at H'
            rw [if_neg (by omega)]
            exact H'
          · rw [if_neg hi] at H'
            rw [if_pos (by omega)]
            exact H'
        · simp only [Call.effect, Spec.Py.delItem]
          split
          · simp
          · split
            · have := List.length_eraseIdx_le xs (by assumption)
              simp only
              omega
            · simp
        · simp only [Call.effect, Spec.Py.delItem]
          intro y
          split
          · exact .inl
          · split
            · intro hy
              exact .inl (List.mem_of_mem_eraseIdx hy)
            · exact .inl
      | remove x =>
        obtain ⟨h', l', e, H'⟩ := remove_holds k H x
        refine ⟨h', l', _, e, H', ?_, ?_⟩
        · simp only [Call.effect, Spec.Py.remove]
          split
          · have := (List.erase_sublist (a := x) (l := xs)).length_le
            simp only
            omega
          · simp
        · simp only [Call.effect, Spec.Py.remove]
          intro y
          split
          · intro hy
            exact .inl (List.mem_of_mem_erase hy)
          · exact .inl
      | clear =>
        obtain ⟨h', l', e, H'⟩ := H.clear
        refine ⟨h', l', .ok (), by simp [Call.run, clear, e, bind, Except.bind], H', ?_, ?_⟩
        · simp [Call.effect]
        · simp [Call.effect]
    obtain ⟨h1, l1, a, e, H1, hl1, hm1⟩ := key
    obtain ⟨h', l', e', H'⟩ := ih h1 l1 _ H1 (fun c hc => hr c (by simp [hc]))
      (by simp at hlen; omega) (by
        intro y hy
        rcases hm1 y hy with hy | hy
        · exact hid y hy
        · exact (ho c (by simp) y hy).1) (fun c hc => ho c (by simp [hc]))
    exact ⟨h', l', by simp only [runAll, e, bind, Except.bind, e'], H'⟩

theorem nodup_set {β : Type} : ∀ (l : List β) (i : Nat) (x : β), l.Nodup → x ∉ l → (l.set i x).Nodup
  | [], _, _, h, _ => by simp
  | y :: l, 0, x, h, hx => by
    simp only [List.set_cons_zero, List.nodup_cons] at *
    exact ⟨fun hm => hx (by simp [hm]), h.2⟩
  | y :: l, i + 1, x, h, hx => by
    simp only [List.set_cons_succ, List.nodup_cons] at *
    refine ⟨fun hm => ?_, nodup_set l i x h.2 (fun hm => hx (by simp [hm]))⟩
    rcases List.mem_or_eq_of_mem_set hm with hm | hm
    · exact h.1 hm
    · exact hx (by simp [hm])

theorem effect_nodup [DecidableEq α] {id : α → Option CStr} {good : α → Bool} {xs : List α}
    (hn : (xs.map id).Nodup) (c : Call α) (hc : c.notInsert) :
    ((c.effect id good xs).map id).Nodup := by
  cases c with
  | append x =>
    simp only [Call.effect, Spec.Py.append]
    split
    · exact hn
    · split
      · rename_i h _
        rw [List.map_append, List.nodup_append]
        refine ⟨hn, by simp, ?_⟩
        intro a ha b hb hab
        simp only [List.map_cons, List.map_nil, List.mem_singleton] at hb
        subst hb
        subst hab
        exact h ha
      · exact hn
  | insert i x => exact hc.elim
  | set i x =>
    simp only [Call.effect]
    split
    · exact hn
    · rename_i h
      rw [List.map_set]
      exact nodup_set _ _ _ hn (fun hm => h (.inr (.inr hm)))
  | del i =>
    simp only [Call.effect, Spec.Py.delItem]
    split
    · exact hn
    · split
      · exact hn.sublist ((List.eraseIdx_sublist _ _).map id)
      · exact hn
  | remove x =>
    simp only [Call.effect, Spec.Py.remove]
    split
    · exact hn.sublist (List.erase_sublist.map id)
    · exact hn
  | clear => simp [Call.effect]

theorem foldl_nodup [DecidableEq α] {id : α → Option CStr} {good : α → Bool} :
    ∀ (cs : List (Call α)) (xs : List α), (xs.map id).Nodup → (∀ c ∈ cs, c.notInsert) →
      ((cs.foldl (fun xs c => c.effect id good xs) xs).map id).Nodup
  | [], _, hn, _ => hn
  | c :: cs, xs, hn, hc => foldl_nodup cs _ (effect_nodup hn c (hc c (by simp)))
      (fun c' h' => hc c' (by simp [h']))

theorem effect_good [DecidableEq α] {id : α → Option CStr} {good : α → Bool} {xs : List α}
    (hg : ∀ x ∈ xs, good x = true) (c : Call α) (hc : c.notSet) :
    ∀ x ∈ c.effect id good xs, good x = true := by
  cases c with
  | append x =>
    simp only [Call.effect, Spec.Py.append]
    split
    · exact hg
    · split
      · rename_i h
        intro y hy
        rcases List.mem_append.1 hy with hy | hy
        · exact hg y hy
        · simp only [List.mem_singleton] at hy
          subst hy
          exact h
      · exact hg
  | insert i x =>
    simp only [Call.effect, Spec.Py.insert]
    split
    · rename_i h
      simp only [List.mem_append, List.mem_cons]
      rintro y (hy | rfl | hy)
      · exact hg y (List.mem_of_mem_take hy)
      · exact h
      · exact hg y (List.mem_of_mem_drop hy)
    · exact hg
  | set i x => exact hc.elim
  | del i =>
    simp only [Call.effect, Spec.Py.delItem]
    split
    · exact hg
    · split
      · exact fun y hy => hg y (List.mem_of_mem_eraseIdx hy)
      · exact hg
  | remove x =>
    simp only [Call.effect, Spec.Py.remove]
    split
    · exact fun y hy => hg y (List.mem_of_mem_erase hy)
    · exact hg
  | clear => simp [Call.effect]

theorem foldl_good [DecidableEq α] {id : α → Option CStr} {good : α → Bool} :
    ∀ (cs : List (Call α)) (xs : List α), (∀ x ∈ xs, good x = true) → (∀ c ∈ cs, c.notSet) →
      ∀ x ∈ cs.foldl (fun xs c => c.effect id good xs) xs, good x = true
  | [], _, hg, _ => hg
  | c :: cs, xs, hg, hc => foldl_good cs _ (effect_good hg c (hc c (by simp)))
      (fun c' h' => hc c' (by simp [h']))

/-! ## Slices that select nothing -/

/-- Deleting a slice that selects nothing, with bounds that are not negative. -/
theorem delSlice_none {h : Heap (Option α)} {l : OL} {xs : List α} (H : Holds h l xs)
    (a b : Nat) (hab : b ≤ a) {st : Option Int} (hc : 0 < st.getD 1) :
    delSlice h l ⟨some a, some b, st⟩ = .ok (h, l, .ok ()) := by
  obtain ⟨as, r, e⟩ := H
  have h1 : ∀ n : Nat, indices ⟨some a, some b, st⟩ n = .ok ((min a n : Nat), (min b n : Nat), st.getD 1, 0) := by
    intro n
    have h2 := indices_pos (s := ⟨some a, some b, st⟩) (n := n) hc
    simp only [Spec.Py.bound] at h2
    rw [if_neg (by omega), if_neg (by omega)] at h2
    simp only [Int.toNat_natCast] at h2
    rw [show min b n - min a n = 0 by omega] at h2
    simpa [cnt] using h2
  have h3 : setIndices ⟨some a, some b, st⟩ l.len =
      .ok ((min a (l.len + min a l.len) : Nat), (min b (l.len + min a l.len) : Nat),
        st.getD 1, 0) := by
    simp only [setIndices, h1 l.len, bind, Except.bind, if_true]
    rw [← Int.natCast_add, h1]
  obtain ⟨it, ew, hl⟩ := walkMax_spec (min a (l.len + min a l.len)) as l.first r.list
  have hs := delSweep_spec (h.fresh + 1) h [] as l.first (by simpa using r) r.list
    (by have := r.list.length_le; omega) (by simp)
  simp only [List.length_nil, List.getLast?_nil, Option.map_none, List.nil_append] at hs
  have hno : ∀ x ∈ as, x.2 ≠ none := by
    intro x hx hn
    have h5 : x.2 ∈ as.map Prod.snd := List.mem_map_of_mem hx
    rw [e, hn] at h5
    simp at h5
  rw [if_neg (by
    rintro ⟨x, hx, hn⟩
    exact hno x ((List.dropLast_sublist _).mem hx) hn)] at hs
  have hem : isEmptied h (as.getLast?.map Prod.fst) = .ok false := by
    rcases List.eq_nil_or_concat as with rfl | ⟨p, ⟨t, y⟩, rfl⟩
    · rfl
    · have h5 := r.list
      simp only [List.concat_eq_append] at h5 hno ⊢
      obtain ⟨q, hq, -⟩ := h5.mid_cell
      have hy := hno (t, y) (by simp)
      simp only [List.getLast?_concat, Option.map_some, isEmptied, deref_ok hq, bind, Except.bind]
      cases y with
      | none => exact absurd rfl hy
      | some y => rfl
  simp only [delSlice, h3, Int.toNat_natCast, ew, bind, Except.bind, Int.toNat_zero, delMark, hs, hem,
    Bool.false_eq_true, if_false]

/-- Assignment to a slice of an object whose id is already in the list. -/
theorem setSlice_dup (k : Kind α) {nm : α → Option CStr} {h : Heap (Option α)} {l val : OL}
    {xs ys : List α} (H : Holds h l xs) (Hv : Holds h val ys)
    (hid : ∀ a ∈ xs, k.ident a = .ok (nm a)) (hiy : ∀ y ∈ ys, k.ident y = .ok (nm y))
    (hdup : ∃ y ∈ ys, nm y ∈ xs.map nm) (s : Slice) (h1 : s.step.getD 1 = 1) :
    setSlice k h l s val = .ok (h, l, .error .keyError) := by
  obtain ⟨bs, rv, ev⟩ := Hv
  have hchk : checkAll k h l (h.fresh + 1) val.first = .ok false := by
    rw [checkAll_spec k H hid (h.fresh + 1) bs ys val.first hiy rv.list ev
      (by have := rv.list.length_le; omega)]
    simp only [Except.ok.injEq, decide_eq_false_iff_not]
    intro hall
    obtain ⟨y, hy, hm⟩ := hdup
    exact hall y hy hm
  have hi : ∀ n : Nat, ∃ a b c : Nat, indices s n = .ok ((a : Nat), (b : Nat), 1, (c : Nat)) := by
    intro n
    have h := indices_pos (s := s) (n := n) (by omega)
    rw [h1] at h
    exact ⟨_, _, _, h⟩
  have hs : ∃ a b c : Nat, setIndices s l.len = .ok ((a : Nat), (b : Nat), 1, (c : Nat)) := by
    obtain ⟨a, b, c, e⟩ := hi l.len
    simp only [setIndices, e, bind, Except.bind]
    split
    · rw [← Int.natCast_add]
      exact hi _
    · exact ⟨a, b, c, rfl⟩
  obtain ⟨a, b, c, e⟩ := hs
  simp only [setSlice, e, hchk, bind, Except.bind]
  simp

end Comps.PySeq
