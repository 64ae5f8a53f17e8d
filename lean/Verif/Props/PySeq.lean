import Verif.Lemmas.PyUse
import Verif.Props.Doc

/-!
# Properties of Python sequences (C62-C71)

`α` is the type of object addresses.  `Holds h l xs`: the list `l` on the heap `h` is made of cells
with the objects `xs`.  Lists have fewer than 2^31 elements.
-/

namespace Comps.Props
open Comps Comps.Obj Heap ObjHeap PySeq
open Comps.Spec.Py (Call runAll forRemove)

variable {α : Type}

/-! ## Lists for the examples -/

/-- A list with one more object. -/
def push (s : Heap (Option Nat) × OL) (x : Nat) : Heap (Option Nat) × OL :=
  match ObjHeap.append s.1 s.2 (some x) with
  | .ok r => r
  | .error _ => s

/-- A list of these objects, made by appending. -/
def seqOf (xs : List Nat) : Heap (Option Nat) × OL := xs.foldl push (Heap.empty, create)

theorem seqOf_holds (xs : List Nat) : Holds (seqOf xs).1 (seqOf xs).2 xs := by
  have : ∀ (ys : List Nat) (s : Heap (Option Nat) × OL) (zs : List Nat), Holds s.1 s.2 zs →
      Holds (ys.foldl push s).1 (ys.foldl push s).2 (zs ++ ys) := by
    intro ys
    induction ys with
    | nil => intro s zs h; simpa using h
    | cons y ys ih =>
      intro s zs h
      obtain ⟨h', l', e, H⟩ := h.append y
      have hp : push s y = (h', l') := by simp only [push, e]
      rw [List.foldl_cons, hp]
      have := ih (h', l') (zs ++ [y]) H
      simpa using this
  exact this xs (Heap.empty, create) [] (holds_create _)

/-- The objects of a list, read cell by cell. -/
def objs (h : Heap (Option Nat)) : Nat → Option Nat → List (Option Nat)
  | 0, _ => []
  | _ + 1, none => []
  | fuel + 1, some i => match h.cells i with
    | none => []
    | some c => c.data :: objs h fuel c.next

/-- The objects of the list and the answer of a call. -/
def seen {β : Type} : Res (Heap (Option Nat) × OL × Ans β) → Except Fault (List (Option Nat) × Ans β)
  | .error f => .error f
  | .ok (h, l, a) => .ok (objs h (h.fresh + 1) l.first, a)

/-- Groups at addresses: 1 and 4 have the id `a`, 2 has `b`, 3 has `c`, 0 has none. -/
def groupAt : Nat → Group
  | 1 | 4 => idGrp (fun a b => decide (a < b)) b!"a" []
  | 2 => idGrp (fun a b => decide (a < b)) b!"b" []
  | 3 => idGrp (fun a b => decide (a < b)) b!"c" []
  | _ => Group.create

/-- Their ids. -/
def groupIdAt : Nat → Option CStr
  | 1 | 4 => some ⟨some b!"a"⟩
  | 2 => some ⟨some b!"b"⟩
  | 3 => some ⟨some b!"c"⟩
  | _ => none

/-- Whether they pass. -/
def groupGood : Nat → Bool
  | 1 | 2 | 3 | 4 => true
  | _ => false

theorem groupAt_ident (n : Nat) : (groupKind groupAt).ident n = .ok (groupIdAt n) := by
  match n with
  | 0 | 1 | 2 | 3 | 4 | _ + 5 => rfl

theorem groupAt_passes (n : Nat) : (groupKind groupAt).passes n = .ok (groupGood n) := by
  match n with
  | 0 | 1 | 2 | 3 | 4 | _ + 5 => rfl

/-- The lists that look for ids, with what they take for the id of an object: groups, categories,
environments. -/
inductive IdKind : Kind α → (α → Res (Option CStr)) → Prop
  | groups (get : α → Group) : IdKind (groupKind get) fun a => asStr ((get a).props.get b!"id")
  | categories (get : α → Category) :
    IdKind (categoryKind get) fun a => asStr ((get a).props.get b!"id")
  | environments (get : α → Env) : IdKind (envKind get) fun a => asStr ((get a).props.get b!"id")

theorem IdKind.flags {k : Kind α} {i : α → Res (Option CStr)} (h : IdKind k i) :
    k.extra = true ∧ k.appendUnique = true ∧ k.ident = i ∧ k.key = i := by
  cases h <;> exact ⟨rfl, rfl, rfl, rfl⟩

/-! ## Reading by index (C62) -/

/-- C62: `seq[i]` is the `i`-th element, counted from the end if `i` is negative, and an `IndexError`
outside of the list.  Partial: the index has to fit in an `int`. -/
theorem C62_partial {h : Heap (Option α)} {l : OL} {xs : List α} (H : Holds h l xs)
    (hn : xs.length < 2147483648) {i : Int} (h1 : -2147483648 ≤ i) (h2 : i < 2147483648) :
    getItem h l i = .ok (Spec.Py.getItem xs i) :=
  getItem_holds H hn h1 h2

example : getItem (seqOf [5, 6, 7]).1 (seqOf [5, 6, 7]).2 (-1) = .ok (.ok 7) ∧
    getItem (seqOf [5, 6, 7]).1 (seqOf [5, 6, 7]).2 (-4) = .ok (.error .indexError) :=
  ⟨C62_partial (seqOf_holds [5, 6, 7]) (by decide) (by decide) (by decide),
    C62_partial (seqOf_holds [5, 6, 7]) (by decide) (by decide) (by decide)⟩

/-- C62 does not hold for every index: `seq[2**32]` is the first element. -/
theorem C62_false : Holds (seqOf [5, 6]).1 (seqOf [5, 6]).2 [5, 6] ∧
    getItem (seqOf [5, 6]).1 (seqOf [5, 6]).2 (2 ^ 32) = .ok (.ok 5) ∧
    Spec.Py.getItem [5, 6] (2 ^ 32) = .error .indexError :=
  ⟨seqOf_holds _, rfl, rfl⟩

/-! ## Assignment and deletion by index (C63) -/

/-- C63, deletion: `del seq[i]` removes the `i`-th element or raises `IndexError`.  Partial: the index
is not negative. -/
theorem C63_del_partial {h : Heap (Option α)} {l : OL} {xs : List α} (H : Holds h l xs)
    (hn : xs.length < 2147483648) {i : Int} (h1 : 0 ≤ i) (h2 : i < 2147483648) :
    ∃ h' l', delItem h l i = .ok (h', l', (Spec.Py.delItem xs i).2) ∧
      Holds h' l' (Spec.Py.delItem xs i).1 := by
  obtain ⟨h', l', e, H'⟩ := delItem_holds H hn (by omega) h2
  rw [if_pos h1] at e H'
  exact ⟨h', l', e, H'⟩

/-- C63, assignment to lists of groups, categories, environments: `seq[i] = x` replaces the `i`-th
element, unless another element has the id of `x`.  Partial: the index is not negative, and `x` has
not the id of the element it replaces. -/
theorem C63_set_partial {k : Kind α} {ir : α → Res (Option CStr)} (hk : IdKind k ir)
    {id : α → Option CStr} {h : Heap (Option α)} {l : OL} {xs : List α} (H : Holds h l xs)
    (hn : xs.length < 2147483648) {x : α} (hid : ∀ a ∈ x :: xs, ir a = .ok (id a))
    {i : Int} (h1 : 0 ≤ i) (h2 : i < 2147483648) (hne : ∀ y, xs[i.toNat]? = some y → id y ≠ id x) :
    ∃ h', setItem k h l i (.obj x) = .ok (h', l, (Spec.Py.setItem id xs i x).2) ∧
      Holds h' l (Spec.Py.setItem id xs i x).1 := by
  obtain ⟨f1, -, f3, -⟩ := hk.flags
  obtain ⟨h', e, H'⟩ := setItem_unique (id := id) k H f1 hn
    (by rw [f3]; exact fun a ha => hid a (by simp [ha])) x (by rw [f3]; exact hid x (by simp))
    (by omega) h2
  refine ⟨h', ?_, ?_⟩
  all_goals
    by_cases hi : i < xs.length
    · have hlt : i.toNat < xs.length := by omega
      have hmem : id x ∈ (xs.eraseIdx i.toNat).map id ↔ id x ∈ xs.map id := by
        constructor
        · exact fun hm => ((List.eraseIdx_sublist _ _).map id).mem hm
        · intro hm
          obtain ⟨y, hy, hyx⟩ := List.mem_map.1 hm
          refine List.mem_map.2 ⟨y, ?_, hyx⟩
          rw [List.mem_eraseIdx_iff_getElem?]
          obtain ⟨j, hj⟩ := List.getElem?_of_mem hy
          refine ⟨j, ?_, hj⟩
          rintro rfl
          exact hne y hj hyx
      simp only [Spec.Py.setItem, Spec.Py.place, if_pos (show 0 ≤ i ∧ i < ↑xs.length from ⟨h1, hi⟩),
        hmem]
      first
        | rw [e, if_neg (by omega)]
          split <;> rfl
        | by_cases hm : id x ∈ xs.map id
          · rw [if_pos (.inr (.inl hm))] at H'
            rw [if_pos hm]
            exact H'
          · rw [if_neg (fun hor => hor.elim (by omega) fun h => h.elim hm (by omega))] at H'
            rw [if_neg hm]
            exact H'
    · simp only [Spec.Py.setItem, Spec.Py.place,
        if_neg (show ¬ (0 ≤ i ∧ i < ↑xs.length) by omega),
        if_neg (show ¬ (-↑xs.length ≤ i ∧ i < 0) by omega)]
      first
        | rw [e, if_pos (by omega)]
        | rw [if_pos (.inl (by omega))] at H'
          exact H'

/-- C63, assignment to a list of group ids.  Partial: the index is not negative. -/
theorem C63_gids_partial (get : α → GroupId) (new : Bytes → α) {good : α → Bool}
    {h : Heap (Option α)} {l : OL} {xs : List α} (H : Holds h l xs) (hn : xs.length < 2147483648)
    {x : α} (hg : validates (.groupId (get x)) Val.groupIdRules = .ok (good x))
    {i : Int} (h1 : 0 ≤ i) (h2 : i < 2147483648) :
    ∃ h', setItem (gidKind get new) h l i (.obj x) = .ok (h', l,
        if i ≥ xs.length then .error .indexError
        else if good x then .ok () else .error .valueError) ∧
      Holds h' l (if i ≥ xs.length ∨ good x = false then xs else xs.set i.toNat x) := by
  obtain ⟨h', e, H'⟩ := setItem_any (gidKind get new) H rfl hn x hg (by omega) h2
  refine ⟨h', e, ?_⟩
  simpa [show ¬ i < 0 by omega] using H'

/-- C63, what happens with a negative index: nothing, and no exception (unless the list looks for
ids and has the id). -/
theorem C63_negative {k : Kind α} {ir : α → Res (Option CStr)} (hk : IdKind k ir)
    {id : α → Option CStr} {h : Heap (Option α)} {l : OL} {xs : List α} (H : Holds h l xs)
    (hn : xs.length < 2147483648) {x : α} (hid : ∀ a ∈ x :: xs, ir a = .ok (id a))
    {i : Int} (h1 : -2147483648 ≤ i) (h2 : i < 0) :
    (∃ h' l', delItem h l i = .ok (h', l', .ok ()) ∧ Holds h' l' xs) ∧
    ∃ h', setItem k h l i (.obj x) =
        .ok (h', l, if id x ∈ xs.map id then .error .keyError else .ok ()) ∧ Holds h' l xs := by
  obtain ⟨f1, -, f3, -⟩ := hk.flags
  obtain ⟨h', l', e, H'⟩ := delItem_holds H hn h1 (by omega)
  obtain ⟨h2', e2, H2⟩ := setItem_unique (id := id) k H f1 hn
    (by rw [f3]; exact fun a ha => hid a (by simp [ha])) x (by rw [f3]; exact hid x (by simp))
    h1 (by omega)
  rw [if_neg (by omega)] at e H'
  rw [if_neg (by omega)] at e2
  rw [if_pos (.inr (.inr h2))] at H2
  exact ⟨⟨h', l', e, H'⟩, h2', e2, H2⟩

example : ∃ h' l', delItem (seqOf [5, 6, 7]).1 (seqOf [5, 6, 7]).2 1 = .ok (h', l', .ok ()) ∧
    Holds h' l' [5, 7] :=
  C63_del_partial (seqOf_holds [5, 6, 7]) (by decide) (by decide) (by decide)

example : ∃ h', setItem (groupKind groupAt) (seqOf [1, 2]).1 (seqOf [1, 2]).2 1 (.obj 3) =
    .ok (h', (seqOf [1, 2]).2, .ok ()) ∧ Holds h' (seqOf [1, 2]).2 [1, 3] :=
  C63_set_partial (.groups groupAt) (id := groupIdAt) (seqOf_holds [1, 2]) (by decide)
    (fun a _ => groupAt_ident a) (by decide) (by decide) (by decide)

example : ∃ h', setItem (gidKind (fun n : Nat => gid [97] (n == 0)) fun _ => 9) (seqOf [1, 2]).1
    (seqOf [1, 2]).2 0 (.obj 1) = .ok (h', (seqOf [1, 2]).2, .ok ()) ∧
    Holds h' (seqOf [1, 2]).2 [1, 2] :=
  C63_gids_partial _ _ (good := fun _ => true) (seqOf_holds [1, 2]) (by decide) rfl (by decide)
    (by decide)

/-- C63 does not hold for negative indices: `del seq[-1]` deletes nothing and raises nothing. -/
theorem C63_false_negative :
    seen (delItem (seqOf [5, 6]).1 (seqOf [5, 6]).2 (-1)) = .ok ([some 5, some 6], .ok ()) ∧
    Spec.Py.delItem [5, 6] (-1) = ([5], .ok ()) ∧
    seen (setItem (groupKind groupAt) (seqOf [1, 2]).1 (seqOf [1, 2]).2 (-1) (.obj 3)) =
      .ok ([some 1, some 2], .ok ()) ∧
    Spec.Py.setItem groupIdAt [1, 2] (-1) 3 = ([1, 3], .ok ()) :=
  ⟨rfl, rfl, rfl, rfl⟩

/-- C63 does not hold when an element is replaced by one with the same id: that is a `KeyError`. -/
theorem C63_false_same_id :
    seen (setItem (groupKind groupAt) (seqOf [1, 2]).1 (seqOf [1, 2]).2 0 (.obj 4)) =
      .ok ([some 1, some 2], .error .keyError) ∧
    Spec.Py.setItem groupIdAt [1, 2] 0 4 = ([4, 2], .ok ()) :=
  ⟨rfl, rfl⟩

/-- C63 does not hold for lists of packages: an assignment uses the name of the package as a
dictionary, whatever the packages. -/
theorem C63_false_package (get : α → Package) {h : Heap (Option α)} {l : OL} {xs : List α}
    (H : Holds h l xs) (hn : xs.length < 2147483648) (x : α) {i : Int} (h1 : 0 ≤ i)
    (h2 : i < xs.length) : setItem (packageKind get) h l i (.obj x) = .error .typeConfusion := by
  simp only [setItem, convert, toInt_id (show -2147483648 ≤ i by omega)
    (show i < 2147483648 by omega), len_pred H.len hn]
  rw [if_neg (by omega)]
  rfl

example : setItem (packageKind fun _ : Nat => pkg [97] [98]) (seqOf [1, 2]).1 (seqOf [1, 2]).2 1
    (.obj 3) = .error .typeConfusion :=
  C63_false_package _ (seqOf_holds [1, 2]) (by decide) 3 (by decide) (by decide)

/-! ## Reading slices (C64) -/

/-- C64: `seq[a:b:c]` is a new list of the elements a Python list would give, and `seq` is as before.
Partial: the step is positive and fits in an `int`. -/
theorem C64_partial {h : Heap (Option α)} {l : OL} {xs : List α} (H : Holds h l xs) (s : Slice)
    (h1 : 0 < s.step.getD 1) (h2 : s.step.getD 1 < 2147483648) :
    ∃ h' l' ys, getSlice h l s = .ok (h', .ok l') ∧ Spec.Py.slice xs s = .ok ys ∧
      Holds h' l' ys ∧ Holds h' l xs := by
  obtain ⟨h', l', ys, e1, e2, e3, e4, -⟩ := getSlice_holds H s h1 h2
  exact ⟨h', l', ys, e1, e2, e3, e4⟩

/-- The objects of the new list of a slice. -/
def sliced : Res (Heap (Option Nat) × Ans OL) → Except Fault (Ans (List (Option Nat)))
  | .error f => .error f
  | .ok (_, .error x) => .ok (.error x)
  | .ok (h, .ok l) => .ok (.ok (objs h (h.fresh + 1) l.first))

example : ∃ h' l' ys, getSlice (seqOf [5, 6, 7, 8]).1 (seqOf [5, 6, 7, 8]).2 ⟨some (-3), none, some 2⟩ =
      .ok (h', .ok l') ∧ Spec.Py.slice [5, 6, 7, 8] ⟨some (-3), none, some 2⟩ = .ok ys ∧
    Holds h' l' ys ∧ Holds h' (seqOf [5, 6, 7, 8]).2 [5, 6, 7, 8] :=
  C64_partial (seqOf_holds [5, 6, 7, 8]) _ (by decide) (by decide)

/-- The slice of the example has elements. -/
example : Spec.Py.slice [5, 6, 7, 8] ⟨some (-3), none, some 2⟩ = .ok [6, 8] := by
  simp [Spec.Py.slice, Spec.Py.bound, Spec.Py.everyNth]

/-- C64 does not hold for negative steps: `seq[::-1]` repeats the last element. -/
theorem C64_false : Holds (seqOf [5, 6, 7]).1 (seqOf [5, 6, 7]).2 [5, 6, 7] ∧
    sliced (getSlice (seqOf [5, 6, 7]).1 (seqOf [5, 6, 7]).2 ⟨none, none, some (-1)⟩) =
      .ok (.ok [some 7, some 7, some 7]) ∧
    Spec.Py.slice [5, 6, 7] ⟨none, none, some (-1)⟩ = .ok [7, 6, 5] :=
  ⟨seqOf_holds _, rfl, by simp [Spec.Py.slice, Spec.Py.boundDown, Spec.Py.everyNth]⟩

/-- C64 does not hold for steps beyond `int`: the counter of the loop overflows. -/
theorem C64_false_step : Holds (seqOf [5, 6, 7]).1 (seqOf [5, 6, 7]).2 [5, 6, 7] ∧
    sliced (getSlice (seqOf [5, 6, 7]).1 (seqOf [5, 6, 7]).2 ⟨none, none, some (2 ^ 31)⟩) =
      .error .badConversion ∧
    Spec.Py.slice [5, 6, 7] ⟨none, none, some (2 ^ 31)⟩ = .ok [5] :=
  ⟨seqOf_holds _, rfl, by simp [Spec.Py.slice, Spec.Py.bound, Spec.Py.everyNth]⟩

/-! ## Deleting slices (C65) -/

theorem everyNth_mem (c : Nat) : ∀ (n : Nat) (l : List α), l.length ≤ n →
    ∀ x ∈ Spec.Py.everyNth c l, x ∈ l
  | _, [], _, x, hx => by simp [Spec.Py.everyNth] at hx
  | 0, _ :: _, hn, _, _ => by simp at hn
  | n + 1, y :: l, hn, x, hx => by
    rw [Spec.Py.everyNth] at hx
    rcases List.mem_cons.1 hx with hx | hx
    · simp [hx]
    · have := everyNth_mem c n (l.drop (c - 1)) (by simp at hn ⊢; omega) x hx
      exact List.mem_cons_of_mem _ (List.mem_of_mem_drop this)

theorem positions_lt (n : Nat) (s : Slice) : ∀ p ∈ Spec.Py.positions n s, p < n := by
  intro p hp
  simp only [Spec.Py.positions, Spec.Py.slice] at hp
  have key : p ∈ List.range n := by
    split at hp
    · rename_i ps heq
      split at heq
      · cases heq
      · split at heq
        · cases heq
          exact List.mem_of_mem_take (List.mem_of_mem_drop (everyNth_mem _ _ _ (Nat.le_refl _) p hp))
        · cases heq
          exact List.mem_of_mem_take (List.mem_of_mem_drop
            (List.mem_reverse.1 (everyNth_mem _ _ _ (Nat.le_refl _) p hp)))
    · simp at hp
  simpa using key

theorem spec_delSlice_nil (xs : List α) (s : Slice) (h : Spec.Py.positions xs.length s = []) :
    Spec.Py.delSlice xs s = xs := by
  simp only [Spec.Py.delSlice, h]
  rw [List.filter_eq_self.2 (by simp), List.zipIdx_map_fst]

theorem spec_delSlice_lt (xs : List α) (s : Slice) (h : Spec.Py.positions xs.length s ≠ []) :
    (Spec.Py.delSlice xs s).length < xs.length := by
  obtain ⟨p, hp⟩ := List.exists_mem_of_ne_nil _ h
  have hlt := positions_lt _ _ p hp
  simp only [Spec.Py.delSlice, List.length_map]
  have hle := List.length_filter_le
    (fun e : α × Nat => !(Spec.Py.positions xs.length s).contains e.2) xs.zipIdx
  rw [List.length_zipIdx] at hle
  refine Nat.lt_of_le_of_ne hle ?_
  intro heq
  rw [← List.length_zipIdx (l := xs) (i := 0), List.length_filter_eq_length_iff] at heq
  have := heq (xs[p], p) (by
    rw [List.mem_zipIdx_iff_getElem?]
    simp [hlt])
  simp [hp] at this

/-- C65: `del seq[a:b:c]`.  Partial: only a slice that selects nothing, with bounds that are not
negative. -/
theorem C65_partial {h : Heap (Option α)} {l : OL} {xs : List α} (H : Holds h l xs) {a b : Nat}
    (hab : b ≤ a) {st : Option Int} (hst : 0 < st.getD 1) :
    ∃ h' l', delSlice h l ⟨some a, some b, st⟩ = .ok (h', l', .ok ()) ∧
      Holds h' l' (Spec.Py.delSlice xs ⟨some a, some b, st⟩) := by
  refine ⟨h, l, delSlice_none H a b hab hst, ?_⟩
  rw [spec_delSlice_nil]
  · exact H
  · simp only [Spec.Py.positions, Spec.Py.slice, if_neg (show ¬ st.getD 1 = 0 by omega), if_pos hst,
      Spec.Py.bound, if_neg (show ¬ (a : Int) < 0 by omega), if_neg (show ¬ (b : Int) < 0 by omega),
      Int.toNat_natCast]
    rw [List.drop_of_length_le (by simp; omega)]
    simp [Spec.Py.everyNth]

example : ∃ h' l', delSlice (seqOf [5, 6, 7]).1 (seqOf [5, 6, 7]).2 ⟨some (2 : Nat), some (1 : Nat), none⟩ =
    .ok (h', l', .ok ()) ∧
    Holds h' l' (Spec.Py.delSlice [5, 6, 7] ⟨some (2 : Nat), some (1 : Nat), none⟩) :=
  C65_partial (seqOf_holds [5, 6, 7]) (by decide) (by decide)

/-- C65 holds for no slice that selects something: the list has never the elements it should have. -/
theorem C65_false {h : Heap (Option α)} {l : OL} {xs : List α} (H : Holds h l xs) (s : Slice)
    (hs : Spec.Py.positions xs.length s ≠ []) :
    ¬ ∃ h' l', delSlice h l s = .ok (h', l', .ok ()) ∧ Holds h' l' (Spec.Py.delSlice xs s) := by
  rintro ⟨h', l', e, H'⟩
  have hl := H.len
  obtain ⟨as, r, -⟩ := H
  obtain ⟨rfl, -⟩ := delSlice_len r s e
  have := H'.len
  have := spec_delSlice_lt xs s hs
  omega

/-- C65, what happens if the first of the selected elements is not the last of the list: undefined
behaviour. -/
theorem C65_crash {h : Heap (Option α)} {l : OL} {xs : List α} (H : Holds h l xs) (s : Slice)
    (hs : 0 < s.step.getD 1)
    (hlt : Spec.Py.bound xs.length 0 s.start < Spec.Py.bound xs.length xs.length s.stop)
    (hne : Spec.Py.bound xs.length 0 s.start + 1 < xs.length) :
    ∃ f, delSlice h l s = .error f := by
  obtain ⟨as, r, e⟩ := H
  have hl : as.length = xs.length := by simpa using congrArg List.length e
  rw [← hl] at hlt hne
  exact delSlice_crash r s hs hlt hne

example : ∃ f, delSlice (seqOf [5, 6, 7]).1 (seqOf [5, 6, 7]).2 ⟨some 0, some 1, none⟩ = .error f :=
  C65_crash (seqOf_holds [5, 6, 7]) _ (by decide) (by decide) (by decide)

/-- C65, further deviations: deleting the last element by a slice leaves a cell without an object;
deleting nothing at the end is a `ValueError`; `del seq[1:-2]` of three elements, which selects
nothing, is undefined behaviour. -/
theorem C65_false_more :
    seen (delSlice (seqOf [5, 6, 7]).1 (seqOf [5, 6, 7]).2 ⟨some 2, none, none⟩) =
      .ok ([some 5, some 6, none], .ok ()) ∧
    seen (delSlice (seqOf [5, 6, 7]).1 (seqOf [5, 6, 7]).2 ⟨some 3, none, none⟩) =
      .ok ([some 5, some 6, some 7], .error .valueError) ∧
    Spec.Py.positions 3 ⟨some 3, none, none⟩ = [] ∧
    seen (delSlice (seqOf [5, 6, 7]).1 (seqOf [5, 6, 7]).2 ⟨some 1, some (-2), none⟩) =
      .error .useAfterFree ∧
    Spec.Py.positions 3 ⟨some 1, some (-2), none⟩ = [] :=
  ⟨rfl, rfl, by
    have : (List.range 3).drop 3 = [] := rfl
    simp [Spec.Py.positions, Spec.Py.slice, Spec.Py.bound, this, Spec.Py.everyNth], rfl,
    by simp [Spec.Py.positions, Spec.Py.slice, Spec.Py.bound, Spec.Py.everyNth]⟩

/-! ## Assigning to slices (C66) -/

/-- The cells of the two lists are different. -/
def Apart (h : Heap (Option α)) (l val : OL) : Prop :=
  ∀ as bs, Rep h l as → Rep h val bs → ∀ b ∈ addrs bs, b ∉ addrs as

/-- C66: `seq[a:b] = val` replaces the elements of the slice by those of `val`.  Partial: no id of
`val` is in the list, and either the slice has elements and is not shorter than `val` unless it goes
to the end, or it is at the end of the list. -/
theorem C66_partial {k : Kind α} {ir : α → Res (Option CStr)} (hk : IdKind k ir)
    {id : α → Option CStr} {h : Heap (Option α)} {l val : OL} {xs ys : List α} (H : Holds h l xs)
    (Hv : Holds h val ys) (ha : Apart h l val) (hid : ∀ a ∈ xs ++ ys, ir a = .ok (id a))
    (hnew : ∀ y ∈ ys, id y ∉ xs.map id) (s : Slice) (h1 : s.step.getD 1 = 1)
    (hc : (Spec.Py.bound xs.length 0 s.start < Spec.Py.bound xs.length xs.length s.stop ∧
        (ys.length ≤ Spec.Py.bound xs.length xs.length s.stop - Spec.Py.bound xs.length 0 s.start ∨
          Spec.Py.bound xs.length xs.length s.stop = xs.length)) ∨
      Spec.Py.bound xs.length 0 s.start = xs.length) :
    ∃ h' l', setSlice k h l s val = .ok (h', l', .ok ()) ∧
      Holds h' l' (Spec.Py.setSlice xs s.start s.stop ys) ∧ Holds h' val ys := by
  obtain ⟨-, -, f3, -⟩ := hk.flags
  obtain ⟨as, r, e⟩ := H
  obtain ⟨bs, rv, ev⟩ := Hv
  exact setSlice_holds k ⟨r, e⟩ ⟨rv, ev⟩ (ha as bs r rv)
    (by rw [f3]; exact fun a h => hid a (by simp [h]))
    (by rw [f3]; exact fun a h => hid a (by simp [h])) hnew s h1 hc

/-- C66, an id that is in the list already: `KeyError`, and nothing changes. -/
theorem C66_key_error {k : Kind α} {ir : α → Res (Option CStr)} (hk : IdKind k ir)
    {id : α → Option CStr} {h : Heap (Option α)} {l val : OL} {xs ys : List α} (H : Holds h l xs)
    (Hv : Holds h val ys) (hid : ∀ a ∈ xs ++ ys, ir a = .ok (id a))
    (hdup : ∃ y ∈ ys, id y ∈ xs.map id) (s : Slice) (h1 : s.step.getD 1 = 1) :
    setSlice k h l s val = .ok (h, l, .error .keyError) := by
  obtain ⟨-, -, f3, -⟩ := hk.flags
  exact setSlice_dup k H Hv (by rw [f3]; exact fun a h => hid a (by simp [h]))
    (by rw [f3]; exact fun a h => hid a (by simp [h])) hdup s h1

/-- A second list on the heap of the first. -/
def withSeq (s : Heap (Option Nat) × OL) (ys : List Nat) : Heap (Option Nat) × OL :=
  ys.foldl push (s.1, create)

theorem rep_unique {h : Heap (Option α)} {l : OL} {as bs : List (Nat × Option α)} (r : Rep h l as)
    (r' : Rep h l bs) : as = bs := by
  have key : ∀ (as bs : List (Nat × Option α)) (it : Option Nat), IsList h it as → IsList h it bs →
      as = bs := by
    intro as
    induction as with
    | nil =>
      intro bs it h1 h2
      have : it = none := h1.seg
      subst this
      exact h2.nil_iff.symm
    | cons x as ih =>
      intro bs it h1 h2
      obtain ⟨a, d⟩ := x
      obtain ⟨rfl, n, hc, h3, -⟩ := h1.cons_inv
      cases bs with
      | nil => have := h2.seg; cases this
      | cons y bs =>
        obtain ⟨b, d'⟩ := y
        obtain ⟨hb, n', hc', h4, -⟩ := h2.cons_inv
        cases hb
        rw [hc] at hc'
        cases hc'
        rw [ih bs n h3 h4]
  exact key as bs _ r.list r'.list

theorem withSeq_spec {s : Heap (Option Nat) × OL} {xs : List Nat} (H : Holds s.1 s.2 xs)
    (ys : List Nat) : Holds (withSeq s ys).1 s.2 xs ∧ Holds (withSeq s ys).1 (withSeq s ys).2 ys ∧
      Apart (withSeq s ys).1 s.2 (withSeq s ys).2 := by
  obtain ⟨as, r, e⟩ := H
  have key : ∀ (ys zs : List Nat) (t : Heap (Option Nat) × OL) (bs : List (Nat × Option Nat)),
      Rep t.1 s.2 as → Rep t.1 t.2 bs → bs.map Prod.snd = zs.map some →
      (∀ b ∈ addrs bs, b ∉ addrs as) →
      ∃ bs', Rep (ys.foldl push t).1 s.2 as ∧ Rep (ys.foldl push t).1 (ys.foldl push t).2 bs' ∧
        bs'.map Prod.snd = (zs ++ ys).map some ∧ ∀ b ∈ addrs bs', b ∉ addrs as := by
    intro ys
    induction ys with
    | nil => intro zs t bs h1 h2 h3 h4; exact ⟨bs, h1, h2, by simpa using h3, h4⟩
    | cons y ys ih =>
      intro zs t bs h1 h2 h3 h4
      obtain ⟨h', l', e', r', f, -⟩ := append_rep h2 (some y)
      have hp : push t y = (h', l') := by simp only [push, e']
      rw [List.foldl_cons, hp]
      obtain ⟨bs', k1, k2, k3, k4⟩ := ih (zs ++ [y]) (h', l') (bs ++ [(t.1.fresh, some y)])
        (Frame.rep f h1 fun b hb hb' => h4 b hb' hb) r' (by simp [h3]) (by
          intro b hb hb'
          simp only [addrs, List.map_append, List.mem_append, List.map_cons, List.map_nil,
            List.mem_singleton] at hb
          rcases hb with hb | rfl
          · exact h4 b hb hb'
          · exact absurd (h1.list.bnd _ hb') (by omega))
      exact ⟨bs', k1, k2, by simpa using k3, k4⟩
  obtain ⟨bs, k1, k2, k3, k4⟩ := key ys [] (s.1, create) [] r (rep_create _) rfl (by simp [addrs])
  refine ⟨⟨as, k1, e⟩, ⟨bs, k2, by simpa using k3⟩, ?_⟩
  intro as' bs' r1 r2
  rw [rep_unique r1 k1, rep_unique r2 k2]
  exact k4

/-- The outcome of `seq[s] = val` for lists of these groups. -/
def assigned (xs : List Nat) (s : Slice) (ys : List Nat) :
    Except Fault (List (Option Nat) × Ans Unit) :=
  seen (setSlice (groupKind groupAt) (withSeq (seqOf xs) ys).1 (seqOf xs).2 s (withSeq (seqOf xs) ys).2)

/-- Three groups, the first two replaced by one other. -/
example : ∃ h' l', setSlice (groupKind groupAt) (withSeq (seqOf [1, 2, 0]) [3]).1 (seqOf [1, 2, 0]).2
      ⟨none, some 2, none⟩ (withSeq (seqOf [1, 2, 0]) [3]).2 = .ok (h', l', .ok ()) ∧
    Holds h' l' [3, 0] ∧ Holds h' (withSeq (seqOf [1, 2, 0]) [3]).2 [3] := by
  obtain ⟨k1, k2, k3⟩ := withSeq_spec (seqOf_holds [1, 2, 0]) [3]
  exact C66_partial (.groups groupAt) (id := groupIdAt) k1 k2 k3 (fun a _ => groupAt_ident a)
    (by decide) ⟨none, some 2, none⟩ (by decide) (.inl (by decide))

example : setSlice (groupKind groupAt) (withSeq (seqOf [1, 2]) [4]).1 (seqOf [1, 2]).2
      ⟨none, some 1, none⟩ (withSeq (seqOf [1, 2]) [4]).2 =
    .ok ((withSeq (seqOf [1, 2]) [4]).1, (seqOf [1, 2]).2, .error .keyError) := by
  obtain ⟨k1, k2, -⟩ := withSeq_spec (seqOf_holds [1, 2]) [4]
  exact C66_key_error (.groups groupAt) (id := groupIdAt) k1 k2 (fun a _ => groupAt_ident a)
    (by decide) _ (by decide)

/-- C66 does not hold in general: a longer value overwrites the elements after the slice, inserting at
an empty slice overwrites, replacing a slice by its own elements is a `KeyError`, and the exchange
of every second element is a `ValueError`. -/
theorem C66_false :
    assigned [1, 2] ⟨some 0, some 1, none⟩ [3, 0] = .ok ([some 3, some 0], .ok ()) ∧
    Spec.Py.setSlice [1, 2] (some 0) (some 1) [3, 0] = [3, 0, 2] ∧
    assigned [1, 2] ⟨some 0, some 0, none⟩ [3] = .ok ([some 3, some 2], .ok ()) ∧
    Spec.Py.setSlice [1, 2] (some 0) (some 0) [3] = [3, 1, 2] ∧
    assigned [1, 2] ⟨none, none, none⟩ [1, 2] = .ok ([some 1, some 2], .error .keyError) ∧
    Spec.Py.setSlice [1, 2] none none [1, 2] = [1, 2] ∧
    assigned [1, 2, 0] ⟨none, none, some 2⟩ [3, 4] = .ok ([some 1, some 2, some 0], .error .valueError) :=
  ⟨rfl, rfl, rfl, rfl, rfl, rfl, rfl⟩

/-- C66 does not hold for lists of packages and of group ids: assigning a list that is not empty
uses the wrong memory. -/
theorem C66_false_other (pget : α → Package) (gget : α → GroupId) (new : Bytes → α)
    {h : Heap (Option α)} {l val : OL} {ys : List α} (Hv : Holds h val ys) (hy : ys ≠ [])
    (a b : Option Int) :
    setSlice (packageKind pget) h l ⟨a, b, none⟩ val = .error .typeConfusion ∧
    setSlice (gidKind gget new) h l ⟨a, b, none⟩ val = .error .typeConfusion := by
  obtain ⟨bs, rv, ev⟩ := Hv
  have hi : ∀ n : Nat, ∃ p q r : Nat, indices ⟨a, b, none⟩ n = .ok ((p : Nat), (q : Nat), 1, (r : Nat)) :=
    fun n => ⟨_, _, _, indices_pos (s := ⟨a, b, none⟩) (n := n) (show (0 : Int) < 1 by decide)⟩
  have hs : ∃ p q r : Nat, setIndices ⟨a, b, none⟩ l.len = .ok ((p : Nat), (q : Nat), 1, (r : Nat)) := by
    obtain ⟨p, q, r, e⟩ := hi l.len
    simp only [setIndices, e, bind, Except.bind]
    split
    · rw [← Int.natCast_add]
      exact hi _
    · exact ⟨p, q, r, rfl⟩
  obtain ⟨p, q, r, e⟩ := hs
  cases bs with
  | nil =>
    cases ys with
    | nil => exact absurd rfl hy
    | cons y ys => simp at ev
  | cons c bs =>
    cases ys with
    | nil => exact absurd rfl hy
    | cons y ys =>
      obtain ⟨t, d⟩ := c
      simp only [List.map_cons, List.cons.injEq] at ev
      obtain ⟨rfl, ev⟩ := ev
      obtain ⟨hf, n, hc, -⟩ := rv.list.cons_inv
      simp only [setSlice, e, hf, checkAll, deref_ok hc, bind, Except.bind]
      constructor <;> simp [uniqueCheck, identOf, packageKind, gidKind, bind, Except.bind]

example : setSlice (packageKind fun _ : Nat => pkg [97] [98]) (withSeq (seqOf [1]) [2]).1 (seqOf [1]).2
    ⟨none, none, none⟩ (withSeq (seqOf [1]) [2]).2 = .error .typeConfusion :=
  (C66_false_other _ (fun _ : Nat => gid [97] true) (fun _ => 9)
    (withSeq_spec (seqOf_holds [1]) [2]).2.1 (by simp) none none).1

/-! ## No id twice (C67) -/

/-- C67: whatever a program does to a new list of groups, categories or environments, no two elements
have the same id.  Partial: the program does not insert and does not assign to slices. -/
theorem C67_partial [DecidableEq α] {k : Kind α} {ir : α → Res (Option CStr)} (hk : IdKind k ir)
    {id : α → Option CStr} {good : α → Bool} (h : Heap (Option α)) (cs : List (Call α))
    (hr : ∀ c ∈ cs, c.inRange) (hlen : cs.length < 2147483648)
    (ho : ∀ c ∈ cs, ∀ a ∈ c.objs, ir a = .ok (id a) ∧ k.passes a = .ok (good a))
    (hni : ∀ c ∈ cs, c.notInsert) :
    ∃ h' l' xs, runAll k cs h create = .ok (h', l') ∧ Holds h' l' xs ∧ (xs.map id).Nodup := by
  obtain ⟨f1, f2, f3, -⟩ := hk.flags
  obtain ⟨h', l', e, H⟩ := runAll_spec (id := id) (good := good) k f2 f1 cs h create [] (holds_create h)
    hr (by simpa using hlen) (by simp) (by rw [f3]; exact ho)
  exact ⟨h', l', _, e, H, foldl_nodup cs [] (by simp) hni⟩

/-- C67, what the calls do (also insertions): the elements are those of the calls carried out one
after the other on a sequence. -/
theorem C67_effect [DecidableEq α] {k : Kind α} {ir : α → Res (Option CStr)} (hk : IdKind k ir)
    {id : α → Option CStr} {good : α → Bool} (h : Heap (Option α)) (cs : List (Call α))
    (hr : ∀ c ∈ cs, c.inRange) (hlen : cs.length < 2147483648)
    (ho : ∀ c ∈ cs, ∀ a ∈ c.objs, ir a = .ok (id a) ∧ k.passes a = .ok (good a)) :
    ∃ h' l', runAll k cs h create = .ok (h', l') ∧
      Holds h' l' (cs.foldl (fun xs c => c.effect id good xs) []) := by
  obtain ⟨f1, f2, f3, -⟩ := hk.flags
  exact runAll_spec (id := id) (good := good) k f2 f1 cs h create [] (holds_create h)
    hr (by simpa using hlen) (by simp) (by rw [f3]; exact ho)

/-- A program: two groups, a third with the id of the first, an exchange, a removal. -/
def program : List (Call Nat) := [.append 1, .append 2, .append 4, .set 1 3, .append 2, .del 0]

example : ∃ h' l' xs, runAll (groupKind groupAt) program Heap.empty create = .ok (h', l') ∧
    Holds h' l' xs ∧ (xs.map groupIdAt).Nodup :=
  C67_partial (.groups groupAt) (good := groupGood) Heap.empty program
    (by simp [program, Call.inRange]) (by decide)
    (fun _ _ a _ => ⟨groupAt_ident a, groupAt_passes a⟩) (by simp [program, Call.notInsert])

example : ∃ h' l', runAll (groupKind groupAt) program Heap.empty create = .ok (h', l') ∧
    Holds h' l' [3, 2] := by
  have := C67_effect (.groups groupAt) (id := groupIdAt) (good := groupGood) Heap.empty program
    (by simp [program, Call.inRange]) (by decide)
    (fun _ _ a _ => ⟨groupAt_ident a, groupAt_passes a⟩)
  rwa [show program.foldl (fun xs c => c.effect groupIdAt groupGood xs) [] = [3, 2] by decide] at this

/-- C67 does not hold with insertions: `insert` does not look for the id. -/
theorem C67_false : groupIdAt 1 = groupIdAt 4 ∧
    seen (insert (groupKind groupAt) (seqOf [1]).1 (seqOf [1]).2 0 (.obj 4)) =
      .ok ([some 4, some 1], .ok ()) :=
  ⟨rfl, rfl⟩

/-! ## Appending, inserting, removing (C68) -/

/-- C68: `append`, `insert` and `remove` do what they do to a Python list: `append` refuses an id that
is there, both refuse an object that is not valid, `remove` takes out the first occurrence of the
object or raises `ValueError`.  Partial: the item is an object of the type of the list. -/
theorem C68_partial [DecidableEq α] {k : Kind α} {ir : α → Res (Option CStr)} (hk : IdKind k ir)
    {id : α → Option CStr} {good : α → Bool} {h : Heap (Option α)} {l : OL} {xs : List α}
    (H : Holds h l xs) (hn : xs.length < 2147483648) {x : α}
    (hid : ∀ a ∈ x :: xs, ir a = .ok (id a)) (hg : k.passes x = .ok (good x)) :
    (∃ h' l', append k h l (.obj x) = .ok (h', l', (Spec.Py.append id good xs x).2) ∧
      Holds h' l' (Spec.Py.append id good xs x).1) ∧
    (∀ i : Int, -2147483648 ≤ i → i < 2147483648 →
      ∃ h' l', insert k h l i (.obj x) = .ok (h', l', (Spec.Py.insert good xs i x).2) ∧
        Holds h' l' (Spec.Py.insert good xs i x).1) ∧
    ∃ h' l', remove k h l (.obj x) = .ok (h', l', (Spec.Py.remove xs x).2) ∧
      Holds h' l' (Spec.Py.remove xs x).1 := by
  obtain ⟨-, f2, f3, -⟩ := hk.flags
  exact ⟨append_unique k H f2 (by rw [f3]; exact fun a h => hid a (by simp [h])) x
      (by rw [f3]; exact hid x (by simp)) hg,
    fun i h1 h2 => insert_holds k H hn x hg h1 h2, remove_holds k H x⟩

/-- C68 for lists of packages and group ids: the same without looking for ids. -/
theorem C68_other_partial [DecidableEq α] (pget : α → Package) (gget : α → GroupId)
    (new : Bytes → α) {k : Kind α} (hk : k = packageKind pget ∨ k = gidKind gget new)
    {good : α → Bool} {h : Heap (Option α)} {l : OL} {xs : List α}
    (H : Holds h l xs) (hn : xs.length < 2147483648) {x : α} (hg : k.passes x = .ok (good x)) :
    (∃ h' l', append k h l (.obj x) = .ok (h', l', (Spec.Py.appendAny good xs x).2) ∧
      Holds h' l' (Spec.Py.appendAny good xs x).1) ∧
    (∀ i : Int, -2147483648 ≤ i → i < 2147483648 →
      ∃ h' l', insert k h l i (.obj x) = .ok (h', l', (Spec.Py.insert good xs i x).2) ∧
        Holds h' l' (Spec.Py.insert good xs i x).1) ∧
    ∃ h' l', remove k h l (.obj x) = .ok (h', l', (Spec.Py.remove xs x).2) ∧
      Holds h' l' (Spec.Py.remove xs x).1 := by
  have f : k.appendUnique = false := by rcases hk with rfl | rfl <;> rfl
  exact ⟨append_any k H f x hg, fun i h1 h2 => insert_holds k H hn x hg h1 h2, remove_holds k H x⟩

example : ∃ h' l', insert (groupKind groupAt) (seqOf [1, 2]).1 (seqOf [1, 2]).2 (-1) (.obj 3) =
    .ok (h', l', .ok ()) ∧ Holds h' l' [1, 3, 2] :=
  (C68_partial (.groups groupAt) (id := groupIdAt) (good := groupGood) (seqOf_holds [1, 2]) (by decide)
    (x := 3) (fun a _ => groupAt_ident a) (groupAt_passes 3)).2.1 (-1) (by decide) (by decide)

example : ∃ h' l', append (packageKind fun _ : Nat => pkg [97] [98]) (seqOf [1, 2]).1 (seqOf [1, 2]).2
    (.obj 1) = .ok (h', l', .ok ()) ∧ Holds h' l' [1, 2, 1] :=
  (C68_other_partial _ (fun _ => gid [97] true) (fun _ => 9) (.inl rfl) (good := fun _ => true)
    (seqOf_holds [1, 2]) (by decide) (x := 1) rfl).1

/-- C68 for strings: a list of group ids takes a string for the object made of it. -/
theorem C68_strings_partial [DecidableEq α] (gget : α → GroupId) (new : Bytes → α)
    {good : α → Bool} {h : Heap (Option α)} {l : OL} {xs : List α}
    (H : Holds h l xs) (hn : xs.length < 2147483648) (s : Bytes)
    (hg : (gidKind gget new).passes (new s) = .ok (good (new s))) :
    (∃ h' l', append (gidKind gget new) h l (.str s) =
        .ok (h', l', (Spec.Py.appendAny good xs (new s)).2) ∧
      Holds h' l' (Spec.Py.appendAny good xs (new s)).1) ∧
    (∀ i : Int, -2147483648 ≤ i → i < 2147483648 →
      ∃ h' l', insert (gidKind gget new) h l i (.str s) =
          .ok (h', l', (Spec.Py.insert good xs i (new s)).2) ∧
        Holds h' l' (Spec.Py.insert good xs i (new s)).1) :=
  ⟨append_any (gidKind gget new) H rfl (new s) hg,
    fun i h1 h2 => insert_holds (gidKind gget new) H hn (new s) hg h1 h2⟩

example : ∃ h' l', append (gidKind (fun _ : Nat => gid [97] true) fun _ => 9) (seqOf [1, 2]).1
    (seqOf [1, 2]).2 (.str [97]) = .ok (h', l', .ok ()) ∧ Holds h' l' [1, 2, 9] :=
  (C68_strings_partial _ _ (good := fun _ => true) (seqOf_holds [1, 2]) (by decide) [97] (by rfl)).1

/-- C68: an item of another type, and a string for a list of anything but group ids, is refused with
`TypeError` by `append`, `insert`, `remove` and assignment, and nothing changes. -/
theorem C68_type_error [DecidableEq α] (ggrp : α → Group) (gcat : α → Category) (genv : α → Env)
    (gpkg : α → Package) (ggid : α → GroupId) (new : Bytes → α) {k : Kind α} {item : Item α}
    (hi : (item = .other ∧ (k = groupKind ggrp ∨ k = categoryKind gcat ∨ k = envKind genv ∨
        k = packageKind gpkg ∨ k = gidKind ggid new)) ∨
      ((∃ s, item = .str s) ∧ (k = groupKind ggrp ∨ k = categoryKind gcat ∨ k = envKind genv ∨
        k = packageKind gpkg)))
    (h : Heap (Option α)) (l : OL) (i : Int) :
    append k h l item = .ok (h, l, .error .typeError) ∧
    insert k h l i item = .ok (h, l, .error .typeError) ∧
    remove k h l item = .ok (h, l, .error .typeError) ∧
    setItem k h l i item = .ok (h, l, .error .typeError) := by
  rcases hi with ⟨rfl, rfl | rfl | rfl | rfl | rfl⟩ | ⟨⟨s, rfl⟩, rfl | rfl | rfl | rfl⟩ <;>
    exact ⟨rfl, rfl, rfl, rfl⟩

example : append (groupKind groupAt) (seqOf [1, 2]).1 (seqOf [1, 2]).2 (.str [97]) =
    .ok ((seqOf [1, 2]).1, (seqOf [1, 2]).2, .error .typeError) :=
  (C68_type_error groupAt (fun _ => Category.create) (fun _ => Env.create) (fun _ => Package.create)
    (fun _ => gid [97] true) (fun _ => 9) (.inr ⟨⟨[97], rfl⟩, .inl rfl⟩) _ _ 0).1

/-- C68 does not hold for strings: a list of group ids holds the id `a` appended as a string, and
removing the string `a` is a `ValueError`, because the string is made into a new object and objects
are compared by address. -/
theorem C68_false (get : α → GroupId) [DecidableEq α] (new : Bytes → α) {h : Heap (Option α)}
    {l : OL} {xs : List α} (H : Holds h l xs) (s : Bytes) (hnew : new s ∉ xs) :
    ∃ h' l', remove (gidKind get new) h l (.str s) = .ok (h', l', .error .valueError) ∧
      Holds h' l' xs := by
  have := remove_holds (gidKind get new) H (new s)
  simpa [Spec.Py.remove, hnew, PySeq.remove, convert, gidKind] using this

example : ∃ h' l', remove (gidKind (fun _ : Nat => gid [97] true) fun _ => 9) (seqOf [1, 2]).1
    (seqOf [1, 2]).2 (.str [97]) = .ok (h', l', .error .valueError) ∧ Holds h' l' [1, 2] :=
  C68_false _ _ (seqOf_holds [1, 2]) [97] (by decide)

/-! ## Looking up by id (C69) -/

/-- C69: `seq["id"]` is the first element with that id, and a `KeyError` if there is none.  Partial:
lists of packages only if every package has a name. -/
theorem C69_partial {k : Kind α} {ir : α → Res (Option CStr)}
    (hk : IdKind k ir ∨ ∃ get : α → Package, k = packageKind get ∧ ir = fun a =>
      match (get a).name with
      | none => .error .nullDeref
      | some s => .ok (some s))
    {id : α → Option CStr} {h : Heap (Option α)} {l : OL} {xs : List α} (H : Holds h l xs)
    (hid : ∀ a ∈ xs, ir a = .ok (id a)) (s : Bytes) :
    (∀ a, getById k h l s = .ok (.ok a) ↔
      ∃ pre post, xs = pre ++ a :: post ∧ id a = some ⟨some s⟩ ∧ ∀ b ∈ pre, id b ≠ some ⟨some s⟩) ∧
    (getById k h l s = .ok (.error .keyError) ↔ ∀ a ∈ xs, id a ≠ some ⟨some s⟩) := by
  have f : k.key = ir := by
    rcases hk with hk | ⟨get, rfl, rfl⟩
    · exact hk.flags.2.2.2
    · rfl
  rw [getById_holds (key := id) k H (by rw [f]; exact hid) s]
  constructor
  · intro a
    cases hf : xs.find? fun a => id a = some ⟨some s⟩ with
    | none =>
      refine ⟨fun h => by simp at h, ?_⟩
      rintro ⟨pre, post, rfl, h1, -⟩
      rw [List.find?_eq_none] at hf
      exact absurd h1 (by simpa using hf a (by simp))
    | some b =>
      obtain ⟨h1, pre, post, rfl, h2⟩ := List.find?_eq_some_iff_append.1 hf
      simp only [decide_eq_true_eq] at h1
      have h2 : ∀ c ∈ pre, id c ≠ some ⟨some s⟩ := by
        intro c hc
        simpa using h2 c hc
      constructor
      · intro h
        cases h
        exact ⟨pre, post, rfl, h1, h2⟩
      · rintro ⟨pre', post', e, h3, h4⟩
        have h5 : (pre' ++ a :: post').find? (fun a => id a = some ⟨some s⟩) = some a := by
          rw [List.find?_eq_some_iff_append]
          exact ⟨by simpa using h3, pre', post', rfl, by simpa using h4⟩
        rw [← e, hf] at h5
        cases h5
        rfl
  · cases hf : xs.find? fun a => id a = some ⟨some s⟩ with
    | none =>
      rw [List.find?_eq_none] at hf
      exact ⟨fun _ a ha => by simpa using hf a ha, fun _ => rfl⟩
    | some b =>
      have h1 := List.find?_some hf
      have h2 := List.mem_of_find?_eq_some hf
      refine ⟨fun h => (by simp at h), fun h => ?_⟩
      exact absurd (by simpa using h1) (h b h2)

example : getById (groupKind groupAt) (seqOf [3, 4, 1]).1 (seqOf [3, 4, 1]).2 b!"a" = .ok (.ok 4) :=
  ((C69_partial (.inl (.groups groupAt)) (id := groupIdAt) (seqOf_holds [3, 4, 1])
    (fun a _ => groupAt_ident a) b!"a").1 4).2 ⟨[3], [1], rfl, rfl, by decide⟩

/-- C69 does not hold for a list with a package without a name: NULL is used as an object. -/
theorem C69_false : getById (packageKind fun _ : Nat => Package.create) (seqOf [1]).1 (seqOf [1]).2
    [97] = .error .nullDeref := rfl

/-! ## Loops (C70) -/

/-- C70: a loop over a sequence sees its elements in order, each once, also when elements are taken
out in the loop.  Partial: an element taken out is the one just seen. -/
theorem C70_partial [DecidableEq α] (k : Kind α) (p : α → Bool) {h : Heap (Option α)} {l : OL}
    {xs : List α} (H : Holds h l xs) :
    ∃ h' l', forRemove k p (l.len + 1) h l (getIter l) = .ok (xs, h', l') ∧
      Holds h' l' (xs.filter fun x => !p x) := by
  obtain ⟨as, r, e⟩ := H
  have := forRemove_spec k p (l.len + 1) h l [] as [] xs l.first (by simpa using r) r.list rfl e
    (by simp) (by rw [r.len]; omega)
  simpa [getIter] using this

example : ∃ h' l', forRemove (groupKind groupAt) (fun n => n == 2 || n == 3) ((seqOf [1, 2, 3]).2.len + 1)
      (seqOf [1, 2, 3]).1 (seqOf [1, 2, 3]).2 (getIter (seqOf [1, 2, 3]).2) =
    .ok ([1, 2, 3], h', l') ∧ Holds h' l' [1] :=
  C70_partial (groupKind groupAt) (fun n => n == 2 || n == 3) (seqOf_holds [1, 2, 3])

/-- C70 does not hold when the element after the one just seen is taken out, or the list is cleared:
the iterator then reads freed memory. -/
theorem C70_false : ∃ it, iterNext (seqOf [1, 2]).1 (getIter (seqOf [1, 2]).2) = .ok (some 1, it) ∧
    (∃ h' l', remove (groupKind groupAt) (seqOf [1, 2]).1 (seqOf [1, 2]).2 (.obj 2) =
      .ok (h', l', .ok ()) ∧ iterNext h' it = .error .useAfterFree) ∧
    ∃ h' l', PySeq.clear (seqOf [1, 2]).1 (seqOf [1, 2]).2 = .ok (h', l', .ok ()) ∧
      iterNext h' it = .error .useAfterFree :=
  ⟨_, rfl, ⟨_, _, rfl, rfl⟩, _, _, rfl, rfl⟩

/-! ## Only valid members (C71) -/

/-- C71: whatever a program does to a new list of groups, categories or environments, every element
has passed the validation of its type.  Partial: the program does not assign. -/
theorem C71_partial [DecidableEq α] {k : Kind α} {ir : α → Res (Option CStr)} (hk : IdKind k ir)
    {id : α → Option CStr} {good : α → Bool} (h : Heap (Option α)) (cs : List (Call α))
    (hr : ∀ c ∈ cs, c.inRange) (hlen : cs.length < 2147483648)
    (ho : ∀ c ∈ cs, ∀ a ∈ c.objs, ir a = .ok (id a) ∧ k.passes a = .ok (good a))
    (hns : ∀ c ∈ cs, c.notSet) :
    ∃ h' l' xs, runAll k cs h create = .ok (h', l') ∧ Holds h' l' xs ∧ ∀ x ∈ xs, good x = true := by
  obtain ⟨h', l', e, H⟩ := C67_effect hk h cs hr hlen ho
  exact ⟨h', l', _, e, H, foldl_good cs [] (by simp) hns⟩

example : ∃ h' l' xs, runAll (groupKind groupAt) [.append 1, .append 0, .insert 0 2, .remove 1]
      Heap.empty create = .ok (h', l') ∧ Holds h' l' xs ∧ ∀ x ∈ xs, groupGood x = true :=
  C71_partial (.groups groupAt) (id := groupIdAt) Heap.empty _
    (by simp [Call.inRange]) (by decide)
    (fun _ _ a _ => ⟨groupAt_ident a, groupAt_passes a⟩) (by simp [Call.notSet])

/-- C71 does not hold with assignments: they do not validate. -/
theorem C71_false : groupGood 0 = false ∧
    (groupKind groupAt).passes 0 = .ok false ∧
    seen (setItem (groupKind groupAt) (seqOf [1]).1 (seqOf [1]).2 0 (.obj 0)) = .ok ([some 0], .ok ()) :=
  ⟨rfl, rfl, rfl⟩

end Comps.Props

section
open Comps.Props
#print axioms C62_partial
#print axioms C62_false
#print axioms C63_del_partial
#print axioms C63_set_partial
#print axioms C63_gids_partial
#print axioms C63_negative
#print axioms C63_false_negative
#print axioms C63_false_same_id
#print axioms C63_false_package
#print axioms C64_partial
#print axioms C64_false
#print axioms C64_false_step
#print axioms C65_partial
#print axioms C65_false
#print axioms C65_crash
#print axioms C65_false_more
#print axioms C66_partial
#print axioms C66_key_error
#print axioms C66_false
#print axioms C66_false_other
#print axioms C67_partial
#print axioms C67_effect
#print axioms C67_false
#print axioms C68_partial
#print axioms C68_other_partial
#print axioms C68_strings_partial
#print axioms C68_type_error
#print axioms C68_false
#print axioms C69_partial
#print axioms C69_false
#print axioms C70_partial
#print axioms C70_false
#print axioms C71_partial
#print axioms C71_false
end
