import Verif.Spec.MRadix
import Verif.Lemmas.MRTreeExact
import Verif.Lemmas.BRadix

/-!
# The plain multi-dictionary: lemmas

A write is a write of the multi-dictionary of objects on a tree in which each value list is one object
(`setLoop_sim`); if it splits no node it is that write itself (`setLoop_calm`).
-/

namespace Comps
namespace MRadix
open Comps.Radix (Calls Store newData dropList dropNode)
open Comps.RTree (WF listLk nodeLk findAt matchKey)
open Comps.Spec Comps.Spec.PlainM
open Comps.Spec.Plain (made)
variable {V : Type}

/-! ## Trees with other data -/

section
variable {D E F : Type}

mutual
def mapN (f : Option D → Option E) : Node D → Node E
  | .mk k d s t => .mk k (f d) (mapL f s) t
def mapL (f : Option D → Option E) : List (Node D) → List (Node E)
  | [] => []
  | n :: ns => mapN f n :: mapL f ns
end

theorem mapL_eq (f : Option D → Option E) (l : List (Node D)) : mapL f l = l.map (mapN f) := by
  induction l with
  | nil => simp [mapL]
  | cons n ns ih => simp [mapL, ih]

theorem mapN_mk (f : Option D → Option E) (k : Bytes) (d : Option D) (s : List (Node D)) (t : Bool) :
    mapN f (.mk k d s t) = .mk k (f d) (s.map (mapN f)) t := by
  simp [mapN, mapL_eq]

@[simp] theorem mapN_key (f : Option D → Option E) (n : Node D) : (mapN f n).key = n.key := by
  cases n; simp [mapN, Node.key]
@[simp] theorem mapN_data (f : Option D → Option E) (n : Node D) : (mapN f n).data = f n.data := by
  cases n; simp [mapN, Node.data]
@[simp] theorem mapN_sub (f : Option D → Option E) (n : Node D) : (mapN f n).sub = n.sub.map (mapN f) := by
  cases n; simp [mapN, Node.sub, mapL_eq]
@[simp] theorem mapN_tail (f : Option D → Option E) (n : Node D) : (mapN f n).tail = n.tail := by
  cases n; simp [mapN, Node.tail]

/-- A list of nodes with other data. -/
def mapH (f : Option D → Option E) (l : HSList (Node D)) : HSList (Node E) :=
  ⟨l.items.map (mapN f), l.tailSet⟩

@[simp] theorem mapH_items (f : Option D → Option E) (l : HSList (Node D)) :
    (mapH f l).items = l.items.map (mapN f) := rfl
@[simp] theorem mapH_tailSet (f : Option D → Option E) (l : HSList (Node D)) :
    (mapH f l).tailSet = l.tailSet := rfl

@[simp] theorem mapN_subnodes (f : Option D → Option E) (n : Node D) :
    (mapN f n).subnodes = mapH f n.subnodes := by
  cases n; simp [mapN, Node.subnodes, mapL_eq, mapH, Node.sub, Node.tail]

theorem mapN_ofList (f : Option D → Option E) (k : Bytes) (d : Option D) (l : HSList (Node D)) :
    mapN f (Node.ofList k d l) = Node.ofList k (f d) (mapH f l) := by
  simp [Node.ofList, mapN_mk, mapH]

theorem mapN_leaf (f : Option D → Option E) (k : Bytes) (d : Option D) :
    mapN f (Node.leaf k d) = Node.leaf k (f d) := by simp [Node.leaf, mapN_mk]

theorem mapH_append (f : Option D → Option E) (l : HSList (Node D)) (n : Node D) :
    mapH f (l.append n) = (mapH f l).append (mapN f n) := by
  obtain ⟨items, t⟩ := l
  cases t <;> simp [mapH, HSList.append]

theorem mapH_setAt (f : Option D → Option E) (l : HSList (Node D)) (i : Nat) (n : Node D) :
    mapH f (l.setAt i n) = (mapH f l).setAt i (mapN f n) := by
  simp [mapH, HSList.setAt, List.map_set]

theorem map_eraseIdx' {α β : Type} (f : α → β) (l : List α) (i : Nat) :
    (l.eraseIdx i).map f = (l.map f).eraseIdx i := by
  induction l generalizing i with
  | nil => simp
  | cons a l ih => cases i <;> simp [ih]

theorem mapH_removeAt (f : Option D → Option E) (l : HSList (Node D)) (i : Nat) :
    mapH f (l.removeAt i) = (mapH f l).removeAt i := by
  simp only [mapH, HSList.removeAt, ← map_eraseIdx']
  cases (l.items.eraseIdx i) <;> simp

theorem findAt_map (f : Option D → Option E) (b : UInt8) (l : List (Node D)) :
    findAt b (l.map (mapN f)) = (findAt b l).map fun r => (r.1, mapN f r.2) := by
  induction l with
  | nil => simp [findAt]
  | cons n ns ih =>
    simp only [List.map_cons, findAt, mapN_key, ih]
    split
    · rfl
    · cases findAt b ns <;> rfl

mutual
theorem mapN_mapN (f : Option D → Option E) (g : Option E → Option F) :
    ∀ n : Node D, mapN g (mapN f n) = mapN (fun d => g (f d)) n
  | .mk k d s t => by simp only [mapN, mapL_mapL f g s]
theorem mapL_mapL (f : Option D → Option E) (g : Option E → Option F) :
    ∀ l : List (Node D), mapL g (mapL f l) = mapL (fun d => g (f d)) l
  | [] => by simp only [mapL]
  | n :: ns => by simp only [mapL, mapN_mapN f g n, mapL_mapL f g ns]
end

mutual
theorem mapN_id : ∀ n : Node D, mapN (fun d => d) n = n
  | .mk k d s t => by simp only [mapN, mapL_id s]
theorem mapL_id : ∀ l : List (Node D), mapL (fun d => d) l = l
  | [] => by simp only [mapL]
  | n :: ns => by simp only [mapL, mapN_id n, mapL_id ns]
end

theorem mapH_mapH (f : Option D → Option E) (g : Option E → Option F) (l : HSList (Node D)) :
    mapH g (mapH f l) = mapH (fun d => g (f d)) l := by
  simp only [mapH, List.map_map]
  congr 1
  apply List.map_congr_left
  intro n _; exact mapN_mapN f g n

theorem mapH_id (l : HSList (Node D)) : mapH (fun d => d) l = l := by
  simp only [mapH]
  rw [← mapL_eq, mapL_id]

theorem wf_map (f : Option D → Option E) {l : HSList (Node D)} (h : WF l) : WF (mapH f l) := by
  induction h with
  | mk l h1 h2 h3 h4 ih =>
    refine .mk _ ?_ ?_ ?_ ?_
    · simpa using h1
    · simpa [List.pairwise_map] using h2
    · simpa using h3
    · simpa using ih

theorem tok_map (f : Option D → Option E) {P : Bytes → Prop} {p : Bytes} {l : HSList (Node D)}
    (h : RTree.TOK P p l) : RTree.TOK P p (mapH f l) := by
  induction h with
  | mk p l h1 h2 ih =>
    refine .mk _ _ ?_ ?_
    · simpa using h1
    · simpa using ih

theorem alln_map {Q : Bytes → Option D → Prop} {R : Bytes → Option E → Prop} (f : Option D → Option E)
    (hQR : ∀ p d, Q p d → R p (f d)) {p : Bytes} {l : HSList (Node D)}
    (h : RTree.AllN Q p l) : RTree.AllN R p (mapH f l) := by
  induction h with
  | mk p l h1 h2 ih =>
    refine .mk _ _ ?_ ?_
    · simpa using fun n hn => hQR _ _ (h1 n hn)
    · simpa using ih

theorem alln_true {p : Bytes} {l : HSList (Node D)} (h : WF l) :
    RTree.AllN (fun _ _ => True) p l := by
  induction h generalizing p with
  | mk l h1 h2 h3 h4 ih => exact .mk _ _ (fun _ _ => trivial) fun n hn => ih n hn

mutual
theorem nodeLk_map (f : Option D → Option E) :
    ∀ (n : Node D) (k : Bytes), nodeLk (mapN f n) k = (nodeLk (mapN some n) k).bind f
  | .mk key d s t, k => by
    simp only [mapN, nodeLk]
    split
    · simp
    · split
      · exact listLk_mapL f s _
      · rfl
theorem listLk_mapL (f : Option D → Option E) :
    ∀ (l : List (Node D)) (k : Bytes), listLk (mapL f l) k = (listLk (mapL some l) k).bind f
  | [], k => by simp [mapL, listLk]
  | n :: ns, k => by
    simp only [mapL, listLk, mapN_key]
    split
    · exact nodeLk_map f n k
    · exact listLk_mapL f ns k
end

/-- What a list of nodes holds for a key, where "holds nothing" and "not there" differ. -/
def plk (l : List (Node D)) (k : Bytes) : Option (Option D) := listLk (l.map (mapN some)) k

theorem listLk_map (f : Option D → Option E) (l : List (Node D)) (k : Bytes) :
    listLk (l.map (mapN f)) k = (plk l k).bind f := by
  rw [plk, ← mapL_eq, ← mapL_eq, listLk_mapL]

theorem listLk_plk (l : List (Node D)) (k : Bytes) : listLk l k = (plk l k).bind fun d => d := by
  rw [← listLk_map, ← mapL_eq, mapL_id]

theorem plk_map (f : Option D → Option E) (l : List (Node D)) (k : Bytes) :
    plk (l.map (mapN f)) k = (plk l k).map f := by
  have : (l.map (mapN f)).map (mapN (some : Option E → Option (Option E))) =
      l.map (mapN fun d => some (f d)) := by
    rw [List.map_map]
    apply List.map_congr_left
    intro n _; exact mapN_mapN f _ n
  rw [plk, this, listLk_map]
  cases plk l k <;> rfl

end

/-! ## A write as a write of the multi-dictionary of objects -/

/-- A value list as one object; `none` stands for the value written. -/
abbrev Old (V : Type) := Option (Option (List (Elem V)))

/-- A value list as a list of one object. -/
def enc (d : Option (List (Elem V))) : Option (List (MVal (Old V))) := some [.one (some d)]

/-- What a list of objects stands for after a write of `v`. -/
def dec (v : Option V) : Option (List (MVal (Old V))) → Option (List (Elem V))
  | some [.one (some d)] => d
  | some [.one none] => some (fresh v)
  | some [.one (some d), .one none] => d.map (fun d => d ++ [.one v])
  | some [.nested [.one (some d)]] => some (wrap d)
  | _ => none

theorem dec_enc (v : Option V) (d : Option (List (Elem V))) : dec v (enc d) = d := rfl

theorem mapH_dec_enc (v : Option V) (l : HSList (MN V)) : mapH (dec v) (mapH enc l) = l := by
  rw [mapH_mapH]; exact mapH_id l

theorem mapN_dec_enc (v : Option V) (n : MN V) : mapN (dec v) (mapN enc n) = n := by
  rw [mapN_mapN]; exact mapN_id n

theorem map_dec_enc (v : Option V) (l : List (MN V)) : (l.map (mapN enc)).map (mapN (dec v)) = l := by
  rw [List.map_map]
  exact List.map_id'' (mapN_dec_enc v) l

theorem keyEnds_len {k : Bytes} {b : UInt8} {bs : Bytes} {x : Nat} (hh : k.head? = some b)
    (h : matchKey k (b :: bs) = .keyEnds x) : (b :: bs).length < k.length ∧ x = (b :: bs).length := by
  have hm := RTree.matchKey_spec bs hh
  simp only [h] at hm
  obtain ⟨⟨a, as, h1⟩, rfl⟩ := hm
  refine ⟨?_, rfl⟩
  rw [h1]; simp

theorem setLoop_sim (v : Option V) (fuel : Nat) (k : Bytes) (l : HSList (MN V)) :
    setLoop v [] fuel k l =
      .ok (mapH (dec v) (MTree.setLoop [.one none] fuel k (mapH enc l))) := by
  induction fuel generalizing k l with
  | zero => cases k <;> simp [setLoop, MTree.setLoop, mapH_dec_enc]
  | succ fuel ih =>
    cases k with
    | nil => simp [setLoop, MTree.setLoop, mapH_dec_enc]
    | cons b bs =>
      simp only [setLoop, MTree.setLoop, mapH_items, findAt_map]
      cases hfd : findAt b l.items with
      | none =>
        simp only [Option.map_none, List.append_nil]
        rw [mapH_append, mapH_dec_enc, mapN_leaf]
        rfl
      | some r =>
        obtain ⟨i, n⟩ := r
        obtain ⟨pre, post, hitems, hi, hh⟩ := RTree.findAt_some hfd
        simp only [Option.map_some, mapN_key, mapN_data, mapN_sub, mapN_tail, mapN_subnodes]
        cases hmk : matchKey n.key (b :: bs) with
        | both y =>
          simp only
          rw [mapH_setAt, mapH_dec_enc, mapN_mk, map_dec_enc]
          rfl
        | keyEnds y =>
          obtain ⟨h1, rfl⟩ := keyEnds_len hh hmk
          simp only [List.append_nil]
          rw [if_neg (by omega), mapH_append, mapH_removeAt, mapH_dec_enc, mapN_mk, List.map_singleton,
            mapN_mk, map_dec_enc]
          rfl
        | nodeEnds y =>
          simp only [ih, bind, Except.bind]
          rw [mapH_setAt, mapH_dec_enc, mapN_ofList]
          rfl
        | differ y =>
          simp only [List.append_nil]
          rw [mapH_setAt, mapH_dec_enc, mapN_ofList]
          congr 3
          split
          · rw [mapH_append, mapH_append, mapN_mk, mapN_leaf, map_dec_enc]; rfl
          · rw [mapH_append, mapH_append, mapN_mk, mapN_leaf, map_dec_enc]; rfl

/-! ## What is seen -/

theorem getpLoop_eq (fuel : Nat) (k : Bytes) (l : List (MN V)) :
    getpLoop fuel k l = RTree.getLoop fuel k (l.map (mapN some)) := by
  induction fuel generalizing k l with
  | zero => cases k <;> rfl
  | succ fuel ih =>
    cases k with
    | nil => rfl
    | cons b bs =>
      simp only [getpLoop, RTree.getLoop, findAt_map]
      cases findAt b l with
      | none => rfl
      | some r =>
        obtain ⟨i, n⟩ := r
        simp only [Option.map_some, mapN_key, mapN_data, mapN_sub]
        cases matchKey n.key (b :: bs) <;> simp [ih]

/-- What every dictionary made by writes satisfies. -/
structure Good (l : HSList (MN V)) : Prop where
  wf : WF l
  tailed : MTree.Tailed l

theorem good_empty : Good (HSList.empty : HSList (MN V)) := ⟨RTree.wf_empty, RTree.tok_empty _ _⟩

theorem seen_live {l : HSList (MN V)} (h : WF l) (k : Bytes) : seen (.live l) k = plk l.items k := by
  simp only [seen, getp, Store.list, bind, Except.bind, getpLoop_eq, plk]
  exact RTree.getLoop_eq _ _ _ (wf_map some h) (Nat.le_refl _)

theorem get_live {l : HSList (MN V)} (h : WF l) (k : Bytes) :
    get (.live l) k = .ok (listLk l.items k) := by
  simp only [get, Store.list, bind, Except.bind]
  rw [RTree.getLoop_eq _ _ _ h (Nat.le_refl _)]

theorem get_seen {l : HSList (MN V)} (h : WF l) (k : Bytes) :
    get (.live l) k = .ok ((seen (.live l) k).bind fun d => d) := by
  rw [get_live h, seen_live h, listLk_plk]

theorem full_enc {l : HSList (MN V)} (h : WF l) : MTree.Full (mapH enc l) :=
  alln_map (Q := fun _ _ => True) enc (fun _ _ _ => rfl) (alln_true h)

theorem tailed_map {D E : Type} (f : Option (List (MVal D)) → Option (List (MVal E)))
    {l : HSList (MNode D)} (h : MTree.Tailed l) : MTree.Tailed (mapH f l) := tok_map f h

theorem plk_full {D : Type} {l : HSList (MNode D)} (hl : WF l) (h : MTree.Full l) (k : Bytes) :
    plk l.items k = (listLk l.items k).map some := by
  have key : ∀ n : Nat, ∀ (l : HSList (MNode D)) (k : Bytes), k.length ≤ n → WF l → MTree.Full l →
      plk l.items k = (listLk l.items k).map some := by
    intro n
    induction n with
    | zero =>
      intro l k hn hl _
      have : k = [] := by cases k <;> simp_all
      subst this
      rw [plk, RTree.listLk_nil_key hl.ne, ← mapH_items, RTree.listLk_nil_key (wf_map some hl).ne]
      rfl
    | succ n ih =>
      intro l k hn hl hf
      by_cases hex : ∃ m ∈ l.items, m.key.head? = k.head?
      · obtain ⟨m, hm, hh⟩ := hex
        have hmne := hl.ne m hm
        rw [plk, RTree.listLk_of_mem hl.pw hm hh, ← mapH_items,
          RTree.listLk_of_mem (wf_map some hl).pw (List.mem_map_of_mem hm) (by simpa using hh),
          RTree.nodeLk_eq, RTree.nodeLk_eq]
        simp only [mapN_key, mapN_data, mapN_sub]
        split
        · have := hf.top m hm
          cases hd : m.data with
          | none => simp [hd] at this
          | some d => rfl
        · split
          · rename_i hp
            have := ih m.subnodes (k.drop m.key.length) (by
              have : 0 < m.key.length := List.length_pos_iff.2 hmne
              simp; omega) (hl.sub m hm) (MTree.full_pre (hf.sub m hm))
            exact this
          · rfl
      · rw [plk, RTree.listLk_none, RTree.listLk_none]
        · rfl
        · intro m hm; exact fun e => hex ⟨m, hm, e⟩
        · intro m hm
          obtain ⟨m', hm', rfl⟩ := List.mem_map.1 hm
          rw [mapN_key]; exact fun e => hex ⟨m', hm', e⟩
  exact key _ l k (Nat.le_refl _) hl h

theorem splits_congr {α β : Type} {g : Bytes → Option α} {g' : Bytes → Option β}
    (h : ∀ q, (g q).isSome = (g' q).isSome) {k p : Bytes} (hs : Splits g k p) : Splits g' k p := by
  obtain ⟨h1, h2, a, as, b, bs, h3, h4, h5⟩ := hs
  refine ⟨h1, ?_, a, as, b, bs, h3, h4, ?_⟩
  · have := h p
    rw [h2] at this
    cases hp : g' p with
    | none => rfl
    | some _ => simp [hp] at this
  · rw [← h]; exact h5

theorem first_congr {α β : Type} {g : Bytes → Option α} {g' : Bytes → Option β}
    (h : ∀ q, (g q).isSome = (g' q).isSome) {p q : Bytes} (hs : First g p q) : First g' p q :=
  ⟨hs.1, by rw [← h]; exact hs.2.1, fun q' h1 h2 h3 => hs.2.2 q' h1 h2 (by rw [h]; exact h3)⟩

theorem setLoop_wrote (v : Option V) (k : Bytes) (hk : k ≠ []) (l : HSList (MN V)) (h : Good l) :
    ∃ l', setLoop v [] k.length k l = .ok l' ∧ Good l' ∧
      PlainM.Wrote (plk l.items) k v (plk l'.items) := by
  have hw := wf_map enc h.wf
  have ht := tailed_map enc h.tailed
  have hf := full_enc h.wf
  have W := MTree.setLoop_wrote [.one none] k (mapH enc l) hw ht hf hk
  have wT := MTree.setLoop_wf [.one none] k.length k _ hw
  have tT := MTree.setLoop_tailed [.one none] k.length k _ ht
  have fT := MTree.setLoop_full [.one none] k.length k _ hf
  refine ⟨_, setLoop_sim v _ k l, ⟨wf_map _ wT, tailed_map _ tT⟩, ?_⟩
  generalize MTree.setLoop [.one none] k.length k (mapH enc l) = T at W wT tT fT
  have h0 : ∀ q, listLk (mapH enc l).items q = (plk l.items q).map fun d => [.one (some d)] := by
    intro q
    rw [mapH_items, listLk_map]
    cases plk l.items q <;> rfl
  have h1 : ∀ q, plk (mapH (dec v) T).items q = (listLk T.items q).map fun d => dec v (some d) := by
    intro q
    rw [mapH_items, plk_map, plk_full wT fT]
    cases listLk T.items q <;> rfl
  have hs : ∀ q, (plk l.items q).isSome = (listLk (mapH enc l).items q).isSome := by
    intro q; rw [h0]; simp
  have hs' := fun q => (hs q).symm
  refine ⟨?_, ?_, ?_, ?_, ?_, ?_, ?_⟩
  · intro hn
    rw [h1, W.here, h0, hn]
    cases v <;> rfl
  · intro d hd
    rw [h1, W.here, h0, hd]
    rfl
  · intro hd
    rw [h1, W.here, h0, hd]
    rfl
  · intro p hp
    rw [h1, W.split p (splits_congr hs hp)]
    rfl
  · intro p q d hp hq hd
    rw [h1, W.moved p q (splits_congr hs hp) (first_congr hs hq), h0, hd]
    rfl
  · intro p q hp hq hd
    rw [h1, W.moved p q (splits_congr hs hp) (first_congr hs hq), h0, hd]
    rfl
  · intro q hq h2 h3
    rw [h1, W.other q hq (fun hp => h2 (splits_congr hs' hp))
      (fun p hp hq' => h3 p (splits_congr hs' hp) (first_congr hs' hq')), h0]
    cases plk l.items q <;> rfl

theorem newData_made (c : Calls V) (v : Option V) : newData c v = made c v := rfl

theorem set_live (c : Calls V) (k : Bytes) (hk : k ≠ []) (v : Option V) (l : HSList (MN V)) (h : Good l) :
    ∃ l', set c (.live l) k v = .ok (.live l') ∧ Good l' ∧
      PlainM.Wrote (plk l.items) k (made c v) (plk l'.items) := by
  obtain ⟨l', h1, h2, h3⟩ := setLoop_wrote (newData c v) k hk l h
  exact ⟨l', by simp only [set, Store.list, bind, Except.bind, h1], h2, h3⟩

theorem sets_good (c : Calls V) (ws : List (Bytes × Option V)) (l : HSList (MN V)) (h : Good l) :
    ∃ l', sets c (.live l) ws = .ok (.live l') ∧ Good l' := by
  induction ws generalizing l with
  | nil => exact ⟨l, rfl, h⟩
  | cons e es ih =>
    by_cases he : e.1 = []
    · obtain ⟨l', h1, h2⟩ := ih l h
      refine ⟨l', ?_, h2⟩
      have : set c (.live l) e.1 e.2 = .ok (.live l) := by rw [he]; rfl
      simp only [sets, this, bind, Except.bind, h1]
    · obtain ⟨l1, h1, h2, -⟩ := set_live c e.1 he e.2 l h
      obtain ⟨l', h3, h4⟩ := ih l1 h2
      exact ⟨l', by simp only [sets, h1, bind, Except.bind, h3], h4⟩

/-! ## Writes that split no node -/

theorem noSplit_of {l : HSList (MN V)} (h : WF l) (hf : MTree.Full l) {k : Bytes}
    (hn : ∀ p, ¬ Splits (plk l.items) k p) : MTree.NoSplit l.items k := by
  intro p a b as bs e hp hab hs
  cases hlp : listLk l.items p with
  | some y => rfl
  | none =>
    refine (hn p ⟨hp, ?_, a, as, b, bs, hab, e, ?_⟩).elim
    · rw [plk_full h hf, hlp]; rfl
    · rw [plk_full h hf]; simpa using hs

theorem noSplit_sub {l : HSList (MN V)} {n : MN V} {r : List (MN V)} (hl : WF l)
    (hp : l.items.Perm (n :: r)) {k : Bytes} (hn : MTree.NoSplit l.items (n.key ++ k)) :
    MTree.NoSplit n.sub k := by
  have hne : n.key ≠ [] := hl.ne n (hp.mem_iff.2 (by simp))
  intro q a' b' as' bs' e hq hab hs
  have := hn (n.key ++ q) a' b' as' bs' (by rw [e, List.append_assoc]) (by simp [hne]) hab
    (by
      rw [List.append_assoc, MTree.listLk_below hl hp]
      rw [if_neg (by simp)]; exact hs)
  rw [MTree.listLk_below hl hp, if_neg hq] at this
  exact this

theorem noSplit_differ {l : HSList (MN V)} {n : MN V} {r : List (MN V)} (hl : WF l)
    (hp : l.items.Perm (n :: r)) (hd : n.data.isSome = true) {c a b : UInt8} {q as bs : Bytes}
    (h1 : n.key = c :: q ++ a :: as) (h3 : a ≠ b)
    (hn : MTree.NoSplit l.items (c :: q ++ b :: bs)) : False := by
  have := hn (c :: q) a b as bs rfl (by simp) h3 (by
    have := MTree.listLk_below hl hp []
    simp only [List.append_nil, if_true] at this
    rw [← h1, this]; exact hd)
  have hno : listLk l.items (c :: q) = none := by
    rw [MTree.listLk_head hl hp (by rw [h1]; rfl), RTree.nodeLk_eq, if_neg, if_neg]
    · intro hpx
      have := hpx.length_le
      rw [h1] at this; simp at this; omega
    · rw [h1]; intro e; have := congrArg List.length e; simp at this
  rw [hno] at this
  simp at this

/-- On a dictionary without NULL lists a write that splits no node is the one of the multi-dictionary of
objects. -/
theorem setLoop_calm (p : V) (fuel : Nat) (k : Bytes) (l : HSList (MN V)) (hl : WF l)
    (hf : MTree.Full l) (hn : MTree.NoSplit l.items k) (hk : k ≠ []) (hfu : k.length ≤ fuel) :
    setLoop (some p) [] fuel k l = .ok (MTree.setLoop [.one (some p)] fuel k l) := by
  induction fuel generalizing k l with
  | zero => cases k <;> simp_all
  | succ fuel ih =>
    cases k with
    | nil => exact (hk rfl).elim
    | cons b bs =>
      simp only [setLoop, MTree.setLoop]
      cases hfd : findAt b l.items with
      | none => simp [fresh]
      | some r =>
        obtain ⟨i, n⟩ := r
        obtain ⟨pre, post, hitems, hi, hh⟩ := RTree.findAt_some hfd
        have hmem : n ∈ l.items := by rw [hitems]; simp
        have hd := hf.top n hmem
        have hm := RTree.matchKey_spec bs hh
        have hp : l.items.Perm (n :: (pre ++ post)) := hitems ▸ RTree.perm_mid pre post n
        simp only
        cases hmk : matchKey n.key (b :: bs) with
        | both y =>
          simp only
          cases hdd : n.data with
          | none => simp [hdd] at hd
          | some d => rfl
        | keyEnds y =>
          obtain ⟨h1, rfl⟩ := keyEnds_len hh hmk
          simp only [List.append_nil]
          rw [if_neg (by omega)]
          rfl
        | nodeEnds y =>
          simp only [hmk] at hm
          obtain ⟨⟨a, as, h1⟩, rfl⟩ := hm
          have hdr : (b :: bs).drop n.key.length = a :: as := by rw [h1]; simp
          simp only [hdr]
          have hne := hl.ne n hmem
          have hlen := congrArg List.length h1
          have hpos : 0 < n.key.length := List.length_pos_iff.2 hne
          simp at hlen
          rw [ih (a :: as) n.subnodes (hl.sub n hmem) (MTree.full_pre (hf.sub n hmem)) ?_ (by simp)
            (by simp at hfu ⊢; omega)]
          · rfl
          · exact noSplit_sub hl hp (h1 ▸ hn)
        | differ y =>
          exfalso
          simp only [hmk] at hm
          obtain ⟨q, a, as, b', bs', h1, h2, h3, rfl⟩ := hm
          exact noSplit_differ hl hp hd h1 h3 (h2 ▸ hn)

theorem perm_swap_last {α : Type} (a v b c : List α) : (a ++ v ++ b ++ c).Perm (a ++ b ++ c ++ v) := by
  simp only [List.append_assoc]
  exact List.Perm.append_left _ (List.perm_append_comm.trans (by simp))

/-- What a write adds to the pointers held. -/
theorem mset_drop (v : List (Elem V)) (fuel : Nat) (k : Bytes) (l : HSList (MN V)) (hl : WF l)
    (ht : MTree.Tailed l)
    (hf : MTree.Full l) (hn : MTree.NoSplit l.items k) (hk : k ≠ []) (hfu : k.length ≤ fuel) :
    (dropList (MTree.setLoop v fuel k l).items).flatten.Perm ((dropList l.items).flatten ++ v) := by
  induction fuel generalizing k l with
  | zero => cases k <;> simp_all
  | succ fuel ih =>
    cases k with
    | nil => exact (hk rfl).elim
    | cons b bs =>
      have hdl : ∀ {a b : List (MN V)}, a.Perm b → (dropList a).flatten.Perm (dropList b).flatten :=
        fun h => (Radix.dropList_perm h).flatten
      have htl := MTree.tailed_iff ht hl
      cases MTree.set_step v fuel b bs l with
      | fresh h1 h2 h3 =>
        refine (hdl h2).trans ?_
        have : (if l.tailSet = true then l.items else []) = l.items := by
          rw [htl]; cases l.items <;> simp
        rw [this, Radix.dropList_cons, Radix.dropNode_eq]
        simp only [Node.leaf, Node.data, Node.sub, Radix.dropList_nil, Option.toList_some,
          List.append_nil, List.flatten_append, List.flatten_cons, List.flatten_nil]
        exact List.perm_append_comm
      | both n r h1 h2 h3 h4 =>
        refine (hdl h3).trans (.trans ?_ ((hdl h2).symm.append_right v))
        have hd := hf.top n (h2.mem_iff.2 (by simp))
        obtain ⟨nk, nd, ns, nt⟩ := n
        cases nd with
        | none => simp [Node.data] at hd
        | some d =>
          simp only [Radix.dropList_cons, Radix.dropNode_eq, Node.data, Node.sub, Option.toList_some,
            Option.getD_some, List.flatten_append, List.flatten_cons, List.flatten_nil, List.append_nil]
          exact perm_swap_last _ _ _ _
      | prefixed n r a as h1 h2 h3 h4 =>
        have htt : l.tailSet = true := by
          rw [htl]
          cases hi : l.items with
          | nil => rw [hi] at h2; exact absurd h2.length_eq (by simp)
          | cons _ _ => rfl
        refine (hdl h3).trans (.trans ?_ ((hdl h2).symm.append_right v))
        rw [if_pos htt]
        simp only [Radix.dropList_cons, Radix.dropNode_eq, Node.data, Node.sub, Option.toList_some,
          Radix.dropList_nil, List.flatten_append, List.flatten_cons, List.flatten_nil, List.append_nil,
          List.append_assoc]
        refine List.perm_append_comm.trans ?_
        simp only [List.append_assoc]
        exact List.Perm.refl _
      | deeper n r a as h1 h2 h3 h4 h5 =>
        have hmem : n ∈ l.items := h3.mem_iff.2 (by simp)
        have hlen := congrArg List.length h1
        have hpos : 0 < n.key.length := List.length_pos_iff.2 (hl.ne n hmem)
        simp at hlen
        have := ih (a :: as) n.subnodes (hl.sub n hmem) (MTree.tok_pre (ht.sub n hmem))
          (MTree.full_pre (hf.sub n hmem)) (noSplit_sub hl h3 (h1 ▸ hn)) (by simp)
          (by simp at hfu ⊢; omega)
        refine (hdl h4).trans (.trans ?_ ((hdl h3).symm.append_right v))
        simp only [Radix.dropList_cons, Radix.dropNode_eq, Node.ofList, Node.data, Node.sub,
          List.flatten_append, List.append_assoc]
        refine List.Perm.append_left _ ?_
        refine (this.append_right _).trans ?_
        simp only [List.append_assoc]
        exact List.Perm.append_left _ List.perm_append_comm
      | split n r p a b' as bs' subs h1 h2 h3 h4 h5 h6 h7 h8 =>
        exact (noSplit_differ hl h4 (hf.top n (h4.mem_iff.2 (by simp))) h1 h3 (h2 ▸ hn)).elim

/-! ## Destruction -/

/-- The pointer that is an element. -/
def ptr : Elem V → Option V
  | .one p => p
  | .nested _ => none

/-- All elements are pointers that are not NULL. -/
def PlainL (l : List (Elem V)) : Prop := ∀ e ∈ l, ∃ p, e = .one (some p)

theorem dropVals_plain (c : Calls V) {l : List (Elem V)} (h : PlainL l) :
    dropVals c l = .ok (if c.dtor then l.map ptr else []) := by
  unfold dropVals
  split
  · induction l with
    | nil => rfl
    | cons e es ih =>
      obtain ⟨p, rfl⟩ := h e (by simp)
      rw [List.mapM_cons, ih (fun x hx => h x (by simp [hx]))]
      rfl
  · rfl

/-- What every calm dictionary satisfies. -/
structure CalmI (l : HSList (MN V)) : Prop where
  wf : WF l
  tailed : MTree.Tailed l
  full : MTree.Full l
  plain : PlainL (dropList l.items).flatten

theorem calmI_empty : CalmI (HSList.empty : HSList (MN V)) :=
  ⟨RTree.wf_empty, RTree.tok_empty _ _, RTree.alln_empty _ _, by intro e he; simp [HSList.empty] at he⟩

theorem sub_drop {l : HSList (MN V)} {n : MN V} (hn : n ∈ l.items) {e : Elem V}
    (he : e ∈ n.data.getD [] ∨ e ∈ (dropList n.sub).flatten) : e ∈ (dropList l.items).flatten := by
  rw [Radix.dropList_eq]
  simp only [List.mem_flatten, List.mem_flatMap]
  rcases he with he | he
  · cases hd : n.data with
    | none => simp [hd] at he
    | some d =>
      rw [hd] at he
      exact ⟨d, ⟨n, hn, by rw [Radix.dropNode_eq, hd]; simp⟩, he⟩
  · rw [List.mem_flatten] at he
    obtain ⟨d, h1, h2⟩ := he
    exact ⟨d, ⟨n, hn, by rw [Radix.dropNode_eq]; simp [h1]⟩, h2⟩

theorem CalmI.sub {l : HSList (MN V)} (h : CalmI l) {n : MN V} (hn : n ∈ l.items) : CalmI n.subnodes :=
  ⟨h.wf.sub n hn, MTree.tok_pre (h.tailed.sub n hn), MTree.full_pre (h.full.sub n hn),
    fun e he => h.plain e (sub_drop hn (.inr he))⟩

/-- The result of a removal, from that of the multi-dictionary of objects. -/
def removed (d : List (Option V)) : Res (Option (HSList (MN V) × Nat)) →
    Res (Option (HSList (MN V) × List (Option V)))
  | .error f => .error f
  | .ok none => .ok none
  | .ok (some (s, _)) => .ok (some (s, d))

theorem unsetLoop_calm (c : Calls V) (fuel : Nat) (nested : Bool) (k : Bytes) (l : HSList (MN V))
    (h : CalmI l) :
    unsetLoop c fuel nested k l =
      removed (if c.dtor then ((listLk l.items k).getD []).map ptr else [])
        (MTree.unsetLoop fuel nested k l) := by
  induction fuel generalizing nested k l with
  | zero => cases k <;> rfl
  | succ fuel ih =>
    cases k with
    | nil => rfl
    | cons b bs =>
      simp only [unsetLoop, MTree.unsetLoop]
      cases hfd : findAt b l.items with
      | none => rfl
      | some r =>
        obtain ⟨i, n⟩ := r
        obtain ⟨pre, post, hitems, hi, hh⟩ := RTree.findAt_some hfd
        have hmem : n ∈ l.items := by rw [hitems]; simp
        have hp : l.items.Perm (n :: (pre ++ post)) := hitems ▸ RTree.perm_mid pre post n
        have hd := h.full.top n hmem
        have hm := RTree.matchKey_spec bs hh
        have hpl : PlainL (n.data.getD []) := fun e he => h.plain e (sub_drop hmem (.inl he))
        simp only
        cases hmk : matchKey n.key (b :: bs) with
        | both y =>
          simp only [hmk] at hm
          have hlk : listLk l.items (b :: bs) = n.data := by
            have := MTree.listLk_below h.wf hp []
            simp only [List.append_nil, if_true] at this
            rw [← hm, this]
          have htl := MTree.tailed_iff (h.sub hmem).tailed (h.sub hmem).wf
          have htl : n.tail = !n.sub.isEmpty := htl
          simp only [hlk]
          cases hdd : n.data with
          | none => simp [hdd] at hd
          | some d =>
            rw [hdd] at hpl
            have hpl : PlainL d := hpl
            cases htt : n.tail with
            | true =>
              simp only [if_true, dropVals_plain c hpl, bind, Except.bind, Option.getD_some,
                Option.map_some]
              split <;> rfl
            | false =>
              have hsub : n.sub = [] := by
                rw [htt] at htl
                cases hs : n.sub with
                | nil => rfl
                | cons _ _ => rw [hs] at htl; simp at htl
              have hdn : (dropNode n).flatten = d := by
                rw [Radix.dropNode_eq, hdd, hsub]; simp
              simp only [Bool.false_eq_true, if_false, hdn, dropVals_plain c hpl, bind, Except.bind,
                Option.getD_some]
              split <;> rfl
        | keyEnds y => rfl
        | differ y => rfl
        | nodeEnds y =>
          simp only [hmk] at hm
          obtain ⟨⟨a, as, h1⟩, rfl⟩ := hm
          have hdr : (b :: bs).drop n.key.length = a :: as := by rw [h1]; simp
          have hlk : listLk l.items (b :: bs) = listLk n.subnodes.items (a :: as) := by
            rw [h1, MTree.listLk_below h.wf hp, if_neg (by simp)]
            rfl
          simp only [hdr, ih true (a :: as) n.subnodes (h.sub hmem), hlk]
          cases hx : MTree.unsetLoop fuel true (a :: as) n.subnodes with
          | error f => rfl
          | ok o =>
            cases o with
            | none => rfl
            | some r => rfl

/-- What a removal takes from the pointers held. -/
theorem munset_drop (fuel : Nat) (nested : Bool) (k : Bytes) (l s : HSList (MN V)) (d : Nat)
    (h : CalmI l) (hu : MTree.unsetLoop fuel nested k l = .ok (some (s, d))) :
    (dropList l.items).flatten.Perm ((dropList s.items).flatten ++ (listLk l.items k).getD []) := by
  induction fuel generalizing nested k l s d with
  | zero => cases k <;> cases hu
  | succ fuel ih =>
    cases k with
    | nil => cases hu
    | cons b bs =>
      simp only [MTree.unsetLoop] at hu
      cases hfd : findAt b l.items with
      | none => simp [hfd] at hu
      | some r =>
        obtain ⟨i, n⟩ := r
        obtain ⟨pre, post, hitems, hi, hh⟩ := RTree.findAt_some hfd
        subst hi
        have hmem : n ∈ l.items := by rw [hitems]; simp
        have hp : l.items.Perm (n :: (pre ++ post)) := hitems ▸ RTree.perm_mid pre post n
        have hdl : ∀ {a b : List (MN V)}, a.Perm b → (dropList a).flatten.Perm (dropList b).flatten :=
          fun h => (Radix.dropList_perm h).flatten
        have hset : ∀ n', (l.setAt pre.length n').items.Perm (n' :: (pre ++ post)) := by
          intro n'
          simp only [HSList.setAt, hitems, RTree.set_mid]
          exact RTree.perm_mid _ _ _
        have hm := RTree.matchKey_spec bs hh
        simp only [hfd] at hu
        cases hmk : matchKey n.key (b :: bs) with
        | both y =>
          simp only [hmk] at hm hu
          have hs : s = if n.tail = true then l.setAt pre.length (Node.mk n.key (some []) n.sub n.tail)
              else l.removeAt pre.length := by
            cases htt : n.tail with
            | true =>
              simp only [htt, if_true] at hu ⊢
              split at hu
              · cases hu
              · injection hu with hu; injection hu with hu; injection hu with hu _; exact hu.symm
            | false =>
              simp only [htt, Bool.false_eq_true, if_false] at hu ⊢
              split at hu
              · cases hu
              · injection hu with hu; injection hu with hu; injection hu with hu _; exact hu.symm
          subst hs
          have hlk : listLk l.items (b :: bs) = n.data := by
            have := MTree.listLk_below h.wf hp []
            simp only [List.append_nil, if_true] at this
            rw [← hm, this]
          have htl := MTree.tailed_iff (h.sub hmem).tailed (h.sub hmem).wf
          have htl : n.tail = !n.sub.isEmpty := htl
          rw [hlk]
          refine (hdl hp).trans ?_
          obtain ⟨nk, nd, ns, nt⟩ := n
          simp only [Node.tail, Node.sub, Node.key, Node.data] at htl hset ⊢
          cases nt with
          | true =>
            simp only [if_true]
            refine .trans ?_ ((hdl (hset _)).symm.append_right _)
            simp only [Radix.dropList_cons, Radix.dropNode_eq, Node.data, Node.sub, Option.toList_some,
              List.flatten_append, List.flatten_cons, List.flatten_nil, List.nil_append,
              List.append_nil, List.append_assoc]
            cases nd with
            | none => simp
            | some d =>
              simp only [Option.toList_some, List.flatten_cons, List.flatten_nil, List.append_nil,
                Option.getD_some]
              exact List.perm_append_comm.trans (by simp)
          | false =>
            have hsub : ns = [] := by
              cases ns with
              | nil => rfl
              | cons _ _ => simp at htl
            subst hsub
            simp only [Bool.false_eq_true, if_false, HSList.removeAt, hitems, RTree.eraseIdx_mid]
            simp only [Radix.dropList_cons, Radix.dropNode_eq, Node.data, Node.sub, Radix.dropList_nil,
              List.flatten_append, List.append_nil]
            refine List.perm_append_comm.trans ?_
            cases nd <;> simp
        | keyEnds y => simp [hmk] at hu
        | differ y => simp [hmk] at hu
        | nodeEnds y =>
          simp only [hmk] at hm hu
          obtain ⟨⟨a, as, h1⟩, rfl⟩ := hm
          have hdr : (b :: bs).drop n.key.length = a :: as := by rw [h1]; simp
          have hlk : listLk l.items (b :: bs) = listLk n.subnodes.items (a :: as) := by
            rw [h1, MTree.listLk_below h.wf hp, if_neg (by simp)]
            rfl
          simp only [hdr] at hu
          cases hx : MTree.unsetLoop fuel true (a :: as) n.subnodes with
          | error f => simp [hx] at hu
          | ok o =>
            cases o with
            | none => simp [hx] at hu
            | some r =>
              obtain ⟨s', d'⟩ := r
              simp only [hx] at hu
              injection hu with hu; injection hu with hu; injection hu with hu _
              subst hu
              have := ih true (a :: as) n.subnodes s' d' (h.sub hmem) hx
              rw [hlk]
              refine (hdl hp).trans (.trans ?_ ((hdl (hset _)).symm.append_right _))
              simp only [Radix.dropList_cons, Radix.dropNode_eq, Node.ofList, Node.data, Node.sub,
                List.flatten_append, List.append_assoc]
              refine List.Perm.append_left _ ?_
              refine (this.append_right _).trans ?_
              simp only [List.append_assoc]
              exact List.Perm.append_left _ List.perm_append_comm

/-! ## Calm dictionaries -/

theorem CalmI.good {l : HSList (MN V)} (h : CalmI l) : Good l := ⟨h.wf, h.tailed⟩

theorem CalmI.ok {l : HSList (MN V)} (h : CalmI l) : MTree.Ok (⟨l, 0⟩ : MTree (Option V)) :=
  ⟨h.wf, h.tailed, h.full⟩

theorem seen_calm {l : HSList (MN V)} (h : CalmI l) (k : Bytes) :
    seen (.live l) k = (listLk l.items k).map some := by
  rw [seen_live h.wf, plk_full h.wf h.full]

theorem set_calm (c : Calls V) (k : Bytes) (hk : k ≠ []) (v : Option V) (l : HSList (MN V)) (h : CalmI l)
    (hv : made c v ≠ none) (hs : ∀ p, ¬ Splits (seen (.live l)) k p) :
    ∃ l', set c (.live l) k v = .ok (.live l') ∧ CalmI l' ∧
      (dropList l'.items).flatten.Perm ((dropList l.items).flatten ++ [.one (made c v)]) := by
  cases hm : made c v with
  | none => exact (hv hm).elim
  | some p =>
    have hn : MTree.NoSplit l.items k := by
      refine noSplit_of h.wf h.full fun q hq => hs q ?_
      have : seen (.live l) = plk l.items := funext fun _ => seen_live h.wf _
      rw [this]; exact hq
    have h1 := setLoop_calm p k.length k l h.wf h.full hn hk (Nat.le_refl _)
    have h2 := mset_drop [.one (some p)] k.length k l h.wf h.tailed h.full hn hk (Nat.le_refl _)
    refine ⟨_, ?_, ⟨MTree.setLoop_wf _ _ _ _ h.wf, MTree.setLoop_tailed _ _ _ _ h.tailed,
      MTree.setLoop_full _ _ _ _ h.full, ?_⟩, h2⟩
    · simp only [set, Store.list, bind, Except.bind, newData_made, hm, h1]
    · intro e he
      rw [h2.mem_iff, List.mem_append] at he
      rcases he with he | he
      · exact h.plain e he
      · simp at he; exact ⟨p, he⟩

theorem unset_calm (c : Calls V) (k : Bytes) (l : HSList (MN V)) (h : CalmI l) :
    (∀ f, unset c (.live l) k = .error f → f = .useAfterFree) ∧
    ((∃ f, unset c (.live l) k = .error f) ↔ OnlyChild (listLk l.items) k) ∧
    ∀ s' d', unset c (.live l) k = .ok (s', d') → ∃ l', s' = .live l' ∧ CalmI l' ∧
      Removed (listLk l.items) k (listLk l'.items) ∧
      d' = (if c.dtor then ((listLk l.items k).getD []).map ptr else []) ∧
      (dropList l.items).flatten.Perm ((dropList l'.items).flatten ++ (listLk l.items k).getD []) := by
  have e0 : MTree.get (⟨l, 0⟩ : MTree (Option V)) = listLk l.items :=
    funext fun _ => MTree.get_eq h.wf _
  obtain ⟨u1, u2, u3⟩ := MTree.unset_fault h.ok k
  have hx := unsetLoop_calm c k.length false k l h
  cases hu : MTree.unsetLoop k.length false k l with
  | error f =>
    rw [hu] at hx
    have em : MTree.unset (⟨l, 0⟩ : MTree (Option V)) k = .error f := by simp [MTree.unset, hu]
    have er : unset c (.live l) k = .error f := by
      simp only [unset, Store.list, bind, Except.bind, hx, removed]
    rw [er]
    refine ⟨fun f' hf => ?_, ?_, fun s' d' hc => by cases hc⟩
    · injection hf with hf; subst hf; exact u1 f em
    · rw [← e0, ← u2, em]
      exact ⟨fun _ => ⟨f, rfl⟩, fun _ => ⟨f, rfl⟩⟩
  | ok o =>
    rw [hu] at hx
    cases o with
    | none =>
      have em : MTree.unset (⟨l, 0⟩ : MTree (Option V)) k = .ok ⟨l, 0⟩ := by simp [MTree.unset, hu]
      have er : unset c (.live l) k = .ok (.live l, []) := by
        simp only [unset, Store.list, bind, Except.bind, hx, removed]
      have hm := MTree.unsetLoop_missing _ _ _ _ h.wf (Nat.le_refl _) hu
      rw [er]
      refine ⟨fun f' hf => (by cases hf), ?_, ?_⟩
      · rw [← e0, ← u2, em]
        exact ⟨fun ⟨_, hf⟩ => (by cases hf), fun ⟨_, hf⟩ => (by cases hf)⟩
      · intro s' d' he
        injection he with he; injection he with h1 h2
        subst h1 h2
        refine ⟨l, rfl, h, ?_, ?_, ?_⟩
        · have := u3 _ em; rw [e0] at this; exact this
        · rw [hm]; simp
        · rw [hm]; simp
    | some r =>
      obtain ⟨s, d⟩ := r
      have em : MTree.unset (⟨l, 0⟩ : MTree (Option V)) k = .ok ⟨s, 0 - d⟩ := by
        simp [MTree.unset, hu]
      have er : unset c (.live l) k =
          .ok (.live s, if c.dtor then ((listLk l.items k).getD []).map ptr else []) := by
        simp only [unset, Store.list, bind, Except.bind, hx, removed]
      obtain ⟨f1, f2, f3, -⟩ := MTree.unsetLoop_found _ _ _ _ _ _ h.wf h.tailed h.full hu
      have hd := munset_drop _ _ _ _ _ _ h hu
      rw [er]
      refine ⟨fun f' hf => (by cases hf), ?_, ?_⟩
      · rw [← e0, ← u2, em]
        exact ⟨fun ⟨_, hf⟩ => (by cases hf), fun ⟨_, hf⟩ => (by cases hf)⟩
      · intro s' d' he
        injection he with he; injection he with h1 h2
        subst h1 h2
        refine ⟨s, rfl, ⟨f1, f2, f3, fun e he => h.plain e (hd.mem_iff.2 (by simp [he]))⟩, ?_, rfl, hd⟩
        have := u3 _ em
        rw [e0] at this
        rw [show MTree.get (⟨s, 0 - d⟩ : MTree (Option V)) = listLk s.items from
          funext fun _ => MTree.get_eq f1 _] at this
        exact this

theorem calm_inv (c : Calls V) {s : MStore V} {g d : List (Option V)} (h : Calm c s g d) :
    ∃ l, s = .live l ∧ CalmI l ∧
      (c.dtor = true → (d ++ (dropList l.items).flatten.map ptr).Perm g) := by
  induction h with
  | create => exact ⟨_, rfl, calmI_empty, fun _ => by simp [HSList.empty]⟩
  | set k v h hk hv hs hset ih =>
    obtain ⟨l, rfl, hi, hp⟩ := ih
    obtain ⟨l', h1, h2, h3⟩ := set_calm c k hk v l hi hv hs
    rw [h1] at hset
    injection hset with hset; subst hset
    refine ⟨l', rfl, h2, fun hc => ?_⟩
    refine ((h3.map ptr).append_left _).trans ?_
    simp only [List.map_append, List.map_cons, List.map_nil, ptr, ← List.append_assoc]
    exact (hp hc).append_right _
  | unset k h hu ih =>
    obtain ⟨l, rfl, hi, hp⟩ := ih
    obtain ⟨l', rfl, h2, -, h4, h5⟩ := (unset_calm c k l hi).2.2 _ _ hu
    refine ⟨l', rfl, h2, fun hc => .trans ?_ (hp hc)⟩
    rw [h4, if_pos hc, List.append_assoc]
    refine List.Perm.append_left _ ?_
    refine .trans ?_ (h5.map ptr).symm
    rw [List.map_append]
    exact List.perm_append_comm

end MRadix
end Comps
