import Verif.Lemmas.PyDict
import Verif.Lemmas.RTreeLen
import Verif.Lemmas.Obj

/-!
# Lemmas: string dictionaries refine finite maps
-/

namespace Comps.PyDict
open Comps Comps.RTree Comps.Spec Comps.Spec.PyD

/-- Counts follow the references of dictionaries exactly. -/
def Exact (st st' : St) : Prop := ∀ a, holders st.store a + total st'.dicts a =
  holders st'.store a + total st.dicts a

/-- Objects keep their text. -/
def Keeps (st st' : St) : Prop := ∀ b, 0 < holders st.store b → 0 < holders st'.store b →
  valAt st'.store b = valAt st.store b

/-- A tree stands for a map. -/
structure DRef (s : Store) (t : RTree Nat) (d : Dict) : Prop where
  inv : RTree.Inv d.past t
  map : ∀ k, d.map k = (t.get k).bind (valAt s)
  cnt : d.counted = true → Cnt d.past t

/-- A state stands for a world. -/
structure Ref (st : St) (w : World) : Prop where
  len : st.dicts.length = w.dicts.length
  no : ∀ i, dictAt st i = none → w.dict i = none
  yes : ∀ i t, dictAt st i = some t → ∃ d, w.dict i = some d ∧ DRef st.store t d
  full : ∀ a, 0 < holders st.store a → ∃ v, valAt st.store a = some v

theorem DRef.store {s s' : Store} {t : RTree Nat} {d : Dict} (h : DRef s t d)
    (hv : ∀ a ∈ t.values, valAt s' a = valAt s a) : DRef s' t d where
  inv := h.inv
  map k := by
    rw [h.map]
    cases hg : t.get k with
    | none => rfl
    | some a => simp only [Option.bind_some]; rw [hv a (mem_values h.inv.wf hg)]
  cnt := h.cnt

theorem wdict_set {ds : List (Option Dict)} {i : Nat} {d : Dict}
    (h : (ds[i]?).join = some d) (x : Option Dict) (i' : Nat) :
    ((ds.set i x)[i']?).join = if i' = i then x else (ds[i']?).join := by
  have hlt : i < ds.length := by
    rcases Nat.lt_or_ge i ds.length with h' | h'
    · exact h'
    · rw [List.getElem?_eq_none h'] at h; simp at h
  by_cases hi : i' = i
  · subst hi; rw [if_pos rfl, List.getElem?_set_self hlt]; rfl
  · rw [if_neg hi, List.getElem?_set_ne (Ne.symm hi)]

theorem wdict_append (ds : List (Option Dict)) (x : Option Dict) (i' : Nat) :
    ((ds ++ [x])[i']?).join = if i' = ds.length then x else (ds[i']?).join := by
  rcases Nat.lt_trichotomy i' ds.length with h | h | h
  · rw [List.getElem?_append_left h, if_neg (by omega)]
  · subst h; simp
  · rw [List.getElem?_eq_none (by simp; omega), List.getElem?_eq_none (by omega),
      if_neg (by omega)]

variable {utf8 : Bytes → Bool} {st : St} {w : World}

/-- Changing one dictionary. -/
theorem Ref.put (r : Ref st w) {its its' : List It} (h : Inv utf8 st its) {i : Nat} {t : RTree Nat}
    (ht : dictAt st i = some t) {s' : Store} {t' : RTree Nat} {d' : Dict} {jts : List It}
    (h' : Inv utf8 ⟨s', st.dicts.set i (some t'), st.iters⟩ its')
    (hk : ∀ b, 0 < holders st.store b → 0 < holders s' b → valAt s' b = valAt st.store b)
    (hf : ∀ a, 0 < holders s' a → ∃ v, valAt s' a = some v)
    (hd : DRef s' t' d') :
    Ref ⟨s', st.dicts.set i (some t'), st.iters⟩ ⟨w.dicts.set i (some d'), jts⟩ := by
  obtain ⟨d, hwd, -⟩ := r.yes i t ht
  refine ⟨by simp [r.len], ?_, ?_, hf⟩
  · intro i' hn
    rw [dictAt_set ht] at hn
    unfold World.dict
    simp only
    rw [wdict_set hwd]
    split at hn
    · simp at hn
    · rename_i hne; rw [if_neg hne]; exact r.no i' hn
  · intro i' t1 hn
    have hn0 := hn
    rw [dictAt_set ht] at hn
    unfold World.dict
    simp only
    rw [wdict_set hwd]
    split at hn
    · rename_i he; rw [if_pos he]; cases hn; exact ⟨d', rfl, hd⟩
    · rename_i hne
      rw [if_neg hne]
      obtain ⟨d1, h1, h2⟩ := r.yes i' t1 hn
      exact ⟨d1, h1, h2.store fun a ha => hk a (h.live hn ha) (h'.live hn0 ha)⟩

theorem Ref.drop (r : Ref st w) {its its' : List It} (h : Inv utf8 st its) {i : Nat} {t : RTree Nat}
    (ht : dictAt st i = some t) {s' : Store} {jts : List It}
    (h' : Inv utf8 ⟨s', st.dicts.set i none, st.iters⟩ its')
    (hk : ∀ b, 0 < holders st.store b → 0 < holders s' b → valAt s' b = valAt st.store b)
    (hf : ∀ a, 0 < holders s' a → ∃ v, valAt s' a = some v) :
    Ref ⟨s', st.dicts.set i none, st.iters⟩ ⟨w.dicts.set i none, jts⟩ := by
  obtain ⟨d, hwd, -⟩ := r.yes i t ht
  refine ⟨by simp [r.len], ?_, ?_, hf⟩
  · intro i' hn
    rw [dictAt_set ht] at hn
    unfold World.dict
    simp only
    rw [wdict_set hwd]
    split at hn
    · rename_i he; rw [if_pos he]
    · rename_i hne; rw [if_neg hne]; exact r.no i' hn
  · intro i' t1 hn
    have hn0 := hn
    rw [dictAt_set ht] at hn
    unfold World.dict
    simp only
    rw [wdict_set hwd]
    split at hn
    · simp at hn
    · rename_i hne
      rw [if_neg hne]
      obtain ⟨d1, h1, h2⟩ := r.yes i' t1 hn
      exact ⟨d1, h1, h2.store fun a ha => hk a (h.live hn ha) (h'.live hn0 ha)⟩

/-- Adding a dictionary. -/
theorem Ref.add (r : Ref st w) {its its' : List It} (h : Inv utf8 st its) {s' : Store}
    {t' : Option (RTree Nat)} {d' : Option Dict} {jts : List It}
    (h' : Inv utf8 ⟨s', st.dicts ++ [t'], st.iters⟩ its')
    (hk : ∀ b, 0 < holders st.store b → 0 < holders s' b → valAt s' b = valAt st.store b)
    (hf : ∀ a, 0 < holders s' a → ∃ v, valAt s' a = some v)
    (hn : t' = none → d' = none)
    (hd : ∀ t, t' = some t → ∃ d, d' = some d ∧ DRef s' t d) :
    Ref ⟨s', st.dicts ++ [t'], st.iters⟩ ⟨w.dicts ++ [d'], jts⟩ := by
  refine ⟨by simp [r.len], ?_, ?_, hf⟩
  · intro i' hx
    rw [dictAt_append] at hx
    unfold World.dict
    simp only
    rw [wdict_append, ← r.len]
    split at hx
    · rename_i he; rw [if_pos he]; exact hn hx
    · rename_i hne; rw [if_neg hne]; exact r.no i' hx
  · intro i' t1 hx
    have hx0 := hx
    rw [dictAt_append] at hx
    unfold World.dict
    simp only
    rw [wdict_append, ← r.len]
    split at hx
    · rename_i he; rw [if_pos he]; exact hd t1 hx
    · rename_i hne
      rw [if_neg hne]
      obtain ⟨d1, h1, h2⟩ := r.yes i' t1 hx
      exact ⟨d1, h1, h2.store fun a ha => hk a (h.live hx ha) (h'.live hx0 ha)⟩

/-- Changing only the objects and the iterators. -/
theorem Ref.same (r : Ref st w) {its : List It} (h : Inv utf8 st its) {s' : Store} {ii : List Iter}
    {jts : List It}
    (hh : ∀ b, holders st.store b ≤ holders s' b)
    (hv : ∀ b, 0 < holders s' b → 0 < holders st.store b ∧ valAt s' b = valAt st.store b) :
    Ref ⟨s', st.dicts, ii⟩ ⟨w.dicts, jts⟩ where
  len := r.len
  no i hn := r.no i hn
  yes i t hn := by
    obtain ⟨d, h1, h2⟩ := r.yes i t hn
    refine ⟨d, h1, h2.store fun a ha => ?_⟩
    have := h.live hn ha
    exact (hv a (by have := hh a; omega)).2
  full a ha := by
    obtain ⟨p, q⟩ := hv a ha
    rw [q]
    exact r.full a p

/-! ### Arguments -/

theorem cstr_id {b : Bytes} (h : 0 ∉ b) : cstr b = b := by
  unfold cstr
  induction b with
  | nil => rfl
  | cons x xs ih =>
    simp only [List.mem_cons, not_or] at h
    rw [List.takeWhile_cons_of_pos (by simpa using Ne.symm h.1), ih h.2]

theorem keyIn_text {k : Arg} {kb : Bytes} (h : keyText k = some kb) : keyIn k = .ok kb := by
  cases k with
  | str o =>
    cases o with
    | none => simp [keyText] at h
    | some b =>
      simp only [keyText] at h
      split at h
      · simp at h
      · rename_i hb
        cases h
        simp only [keyIn, cstr_id hb]
  | bytes b => simp [keyText] at h
  | none => simp [keyText] at h
  | other => simp [keyText] at h

theorem valueIn_text {v : Arg} {vb : Bytes} (h : valText v = some vb) :
    valueIn v = some (some vb) := by
  cases v with
  | str o =>
    cases o with
    | none => simp [valText] at h
    | some b =>
      simp only [valText] at h
      split at h
      · simp at h
      · rename_i hb
        cases h
        simp only [valueIn, cstr_id hb]
  | bytes b =>
    simp only [valText] at h
    split at h
    · simp at h
    · rename_i hb
      cases h
      simp only [valueIn, cstr_id hb]
  | none => simp [valText] at h
  | other => simp [valText] at h

theorem split_text {b p q : Bytes} (hb : 0 ∉ b) (e : b = p ++ q)
    (hq : q = [] ∨ q.head? = some 0) : p = b := by
  rcases hq with rfl | hq
  · simpa using e.symm
  · cases q with
    | nil => simp at hq
    | cons x xs =>
      simp at hq
      subst hq
      exact absurd (by rw [e]; simp) hb

theorem decodes_text {k : Arg} {kb : Bytes} (h : keyText k = some kb) (hu : utf8 kb = true) :
    Decodes utf8 k := by
  cases k with
  | str o =>
    cases o with
    | none => trivial
    | some b =>
      simp only [keyText] at h
      split at h
      · simp at h
      · rename_i hb
        cases h
        intro p q e _ hq
        rw [split_text hb e hq]
        exact hu
  | bytes b => simp [keyText] at h
  | none => trivial
  | other => trivial

theorem decodes_valText {v : Arg} {vb : Bytes} (h : valText v = some vb) (hu : utf8 vb = true) :
    Decodes utf8 v := by
  cases v with
  | str o =>
    cases o with
    | none => trivial
    | some b =>
      simp only [valText] at h
      split at h
      · simp at h
      · rename_i hb
        cases h
        intro p q e _ hq
        rw [split_text hb e hq]
        exact hu
  | bytes b =>
    simp only [valText] at h
    split at h
    · simp at h
    · rename_i hb
      cases h
      intro p q e _ hq
      rw [split_text hb e hq]
      exact hu
  | none => trivial
  | other => trivial

theorem permitted_careful {op : Op} (h : Permitted utf8 w op) : Careful utf8 w.iters op := by
  cases op with
  | set i k v =>
    obtain ⟨kb, vb, h1, h2, -, h4, h5, -⟩ := h
    exact ⟨decodes_text h1 h4, decodes_valText h2 h5⟩
  | del i k => exact h
  | next j => exact h
  | _ => trivial

/-! ### Writes -/

theorem setItem_exact (lt : UInt8 → UInt8 → Bool) {its : List It} (h : Inv utf8 st its)
    (r : Ref st w) {i : Nat} {t : RTree Nat} (ht : dictAt st i = some t) {d : Dict}
    (hd : DRef st.store t d) {k v : Arg} {kb vb : Bytes} (hk : keyText k = some kb)
    (hv : valText v = some vb) (hne : kb ≠ [])
    (hS0 : d.map kb ≠ none ∨ ∀ s ∈ d.past, ¬ ProperPrefix kb s) :
    ∃ s' t', setItem lt st.store t k (some v) = .ok (s', t', .done) ∧
      (∀ b, holders st.store b + t'.uses b = holders s' b + t.uses b) ∧
      (∀ b, 0 < holders st.store b → 0 < holders s' b → valAt s' b = valAt st.store b) ∧
      (∀ a, 0 < holders s' a → ∃ v, valAt s' a = some v) ∧
      ((∀ b ∈ t'.values, 0 < holders s' b) →
        DRef s' t' ⟨d.map.upd kb (some vb), kb :: d.past, d.counted⟩) := by
  have hw := hd.inv.wf
  have hS : t.get kb ≠ none ∨ ∀ s ∈ d.past, ¬ ProperPrefix kb s := hS0.imp
    (fun hm => by
      intro h0
      apply hm
      rw [hd.map, h0]
      rfl) id
  have hfr : ∀ a k', k' ≠ kb → (t.set lt kb (some a)).get k' = t.get k' := fun a k' hk' =>
    set_frame_or lt hw hd.inv.tok _ _ (below_or hS) k' hk'
  simp only [setItem, valueIn_text hv, keyIn_text hk]
  obtain ⟨ha, hah, hav, hal⟩ := alloc_spec st.store (some vb)
  obtain ⟨s2, e2, c2, v2, -⟩ := treeSet_ok lt (s := (alloc st.store (some vb)).1) (t := t) kb
    (alloc st.store (some vb)).2 (by
      intro o ho
      have := h.live ht (mem_values hw ho)
      rw [hah]
      omega)
  refine ⟨s2, _, by simp only [e2, bind, Except.bind]; rfl, ?_, ?_, ?_, ?_⟩
  · intro b
    have h1 := uses_set_eq lt hw hne (alloc st.store (some vb)).2 b (hfr _)
    have h2 := c2 b
    have h3 := hah b
    have h4 : one ((alloc st.store (some vb)).2 = b) = one (b = st.store.length) := by
      rw [ha]; exact one_comm
    omega
  · intro b hb hb2
    rw [v2 b hb2, hav, if_neg]
    rintro rfl
    rw [holders_fresh] at hb
    omega
  · intro b hb
    rw [v2 b hb, hav]
    split
    · exact ⟨_, rfl⟩
    · rename_i hne'
      refine r.full b ?_
      have := c2 b
      have := hah b
      have : one (b = st.store.length) = 0 := by simp [one, hne']
      omega
  · intro hl
    refine ⟨inv_set lt (hd.inv.mono fun s hs => by simp [hs]) kb _ (.inl (by simp)), ?_,
      fun hc => cnt_set_or lt hw hd.inv.tok (hd.cnt hc) hne hS _⟩
    intro k'
    simp only [FMap.upd]
    have hwt := set_wf lt hw kb (some (alloc st.store (some vb)).2)
    by_cases hkk : k' = kb
    · subst hkk
      rw [if_pos rfl, set_get lt hw _ hne]
      simp only [Option.bind_some]
      have := hl _ (mem_values hwt (set_get lt hw k' hne (some (alloc st.store (some vb)).2)))
      rw [v2 _ this, hav, if_pos ha]
    · rw [if_neg hkk, hfr _ _ hkk, hd.map]
      cases hg : t.get k' with
      | none => rfl
      | some a =>
        simp only [Option.bind_some]
        have h1 := hl a (mem_values hwt (by rw [hfr _ _ hkk]; exact hg))
        have h2 := h.live ht (mem_values hw hg)
        rw [v2 _ h1, hav, if_neg]
        rintro rfl
        rw [holders_fresh] at h2
        omega

theorem uniteSets_exact (lt : UInt8 → UInt8 → Bool) (E : Nat → Nat) (ws : List (Bytes × Nat)) :
    ∀ (P : Bytes → Prop) {s : Store} {t : RTree Nat}, WF t.subnodes → TOK P [] t.subnodes →
      (∀ b, t.uses b + E b ≤ holders s b) → (∀ e ∈ ws, 0 < E e.2) → (∀ e ∈ ws, e.1 ≠ []) →
      (∀ e ∈ ws, t.get e.1 ≠ none ∨ ∀ k', ProperPrefix e.1 k' → ¬ P k') →
      (ws.Pairwise fun a b => ¬ ProperPrefix b.1 a.1) →
      ∃ s' t', uniteSets lt s t ws = .ok (s', t') ∧
        (∀ b, holders s b + t'.uses b = holders s' b + t.uses b) := by
  induction ws with
  | nil => intro P s t _ _ _ _ _ _ _; exact ⟨s, t, rfl, fun _ => rfl⟩
  | cons e ws ih =>
    intro P s t hw hp hb hE hne hP hord
    obtain ⟨k, a⟩ := e
    rw [List.pairwise_cons] at hord
    have hEa : 0 < E a := hE (k, a) (by simp)
    have := hb a
    obtain ⟨s1, e1, c1, v1, l1⟩ := incref_ok (s := s) (a := a) (by omega)
    obtain ⟨s2, e2, c2, v2, l2⟩ := treeSet_ok lt (s := s1) (t := t) k a (by
      intro o ho
      have := uses_pos hw ho
      have := hb o
      have := c1 o
      omega)
    have hstep : ∀ b, (t.set lt k (some a)).uses b + holders s b = holders s2 b + t.uses b := by
      intro b
      have h1 := uses_set_eq lt hw (hne (k, a) (by simp)) a b
        (fun k' hk' => set_frame_or lt hw hp _ _ (hP (k, a) (by simp)) k' hk')
      simp only at h1
      have h2 := c1 b
      have h3 := c2 b
      have h4 : one (a = b) = one (b = a) := one_comm
      omega
    obtain ⟨s3, t3, e3, m3⟩ := ih (fun b => P b ∨ b <+: k) (s := s2) (t := t.set lt k (some a))
      (set_wf lt hw _ _) (set_tok lt hw (hp.mono fun _ => Or.inl) _ _ fun p hp => Or.inr hp) (by
        intro b
        have := hstep b
        have := hb b
        omega) (fun e he => hE e (by simp [he])) (fun e he => hne e (by simp [he])) (fun e' he' =>
        kept_or lt hw hp (hne (k, a) (by simp)) a (hP (k, a) (by simp)) (hP e' (by simp [he']))
          (hord.1 e' he')) hord.2
    refine ⟨s3, t3, by simp [uniteSets, e1, e2, e3, bind, Except.bind], ?_⟩
    intro b
    have := m3 b
    have := hstep b
    omega

theorem uniteWrites_ne {t : RTree Nat} (hw : WF t.subnodes) : ∀ e ∈ uniteWrites t, e.1 ≠ [] := by
  intro e he h0
  have := mem_uniteWrites hw he
  rw [h0, get_nil] at this
  simp at this

theorem uniteWrites_pp {t : RTree Nat} (hw : WF t.subnodes) :
    (uniteWrites t).Pairwise fun a b => ¬ ProperPrefix b.1 a.1 :=
  (uniteWrites_order hw).imp fun hab ⟨c, cs, e⟩ => hab ⟨c :: cs, e.symm⟩

theorem mem_uniteWrites_below {S : List Bytes} {u : RTree Nat} (hu : RTree.Inv S u)
    {e : Bytes × Nat} (he : e ∈ uniteWrites u) : PathIn S e.1 (some e.2) := by
  have hm := (uniteWrites_perm u).mem_iff.1 he
  rw [pairs_eq] at hm
  exact alln_preL hu.path _ hm

theorem DRef.some_iff {s : Store} {t : RTree Nat} {d : Dict} (h : DRef s t d)
    (hl : ∀ a ∈ t.values, ∃ v, valAt s a = some v) (k : Bytes) :
    d.map k ≠ none ↔ t.get k ≠ none := by
  rw [h.map]
  cases hg : t.get k with
  | none => simp
  | some a =>
    obtain ⟨v, hv⟩ := hl a (mem_values h.inv.wf hg)
    simp [hv]

theorem Ref.vals (r : Ref st w) {its : List It} (h : Inv utf8 st its) {i : Nat} {t : RTree Nat}
    (ht : dictAt st i = some t) : ∀ a ∈ t.values, ∃ v, valAt st.store a = some v :=
  fun a ha => r.full a (h.live ht ha)

theorem update_exact (lt : UInt8 → UInt8 → Bool) {its : List It} (h : Inv utf8 st its)
    (r : Ref st w) {i j : Nat} {t u : RTree Nat} (ht : dictAt st i = some t)
    (hu : dictAt st j = some u) {d e : Dict} (hd : DRef st.store t d) (he : DRef st.store u e)
    (hij : i = j → d = e)
    (hS : i ≠ j → ∀ k, e.map k ≠ none → d.map k ≠ none ∨ ∀ s ∈ d.past, ¬ ProperPrefix k s) :
    ∃ s' t', update lt st.store t u = .ok (s', t') ∧
      (∀ b, holders st.store b + t'.uses b = holders s' b + t.uses b) ∧
      (∀ b, 0 < holders s' b → 0 < holders st.store b ∧ valAt s' b = valAt st.store b) ∧
      ((∀ b ∈ t'.values, 0 < holders s' b) →
        DRef s' t' ⟨d.map.merge e.map, e.past ++ d.past, d.counted⟩) := by
  obtain ⟨s', t', e1, g, wf', hk', -, hv, hself⟩ := update_ok lt h ht hu
  have hw := hd.inv.wf
  have hwu := he.inv.wf
  have hinv : RTree.Inv (e.past ++ d.past) t' := by
    rw [g]
    refine inv_setAll lt _ (hd.inv.mono fun s hs => by simp [hs]) ?_
    intro x hx
    simp only [asWrites, List.mem_map] at hx
    obtain ⟨e', he', rfl⟩ := hx
    exact PathIn.mono (fun s hs => by simp [hs]) (mem_uniteWrites_below he.inv he')
  by_cases hc : i = j
  · obtain ⟨hg, hh⟩ := hself hc
    have hde := hij hc
    subst hde
    subst hc
    rw [ht] at hu
    cases hu
    refine ⟨s', t', e1, ?_, hv, ?_⟩
    · intro b; rw [uses_congr hw wf' hg, hh]
    · intro hl
      refine ⟨hinv, ?_, ?_⟩
      · intro k
        simp only [FMap.merge, Option.or_self]
        rw [hd.map, hg]
        cases hgk : t.get k with
        | none => rfl
        | some a =>
          simp only [Option.bind_some]
          exact ((hv a (hl a (mem_values wf' (by rw [hg]; exact hgk)))).2).symm
      · intro hcn
        rw [g]
        refine Cnt.mono (cnt_setAll_hit lt (uniteWrites t) hw (hd.cnt hcn) ?_)
          (fun s hs => ⟨s, by simp [hs], List.prefix_refl _⟩)
        intro x hx
        exact ⟨by rw [mem_uniteWrites hw hx]; simp, (mem_uniteWrites_below hd.inv hx).below⟩
  · have hS' : ∀ x ∈ uniteWrites u, t.get x.1 ≠ none ∨ ∀ s ∈ d.past, ¬ ProperPrefix x.1 s := by
      intro x hx
      refine (hS hc x.1 ?_).imp (fun hm h0 => ?_) id
      · rw [he.some_iff (r.vals h hu), mem_uniteWrites hwu hx]
        simp
      · apply hm
        rw [hd.map, h0]
        rfl
    obtain ⟨s2, t2, e2, m2⟩ := uniteSets_exact lt (u.uses ·) (uniteWrites u) (Below d.past)
      (s := st.store) hw hd.inv.tok
      (fun b => Nat.le_trans (uses_le_total2 ht hu hc b) (h.bal b))
      (fun x hx => uses_pos hwu (mem_uniteWrites hwu hx)) (uniteWrites_ne hwu)
      (fun x hx => below_or (hS' x hx)) (uniteWrites_pp hwu)
    rw [update_eq] at e1
    rw [e1] at e2
    cases e2
    refine ⟨s', t', by rw [update_eq]; exact e1, m2, hv, ?_⟩
    intro hl
    have hget : ∀ k, t'.get k = FMap.merge t.get u.get k := by
      intro k
      rw [g, setAll_get_or lt _ _ hw hd.inv.tok (uniteWrites_ne hwu)
        (fun x hx => below_or (hS' x hx)) (uniteWrites_pp hwu), writes_unite hwu]
    refine ⟨hinv, ?_, ?_⟩
    · intro k
      have hgk := hget k
      simp only [FMap.merge] at hgk ⊢
      rw [hd.map, he.map]
      have hval : ∀ a, t'.get k = some a → valAt s' a = valAt st.store a := fun a ha =>
        (hv a (hl a (mem_values wf' ha))).2
      cases h1 : u.get k with
      | some a =>
        rw [h1] at hgk
        simp only [Option.some_or] at hgk
        rw [hgk]
        obtain ⟨v, hv1⟩ := r.full a (h.live hu (mem_values hwu h1))
        simp only [Option.bind_some, hval a hgk, hv1, Option.some_or]
      | none =>
        rw [h1] at hgk
        simp only [Option.none_or, Option.bind_none] at hgk ⊢
        rw [hgk]
        cases h2 : t.get k with
        | none => rfl
        | some a =>
          simp only [Option.bind_some]
          rw [hval a (by rw [hgk, h2])]
    · intro hcn
      rw [g]
      refine Cnt.mono (cnt_setAll lt (uniteWrites u) hw hd.inv.tok (hd.cnt hcn) (uniteWrites_ne hwu)
        hS' (uniteWrites_pp hwu)) ?_
      intro s hs
      rcases List.mem_append.1 hs with hs | hs
      · rw [List.mem_reverse, List.mem_map] at hs
        obtain ⟨x, hx, rfl⟩ := hs
        obtain ⟨s0, h1, h2⟩ := (mem_uniteWrites_below he.inv hx).below
        exact ⟨s0, by simp [h1], h2⟩
      · exact ⟨s, by simp [hs], List.prefix_refl _⟩

/-! ### Answers -/

theorem DRef.lists {s : Store} {t : RTree Nat} {d : Dict} (h : DRef s t d)
    (hl : ∀ a ∈ t.values, ∃ v, valAt s a = some v) : Lists t.keys d.map :=
  ⟨keys_nodup h.inv.wf, fun k => by rw [mem_keys h.inv.wf, h.some_iff hl]⟩

theorem lit1 : "{".toUTF8.data.toList = [123] := by decide
theorem lit2 : " = '".toUTF8.data.toList = [32, 61, 32, 39] := by decide
theorem lit3 : "', ".toUTF8.data.toList = [39, 44, 32] := by decide
theorem lit4 : "}".toUTF8.data.toList = [125] := by decide

theorem DRef.render {s : Store} {t : RTree Nat} {d : Dict} (h : DRef s t d) :
    [123] ++ (t.pairs.flatMap fun e =>
      e.1 ++ [32, 61, 32, 39] ++ (valAt s e.2).getD [] ++ [39, 44, 32]) ++ [125] =
      render d.map t.keys := by
  unfold PyD.render RTree.keys
  rw [lit1, lit2, lit3, lit4, List.flatMap_map]
  congr 2
  rw [List.flatMap_def, List.flatMap_def]
  congr 1
  apply List.map_congr_left
  intro e he
  have hg : t.get e.1 = some e.2 := (mem_pairs h.inv.wf _ _).1 he
  rw [h.map, hg]
  rfl

theorem strCmp_iff {s : Store} {a b : Nat} {x y : Bytes} (ha : 0 < holders s a)
    (hb : 0 < holders s b) (hx : valAt s a = some x) (hy : valAt s b = some y) :
    strCmp s a b = true ↔ x = y := by
  obtain ⟨o, ho, -, hv⟩ := load_ok ha
  obtain ⟨o', ho', -, hv'⟩ := load_ok hb
  unfold strCmp
  rw [ho, ho']
  simp only [hv, hv', hx, hy]
  rw [Obj.CStr.cmp_iff]
  simp

theorem cmp_maps {its : List It} (h : Inv utf8 st its) (r : Ref st w) {i j : Nat}
    {t u : RTree Nat} (ht : dictAt st i = some t) (hu : dictAt st j = some u) {d e : Dict}
    (hd : DRef st.store t d) (he : DRef st.store u e) :
    RTree.cmp (strCmp st.store) t u = true ↔ d.map = e.map := by
  rw [cmp_iff _ hd.inv.wf he.inv.wf]
  constructor
  · intro hk
    funext k
    have := hk k
    rw [hd.map, he.map]
    cases h1 : t.get k with
    | none =>
      cases h2 : u.get k with
      | none => rfl
      | some b => rw [h1, h2] at this; exact this.elim
    | some a =>
      cases h2 : u.get k with
      | none => rw [h1, h2] at this; exact this.elim
      | some b =>
        rw [h1, h2] at this
        have l1 := h.live ht (mem_values hd.inv.wf h1)
        have l2 := h.live hu (mem_values he.inv.wf h2)
        obtain ⟨x, hx⟩ := r.full a l1
        obtain ⟨y, hy⟩ := r.full b l2
        simp only at this
        rw [strCmp_iff l2 l1 hy hx] at this
        simp [hx, hy, this]
  · intro hm k
    have := congrFun hm k
    rw [hd.map, he.map] at this
    cases h1 : t.get k with
    | none =>
      cases h2 : u.get k with
      | none => trivial
      | some b =>
        obtain ⟨y, hy⟩ := r.full b (h.live hu (mem_values he.inv.wf h2))
        rw [h1, h2] at this
        simp [hy] at this
    | some a =>
      have l1 := h.live ht (mem_values hd.inv.wf h1)
      obtain ⟨x, hx⟩ := r.full a l1
      cases h2 : u.get k with
      | none =>
        rw [h1, h2] at this
        simp [hx] at this
      | some b =>
        have l2 := h.live hu (mem_values he.inv.wf h2)
        obtain ⟨y, hy⟩ := r.full b l2
        rw [h1, h2] at this
        simp only [Option.bind_some, hx, hy, Option.some.injEq] at this
        simp only
        rw [strCmp_iff l2 l1 hy hx]
        exact this.symm

/-! ### One operation of a permitted program -/

theorem exact_refl (st : St) (d : List Iter) : Exact st ⟨st.store, st.dicts, d⟩ := fun _ => rfl

theorem keeps_refl (st : St) (ds : List (Option (RTree Nat))) (d : List Iter) :
    Keeps st ⟨st.store, ds, d⟩ := fun _ _ _ => rfl

theorem exact_put {st : St} {i : Nat} {t t' : RTree Nat} (ht : dictAt st i = some t) {s' : Store}
    {d : List Iter} (h : ∀ b, holders st.store b + t'.uses b = holders s' b + t.uses b) :
    Exact st ⟨s', st.dicts.set i (some t'), d⟩ := by
  intro a
  have h1 := total_set ht t' a
  have h2 := h a
  have h3 := uses_le_total ht a
  simp only
  omega

theorem put_live {its : List It} {i : Nat} {t t' : RTree Nat} (ht : dictAt st i = some t)
    {s' : Store} (h' : Inv utf8 ⟨s', st.dicts.set i (some t'), st.iters⟩ its) :
    ∀ b ∈ t'.values, 0 < holders s' b := fun b hb =>
  h'.live (i := i) (by rw [dictAt_set ht, if_pos rfl]) hb

theorem get_empty (n : Nat) (k : Bytes) : (⟨HSList.empty, n⟩ : RTree Nat).get k = none := by
  rw [get_eq (t := ⟨HSList.empty, n⟩) wf_empty]
  rfl

/-- What a permitted operation does. -/
structure Good (utf8 : Bytes → Bool) (w : World) (st : St) (op : Op) (st' : St) (x : Ans) : Prop where
  inv : Inv utf8 st' (w.after op).iters
  ref : Ref st' (w.after op)
  ans : Answer w x op
  lenAns : LenAnswer w x op
  mono : Mono st st'
  keeps : Keeps st st'
  exact : (∀ i k, op ≠ .hasKey i k) → Exact st st'

theorem Good.quiet {op : Op} {st' : St} {x : Ans} (h : Inv utf8 st w.iters) (r : Ref st w)
    (hst : ∃ ii, st' = ⟨st.store, st.dicts, ii⟩) (hd : dictsAfter w op = w.dicts)
    (i' : Inv utf8 st' (itersAfter w.iters op)) (a : Answer w x op) (l : LenAnswer w x op) :
    Good utf8 w st op st' x := by
  obtain ⟨ii, rfl⟩ := hst
  refine ⟨i', ?_, a, l, mono_refl st _, keeps_refl st _ _, fun _ => exact_refl st _⟩
  unfold World.after
  rw [hd]
  exact r.same h (fun _ => Nat.le_refl _) fun _ hb => ⟨hb, rfl⟩

theorem Ref.map_get (r : Ref st w) {its : List It} (h : Inv utf8 st its) {i : Nat} {t : RTree Nat}
    (ht : dictAt st i = some t) {d : Dict} (hd : DRef st.store t d) (k : Bytes) :
    (t.get k = none ∧ d.map k = none) ∨
    ∃ a v, t.get k = some a ∧ valAt st.store a = some v ∧ d.map k = some v := by
  rw [hd.map]
  cases hg : t.get k with
  | none => exact .inl ⟨rfl, rfl⟩
  | some a =>
    obtain ⟨v, hv⟩ := r.full a (h.live ht (mem_values hd.inv.wf hg))
    exact .inr ⟨a, v, rfl, hv, by simpa using hv⟩

theorem step_ref (lt : UInt8 → UInt8 → Bool) (h0 : utf8 [] = true) (h : Inv utf8 st w.iters)
    (r : Ref st w) {op : Op} (hp : Permitted utf8 w op) :
    ∃ st' x, step lt utf8 st op = .ok (st', x) ∧ Good utf8 w st op st' x := by
  obtain ⟨st', x, e, i', m⟩ := step_safe lt h0 h op (permitted_careful hp)
  refine ⟨st', x, e, ?_⟩
  cases op with
  | new =>
    cases e
    refine ⟨i', ?_, rfl, trivial, m, keeps_refl st _ _, fun _ a => ?_⟩
    · exact r.add h (s' := st.store) i' (fun _ _ _ => rfl) r.full (by simp) (by
        rintro t ⟨⟩
        exact ⟨_, rfl, inv_empty _, fun k => by rw [show create.get k = none from get_empty _ k]; rfl,
          fun _ => cnt_empty⟩)
    · simp only
      rw [total_append]
      simp [total, RTree.uses, RTree.values, RTree.pairs, RTree.create, HSList.empty, allLoop,
        listCount]
  | set i k v =>
    obtain ⟨kb, vb, hk, hv, hne, hu1, hu2, hS⟩ := hp
    simp only [step] at e
    cases ht : dictAt st i with
    | none =>
      rw [ht] at e
      cases e
      have hwd := r.no i ht
      exact Good.quiet h r ⟨_, rfl⟩ (by simp [dictsAfter, hwd]) i'
        (by simp [Answer, onDict, hwd, missing]) trivial
    | some t =>
      obtain ⟨d, hwd, hd⟩ := r.yes i t ht
      obtain ⟨s2, t2, e2, hex, hkp, hfl, href⟩ := setItem_exact lt h r ht hd hk hv hne (hS d hwd)
      rw [ht] at e
      simp only [e2, bind, Except.bind] at e
      cases e
      refine ⟨i', ?_, by simp [Answer, onDict, hwd], trivial, m, hkp, fun _ => exact_put ht hex⟩
      simp only [World.after, dictsAfter, hwd, hk, hv]
      exact r.put h ht i' hkp hfl (href (put_live ht i'))
  | del i k => exact hp.elim
  | getItem i k =>
    simp only [step] at e
    cases ht : dictAt st i with
    | none =>
      rw [ht] at e
      cases e
      have hwd := r.no i ht
      exact Good.quiet h r ⟨_, rfl⟩ rfl i' (by simp [Answer, onDict, hwd, missing]) trivial
    | some t =>
      obtain ⟨d, hwd, hd⟩ := r.yes i t ht
      obtain ⟨s2, y, e2, hh, hv, hx⟩ := getItem_ok h ht k
      rw [ht] at e
      simp only [e2, bind, Except.bind] at e
      cases e
      refine ⟨i', r.same h (fun b => Nat.le_of_eq (hh b).symm) hv, ?_, trivial, m,
        fun b _ hb => (hv b hb).2, fun _ a => by simp only [hh]⟩
      simp only [Answer, onDict, hwd]
      intro kb hkb
      rw [hx, keyIn_text hkb]
      simp only
      rcases r.map_get h ht hd kb with ⟨h1, h2⟩ | ⟨a, v, h1, h2, h3⟩
      · rw [h1, h2]
      · rw [h1, h3]; simp [h2]
  | get i k =>
    simp only [step] at e
    cases ht : dictAt st i with
    | none =>
      rw [ht] at e
      cases e
      have hwd := r.no i ht
      exact Good.quiet h r ⟨_, rfl⟩ rfl i' (by simp [Answer, onDict, hwd, missing]) trivial
    | some t =>
      obtain ⟨d, hwd, hd⟩ := r.yes i t ht
      obtain ⟨s2, y, e2, hh, hv, hx⟩ := getMethod_ok h ht k
      rw [ht] at e
      simp only [e2, bind, Except.bind] at e
      cases e
      refine ⟨i', r.same h (fun b => Nat.le_of_eq (hh b).symm) hv, ?_, trivial, m,
        fun b _ hb => (hv b hb).2, fun _ a => by simp only [hh]⟩
      simp only [Answer, onDict, hwd]
      intro kb hkb
      rw [hx, keyIn_text hkb]
      simp only
      rcases r.map_get h ht hd kb with ⟨h1, h2⟩ | ⟨a, v, h1, h2, h3⟩
      · rw [h1, h2]
      · rw [h1, h3]; simp [h2]
  | hasKey i k =>
    simp only [step] at e
    cases ht : dictAt st i with
    | none =>
      rw [ht] at e
      cases e
      have hwd := r.no i ht
      exact Good.quiet h r ⟨_, rfl⟩ rfl i' (by simp [Answer, onDict, hwd, missing]) trivial
    | some t =>
      obtain ⟨d, hwd, hd⟩ := r.yes i t ht
      obtain ⟨s2, y, e2, hh, hv, hx⟩ := hasKey_ok h ht k
      rw [ht] at e
      simp only [e2, bind, Except.bind] at e
      cases e
      refine ⟨i', r.same h (fun b => by rw [hh]; omega) hv, ?_, trivial, m,
        fun b _ hb => (hv b hb).2, fun hn => absurd rfl (hn i k)⟩
      simp only [Answer, onDict, hwd]
      intro kb hkb
      rw [hx, keyIn_text hkb]
      simp only
      rcases r.map_get h ht hd kb with ⟨h1, h2⟩ | ⟨a, v, h1, h2, h3⟩
      · rw [h1, h2]; rfl
      · rw [h1, h3]; rfl
  | len i =>
    simp only [step] at e
    cases ht : dictAt st i with
    | none =>
      rw [ht] at e
      cases e
      have hwd := r.no i ht
      exact Good.quiet h r ⟨_, rfl⟩ rfl i' trivial (by simp [LenAnswer, onDict, hwd, missing])
    | some t =>
      obtain ⟨d, hwd, hd⟩ := r.yes i t ht
      rw [ht] at e
      cases e
      refine Good.quiet h r ⟨_, rfl⟩ rfl i' trivial ?_
      simp only [LenAnswer, onDict, hwd]
      exact fun hc => ⟨t.keys, hd.lists (r.vals h ht), by rw [(hd.cnt hc).len]⟩
  | clear i =>
    simp only [step] at e
    cases ht : dictAt st i with
    | none =>
      rw [ht] at e
      cases e
      have hwd := r.no i ht
      exact Good.quiet h r ⟨_, rfl⟩ (by simp [dictsAfter, hwd]) i'
        (by simp [Answer, onDict, hwd, missing]) trivial
    | some t =>
      obtain ⟨d, hwd, hd⟩ := r.yes i t ht
      obtain ⟨s2, e2, hh, hv, -⟩ := destroyAll_ok t.values (s := st.store) fun b =>
        Nat.le_trans (uses_le_total ht b) (h.bal b)
      rw [ht] at e
      simp only [e2, bind, Except.bind] at e
      cases e
      refine ⟨i', ?_, by simp [Answer, onDict, hwd], trivial, m, fun b _ hb => hv b hb, fun _ =>
        exact_put ht fun b => ?_⟩
      · simp only [World.after, dictsAfter, hwd]
        refine r.put h ht i' (fun b _ hb => hv b hb) (fun a ha => ?_)
          ⟨inv_empty _, fun k => by rw [show t.clear.get k = none from get_empty _ k]; rfl,
            fun _ => cnt_empty⟩
        rw [hv a ha]
        exact r.full a (by have := hh a; omega)
      · have := hh b
        rw [clear_uses]
        change _ = _ + t.values.count b
        omega
  | copy i =>
    simp only [step] at e
    cases ht : dictAt st i with
    | none =>
      rw [ht] at e
      cases e
      have hwd := r.no i ht
      refine ⟨i', ?_, by simp [Answer, onDict, hwd, missing], trivial, m, keeps_refl st _ _, fun _ a => ?_⟩
      · simp only [World.after, dictsAfter, hwd]
        exact r.add h (s' := st.store) i' (fun _ _ _ => rfl) r.full (by simp) (by simp)
      · simp only
        rw [total_append]
        simp [total]
    | some t =>
      obtain ⟨d, hwd, hd⟩ := r.yes i t ht
      have hw := hd.inv.wf
      obtain ⟨w', g', p'⟩ := copy_spec hw
      obtain ⟨s2, e2, hh, hv, -⟩ := increfAll_ok t.values (s := st.store) fun b hb => h.live ht hb
      rw [ht] at e
      simp only [e2, bind, Except.bind] at e
      cases e
      have hu : ∀ a, (t.copy id).uses a = t.values.count a := by
        intro a; rw [uses_eq, p']; rfl
      have hlive : ∀ a, 0 < holders s2 a → 0 < holders st.store a := by
        intro a ha
        rw [hh] at ha
        by_cases hz : t.values.count a = 0
        · omega
        · exact h.live ht (List.count_pos_iff.1 (by omega))
      refine ⟨i', ?_, by simp [Answer, onDict, hwd], trivial, m, fun b _ _ => hv b, fun _ a => ?_⟩
      · simp only [World.after, dictsAfter, hwd]
        refine r.add h i' (fun b _ _ => hv b) (fun a ha => ?_) (by simp) ?_
        · rw [hv a]
          exact r.full a (hlive a ha)
        · rintro t2 ⟨⟩
          refine ⟨_, rfl, ?_, fun k => ?_, by simp⟩
          · refine ⟨w', ?_, ?_⟩
            · rw [copy_subnodes]; exact cloneHS_tok id _ _ hw
            · rw [copy_subnodes]; exact cloneHS_alln id _ (fun _ _ h => h) hd.inv.path
          · simp only
            rw [g', hd.map]
            cases t.get k with
            | none => rfl
            | some a => simp only [Option.bind_some]; rw [hv]
      · simp only
        rw [total_append, hh]
        simp only [total, hu]
        omega
  | update i j =>
    simp only [step] at e
    cases ht : dictAt st i with
    | none =>
      rw [ht] at e
      cases e
      have hwd := r.no i ht
      exact Good.quiet h r ⟨_, rfl⟩ (by simp [dictsAfter, hwd]) i'
        (by simp [Answer, onDict, hwd, missing]) trivial
    | some t =>
      obtain ⟨d, hwd, hd⟩ := r.yes i t ht
      cases hu : dictAt st j with
      | none =>
        rw [ht, hu] at e
        cases e
        have hwu := r.no j hu
        exact Good.quiet h r ⟨_, rfl⟩ (by simp [dictsAfter, hwd, hwu]) i'
          (by simp [Answer, onDict, hwd, hwu, missing]) trivial
      | some u =>
        obtain ⟨f, hwf, hf⟩ := r.yes j u hu
        obtain ⟨s2, t2, e2, hex, hv, href⟩ := update_exact lt h r ht hu hd hf
          (by rintro rfl; rw [hwd] at hwf; cases hwf; rfl) (fun hne => hp hne d f hwd hwf)
        rw [ht, hu] at e
        simp only [e2, bind, Except.bind] at e
        cases e
        refine ⟨i', ?_, by simp [Answer, onDict, hwd, hwf], trivial, m, fun b _ hb => (hv b hb).2,
          fun _ => exact_put ht hex⟩
        simp only [World.after, dictsAfter, hwd, hwf]
        refine r.put h ht i' (fun b _ hb => (hv b hb).2) (fun a ha => ?_) (href (put_live ht i'))
        rw [(hv a ha).2]
        exact r.full a (hv a ha).1
  | updateOther i =>
    cases e
    exact Good.quiet h r ⟨_, rfl⟩ rfl i' trivial trivial
  | str i =>
    simp only [step] at e
    cases ht : dictAt st i with
    | none =>
      rw [ht] at e
      cases e
      have hwd := r.no i ht
      exact Good.quiet h r ⟨_, rfl⟩ rfl i' (by simp [Answer, onDict, hwd, missing]) trivial
    | some t =>
      obtain ⟨d, hwd, hd⟩ := r.yes i t ht
      rw [ht] at e
      simp only [str, strLoop_ok _ (h.pairs_live ht), bind, Except.bind, pure, Except.pure] at e
      cases e
      refine Good.quiet h r ⟨_, rfl⟩ rfl i' ?_ trivial
      simp only [Answer, onDict, hwd]
      exact ⟨t.keys, hd.lists (r.vals h ht), by rw [← hd.render]⟩
  | cmp q i j =>
    simp only [step] at e
    cases ht : dictAt st i with
    | none =>
      rw [ht] at e
      cases e
      have hwd := r.no i ht
      refine Good.quiet h r ⟨_, rfl⟩ rfl i' ?_ trivial
      cases q <;> simp [Answer, onDict, hwd, missing]
    | some t =>
      obtain ⟨d, hwd, hd⟩ := r.yes i t ht
      cases hu : dictAt st j with
      | none =>
        rw [ht, hu] at e
        cases e
        have hwu := r.no j hu
        refine Good.quiet h r ⟨_, rfl⟩ rfl i' ?_ trivial
        cases q <;> simp [Answer, onDict, hwd, hwu, missing]
      | some u =>
        obtain ⟨f, hwf, hf⟩ := r.yes j u hu
        have hl : loadAll st.store (t.values ++ u.values) = .ok () := loadAll_ok _ fun a ha => by
          rcases List.mem_append.1 ha with ha | ha
          · exact h.live ht ha
          · exact h.live hu ha
        have hc := cmp_maps h r ht hu hd hf
        rw [ht, hu] at e
        cases q with
        | order => cases e; exact Good.quiet h r ⟨_, rfl⟩ rfl i' trivial trivial
        | eq =>
          simp only [same, hl, bind, Except.bind, pure, Except.pure] at e
          cases e
          refine Good.quiet h r ⟨_, rfl⟩ rfl i' ?_ trivial
          simp only [Answer, onDict, hwd, hwf]
          exact ⟨_, rfl, hc⟩
        | ne =>
          simp only [same, hl, bind, Except.bind, pure, Except.pure] at e
          cases e
          refine Good.quiet h r ⟨_, rfl⟩ rfl i' ?_ trivial
          simp only [Answer, onDict, hwd, hwf]
          refine ⟨_, rfl, ?_⟩
          rw [ne_eq, ← hc]
          simp
  | cmpOther q i =>
    cases e
    exact Good.quiet h r ⟨_, rfl⟩ rfl i' trivial trivial
  | drop i =>
    simp only [step] at e
    cases ht : dictAt st i with
    | none =>
      rw [ht] at e
      cases e
      have hwd := r.no i ht
      exact Good.quiet h r ⟨_, rfl⟩ (by simp [dictsAfter, hwd]) i'
        (by simp [Answer, onDict, hwd, missing]) trivial
    | some t =>
      obtain ⟨d, hwd, hd⟩ := r.yes i t ht
      obtain ⟨s2, e2, hh, hv, -⟩ := destroyAll_ok t.values (s := st.store) fun b =>
        Nat.le_trans (uses_le_total ht b) (h.bal b)
      rw [ht] at e
      simp only [e2, bind, Except.bind] at e
      cases e
      refine ⟨i', ?_, by simp [Answer, onDict, hwd], trivial, m, fun b _ hb => hv b hb, fun _ a => ?_⟩
      · simp only [World.after, dictsAfter, hwd]
        refine r.drop h ht i' (fun b _ hb => hv b hb) (fun a ha => ?_)
        rw [hv a ha]
        exact r.full a (by have := hh a; omega)
      · have h1 := total_drop ht a
        have h2 := hh a
        have h3 : t.uses a = t.values.count a := rfl
        simp only
        omega
  | iterKeys i =>
    simp only [step] at e
    cases ht : dictAt st i with
    | none =>
      rw [ht] at e
      cases e
      have hwd := r.no i ht
      exact Good.quiet h r ⟨_, rfl⟩ rfl i' (by simp [Answer, onDict, hwd, missing]) trivial
    | some t =>
      obtain ⟨d, hwd, hd⟩ := r.yes i t ht
      rw [ht] at e
      cases e
      exact Good.quiet h r ⟨_, rfl⟩ rfl i' (by simp [Answer, onDict, hwd]) trivial
  | iterValues i =>
    simp only [step] at e
    cases ht : dictAt st i with
    | none =>
      rw [ht] at e
      cases e
      have hwd := r.no i ht
      exact Good.quiet h r ⟨_, rfl⟩ rfl i' (by simp [Answer, onDict, hwd, missing]) trivial
    | some t =>
      obtain ⟨d, hwd, hd⟩ := r.yes i t ht
      rw [ht] at e
      cases e
      exact Good.quiet h r ⟨_, rfl⟩ rfl i' (by simp [Answer, onDict, hwd]) trivial
  | iterItems i =>
    simp only [step] at e
    cases ht : dictAt st i with
    | none =>
      rw [ht] at e
      cases e
      have hwd := r.no i ht
      exact Good.quiet h r ⟨_, rfl⟩ rfl i' (by simp [Answer, onDict, hwd, missing]) trivial
    | some t =>
      obtain ⟨d, hwd, hd⟩ := r.yes i t ht
      rw [ht] at e
      cases e
      exact Good.quiet h r ⟨_, rfl⟩ rfl i' (by simp [Answer, onDict, hwd]) trivial
  | next j =>
    simp only [step] at e
    refine Good.quiet h r ?_ rfl i' trivial trivial
    cases hj : st.iters[j]? with
    | none => rw [hj] at e; cases e; exact ⟨_, rfl⟩
    | some it =>
      rw [hj] at e
      simp only [bind, Except.bind] at e
      split at e
      · simp at e
      · cases e; exact ⟨_, rfl⟩

theorem ref_start : Ref start World.start where
  len := rfl
  no i _ := by simp [World.dict, World.start]
  yes i t h := by simp [dictAt, start] at h
  full a h := by simp [holders, start] at h

end Comps.PyDict
