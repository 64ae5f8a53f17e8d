import Verif.Spec.PyMDict
import Verif.Lemmas.MRTreeExact
import Verif.Lemmas.Xml

/-!
# Lemmas: Python multi-dictionaries do exactly what `Spec.PyM.Does` says
-/

namespace Comps.MTree
open Comps Comps.RTree Comps.Spec
variable {V : Type}

/-! ## Writes -/

theorem ok_setNull {t : MTree V} (h : Ok t) (k : Bytes) : Ok (setNull t k) :=
  ⟨setLoop_wf _ _ _ _ h.wf, setLoop_tailed _ _ _ _ h.tailed, setLoop_full _ _ _ _ h.full⟩

theorem setNull_wrote {t : MTree V} (h : Ok t) (k : Bytes) (hk : k ≠ []) :
    Wrote (get t) k [] (get (setNull t k)) := by
  have e1 : get t = listLk t.subnodes.items := funext fun _ => get_eq h.wf _
  have e2 : get (setNull t k) = listLk (setNull t k).subnodes.items :=
    funext fun _ => get_eq (ok_setNull h k).wf _
  rw [e1, e2]
  exact setLoop_wrote [] k _ h.wf h.tailed h.full hk

/-- What was present stays present. -/
theorem _root_.Comps.Spec.Wrote.grows {g g' : Bytes → Option (List (MVal V))} {k : Bytes}
    {vs : List (MVal V)} (h : Wrote g k vs g') {q : Bytes} (hq : (g q).isSome = true) :
    (g' q).isSome = true := by
  classical
  by_cases e : q = k
  · subst e; rw [h.here]; rfl
  · by_cases h1 : Splits g k q
    · rw [h.split q h1]; rfl
    · by_cases h2 : ∃ p, Splits g k p ∧ First g p q
      · obtain ⟨p, a, b⟩ := h2
        rw [h.moved p q a b]; rfl
      · rw [h.other q e h1 fun p a b => h2 ⟨p, a, b⟩]; exact hq

/-- Once a key was written, writing it again splits nothing. -/
theorem _root_.Comps.Spec.Wrote.noSplit {g g' : Bytes → Option (List (MVal V))} {k : Bytes}
    {vs : List (MVal V)} (h : Wrote g k vs g') (p : Bytes) : ¬ Splits g' k p := by
  classical
  rintro ⟨hp, hn, a, as, b, bs, hab, rfl, hs⟩
  have hgp : g p = none := by
    cases hg : g p with
    | none => rfl
    | some x => have := h.grows (q := p) (by rw [hg]; rfl); rw [hn] at this; cases this
  have hbr : ¬ (p ++ a :: as) <+: (p ++ b :: bs) := by
    rw [List.prefix_append_right_inj]
    intro hx
    exact hab (List.cons_prefix_cons.1 hx).1
  have hga : (g (p ++ a :: as)).isSome = true := by
    by_cases h1 : Splits g (p ++ b :: bs) (p ++ a :: as)
    · obtain ⟨-, -, _, _, b', bs', -, e, -⟩ := h1
      exact absurd ⟨b' :: bs', e.symm⟩ hbr
    · by_cases h2 : ∃ p', Splits g (p ++ b :: bs) p' ∧ First g p' (p ++ a :: as)
      · obtain ⟨p', -, -, h3, -⟩ := h2; exact h3
      · rw [← h.other (p ++ a :: as) (by intro e; exact hab (by simpa using (List.append_cancel_left e) |> fun e => (List.cons.inj e).1)) h1
          fun p' x y => h2 ⟨p', x, y⟩]
        exact hs
  have := h.split p ⟨hp, hgp, a, as, b, bs, hab, rfl, hga⟩
  rw [hn] at this
  cases this

/-- Two writes of the same key are one. -/
theorem _root_.Comps.Spec.Wrote.trans {g g1 g' : Bytes → Option (List (MVal V))} {k : Bytes}
    {vs ws : List (MVal V)} (h : Wrote g k vs g1) (h' : Wrote g1 k ws g') : Wrote g k (vs ++ ws) g' := by
  have key : ∀ q, q ≠ k → g' q = g1 q := fun q hq =>
    h'.other q hq (h.noSplit q) fun p hp => absurd hp (h.noSplit p)
  refine ⟨?_, ?_, ?_, ?_, h.fresh⟩
  · rw [h'.here, h.here]; simp
  · intro p hp
    have hpk : p ≠ k := by
      obtain ⟨-, -, _, _, b, bs, -, e, -⟩ := hp
      rintro rfl
      exact absurd (congrArg List.length e) (by simp)
    rw [key p hpk, h.split p hp]
  · intro p q hp hq
    have hqk : q ≠ k := by
      rintro rfl
      have := hq.2.1
      rw [h.fresh p hp] at this
      cases this
    rw [key q hqk, h.moved p q hp hq]
  · intro q h1 h2 h3
    rw [key q h1, h.other q h1 h2 h3]

/-! ## Removal -/

theorem unsetLoop_inner (fuel : Nat) (nested : Bool) (k : Bytes) (l s : HSList (MNode Obj.CStr)) (d : Nat)
    (hl : WF l) (h : unsetLoop fuel nested k l = .ok (some (s, d))) :
    listLk s.items k = if PyMDict.inner fuel k l then some [] else none := by
  induction fuel generalizing nested k l s d with
  | zero => simp [unsetLoop] at h
  | succ fuel ih =>
    cases k with
    | nil => simp [unsetLoop] at h
    | cons c cs =>
      cases hfd : findAt c l.items with
      | none => simp [unsetLoop, hfd] at h
      | some r =>
        simp only [unsetLoop, PyMDict.inner] at h ⊢
        obtain ⟨i, n⟩ := r
        obtain ⟨pre, post, hitems, hi, hh⟩ := findAt_some hfd
        subst hi
        have hm := matchKey_spec cs hh
        have hp : l.items.Perm (n :: (pre ++ post)) := hitems ▸ perm_mid pre post n
        have hset : ∀ n', (l.setAt pre.length n').items.Perm (n' :: (pre ++ post)) := by
          intro n'
          simp only [HSList.setAt, hitems, set_mid]
          exact perm_mid _ _ _
        have hs := perm_wf_sub hl hp
        have hheads := heads_perm hp hl.heads
        have hne : n.key ≠ [] := hl.ne n (hp.mem_iff.2 (by simp))
        have hh2 := heads_cons.1 hheads
        simp only [hfd] at h ⊢
        cases hmk : matchKey n.key (c :: cs) with
        | keyEnds y => simp [hmk] at h
        | differ y => simp [hmk] at h
        | both y =>
          simp only [hmk] at hm h ⊢
          have h := Option.some.inj (ite_ok h)
          simp only [Prod.mk.injEq] at h
          obtain ⟨rfl, -⟩ := h
          cases hnt : n.tail with
          | true =>
            rw [hnt] at *
            simp only [if_true]
            have hps := hset (Node.mk n.key (some []) n.sub true)
            have hsh : Heads (Node.mk n.key (some []) n.sub true :: (pre ++ post)) :=
              heads_replace hheads hne (by simp)
            rw [listLk_perm hps (heads_perm hps.symm hsh), listLk_cons, key_mk,
              if_pos (by simp [hm]), nodeLk_eq]
            simp [hm]
          | false =>
            simp only [Bool.false_eq_true, if_false]
            have hps : (l.removeAt pre.length).items = pre ++ post := by
              simp only [HSList.removeAt, hitems, eraseIdx_mid]
            rw [hps, listLk_none]
            intro m hm' e
            exact hh2.2.1 m hm' (by rw [hh, e]; rfl)
        | nodeEnds y =>
          simp only [hmk] at hm h ⊢
          obtain ⟨⟨a, as, h1⟩, rfl⟩ := hm
          simp only [h1, List.drop_left] at h ⊢
          split at h
          · cases h
          · cases h
          · rename_i s' d' hx
            simp only [Except.ok.injEq, Option.some.injEq, Prod.mk.injEq] at h
            obtain ⟨rfl, rfl⟩ := h
            have hps := hset (Node.ofList n.key n.data s')
            have hsh : Heads (Node.ofList n.key n.data s' :: (pre ++ post)) :=
              heads_replace hheads hne (by simp)
            have hlk : listLk (l.setAt pre.length (Node.ofList n.key n.data s')).items
                (n.key ++ a :: as) = listLk s'.items (a :: as) := by
              rw [listLk_perm hps (heads_perm hps.symm hsh), listLk_cons, ofList_key,
                if_pos (head_append hne).symm, nodeLk_eq]
              simp only [ofList_key, ofList_data, ofList_sub]
              rw [if_neg (by simp), if_pos (List.prefix_append _ _), List.drop_left]
            rw [hlk]
            exact ih _ _ _ _ _ hs.1 hx

end Comps.MTree

namespace Comps.PyMDict
open Comps Comps.Obj Comps.Spec Comps.Spec.PyM Comps.RTree Comps.MTree Comps.Xml
open Comps.PyDict (Arg)

/-- A dictionary as reads see it. -/
def absD (m : MD) : SD := ⟨MTree.get m.tree, m.len, m.dead⟩

/-- Every tree is well formed. -/
def Good (st : St) : Prop := ∀ m ∈ st, MTree.Ok m.tree

/-- An outcome as reads see it. -/
def absR {α : Type} (r : Res (St × α)) : Res (World × α) := r.map fun x => (x.1.map absD, x.2)

/-! ## Conversions -/

theorem cstr_eq (b : Bytes) : PyDict.cstr b = upTo0 b := by
  induction b with
  | nil => rfl
  | cons c cs ih =>
    simp only [PyDict.cstr, upTo0] at ih ⊢
    by_cases h : c = 0
    · simp [h]
    · rw [List.takeWhile_cons_of_pos (by simpa using h), ih, if_neg h]

theorem keyIn_eq (a : Arg) : PyDict.keyIn a = keyOf a := by
  cases a with
  | str o => cases o <;> simp [PyDict.keyIn, keyOf, cstr_eq]
  | _ => rfl

theorem valueIn_eq (a : Arg) : (PyDict.valueIn a).map CStr.mk = elemOf a := by
  cases a with
  | str o => cases o <;> simp [PyDict.valueIn, elemOf, cstr_eq]
  | bytes b => simp [PyDict.valueIn, elemOf, cstr_eq]
  | _ => rfl

theorem valueIn_none {a : Arg} {v : Option Bytes} (h : PyDict.valueIn a = some v) :
    v = none ↔ Unencodable a := by
  cases a with
  | str o =>
    cases o <;> simp only [PyDict.valueIn, Option.some.injEq] at h <;> subst h <;> simp [Unencodable]
  | bytes b => simp only [PyDict.valueIn, Option.some.injEq] at h; subst h; simp [Unencodable]
  | _ => simp [PyDict.valueIn] at h

theorem listIn_bad {as : List Arg} (h : ∃ a ∈ as, elemOf a = none) :
    listIn as = (none, some .valueError) := by
  induction as with
  | nil => obtain ⟨a, h, -⟩ := h; simp at h
  | cons a as ih =>
    simp only [listIn]
    cases hv : PyDict.valueIn a with
    | none => rfl
    | some v =>
      have : ∃ a ∈ as, elemOf a = none := by
        obtain ⟨b, hb, e⟩ := h
        rcases List.mem_cons.1 hb with rfl | hb
        · rw [← valueIn_eq, hv] at e; cases e
        · exact ⟨b, hb, e⟩
      simp [ih this]

theorem listIn_ok {as : List Arg} {vs : List CStr} (h : as.map elemOf = vs.map some) :
    (listIn as).1 = some (vs.map .one) ∧
    ((∃ a ∈ as, Unencodable a) → (listIn as).2 = some (.py .typeError)) ∧
    ((∀ a ∈ as, ¬ Unencodable a) → (listIn as).2 = none) := by
  induction as generalizing vs with
  | nil =>
    cases vs with
    | nil => simp [listIn]
    | cons => simp at h
  | cons a as ih =>
    cases vs with
    | nil => simp at h
    | cons x xs =>
      simp only [List.map_cons, List.cons.injEq] at h
      obtain ⟨i1, i2, i3⟩ := ih h.2
      have hv := valueIn_eq a
      rw [h.1] at hv
      cases hva : PyDict.valueIn a with
      | none => rw [hva] at hv; cases hv
      | some v =>
        rw [hva] at hv
        simp only [Option.map_some, Option.some.injEq] at hv
        subst hv
        have hn := valueIn_none hva
        simp only [listIn, hva]
        refine ⟨by simp [i1], ?_, ?_⟩
        · intro hex
          by_cases hr : ∃ a ∈ as, Unencodable a
          · simp [i2 hr]
          · have hr' : ∀ a ∈ as, ¬ Unencodable a := fun a ha hu => hr ⟨a, ha, hu⟩
            obtain ⟨b, hb, hu⟩ := hex
            rcases List.mem_cons.1 hb with rfl | hb
            · simp [i3 hr', hn.2 hu]
            · exact absurd hu (hr' b hb)
        · intro hall
          have h1 := i3 fun a ha => hall a (by simp [ha])
          have h2 : v ≠ none := fun e => hall a (by simp) (hn.1 e)
          cases v with
          | none => exact absurd rfl h2
          | some v => simp [h1]

theorem listIn_cases (as : List Arg) :
    (∃ a ∈ as, elemOf a = none) ∨ ∃ vs : List CStr, as.map elemOf = vs.map some := by
  induction as with
  | nil => exact .inr ⟨[], rfl⟩
  | cons a as ih =>
    rcases ih with ⟨b, hb, e⟩ | ⟨vs, e⟩
    · exact .inl ⟨b, by simp [hb], e⟩
    · cases ha : elemOf a with
      | none => exact .inl ⟨a, by simp, ha⟩
      | some v => exact .inr ⟨v :: vs, by simp [ha, e]⟩

theorem texts_eq (utf8 : Bytes → Bool) (l : List (MVal CStr)) :
    seqOut utf8 l = .ok (PyM.shown utf8 l) := by
  simp [seqOut, mvalTexts_eq, bind, Except.bind, pure, Except.pure, PyM.shown]

/-! ## One dictionary -/

theorem isEmpty_iff' {k : Bytes} : k.isEmpty = true ↔ k = [] := by cases k <;> simp

theorem cut_spec {m : MD} (h : MTree.Ok m.tree) (k : Bytes) :
    (OnlyChild (MTree.get m.tree) k → m.cut k = .error .useAfterFree) ∧
    (¬ OnlyChild (MTree.get m.tree) k → ∃ m', m.cut k = .ok m' ∧ MTree.Ok m'.tree ∧
      Removed (MTree.get m.tree) k (MTree.get m'.tree) ∧ m'.dead = m.dead ∧
      m'.len = m.len - UInt32.ofNat ((MTree.get m.tree k).getD []).length) ∧
    ((MTree.get m.tree k).isSome = true → ¬ OnlyChild (MTree.get m.tree) k →
      (inner k.length k m.tree.subnodes = true ↔
        ∃ q, (MTree.get m.tree q).isSome = true ∧ k <+: q ∧ q ≠ k)) := by
  obtain ⟨h1, h2, h3⟩ := unset_fault h k
  have e : MTree.get m.tree = listLk m.tree.subnodes.items := funext fun _ => MTree.get_eq h.wf _
  cases hu : MTree.unsetLoop k.length false k m.tree.subnodes with
  | error f =>
    have hf : MTree.unset m.tree k = .error f := by simp [MTree.unset, hu]
    have hoc := h2.1 ⟨f, hf⟩
    refine ⟨fun _ => ?_, fun hn => absurd hoc hn, fun _ hn => absurd hoc hn⟩
    simp only [MD.cut, hu, h1 f hf]
  | ok r =>
    have hn : ¬ OnlyChild (MTree.get m.tree) k := by
      intro ho
      obtain ⟨f, hf⟩ := h2.2 ho
      simp only [MTree.unset, hu] at hf
      cases r <;> simp at hf
    refine ⟨fun ho => absurd ho hn, fun _ => ?_, ?_⟩
    · cases r with
      | none =>
        have hr := h3 m.tree (by simp [MTree.unset, hu])
        refine ⟨m, by simp [MD.cut, hu], h, hr, rfl, ?_⟩
        have := MTree.unsetLoop_missing _ _ _ _ h.wf (Nat.le_refl _) hu
        rw [e, this]
        simp
      | some r =>
        obtain ⟨s, d⟩ := r
        have hr := h3 ⟨s, m.tree.len - d⟩ (by simp [MTree.unset, hu])
        obtain ⟨w1, w2, w3, ⟨vs, w4, w5⟩, -, -⟩ :=
          MTree.unsetLoop_found _ _ _ _ _ _ h.wf h.tailed h.full hu
        refine ⟨⟨⟨s, m.tree.len⟩, m.len - UInt32.ofNat d, m.dead⟩, by simp [MD.cut, hu],
          ⟨w1, w2, w3⟩, hr, rfl, ?_⟩
        rw [e, w4, w5]
        rfl
    · intro hs _
      cases r with
      | none =>
        have := MTree.unsetLoop_missing _ _ _ _ h.wf (Nat.le_refl _) hu
        rw [e, this] at hs
        cases hs
      | some r =>
        obtain ⟨s, d⟩ := r
        have hin := unsetLoop_inner _ _ _ _ _ _ h.wf hu
        have hr := h3 ⟨s, m.tree.len - d⟩ (by simp [MTree.unset, hu])
        obtain ⟨w1, w2, w3, -, -, -⟩ := MTree.unsetLoop_found _ _ _ _ _ _ h.wf h.tailed h.full hu
        have eg : MTree.get (⟨s, m.tree.len - d⟩ : MTree CStr) k = listLk s.items k := MTree.get_eq w1 k
        constructor
        · intro hi
          rw [if_pos hi] at hin
          apply Classical.byContradiction
          intro hno
          have := hr.here fun q hq hk => Classical.byContradiction fun hne => hno ⟨q, hq, hk, hne⟩
          rw [eg, hin] at this
          cases this
        · rintro ⟨q, hq, hk, hne⟩
          have := hr.inner q hs hq hk hne
          rw [eg, hin] at this
          cases hi : inner k.length k m.tree.subnodes with
          | true => rfl
          | false => rw [hi] at this; simp at this

theorem ofNat_succ (n : Nat) (a : UInt32) : a + 1 + UInt32.ofNat n = a + UInt32.ofNat (n + 1) := by
  rw [Nat.add_comm n 1, UInt32.ofNat_add, ← UInt32.add_assoc]
  rfl

theorem foldl_put (m : MD) (h : MTree.Ok m.tree) (k : Bytes) (hk : k ≠ []) (v : MVal CStr)
    (vs : List (MVal CStr)) :
    let m' := (v :: vs).foldl (fun m v => m.put k v) m
    MTree.Ok m'.tree ∧ Wrote (MTree.get m.tree) k (v :: vs) (MTree.get m'.tree) ∧ m'.dead = m.dead ∧
      m'.len = m.len + UInt32.ofNat (vs.length + 1) := by
  have hke : k.isEmpty = false := by cases k <;> simp_all
  have one : ∀ (m : MD) (v : MVal CStr), MTree.Ok m.tree → MTree.Ok (m.put k v).tree ∧
      Wrote (MTree.get m.tree) k [v] (MTree.get (m.put k v).tree) ∧ (m.put k v).dead = m.dead ∧
      (m.put k v).len = m.len + 1 := fun m v h =>
    ⟨MTree.ok_setVal h k v, MTree.setVal_wrote h k hk v, rfl, by simp [MD.put, hke]⟩
  induction vs generalizing m v with
  | nil => exact one m v h
  | cons x xs ih =>
    obtain ⟨a1, a2, a3, a4⟩ := one m v h
    obtain ⟨b1, b2, b3, b4⟩ := ih (m.put k v) a1 x
    refine ⟨b1, ?_, b3.trans a3, ?_⟩
    · exact Wrote.trans a2 b2
    · have := b4
      rw [a4, ofNat_succ] at this
      exact this

/-! ## Calls -/

theorem cut_nil (m : MD) : m.cut [] = .ok m := rfl

theorem put_nil (m : MD) (v : MVal CStr) : m.put [] v = m := rfl

theorem assign_nil (m : MD) (vs : List (MVal CStr)) : m.assign [] vs = .ok m := by
  have h : ∀ vs : List (MVal CStr), vs.foldl (fun m v => m.put [] v) m = m := by
    intro vs
    induction vs with
    | nil => rfl
    | cons v vs ih => rw [List.foldl_cons, put_nil, ih]
  cases vs with
  | nil =>
    simp only [MD.assign, cut_nil, List.isEmpty_nil, Bool.not_true, Bool.and_false]
    rfl
  | cons v vs =>
    simp only [MD.assign, cut_nil, List.isEmpty_nil, Bool.not_true, Bool.and_false]
    rw [h]
    rfl

theorem set_same {α : Type} {l : List α} {i : Nat} {a : α} (h : l[i]? = some a) : l.set i a = l := by
  apply List.ext_getElem?
  intro j
  rw [List.getElem?_set]
  split
  · rename_i e
    subst e
    split
    · exact h.symm
    · rename_i hlt
      rw [List.getElem?_eq_none (by omega)] at h
      cases h
  · rfl

theorem good_set {st : St} (h : Good st) {m : MD} (hm : MTree.Ok m.tree) (i : Nat) : Good (st.set i m) := by
  intro x hx
  rcases List.mem_or_eq_of_mem_set hx with hx | rfl
  · exact h x hx
  · exact hm

theorem good_get {st : St} (h : Good st) {i : Nat} {m : MD} (hi : st[i]? = some m) : MTree.Ok m.tree :=
  h m (List.mem_of_getElem? hi)

theorem map_set' (st : St) (i : Nat) (m : MD) : (st.set i m).map absD = (st.map absD).set i (absD m) := by
  rw [List.map_set]

theorem absR_ok {α : Type} (st : St) (a : α) : absR (.ok (st, a)) = .ok (st.map absD, a) := rfl

theorem absR_error {α : Type} (f : Fault) : absR (.error f : Res (St × α)) = .error f := rfl

theorem stores_assign {st : St} (hg : Good st) {i : Nat} {m : MD} (hi : st[i]? = some m) (k : Bytes)
    (vs : List (MVal CStr)) (a : Ans) :
    stores (st.map absD) i (absD m) k vs a (absR ((m.assign k vs).map fun m' => (st.set i m', a))) ∧
    ∀ m', m.assign k vs = .ok m' → MTree.Ok m'.tree := by
  have hm := good_get hg hi
  by_cases hk : k = []
  · subst hk
    rw [assign_nil]
    refine ⟨?_, fun m' e => by cases e; exact hm⟩
    rw [stores, if_pos rfl, Except.map, set_same hi]
    rfl
  · have hke : k.isEmpty = false := by cases k <;> simp_all
    rw [stores, if_neg hk, takes]
    by_cases hd : m.dead = true
    · have : m.assign k vs = .error .useAfterFree := by simp [MD.assign, hd, hke]
      rw [this, if_pos (show (absD m).dead = true from hd)]
      exact ⟨rfl, fun m' e => by cases e⟩
    · have hd' : m.dead = false := by simpa using hd
      rw [if_neg (show ¬ (absD m).dead = true from hd)]
      obtain ⟨c1, c2, -⟩ := cut_spec hm k
      by_cases ho : OnlyChild (MTree.get m.tree) k
      · have : m.assign k vs = .error .useAfterFree := by simp [MD.assign, hd', c1 ho]
        rw [this]
        exact ⟨.inl ⟨ho, rfl⟩, fun m' e => by cases e⟩
      · obtain ⟨m1, e1, ok1, r1, d1, l1⟩ := c2 ho
        have key : ∃ m', m.assign k vs = .ok m' ∧ MTree.Ok m'.tree ∧
            Wrote (MTree.get m1.tree) k vs (MTree.get m'.tree) ∧ m'.dead = false ∧
            m'.len = m1.len + UInt32.ofNat (if vs = [] then 1 else vs.length) := by
          cases vs with
          | nil =>
            refine ⟨⟨MTree.setNull m1.tree k, m1.len + 1, m1.dead⟩, ?_, MTree.ok_setNull ok1 k,
              MTree.setNull_wrote ok1 k hk, ?_, ?_⟩
            · simp [MD.assign, hd', e1, hke]
            · rw [d1, hd']
            · rfl
          | cons v vs =>
            obtain ⟨b1, b2, b3, b4⟩ := foldl_put m1 ok1 k hk v vs
            refine ⟨_, ?_, b1, b2, ?_, ?_⟩
            · simp [MD.assign, hd', e1]
            · rw [b3, d1, hd']
            · rw [b4]; simp
        obtain ⟨m', e', ok', w', dd, ll⟩ := key
        rw [e']
        refine ⟨.inr ⟨ho, _, r1, _, w', ?_⟩, fun m'' e => by cases e; exact ok'⟩
        rw [Except.map, absR_ok, map_set']
        simp only [absD, dd, ll, l1]

theorem listing_pairs {t : MTree CStr} (h : MTree.Ok t) : Listing (MTree.get t) (MTree.pairs t) :=
  ⟨pairs_nodup h.wf, mem_pairs h.wf⟩

mutual
theorem mvalCmp_self : ∀ v : MVal CStr, mvalCmp v v = true
  | .one s => by simp [mvalCmp, CStr.cmp_iff]
  | .nested l => by simp [mvalCmp, mlistCmp_self l]
theorem mlistCmp_self : ∀ l, mlistCmp l l = true
  | [] => by simp [mlistCmp]
  | x :: xs => by simp [mlistCmp, mvalCmp_self x, mlistCmp_self xs]
end

theorem elements_length (l : List (Bytes × List (MVal CStr))) :
    (elements l).length = (l.map fun e => e.2.length).sum := by
  simp [elements, List.length_flatMap]

theorem hasElem_iff {t : MTree CStr} (h : MTree.Ok t) : count t ≠ 0 ↔ HasElem (MTree.get t) := by
  have hl := (listing_pairs h).2
  rw [count, ← elements_length]
  constructor
  · intro hne
    cases he : elements (MTree.pairs t) with
    | nil => rw [he] at hne; exact absurd rfl hne
    | cons x xs =>
      have : x ∈ elements (MTree.pairs t) := by rw [he]; simp
      simp only [elements, List.mem_flatMap, List.mem_map] at this
      obtain ⟨⟨k, vs⟩, hm, v, hv, -⟩ := this
      cases vs with
      | nil => simp at hv
      | cons y ys => exact ⟨k, y, ys, (hl _ _).1 hm⟩
  · rintro ⟨k, v, vs, hkv⟩ h0
    have hm := (hl _ _).2 hkv
    have : (k, v) ∈ elements (MTree.pairs t) :=
      List.mem_flatMap.2 ⟨_, hm, List.mem_map.2 ⟨v, by simp, rfl⟩⟩
    rw [List.eq_nil_of_length_eq_zero h0] at this
    simp at this

theorem writes_setMany {t : MTree CStr} (h : MTree.Ok t) (ws : List (Bytes × MVal CStr))
    (hne : ∀ w ∈ ws, w.1 ≠ []) : Writes (MTree.get t) ws (MTree.get (MTree.setMany t ws)) := by
  induction ws generalizing t with
  | nil => exact .nil _
  | cons w ws ih =>
    exact .cons (MTree.setVal_wrote h w.1 (hne w (by simp)) w.2)
      (ih (MTree.ok_setVal h w.1 w.2) fun x hx => hne x (by simp [hx]))

theorem items_nil {t : MTree CStr} (h : MTree.Ok t) :
    t.subnodes.items.isEmpty = true ↔ ∀ k, MTree.get t k = none := by
  constructor
  · intro he k
    rw [MTree.get_eq h.wf, List.isEmpty_iff.1 he]
    rfl
  · intro hn
    cases hi : t.subnodes.items with
    | nil => rfl
    | cons n ns =>
      have := MTree.full_some h.wf h.full (n := n) (by rw [hi]; simp)
      rw [← MTree.get_eq h.wf, hn] at this
      cases this

theorem pairs_nil {t : MTree CStr} (h : MTree.Ok t) :
    MTree.pairs t = [] ↔ ∀ k, MTree.get t k = none := by
  have hl := (listing_pairs h).2
  constructor
  · intro he k
    cases hg : MTree.get t k with
    | none => rfl
    | some v => rw [he] at hl; have := (hl k v).2 hg; simp at this
  · intro hn
    cases hp : MTree.pairs t with
    | nil => rfl
    | cons e es =>
      have := (hl e.1 e.2).1 (by rw [hp]; simp)
      rw [hn] at this
      cases this

theorem itemsOut_ok {utf8 : Bytes → Bool} {l : List (Bytes × List (MVal CStr))}
    (h : ∀ e ∈ l, utf8 e.1 = true) : itemsOut utf8 l = .ok (l.map fun e => (e.1, PyM.shown utf8 e.2)) := by
  induction l with
  | nil => rfl
  | cons e es ih =>
    obtain ⟨k, v⟩ := e
    have h1 : utf8 k = true := h (k, v) (by simp)
    have h2 := ih fun e he => h e (by simp [he])
    simp [itemsOut, h1, texts_eq, h2, bind, Except.bind, pure, Except.pure]

theorem itemsOut_bad {utf8 : Bytes → Bool} {l : List (Bytes × List (MVal CStr))}
    (h : ∃ e ∈ l, utf8 e.1 = false) : itemsOut utf8 l = .error .nullDeref := by
  induction l with
  | nil => obtain ⟨e, he, -⟩ := h; simp at he
  | cons e es ih =>
    obtain ⟨k, v⟩ := e
    cases hk : utf8 k with
    | false => simp [itemsOut, hk]
    | true =>
      have : ∃ e ∈ es, utf8 e.1 = false := by
        obtain ⟨x, hx, h⟩ := h
        rcases List.mem_cons.1 hx with rfl | hx
        · rw [hk] at h; cases h
        · exact ⟨x, hx, h⟩
      simp [itemsOut, hk, texts_eq, ih this, bind, Except.bind]

theorem nested_text (l : List (MVal CStr)) : mvalText (.nested l) = .ok (listText (mvalueTexts l)) := by
  rw [mvalText_eq, mvalueText]

theorem strLoop_ok {utf8 : Bytes → Bool} {l : List (Bytes × List (MVal CStr))} (hne : l ≠ [])
    (h : ∀ e ∈ l, utf8 e.1 = true ∧ utf8 (listText (mvalueTexts e.2)) = true) :
    strLoop utf8 l = .ok (List.intercalate b!", " (l.map fun e =>
      e.1 ++ b!" = '" ++ listText (mvalueTexts e.2) ++ b!"'")) := by
  induction l with
  | nil => exact absurd rfl hne
  | cons e es ih =>
    obtain ⟨k, v⟩ := e
    obtain ⟨h1, h2⟩ := h (k, v) (by simp)
    simp only at h1 h2
    cases es with
    | nil => simp [strLoop, h1, nested_text, h2, bind, Except.bind, pure, Except.pure, List.intercalate]
    | cons e' es =>
      have := ih (by simp) fun e he => h e (by simp [he])
      rw [strLoop]
      simp only [h1, nested_text, h2, this, bind, Except.bind, pure, Except.pure, if_true]
      simp [List.intercalate]

theorem strLoop_bad {utf8 : Bytes → Bool} {l : List (Bytes × List (MVal CStr))}
    (h : l = [] ∨ ∃ e ∈ l, utf8 e.1 = false ∨ utf8 (listText (mvalueTexts e.2)) = false) :
    strLoop utf8 l = .error .nullDeref := by
  induction l with
  | nil => rfl
  | cons e es ih =>
    obtain ⟨k, v⟩ := e
    rw [strLoop]
    cases h1 : utf8 k with
    | false => simp
    | true =>
      simp only [nested_text, bind, Except.bind, if_true]
      cases h2 : utf8 (listText (mvalueTexts v)) with
      | false => simp
      | true =>
        have hx : ∃ e ∈ es, utf8 e.1 = false ∨ utf8 (listText (mvalueTexts e.2)) = false := by
          obtain ⟨x, hx, h⟩ := h.resolve_left (by simp)
          rcases List.mem_cons.1 hx with rfl | hx
          · simp [h1, h2] at h
          · exact ⟨x, hx, h⟩
        cases es with
        | nil => obtain ⟨x, hx, -⟩ := hx; simp at hx
        | cons e' es => simp [ih (.inr hx)]

theorem look_eq {m : MD} (h : MTree.Ok m.tree) (k : Bytes) :
    m.look k = if k = [] then .ok none else if m.dead then .error .useAfterFree
      else .ok (MTree.get m.tree k) := by
  by_cases hk : k = []
  · subst hk
    rw [if_pos rfl, MD.look]
    cases m.dead
    · simp [MTree.getAfter, MTree.get_nil h]
    · simp [MTree.getAfter]
  · have hke : k.isEmpty = false := by cases k <;> simp_all
    rw [if_neg hk, MD.look]
    cases m.dead
    · simp [MTree.getAfter]
    · simp [MTree.getAfter, hke]

theorem getItem_eq {m : MD} (h : MTree.Ok m.tree) (key : Arg) :
    m.getItem key = match keyOf key with
      | .error e => .ok (.error (.py e))
      | .ok k => if k = [] then .ok (.error (.py .keyError)) else if m.dead then .error .useAfterFree
        else match MTree.get m.tree k with
          | none => .ok (.error (.py .keyError))
          | some l => .ok (.ok l) := by
  rw [MD.getItem, keyIn_eq]
  cases keyOf key with
  | error e => rfl
  | ok k =>
    simp only [look_eq h]
    by_cases hk : k = []
    · simp [hk, bind, Except.bind, pure, Except.pure]
    · simp only [if_neg hk]
      cases m.dead
      · cases MTree.get m.tree k <;> simp [bind, Except.bind, pure, Except.pure]
      · simp [bind, Except.bind]

theorem append_spec {t : MTree CStr} (h : MTree.Ok t) {k : Bytes} {l : List (MVal CStr)}
    (hl : MTree.get t k = some l) (v : MVal CStr) :
    MTree.get (MTree.setVal t k v) k = some (l ++ [v]) ∧
    ∀ q, q ≠ k → MTree.get (MTree.setVal t k v) q = MTree.get t q := by
  have hk : k ≠ [] := by
    rintro rfl
    rw [MTree.get_nil h] at hl
    cases hl
  have w := MTree.setVal_wrote h k hk v
  have ns : ∀ p, ¬ Splits (MTree.get t) k p := by
    intro p hp
    have := w.fresh p hp
    rw [hl] at this
    cases this
  refine ⟨by rw [w.here, hl]; rfl, fun q hq => w.other q hq (ns q) fun p hp => absurd hp (ns p)⟩

/-- What holds of a call. -/
def StepOk (utf8 : Bytes → Bool) (st : St) (op : Op) : Prop :=
  Does utf8 (st.map absD) (absR (step utf8 st op)) op ∧
    ∀ st' a, step utf8 st op = .ok (st', a) → Good st'

theorem getElem_abs (st : St) (i : Nat) : (st.map absD)[i]? = st[i]?.map absD := by simp

theorem step_set_list (utf8 : Bytes → Bool) {st : St} (hg : Good st) (i : Nat) (key : Arg)
    (as : List Arg) : StepOk utf8 st (.set i key (.list as)) := by
  simp only [StepOk, Does, onD, getElem_abs, step]
  cases hi : st[i]? with
  | none => exact ⟨rfl, fun st' a e => by cases e; exact hg⟩
  | some m =>
    simp only [Option.map_some, setArgs, keyIn_eq]
    rcases listIn_cases as with hb | ⟨vs, hv⟩
    · have hbad : ¬ ∀ a ∈ as, elemOf a ≠ none := fun h => by
        obtain ⟨a, ha, e⟩ := hb; exact h a ha e
      have hnv : ∀ vs : List CStr, as.map elemOf ≠ vs.map some := by
        intro vs e
        obtain ⟨a, ha, e'⟩ := hb
        have : none ∈ as.map elemOf := e' ▸ List.mem_map_of_mem ha
        rw [e] at this
        simp at this
      rw [listIn_bad hb]
      cases hk : keyOf key with
      | error e =>
        cases e <;> first
          | exact ⟨⟨fun _ => rfl, fun h => absurd h hbad, fun h => absurd h hbad⟩,
              fun st' a e => by cases e; exact hg⟩
          | exact ⟨rfl, fun st' a e => by cases e; exact hg⟩
      | ok k =>
        exact ⟨⟨fun _ => rfl, fun vs e => absurd e (hnv vs)⟩, fun st' a e => by cases e; exact hg⟩
    · have hnb : ¬ ∃ a ∈ as, elemOf a = none := by
        rintro ⟨a, ha, e'⟩
        have : none ∈ as.map elemOf := e' ▸ List.mem_map_of_mem ha
        rw [hv] at this
        simp at this
      obtain ⟨l1, l2, l3⟩ := listIn_ok hv
      cases hk : keyOf key with
      | error e =>
        cases e <;> first
          | exact ⟨⟨fun h => absurd h hnb, fun _ h => by rw [l2 h]; rfl, fun _ h => by rw [l3 h]; rfl⟩,
              fun st' a e => by cases e; exact hg⟩
          | exact ⟨rfl, fun st' a e => by cases e; exact hg⟩
      | ok k =>
        simp only [l1]
        have hs := fun a => stores_assign hg hi k (vs.map .one) a
        refine ⟨⟨fun h => absurd h hnb, fun vs' e => ?_⟩, ?_⟩
        · have : vs' = vs := by
            have e2 : vs'.map some = vs.map some := by rw [← e, hv]
            exact (List.map_inj_right (fun a b h => Option.some.inj h)).1 e2
          subst this
          constructor
          · intro h
            have := (hs (.exc (.py .pending))).1
            rw [l2 h]
            cases ha : m.assign k (vs'.map .one) <;> rw [ha] at this <;> exact this
          · intro h
            have := (hs .done).1
            rw [l3 h]
            cases ha : m.assign k (vs'.map .one) <;> rw [ha] at this <;> exact this
        · intro st' a e
          cases ha : m.assign k (vs.map .one) with
          | error f => rw [ha] at e; cases e
          | ok m' =>
            rw [ha] at e
            cases e
            exact good_set hg ((hs .done).2 m' ha) i

theorem step_set_item (utf8 : Bytes → Bool) {st : St} (hg : Good st) (i : Nat) (key : Arg) (j : Nat)
    (src : Arg) : StepOk utf8 st (.set i key (.item j src)) := by
  simp only [StepOk, Does, onD, getElem_abs, step]
  cases hi : st[i]? with
  | none => exact ⟨rfl, fun st' a e => by cases e; exact hg⟩
  | some m =>
    cases hj : st[j]? with
    | none => exact ⟨rfl, fun st' a e => by cases e; exact hg⟩
    | some n =>
      simp only [Option.map_some, getItem_eq (good_get hg hj)]
      cases hl : keyOf src with
      | error e => exact ⟨rfl, fun st' a e => by cases e; exact hg⟩
      | ok l =>
        simp only [reads]
        by_cases hl0 : l = []
        · simp only [if_pos hl0]
          exact ⟨rfl, fun st' a e => by cases e; exact hg⟩
        · simp only [if_neg hl0]
          by_cases hd : n.dead = true
          · rw [if_pos (show (absD n).dead = true from hd), if_pos hd]
            exact ⟨rfl, fun st' a e => by cases e⟩
          · rw [if_neg (show ¬ (absD n).dead = true from hd), if_neg hd]
            show (match MTree.get n.tree l with | none => _ | some vs => _) ∧ _
            cases hv : MTree.get n.tree l with
            | none => exact ⟨rfl, fun st' a e => by cases e; exact hg⟩
            | some vs =>
              simp only [bind, Except.bind, setArgs, keyIn_eq, hl]
              cases hk : keyOf key with
              | error e =>
                cases e <;> exact ⟨rfl, fun st' a e => by cases e; exact hg⟩
              | ok k =>
                simp only [pure, Except.pure]
                have fin : ∀ vs', (stores (st.map absD) i (absD m) k vs' .done
                    (absR (Except.bind (m.assign k vs') fun m' => .ok (st.set i m', Ans.done)))) ∧
                    ∀ st' a, Except.bind (m.assign k vs') (fun m' => .ok (st.set i m', Ans.done)) =
                      .ok (st', a) → Good st' := by
                  intro vs'
                  obtain ⟨s1, s2⟩ := stores_assign hg hi k vs' .done
                  cases ha : m.assign k vs' with
                  | error f =>
                    rw [ha] at s1
                    exact ⟨s1, fun st' a e => by cases e⟩
                  | ok m' =>
                    rw [ha] at s1
                    exact ⟨s1, fun st' a e => by cases e; exact good_set hg (s2 m' ha) i⟩
                by_cases hsame : i = j ∧ k = l
                · obtain ⟨rfl, rfl⟩ := hsame
                  have hmn : m = n := by rw [hi] at hj; exact Option.some.inj hj
                  subst hmn
                  by_cases ho : OnlyChild (MTree.get m.tree) k
                  · -- the removal faults whatever is stored
                    have hf : ∀ vs', m.assign k vs' = .error .useAfterFree := by
                      intro vs'
                      have hd' : m.dead = false := by simpa using hd
                      simp [MD.assign, hd', (cut_spec (good_get hg hi) k).1 ho]
                    have hst : ∀ vs', stores (st.map absD) i (absD m) k vs' .done
                        (.error .useAfterFree) := by
                      intro vs'
                      have := (fin vs').1
                      rw [hf vs'] at this
                      exact this
                    simp only [hf]
                    exact ⟨⟨fun _ => hst _, fun _ => hst _⟩, fun st' a e => by cases e⟩
                  · have hin := (cut_spec (good_get hg hi) k).2.2 (by rw [hv]; rfl) ho
                    by_cases hq : ∃ q, (MTree.get m.tree q).isSome = true ∧ k <+: q ∧ q ≠ k
                    · rw [if_pos ⟨rfl, rfl, hin.2 hq⟩]
                      exact ⟨⟨fun _ => (fin []).1, fun h => absurd ⟨rfl, rfl, hq⟩ h⟩, (fin []).2⟩
                    · rw [if_neg (fun h => hq (hin.1 h.2.2))]
                      exact ⟨⟨fun h => absurd h.2.2 hq, fun _ => (fin vs).1⟩, (fin vs).2⟩
                · have h1 : ¬ (i = j ∧ k = l ∧ ∃ q, ((absD m).map q).isSome = true ∧ k <+: q ∧ q ≠ k) :=
                    fun h => hsame ⟨h.1, h.2.1⟩
                  rw [if_neg (fun h => hsame ⟨h.1, by
                    have := h.2.1
                    simp only [Except.toOption, Option.some.injEq] at this
                    exact this.symm⟩)]
                  exact ⟨⟨fun h => absurd h h1, fun _ => (fin vs).1⟩, (fin vs).2⟩

theorem step_other (utf8 : Bytes → Bool) {st : St} (hg : Good st) (i : Nat) (key : Arg) :
    StepOk utf8 st (.set i key .other) := by
  simp only [StepOk, Does, onD, getElem_abs, step]
  cases hi : st[i]? with
  | none => exact ⟨rfl, fun st' a e => by cases e; exact hg⟩
  | some m =>
    simp only [Option.map_some, setArgs, keyIn_eq]
    cases hk : keyOf key with
    | error e => cases e <;> exact ⟨rfl, fun st' a e => by cases e; exact hg⟩
    | ok k => exact ⟨rfl, fun st' a e => by cases e; exact hg⟩

theorem step_del (utf8 : Bytes → Bool) {st : St} (hg : Good st) (i : Nat) (key : Arg) :
    StepOk utf8 st (.del i key) := by
  simp only [StepOk, Does, onD, getElem_abs, step]
  cases hi : st[i]? with
  | none => exact ⟨rfl, fun st' a e => by cases e; exact hg⟩
  | some m =>
    have hm := good_get hg hi
    simp only [Option.map_some, keyIn_eq]
    cases hk : keyOf key with
    | error e => exact ⟨rfl, fun st' a e => by cases e; exact hg⟩
    | ok k =>
      simp only
      by_cases hk0 : k = []
      · subst hk0
        have : m.del [] = .ok m := by simp [MD.del, cut_nil]
        simp only [this, bind, Except.bind, pure, Except.pure, set_same hi, if_true]
        exact ⟨rfl, fun st' a e => by cases e; exact hg⟩
      · have hke : k.isEmpty = false := by cases k <;> simp_all
        rw [if_neg hk0, takes]
        by_cases hd : m.dead = true
        · have : m.del k = .error .useAfterFree := by simp [MD.del, hd, hke]
          rw [if_pos (show (absD m).dead = true from hd), this]
          exact ⟨rfl, fun st' a e => by cases e⟩
        · have hd' : m.dead = false := by simpa using hd
          rw [if_neg (show ¬ (absD m).dead = true from hd)]
          have : m.del k = m.cut k := by simp [MD.del, hd']
          rw [this]
          obtain ⟨c1, c2, -⟩ := cut_spec hm k
          by_cases ho : OnlyChild (MTree.get m.tree) k
          · rw [c1 ho]
            exact ⟨.inl ⟨ho, rfl⟩, fun st' a e => by cases e⟩
          · obtain ⟨m1, e1, ok1, r1, d1, l1⟩ := c2 ho
            rw [e1]
            refine ⟨.inr ⟨ho, _, r1, ?_⟩, fun st' a e => by cases e; exact good_set hg ok1 i⟩
            simp only [bind, Except.bind, pure, Except.pure, absR_ok, map_set', absD, d1, hd', l1]

theorem step_get (utf8 : Bytes → Bool) {st : St} (hg : Good st) (i : Nat) (key : Arg) :
    StepOk utf8 st (.get i key) := by
  simp only [StepOk, Does, onD, getElem_abs, step]
  cases hi : st[i]? with
  | none => exact ⟨rfl, fun st' a e => by cases e; exact hg⟩
  | some m =>
    simp only [Option.map_some, getItem_eq (good_get hg hi)]
    cases hl : keyOf key with
    | error e => exact ⟨rfl, fun st' a e => by cases e; exact hg⟩
    | ok l =>
      simp only [reads]
      by_cases hl0 : l = []
      · simp only [if_pos hl0]
        exact ⟨rfl, fun st' a e => by cases e; exact hg⟩
      · simp only [if_neg hl0]
        by_cases hd : m.dead = true
        · rw [if_pos (show (absD m).dead = true from hd), if_pos hd]
          exact ⟨rfl, fun st' a e => by cases e⟩
        · rw [if_neg (show ¬ (absD m).dead = true from hd), if_neg hd]
          show (match MTree.get m.tree l with | none => _ | some vs => _) ∧ _
          cases hv : MTree.get m.tree l with
          | none => exact ⟨rfl, fun st' a e => by cases e; exact hg⟩
          | some vs =>
            simp only [bind, Except.bind, texts_eq]
            exact ⟨rfl, fun st' a e => by cases e; exact hg⟩

theorem step_append (utf8 : Bytes → Bool) {st : St} (hg : Good st) (i : Nat) (key v : Arg) :
    StepOk utf8 st (.append i key v) := by
  simp only [StepOk, Does, onD, getElem_abs, step]
  cases hi : st[i]? with
  | none => exact ⟨rfl, fun st' a e => by cases e; exact hg⟩
  | some m =>
    have hm := good_get hg hi
    simp only [Option.map_some, getItem_eq hm]
    cases hl : keyOf key with
    | error e => exact ⟨rfl, fun st' a e => by cases e; exact hg⟩
    | ok l =>
      simp only [reads]
      by_cases hl0 : l = []
      · simp only [if_pos hl0]
        exact ⟨rfl, fun st' a e => by cases e; exact hg⟩
      · simp only [if_neg hl0]
        by_cases hd : m.dead = true
        · rw [if_pos (show (absD m).dead = true from hd), if_pos hd]
          exact ⟨rfl, fun st' a e => by cases e⟩
        · have hd' : m.dead = false := by simpa using hd
          rw [if_neg (show ¬ (absD m).dead = true from hd), if_neg hd]
          show (match MTree.get m.tree l with | none => _ | some vs => _) ∧ _
          cases hv : MTree.get m.tree l with
          | none => exact ⟨rfl, fun st' a e => by cases e; exact hg⟩
          | some vs =>
            simp only [bind, Except.bind, keyIn_eq, hl, ← valueIn_eq]
            cases hx : PyDict.valueIn v with
            | none => exact ⟨rfl, fun st' a e => by cases e; exact hg⟩
            | some x =>
              obtain ⟨a1, a2⟩ := append_spec hm hv (.one ⟨x⟩)
              refine ⟨⟨_, a1, a2, ?_, ?_⟩, fun st' a e => by
                cases e; exact good_set hg (MTree.ok_setVal hm l _) i⟩
              · intro hu
                rw [(valueIn_none hx).2 hu]
                simp only [pure, Except.pure, absR_ok, map_set', absD, hd', Option.isNone_none, if_true]
              · intro hu
                cases x with
                | none => exact absurd ((valueIn_none hx).1 rfl) hu
                | some x =>
                  simp only [pure, Except.pure, absR_ok, map_set', absD, hd', Option.isNone_some]
                  rfl

theorem step_hasKey (utf8 : Bytes → Bool) {st : St} (hg : Good st) (i : Nat) (key : Arg) :
    StepOk utf8 st (.hasKey i key) := by
  simp only [StepOk, Does, onD, getElem_abs, step]
  cases hi : st[i]? with
  | none => exact ⟨rfl, fun st' a e => by cases e; exact hg⟩
  | some m =>
    simp only [Option.map_some, keyIn_eq]
    cases hl : keyOf key with
    | error e => exact ⟨rfl, fun st' a e => by cases e; exact hg⟩
    | ok l =>
      simp only [reads, look_eq (good_get hg hi)]
      by_cases hl0 : l = []
      · simp only [if_pos hl0]
        exact ⟨rfl, fun st' a e => by cases e; exact hg⟩
      · simp only [if_neg hl0]
        by_cases hd : m.dead = true
        · rw [if_pos (show (absD m).dead = true from hd), if_pos hd]
          exact ⟨rfl, fun st' a e => by cases e⟩
        · rw [if_neg (show ¬ (absD m).dead = true from hd), if_neg hd]
          exact ⟨rfl, fun st' a e => by cases e; exact hg⟩

theorem step_keys (utf8 : Bytes → Bool) {st : St} (hg : Good st) (i : Nat) :
    StepOk utf8 st (.keys i) := by
  simp only [StepOk, Does, onD, getElem_abs, step]
  cases hi : st[i]? with
  | none => exact ⟨rfl, fun st' a e => by cases e; exact hg⟩
  | some m =>
    simp only [Option.map_some]
    by_cases hd : m.dead = true
    · rw [if_pos (show (absD m).dead = true from hd), if_pos hd]
      exact ⟨rfl, fun st' a e => by cases e⟩
    · rw [if_neg (show ¬ (absD m).dead = true from hd), if_neg hd]
      refine ⟨⟨MTree.pairs m.tree, listing_pairs (good_get hg hi), ?_, ?_⟩, ?_⟩
      · intro h
        rw [if_pos (by
          rw [List.all_eq_true]
          intro k hk
          obtain ⟨e, he, rfl⟩ := List.mem_map.1 hk
          exact h e he)]
        rfl
      · rintro ⟨e, he, h⟩
        rw [if_neg (by
          rw [List.all_eq_true]
          intro hall
          have := hall e.1 (List.mem_map_of_mem he)
          rw [h] at this
          cases this)]
        rfl
      · intro st' a e
        split at e <;> cases e <;> exact hg

theorem step_items (utf8 : Bytes → Bool) {st : St} (hg : Good st) (i : Nat) :
    StepOk utf8 st (.items i) := by
  simp only [StepOk, Does, onD, getElem_abs, step]
  cases hi : st[i]? with
  | none => exact ⟨rfl, fun st' a e => by cases e; exact hg⟩
  | some m =>
    simp only [Option.map_some]
    by_cases hd : m.dead = true
    · rw [if_pos (show (absD m).dead = true from hd), if_pos hd]
      exact ⟨rfl, fun st' a e => by cases e⟩
    · rw [if_neg (show ¬ (absD m).dead = true from hd), if_neg hd]
      refine ⟨⟨MTree.pairs m.tree, listing_pairs (good_get hg hi), ?_, ?_⟩, ?_⟩
      · intro h
        rw [itemsOut_ok h]
        rfl
      · intro h
        rw [itemsOut_bad h]
        rfl
      · intro st' a e
        cases hx : itemsOut utf8 (MTree.pairs m.tree) with
        | error f => rw [hx] at e; cases e
        | ok x => rw [hx] at e; cases e; exact hg

theorem step_str (utf8 : Bytes → Bool) {st : St} (hg : Good st) (i : Nat) :
    StepOk utf8 st (.str i) := by
  simp only [StepOk, Does, onD, getElem_abs, step]
  cases hi : st[i]? with
  | none => exact ⟨rfl, fun st' a e => by cases e; exact hg⟩
  | some m =>
    simp only [Option.map_some]
    by_cases hd : m.dead = true
    · rw [if_pos (show (absD m).dead = true from hd), if_pos hd]
      exact ⟨rfl, fun st' a e => by cases e⟩
    · rw [if_neg (show ¬ (absD m).dead = true from hd), if_neg hd]
      refine ⟨⟨MTree.pairs m.tree, listing_pairs (good_get hg hi), ?_, ?_⟩, ?_⟩
      · intro h
        rw [strLoop_bad h]
        rfl
      · intro hne h
        rw [strLoop_ok hne h]
        rfl
      · intro st' a e
        cases hx : strLoop utf8 (MTree.pairs m.tree) with
        | error f => rw [hx] at e; cases e
        | ok x => rw [hx] at e; cases e; exact hg

theorem step_values (utf8 : Bytes → Bool) {st : St} (hg : Good st) (i : Nat) :
    StepOk utf8 st (.values i) := by
  simp only [StepOk, Does, onD, getElem_abs, step]
  cases hi : st[i]? with
  | none => exact ⟨rfl, fun st' a e => by cases e; exact hg⟩
  | some m =>
    have hm := good_get hg hi
    simp only [Option.map_some]
    by_cases hd : m.dead = true
    · rw [if_pos (show (absD m).dead = true from hd), if_pos hd]
      exact ⟨rfl, fun st' a e => by cases e⟩
    · rw [if_neg (show ¬ (absD m).dead = true from hd), if_neg hd]
      have hv : (MTree.values m.tree).isEmpty = true ↔ ∀ k, MTree.get m.tree k = none := by
        rw [← pairs_nil hm]
        simp [MTree.values]
      refine ⟨⟨fun h => by rw [if_pos (hv.2 h)]; rfl, ?_⟩, ?_⟩
      · rintro ⟨k, v, h⟩
        rw [if_neg (fun h' => by
          have := hv.1 h' k
          change MTree.get m.tree k = some v at h
          rw [h] at this
          cases this)]
        rfl
      · intro st' a e
        split at e <;> cases e
        exact hg

theorem step_clear (utf8 : Bytes → Bool) {st : St} (hg : Good st) (i : Nat) :
    StepOk utf8 st (.clear i) := by
  simp only [StepOk, Does, onD, getElem_abs, step]
  cases hi : st[i]? with
  | none => exact ⟨rfl, fun st' a e => by cases e; exact hg⟩
  | some m =>
    have hm := good_get hg hi
    simp only [Option.map_some]
    by_cases hd : m.dead = true
    · rw [if_pos (show (absD m).dead = true from hd), if_pos hd]
      exact ⟨rfl, fun st' a e => by cases e⟩
    · have hd' : m.dead = false := by simpa using hd
      rw [if_neg (show ¬ (absD m).dead = true from hd), if_neg hd]
      refine ⟨⟨?_, ?_⟩, fun st' a e => by cases e; exact good_set hg (show MTree.Ok (MD.mk m.tree m.len (MTree.clear m.tree).isNone).tree from hm) i⟩
      · intro h
        have he := (items_nil hm).2 h
        have : ({ m with dead := (MTree.clear m.tree).isNone } : MD) = m := by
          cases m
          simp_all [MTree.clear]
        rw [this, set_same hi]
        rfl
      · rintro ⟨k, v, h⟩
        have he : ¬ m.tree.subnodes.items.isEmpty = true := fun he => by
          have := (items_nil hm).1 he k
          change MTree.get m.tree k = some v at h
          rw [h] at this
          cases this
        simp only [absR_ok, map_set', absD, MTree.clear, if_neg he, Option.isNone_none]

theorem step_copy (utf8 : Bytes → Bool) {st : St} (hg : Good st) (i : Nat) :
    StepOk utf8 st (.copy i) := by
  simp only [StepOk, Does, onD, getElem_abs, step]
  cases hi : st[i]? with
  | none => exact ⟨rfl, fun st' a e => by cases e; exact hg⟩
  | some m =>
    have hm := good_get hg hi
    simp only [Option.map_some]
    by_cases hd : m.dead = true
    · rw [if_pos (show (absD m).dead = true from hd), if_pos hd]
      exact ⟨rfl, fun st' a e => by cases e⟩
    · rw [if_neg (show ¬ (absD m).dead = true from hd), if_neg hd]
      by_cases he : m.tree.subnodes.items.isEmpty = true
      · have hn := (items_nil hm).1 he
        simp only [MTree.copy, if_pos he]
        refine ⟨⟨fun _ => rfl, ?_⟩, fun st' a e => by cases e; exact hg⟩
        rintro ⟨k, v, h⟩
        change MTree.get m.tree k = some v at h
        rw [hn k] at h
        cases h
      · simp only [MTree.copy, if_neg he]
        exact ⟨⟨fun h => absurd ((items_nil hm).2 h) he, fun _ => rfl⟩, fun st' a e => by cases e⟩

theorem step_update (utf8 : Bytes → Bool) {st : St} (hg : Good st) (i j : Nat) :
    StepOk utf8 st (.update i j) := by
  simp only [StepOk, Does, getElem_abs, step]
  cases hi : st[i]? with
  | none => exact ⟨rfl, fun st' a e => by cases e; exact hg⟩
  | some m =>
    cases hj : st[j]? with
    | none => exact ⟨rfl, fun st' a e => by cases e; exact hg⟩
    | some n =>
      have hm := good_get hg hi
      have hn := good_get hg hj
      simp only [Option.map_some]
      by_cases hd : n.dead = true
      · rw [if_pos (show (absD n).dead = true from hd)]
        by_cases hij : i = j
        · subst hij
          have hmn : m = n := by rw [hi] at hj; exact Option.some.inj hj
          subst hmn
          have : m.updateSelf = .error .useAfterFree := by simp [MD.updateSelf, hd]
          rw [if_pos rfl, this]
          exact ⟨rfl, fun st' a e => by cases e⟩
        · have : m.update n = .error .useAfterFree := by simp [MD.update, hd]
          rw [if_neg hij, this]
          exact ⟨rfl, fun st' a e => by cases e⟩
      · have hd' : n.dead = false := by simpa using hd
        rw [if_neg (show ¬ (absD n).dead = true from hd)]
        by_cases hc : count n.tree = 0
        · have hne : ¬ HasElem (absD n).map := fun h => (hasElem_iff hn).2 h hc
          have h1 : i = j → m.updateSelf = .ok m := by
            intro hij
            subst hij
            have hmn : m = n := by rw [hi] at hj; exact Option.some.inj hj
            subst hmn
            simp [MD.updateSelf, hd', hc]
          have h2 : m.update n = .ok m := by simp [MD.update, hd', hc]
          have : (if i = j then do
              let m ← m.updateSelf
              pure (st.set i m, Ans.done)
            else do
              let m ← m.update n
              pure (st.set i m, Ans.done)) = .ok (st.set i m, Ans.done) := by
            split
            · rename_i hij
              rw [h1 hij]
              rfl
            · rw [h2]
              rfl
          rw [this]
          refine ⟨⟨fun _ => ?_, fun h => absurd h hne, fun h => absurd h hne⟩, fun st' a e => by
            cases e; exact good_set hg hm i⟩
          simp only [set_same hi, absR_ok]
        · have hne := (hasElem_iff hn).1 hc
          by_cases hij : i = j
          · subst hij
            have hmn : m = n := by rw [hi] at hj; exact Option.some.inj hj
            subst hmn
            have : m.updateSelf = .error .diverges := by simp [MD.updateSelf, hd', hc]
            rw [if_pos rfl, this]
            exact ⟨⟨fun h => absurd hne h, fun _ _ => rfl, fun _ h => absurd rfl h⟩,
              fun st' a e => by cases e⟩
          · rw [if_neg hij]
            by_cases hmd : m.dead = true
            · have : m.update n = .error .useAfterFree := by simp [MD.update, hd', hc, hmd]
              rw [this]
              refine ⟨⟨fun h => absurd hne h, fun _ h => absurd h hij, fun _ _ => ?_⟩,
                fun st' a e => by cases e⟩
              rw [if_pos (show (absD m).dead = true from hmd)]
              rfl
            · have hmd' : m.dead = false := by simpa using hmd
              have : m.update n = .ok ⟨MTree.unite m.tree n.tree, m.len + UInt32.ofNat (count n.tree), false⟩ := by
                simp [MD.update, hd', hc, hmd']
              rw [this]
              refine ⟨⟨fun h => absurd hne h, fun _ h => absurd h hij, fun _ _ => ?_⟩,
                fun st' a e => by cases e; exact good_set hg (MTree.ok_unite hm) i⟩
              rw [if_neg (show ¬ (absD m).dead = true from hmd)]
              have hp := uniteWrites_perm n.tree
              have hmem : ∀ k vs, (k, vs) ∈ uniteWrites n.tree ↔ MTree.get n.tree k = some vs :=
                fun k vs => hp.mem_iff.trans (mem_pairs hn.wf k vs)
              have hnd : (uniteWrites n.tree).Pairwise fun a b => a.1 ≠ b.1 :=
                (hp.pairwise_iff fun h => Ne.symm h).2 (pairs_nodup hn.wf)
              have hcnt : (elements (uniteWrites n.tree)).length = count n.tree := by
                rw [elements_length, count]
                exact (hp.map _).sum_nat
              refine ⟨uniteWrites n.tree, _, ⟨hnd, hmem⟩, uniteWrites_order hn.wf,
                writes_setMany hm _ ?_, ?_⟩
              · intro w hw h0
                simp only [elements, List.mem_flatMap, List.mem_map] at hw
                obtain ⟨e, he, v, -, rfl⟩ := hw
                have := (hmem e.1 e.2).1 he
                simp only at h0
                rw [h0, MTree.get_nil hn] at this
                cases this
              · simp only [bind, Except.bind, pure, Except.pure, absR_ok, map_set', absD, hcnt,
                  MTree.unite_eq]
                rfl

theorem step_eq (utf8 : Bytes → Bool) {st : St} (hg : Good st) (i j : Nat) :
    StepOk utf8 st (.eq i j) := by
  simp only [StepOk, Does, getElem_abs, step]
  cases hi : st[i]? with
  | none => exact ⟨rfl, fun st' a e => by cases e; exact hg⟩
  | some m =>
    cases hj : st[j]? with
    | none => exact ⟨rfl, fun st' a e => by cases e; exact hg⟩
    | some n =>
      simp only [Option.map_some]
      by_cases hd : m.dead = true ∨ n.dead = true
      · rw [if_pos (show (absD m).dead = true ∨ (absD n).dead = true from hd),
          if_pos (by simpa using hd)]
        exact ⟨rfl, fun st' a e => by cases e⟩
      · rw [if_neg (show ¬ ((absD m).dead = true ∨ (absD n).dead = true) from hd),
          if_neg (by simpa using hd)]
        exact ⟨⟨_, rfl, MTree.cmp_keys mlistCmp_self (good_get hg hi) (good_get hg hj)⟩,
          fun st' a e => by cases e; exact hg⟩

/-- Every call does exactly what the specification says. -/
theorem step_ok (utf8 : Bytes → Bool) {st : St} (hg : Good st) (op : Op) : StepOk utf8 st op := by
  cases op with
  | new =>
    refine ⟨?_, fun st' a e => ?_⟩
    · simp only [Does, step, absR_ok, List.map_append, List.map_cons, List.map_nil]
      rw [show absD MD.new = SD.new from by
        simp only [absD, MD.new, SD.new]
        rw [show MTree.get MTree.create = fun _ => none from funext MTree.get_create]]
    · cases e
      intro x hx
      rcases List.mem_append.1 hx with hx | hx
      · exact hg x hx
      · rw [List.mem_singleton] at hx
        subst hx
        exact MTree.ok_create
  | set i key v =>
    cases v with
    | list as => exact step_set_list utf8 hg i key as
    | item j src => exact step_set_item utf8 hg i key j src
    | other => exact step_other utf8 hg i key
  | del i key => exact step_del utf8 hg i key
  | get i key => exact step_get utf8 hg i key
  | append i key v => exact step_append utf8 hg i key v
  | hasKey i key => exact step_hasKey utf8 hg i key
  | len i =>
    simp only [StepOk, Does, onD, getElem_abs, step]
    cases hi : st[i]? with
    | none => exact ⟨rfl, fun st' a e => by cases e; exact hg⟩
    | some m => exact ⟨rfl, fun st' a e => by cases e; exact hg⟩
  | keys i => exact step_keys utf8 hg i
  | items i => exact step_items utf8 hg i
  | values i => exact step_values utf8 hg i
  | str i => exact step_str utf8 hg i
  | clear i => exact step_clear utf8 hg i
  | copy i => exact step_copy utf8 hg i
  | update i j => exact step_update utf8 hg i j
  | eq i j => exact step_eq utf8 hg i j

/-- Every program does. -/
theorem run_ok (utf8 : Bytes → Bool) {st : St} (hg : Good st) (ops : List Op) :
    Runs utf8 (st.map absD) ops (absR (run utf8 st ops)) ∧
    ∀ st' as, run utf8 st ops = .ok (st', as) → Good st' := by
  induction ops generalizing st with
  | nil => exact ⟨.nil _, fun st' as e => by cases e; exact hg⟩
  | cons op ops ih =>
    obtain ⟨d, g⟩ := step_ok utf8 hg op
    simp only [run, bind, Except.bind]
    cases hs : step utf8 st op with
    | error f =>
      rw [hs] at d
      exact ⟨.fault d, fun st' as e => by cases e⟩
    | ok r =>
      obtain ⟨st1, a⟩ := r
      rw [hs] at d
      obtain ⟨r1, g1⟩ := ih (g st1 a hs)
      simp only
      cases hr : run utf8 st1 ops with
      | error f =>
        rw [hr] at r1
        exact ⟨.later d r1, fun st' as e => by cases e⟩
      | ok x =>
        obtain ⟨st2, as⟩ := x
        rw [hr] at r1
        exact ⟨.step d r1, fun st' as' e => by cases e; exact g1 _ _ hr⟩

end Comps.PyMDict
