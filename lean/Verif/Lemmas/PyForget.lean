import Verif.Lemmas.PyDictRun
import Verif.Lemmas.RTreeEffect
import Verif.Spec.PyForget

namespace Comps.PyDict
open Comps Comps.RTree Comps.Spec Comps.Spec.PyD

variable {utf8 : Bytes → Bool} {st : St} {w : World}

/-- What a write does to the other keys. -/
theorem set_forget {V : Type} (lt : UInt8 → UInt8 → Bool) {P : Bytes → Prop} {t : RTree V} (hw : WF t.subnodes)
    (ht : TOK P [] t.subnodes) (k : Bytes) (v : Option V) (k' : Bytes) (hk' : k' ≠ k) :
    (t.set lt k v).get k' = t.get k' ∨
    ((t.set lt k v).get k' = none ∧ t.get k = none ∧ ¬ k <+: k' ∧ ∃ q, ProperPrefix k q ∧ P q) := by
  by_cases hg : t.get k ≠ none ∨ ∀ q, ProperPrefix k q → ¬ P q
  · exact .inl (set_frame_or lt hw ht k v hg k' hk')
  · have h1 : t.get k = none := Classical.byContradiction fun h => hg (.inl h)
    have h2 : ∃ q, ProperPrefix k q ∧ P q := Classical.byContradiction fun h =>
      hg (.inr fun q hq hp => h ⟨q, hq, hp⟩)
    rw [get_eq (set_wf lt hw k v), get_eq hw]
    rcases setLoop_effect lt v k.length k t.subnodes hw with he | ⟨p, hp, he⟩
    · exact .inl (he k' hk')
    · have := he k' hk'
      by_cases hl : Lost p k k'
      · rw [if_pos hl] at this
        exact .inr ⟨this, h1, hl.2.2, h2⟩
      · rw [if_neg hl] at this
        exact .inl this

theorem writes_none {V : Type} : ∀ (ws : List (Bytes × Option V)) (m m' : FMap V) (k : Bytes),
    (m k = m' k → FMap.writes m ws k = FMap.writes m' ws k) ∧
    (m k = none → FMap.writes m ws k = none ∨ FMap.writes m ws k = FMap.writes m' ws k)
  | [], m, m', k => ⟨id, .inl⟩
  | (a, v) :: ws, m, m', k => by
    have ih := writes_none ws (m.upd a v) (m'.upd a v) k
    simp only [FMap.writes]
    by_cases h : k = a
    · have e : (m.upd a v) k = (m'.upd a v) k := by simp [FMap.upd, h]
      exact ⟨fun _ => ih.1 e, fun _ => .inr (ih.1 e)⟩
    · have e1 : (m.upd a v) k = m k := by simp [FMap.upd, h]
      have e2 : (m'.upd a v) k = m' k := by simp [FMap.upd, h]
      rw [e1, e2] at ih
      exact ih

/-- What many writes do. -/
theorem setAll_forget {V : Type} (lt : UInt8 → UInt8 → Bool) (ws : List (Bytes × V)) :
    ∀ (P : Bytes → Prop) {t : RTree V}, WF t.subnodes → TOK P [] t.subnodes → (∀ e ∈ ws, e.1 ≠ []) →
      (ws.Pairwise fun a b => ¬ ProperPrefix b.1 a.1) → ∀ k,
      (setAll lt t (asWrites ws)).get k = FMap.writes t.get (asWrites ws) k ∨
      ((setAll lt t (asWrites ws)).get k = none ∧
        ∃ e ∈ ws, ¬ e.1 <+: k ∧ ∃ q, ProperPrefix e.1 q ∧ P q) := by
  induction ws with
  | nil => intro P t _ _ _ _ k; exact .inl rfl
  | cons e es ih =>
    intro P t h ht hne hord k
    rw [List.pairwise_cons] at hord
    have hP' : TOK (fun b => P b ∨ b <+: e.1) [] (t.set lt e.1 (some e.2)).subnodes :=
      set_tok lt h (ht.mono fun _ => Or.inl) _ _ fun p hp => Or.inr hp
    have ih := ih (fun b => P b ∨ b <+: e.1) (set_wf lt h e.1 (some e.2)) hP'
      (fun e' he' => hne e' (by simp [he'])) hord.2 k
    have hstep : (t.set lt e.1 (some e.2)).get k = FMap.upd t.get e.1 (some e.2) k ∨
        ((t.set lt e.1 (some e.2)).get k = none ∧ ¬ e.1 <+: k ∧ ∃ q, ProperPrefix e.1 q ∧ P q) := by
      simp only [FMap.upd]
      split
      · rename_i hk; subst hk; exact .inl (set_get lt h _ (hne e (by simp)) _)
      · rename_i hk
        rcases set_forget lt h ht e.1 (some e.2) k hk with h1 | ⟨h1, -, h2, h3⟩
        · exact .inl h1
        · exact .inr ⟨h1, h2, h3⟩
    show (setAll lt (t.set lt e.1 (some e.2)) (asWrites es)).get k =
        FMap.writes (FMap.upd t.get e.1 (some e.2)) (asWrites es) k ∨
      ((setAll lt (t.set lt e.1 (some e.2)) (asWrites es)).get k = none ∧ _)
    rcases ih with ih | ⟨ih, e', he', h1, q, h2, h3⟩
    · rw [ih]
      rcases hstep with hs | ⟨hs, h1, h2⟩
      · exact .inl ((writes_none _ _ _ k).1 hs)
      · rcases (writes_none (asWrites es) _ (FMap.upd t.get e.1 (some e.2)) k).2 hs with h3 | h3
        · exact .inr ⟨h3, e, .head _, h1, h2⟩
        · exact .inl h3
    · refine .inr ⟨ih, e', .tail _ he', h1, q, h2, ?_⟩
      rcases h3 with h3 | h3
      · exact h3
      · refine absurd ?_ (hord.1 e' he')
        obtain ⟨c, cs, rfl⟩ := h2
        obtain ⟨r, hr⟩ := h3
        exact ⟨c, cs ++ r, by rw [← hr]; simp⟩

theorem forgets_after (w : World) (op : Op) : Forgets w op (w.after op) :=
  ⟨rfl, rfl, fun _ h => h, fun _ d h => ⟨d, h, rfl, fun _ => .inl rfl⟩⟩

/-- The text of a stored value is still there. -/
theorem bind_val {t' : RTree Nat} {s s' : Store} (hw : WF t'.subnodes) (hl : ∀ b ∈ t'.values, 0 < holders s' b)
    (hv : ∀ b, 0 < holders s' b → valAt s' b = valAt s b) (k : Bytes) :
    (t'.get k).bind (valAt s') = (t'.get k).bind (valAt s) := by
  cases hg : t'.get k with
  | none => rfl
  | some a =>
    simp only [Option.bind_some]
    exact hv a (hl a (mem_values hw hg))

theorem prefix_of_below {S : List Bytes} {k q : Bytes} (hq : ProperPrefix k q) (h : Below S q) :
    ∃ s ∈ S, ProperPrefix k s := by
  obtain ⟨s, hs, r, rfl⟩ := h
  obtain ⟨c, cs, rfl⟩ := hq
  exact ⟨_, hs, c, cs ++ r, by simp⟩

theorem step_forget (lt : UInt8 → UInt8 → Bool) (h0 : utf8 [] = true) (h : Inv utf8 st w.iters)
    (r : Ref st w) {op : Op} (hp : Textual utf8 w.iters op) :
    ∃ st' x w', step lt utf8 st op = .ok (st', x) ∧ Inv utf8 st' w'.iters ∧ Ref st' w' ∧
      Answer w x op ∧ Forgets w op w' := by
  by_cases hperm : Permitted utf8 w op
  · obtain ⟨st', x, e, g⟩ := step_ref lt h0 h r hperm
    exact ⟨st', x, w.after op, e, g.inv, g.ref, g.ans, forgets_after w op⟩
  cases op with
  | set i k v =>
    obtain ⟨kb, vb, hk, hv, hne, hu1, hu2⟩ := hp
    cases ht : dictAt st i with
    | none =>
      refine absurd ⟨kb, vb, hk, hv, hne, hu1, hu2, fun d hd => ?_⟩ hperm
      rw [r.no i ht] at hd; cases hd
    | some t =>
      obtain ⟨d, hwd, hd⟩ := r.yes i t ht
      obtain ⟨st', x, e, i', -⟩ := step_safe lt h0 h (.set i k v)
        (show Careful utf8 w.iters (.set i k v) from ⟨decodes_text hk hu1, decodes_valText hv hu2⟩)
      have hw := hd.inv.wf
      obtain ⟨ha, hah, hav, hal⟩ := alloc_spec st.store (some vb)
      obtain ⟨s2, e2, c2, v2, -⟩ := treeSet_ok lt (s := (alloc st.store (some vb)).1) (t := t) kb
        (alloc st.store (some vb)).2 (by
          intro o ho
          have := h.live ht (mem_values hw ho)
          rw [hah]
          omega)
      simp only [step, ht, setItem, valueIn_text hv, keyIn_text hk, e2, bind, Except.bind] at e
      cases e
      have hl := put_live ht i'
      have hwt := set_wf lt hw kb (some (alloc st.store (some vb)).2)
      have hdref : DRef s2 (t.set lt kb (some (alloc st.store (some vb)).2))
          ⟨fun k => ((t.set lt kb (some (alloc st.store (some vb)).2)).get k).bind (valAt s2),
            kb :: d.past, false⟩ :=
        ⟨inv_set lt (hd.inv.mono fun s hs => by simp [hs]) kb _ (.inl (by simp)), fun _ => rfl, nofun⟩
      refine ⟨_, .done, ⟨w.dicts.set i (some ⟨fun k =>
          ((t.set lt kb (some (alloc st.store (some vb)).2)).get k).bind (valAt s2),
          kb :: d.past, false⟩), itersAfter w.iters (.set i k v)⟩, by
            simp only [step, ht, setItem, valueIn_text hv, keyIn_text hk, e2, bind, Except.bind]; rfl, i', ?_,
            by simp [Answer, onDict, hwd], ?_⟩
      · refine r.put h ht i' ?_ ?_ hdref
        · intro b hb hb2
          rw [v2 b hb2, hav, if_neg]
          rintro rfl
          rw [holders_fresh] at hb
          omega
        · intro b (hb : 0 < holders s2 b)
          rw [v2 b hb, hav]
          split
          · exact ⟨_, rfl⟩
          · rename_i hne'
            refine r.full b ?_
            have := c2 b
            have := hah b
            have : one (b = st.store.length) = 0 := by simp [one, hne']
            omega
      · have hA : (w.after (.set i k v)).dicts =
            w.dicts.set i (some ⟨d.map.upd kb (some vb), kb :: d.past, d.counted⟩) := by
          simp [World.after, dictsAfter, hwd, hk, hv]
        refine ⟨rfl, by rw [hA]; simp, ?_, ?_⟩
        · intro i2 hn
          simp only [World.dict] at hn ⊢
          rw [hA, wdict_set hwd] at hn
          rw [wdict_set hwd]
          by_cases hi : i2 = i
          · simp [hi] at hn
          · simpa [hi] using hn
        · intro i2 d2 hd2
          simp only [World.dict] at hd2 ⊢
          rw [hA, wdict_set hwd] at hd2
          rw [wdict_set hwd]
          by_cases hi : i2 = i
          · subst hi
            simp only [if_true] at hd2 ⊢
            cases hd2
            refine ⟨_, rfl, rfl, fun k' => ?_⟩
            simp only [FMap.upd]
            by_cases hkk : k' = kb
            · subst hkk
              left
              rw [if_pos rfl, set_get lt hw _ hne]
              simp only [Option.bind_some]
              have := hl _ (mem_values hwt (set_get lt hw k' hne (some (alloc st.store (some vb)).2)))
              rw [v2 _ this, hav, if_pos ha]
            · rw [if_neg hkk]
              rcases set_forget lt hw hd.inv.tok kb (some (alloc st.store (some vb)).2) k' hkk with
                h1 | ⟨h1, h2, h3, q, h4, h5⟩
              · left
                rw [h1, hd.map]
                cases hg : t.get k' with
                | none => rfl
                | some a =>
                  simp only [Option.bind_some]
                  have h1 := hl a (mem_values hwt (by rw [h1]; exact hg))
                  have h2 := h.live ht (mem_values hw hg)
                  rw [v2 _ h1, hav, if_neg]
                  rintro rfl
                  rw [holders_fresh] at h2
                  omega
              · right
                refine ⟨by rw [h1]; rfl, rfl, d, kb, hwd, hk, by rw [hd.map, h2]; rfl, h3,
                  prefix_of_below h4 h5⟩
          · simp only [hi, if_false] at hd2 ⊢
            exact ⟨d2, hd2, rfl, fun _ => .inl rfl⟩
  | update i j =>
    have hij : i ≠ j := fun e => hperm (fun hne => absurd e hne)
    cases ht : dictAt st i with
    | none => exact absurd (fun _ d e hd => by rw [r.no i ht] at hd; cases hd) hperm
    | some t =>
      cases hu : dictAt st j with
      | none => exact absurd (fun _ d e _ he => by rw [r.no j hu] at he; cases he) hperm
      | some u =>
        obtain ⟨d, hwd, hd⟩ := r.yes i t ht
        obtain ⟨f, hwf, hf⟩ := r.yes j u hu
        obtain ⟨st', x, e, i', -⟩ := step_safe lt h0 h (.update i j) trivial
        obtain ⟨s', t', e1, g, wf', -, -, hv, -⟩ := update_ok lt h ht hu
        simp only [step, ht, hu, e1, bind, Except.bind] at e
        cases e
        have hl := put_live ht i'
        have hw := hd.inv.wf
        have hwu := hf.inv.wf
        have hinv : RTree.Inv (f.past ++ d.past) t' := by
          rw [g]
          refine inv_setAll lt _ (hd.inv.mono fun s hs => by simp [hs]) ?_
          intro x hx
          simp only [asWrites, List.mem_map] at hx
          obtain ⟨e', he', rfl⟩ := hx
          exact PathIn.mono (fun s hs => by simp [hs]) (mem_uniteWrites_below hf.inv he')
        refine ⟨_, .done, ⟨w.dicts.set i (some ⟨fun k => (t'.get k).bind (valAt s'), f.past ++ d.past, false⟩),
          itersAfter w.iters (.update i j)⟩, by simp only [step, ht, hu, e1, bind, Except.bind]; rfl, i', ?_,
          by simp [Answer, onDict, hwd, hwf], ?_⟩
        · refine r.put h ht i' (fun b _ hb => (hv b hb).2) (fun a ha => ?_) ⟨hinv, fun _ => rfl, nofun⟩
          rw [(hv a ha).2]
          exact r.full a (hv a ha).1
        · have hA : (w.after (.update i j)).dicts =
              w.dicts.set i (some ⟨d.map.merge f.map, f.past ++ d.past, d.counted⟩) := by
            simp [World.after, dictsAfter, hwd, hwf, hij]
          refine ⟨rfl, by rw [hA]; simp, ?_, ?_⟩
          · intro i2 hn
            simp only [World.dict] at hn ⊢
            rw [hA, wdict_set hwd] at hn
            rw [wdict_set hwd]
            by_cases hi : i2 = i
            · simp [hi] at hn
            · simpa [hi] using hn
          · intro i2 d2 hd2
            simp only [World.dict] at hd2 ⊢
            rw [hA, wdict_set hwd] at hd2
            rw [wdict_set hwd]
            by_cases hi : i2 = i
            · subst hi
              simp only [if_true] at hd2 ⊢
              cases hd2
              refine ⟨_, rfl, rfl, fun k => ?_⟩
              simp only [FMap.merge]
              rw [bind_val wf' hl (fun b hb => (hv b hb).2)]
              have hs := setAll_forget lt (uniteWrites u) (Below d.past) hw hd.inv.tok (uniteWrites_ne hwu)
                (uniteWrites_pp hwu) k
              rw [← g, writes_unite hwu] at hs
              rcases hs with hs | ⟨hs, x, hx, h1, q, h2, h3⟩
              · left
                rw [hs, hd.map, hf.map]
                simp only [FMap.merge]
                cases h1 : u.get k with
                | some a =>
                  obtain ⟨v, hv1⟩ := r.full a (h.live hu (mem_values hwu h1))
                  simp [hv1]
                | none => simp
              · right
                refine ⟨by rw [hs]; rfl, rfl, hij, d, f, x.1, hwd, hwf, ?_, h1, prefix_of_below h2 h3⟩
                rw [hf.some_iff (r.vals h hu), mem_uniteWrites hwu hx]
                simp
            · simp only [hi, if_false] at hd2 ⊢
              exact ⟨d2, hd2, rfl, fun _ => .inl rfl⟩
  | del i k => exact hp.elim
  | getItem i k => exact absurd hp hperm
  | get i k => exact absurd hp hperm
  | hasKey i k => exact absurd hp hperm
  | next j => exact absurd hp hperm
  | _ => exact absurd trivial hperm

/-- Every program of text. -/
theorem run_forget (lt : UInt8 → UInt8 → Bool) (h0 : utf8 [] = true) (ops : List Op) :
    ∀ {st : St} {w : World}, Inv utf8 st w.iters → Ref st w → TextualRun utf8 w.iters ops →
      ∃ st' xs, run lt utf8 st ops = .ok (st', xs) ∧ Follows w ops xs := by
  induction ops with
  | nil => intro st w h r _; exact ⟨st, [], rfl, trivial⟩
  | cons op ops ih =>
    intro st w h r hp
    obtain ⟨st1, x, w1, e1, i1, r1, a1, f1⟩ := step_forget lt h0 h r hp.1
    obtain ⟨st2, xs, e2, a2⟩ := ih i1 r1 (by rw [f1.iters]; exact hp.2)
    exact ⟨st2, x :: xs, run_cons e1 e2, a1, w1, f1, a2⟩

end Comps.PyDict
