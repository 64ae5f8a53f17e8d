import Verif.Lemmas.PyHeapProps
import Verif.Spec.PyHeapDoc

/-! # Documents in Python programs -/

namespace Comps.PyHeap
open Comps Comps.Obj
open Comps.Spec (fits shown)
open Comps.Props (Texts hit hits fits_none)
open Comps.PyElem (Pkg EKind Attr PkgAttr GidAttr Arg)

variable {lt : UInt8 → UInt8 → Bool} {utf8 : Bytes → Bool}

/-! ## Searches -/

theorem textsAt_dict {objs : List Body} {a : Nat} {t : RTree PVal} (h : objs[a]? = some (.dict t)) :
    textsAt objs (some a) = t := by simp [textsAt, h]

theorem entMatches_spec {m : Nat} {r : R} (h : Typed lt m r) (fn : Bytes → Bytes → Bool) (s : DSec)
    (q : Query) {a : Nat} {k : EKind} (ha : shapeAt r.objs a = some (false, .entry k)) :
    entMatches (look r.objs) fn s q a = .ok (wanted r.objs s fn q a) := by
  obtain ⟨p, n, d, l, o, h1, -, h3⟩ := get_entry ha
  obtain ⟨⟨hp, tp⟩, ⟨n', rfl, hn⟩, ⟨d', rfl, hd⟩, -⟩ := h.body _ _ h1
  obtain ⟨tn, n1, n2⟩ := get_dict hn
  obtain ⟨td, d1, d2⟩ := get_dict hd
  have ln := (h.body _ _ n1).1
  have ld := (h.body _ _ d1).1
  have xn := dict_texts (h.body _ _ n1)
  have xd := dict_texts (h.body _ _ d1)
  unfold entMatches wanted
  simp only [h3, nonNull, n2, d2, h1, textsAt_dict n1, textsAt_dict d1, Props.matchId_ok fn hp tp,
    Props.matchLang_ok fn hp ln tp xn (k := b!"name") (by simp), bind, Except.bind, pure, Except.pure]
  cases s with
  | groups =>
    simp only [Props.matchDescGroup_ok fn hp ld tp xd]
    rw [Query.max, hits _ _ _ _ _ _ (fits_none _ _ _) (fits_none _ _ _)]
    · congr 2
      cases q.lang with
      | none => simp [shown]
      | some g => simp [Bool.or_comm]
    · intro e; simp [fits_none _ _ _ e]
  | categories =>
    simp only [Props.matchLang_ok fn hp ld tp xd (k := b!"desc") (by simp)]
    rw [Query.max, hits _ _ _ _ _ _ (fits_none _ _ _) (fits_none _ _ _) (fits_none _ _ _)]
    rw [show (DSec.categories == DSec.groups) = false from rfl, Bool.false_and, Bool.or_false]
    rfl
  | environments =>
    simp only [Props.matchLang_ok fn hp ld tp xd (k := b!"desc") (by simp)]
    rw [Query.max, hits _ _ _ _ _ _ (fits_none _ _ _) (fits_none _ _ _) (fits_none _ _ _)]
    rw [show (DSec.environments == DSec.groups) = false from rfl, Bool.false_and, Bool.or_false]
    rfl

theorem matchingEnts_spec {m : Nat} {r : R} (h : Typed lt m r) (fn : Bytes → Bytes → Bool) (s : DSec)
    (q : Query) {k : EKind} :
    ∀ {items : List Nat}, (∀ a ∈ items, shapeAt r.objs a = some (false, .entry k)) →
      matchingEnts (look r.objs) fn s q items = .ok (items.filter (wanted r.objs s fn q)) := by
  intro items
  induction items with
  | nil => intro _; rfl
  | cons a as ih =>
    intro hi
    simp only [matchingEnts, ih fun b hb => hi b (by simp [hb]), entMatches_spec h fn s q (hi a (by simp)),
      bind, Except.bind, pure, Except.pure, List.filter_cons]

theorem parseStr_text {x : Option Arg} (h : ∀ y, x = some y → ∃ b : Bytes, y = .str (some b) ∧ 0 ∉ b) :
    PyElem.parseStr x = .ok (textOf x) := by
  cases x with
  | none => rfl
  | some y =>
    obtain ⟨b, rfl, hb⟩ := h y rfl
    simp [PyElem.parseStr, textOf, hb]

theorem parseStr_inv {x : Option Arg} {o : Option Bytes} (h : PyElem.parseStr x = .ok o) :
    o = textOf x ∧ ∀ y, x = some y → ∃ b : Bytes, y = .str (some b) ∧ 0 ∉ b := by
  unfold PyElem.parseStr at h
  split at h
  · cases h; exact ⟨rfl, fun _ e => by cases e⟩
  · split at h
    · cases h
    · rename_i b hb
      cases h
      exact ⟨rfl, fun y e => by cases e; exact ⟨b, rfl, by simpa using hb⟩⟩
  · cases h
  · cases h

theorem parseQuery_inv {a : SearchArgs} {q : Query} (h : parseQuery a = .ok q) : q = asked a ∧ Takes a := by
  simp only [parseQuery, bind, Except.bind, pure, Except.pure] at h
  split at h
  · cases h
  rename_i x1 h1
  split at h
  · cases h
  rename_i x2 h2
  split at h
  · cases h
  rename_i x3 h3
  split at h
  · cases h
  rename_i x4 h4
  cases h
  obtain ⟨rfl, g1⟩ := parseStr_inv h1
  obtain ⟨rfl, g2⟩ := parseStr_inv h2
  obtain ⟨rfl, g3⟩ := parseStr_inv h3
  obtain ⟨rfl, g4⟩ := parseStr_inv h4
  refine ⟨rfl, ?_⟩
  intro x hx
  simp only [List.mem_cons, List.not_mem_nil, or_false] at hx
  rcases hx with rfl | rfl | rfl | rfl <;> assumption

theorem parseQuery_takes {a : SearchArgs} (h : Takes a) : parseQuery a = .ok (asked a) := by
  unfold Takes at h
  simp only [List.forall_mem_cons] at h
  obtain ⟨h1, h2, h3, h4, -⟩ := h
  simp only [parseQuery, parseStr_text h1, parseStr_text h2, parseStr_text h3, parseStr_text h4, bind,
    Except.bind, pure, Except.pure]
  rfl

theorem at_some {r : R} {v w : Nat} {t : PType} {a : Nat} {n d : Option Nat}
    (hw : var r.vars v = some w) (hb : r.objs[w]? = some (.wrap t a n d)) : r.at? v = some a := by
  simp [R.at?, hw, hb]

theorem entries_of {r : R} {v w : Nat} {t : PType} {a : Nat} {n d : Option Nat} {ls cs : Three}
    (hw : var r.vars v = some w) (hb : r.objs[w]? = some (.wrap t a n d))
    (hd : r.objs[a]? = some (.doc ls cs)) (s : DSec) :
    r.entries v s = match ls.get s with
      | some l => itemsAt r.objs l
      | none => [] := by
  simp only [R.entries, at_some hw hb, hd, Option.bind_some]
  cases ls.get s <;> rfl

/-- The list of a document: what changes. -/
theorem secList_frame {r r' : R} {a l : Nat} {s : DSec} (h : r.secList a s = .ok (r', l)) :
    r'.vars = r.vars ∧
    (∀ (x : Nat) (b : Body), r.objs[x]? = some b → (∀ ls cs, b ≠ .doc ls cs) → r'.objs[x]? = some b) ∧
    (∀ (x : Nat) (ls cs : Three), r.objs[x]? = some (.doc ls cs) → ∃ ls', r'.objs[x]? = some (.doc ls' cs) ∧
      ∀ s', ls'.get s' = ls.get s' ∨ ls.get s' = none ∧ ∃ l', ls'.get s' = some l' ∧ itemsAt r'.objs l' = []) ∧
    (∃ ls cs, r.objs[a]? = some (.doc ls cs) ∧
      itemsAt r'.objs l = match ls.get s with
        | some l => itemsAt r.objs l
        | none => []) := by
  simp only [R.secList, bind, Except.bind] at h
  split at h
  · simp at h
  rename_i x hx
  have hd := asDoc_inv hx
  split at h
  · rename_i l' hl
    cases h
    exact ⟨rfl, fun _ _ e _ => e, fun _ ls _ e => ⟨ls, e, fun _ => .inl rfl⟩, x.1, x.2, hd, by rw [hl]⟩
  · rename_i hn
    cases h
    have hla := (List.getElem?_eq_some_iff.1 hd).1
    have hi : itemsAt ((r.make (.list s.kind [])).put a (.doc (x.1.set s (some r.objs.length)) x.2)).objs
        r.objs.length = [] := by
      simp [itemsAt, R.put, R.make, Nat.ne_of_lt hla]
    refine ⟨rfl, ?_, ?_, x.1, x.2, hd, ?_⟩
    · intro y b hy hb
      have hly := (List.getElem?_eq_some_iff.1 hy).1
      have : a ≠ y := by rintro rfl; rw [hd] at hy; cases hy; exact hb _ _ rfl
      rw [R.put, List.getElem?_set, if_neg this, R.make, List.getElem?_append_left hly]; exact hy
    · intro y ls cs hy
      have hly := (List.getElem?_eq_some_iff.1 hy).1
      by_cases e : a = y
      · subst e
        rw [hd] at hy; cases hy
        refine ⟨x.1.set s (some r.objs.length), ?_, fun s' => ?_⟩
        · rw [R.put, List.getElem?_set, if_pos rfl, if_pos (by simp [R.make]; omega)]
        · by_cases es : s = s'
          · subst es
            exact .inr ⟨hn, _, Three.get_set _ _ _, hi⟩
          · exact .inl (Three.get_set_ne _ es _)
      · refine ⟨ls, ?_, fun _ => .inl rfl⟩
        rw [R.put, List.getElem?_set, if_neg e, R.make, List.getElem?_append_left hly]; exact hy
    · rw [hn]; exact hi

theorem itemsAt_old {objs : List Body} {l : Nat} {t : Bool × PType} (h : shapeAt objs l = some t)
    (bs : List Body) : itemsAt (objs ++ bs) l = itemsAt objs l := by
  unfold itemsAt
  rw [List.getElem?_append_left (shapeAt_lt h)]

/-- A search: what it gives and what changes. -/
theorem search_full {m : Nat} {r : R} (ht : Typed lt m r) {v w a : Nat} {n d : Option Nat}
    (hw : var r.vars v = some w) (hb : r.objs[w]? = some (.wrap .comps a n d)) (s : DSec)
    {args : SearchArgs} (hq : Takes args) :
    ∃ r1, r.step lt utf8 (.search v s args) = .ok (r1, .object) ∧
      r1.members r.vars.length = (r.entries v s).filter (wanted r.objs s args.fn (asked args)) ∧
      r1.typeOf r.vars.length = some (.list s.kind) ∧
      (∀ (x : Nat) (b : Body), r.objs[x]? = some b → (∀ ls cs, b ≠ .doc ls cs) → r1.objs[x]? = some b) ∧
      (∀ v' s', v' < r.vars.length → r1.entries v' s' = r.entries v' s') := by
  have hs := (ht.body _ _ hb).1
  obtain ⟨r', l, e1, t', hl, hsh⟩ := secList_ok ht s hs
  obtain ⟨f1, f2, f3, ls, cs, f4, f5⟩ := secList_frame e1
  obtain ⟨items, i1, -, i3⟩ := get_list hl
  have hit : itemsAt r'.objs l = items := by simp [itemsAt, i1]
  have hent : r.entries v s = items := by rw [entries_of hw hb f4, ← f5, hit]
  have hmem := (t'.body _ _ i1).2
  rw [DSec.elem] at hmem
  have hx := matchingEnts_spec t' args.fn s (asked args) hmem
  have hwant : items.filter (wanted r'.objs s args.fn (asked args)) =
      items.filter (wanted r.objs s args.fn (asked args)) := by
    refine List.filter_congr fun c hc => ?_
    have hcs : ∃ b, r.objs[c]? = some b := by
      rw [hit] at f5
      cases e : ls.get s with
      | none => rw [e] at f5; simp only at f5; rw [f5] at hc; simp at hc
      | some l0 =>
        rw [e] at f5
        simp only at f5
        obtain ⟨i0, g1, -⟩ := get_list ((ht.body _ _ f4).1 s l0 e)
        have : items = i0 := by rw [f5]; simp [itemsAt, g1]
        subst this
        obtain ⟨b, -, g2, -⟩ := look_shape ((ht.body _ _ g1).2 c hc)
        exact ⟨b, g2⟩
    obtain ⟨b, hb'⟩ := hcs
    obtain ⟨p, nn, dd, ll, oo, c1, -⟩ := get_entry (hmem c hc)
    have hcr : r.objs[c]? = some (.entry s.ent p nn dd ll oo) := by
      by_cases hdoc : ∃ l1 c1, b = .doc l1 c1
      · obtain ⟨l1, c2, rfl⟩ := hdoc
        obtain ⟨ls', g, -⟩ := f3 _ _ _ hb'
        rw [c1] at g; cases g
      · have := f2 _ _ hb' fun l1 c1 e => hdoc ⟨l1, c1, e⟩
        rw [c1] at this; rw [hb']; exact this.symm
    obtain ⟨-, ⟨n', rfl, hn⟩, ⟨d', rfl, hd⟩, -⟩ := ht.body _ _ hcr
    obtain ⟨tn, n1, -⟩ := get_dict hn
    obtain ⟨td, d1, -⟩ := get_dict hd
    have n2 := f2 _ _ n1 (by intros; exact nofun)
    have d2 := f2 _ _ d1 (by intros; exact nofun)
    simp only [wanted, c1, hcr, textsAt_dict n1, textsAt_dict n2, textsAt_dict d1, textsAt_dict d2]
  have hstep : r.step lt utf8 (.search v s args) = .ok (r'.plain (.list s.kind)
      (.list s.kind (items.filter (wanted r.objs s args.fn (asked args)))), .object) := by
    rw [R.step, with1_run hw hb]
    simp only [R.search, parseQuery_takes hq, e1, i3, hx, hwant, bind, Except.bind, pure, Except.pure]
  refine ⟨_, hstep, ?_, ?_, ?_, ?_⟩
  · rw [hent, ← f1]
    simp [R.members, R.plain, R.wrapUp, R.push, R.make, var]
  · rw [← f1]
    simp [R.typeOf, R.plain, R.wrapUp, R.push, R.make, var]
  · intro x b hx hb
    have := f2 x b hx hb
    exact getElem?_old (getElem?_old this _) _
  · intro v' s' hv
    have hvar : var (r'.plain (.list s.kind) (.list s.kind
        (items.filter (wanted r.objs s args.fn (asked args))))).vars v' = var r.vars v' := by
      show var (r'.vars ++ [some (r'.make _).objs.length]) v' = _
      rw [f1]; unfold var; rw [List.getElem?_append_left hv]
    cases e : var r.vars v' with
    | none => simp [R.entries, R.at?, hvar, e]
    | some w' =>
      obtain ⟨t, hw'⟩ := ht.vars w' (var_mem e)
      obtain ⟨a', n', d', hb', -⟩ := get_wrap hw'
      have hb2 := f2 _ _ hb' (by intros; exact nofun)
      have ha' := (ht.body _ _ hb').1
      obtain ⟨b, -, hba, -⟩ := look_shape ha'
      by_cases hdoc : ∃ l1 c1, b = .doc l1 c1
      · obtain ⟨l1, c1, rfl⟩ := hdoc
        obtain ⟨ls', g1, g2⟩ := f3 _ _ _ hba
        rw [entries_of e hb' hba, entries_of (hvar.trans e) (getElem?_old (getElem?_old hb2 _) _)
          (getElem?_old (getElem?_old g1 _) _)]
        have old : ∀ l2, ls'.get s' = some l2 → itemsAt (r'.plain (.list s.kind) (.list s.kind
            (items.filter (wanted r.objs s args.fn (asked args))))).objs l2 = itemsAt r'.objs l2 := by
          intro l2 h2
          have hs2 := (t'.body _ _ g1).1 s' l2 h2
          have := itemsAt_old hs2 [.list s.kind (items.filter (wanted r.objs s args.fn (asked args)))]
          rw [← this]
          exact itemsAt_old (shapeAt_append hs2 _) _
        rcases g2 s' with g | ⟨g, l2, g', g''⟩
        · rw [g]
          cases e2 : l1.get s' with
          | none => rfl
          | some l2 =>
            simp only
            rw [old l2 (g.trans e2)]
            obtain ⟨i0, k1, -⟩ := get_list ((ht.body _ _ hba).1 s' l2 e2)
            have k2 := f2 _ _ k1 (by intros; exact nofun)
            simp [itemsAt, k1, k2]
        · rw [g', g]
          simp only
          rw [old l2 g', g'']
      · have hb3 := f2 _ _ hba fun l1 c1 e => hdoc ⟨l1, c1, e⟩
        have hb4 : (r'.plain (.list s.kind) (.list s.kind
            (items.filter (wanted r.objs s args.fn (asked args))))).objs[a']? = some b :=
          getElem?_old (getElem?_old hb3 _) _
        have hat := at_some e hb'
        have hat' := at_some (hvar.trans e) (getElem?_old (getElem?_old hb2 _) _)
        unfold R.entries
        rw [hat, hat']
        simp only [Option.bind_some, hba, hb4]
        cases b <;> first | rfl | exact absurd ⟨_, _, rfl⟩ hdoc

/-! ## Attributes of documents -/

/-- Assigning a dictionary leaves variables, what Python objects are around, and documents. -/
theorem setDict_frame {r r' : R} {v u : Nat} {desc : Bool} {o : Obs}
    (h : r.step lt utf8 (.setDict v desc u) = .ok (r', o)) :
    r'.vars = r.vars ∧
    (∀ (z : Nat) (t : PType) (a : Nat) (n d : Option Nat), r.objs[z]? = some (.wrap t a n d) →
      ∃ n' d', r'.objs[z]? = some (.wrap t a n' d')) ∧
    (∀ (z : Nat) (ls cs : Three), r'.objs[z]? = some (.doc ls cs) ↔ r.objs[z]? = some (.doc ls cs)) := by
  have h0 : (r.vars = r.vars ∧
    (∀ (z : Nat) (t : PType) (a : Nat) (n d : Option Nat), r.objs[z]? = some (.wrap t a n d) →
      ∃ n' d', r.objs[z]? = some (.wrap t a n' d')) ∧
    (∀ (z : Nat) (ls cs : Three), r.objs[z]? = some (.doc ls cs) ↔ r.objs[z]? = some (.doc ls cs))) :=
    ⟨rfl, fun _ _ _ n d h => ⟨n, d, h⟩, fun _ _ _ => Iff.rfl⟩
  rw [R.step] at h
  refine with2_inv (P := fun x => x.vars = r.vars ∧
    (∀ (z : Nat) (t : PType) (a : Nat) (n d : Option Nat), r.objs[z]? = some (.wrap t a n d) →
      ∃ n' d', x.objs[z]? = some (.wrap t a n' d')) ∧
    (∀ (z : Nat) (ls cs : Three), x.objs[z]? = some (.doc ls cs) ↔ r.objs[z]? = some (.doc ls cs))) h h0
    fun w t' b w' t2 d h => ?_
  cases t' <;> try (cases h; exact h0)
  dsimp only at h
  split at h
  · simp only [bind, Except.bind, pure, Except.pure] at h
    split at h
    · cases h
    rename_i e he
    split at h
    · cases h
    rename_i q hq
    cases h
    have hbe : ∃ b0, r.objs[b]? = some b0 ∧ (∀ ls cs, b0 ≠ .doc ls cs) ∧ (∀ t a n d, b0 ≠ .wrap t a n d) := by
      unfold asEnt look at he
      cases e' : r.objs[b]? with
      | none => rw [e'] at he; simp [bind, Except.bind] at he
      | some b0 =>
        rw [e'] at he
        cases b0 <;> simp [bind, Except.bind] at he
        exact ⟨_, rfl, by intros; exact nofun, by intros; exact nofun⟩
    have hwe : r.objs[w]? = some (.wrap q.1 q.2.1 q.2.2.1 q.2.2.2) := by
      unfold asWrap look at hq
      cases e' : r.objs[w]? with
      | none => rw [e'] at hq; simp [bind, Except.bind] at hq
      | some b0 =>
        rw [e'] at hq
        cases b0 <;> simp [bind, Except.bind] at hq
        subst hq; rfl
    obtain ⟨b0, hb0, hb1, hb2⟩ := hbe
    have hlb := (List.getElem?_eq_some_iff.1 hb0).1
    have hlw := (List.getElem?_eq_some_iff.1 hwe).1
    refine ⟨rfl, ?_, ?_⟩
    · intro z t a n m hz
      have hb : b ≠ z := by rintro rfl; rw [hb0] at hz; cases hz; exact hb2 _ _ _ _ rfl
      by_cases hw : w = z
      · subst hw
        rw [hwe] at hz
        have e1 : q.1 = t := by injection hz with hz; injection hz
        have e2 : q.2.1 = a := by injection hz with hz; injection hz
        cases desc
        · exact ⟨some w', q.2.2.2, by simp [R.put, hlw, e1, e2]⟩
        · exact ⟨q.2.2.1, some w', by simp [R.put, hlw, e1, e2]⟩
      · exact ⟨n, m, by simp [R.put, hw, hb, hz]⟩
    · intro z ls cs
      by_cases hw : w = z
      · subst hw
        rw [hwe]
        cases desc <;> simp [R.put, hlw]
      · by_cases hb : b = z
        · subst hb
          rw [hb0]
          simp only [R.put]
          rw [List.getElem?_set, if_neg hw, List.getElem?_set, if_pos rfl, if_pos hlb]
          constructor
          · intro hx; injection hx with hx; cases hx
          · intro hx; injection hx with hx; exact absurd hx (hb1 _ _)
        · simp [R.put, hw, hb]
  · cases h; exact h0

theorem step_tied {r r' : R} {op : Op} {o : Obs} (hc : op.clears = false)
    (h : r.step lt utf8 op = .ok (r', o)) (ht : Tied r.objs) : Tied r'.objs := by
  by_cases hk : op.keeps = true
  · exact (step_kept hk h).tied hc ht
  · cases op <;> simp [Op.keeps] at hk
    case setDict v desc u =>
      obtain ⟨-, f2, f3⟩ := setDict_frame h
      intro a ls cs s w ha hw
      obtain ⟨l, n, d, g1, g2⟩ := ht a ls cs s w ((f3 _ _ _).1 ha) hw
      obtain ⟨n', d', g3⟩ := f2 _ _ _ _ _ g1
      exact ⟨l, n', d', g3, g2⟩
    case del v =>
      rw [R.step] at h
      split at h <;> cases h <;> exact ht

theorem run_tied : ∀ (ops : List Op) {r r' : R} {os : List Obs} (_ : ∀ op ∈ ops, op.clears = false)
    (_ : r.run lt utf8 ops = .ok (r', os)), Tied r.objs → Tied r'.objs := by
  intro ops
  induction ops with
  | nil => intro r r' os _ h ht; cases h; exact ht
  | cons op ops ih =>
    intro r r' os hc h ht
    simp only [R.run, bind, Except.bind, pure, Except.pure] at h
    split at h
    · simp at h
    rename_i p hp
    split at h
    · simp at h
    rename_i p' hp'
    cases h
    exact ih (fun o ho => hc o (by simp [ho])) hp' (step_tied (hc op (by simp)) hp ht)

/-- What a call leaves of what two variables are bound to and of the attributes of documents. -/
structure Held (x y : Nat) (s : DSec) (r r' : R) : Prop where
  wraps : ∀ (z : Nat) (t : PType) (a : Nat) (n d : Option Nat), r.objs[z]? = some (.wrap t a n d) →
    ∃ n' d', r'.objs[z]? = some (.wrap t a n' d')
  first : ∀ w, var r.vars x = some w → var r'.vars x = some w
  second : ∀ w, var r.vars y = some w → var r'.vars y = some w
  docs : ∀ (a : Nat) (ls cs : Three) (w : Nat), r.objs[a]? = some (.doc ls cs) → cs.get s = some w →
    ∃ ls' cs', r'.objs[a]? = some (.doc ls' cs') ∧ cs'.get s = some w

theorem step_held {r r' : R} {op : Op} {o : Obs} {x y : Nat} {s : DSec} (hop : op.holds x y = true)
    (hs : op.assigns ≠ some s) (h : r.step lt utf8 op = .ok (r', o)) : Held x y s r r' := by
  by_cases hk : op.keeps = true
  · have hk := step_kept hk h
    refine ⟨fun z t a n d e => ⟨n, d, hk.wraps _ _ _ _ _ e⟩, hk.vars x, hk.vars y, fun a ls cs w e1 e2 => ?_⟩
    obtain ⟨ls', cs', g1, g2⟩ := hk.docs a ls cs e1
    exact ⟨ls', cs', g1, g2 s w hs e2⟩
  · cases op <;> simp [Op.keeps] at hk
    case setDict v desc u =>
      obtain ⟨f1, f2, f3⟩ := setDict_frame h
      exact ⟨f2, fun w e => by rw [f1]; exact e, fun w e => by rw [f1]; exact e,
        fun a ls cs w e1 e2 => ⟨ls, cs, (f3 _ _ _).2 e1, e2⟩⟩
    case del v =>
      simp [Op.holds] at hop
      rw [R.step] at h
      split at h <;> cases h
      · exact ⟨fun _ _ _ n d e => ⟨n, d, e⟩, fun _ e => e, fun _ e => e, fun _ ls cs _ e1 e2 => ⟨ls, cs, e1, e2⟩⟩
      · refine ⟨fun _ _ _ n d e => ⟨n, d, e⟩, fun w e => ?_, fun w e => ?_,
          fun _ ls cs _ e1 e2 => ⟨ls, cs, e1, e2⟩⟩
        · simpa [var, List.getElem?_set, hop.1] using e
        · simpa [var, List.getElem?_set, hop.2] using e

theorem run_held : ∀ (ops : List Op) {r r' : R} {os : List Obs} {x y : Nat} {s : DSec}
    (_ : ∀ op ∈ ops, op.holds x y = true ∧ op.assigns ≠ some s)
    (_ : r.run lt utf8 ops = .ok (r', os)), Held x y s r r' := by
  intro ops
  induction ops with
  | nil =>
    intro r r' os x y s _ h; cases h
    exact ⟨fun _ _ _ n d e => ⟨n, d, e⟩, fun _ e => e, fun _ e => e, fun _ ls cs _ e1 e2 => ⟨ls, cs, e1, e2⟩⟩
  | cons op ops ih =>
    intro r r' os x y s hf h
    simp only [R.run, bind, Except.bind, pure, Except.pure] at h
    split at h
    · simp at h
    rename_i p hp
    split at h
    · simp at h
    rename_i p' hp'
    cases h
    have h1 := step_held (s := s) (hf op (by simp)).1 (hf op (by simp)).2 hp
    have h2 := ih (x := x) (y := y) (s := s) (fun o ho => hf o (by simp [ho])) hp'
    refine ⟨fun z t a n d e => ?_, fun w e => h2.first w (h1.first w e), fun w e => h2.second w (h1.second w e),
      fun a ls cs w e1 e2 => ?_⟩
    · obtain ⟨n', d', e'⟩ := h1.wraps z t a n d e
      exact h2.wraps z t a n' d' e'
    · obtain ⟨ls', cs', e3, e4⟩ := h1.docs a ls cs w e1 e2
      exact h2.docs a ls' cs' w e3 e4

/-- The document in the first variable keeps for the attribute what the second is bound to. -/
def Keeps (r : R) (v : Nat) (s : DSec) (x : Nat) : Prop :=
  ∃ w a n d ls cs z, var r.vars v = some w ∧ r.objs[w]? = some (.wrap .comps a n d) ∧
    r.objs[a]? = some (.doc ls cs) ∧ cs.get s = some z ∧ var r.vars x = some z

theorem Held.keeps {x y : Nat} {s : DSec} {r r' : R} (h : Held x y s r r') (hk : Keeps r x s y) :
    Keeps r' x s y := by
  obtain ⟨w, a, n, d, ls, cs, z, h1, h2, h3, h4, h5⟩ := hk
  obtain ⟨n', d', g2⟩ := h.wraps _ _ _ _ _ h2
  obtain ⟨ls', cs', g3, g4⟩ := h.docs _ _ _ _ h3 h4
  exact ⟨w, a, n', d', ls', cs', z, h.first _ h1, g2, g3, g4, h.second _ h5⟩

theorem Keeps.get {r : R} {v x : Nat} {s : DSec} (h : Keeps r v s x) :
    ∃ r1 r2, r.step lt utf8 (.getSec v s) = .ok (r1, .object) ∧
      r1.step lt utf8 (.same r.vars.length x) = .ok (r2, .bool true) := by
  obtain ⟨w, a, n, d, ls, cs, z, h1, h2, h3, h4, h5⟩ := h
  refine ⟨r.push z, r.push z, ?_, ?_⟩
  · rw [R.step, with1_run h1 h2]
    have hd : asDoc (look r.objs) a = .ok (ls, cs) := by simp [asDoc, look, h3, bind, Except.bind]
    simp only [R.getSec, hd, h4, bind, Except.bind]
  · rw [R.step]
    have e1 : var (r.push z).vars r.vars.length = some z := var_new _ _
    have e2 : var (r.push z).vars x = some z := var_old h5 _
    rw [e1, e2]
    simp

theorem getSec_keeps {r r1 : R} {v : Nat} {s : DSec} (h : r.step lt utf8 (.getSec v s) = .ok (r1, .object)) :
    Keeps r1 v s r.vars.length := by
  have hk := step_kept (op := .getSec v s) rfl h
  rw [R.step] at h
  obtain ⟨w, t, a, n, d, hw, hb, h⟩ := with1_ok h (by simp)
  cases t <;> try (cases h; done)
  dsimp only at h
  refine ⟨w, a, n, d, ?_⟩
  have e1 := hk.vars _ _ hw
  have e2 := hk.wraps _ _ _ _ _ hb
  simp only [R.getSec, bind, Except.bind, pure, Except.pure] at h
  split at h
  · simp at h
  rename_i z hz
  split at h
  · rename_i x hx
    cases h
    exact ⟨z.1, z.2, x, e1, e2, asDoc_inv hz, hx, var_new _ _⟩
  · split at h
    · simp at h
    rename_i x hx
    split at h
    · simp at h
    rename_i y hy
    cases h
    refine ⟨y.1, y.2.set s (some x.1.objs.length), x.1.objs.length, e1, e2, ?_, Three.get_set _ _ _, ?_⟩
    · have hl := (List.getElem?_eq_some_iff.1 (asDoc_inv hy)).1
      simp only [R.push, R.put]
      rw [List.getElem?_set, if_pos rfl, if_pos (by simp [R.make]; omega)]
    · have := (secList_frame hx).1
      rw [← this]
      exact var_new _ _

theorem setSec_keeps {r r1 : R} {v x : Nat} {s : DSec} (h : r.step lt utf8 (.setSec v s x) = .ok (r1, .none)) :
    Keeps r1 v s x := by
  have hk := step_kept (op := .setSec v s x) rfl h
  rw [R.step] at h
  obtain ⟨w, t, a, n, d, hw, hb, h⟩ := with1_ok h (by simp)
  obtain ⟨x2, t2, l, n2, d2, hx2, hb2, h⟩ := with1_ok h (by simp)
  cases t <;> try (cases h; done)
  dsimp only at h
  refine ⟨w, a, n, d, ?_⟩
  have e1 := hk.vars _ _ hw
  have e2 := hk.wraps _ _ _ _ _ hb
  have e3 := hk.vars _ _ hx2
  split at h
  · simp only [R.setSec, bind, Except.bind, pure, Except.pure] at h
    split at h
    · simp at h
    rename_i z hz
    cases h
    refine ⟨z.1.set s (some l), z.2.set s (some x2), x2, e1, e2, ?_, Three.get_set _ _ _, e3⟩
    have hl := (List.getElem?_eq_some_iff.1 (asDoc_inv hz)).1
    rw [R.put, List.getElem?_set, if_pos rfl, if_pos hl]
  · cases h

/-- An attribute of a document that was not cleared shows its entries. -/
theorem getSec_full {m : Nat} {r : R} (ht : Typed lt m r) (htied : Tied r.objs) {v w a : Nat}
    {n d : Option Nat} (hw : var r.vars v = some w) (hb : r.objs[w]? = some (.wrap .comps a n d)) (s : DSec) :
    ∃ r1, r.step lt utf8 (.getSec v s) = .ok (r1, .object) ∧ r1.members r.vars.length = r.entries v s := by
  have hs := (ht.body _ _ hb).1
  obtain ⟨ls, cs, h1, h2⟩ := get_doc hs
  rw [R.step, with1_run hw hb]
  simp only [R.getSec, h2, bind, Except.bind, pure, Except.pure]
  cases e : cs.get s with
  | some x =>
    refine ⟨_, rfl, ?_⟩
    obtain ⟨l, n', d', g1, g2⟩ := htied _ _ _ _ _ h1 e
    rw [entries_of hw hb h1, g2]
    have : var (r.push x).vars r.vars.length = some x := var_new _ _
    simp only [R.members, this]
    simp only [R.push, g1, itemsAt]
    cases r.objs[l]? with
    | none => rfl
    | some b => cases b <;> rfl
  | none =>
    obtain ⟨r', l, e1, t', hl, -⟩ := secList_ok ht s hs
    obtain ⟨f1, f2, f3, ls2, cs2, f4, f5⟩ := secList_frame e1
    obtain ⟨ls', g1, -⟩ := f3 _ _ _ h1
    obtain ⟨items, i1, -⟩ := get_list hl
    have hd : asDoc (look r'.objs) a = .ok (ls', cs) := by simp [asDoc, look, g1, bind, Except.bind]
    simp only [e1, hd]
    refine ⟨_, rfl, ?_⟩
    rw [entries_of hw hb f4, ← f5, ← f1]
    have hla := (List.getElem?_eq_some_iff.1 g1).1
    have hll := (List.getElem?_eq_some_iff.1 i1).1
    have hne : a ≠ l := by rintro rfl; rw [g1] at i1; cases i1
    have hnl : a ≠ r'.objs.length := by omega
    simp only [R.members, R.push, R.put, R.make, var_new]
    rw [List.getElem?_set, if_neg hnl]
    simp only [List.getElem?_append_right (Nat.le_refl _), Nat.sub_self, List.getElem?_cons_zero]
    rw [List.getElem?_set, if_neg hne, List.getElem?_append_left hll, i1]
    simp [itemsAt, i1]

/-! ## What is valid -/

theorem repeats_nil {α : Type} {same : α → α → Bool} {l : List α} :
    Spec.repeats same l = [] ↔ l.Pairwise fun a b => same a b = false := by
  unfold Spec.repeats
  rw [List.flatMap_eq_nil_iff, List.pairwise_iff_getElem]
  constructor
  · intro h i j hi hj hij
    have := h j (by simpa using hj)
    split at this
    · cases this
    · rename_i hn
      rw [List.find?_eq_none] at hn
      have := hn i (by simpa using hij)
      simpa [hi, hj] using this
  · intro h j hj
    have hj : j < l.length := by simpa using hj
    have : ((List.range j).find? fun i =>
        (l[i]?.bind fun a => l[j]?.map fun b => same a b).getD false) = none := by
      rw [List.find?_eq_none]
      intro i hi
      have hi : i < j := by simpa using hi
      have := h i j (by omega) hj hi
      simp [hj, show i < l.length by omega, this]
    rw [this]

theorem objCmp_cstr (x y : Option CStr) : objCmp CStr.cmp x y = true ↔ x = y := by
  cases x <;> cases y <;> simp [objCmp, CStr.cmp_iff]

theorem Pkg.cmp_iff (a b : Pkg) :
    a.cmp b = true ↔ a.name = b.name ∧ a.requires = b.requires ∧ a.type = b.type := by
  rw [← objCmp_cstr, ← objCmp_cstr]
  unfold PyElem.Pkg.cmp
  cases objCmp CStr.cmp a.name b.name <;> cases objCmp CStr.cmp a.requires b.requires <;> simp

theorem Leaf.cmp_equiv : Spec.IsEquiv Leaf.cmp := by
  refine ⟨?_, ?_, ?_⟩
  · rintro (a | a) <;> simp [Leaf.cmp, Pkg.cmp_iff, GroupId.cmp_iff]
  · rintro (a | a) (b | b) <;> simp [Leaf.cmp, Pkg.cmp_iff, GroupId.cmp_iff]
    · rintro h1 h2 h3; exact ⟨h1.symm, h2.symm, h3.symm⟩
    · rintro h1 h2; exact ⟨h1.symm, h2.symm⟩
  · rintro (a | a) (b | b) (c | c) <;> simp [Leaf.cmp, Pkg.cmp_iff, GroupId.cmp_iff]
    · rintro h1 h2 h3 h4 h5 h6; exact ⟨h1.trans h4, h2.trans h5, h3.trans h6⟩
    · rintro h1 h2 h3 h4; exact ⟨h1.trans h3, h2.trans h4⟩

theorem uniqueList_fine {l : List Leaf} (hl : l.length ≤ 10 ^ 9) :
    ∃ v, Val.uniqueList Leaf.cmp () (some l) = .ok v ∧
      (fine v = true ↔ l.Pairwise fun a b => Leaf.cmp a b = false) := by
  obtain ⟨v, h1, h2⟩ := Val.unique_says Leaf.cmp_equiv (fun _ _ => rfl) (.groupId GroupId.create) hl
  rw [← repeats_nil]
  simp only [Val.uniqueList, Option.map, Val.uniqueCheck, bind, Except.bind] at h1
  simp only [Val.uniqueList, Option.map, Val.uniqueCheck, bind, Except.bind]
  cases hms : Val.uniqueLoop Leaf.cmp (Val.placed l) [] 0 (Val.placed l) with
  | error f => rw [hms] at h1; cases h1
  | ok ms =>
  rw [hms] at h1
  dsimp only at h1 ⊢
  cases ms with
  | nil =>
    cases h1
    refine ⟨_, rfl, ?_⟩
    have : Spec.repeats Leaf.cmp l = [] := by simpa [Spec.Says] using h2
    simp [fine, this]
  | cons m ms =>
    cases h1
    refine ⟨_, rfl, ?_⟩
    have : Spec.repeats Leaf.cmp l ≠ [] := by
      intro e; rw [e] at h2; simp [Spec.Says] at h2
    simp [fine, this]

theorem leaves_alike {objs : List Body} : ∀ {items : List Nat} {xs : List Leaf},
    leaves (look objs) items = .ok xs →
      ((xs.Pairwise fun a b => Leaf.cmp a b = false) ↔ items.Pairwise fun a b => ¬ alike objs a b) := by
  have one : ∀ {a : Nat} {x : Leaf}, asLeaf (look objs) a = .ok x →
      (∃ p, x = .pkg p ∧ objs[a]? = some (.pkg p)) ∨ (∃ g, x = .gid g ∧ objs[a]? = some (.gid g)) := by
    intro a x h
    unfold asLeaf look at h
    cases e : objs[a]? with
    | none => rw [e] at h; simp [bind, Except.bind] at h
    | some b =>
      rw [e] at h
      cases b <;> simp [bind, Except.bind] at h
      · exact .inl ⟨_, h.symm, rfl⟩
      · exact .inr ⟨_, h.symm, rfl⟩
  have two : ∀ {a b : Nat} {x y : Leaf}, asLeaf (look objs) a = .ok x → asLeaf (look objs) b = .ok y →
      (Leaf.cmp x y = true ↔ alike objs a b) := by
    intro a b x y h1 h2
    rcases one h1 with ⟨p, rfl, e1⟩ | ⟨p, rfl, e1⟩ <;> rcases one h2 with ⟨p', rfl, e2⟩ | ⟨p', rfl, e2⟩ <;>
      simp [alike, e1, e2, Leaf.cmp, Pkg.cmp_iff, GroupId.cmp_iff]
  have all : ∀ {items : List Nat} {xs : List Leaf}, leaves (look objs) items = .ok xs → ∀ {a : Nat} {x : Leaf},
      asLeaf (look objs) a = .ok x →
      ((∀ y ∈ xs, Leaf.cmp x y = false) ↔ ∀ b ∈ items, ¬ alike objs a b) := by
    intro items
    induction items with
    | nil => intro xs h; cases h; simp
    | cons c cs ih =>
      intro xs h a x ha
      simp only [leaves, bind, Except.bind, pure, Except.pure] at h
      split at h
      · cases h
      rename_i y hy
      split at h
      · cases h
      rename_i ys hys
      cases h
      simp only [List.forall_mem_cons, ih hys ha, ← two ha hy, Bool.not_eq_true]
  intro items
  induction items with
  | nil => intro xs h; cases h; simp
  | cons c cs ih =>
    intro xs h
    simp only [leaves, bind, Except.bind, pure, Except.pure] at h
    split at h
    · cases h
    rename_i y hy
    split at h
    · cases h
    rename_i ys hys
    cases h
    rw [List.pairwise_cons, List.pairwise_cons, ih hys, all hys hy]

theorem listFine_spec {m : Nat} {r : R} (h : Typed lt m r) (hm : m ≤ 1000000000) {a : Nat} {k : LKind}
    (hk : k = .packages ∨ k = .ids) (ha : shapeAt r.objs a = some (false, .list k)) :
    ∃ x, listFine (look r.objs) a = .ok x ∧ (x = true ↔ Distinct r.objs (some a)) := by
  obtain ⟨items, h1, -, h3⟩ := get_list ha
  obtain ⟨hl, hi⟩ := h.body _ _ h1
  obtain ⟨xs, hx, hlx⟩ := leaves_ok hk hi
  obtain ⟨v, hv, hv'⟩ := uniqueList_fine (l := xs) (by omega)
  refine ⟨fine v, by simp only [listFine, h3, hx, hv, bind, Except.bind, pure, Except.pure], ?_⟩
  rw [hv', leaves_alike hx]
  simp [Distinct, itemsAt, h1]

theorem nameFine_spec (s : Option CStr) :
    ∃ x, nameFine s = .ok x ∧ (x = true ↔ named s = true ∨ s = some ⟨none⟩) := by
  unfold nameFine
  cases s with
  | none => exact ⟨false, rfl, by simp [named]⟩
  | some c =>
    obtain ⟨o⟩ := c
    cases o with
    | none => exact ⟨true, rfl, by simp⟩
    | some b =>
      cases b with
      | nil => exact ⟨false, rfl, by simp [named]⟩
      | cons x xs => exact ⟨true, rfl, by simp [named]⟩

theorem passes_spec {m : Nat} {r : R} (h : Typed lt m r) (hm : m ≤ 1000000000) {a : Nat} {t : PType}
    (ht : t.checked = true) (ha : shapeAt r.objs a = some (false, t)) :
    ∃ x, passes (look r.objs) a = .ok x ∧ (x = true ↔ Valid r.objs a ∨ Nameless r.objs a) := by
  cases t <;> simp [PType.checked] at ht
  case package =>
    obtain ⟨p, h1, h2⟩ := get_pkg ha
    simp only [passes, h2, bind, Except.bind, Valid, Nameless, h1]; exact nameFine_spec _
  case groupId =>
    obtain ⟨p, h1, h2⟩ := get_gid ha
    simp only [passes, h2, bind, Except.bind, Valid, Nameless, h1]; exact nameFine_spec _
  case entry k =>
    obtain ⟨p, n, d, l, o, h1, h2, -⟩ := get_entry ha
    obtain ⟨⟨hp, htx⟩, -, -, ⟨l', rfl, hl⟩, ho, ho'⟩ := h.body _ _ h1
    obtain ⟨s, hs, -⟩ := Val.id_str hp
    obtain ⟨x, hx, ix⟩ := nameFine_spec s
    obtain ⟨y, hy, iy⟩ := listFine_spec h hm (k := listType k) (by cases k <;> simp [listType]) hl
    have : ∃ z, optFine (look r.objs) o = .ok z ∧ (z = true ↔ Distinct r.objs o) := by
      by_cases e : k = .environment
      · obtain ⟨o', eo, h5⟩ := ho e
        rw [eo]
        exact listFine_spec h hm (.inr rfl) h5
      · rw [ho' e]; exact ⟨true, rfl, by simp [Distinct]⟩
    obtain ⟨z, hz, iz⟩ := this
    refine ⟨x && y && z, by
      simp only [passes, h2, hs, hx, hy, hz, nonNull, bind, Except.bind, pure, Except.pure], ?_⟩
    have key : (named s = true ∨ s = some ⟨none⟩) ↔
        ∃ c, p.get b!"id" = some (.str c) ∧ named (some c) = true := by
      cases e : p.get b!"id" with
      | none => rw [e] at hs; cases hs; simp [named]
      | some v =>
        rw [e] at hs
        cases v with
        | str c =>
          cases hs
          have : c ≠ ⟨none⟩ := by rintro rfl; exact htx _ e
          simp [this]
        | num n => cases hs
        | list l => cases hs
    simp only [Bool.and_eq_true, ix, iy, iz, key, Valid, Nameless, h1, or_false, and_assoc]

/-! ## Joining a list -/

theorem idOf_spec {m : Nat} {r : R} (h : Typed lt m r) {a : Nat} {k : EKind}
    (ha : shapeAt r.objs a = some (false, .entry k)) :
    ∃ s, idOf (look r.objs) a = .ok s ∧ entryId r.objs a = s.map PVal.str := by
  obtain ⟨p, n, d, l, o, h1, h2, -⟩ := get_entry ha
  obtain ⟨⟨hp, htx⟩, -⟩ := h.body _ _ h1
  obtain ⟨s, hs, -⟩ := Val.id_str hp
  refine ⟨s, by simp only [idOf, h2, bind, Except.bind]; exact hs, ?_⟩
  simp only [entryId, h1]
  cases e : p.get b!"id" with
  | none => rw [e] at hs; cases hs; rfl
  | some v => rw [e] at hs; cases v <;> cases hs; rfl

theorem unique_spec {m : Nat} {r : R} (h : Typed lt m r) {k : EKind} {a : Nat}
    (ha : shapeAt r.objs a = some (false, .entry k)) : ∀ {items : List Nat},
    (∀ a ∈ items, shapeAt r.objs a = some (false, .entry k)) →
    ∃ x, unique (look r.objs) items a = .ok x ∧
      (x = true ↔ ∀ b ∈ items, entryId r.objs b ≠ entryId r.objs a) := by
  obtain ⟨s, hs, es⟩ := idOf_spec h ha
  have loop : ∀ {items : List Nat}, (∀ a ∈ items, shapeAt r.objs a = some (false, .entry k)) →
      ∃ x, uniqueLoop (look r.objs) s items = .ok x ∧
        (x = true ↔ ∀ b ∈ items, entryId r.objs b ≠ entryId r.objs a) := by
    intro items
    induction items with
    | nil => intro _; exact ⟨true, rfl, by simp⟩
    | cons b bs ih =>
      intro hi
      obtain ⟨s', hs', es'⟩ := idOf_spec h (hi b (by simp))
      obtain ⟨x, hx, ix⟩ := ih fun c hc => hi c (by simp [hc])
      simp only [uniqueLoop, hs', bind, Except.bind]
      have inj : ∀ u v : Option CStr, u.map PVal.str = v.map PVal.str ↔ u = v := by
        intro u v; cases u <;> cases v <;> simp
      split
      · rename_i hc
        have := (objCmp_cstr _ _).1 hc
        exact ⟨false, rfl, by simp [es, es', this]⟩
      · rename_i hc
        have : s ≠ s' := fun e => hc ((objCmp_cstr _ _).2 e)
        refine ⟨x, hx, ?_⟩
        rw [ix, List.forall_mem_cons, es, es', Ne, inj]
        simp [Ne.symm this]
  intro items hi
  obtain ⟨x, hx, ix⟩ := loop hi
  exact ⟨x, by simp only [unique, hs, bind, Except.bind]; exact hx, ix⟩


theorem run_typed {pre : List Op} {r : R} {os : List Obs} (hl : pre.length ≤ 1000000000)
    (h : R.run lt utf8 R.start pre = .ok (r, os)) : Typed lt pre.length r := by
  rcases run_outcome (utf8 := utf8) pre (start_typed (lt := lt)) (by omega) with
    ⟨r', os', h2, ht⟩ | ⟨pre', op, post, r', os', f', -, -, -, h2⟩
  · rw [h] at h2; cases h2
    rw [Nat.zero_add] at ht; exact ht
  · rw [h] at h2; cases h2

theorem bound {r : R} {v a : Nat} {t : PType} (ht : r.typeOf v = some t) (ha : r.at? v = some a) :
    ∃ w n d, var r.vars v = some w ∧ r.objs[w]? = some (.wrap t a n d) := by
  unfold R.typeOf at ht
  unfold R.at? at ha
  split at ht
  · cases ht
  rename_i w hw
  rw [hw] at ha
  dsimp only at ha
  split at ht
  · rename_i t' a' n d hb
    cases ht
    rw [hb] at ha
    cases ha
    exact ⟨w, n, d, hw, hb⟩
  · cases ht

theorem bound_type {r : R} {v : Nat} {t : PType} (ht : r.typeOf v = some t) :
    ∃ a w n d, r.at? v = some a ∧ var r.vars v = some w ∧ r.objs[w]? = some (.wrap t a n d) := by
  unfold R.typeOf at ht
  split at ht
  · cases ht
  rename_i w hw
  split at ht
  · rename_i t' a' n d hb
    cases ht
    exact ⟨a', w, n, d, at_some hw hb, hw, hb⟩
  · cases ht

theorem validate_full {m : Nat} {r : R} (h : Typed lt m r) (hm : m ≤ 1000000000) {v a : Nat} {t : PType}
    (ht : r.typeOf v = some t) (ha : r.at? v = some a) (hc : t.checked = true) :
    ∃ o, r.step lt utf8 (.validate v) = .ok (r, o) ∧
      (o = .none ∧ (Valid r.objs a ∨ Nameless r.objs a) ∨
        o = .exc .valueError ∧ ¬ (Valid r.objs a ∨ Nameless r.objs a)) := by
  obtain ⟨w, n, d, hw, hb⟩ := bound ht ha
  obtain ⟨x, hx, ix⟩ := passes_spec h hm hc (h.body _ _ hb).1
  rw [R.step, with1_run hw hb]
  rw [← ix]
  cases t <;> simp [PType.checked] at hc <;>
    simp only [hx, bind, Except.bind, pure, Except.pure] <;>
    exact ⟨_, rfl, by cases x <;> simp⟩

theorem members_of {r : R} {v w l : Nat} {t : PType} {n d : Option Nat} (hw : var r.vars v = some w)
    (hb : r.objs[w]? = some (.wrap t l n d)) : r.members v = itemsAt r.objs l := by
  simp only [R.members, hw, hb, itemsAt]
  cases r.objs[l]? with
  | none => rfl
  | some b => cases b <;> rfl

theorem putIn_full {m : Nat} {r : R} (h : Typed lt m r) (hm : m ≤ 1000000000) {v w l a i : Nat} {k : LKind}
    {n d : Option Nat} (hw : var r.vars v = some w) (hb : r.objs[w]? = some (.wrap (.list k) l n d))
    (ha : shapeAt r.objs a = some (false, k.elem)) :
    ((Valid r.objs a ∨ Nameless r.objs a) → ∃ r1, r.putIn l i a = .ok (r1, .none) ∧
      r1.members v = (r.members v).take i ++ a :: (r.members v).drop i ∧
      (∀ x, x ≠ l → r1.objs[x]? = r.objs[x]?)) ∧
    (¬ (Valid r.objs a ∨ Nameless r.objs a) → r.putIn l i a = .ok (r, .exc .valueError)) := by
  have hl := (h.body _ _ hb).1
  obtain ⟨items, h1, -, h3⟩ := get_list hl
  obtain ⟨x, hx, ix⟩ := passes_spec h hm (t := k.elem) (by cases k <;> rfl) ha
  have hll := (List.getElem?_eq_some_iff.1 h1).1
  have hwl : w ≠ l := by rintro rfl; rw [hb] at h1; cases h1
  refine ⟨fun hv => ?_, fun hv => ?_⟩
  · rw [ix.2 hv] at hx
    refine ⟨r.put l (.list k (items.take i ++ a :: items.drop i)), ?_, ?_, ?_⟩
    · simp only [R.putIn, hx, h3, bind, Except.bind, pure, Except.pure, if_true]
    · have hb' : (r.put l (.list k (items.take i ++ a :: items.drop i))).objs[w]? =
          some (.wrap (.list k) l n d) := by
        rw [R.put, List.getElem?_set, if_neg (Ne.symm hwl)]; exact hb
      rw [members_of (r := r.put l _) hw hb', members_of hw hb]
      have e : (r.put l (.list k (items.take i ++ a :: items.drop i))).objs[l]? =
          some (.list k (items.take i ++ a :: items.drop i)) := by
        rw [R.put, List.getElem?_set, if_pos rfl, if_pos hll]
      simp [itemsAt, h1, e]
    · intro y hy
      rw [R.put, List.getElem?_set, if_neg (Ne.symm hy)]
  · have : x = false := by
      rw [Bool.eq_false_iff]; exact fun e => hv (ix.1 e)
    rw [this] at hx
    simp only [R.putIn, hx, bind, Except.bind, pure, Except.pure]
    rfl

theorem append_full {m : Nat} {r : R} (h : Typed lt m r) (hm : m ≤ 1000000000) {v v2 a l : Nat} {k : LKind}
    (ht : r.typeOf v = some (.list k)) (hl : r.at? v = some l) (ht2 : r.typeOf v2 = some k.elem)
    (ha : r.at? v2 = some a) :
    (Taken r.objs k (r.members v) a → r.step lt utf8 (.append v v2) = .ok (r, .exc .keyError)) ∧
    (¬ Taken r.objs k (r.members v) a → ¬ (Valid r.objs a ∨ Nameless r.objs a) →
      r.step lt utf8 (.append v v2) = .ok (r, .exc .valueError)) ∧
    (¬ Taken r.objs k (r.members v) a → (Valid r.objs a ∨ Nameless r.objs a) →
      ∃ r1, r.step lt utf8 (.append v v2) = .ok (r1, .none) ∧ r1.members v = r.members v ++ [a] ∧
        (∀ x, x ≠ l → r1.objs[x]? = r.objs[x]?)) := by
  obtain ⟨w, n, d, hw, hb⟩ := bound ht hl
  obtain ⟨w2, n2, d2, hw2, hb2⟩ := bound ht2 ha
  have ha2 := (h.body _ _ hb2).1
  obtain ⟨items, h1, -, h3⟩ := get_list (h.body _ _ hb).1
  obtain ⟨hn, hi⟩ := h.body _ _ h1
  have hmem : r.members v = items := by rw [members_of hw hb]; simp [itemsAt, h1]
  have hu : ∃ x, (if k.keyed then unique (look r.objs) items a else .ok true) = .ok x ∧
      (x = true ↔ ¬ Taken r.objs k items a) := by
    have ent : ∀ e, k.keyed = true → k.elem = .entry e →
        ∃ x, (if k.keyed then unique (look r.objs) items a else .ok true) = .ok x ∧
          (x = true ↔ ¬ Taken r.objs k items a) := by
      intro e hk he
      rw [he] at hi ha2
      obtain ⟨x, hx, ix⟩ := unique_spec h ha2 hi
      refine ⟨x, by rw [if_pos hk]; exact hx, ?_⟩
      rw [ix]
      simp [Taken, hk]
    cases k with
    | packages => exact ⟨true, rfl, by simp [Taken, LKind.keyed]⟩
    | ids => exact ⟨true, rfl, by simp [Taken, LKind.keyed]⟩
    | groups => exact ent _ rfl rfl
    | categories => exact ent _ rfl rfl
    | environments => exact ent _ rfl rfl
  obtain ⟨x, hx, ix⟩ := hu
  have hstep : r.step lt utf8 (.append v v2) = if x then r.putIn l items.length a else .ok (r, .exc .keyError) := by
    rw [R.step, R.with2, with1_run hw hb, with1_run hw2 hb2]
    simp only [if_true, R.append, h3, hx, bind, Except.bind, pure, Except.pure]
  rw [hmem, hstep]
  have hp := putIn_full h hm (i := items.length) hw hb ha2
  rw [hmem, List.take_length, List.drop_length] at hp
  refine ⟨fun e => ?_, fun e1 e2 => ?_, fun e1 e2 => ?_⟩
  · have : x = false := by rw [Bool.eq_false_iff]; exact fun e' => ix.1 e' e
    rw [this]; rfl
  · rw [ix.2 e1, if_pos rfl]; exact hp.2 e2
  · rw [ix.2 e1, if_pos rfl]; exact hp.1 e2

end Comps.PyHeap
