import Verif.Spec.ParseLife
import Verif.Lemmas.ParseAny

namespace Comps.Parse
open Comps Comps.Spec Comps.Obj Comps.Text Comps.Xml

/-- What the pointer of a parser is. -/
def docKind : DocPtr → Held
  | .null => .none
  | .live _ => .has
  | .freed => .gone

theorem type_root (n : Bytes) : getType n = .doc ↔ n = b!"comps" := by
  refine forall_names (P := fun n => getType n = .doc ↔ n = b!"comps") (by decide) ?_ n
  intro n hu hn
  rw [hu]
  simp only [typeTable, List.map_cons, List.map_nil, List.mem_cons, List.not_mem_nil, or_false,
    not_or] at hn
  simp [hn]

/-! ## handlers -/

section
variable {α : Type} {cx : Ctx} {sl : Slot (List α)}

theorem entries_kind {p : DocPtr} {r : List α × Doc} (h : entries cx sl p = .ok r) :
    docKind p = .has := by
  cases p with
  | null => cases h
  | freed => cases h
  | live d => rfl

theorem onLast_kind {f : α → Res (α × List LogEntry)} {p p' : DocPtr} {L : List LogEntry}
    (h : onLast cx sl f p = .ok (p', L)) : docKind p' = docKind p := by
  unfold onLast at h
  cases he : entries cx sl p with
  | error x => rw [he] at h; cases h
  | ok r =>
    rw [he] at h
    simp only [bind, Except.bind] at h
    cases hl : lastOf r.1 with
    | error x => rw [hl] at h; cases h
    | ok x =>
      rw [hl] at h
      simp only at h
      cases hf : f x with
      | error x => rw [hf] at h; cases h
      | ok y => rw [hf] at h; cases h; exact (entries_kind he).symm

theorem afterLast_kind {t : Bool} {f : α → Res (α × List LogEntry)} {p : DocPtr} {r : After}
    (h : after t (onLast cx sl f p) = .ok r) : docKind r.doc = docKind p :=
  onLast_kind (after_inv h)

theorem editLast_kind {f : α → Res α} {p p' : DocPtr} (h : editLast cx sl f p = .ok p') :
    docKind p' = docKind p := by
  obtain ⟨L, hL⟩ := editLast_inv h
  exact onLast_kind hL

end

theorem flagText_kind {cx : Ctx} {key : Bytes} {q : Pos} {t : Option Bytes} {p : DocPtr} {r : After}
    (h : flagText cx key q t p = .ok r) : docKind r.doc = docKind p := by
  unfold flagText at h
  split at h
  · exact afterLast_kind h
  · split at h
    · exact afterLast_kind h
    · cases he : entries cx groupsSlot p with
      | error x => rw [he] at h; cases h
      | ok l => rw [he] at h; cases h; exact (entries_kind he).symm

theorem groupidName_kind {cx : Ctx} {t : Option Bytes} {pl : IdPlace} {p p' : DocPtr}
    (h : groupidName cx t pl p = .ok p') : docKind p' = docKind p := by
  cases pl <;> exact editLast_kind h

theorem postproc_kind {cx : Ctx} {e : Elem} {below : List Elem} {q : Pos} {t : Option Bytes}
    {p : DocPtr} {r : After} (h : postproc cx e below q t p = .ok r) : docKind r.doc = docKind p := by
  unfold postproc at h
  have idn : ∀ r, idNameDescPost cx e below q t p = .ok r → docKind r.doc = docKind p := by
    intro r h
    unfold idNameDescPost at h
    cases ha : e.ancestor below with
    | error x => rw [ha] at h; cases h
    | ok a =>
      rw [ha] at h
      simp only [bind, Except.bind] at h
      split at h
      · exact afterLast_kind h
      · split at h <;> exact afterLast_kind h
  split at h
  · exact afterLast_kind h
  · exact afterLast_kind h
  · exact afterLast_kind h
  · exact idn _ h
  · exact idn _ h
  · exact idn _ h
  · exact flagText_kind h
  · exact afterLast_kind h
  · unfold strictFlagPost at h
    split at h
    · cases he : entries cx groupsSlot p with
      | error x => rw [he] at h; cases h
      | ok l => rw [he] at h; cases h
    · exact flagText_kind h
  · unfold strictFlagPost at h
    split at h
    · cases he : entries cx groupsSlot p with
      | error x => rw [he] at h; cases h
      | ok l => rw [he] at h; cases h
    · exact flagText_kind h
  · exact afterLast_kind h
  · unfold packagereqPost at h
    split at h
    · exact afterLast_kind h
    · cases he : entries cx groupsSlot p with
      | error x => rw [he] at h; cases h
      | ok l =>
        rw [he] at h
        simp only [bind, Except.bind] at h
        split at h
        · cases h
        · cases h; exact (entries_kind he).symm
  · unfold grouplistPost at h
    cases ha : e.ancestor below with
    | error x => rw [ha] at h; cases h
    | ok a =>
      rw [ha] at h
      simp only [bind, Except.bind] at h
      split at h <;> exact afterLast_kind h
  · unfold groupidPost at h
    cases ha : idPlace e below with
    | error x => rw [ha] at h; cases h
    | ok a =>
      rw [ha] at h
      simp only [bind, Except.bind] at h
      cases hg : groupidName cx t a p with
      | error x => rw [hg] at h; cases h
      | ok p' => rw [hg] at h; cases h; exact groupidName_kind hg
  · unfold displayOrderPost at h
    cases ha : e.ancestor below with
    | error x => rw [ha] at h; cases h
    | ok a =>
      rw [ha] at h
      simp only [bind, Except.bind] at h
      split at h
      · exact afterLast_kind h
      · split at h <;> exact afterLast_kind h
  · cases h; rfl

theorem docPre_kind {enc : Option Bytes} {p : DocPtr} (h : docPre enc = .ok p) : docKind p = .has := by
  unfold docPre at h
  cases hd : Doc.create (some (some (compsStr enc))) with
  | error x => rw [hd] at h; cases h
  | ok d => rw [hd] at h; cases h; rfl

theorem preproc_kind {cx : Ctx} {enc : Option Bytes} {e : Elem} {below : List Elem} {p p' : DocPtr}
    (h : preproc cx enc e below p = .ok p') (hne : e.type ≠ .doc) : docKind p' = docKind p := by
  unfold preproc at h
  split at h
  · exact absurd (by assumption) hne
  · obtain ⟨d, d', rfl, rfl, -⟩ := entryPre_inv h; rfl
  · obtain ⟨d, d', rfl, rfl, -⟩ := entryPre_inv h; rfl
  · obtain ⟨d, d', rfl, rfl, -⟩ := entryPre_inv h; rfl
  · exact editLast_kind h
  · unfold groupidPre at h
    cases ha : idPlace e below with
    | error x => rw [ha] at h; cases h
    | ok a =>
      rw [ha] at h
      simp only [bind, Except.bind] at h
      cases a <;> exact editLast_kind h
  · obtain ⟨d, d', -, -, rfl, rfl, -⟩ := pairPre_inv h; rfl
  · obtain ⟨d, d', -, -, rfl, rfl, -⟩ := pairPre_inv h; rfl
  · obtain ⟨d, d', -, -, rfl, rfl, -⟩ := pairPre_inv h; rfl
  · cases h; rfl

/-! ## runs -/

theorem step_kind {cx : Ctx} {s s' : Parsed} {e : Pos × Event} (h : step cx s e = .ok s') :
    docKind s'.doc = if IsRoot e.2 then .has else docKind s.doc := by
  obtain ⟨q, e⟩ := e
  cases e with
  | start n attrs =>
    obtain ⟨L, d, -, hd, rfl⟩ := start_inv h
    show docKind d = if n == b!"comps" then _ else _
    unfold openElem at hd
    by_cases hn : n = b!"comps"
    · subst hn
      rw [comps_valid] at hd
      exact docPre_kind hd
    · have ht : (newElem cx s.stack n attrs).type ≠ .doc := fun e => hn ((type_root n).1 e)
      have : (n == b!"comps") = false := beq_false_of_ne hn
      rw [this]
      split at hd
      · exact preproc_kind hd ht
      · cases hd; rfl
  | text c =>
    simp only [step, Except.ok.injEq] at h
    subst h
    unfold charData
    split <;> rfl
  | stop n =>
    obtain ⟨t, e, below, -, hst, h⟩ := end_inv h
    rcases h with ⟨-, d, L, hc, rfl⟩ | ⟨-, rfl⟩
    · show docKind d = docKind s.doc
      unfold closeElem at hc
      split at hc
      · cases hp : postproc cx e below q t s.doc with
        | error f => rw [hp] at hc; cases hc
        | ok r => rw [hp] at hc; cases hc; exact postproc_kind hp
      · cases hc; rfl
    · rfl
  | doctype n sy pu =>
    simp only [step, Except.ok.injEq] at h
    subst h
    rfl

theorem lostBy_eq (s : Parsed) (e : Event) :
    lostBy s e = if IsRoot e = true ∧ docKind s.doc = .has then 1 else 0 := by
  cases e with
  | start n attrs =>
    unfold lostBy IsRoot
    have : (getType n == ElemType.doc) = (n == b!"comps") := by
      rw [Bool.eq_iff_iff, beq_iff_eq, beq_iff_eq]; exact type_root n
    cases s.doc <;> simp [docKind, this]
  | text c => simp [lostBy, IsRoot]
  | stop n => simp [lostBy, IsRoot]
  | doctype n sy pu => simp [lostBy, IsRoot]

/-- The account after calls of handlers. -/
theorem steps_account {cx : Ctx} : ∀ {es : List (Pos × Event)} {s s' : Parsed} (n : Nat),
    steps cx s es = .ok s' →
    (⟨docKind s'.doc, n + lostIn cx s es⟩ : Account) = Account.read ⟨docKind s.doc, n⟩ es
  | [], s, s', n, h => by cases h; rfl
  | e :: es, s, s', n, h => by
    rw [steps_cons] at h
    cases h1 : step cx s e with
    | error f => rw [h1] at h; cases h
    | ok s1 =>
      rw [h1] at h
      have ih := steps_account (n + lostBy s e.2) h
      have hk := step_kind h1
      have hl : lostIn cx s (e :: es) = lostBy s e.2 + lostIn cx s1 es := by
        simp only [lostIn, h1]
      rw [hl, ← Nat.add_assoc, ih, hk]
      have hr : roots (e :: es) = roots es + if IsRoot e.2 then 1 else 0 := by
        simp [roots, List.countP_cons]
      have hb := lostBy_eq s e.2
      unfold Account.read
      cases hR : IsRoot e.2 with
      | false =>
        rw [hR] at hr hb
        simp only [Bool.false_eq_true, false_and, if_false, Nat.add_zero] at hb hr ⊢
        rw [hr, hb, Nat.add_zero]
      | true =>
        rw [hR] at hr hb
        simp only [true_and, if_true] at hb hr ⊢
        rw [hr, hb, if_neg (Nat.succ_ne_zero _)]
        by_cases h0 : roots es = 0
        · rw [if_pos h0, h0]; rfl
        · rw [if_neg h0]
          simp only [Account.mk.injEq, true_and]
          omega

theorem feed_inv {cx : Ctx} {c : Chunk} {s s' : Parsed} (h : feed cx s c = .ok s') :
    ∃ s1, steps cx s c.events = .ok s1 ∧ s'.doc = s1.doc ∧ s'.textLen = s1.textLen ∧
      s'.textBuffer = s1.textBuffer := by
  unfold feed at h
  cases h1 : steps cx s c.events with
  | error f => rw [h1] at h; cases h
  | ok s1 =>
    rw [h1] at h
    cases h2 : c.error with
    | none =>
      simp only [bind, Except.bind, h2, Except.ok.injEq] at h
      subst h
      exact ⟨s1, rfl, rfl, rfl, rfl⟩
    | some x =>
      simp only [bind, Except.bind, h2, Except.ok.injEq] at h
      subst h
      exact ⟨s1, rfl, rfl, rfl, rfl⟩

theorem read_append (a : Account) (es es' : List (Pos × Event)) :
    a.read (es ++ es') = (a.read es).read es' := by
  unfold Account.read
  have : roots (es ++ es') = roots es + roots es' := by simp [roots]
  rw [this]
  by_cases h : roots es = 0
  · rw [if_pos h, h, Nat.zero_add]
  · rw [if_neg h, if_neg (by omega)]
    by_cases h' : roots es' = 0
    · rw [if_pos h', h']; rfl
    · rw [if_neg h']
      simp only [Account.mk.injEq, true_and, if_true]
      omega

theorem feeds_account {cx : Ctx} : ∀ {cs : List Chunk} {s s' : Parsed} (n : Nat),
    cs.foldlM (feed cx) s = .ok s' →
    (⟨docKind s'.doc, n + lostFeeds cx s cs⟩ : Account) = Account.read ⟨docKind s.doc, n⟩ (inputOf cs)
  | [], s, s', n, h => by cases h; rfl
  | c :: cs, s, s', n, h => by
    rw [List.foldlM_cons] at h
    cases h1 : feed cx s c with
    | error f => rw [h1] at h; cases h
    | ok s1 =>
      rw [h1] at h
      obtain ⟨s2, k1, k2, -⟩ := feed_inv h1
      have ih := feeds_account (n + lostIn cx s c.events) h
      have h3 := steps_account n k1
      have hl : lostFeeds cx s (c :: cs) = lostIn cx s c.events + lostFeeds cx s1 cs := by
        simp only [lostFeeds, h1]
      have hi : inputOf (c :: cs) = c.events ++ inputOf cs := by simp [inputOf]
      rw [hl, ← Nat.add_assoc, ih, hi, read_append, ← h3, k2]

theorem afterParse_kind {s s' : Parsed} (h : afterParse s = .ok s') : docKind s'.doc = docKind s.doc := by
  unfold afterParse at h
  split at h
  · cases h; rfl
  · split at h
    · cases h; rfl
    · cases h
    · rename_i d hd
      cases h
      rw [hd]; rfl

theorem reinit_kind {s s' : Parsed} (n : Nat) (h : reinit s = .ok s') :
    (⟨docKind s'.doc, n⟩ : Account) = Account.reset ⟨docKind s.doc, n⟩ ∧ docKind s.doc ≠ .gone := by
  unfold reinit at h
  cases hd : s.doc with
  | null => simp only [hd] at h; cases h; exact ⟨rfl, nofun⟩
  | freed => simp only [hd] at h; cases h
  | live d =>
    simp only [hd] at h
    cases hx : Doc.destroy d with
    | error f => rw [hx] at h; cases h
    | ok u => rw [hx] at h; cases h; exact ⟨rfl, nofun⟩

theorem parseStr_inv {cx : Ctx} {s : Parsed} {c : Chunk} {r : Int × Parsed}
    (h : parseStr cx s c = .ok r) : ∃ s1, feed cx s c = .ok s1 ∧ afterParse s1 = .ok r.2 := by
  unfold parseStr at h
  cases h1 : feed cx s c with
  | error f => rw [h1] at h; cases h
  | ok s1 =>
    rw [h1] at h
    simp only [bind, Except.bind] at h
    cases h2 : afterParse s1 with
    | error f => rw [h2] at h; cases h
    | ok s2 => rw [h2] at h; cases h; exact ⟨s1, rfl, h2⟩

/-- A use, taken apart. -/
theorem use_inv {s s' : Parsed} {u : Use} {k : Nat} (h : u.run s = .ok (s', k)) :
    (∃ cx cs s0 s1, u = .file cx (some cs) ∧ reinit s = .ok s0 ∧ cs.foldlM (feed cx) s0 = .ok s1 ∧
      afterParse s1 = .ok s' ∧ k = lostFeeds cx s0 cs) ∨
    (∃ cx, u = .file cx none ∧ s' = { addLog s 18 [] with fatal := true } ∧ k = 0) ∨
    (∃ cx c s1, u = .str cx c ∧ feed cx s c = .ok s1 ∧ afterParse s1 = .ok s' ∧
      k = lostIn cx s c.events) ∨
    (u = .take ∧ s' = takeDoc s ∧ k = 0) := by
  cases u with
  | file cx f =>
    cases f with
    | none => cases h; exact .inr (.inl ⟨cx, rfl, rfl, rfl⟩)
    | some cs =>
      simp only [Use.run] at h
      cases hp : parseFile cx s (some cs) with
      | error x => rw [hp] at h; cases h
      | ok r =>
        rw [hp] at h
        obtain ⟨s0, s1, h0, h1, h2, -⟩ := parseFile_inv hp
        simp only [bind, Except.bind, h0] at h
        cases h
        exact .inl ⟨cx, cs, s0, s1, rfl, h0, h1, h2, rfl⟩
  | str cx c =>
    simp only [Use.run] at h
    cases hp : parseStr cx s c with
    | error x => rw [hp] at h; cases h
    | ok r =>
      rw [hp] at h
      obtain ⟨s1, h1, h2⟩ := parseStr_inv hp
      cases h
      exact .inr (.inr (.inl ⟨cx, c, s1, rfl, h1, h2, rfl⟩))
  | take => cases h; exact .inr (.inr (.inr ⟨rfl, rfl, rfl⟩))

theorem use_account {s s' : Parsed} {u : Use} {k : Nat} (n : Nat) (h : u.run s = .ok (s', k)) :
    (⟨docKind s'.doc, n + k⟩ : Account) = Account.use ⟨docKind s.doc, n⟩ u := by
  rcases use_inv h with ⟨cx, cs, s0, s1, rfl, h0, h1, h2, rfl⟩ | ⟨cx, rfl, rfl, rfl⟩ |
    ⟨cx, c, s1, rfl, h1, h2, rfl⟩ | ⟨rfl, rfl, rfl⟩
  · rw [afterParse_kind h2, feeds_account n h1, (reinit_kind n h0).1]; rfl
  · rfl
  · obtain ⟨s2, k1, k2, -⟩ := feed_inv h1
    rw [afterParse_kind h2, k2, steps_account n k1]; rfl
  · rfl

theorem uses_account : ∀ {us : List Use} {s s' : Parsed} {k : Nat} (n : Nat),
    runUses s us = .ok (s', k) →
    (⟨docKind s'.doc, n + k⟩ : Account) = us.foldl Account.use ⟨docKind s.doc, n⟩
  | [], s, s', k, n, h => by cases h; rfl
  | u :: us, s, s', k, n, h => by
    unfold runUses at h
    cases h1 : u.run s with
    | error x => rw [h1] at h; cases h
    | ok r =>
      rw [h1] at h
      obtain ⟨s1, k1⟩ := r
      simp only [bind, Except.bind] at h
      cases h2 : runUses s1 us with
      | error x => rw [h2] at h; cases h
      | ok r' =>
        rw [h2] at h
        obtain ⟨s2, k2⟩ := r'
        cases h
        rw [List.foldl_cons, ← use_account n h1, ← uses_account (n + k1) h2, Nat.add_assoc]

/-- What all uses keep. -/
theorem use_any {lt : UInt8 → UInt8 → Bool} {enc : Option Bytes} {s s' : Parsed} {u : Use} {k : Nat}
    (hu : Use.Lt lt u) (hs : AnyInv lt enc s) (h : u.run s = .ok (s', k)) : AnyInv lt enc s' := by
  rcases use_inv h with ⟨cx, cs, s0, s1, rfl, h0, h1, h2, rfl⟩ | ⟨cx, rfl, rfl, rfl⟩ |
    ⟨cx, c, s1, rfl, h1, h2, rfl⟩ | ⟨rfl, rfl, rfl⟩
  · exact (afterParse_any (feeds_any hu (reinit_any hs h0).1 h1) h2).1
  · exact ⟨hs.coding, hs.doc, hs.doctype⟩
  · exact (afterParse_any (feed_any hu hs h1).1 h2).1
  · exact ⟨hs.coding, fun _ h => by (cases h), hs.doctype⟩

theorem uses_any {lt : UInt8 → UInt8 → Bool} {enc : Option Bytes} : ∀ {us : List Use}
    {s s' : Parsed} {k : Nat}, (∀ u ∈ us, Use.Lt lt u) → AnyInv lt enc s →
    runUses s us = .ok (s', k) → AnyInv lt enc s'
  | [], s, s', k, _, hs, h => by cases h; exact hs
  | u :: us, s, s', k, hu, hs, h => by
    unfold runUses at h
    cases h1 : u.run s with
    | error x => rw [h1] at h; cases h
    | ok r =>
      rw [h1] at h
      obtain ⟨s1, k1⟩ := r
      simp only [bind, Except.bind] at h
      cases h2 : runUses s1 us with
      | error x => rw [h2] at h; cases h
      | ok r' =>
        rw [h2] at h
        obtain ⟨s2, k2⟩ := r'
        cases h
        exact uses_any (fun u h => hu u (.tail _ h)) (use_any (hu u (.head _)) hs h1) h2

theorem new_any (lt : UInt8 → UInt8 → Bool) (enc : Option Bytes) : AnyInv lt enc (init enc) :=
  ⟨rfl, fun _ h => by (cases h), .inl ⟨rfl, rfl, rfl⟩⟩

theorem destroy_any {lt : UInt8 → UInt8 → Bool} {enc : Option Bytes} {s : Parsed} {d : Doc}
    (hs : AnyInv lt enc s) (hd : s.doc = .live d) : Doc.destroy d = .ok () := by
  have := (hs.doc d hd).2.1.2.1
  simp [Doc.destroy, this]

/-! ## input before `<comps>` -/

theorem step_before {cx : Ctx} {s : Parsed} {e : Pos × Event} (p : DocPtr)
    (hs : ∀ x ∈ s.stack, x.valid = false) (he : IsRoot e.2 = false) :
    step cx { s with doc := p } e = (step cx s e).map (fun r => { r with doc := p }) ∧
    ∀ s', step cx s e = .ok s' → ∀ x ∈ s'.stack, x.valid = false := by
  obtain ⟨q, e⟩ := e
  cases e with
  | start n attrs =>
    have hn : n ≠ b!"comps" := by
      intro e; subst e; cases he
    have hv : (newElem cx s.stack n attrs).valid = false := by
      have ht : getType n ≠ .doc := fun e => hn ((type_root n).1 e)
      unfold newElem
      simp only
      split
      · split
        · rfl
        · rename_i top st hst
          have := hs top (by rw [hst]; exact .head _)
          simp [this]
      · rename_i hask
        revert hask ht
        cases getType n <;> simp [ancestors]
    refine ⟨?_, ?_⟩
    · have hdt : dropText { s with doc := p } = { dropText s with doc := p } := by
        unfold dropText; simp only; split <;> rfl
      simp only [step, startElem, openElem, hv, bind, Except.bind, hdt]
      cases checkAttributes cx (newElem cx s.stack n attrs) q with
      | error f => rfl
      | ok L => rfl
    · intro s' h
      obtain ⟨L, d, -, hd, rfl⟩ := start_inv h
      intro x hx
      rcases List.mem_cons.1 hx with rfl | hx
      · exact hv
      · exact hs x hx
  | text c =>
    refine ⟨?_, ?_⟩
    · simp only [step, charData]
      split <;> rfl
    · intro s' h
      simp only [step, Except.ok.injEq] at h
      subst h
      unfold charData
      split <;> exact hs
  | stop n =>
    refine ⟨?_, ?_⟩
    · have hct : collectText { s with doc := p } = collectText s := rfl
      simp only [step, endElem, hct, bind, Except.bind]
      cases collectText s with
      | error f => rfl
      | ok t =>
        simp only
        cases hst : s.stack with
        | nil => rfl
        | cons e below =>
          have hv := hs e (by rw [hst]; exact .head _)
          simp only [closeElem, hv, Bool.false_eq_true, if_false]
          split <;> rfl
    · intro s' h
      obtain ⟨t, e, below, -, hst, h⟩ := end_inv h
      rcases h with ⟨-, d, L, hc, rfl⟩ | ⟨-, rfl⟩
      · intro x hx
        exact hs x (by rw [hst]; exact .tail _ hx)
      · exact hs
  | doctype n sy pu =>
    refine ⟨rfl, ?_⟩
    intro s' h
    simp only [step, Except.ok.injEq] at h
    subst h
    exact hs

theorem step_root {cx : Ctx} {s : Parsed} {e : Pos × Event} (p : DocPtr) (he : IsRoot e.2 = true) :
    step cx { s with doc := p } e = step cx s e := by
  obtain ⟨q, e⟩ := e
  cases e with
  | start n attrs =>
    have hn : n = b!"comps" := by simpa [IsRoot] using he
    subst hn
    have hdt : dropText { s with doc := p } = { dropText s with doc := p } := by
      unfold dropText; simp only; split <;> rfl
    have hpre : ∀ p, openElem cx s.enc (newElem cx s.stack b!"comps" attrs) s.stack p =
        docPre s.enc := by
      intro p
      unfold openElem
      rw [comps_valid]
      rfl
    simp only [step, startElem, hpre, hdt]
  | text c => cases he
  | stop n => cases he
  | doctype n sy pu => cases he

theorem steps_before {cx : Ctx} (p : DocPtr) : ∀ {es : List (Pos × Event)} {s : Parsed},
    (∀ x ∈ s.stack, x.valid = false) →
    (roots es = 0 → steps cx { s with doc := p } es = (steps cx s es).map (fun r => { r with doc := p }) ∧
      ∀ s', steps cx s es = .ok s' → ∀ x ∈ s'.stack, x.valid = false) ∧
    (roots es ≠ 0 → steps cx { s with doc := p } es = steps cx s es)
  | [], s, hs => ⟨fun _ => ⟨rfl, fun s' h => by cases h; exact hs⟩, fun h => absurd rfl h⟩
  | e :: es, s, hs => by
    have hr : roots (e :: es) = roots es + if IsRoot e.2 then 1 else 0 := by
      simp [roots, List.countP_cons]
    rw [steps_cons, steps_cons, hr]
    cases hR : IsRoot e.2 with
    | true =>
      refine ⟨fun h => by simp at h, fun _ => ?_⟩
      rw [step_root p hR]
    | false =>
      obtain ⟨h1, h2⟩ := step_before (cx := cx) p hs hR
      rw [h1]
      cases h3 : step cx s e with
      | error f => exact ⟨fun _ => ⟨rfl, fun _ h => by cases h⟩, fun _ => rfl⟩
      | ok s1 =>
        simp only [Bool.false_eq_true, if_false, Nat.add_zero]
        exact steps_before p (h2 s1 h3)

theorem feed_before {cx : Ctx} (p : DocPtr) {c : Chunk} {s : Parsed}
    (hs : ∀ x ∈ s.stack, x.valid = false) :
    (roots c.events = 0 → feed cx { s with doc := p } c =
        (feed cx s c).map (fun r => { r with doc := p }) ∧
      ∀ s', feed cx s c = .ok s' → ∀ x ∈ s'.stack, x.valid = false) ∧
    (roots c.events ≠ 0 → feed cx { s with doc := p } c = feed cx s c) := by
  obtain ⟨h1, h2⟩ := steps_before (cx := cx) p (es := c.events) hs
  refine ⟨fun h => ?_, fun h => ?_⟩
  · obtain ⟨h3, h4⟩ := h1 h
    unfold feed
    rw [h3]
    cases h5 : steps cx s c.events with
    | error f => exact ⟨rfl, fun _ h => by cases h⟩
    | ok s1 =>
      simp only [Except.map, bind, Except.bind]
      cases c.error with
      | none =>
        refine ⟨rfl, fun s' h => ?_⟩
        cases h
        exact h4 _ h5
      | some x =>
        refine ⟨rfl, fun s' h => ?_⟩
        cases h
        exact h4 s1 h5
  · unfold feed
    rw [h2 h]

/-- Until the first `<comps>` nothing looks at the document, and it makes a new one. -/
theorem feeds_before {cx : Ctx} (p : DocPtr) : ∀ {cs : List Chunk} {s : Parsed},
    (∀ x ∈ s.stack, x.valid = false) → roots (inputOf cs) ≠ 0 →
    cs.foldlM (feed cx) { s with doc := p } = cs.foldlM (feed cx) s
  | [], s, hs, h => absurd rfl h
  | c :: cs, s, hs, h => by
    have hi : roots (inputOf (c :: cs)) = roots c.events + roots (inputOf cs) := by
      simp [inputOf, roots]
    rw [hi] at h
    rw [List.foldlM_cons, List.foldlM_cons]
    obtain ⟨h1, h2⟩ := feed_before (cx := cx) p (c := c) hs
    by_cases h0 : roots c.events = 0
    · obtain ⟨h3, h4⟩ := h1 h0
      rw [h3]
      cases h5 : feed cx s c with
      | error f => rfl
      | ok s1 => exact feeds_before p (h4 s1 h5) (by omega)
    · rw [h2 h0]

/-- Without `<comps>` nothing looks at the document. -/
theorem feeds_none {cx : Ctx} (p : DocPtr) : ∀ {cs : List Chunk} {s : Parsed},
    (∀ x ∈ s.stack, x.valid = false) → roots (inputOf cs) = 0 →
    cs.foldlM (feed cx) { s with doc := p } =
      (cs.foldlM (feed cx) s).map (fun r => { r with doc := p })
  | [], s, hs, h => rfl
  | c :: cs, s, hs, h => by
    have hi : roots (inputOf (c :: cs)) = roots c.events + roots (inputOf cs) := by
      simp [inputOf, roots]
    rw [hi] at h
    rw [List.foldlM_cons, List.foldlM_cons]
    obtain ⟨h3, h4⟩ := (feed_before (cx := cx) p (c := c) hs).1 (by omega)
    rw [h3]
    cases h5 : feed cx s c with
    | error f => rfl
    | ok s1 => exact feeds_none p (h4 s1 h5) (by omega)

/-! ## pending text -/

/-- The length of the buffered text is known, and no piece is empty. -/
def BufOk (s : Parsed) : Prop :=
  s.textLen = s.textBuffer.flatten.length ∧ ∀ c ∈ s.textBuffer, c ≠ []

theorem step_buf {cx : Ctx} {s s' : Parsed} {e : Pos × Event} (hs : BufOk s)
    (h : step cx s e = .ok s') : BufOk s' := by
  obtain ⟨q, e⟩ := e
  cases e with
  | start n attrs =>
    obtain ⟨L, d, -, hd, rfl⟩ := start_inv h
    unfold BufOk dropText at *
    simp only
    cases hb : s.textBuffer with
    | nil => rw [hb] at hs; simpa [hb] using hs.1
    | cons => simp
  | text c =>
    simp only [step, Except.ok.injEq] at h
    subst h
    unfold charData
    split
    · exact hs
    · rename_i hb
      refine ⟨by simp [hs.1], ?_⟩
      intro x hx
      rcases List.mem_append.1 hx with hx | hx
      · exact hs.2 x hx
      · rcases List.mem_singleton.1 hx with rfl
        rintro rfl
        exact hb rfl
  | stop n =>
    obtain ⟨t, e, below, -, hst, h⟩ := end_inv h
    rcases h with ⟨-, d, L, hc, rfl⟩ | ⟨-, rfl⟩ <;> exact ⟨rfl, nofun⟩
  | doctype n sy pu =>
    simp only [step, Except.ok.injEq] at h
    subst h
    exact hs

theorem steps_buf {cx : Ctx} : ∀ {es : List (Pos × Event)} {s s' : Parsed}, BufOk s →
    steps cx s es = .ok s' → BufOk s'
  | [], s, s', hs, h => by cases h; exact hs
  | e :: es, s, s', hs, h => by
    rw [steps_cons] at h
    cases h1 : step cx s e with
    | error f => rw [h1] at h; cases h
    | ok s1 => rw [h1] at h; exact steps_buf (step_buf hs h1) h

theorem feeds_text {cx : Ctx} (es' : List (Pos × Event)) : ∀ {cs : List Chunk} {s s' : Parsed},
    BufOk s → s.textBuffer = openText es' → cs.foldlM (feed cx) s = .ok s' →
    BufOk s' ∧ s'.textBuffer = openText (es' ++ inputOf cs)
  | [], s, s', hs, hb, h => by cases h; exact ⟨hs, by simpa [inputOf] using hb⟩
  | c :: cs, s, s', hs, hb, h => by
    rw [List.foldlM_cons] at h
    cases h1 : feed cx s c with
    | error f => rw [h1] at h; cases h
    | ok s1 =>
      rw [h1] at h
      obtain ⟨s2, k1, -, k3, k4⟩ := feed_inv h1
      have hi : inputOf (c :: cs) = c.events ++ inputOf cs := by simp [inputOf]
      have hb1 : s1.textBuffer = openText (es' ++ c.events) := k4.trans (steps_openText hb k1)
      have h2 : BufOk s2 := steps_buf hs k1
      rw [hi, ← List.append_assoc]
      exact feeds_text (es' ++ c.events) ⟨by rw [k3, k4]; exact h2.1, by rw [k4]; exact h2.2⟩ hb1 h

theorem afterParse_text {s s' : Parsed} (h : afterParse s = .ok s') :
    s'.textLen = s.textLen ∧ s'.textBuffer = s.textBuffer := by
  unfold afterParse at h
  split at h
  · cases h; exact ⟨rfl, rfl⟩
  · split at h
    · cases h; exact ⟨rfl, rfl⟩
    · cases h
    · cases h; exact ⟨rfl, rfl⟩

theorem reinit_text {s s' : Parsed} (h : reinit s = .ok s') :
    s'.textLen = s.textLen ∧ s'.textBuffer = [] := by
  unfold reinit at h
  cases hd : s.doc with
  | null => simp only [hd] at h; cases h; exact ⟨rfl, rfl⟩
  | freed => simp only [hd] at h; cases h
  | live d =>
    simp only [hd] at h
    cases hx : Doc.destroy d with
    | error f => rw [hx] at h; cases h
    | ok u => rw [hx] at h; cases h; exact ⟨rfl, rfl⟩

theorem use_text {s s' : Parsed} {u : Use} {k : Nat} (hu : Use.Tidy u)
    (hs : s.textLen = 0 ∧ s.textBuffer = []) (h : u.run s = .ok (s', k)) :
    s'.textLen = 0 ∧ s'.textBuffer = [] := by
  have fin : ∀ {s1 s' : Parsed}, BufOk s1 → s1.textBuffer = [] → afterParse s1 = .ok s' →
      s'.textLen = 0 ∧ s'.textBuffer = [] := by
    intro s1 s' h1 h2 h3
    rw [(afterParse_text h3).1, (afterParse_text h3).2, h1.1, h2]
    exact ⟨rfl, rfl⟩
  rcases use_inv h with ⟨cx, cs, s0, s1, rfl, h0, h1, h2, rfl⟩ | ⟨cx, rfl, rfl, rfl⟩ |
    ⟨cx, c, s1, rfl, h1, h2, rfl⟩ | ⟨rfl, rfl, rfl⟩
  · have h3 : s0.textLen = 0 ∧ s0.textBuffer = [] := by
      rw [(reinit_text h0).1, (reinit_text h0).2]; exact ⟨hs.1, rfl⟩
    obtain ⟨h4, h5⟩ := feeds_text [] ⟨by rw [h3.1, h3.2]; rfl, by rw [h3.2]; nofun⟩ h3.2 h1
    exact fin h4 (h5.trans hu) h2
  · exact hs
  · obtain ⟨s2, k1, -, k3, k4⟩ := feed_inv h1
    have h4 : BufOk s2 := steps_buf ⟨by rw [hs.1, hs.2]; rfl, by rw [hs.2]; nofun⟩ k1
    have h5 : s2.textBuffer = openText ([] ++ c.events) := steps_openText hs.2 k1
    exact fin ⟨by rw [k3, k4]; exact h4.1, by rw [k4]; exact h4.2⟩ (k4.trans (h5.trans hu)) h2
  · exact hs

theorem uses_text : ∀ {us : List Use} {s s' : Parsed} {k : Nat}, (∀ u ∈ us, Use.Tidy u) →
    (s.textLen = 0 ∧ s.textBuffer = []) → runUses s us = .ok (s', k) →
    s'.textLen = 0 ∧ s'.textBuffer = []
  | [], s, s', k, _, hs, h => by cases h; exact hs
  | u :: us, s, s', k, hu, hs, h => by
    unfold runUses at h
    cases h1 : u.run s with
    | error x => rw [h1] at h; cases h
    | ok r =>
      rw [h1] at h
      obtain ⟨s1, k1⟩ := r
      simp only [bind, Except.bind] at h
      cases h2 : runUses s1 us with
      | error x => rw [h2] at h; cases h
      | ok r' =>
        rw [h2] at h
        obtain ⟨s2, k2⟩ := r'
        cases h
        exact uses_text (fun u h => hu u (.tail _ h)) (use_text (hu u (.head _)) hs h1) h2

/-- The reset of a parser without pending text. -/
theorem reinit_new {lt : UInt8 → UInt8 → Bool} {enc : Option Bytes} {s : Parsed}
    (hs : AnyInv lt enc s) (ht : s.textLen = 0) :
    (docKind s.doc = .none → reinit s = .ok (init enc)) ∧
    (docKind s.doc = .has → reinit s = .ok { init enc with doc := .freed }) ∧
    (docKind s.doc = .gone → reinit s = .error .useAfterFree) := by
  have he := hs.coding
  have hdd := fun d h => destroy_any (d := d) hs h
  obtain ⟨st, doc, tb, tl, lg, ft, en, dn, ds, dp⟩ := s
  simp only at ht he hdd
  subst ht he
  cases doc with
  | null => exact ⟨fun _ => rfl, nofun, nofun⟩
  | freed => exact ⟨nofun, nofun, fun _ => rfl⟩
  | live d =>
    refine ⟨nofun, fun _ => ?_, nofun⟩
    have := hdd d rfl
    simp only [reinit, this]
    rfl

end Comps.Parse
