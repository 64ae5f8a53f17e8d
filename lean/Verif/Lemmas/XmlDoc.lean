import Verif.Lemmas.Xml
import Verif.Lemmas.Doc

/-!
# Whole documents: lemmas for C27, C42 and C58
-/

namespace Comps.Xml
open Comps Comps.Spec Comps.Obj Comps.Text

variable {lt : UInt8 → UInt8 → Bool}

/-- A block as it is written: the counter of the dictionary decides. -/
def blk (block tag key value : Bytes) (len : Int) (its : List (Bytes × Bytes)) : List Tree :=
  if len = 0 then [] else [.elem block [] (its.map fun e => .elem tag [(key, e.1), (value, e.2)] [])]

theorem blk_eq {block tag key value : Bytes} {len : Int} {its : List (Bytes × Bytes)}
    (hl : len = 0 ↔ its = []) : blk block tag key value len its = blockTree block tag key value its := by
  unfold blk blockTree
  by_cases h : its = []
  · rw [if_pos (hl.2 h), if_pos h]
  · rw [if_neg (fun e => h (hl.1 e)), if_neg h]

theorem blk_ok {block tag key value : Bytes} {len : Int} {items : List (Bytes × Res Bytes)}
    {its : List (Bytes × Bytes)} (hi : items = its.map fun e => (e.1, .ok e.2)) (k : M Int) {s : St}
    (hc : Calm s) :
    xmlBlock block tag key value len items k s = k (emit s (blk block tag key value len its)) := by
  unfold xmlBlock blk
  by_cases h : len = 0
  · rw [if_neg (by simp [h]), if_pos h, emit_nil]
  · rw [if_pos h, if_neg h, bind_ok (start_ok hc _), check_true]
    have ht := InTag.start (s := s) block
    rw [hi, pairs_ok _ _ _ _ _ (by exact hc)]
    rw [bind_ok (end_ok (by exact hc) (emit_open ht.open _)), check_true]
    have := emit_elem s block [] (its.map fun e => .elem tag [(key, e.1), (value, e.2)] [])
    rw [attrs_nil] at this
    rw [this]

/-- The tree written for a document with this content. -/
def written (o : Options) (d : Defaults) (c : DocContent) : Tree :=
  .elem b!"comps" []
    ((c.groups.filter (groupShown o)).map (groupTree o d) ++
      (c.categories.filter (categoryShown o)).map (categoryTree o) ++
      (c.environments.filter (envShown o)).map (envTree o) ++
      blk b!"langpacks" b!"match" b!"name" b!"install" c.langpacks.len (packItems c.langpacks) ++
      blk b!"blacklist" b!"package" b!"name" b!"arch" c.blacklist.len (multiItems c.blacklist) ++
      blk b!"whiteout" b!"ignoredep" b!"requires" b!"package" c.whiteout.len (multiItems c.whiteout))

theorem written_eq {o : Options} {d : Defaults} {c : DocContent} (h : Counted c) :
    written o d c = docTree o d c := by
  unfold written docTree
  rw [blk_eq (by simpa using h.langpacks), blk_eq (by simpa using h.blacklist),
    blk_eq (by simpa using h.whiteout)]

theorem getPart_ok {α : Type} {s : Slot α} {C : α → Prop} {get : DocContent → α}
    {pt : DocContent → α → DocContent} (hp : Placed lt s C get pt) {d : Doc}
    (h : ObjsInv lt d.objects) : ∃ d', (∀ st : St, getPart lt s d st = .ok ((get (content d), d'), st)) ∧
      ObjsInv lt d'.objects ∧ content d' = content d := by
  obtain ⟨d', h1, h2, h3, -⟩ := hp.getObj h
  exact ⟨d', fun st => by unfold getPart; rw [h1]; rfl, h2, h3⟩

theorem packItems_built {t : RTree PVal} (h : LangBuilt lt t) :
    (t.pairs.map fun e => (e.1, valText e.2)) = (packItems t).map fun e => (e.1, .ok e.2) :=
  packItems_eq (lang_str (langBuilt_inv h))

theorem doc_ok {o : Options} {df : Defaults} {d : Doc} (hd : ObjsInv lt d.objects) (hdt : DoctypeOk d)
    (hw : Writable (content d)) {s : St} (hc : Calm s) (ho : s.opened = [])
    (hl : s.logSet = true ∨ leftOut o (content d) = []) :
    xmlDoc lt o df d s = .ok (addRet 0 (leftOut o (content d)).length,
      addLog (emit (put s (doctypeCalls d)) [written o df (content d)])
        ((leftOut o (content d)).map skipEntry)) := by
  obtain ⟨n, hn, hne⟩ := hdt.name
  obtain ⟨p, hp⟩ := hdt.pubid
  obtain ⟨y, hy⟩ := hdt.sysid
  obtain ⟨xg, xc, xe, xl, xb, xw⟩ := contents_built hd
  obtain ⟨d1, g1, i1, c1⟩ := getPart_ok groupsAt hd
  obtain ⟨d2, g2, i2, c2⟩ := getPart_ok categoriesAt i1
  obtain ⟨d3, g3, i3, c3⟩ := getPart_ok environmentsAt i2
  obtain ⟨d4, g4, i4, c4⟩ := getPart_ok langpacksAt i3
  obtain ⟨d5, g5, i5, c5⟩ := getPart_ok blacklistAt i4
  obtain ⟨d6, g6, i6, c6⟩ := getPart_ok whiteoutAt i5
  rw [c1] at g2 c2; rw [c2] at g3 c3; rw [c3] at g4 c4; rw [c4] at g5 c5; rw [c5] at g6
  have hlog : ∀ {α : Type} {l : List α} {sh : α → Bool} {idf : α → Option PVal},
      ((l.filter fun x => !sh x).map idf = [] → ∀ x ∈ l, sh x = true) := by
    intro α l sh idf h x hx
    rw [List.map_eq_nil_iff, List.filter_eq_nil_iff] at h
    simpa using h x hx
  have hl1 : s.logSet = true ∨ ∀ x ∈ (content d).groups, groupShown o x = true :=
    hl.imp_right fun h => by
      simp only [leftOut, List.append_eq_nil_iff] at h; exact hlog h.1.1
  have hl2 : s.logSet = true ∨ ∀ x ∈ (content d).categories, categoryShown o x = true :=
    hl.imp_right fun h => by
      simp only [leftOut, List.append_eq_nil_iff] at h; exact hlog h.1.2
  have hl3 : s.logSet = true ∨ ∀ x ∈ (content d).environments, envShown o x = true :=
    hl.imp_right fun h => by
      simp only [leftOut, List.append_eq_nil_iff] at h; exact hlog h.2
  unfold xmlDoc
  rw [hn, hp, hy]
  rw [bind_ok (a := some n) (s' := s) rfl, bind_ok (a := p.val) (s' := s) rfl,
    bind_ok (a := y.val) (s' := s) rfl]
  have hallow : allows s.opened (.startDTD (some n) p.val y.val) = true := by
    rw [ho]
    simp only [allows, List.isEmpty_nil, Option.getD_some, Bool.true_and, Bool.and_eq_true,
      Bool.or_eq_true, bne_iff_ne, ne_eq]
    refine ⟨hne, ?_⟩
    cases hpv : p.val with
    | none => left; rfl
    | some q =>
      right
      cases hyv : y.val with
      | some _ => rfl
      | none =>
        exact absurd (by rw [hy]; cases y; simp at hyv; rw [hyv])
          (hdt.both q (by rw [hp]; cases p; simp at hpv; rw [hpv]))
  rw [bind_ok (call_put hc hallow), bind_ok (call_put (by exact hc) (by rfl)), check_true, put_put]
  have hdc : [Call.startDTD (some n) p.val y.val] ++ [Call.endDTD] = doctypeCalls d := by
    simp [doctypeCalls, hn, hp, hy]
  rw [hdc]
  rw [bind_ok (start_ok (by exact hc) _), check_true]
  have ht := InTag.start (s := put s (doctypeCalls d)) b!"comps"
  have hr : ∀ n, -128 ≤ addRet 0 n ∧ addRet 0 n < 128 := fun n => addRet_range (by decide) n
  rw [bind_ok (g1 _)]
  simp only
  rw [entries_ok (xmlGroup o df) (groupShown o) (groupTree o df) (fun g => g.props.get b!"id") _ _
    (fun x hx s hc hs => group_ok (lt := lt) (groupBuilt_inv (xg x hx)) (hw.groups x hx).1
      (hw.groups x hx).2 hs hc)
    (fun x hx s hl hs => group_skip (hw.groups x hx).1 hs hl) _ 0 (by decide) (by exact hc)
    (by exact hl1)]
  rw [bind_ok (g2 _)]
  simp only
  rw [entries_ok (xmlCategory o) (categoryShown o) (categoryTree o) (fun g => g.props.get b!"id") _ _
    (fun x hx s hc hs => category_ok (lt := lt) (categoryBuilt_inv (xc x hx)) (hw.categories x hx).1
      (hw.categories x hx).2 hs hc)
    (fun x hx s hl hs => category_skip (hw.categories x hx).1 hs hl) _ _ (hr _) (by exact hc)
    (by exact hl2)]
  rw [bind_ok (g3 _)]
  simp only
  rw [entries_ok (xmlEnv o) (envShown o) (envTree o) (fun g => g.props.get b!"id") _ _
    (fun x hx s hc hs => env_ok (lt := lt) (envBuilt_inv (xe x hx)) (hw.environments x hx).1
      (hw.environments x hx).2.1 (hw.environments x hx).2.2 hs hc)
    (fun x hx s hl hs => env_skip (hw.environments x hx).1 (hw.environments x hx).2.1 hs hl) _ _
    (by rw [addRet_add]; exact hr _) (by exact hc) (by exact hl3)]
  rw [bind_ok (g4 _)]
  simp only
  rw [blk_ok (packItems_built xl) _ (by exact hc), bind_ok (g5 _)]
  simp only
  rw [blk_ok (mItems_eq _) _ (by exact hc), bind_ok (g6 _)]
  simp only
  rw [blk_ok (mItems_eq _) _ (by exact hc)]
  simp only [addLog_emit, addLog_addLog, emit_emit, addRet_add]
  rw [bind_ok (end_ok (by exact hc) (by exact emit_open ht.open _)), check_true]
  have := emit_elem (put s (doctypeCalls d)) b!"comps" []
    (((((((content d).groups.filter (groupShown o)).map (groupTree o df) ++
      ((content d).categories.filter (categoryShown o)).map (categoryTree o)) ++
      ((content d).environments.filter (envShown o)).map (envTree o)) ++
      blk b!"langpacks" b!"match" b!"name" b!"install" (content d).langpacks.len
        (packItems (content d).langpacks)) ++
      blk b!"blacklist" b!"package" b!"name" b!"arch" (content d).blacklist.len
        (multiItems (content d).blacklist)) ++
      blk b!"whiteout" b!"ignoredep" b!"requires" b!"package" (content d).whiteout.len
        (multiItems (content d).whiteout))
  rw [attrs_nil] at this
  unfold written
  rw [← this]
  simp only [leftOut, List.length_append, List.length_map, List.map_append, List.map_map]
  rfl

/-- All calls for a document. -/
def allCalls (o : Options) (df : Defaults) (d : Doc) : List Call :=
  .startDocument (encodingText d) :: doctypeCalls d ++ (written o df (content d)).calls ++ [.endDocument]

theorem startXml_ok {d : Doc} {s : St} (hc : Calm s) :
    startXml d s = .ok (true, put s [.startDocument (encodingText d)]) := by
  unfold startXml encodingText
  cases d.encoding with
  | none => rw [bind_ok (a := b!"UTF-8") (s' := s) rfl, call_put hc rfl]
  | some e =>
    rw [bind_ok (a := textOf (some e)) (s' := s) (by simp only [xmlEncoding, strText_eq]; rfl),
      call_put hc rfl]

theorem start_calm {fails : Nat → Bool} {d : Doc} (h : ∀ n, fails n = false) :
    Calm (start fails d) := h

theorem logIf_false {s : St} : logIf false s = .ok ((), s) := rfl

theorem logIf_true {s : St} (h : s.logSet = true) : logIf true s = .ok ((), addLog s [⟨20, []⟩]) := by
  show logError 20 [] s = _
  unfold logError
  rw [if_pos h]; rfl

theorem toFile_ok {o : Option Options} {df : Option Defaults} {d : Doc} (hd : ObjsInv lt d.objects)
    (hdt : DoctypeOk d) (hw : Writable (content d)) {s : St} (hc : Calm s) (ho : s.opened = [])
    (hl : s.logSet = true) :
    toFile lt o df d s = .ok (addRet 0 (leftOut (o.getD .standard) (content d)).length,
      addLog (put s (allCalls (o.getD .standard) (df.getD .standard) d))
        ((leftOut (o.getD .standard) (content d)).map skipEntry)) := by
  unfold toFile
  rw [bind_ok (a := ()) (s' := s) (by rw [if_pos hl])]
  rw [bind_ok (startXml_ok hc), bind_ok (a := ()) (s' := put s [.startDocument (encodingText d)]) rfl]
  rw [bind_ok (doc_ok hd hdt hw (by exact hc) (by exact ho)
    (by exact Or.inl hl))]
  rw [bind_ok (call_put (by exact hc) (by rfl))]
  rw [show (!true) = false from rfl, bind_ok logIf_false]
  simp only [emit, allCalls, treeCalls, List.append_nil]
  simp [put, addLog, pure, StateT.pure, Except.pure]

theorem toStr_ok {o : Option Options} {df : Option Defaults} {d : Doc} (hd : ObjsInv lt d.objects)
    (hdt : DoctypeOk d) (hw : Writable (content d)) {s : St} (hc : Calm s) (ho : s.opened = [])
    (hl : s.logSet = true ∨ leftOut (o.getD .standard) (content d) = []) :
    toStr lt o df d s = .ok (addRet 0 (leftOut (o.getD .standard) (content d)).length,
      addLog (put s (allCalls (o.getD .standard) (df.getD .standard) d))
        ((leftOut (o.getD .standard) (content d)).map skipEntry ++
          if addRet 0 (leftOut (o.getD .standard) (content d)).length = 0 then [] else [⟨20, []⟩])) := by
  unfold toStr
  rw [bind_ok (startXml_ok hc), bind_ok (a := ()) (s' := put s [.startDocument (encodingText d)]) rfl]
  rw [bind_ok (doc_ok hd hdt hw (by exact hc) (by exact ho)
    (by exact hl))]
  split
  · rename_i h0
    rw [h0]
    rw [show decide ((0 : Int) ≠ 0) = false from rfl, bind_ok logIf_false]
    rw [show (!true) = false from rfl, bind_ok logIf_false]
    rw [bind_ok (call_put (by exact hc) (by rfl))]
    rw [show (!true) = false from rfl, bind_ok logIf_false]
    simp only [emit, allCalls, treeCalls, List.append_nil]
    simp [put, addLog, pure, StateT.pure, Except.pure]
  · rename_i h0
    rw [decide_eq_true h0]
    have hl : s.logSet = true := hl.resolve_right fun e => by rw [e] at h0; exact h0 rfl
    rw [bind_ok (logIf_true (by exact hl))]
    rw [show (!true) = false from rfl, bind_ok logIf_false]
    rw [bind_ok (call_put (by exact hc) (by rfl))]
    rw [show (!true) = false from rfl, bind_ok logIf_false]
    simp only [emit, allCalls, treeCalls, List.append_nil]
    simp [put, addLog, pure, StateT.pure, Except.pure]

/-! ## nesting -/

theorem nested_append {a b : List Call} (ha : ProperlyNested a) (hb : ProperlyNested b) :
    ProperlyNested (a ++ b) := by
  induction ha with
  | nil => exact hb
  | text s rest _ ih => exact .text s _ ih
  | elem n as inner rest hi _ _ ih =>
    have := ProperlyNested.elem n as inner (rest ++ b) hi ih
    simpa using this

mutual
theorem tree_nested : ∀ t : Tree, ProperlyNested t.calls
  | .text s => .text s [] .nil
  | .elem n as ks => ProperlyNested.elem n as (treeCalls ks) [] (trees_nested ks) .nil
theorem trees_nested : ∀ ts : List Tree, ProperlyNested (treeCalls ts)
  | [] => .nil
  | t :: ts => nested_append (tree_nested t) (trees_nested ts)
end

end Comps.Xml
