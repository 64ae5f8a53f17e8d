import Verif.Spec.Xml
import Verif.Lemmas.Text
import Verif.Lemmas.Doc

/-!
# Facts about the XML output
-/

namespace Comps.Xml
open Comps Comps.Obj Comps.Text Comps.Spec

/-! ## texts -/

theorem dec_decimal (n : Nat) : dec n = decimal n := by
  induction n using Nat.strongRecOn with
  | _ n ih =>
    have hd : ∀ d, d < 10 → (48 + d.toUInt8 : UInt8) = (Nat.digitChar d).toNat.toUInt8 := by decide
    rw [dec, decimal, Nat.toDigits_eq_if (by omega)]
    split
    · rename_i h; simp [hd n h]
    · rw [ih (n / 10) (by omega)]
      simp [decimal, hd (n % 10) (by omega)]

theorem strText_eq (s : Option CStr) : strText s = .ok (textOf s) := by
  match s with
  | none => rfl
  | some ⟨none⟩ => rfl
  | some ⟨some b⟩ => simp [strText, strToStr, Buf.fill, textOf, Functor.map, Except.map]

theorem strTexts_eq (l : List CStr) : strTexts l = .ok (l.map fun s => textOf (some s)) := by
  induction l with
  | nil => rfl
  | cons a as ih => simp [strTexts, strText_eq, ih, bind, Except.bind, pure, Except.pure]

theorem numText_eq {n : Int} (h : 0 ≤ n) : Buf.str <$> numToStr n = .ok (decimal n.toNat) := by
  obtain ⟨m, rfl⟩ := Int.eq_ofNat_of_zero_le h
  unfold numToStr
  rw [if_neg (by omega)]
  have hl : (decInt (m : Int)).length + 1 ≤ (if (m : Int) = 0 then 1 else log10 (m : Int).toNat + 1) + 1 := by
    show (dec m).length + 1 ≤ _
    rw [dec_length]
    split
    · rename_i h
      have : m = 0 := by omega
      subst this
      simp [log10]
    · simp
  simp only [Buf.fill, if_pos hl]
  show Except.ok (dec m) = _
  rw [dec_decimal]; rfl

theorem valText_eq {v : PVal} (h : ∀ n, v = .num n → 0 ≤ n) : valText v = .ok (valueText v) := by
  cases v with
  | str s => simp only [valText, valueText]; exact strText_eq _
  | num n => exact numText_eq (h n rfl)
  | list l =>
    simp [valText, strTexts_eq, listToStr_ok, bind, Except.bind, pure, Except.pure, valueText, listText]

mutual
theorem mvalText_eq (v : MVal CStr) : mvalText v = .ok (mvalueText v) := by
  cases v with
  | one s => rw [mvalText, mvalueText]; exact strText_eq _
  | nested l =>
    simp [mvalText, mvalTexts_eq l, listToStr_ok, bind, Except.bind, pure, Except.pure, mvalueText,
      listText]
theorem mvalTexts_eq (l : List (MVal CStr)) : mvalTexts l = .ok (mvalueTexts l) := by
  cases l with
  | nil => rw [mvalTexts, mvalueTexts]
  | cons a as =>
    simp [mvalTexts, mvalText_eq a, mvalTexts_eq as, bind, Except.bind, pure, Except.pure, mvalueTexts]
end

/-! ## writing without failures -/

/-- The state after successful calls. -/
def put (s : St) (cs : List Call) : St :=
  { s with calls := s.calls ++ cs.map (·, true), opened := cs.foldl after s.opened }

theorem put_nil (s : St) : put s [] = s := by simp [put]

theorem put_put (s : St) (a b : List Call) : put (put s a) b = put s (a ++ b) := by
  simp [put, List.foldl_append]

theorem bind_ok {α β : Type} {m : M α} {f : α → M β} {s s' : St} {a : α} (h : m s = .ok (a, s')) :
    (m >>= f) s = f a s' := by
  show (m s >>= fun x => f x.1 x.2) = _
  rw [h]; rfl

theorem check_true (k : M Int) : check true k = k := rfl

/-- No call fails. -/
def Calm (s : St) : Prop := ∀ n, s.fails n = false

theorem Calm.put {s : St} (h : Calm s) (cs : List Call) : Calm (put s cs) := h

theorem call_put {s : St} {c : Call} (hc : Calm s) (ha : allows s.opened c = true) :
    call c s = .ok (true, put s [c]) := by
  unfold call
  rw [if_pos (by rw [ha, hc]; rfl)]
  rfl

theorem text_ok {b : Bytes} (s : St) : text (.ok b) s = .ok (b, s) := rfl

/-- A start tag is open. -/
def InTag (s : St) : Prop := ∃ n r, s.opened = (n, true) :: r

theorem InTag.open {s : St} (h : InTag s) : s.opened ≠ [] := by
  obtain ⟨n, r, h⟩ := h; rw [h]; simp

/-- The calls for attributes. -/
def attrCalls (as : List (Bytes × Bytes)) : List Call := as.map fun a => .attribute a.1 a.2

theorem attrs_opened (as : List (Bytes × Bytes)) (o : List (Bytes × Bool)) :
    (attrCalls as).foldl after o = o := by
  induction as with
  | nil => rfl
  | cons a as ih => simpa [attrCalls, after] using ih

theorem InTag.attrs {s : St} (h : InTag s) (as : List (Bytes × Bytes)) : InTag (put s (attrCalls as)) := by
  obtain ⟨n, r, h⟩ := h
  exact ⟨n, r, by show (attrCalls as).foldl after s.opened = _; rw [attrs_opened, h]⟩

theorem InTag.start {s : St} (n : Bytes) : InTag (put s [.startElement n]) := by
  show ∃ _ _, after s.opened (.startElement n) = _
  simp only [after]
  split
  · exact ⟨_, _, rfl⟩
  · exact ⟨_, _, rfl⟩

theorem start_ok {s : St} (hc : Calm s) (n : Bytes) :
    call (.startElement n) s = .ok (true, put s [.startElement n]) := call_put hc rfl

theorem attr_ok {s : St} (hc : Calm s) (h : InTag s) (k v : Bytes) :
    call (.attribute k v) s = .ok (true, put s (attrCalls [(k, v)])) := by
  obtain ⟨n, r, h⟩ := h
  exact call_put hc (by rw [h]; rfl)

theorem string_ok {s : St} (hc : Calm s) (h : s.opened ≠ []) (t : Bytes) :
    call (.string t) s = .ok (true, put s [.string t]) :=
  call_put hc (by simp [allows, h])

theorem end_ok {s : St} (hc : Calm s) (h : s.opened ≠ []) :
    call .endElement s = .ok (true, put s [.endElement]) :=
  call_put hc (by simp [allows, h])

/-- The open elements after content was added. -/
def closeTag : List (Bytes × Bool) → List (Bytes × Bool)
  | (m, _) :: r => (m, false) :: r
  | [] => []

theorem after_start (o : List (Bytes × Bool)) (n : Bytes) :
    after o (.startElement n) = (n, true) :: closeTag o := by
  cases o <;> rfl

theorem after_end (o : List (Bytes × Bool)) : after o .endElement = closeTag (o.drop 1) := by
  simp only [after]
  split <;> rename_i h <;> rw [h] <;> rfl

theorem after_string (o : List (Bytes × Bool)) (s : Bytes) : after o (.string s) = closeTag o := by
  cases o <;> rfl

theorem closeTag_close (o : List (Bytes × Bool)) : closeTag (closeTag o) = closeTag o := by
  cases o <;> rfl

theorem closeTag_ne {o : List (Bytes × Bool)} (h : o ≠ []) : closeTag o ≠ [] := by
  cases o with
  | nil => exact absurd rfl h
  | cons a as => simp [closeTag]

theorem closeTag_drop (o : List (Bytes × Bool)) : (closeTag o).drop 1 = o.drop 1 := by
  cases o <;> rfl

mutual
theorem tree_opened (t : Tree) (o : List (Bytes × Bool)) : t.calls.foldl after o = closeTag o := by
  cases t with
  | text s => simp [Tree.calls, after_string]
  | elem n as ks =>
    simp only [Tree.calls, List.cons_append, List.foldl_cons, List.foldl_append, List.foldl_nil]
    rw [after_start]
    have := attrs_opened as ((n, true) :: closeTag o)
    rw [attrCalls] at this
    rw [this, after_end]
    rcases trees_opened ks ((n, true) :: closeTag o) with h | h
    · rw [h]; simp [closeTag_close]
    · rw [h, closeTag_drop]; simp [closeTag_close]
theorem trees_opened (ts : List Tree) (o : List (Bytes × Bool)) :
    (treeCalls ts).foldl after o = o ∨ (treeCalls ts).foldl after o = closeTag o := by
  cases ts with
  | nil => left; simp [treeCalls]
  | cons t ts =>
    right
    simp only [treeCalls, List.foldl_append]
    rw [tree_opened t o]
    rcases trees_opened ts (closeTag o) with h | h
    · exact h
    · rw [h, closeTag_close]
end

/-- The state after writing trees. -/
def emit (s : St) (ts : List Tree) : St := put s (treeCalls ts)

theorem treeCalls_append (a b : List Tree) : treeCalls (a ++ b) = treeCalls a ++ treeCalls b := by
  induction a with
  | nil => simp [treeCalls]
  | cons t ts ih => simp [treeCalls, ih]

theorem emit_emit (s : St) (a b : List Tree) : emit (emit s a) b = emit s (a ++ b) := by
  simp [emit, put_put, treeCalls_append]

theorem emit_nil (s : St) : emit s [] = s := by simp [emit, treeCalls, put_nil]

theorem emit_calm {s : St} (h : Calm s) (ts : List Tree) : Calm (emit s ts) := h

theorem emit_open {s : St} (h : s.opened ≠ []) (ts : List Tree) : (emit s ts).opened ≠ [] := by
  show (treeCalls ts).foldl after s.opened ≠ []
  rcases trees_opened ts s.opened with e | e
  · rw [e]; exact h
  · rw [e]; exact closeTag_ne h

theorem emit_elem (s : St) (n : Bytes) (as : List (Bytes × Bytes)) (ks : List Tree) :
    put (emit (put (put s [.startElement n]) (attrCalls as)) ks) [.endElement] =
      emit s [.elem n as ks] := by
  simp [emit, put_put, treeCalls, Tree.calls, attrCalls]

theorem emit_text (s : St) (t : Bytes) : put s [.string t] = emit s [.text t] := by
  simp [emit, treeCalls, Tree.calls]

theorem put_attrs (s : St) (a b : List (Bytes × Bytes)) :
    put (put s (attrCalls a)) (attrCalls b) = put s (attrCalls (a ++ b)) := by
  simp [put_put, attrCalls]

theorem attrs_nil (s : St) : put s (attrCalls []) = s := put_nil s

/-! ## the pieces -/

theorem arch_ok {s : St} (hc : Calm s) (h : InTag s) (o : Options) (l : Option (List CStr)) :
    xmlArchOpt o l s = .ok (true, put s (attrCalls (archAttr o l))) := by
  unfold xmlArchOpt
  split
  · rename_i ha
    match l with
    | none => rw [archAttr, attrs_nil]; rfl; intro _ _ e; simp at e
    | some [] => rw [archAttr, attrs_nil]; rfl; intro _ _ e; simp at e
    | some (a :: as) =>
      simp only [xmlArch]
      rw [bind_ok (a := (a :: as).map fun s => textOf (some s)) (s' := s) (by rw [strTexts_eq]; rfl)]
      rw [archStr_ok]
      rw [bind_ok (a := List.intercalate b!" " ((a :: as).map fun s => textOf (some s))) (s' := s) rfl]
      rw [attr_ok hc h, archAttr, if_pos ha]
  · rename_i ha
    rw [archAttr.eq_def]
    split
    · rw [if_neg ha, attrs_nil]; rfl
    · rw [attrs_nil]; rfl

theorem archProp_ok {s : St} (hc : Calm s) (h : InTag s) (o : Options) {props : RTree PVal}
    (hp : PropInv lt props) :
    xmlArchProp o props s = .ok (true, put s (attrCalls (archAttr o (archesOf props)))) := by
  have := arch_ok hc h o (archesOf props)
  unfold xmlArchOpt at this
  unfold xmlArchProp
  split
  · rename_i ha
    rw [if_pos ha] at this
    rw [bind_ok (a := archesOf props) (s' := s) ?_, this]
    unfold getArchesProp archesOf
    cases e : props.get b!"arches" with
    | none => rfl
    | some v =>
      have := hp.typed.get hp.wf e
      cases v with
      | list l => rfl
      | str _ => revert this; simp [kind, propKinds]
      | num _ => revert this; simp [kind, propKinds]
  · rename_i ha
    rw [if_neg ha] at this
    exact this

theorem typeWord_eq (t : PkgType) : t.xml = typeWord t := by cases t <;> rfl

theorem boolStr_eq (b : Bool) : boolStr b = boolWord b := by cases b <;> rfl

/-- The `requires` attribute. -/
def reqAttr (r : Option CStr) : List (Bytes × Bytes) :=
  if textOf r = [] then [] else [(b!"requires", textOf r)]

theorem requires_ok {s : St} (hc : Calm s) (h : InTag s) (r : Option CStr) :
    xmlRequires r true s = .ok (true, put s (attrCalls (reqAttr r))) := by
  unfold reqAttr
  cases r with
  | none => rw [if_pos (by rfl), attrs_nil]; rfl
  | some r =>
    simp only [xmlRequires, strText_eq]
    rw [bind_ok (text_ok _)]
    split
    · rename_i he
      rw [if_pos (by simpa using he), attrs_nil]; rfl
    · rename_i he
      rw [if_neg (by simpa using he), attr_ok hc h]

/-- The `basearchonly` attribute. -/
def baoAttr (o : Options) (b : Option Int) : List (Bytes × Bytes) :=
  if o.baoExplicit then [(b!"basearchonly", boolWord b.isSome)]
  else match b with
    | none => []
    | some n => if n = 0 then [] else [(b!"basearchonly", b!"true")]

theorem bao_ok {s : St} (hc : Calm s) (h : InTag s) (o : Options) (b : Option Int) :
    xmlBao o b true s = .ok (true, put s (attrCalls (baoAttr o b))) := by
  unfold xmlBao baoAttr
  split
  · rw [attr_ok hc h, boolStr_eq]
  · split
    · rename_i hn
      cases b with
      | none => simp at hn
      | some n =>
        simp only [Option.getD_some] at hn
        rw [attr_ok hc h]
        simp [hn]
    · rename_i hn
      cases b with
      | none => simp only; rw [attrs_nil]; rfl
      | some n =>
        simp only [Option.getD_some, ne_eq, Decidable.not_not] at hn
        simp only [hn, if_true]; rw [attrs_nil]; rfl

theorem package_ok {s : St} (hc : Calm s) (o : Options) (p : Package) :
    xmlPackage o p s = .ok (0, emit s [packageTree o p]) := by
  unfold xmlPackage
  rw [bind_ok (start_ok hc _), check_true]
  have ht := InTag.start (s := s) b!"packagereq"
  rw [bind_ok (arch_ok (by exact hc) ht o p.arches), check_true]
  have ht := ht.attrs (archAttr o p.arches)
  rw [bind_ok (attr_ok (by exact hc) ht _ _)]
  have ht := ht.attrs [(b!"type", p.type.xml)]
  rw [bind_ok (requires_ok (by exact hc) ht _), check_true]
  have ht := ht.attrs (reqAttr p.requires)
  rw [bind_ok (bao_ok (by exact hc) ht o _), check_true]
  have ht := ht.attrs (baoAttr o p.basearchonly)
  rw [strText_eq, bind_ok (text_ok _)]
  rw [bind_ok (string_ok (by exact hc) ht.open _), check_true, emit_text]
  rw [bind_ok (end_ok (by exact hc) (emit_open ht.open _)), check_true]
  simp only [put_attrs]
  rw [emit_elem, typeWord_eq]
  rfl

/-- The `default` attribute. -/
def gidAttr (o : Options) (b : Bool) : List (Bytes × Bytes) :=
  if o.gidDefaultExplicit ∨ b = true then [(b!"default", boolWord b)] else []

theorem gid_ok {s : St} (hc : Calm s) (h : InTag s) (o : Options) (b : Bool) :
    xmlGidDefault o b s = .ok (true, put s (attrCalls (gidAttr o b))) := by
  unfold xmlGidDefault gidAttr
  split
  · rename_i he
    rw [attr_ok hc h, boolStr_eq, if_pos (Or.inl he)]
  · rename_i he
    split
    · rename_i hd
      rw [bind_ok (attr_ok hc h _ _), if_pos (Or.inr hd), hd]; rfl
    · rename_i hd
      rw [if_neg (by simp [he, hd]), attrs_nil]; rfl

theorem groupId_ok {s : St} (hc : Calm s) (o : Options) (g : GroupId) :
    xmlGroupId o g s = .ok (0, emit s [groupIdTree o g]) := by
  unfold xmlGroupId
  rw [bind_ok (start_ok hc _), check_true]
  have ht := InTag.start (s := s) b!"groupid"
  rw [bind_ok (arch_ok (by exact hc) ht o g.arches), check_true]
  have ht := ht.attrs (archAttr o g.arches)
  rw [bind_ok (gid_ok (by exact hc) ht o _), check_true]
  have ht := ht.attrs (gidAttr o g.dflt)
  rw [strText_eq, bind_ok (text_ok _)]
  rw [bind_ok (string_ok (by exact hc) ht.open _), check_true, emit_text]
  rw [bind_ok (end_ok (by exact hc) (emit_open ht.open _)), check_true]
  simp only [put_attrs]
  rw [emit_elem]
  rfl

theorem packages_ok (o : Options) (l : List Package) :
    ∀ {s : St}, Calm s → xmlPackages o l s = .ok ((), emit s (l.map (packageTree o))) := by
  induction l with
  | nil => intro s _; rw [List.map_nil, emit_nil]; rfl
  | cons p ps ih =>
    intro s hc
    unfold xmlPackages
    rw [bind_ok (package_ok hc o p), ih (by exact hc), emit_emit]; rfl

theorem groupIds_ok (o : Options) (l : List GroupId) :
    ∀ {s : St}, Calm s → xmlGroupIds o l s = .ok ((), emit s (l.map (groupIdTree o))) := by
  induction l with
  | nil => intro s _; rw [List.map_nil, emit_nil]; rfl
  | cons p ps ih =>
    intro s hc
    unfold xmlGroupIds
    rw [bind_ok (groupId_ok hc o p), ih (by exact hc), emit_emit]; rfl

theorem prop_ok {s : St} (hc : Calm s) (tag val : Bytes) :
    xmlProp tag val s = .ok (true, emit s [.elem tag [] [.text val]]) := by
  unfold xmlProp
  rw [bind_ok (start_ok hc _)]
  have ht := InTag.start (s := s) tag
  rw [bind_ok (string_ok (by exact hc) ht.open _), emit_text]
  rw [bind_ok (end_ok (by exact hc) (emit_open ht.open _))]
  have := emit_elem s tag [] [.text val]
  rw [attrs_nil] at this
  rw [this]; rfl

theorem plain_ok {s : St} (hc : Calm s) (tag : Bytes) {v : Option PVal}
    (h : ∀ n, v = some (.num n) → 0 ≤ n) : xmlPlain tag v s = .ok ((), emit s (propTree tag v)) := by
  unfold xmlPlain
  cases v with
  | none => rw [propTree, emit_nil]; rfl
  | some v =>
    simp only
    rw [valText_eq (fun n e => h n (by rw [e])), bind_ok (text_ok s), bind_ok (prop_ok hc _ _)]
    rfl

theorem flag_ok {s : St} (hc : Calm s) (tag : Bytes) (expl dflt : Bool) {v : Option PVal}
    (h : ∀ x, v = some x → ∃ n, x = .num n) :
    xmlFlag tag expl dflt v s = .ok ((), emit s (flagTree tag expl dflt v)) := by
  unfold xmlFlag flagTree
  cases v with
  | none =>
    cases expl with
    | true =>
      simp only [if_true]
      rw [bind_ok (prop_ok hc _ _), boolStr_eq, if_pos (by rfl)]; rfl
    | false =>
      simp only [Bool.false_eq_true, if_false]
      rw [if_neg (by simp [flagOf]), emit_nil]; rfl
  | some x =>
    obtain ⟨n, rfl⟩ := h x rfl
    have e : boolText (.num n) = .ok (boolStr (decide (n ≠ 0))) := by
      simp only [boolText, boolStr]
      by_cases hn : n = 0 <;> simp [hn]
    simp only
    rw [e, bind_ok (text_ok s), boolStr_eq, boolStr_eq]
    have hw : ∀ a b : Bool, (boolWord a != boolWord b) = (a != b) := by decide
    rw [hw]
    have hg : (flagOf (some (.num n))).getD dflt = decide (n ≠ 0) := rfl
    rw [hg]
    split
    · rw [bind_ok (prop_ok hc _ _)]; rfl
    · rw [emit_nil]; rfl

theorem langs_ok (tag : Bytes) (l : List (Bytes × PVal)) (k : M Int)
    (hl : ∀ e ∈ l, ∃ s, e.2 = .str s) :
    ∀ {s : St}, Calm s → xmlLangs tag l k s = k (emit s (l.map fun e =>
      .elem tag [(b!"xml:lang", e.1)] [.text (valueText e.2)])) := by
  induction l with
  | nil => intro s _; rw [List.map_nil, emit_nil]; rfl
  | cons e es ih =>
    intro s hc
    obtain ⟨str, he⟩ := hl e (by simp)
    unfold xmlLangs
    rw [bind_ok (start_ok hc _), check_true]
    have ht := InTag.start (s := s) tag
    rw [bind_ok (attr_ok (by exact hc) ht _ _), check_true]
    have ht := ht.attrs [(b!"xml:lang", e.1)]
    rw [valText_eq (fun n h => by rw [he] at h; cases h), bind_ok (text_ok _)]
    rw [bind_ok (string_ok (by exact hc) ht.open _), check_true, emit_text]
    rw [bind_ok (end_ok (by exact hc) (emit_open ht.open _)), check_true, emit_elem]
    rw [ih (fun x hx => hl x (by simp [hx])) (by exact hc), emit_emit]; rfl

theorem list_ok {α : Type} {tag : Bytes} {opt : Bool} {items : List α} {write : List α → M Unit}
    {k : M Int} {f : α → Tree} {s : St} (hc : Calm s)
    (hw : ∀ {s : St}, Calm s → write items s = .ok ((), emit s (items.map f))) :
    xmlList tag opt items write k s = k (emit s (listTree tag opt (items.map f))) := by
  unfold xmlList listTree
  have hcond : ((!items.isEmpty || opt) = true) ↔ (items.map f ≠ [] ∨ opt = true) := by
    cases items <;> simp
  split
  · rename_i h
    rw [if_pos (hcond.1 h), bind_ok (start_ok hc _), check_true]
    have ht := InTag.start (s := s) tag
    rw [bind_ok (hw (by exact hc)), bind_ok (end_ok (by exact hc) (emit_open ht.open _)),
      check_true]
    have := emit_elem s tag [] (items.map f)
    rw [attrs_nil] at this
    rw [this]
  · rename_i h
    rw [if_neg (fun x => h (hcond.2 x)), emit_nil]

theorem xmlEnd_ok {s : St} (hc : Calm s) (h : s.opened ≠ []) :
    xmlEnd s = .ok (0, put s [.endElement]) := by
  unfold xmlEnd
  rw [bind_ok (end_ok hc h), check_true]; rfl

theorem listText_eq (t : RTree PVal) (tag : Bytes) :
    (t.pairs.map fun e => Tree.elem tag [(b!"xml:lang", e.1)] [.text (valueText e.2)]) =
      langTrees tag t := rfl

/-! ## kinds of the values of built entries -/

theorem kind_of {props : RTree PVal} (hp : PropInv lt props) {key : Bytes} {v : PVal}
    (h : props.get key = some v) : (key, kind v) ∈ propKinds := hp.typed.get hp.wf h

theorem not_num {props : RTree PVal} (hp : PropInv lt props) {key : Bytes}
    (hk : (key, 1) ∉ propKinds) (n : Int) (h : props.get key = some (.num n)) : 0 ≤ n :=
  absurd (kind_of hp h) hk

theorem is_num {props : RTree PVal} (hp : PropInv lt props) {key : Bytes}
    (h0 : (key, 0) ∉ propKinds) (h2 : (key, 2) ∉ propKinds) (x : PVal)
    (h : props.get key = some x) : ∃ n, x = .num n := by
  have := kind_of hp h
  cases x with
  | num n => exact ⟨n, rfl⟩
  | str s => exact absurd this h0
  | list l => exact absurd this h2

theorem lang_str {t : RTree PVal} (h : LangInv lt t) : ∀ e ∈ t.pairs, ∃ s, e.2 = .str s := by
  intro e he
  have := h.typed.pairs he
  revert this
  cases e.2 with
  | str s => intro _; exact ⟨s, rfl⟩
  | num n => intro h; cases h
  | list l => intro h; cases h

/-! ## entries -/

/-- The texts of an entry, up to the flags. -/
theorem texts_ok {props nl dl : RTree PVal} (h : DictsInv lt props nl dl) (k : M Int) {s : St}
    (hc : Calm s) :
    (do
      xmlPlain b!"id" (props.get b!"id")
      xmlPlain b!"name" (props.get b!"name")
      xmlLangs b!"name" nl.pairs do
      xmlPlain b!"description" (props.get b!"desc")
      xmlLangs b!"description" dl.pairs k : M Int) s = k (emit s (textTrees props nl dl)) := by
  rw [bind_ok (plain_ok hc _ (not_num h.props (by decide)))]
  rw [bind_ok (plain_ok (by exact hc) _ (not_num h.props (by decide)))]
  rw [langs_ok _ _ _ (lang_str h.name) (by exact hc)]
  rw [bind_ok (plain_ok (by exact hc) _ (not_num h.props (by decide)))]
  rw [langs_ok _ _ _ (lang_str h.desc) (by exact hc)]
  simp only [emit_emit, textTrees, listText_eq]

theorem group_ok {o : Options} {d : Defaults} {g : Group}
    (h : DictsInv lt g.props g.nameByLang g.descByLang) (hp : g.packages.isSome = true)
    (hn : ∀ n, g.props.get b!"display_order" = some (.num n) → 0 ≤ n)
    (hs : groupShown o g = true) {s : St} (hc : Calm s) :
    xmlGroup o d g s = .ok (0, emit s [groupTree o d g]) := by
  unfold xmlGroup
  cases e : g.packages with
  | none => rw [e] at hp; cases hp
  | some l =>
    simp only
    rw [if_neg]
    · rw [bind_ok (start_ok hc _), check_true]
      have ht := InTag.start (s := s) b!"group"
      rw [bind_ok (archProp_ok (by exact hc) ht o h.props), check_true]
      have ht := ht.attrs (archAttr o (archesOf g.props))
      rw [texts_ok h _ (by exact hc)]
      rw [bind_ok (flag_ok (by exact hc) _ _ _ (is_num h.props (by decide) (by decide)))]
      rw [bind_ok (flag_ok (by exact hc) _ _ _ (is_num h.props (by decide) (by decide)))]
      rw [bind_ok (flag_ok (by exact hc) _ _ _ (is_num h.props (by decide) (by decide)))]
      rw [bind_ok (plain_ok (by exact hc) _ hn)]
      rw [bind_ok (plain_ok (by exact hc) _ (not_num h.props (by decide)))]
      rw [list_ok (by exact hc) (fun hc => packages_ok o l hc)]
      simp only [emit_emit]
      rw [xmlEnd_ok (by exact hc) (emit_open ht.open _), emit_elem]
      simp [groupTree, e]
    · simp only [groupShown, e, Option.getD_some] at hs
      intro hh
      cases l <;> simp_all

theorem category_ok {o : Options} {g : Category}
    (h : DictsInv lt g.props g.nameByLang g.descByLang) (hp : g.groupIds.isSome = true)
    (hn : ∀ n, g.props.get b!"display_order" = some (.num n) → 0 ≤ n)
    (hs : categoryShown o g = true) {s : St} (hc : Calm s) :
    xmlCategory o g s = .ok (0, emit s [categoryTree o g]) := by
  unfold xmlCategory
  cases e : g.groupIds with
  | none => rw [e] at hp; cases hp
  | some l =>
    simp only
    rw [if_neg]
    · rw [bind_ok (start_ok hc _), check_true]
      have ht := InTag.start (s := s) b!"category"
      rw [bind_ok (archProp_ok (by exact hc) ht o h.props), check_true]
      have ht := ht.attrs (archAttr o (archesOf g.props))
      rw [texts_ok h _ (by exact hc)]
      rw [bind_ok (plain_ok (by exact hc) _ hn)]
      rw [list_ok (by exact hc) (fun hc => groupIds_ok o l hc)]
      simp only [emit_emit]
      rw [xmlEnd_ok (by exact hc) (emit_open ht.open _), emit_elem]
      simp [categoryTree, e]
    · simp only [categoryShown, e, Option.getD_some] at hs
      intro hh
      cases l <;> simp_all

theorem env_ok {o : Options} {g : Env}
    (h : DictsInv lt g.props g.nameByLang g.descByLang) (hp : g.groupList.isSome = true)
    (hq : g.optionList.isSome = true)
    (hn : ∀ n, g.props.get b!"display_order" = some (.num n) → 0 ≤ n)
    (hs : envShown o g = true) {s : St} (hc : Calm s) :
    xmlEnv o g s = .ok (0, emit s [envTree o g]) := by
  unfold xmlEnv
  cases e : g.groupList with
  | none => rw [e] at hp; cases hp
  | some l =>
    cases e' : g.optionList with
    | none => rw [e'] at hq; cases hq
    | some l' =>
      simp only
      rw [if_neg]
      · rw [bind_ok (start_ok hc _), check_true]
        have ht := InTag.start (s := s) b!"environment"
        rw [bind_ok (archProp_ok (by exact hc) ht o h.props), check_true]
        have ht := ht.attrs (archAttr o (archesOf g.props))
        rw [texts_ok h _ (by exact hc)]
        rw [bind_ok (plain_ok (by exact hc) _ hn)]
        rw [list_ok (by exact hc) (fun hc => groupIds_ok o l hc)]
        rw [list_ok (by exact hc) (fun hc => groupIds_ok o l' hc)]
        simp only [emit_emit]
        rw [xmlEnd_ok (by exact hc) (emit_open ht.open _), emit_elem]
        simp [envTree, e, e']
      · simp only [envShown, e, e', Option.getD_some] at hs
        intro hh
        cases l <;> cases l' <;> simp_all

/-- The state after log entries were added. -/
def addLog (s : St) (es : List LogEntry) : St := { s with log := s.log ++ es }

/-- The entry logged for an entry left out. -/
def skipEntry (id : Option PVal) : LogEntry := ⟨25, [id]⟩

theorem group_skip {o : Options} {d : Defaults} {g : Group} (hp : g.packages.isSome = true)
    (hs : groupShown o g = false) {s : St} (hl : s.logSet = true) :
    xmlGroup o d g s = .ok (1, addLog s [skipEntry (g.props.get b!"id")]) := by
  unfold xmlGroup
  cases e : g.packages with
  | none => rw [e] at hp; cases hp
  | some l =>
    simp only
    rw [if_pos]
    · rw [bind_ok (a := ()) (s' := addLog s [skipEntry (g.props.get b!"id")])]
      · rfl
      · unfold logError; rw [if_pos hl]; rfl
    · simp only [groupShown, e, Option.getD_some] at hs
      cases l <;> simp_all

theorem category_skip {o : Options} {g : Category} (hp : g.groupIds.isSome = true)
    (hs : categoryShown o g = false) {s : St} (hl : s.logSet = true) :
    xmlCategory o g s = .ok (1, addLog s [skipEntry (g.props.get b!"id")]) := by
  unfold xmlCategory
  cases e : g.groupIds with
  | none => rw [e] at hp; cases hp
  | some l =>
    simp only
    rw [if_pos]
    · rw [bind_ok (a := ()) (s' := addLog s [skipEntry (g.props.get b!"id")])]
      · rfl
      · unfold logError; rw [if_pos hl]; rfl
    · simp only [categoryShown, e, Option.getD_some] at hs
      cases l <;> simp_all

theorem env_skip {o : Options} {g : Env} (hp : g.groupList.isSome = true)
    (hq : g.optionList.isSome = true)
    (hs : envShown o g = false) {s : St} (hl : s.logSet = true) :
    xmlEnv o g s = .ok (1, addLog s [skipEntry (g.props.get b!"id")]) := by
  unfold xmlEnv
  cases e : g.groupList with
  | none => rw [e] at hp; cases hp
  | some l =>
    cases e' : g.optionList with
    | none => rw [e'] at hq; cases hq
    | some l' =>
      simp only
      rw [if_pos]
      · rw [bind_ok (a := ()) (s' := addLog s [skipEntry (g.props.get b!"id")])]
        · rfl
        · unfold logError; rw [if_pos hl]; rfl
      · simp only [envShown, e, e', Option.getD_some] at hs
        cases l <;> cases l' <;> simp_all

theorem addLog_emit (s : St) (es : List LogEntry) (ts : List Tree) :
    emit (addLog s es) ts = addLog (emit s ts) es := rfl

theorem addLog_addLog (s : St) (a b : List LogEntry) : addLog (addLog s a) b = addLog s (a ++ b) := by
  simp [addLog]

theorem addLog_nil (s : St) : addLog s [] = s := by simp [addLog]

/-- Adding the number of entries left out to the return value. -/
def addRet (r : Int) : Nat → Int
  | 0 => r
  | n + 1 => addRet (schar (r + 1)) n

theorem schar_zero {r : Int} (h : -128 ≤ r ∧ r < 128) : schar (r + 0) = r := by
  unfold schar; omega

theorem schar_range (r : Int) : -128 ≤ schar r ∧ schar r < 128 := by unfold schar; omega

theorem addRet_range {r : Int} (h : -128 ≤ r ∧ r < 128) (n : Nat) :
    -128 ≤ addRet r n ∧ addRet r n < 128 := by
  induction n generalizing r with
  | zero => exact h
  | succ n ih => exact ih (schar_range _)

theorem addRet_eq {r : Int} (h : -128 ≤ r ∧ r < 128) (n : Nat) : addRet r n = schar (r + n) := by
  induction n generalizing r with
  | zero => simp only [addRet]; rw [show r + ((0 : Nat) : Int) = r + 0 by rfl, schar_zero h]
  | succ n ih => rw [addRet, ih (schar_range _)]; unfold schar; omega

theorem addRet_add (r : Int) (m n : Nat) : addRet (addRet r m) n = addRet r (m + n) := by
  induction m generalizing r with
  | zero => simp [addRet]
  | succ m ih => rw [addRet, ih, show m + 1 + n = (m + n) + 1 by omega, addRet]

theorem entries_ok {α : Type} (write : α → M Int) (isShown : α → Bool) (tree : α → Tree)
    (id : α → Option PVal) (l : List α) (k : Int → M Int)
    (hw : ∀ x ∈ l, ∀ s : St, Calm s → isShown x = true → write x s = .ok (0, emit s [tree x]))
    (hk : ∀ x ∈ l, ∀ s : St, s.logSet = true → isShown x = false →
      write x s = .ok (1, addLog s [skipEntry (id x)])) :
    ∀ (s : St) (r : Int), -128 ≤ r ∧ r < 128 → Calm s →
      (s.logSet = true ∨ ∀ x ∈ l, isShown x = true) →
      xmlEntries write l r k s = k (addRet r (l.filter fun x => !isShown x).length)
        (addLog (emit s ((l.filter isShown).map tree))
          ((l.filter fun x => !isShown x).map fun x => skipEntry (id x))) := by
  induction l with
  | nil => intro s r _ _ _; simp [xmlEntries, emit_nil, addLog_nil, addRet]
  | cons x xs ih =>
    intro s r hr hc hl
    unfold xmlEntries
    have ih := ih (fun y hy => hw y (by simp [hy])) (fun y hy => hk y (by simp [hy]))
    cases hx : isShown x with
    | true =>
      rw [bind_ok (hw x (by simp) s hc hx), if_neg (by decide), schar_zero hr]
      rw [ih (emit s [tree x]) r hr hc (hl.imp (fun h => h) (fun h y hy => h y (by simp [hy])))]
      simp [hx, emit_emit]
    | false =>
      have hlog : s.logSet = true := hl.resolve_right fun h => by simp [h x (by simp)] at hx
      rw [bind_ok (hk x (by simp) s hlog hx), if_neg (by decide)]
      rw [ih (addLog s [skipEntry (id x)]) _ (schar_range _) hc (Or.inl hlog)]
      simp [hx, addLog_emit, addLog_addLog, addRet]

theorem pairs_ok (tag key value : Bytes) (items : List (Bytes × Bytes)) (k : M Int) :
    ∀ {s : St}, Calm s → xmlPairs tag key value (items.map fun e => (e.1, .ok e.2)) k s =
      k (emit s (items.map fun e => .elem tag [(key, e.1), (value, e.2)] [])) := by
  induction items with
  | nil => intro s _; rw [List.map_nil, List.map_nil, emit_nil]; rfl
  | cons e es ih =>
    intro s hc
    simp only [List.map_cons, xmlPairs]
    rw [bind_ok (start_ok hc _), check_true]
    have ht := InTag.start (s := s) tag
    rw [bind_ok (attr_ok (by exact hc) ht _ _)]
    have ht := ht.attrs [(key, e.1)]
    rw [bind_ok (text_ok _), bind_ok (attr_ok (by exact hc) ht _ _)]
    have ht := ht.attrs [(value, e.2)]
    rw [bind_ok (end_ok (by exact hc) ht.open), check_true, put_attrs]
    have := emit_elem s tag ([(key, e.1)] ++ [(value, e.2)]) []
    rw [emit_nil] at this
    rw [this, ih (by exact hc), emit_emit]; rfl

theorem block_ok {block tag key value : Bytes} {len : Int} {items : List (Bytes × Res Bytes)}
    {its : List (Bytes × Bytes)} (hi : items = its.map fun e => (e.1, .ok e.2))
    (hl : len = 0 ↔ its = []) (k : M Int) {s : St} (hc : Calm s) :
    xmlBlock block tag key value len items k s = k (emit s (blockTree block tag key value its)) := by
  unfold xmlBlock blockTree
  by_cases h : its = []
  · rw [if_neg (by simp [hl.2 h]), if_pos h, emit_nil]
  · rw [if_pos (fun e => h (hl.1 e)), if_neg h, bind_ok (start_ok hc _), check_true]
    have ht := InTag.start (s := s) block
    rw [hi, pairs_ok _ _ _ _ _ (by exact hc)]
    rw [bind_ok (end_ok (by exact hc) (emit_open ht.open _)), check_true]
    have := emit_elem s block [] (its.map fun e => .elem tag [(key, e.1), (value, e.2)] [])
    rw [attrs_nil] at this
    rw [this]

theorem mItems_eq (t : MTree CStr) : mItems t = (multiItems t).map fun e => (e.1, .ok e.2) := by
  simp only [mItems, multiItems, mvalText_eq, List.map_flatMap, List.map_map]
  rfl

theorem packItems_eq {t : RTree PVal} (h : ∀ e ∈ t.pairs, ∃ s, e.2 = .str s) :
    (t.pairs.map fun e => (e.1, valText e.2)) = (packItems t).map fun e => (e.1, .ok e.2) := by
  simp only [packItems, List.map_map]
  apply List.map_congr_left
  intro e he
  obtain ⟨s, hs⟩ := h e he
  simp only [Function.comp]
  rw [valText_eq (fun n hn => by rw [hs] at hn; cases hn)]

end Comps.Xml
