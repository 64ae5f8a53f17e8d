import Verif.Lemmas.PyElem

/-! # Lemmas about texts and hashes of Python entries -/

namespace Comps.PyElem
open Comps Comps.Obj Comps.Spec Comps.Text

theorem mapM_ok {α β : Type} (f : α → Res β) (g : α → β) (l : List α)
    (h : ∀ a ∈ l, f a = .ok (g a)) : l.mapM f = .ok (l.map g) := by
  induction l with
  | nil => rfl
  | cons a as ih =>
    rw [List.mapM_cons, h a (by simp), ih fun b hb => h b (by simp [hb])]
    rfl

theorem mapM_congr {α β : Type} {f g : α → Res β} {l : List α} (h : ∀ a ∈ l, f a = g a) :
    l.mapM f = l.mapM g := by
  induction l with
  | nil => rfl
  | cons a as ih =>
    rw [List.mapM_cons, List.mapM_cons, h a (by simp), ih fun b hb => h b (by simp [hb])]

/-- Two lists with the same outcomes place by place. -/
theorem mapM_pointwise {α β : Type} (f : α → Res β) {a b : List α} (hl : a.length = b.length)
    (h : ∀ (i : Nat) (x y : α), a[i]? = some x → b[i]? = some y → f x = f y) : a.mapM f = b.mapM f := by
  induction a generalizing b with
  | nil => cases b with
    | nil => rfl
    | cons y ys => simp at hl
  | cons x xs ih =>
    cases b with
    | nil => simp at hl
    | cons y ys =>
      rw [List.mapM_cons, List.mapM_cons, h 0 x y (by simp) (by simp),
        ih (b := ys) (by simpa using hl) fun i u v hu hv => h (i + 1) u v (by simpa using hu) (by simpa using hv)]

theorem numToStr_ok {n : Int} (h : 0 ≤ n) : ∃ b, numToStr n = .ok b := by
  obtain ⟨n, rfl⟩ := Int.eq_ofNat_of_zero_le h
  refine ⟨⟨(dec n).length + 1, dec n⟩, ?_⟩
  unfold numToStr
  rw [if_neg (by omega)]
  have hx : (if (n : Int) = 0 then 1 else log10 (n : Int).toNat + 1) = (dec n).length := by
    rw [dec_length]
    split
    · have : n = 0 := by omega
      subst this; rw [log10, if_pos (by decide)]
    · rfl
  simp only [hx]
  show Buf.fill _ (dec n) = _
  unfold Buf.fill
  rw [if_pos (Nat.le_refl _)]

theorem objText_str (o : Option CStr) : ∃ s, objText strText o = .ok s := by
  cases o with
  | none => exact ⟨_, rfl⟩
  | some v => exact ⟨_, strText_ok v⟩

theorem pkgText_ok (name requires : Option CStr) (bao : Option Int) (type : Bytes) :
    ∃ s, pkgText name requires bao type = .ok s := by
  obtain ⟨n, hn⟩ := objText_str name
  obtain ⟨r, hr⟩ := objText_str requires
  unfold pkgText
  simp only [hn, hr, bind, Except.bind, pure, Except.pure, snprintf, Buf.fill]
  rw [if_pos]
  · exact ⟨_, rfl⟩
  · simp only [List.length_take]
    omega

theorem gidText_ok (g : GroupId) : ∃ s, gidText g = .ok s := by
  obtain ⟨n, hn⟩ := objText_str g.name
  unfold gidText
  simp only [hn, bind, Except.bind, pure, Except.pure, Buf.fill]
  rw [if_pos]
  · exact ⟨_, rfl⟩
  · simp only [List.length_append, List.length_cons, List.length_nil]
    omega

theorem listText_ok {α : Type} {f : α → Res Bytes} (h : ∀ a, ∃ s, f a = .ok s) (l : List α) :
    ∃ s, listText f l = .ok s := by
  have : l.mapM f = .ok (l.map fun a => Classical.choose (h a)) :=
    mapM_ok f _ l fun a _ => Classical.choose_spec (h a)
  unfold listText
  rw [this]
  simp only [bind, Except.bind, listToStr_ok, pure, Except.pure]
  exact ⟨_, rfl⟩

theorem objText_ok {α : Type} {f : α → Res Bytes} (o : Option α)
    (h : ∀ a, o = some a → ∃ s, f a = .ok s) : ∃ s, objText f o = .ok s := by
  cases o with
  | none => exact ⟨_, rfl⟩
  | some a => exact h a rfl

theorem catProps_ok (items : List Bytes) :
    ∀ b : Buf, b.str.length + (items.map List.length).sum + 2 * items.length + 1 ≤ b.cap →
      ∃ s, catProps b items = .ok ⟨b.cap, s⟩ ∧
        s.length = b.str.length + (items.map List.length).sum + 2 * items.length := by
  induction items with
  | nil => intro b _; exact ⟨b.str, rfl, by simp⟩
  | cons s ss ih =>
    intro b h
    simp only [List.map_cons, List.sum_cons, List.length_cons] at h
    rw [catProps, strcat_ok (by omega)]
    simp only [bind, Except.bind]
    rw [strcat_ok (by simp only [List.length_append, List.length_cons, List.length_nil]; omega)]
    simp only
    obtain ⟨t, h1, h2⟩ := ih ⟨b.cap, b.str ++ s ++ b!", "⟩ (by
      simp only [List.length_append, List.length_cons, List.length_nil]; omega)
    refine ⟨t, h1, ?_⟩
    rw [h2]
    simp only [List.length_append, List.length_cons, List.length_nil, List.map_cons, List.sum_cons]
    omega

theorem intercalate_len (items : List Bytes) :
    (List.intercalate b!", " items).length ≤ (items.map List.length).sum + 2 * (items.length - 1) := by
  match items with
  | [] => simp
  | [s] => rw [intercalate_one]; simp
  | s :: s' :: ss =>
    have := intercalate_len (s' :: ss)
    rw [sepLen]
    simp only [List.length_append, List.length_cons, List.length_nil, List.map_cons, List.sum_cons] at *
    omega

theorem entryText_ok (head : Bytes) (slack : Nat) (props rest : List Bytes)
    (h : 2 * props.length + 2 * (rest.length - 1) + 2 ≤ slack) :
    ∃ s, entryText head slack props rest = .ok s := by
  unfold entryText Buf.empty
  dsimp only
  rw [if_pos (by omega)]
  simp only [bind, Except.bind]
  rw [strcat_ok (by simp; omega)]
  simp only
  obtain ⟨s, h1, h2⟩ := catProps_ok props
    ⟨(props.map List.length).sum + (rest.map List.length).sum + slack + head.length, [] ++ head⟩
    (by simp; omega)
  rw [h1]
  simp only
  have := intercalate_len rest
  simp only [List.nil_append] at h2
  rw [catSep_ok _ _ _ (by simp only [h2]; omega)]
  simp only
  rw [strcat_ok (by simp only [h2, List.length_append, List.length_cons, List.length_nil]; omega)]
  exact ⟨_, rfl⟩

theorem crcTab_length : crcTab.length = 256 := by decide +kernel

theorem crcLoop_ok (s : Bytes) : ∀ crc, ∃ c, crcLoop crc s = .ok c := by
  induction s with
  | nil => intro crc; exact ⟨_, rfl⟩
  | cons b bs ih =>
    intro crc
    have hlt : ((crc ^^^ b.toUInt32) &&& 0xff).toNat < crcTab.length := by
      rw [crcTab_length, UInt32.toNat_and]
      exact Nat.lt_of_le_of_lt Nat.and_le_right (by decide)
    unfold crcLoop
    rw [List.getElem?_eq_getElem hlt]
    exact ih _

theorem hash_ok {s : Bytes} : ∃ n, hash (.ok s) = .ok n ∧ n < 2 ^ 32 := by
  obtain ⟨c, h⟩ := crcLoop_ok s (0 ^^^ 0xffffffff)
  refine ⟨(c ^^^ 0xffffffff).toNat, ?_, UInt32.toNat_lt _⟩
  simp only [hash, crc32, h, bind, Except.bind, pure, Except.pure]

theorem propText_ok {t : RTree PVal} {k : Bytes} (ho : ∀ n, t.get k = some (.num n) → 0 ≤ n) : ∃ s, objText pvalText (t.get k) = .ok s := by
  refine objText_ok _ fun v hv => ?_
  cases v with
  | str s =>
    obtain ⟨b, e, -⟩ := strToStr_ok s.val
    exact ⟨b.str, by simp [pvalText, e, bind, Except.bind, pure, Except.pure]⟩
  | num n =>
    obtain ⟨b, e⟩ := numToStr_ok (ho n hv)
    exact ⟨b.str, by simp [pvalText, e, bind, Except.bind, pure, Except.pure]⟩
  | list l =>
    have : (l.mapM fun s => (do return (← strToStr s.val).str : Res Bytes)) =
        .ok (l.map fun s => s.val.getD []) := by
      refine mapM_ok _ _ _ fun s _ => ?_
      obtain ⟨b, e, e2⟩ := strToStr_ok s.val
      simp [e, e2, bind, Except.bind, pure, Except.pure]
    unfold pvalText
    simp only
    rw [this]
    simp only [bind, Except.bind, listToStr_ok, pure, Except.pure]
    exact ⟨_, rfl⟩

theorem propTexts_ok {t : RTree PVal} {keys : List Bytes}
    (ho : ∀ k ∈ keys, ∀ n, t.get k = some (.num n) → 0 ≤ n) :
    ∃ l, propTexts t keys = .ok l ∧ l.length = keys.length := by
  unfold propTexts
  induction keys with
  | nil => exact ⟨[], rfl, rfl⟩
  | cons k ks ih =>
    obtain ⟨s, hs⟩ := propText_ok (ho k (by simp))
    obtain ⟨l, hl, hn⟩ := ih (fun k' h' => ho k' (by simp [h']))
    rw [List.mapM_cons, hs, hl]
    exact ⟨s :: l, rfl, by simp [hn]⟩

theorem propTexts_congr {t t' : RTree PVal} (h : ∀ k, t.get k = t'.get k) (keys : List Bytes) :
    propTexts t keys = propTexts t' keys := by
  unfold propTexts
  exact mapM_congr fun k _ => by rw [h k]

/-- A negative display order stops the text. -/
theorem propTexts_bad {t : RTree PVal} (pre post : List Bytes) {k : Bytes} {n : Int}
    (hp : ∀ k' ∈ pre, ∀ n, t.get k' = some (.num n) → 0 ≤ n) (hk : t.get k = some (.num n))
    (hn : n < 0) : propTexts t (pre ++ k :: post) = .error .badConversion := by
  obtain ⟨l, hl, -⟩ := propTexts_ok hp
  unfold propTexts at *
  rw [List.mapM_append, hl, List.mapM_cons, hk]
  simp only [objText, pvalText, numToStr, if_pos hn, bind, Except.bind]

theorem Pkg.text_ok (p : Pkg) : ∃ s, p.text = .ok s := pkgText_ok _ _ _ _

theorem packageText_ok (p : Package) : ∃ s, packageText p = .ok s := pkgText_ok _ _ _ _

theorem groupText_rest (g : Group) {l : List Bytes} (hl : propTexts g.props
      [b!"id", b!"name", b!"desc", b!"display_order", b!"def", b!"langonly"] = .ok l) (hn : l.length = 6) :
    ∃ s, groupText g = .ok s := by
  obtain ⟨p, hp⟩ := objText_ok (f := listText packageText) g.packages fun a _ => listText_ok packageText_ok a
  unfold groupText
  rw [hl, hp]
  simp only [bind, Except.bind, dictText]
  exact entryText_ok _ _ _ _ (by simp [hn])

theorem categoryText_rest (c : Category) {l : List Bytes} (hl : propTexts c.props
      [b!"id", b!"name", b!"desc", b!"display_order"] = .ok l) (hn : l.length = 4) :
    ∃ s, categoryText c = .ok s := by
  obtain ⟨p, hp⟩ := objText_ok (f := listText gidText) c.groupIds fun a _ => listText_ok gidText_ok a
  unfold categoryText
  rw [hl, hp]
  simp only [bind, Except.bind, dictText]
  exact entryText_ok _ _ _ _ (by simp [hn])

theorem envText_rest (e : Env) {l : List Bytes} (hl : propTexts e.props
      [b!"id", b!"name", b!"desc", b!"display_order"] = .ok l) (hn : l.length = 4) :
    ∃ s, envText e = .ok s := by
  obtain ⟨p, hp⟩ := objText_ok (f := listText gidText) e.groupList fun a _ => listText_ok gidText_ok a
  obtain ⟨q, hq⟩ := objText_ok (f := listText gidText) e.optionList fun a _ => listText_ok gidText_ok a
  unfold envText
  rw [hl, hp, hq]
  simp only [bind, Except.bind, dictText]
  exact entryText_ok _ _ _ _ (by simp [hn])

theorem hash_of {r : Res Bytes} (h : ∃ s, r = .ok s) : ∃ n, hash r = .ok n ∧ n < 2 ^ 32 := by
  obtain ⟨s, rfl⟩ := h
  exact hash_ok

theorem gidText_cmp {g h : GroupId} (e : g.cmp h = true) : gidText g = gidText h := by
  rw [GroupId.cmp_iff] at e
  unfold gidText
  rw [e.1, e.2]

/-- A string property is not a number. -/
theorem strKey_num {lt : UInt8 → UInt8 → Bool} {t : RTree PVal} (h : PropInv lt t) {k : Bytes} {n : Int}
    (hk : k = b!"id" ∨ k = b!"name" ∨ k = b!"desc" ∨ k = b!"langonly") (e : t.get k = some (.num n)) :
    False := by
  have := h.typed.get h.wf e
  rcases hk with rfl | rfl | rfl | rfl <;> simp [propKinds, kind] at this

end Comps.PyElem
