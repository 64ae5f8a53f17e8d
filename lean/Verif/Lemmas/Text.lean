import Verif.Model.Text
import Verif.Spec.Text

namespace Comps.Text
open Spec

/-! ## decimal -/

theorem digit_toNat {d : Nat} (h : d < 10) : (48 + d.toUInt8).toNat = 48 + d := by
  have : d = 0 ∨ d = 1 ∨ d = 2 ∨ d = 3 ∨ d = 4 ∨ d = 5 ∨ d = 6 ∨ d = 7 ∨ d = 8 ∨ d = 9 := by omega
  rcases this with rfl | rfl | rfl | rfl | rfl | rfl | rfl | rfl | rfl | rfl <;> decide

theorem digit_range {d : Nat} (h : d < 10) :
    (48 : UInt8) ≤ 48 + d.toUInt8 ∧ 48 + d.toUInt8 ≤ (57 : UInt8) := by
  rw [UInt8.le_iff_toNat_le, UInt8.le_iff_toNat_le, digit_toNat h]
  refine ⟨?_, ?_⟩
  · show 48 ≤ _; omega
  · show _ ≤ 57; omega

theorem decVal_append (s : Bytes) (c : UInt8) :
    decVal (s ++ [c]) = 10 * decVal s + (c.toNat - 48) := by
  simp [decVal, List.foldl_append]

theorem dec_isDec (n : Nat) : IsDec n (dec n) := by
  induction n using dec.induct with
  | case1 n h =>
    rw [dec, if_pos h]
    refine ⟨by simp, ?_, ?_, ?_⟩
    · intro c hc; simp only [List.mem_singleton] at hc; subst hc; exact digit_range h
    · intro e; simp only [List.head?_cons, Option.some.injEq] at e; rw [e]
    · simp only [decVal, List.foldl_cons, List.foldl_nil, digit_toNat h]; omega
  | case2 n h ih =>
    have hm : n % 10 < 10 := Nat.mod_lt _ (by decide)
    rw [dec, if_neg h]
    refine ⟨by simp, ?_, ?_, ?_⟩
    · intro c hc
      rcases List.mem_append.mp hc with hc | hc
      · exact ih.digit c hc
      · simp only [List.mem_singleton] at hc; subst hc; exact digit_range hm
    · intro e
      exfalso
      have e0 : (dec (n / 10)).head? = some 48 := by
        cases ed : dec (n / 10) with
        | nil => exact absurd ed ih.ne
        | cons x xs => rw [ed] at e; simpa using e
      have e1 := ih.lead e0
      have e2 := ih.val
      rw [e1] at e2
      have : decVal [48] = 0 := by decide
      omega
    · rw [decVal_append, ih.val, digit_toNat hm]; omega

theorem dec_length (n : Nat) : (dec n).length = log10 n + 1 := by
  induction n using dec.induct with
  | case1 n h => rw [dec, if_pos h, log10, if_pos h]; rfl
  | case2 n h ih => rw [dec, if_neg h, log10, if_neg h, List.length_append, ih]; rfl

theorem log10_lt (n k : Nat) : n < 10 ^ (k + 1) ↔ log10 n ≤ k := by
  induction n using log10.induct generalizing k with
  | case1 n h =>
    rw [log10, if_pos h]
    have h1 : 10 ^ 1 ≤ 10 ^ (k + 1) := Nat.pow_le_pow_right (by decide) (by omega)
    constructor
    · intro _; omega
    · intro _; omega
  | case2 n h ih =>
    rw [log10, if_neg h]
    cases k with
    | zero => simp only [Nat.zero_add, Nat.pow_one]; omega
    | succ k =>
      rw [Nat.add_le_add_iff_right, ← ih k, Nat.pow_succ 10 (k + 1)]
      omega

theorem log10_eq {n k : Nat} (h1 : 10 ^ k ≤ n) (h2 : n < 10 ^ (k + 1)) : log10 n = k := by
  have a := (log10_lt n k).mp h2
  cases k with
  | zero => omega
  | succ k =>
    have : ¬ log10 n ≤ k := fun h => by have := (log10_lt n k).mpr h; omega
    omega

/-- `digits_count` is the number of digits of a number below a thousand million. -/
theorem digitsCount_eq {n : Nat} (h : n < 1000000000) : digitsCount n = (dec n).length := by
  rw [dec_length]
  unfold digitsCount
  split
  · rw [log10_eq (k := 8) (by omega) (by omega)]
  split
  · rw [log10_eq (k := 7) (by omega) (by omega)]
  split
  · rw [log10_eq (k := 6) (by omega) (by omega)]
  split
  · rw [log10_eq (k := 5) (by omega) (by omega)]
  split
  · rw [log10_eq (k := 4) (by omega) (by omega)]
  split
  · rw [log10_eq (k := 3) (by omega) (by omega)]
  split
  · rw [log10_eq (k := 2) (by omega) (by omega)]
  split
  · rw [log10_eq (k := 1) (by omega) (by omega)]
  · rw [log10, if_pos (by omega)]

/-- From a thousand million on it is too small. -/
theorem digitsCount_lt {n : Nat} (h : 1000000000 ≤ n) : digitsCount n < (dec n).length := by
  rw [dec_length]
  have : ¬ log10 n ≤ 8 := fun h' => by have := (log10_lt n 8).mpr h'; omega
  unfold digitsCount
  rw [if_pos (by omega)]
  omega

/-! ## joining -/

theorem sepLen (sep : Bytes) (s s' : Bytes) (ss : List Bytes) :
    List.intercalate sep (s :: s' :: ss) = s ++ sep ++ List.intercalate sep (s' :: ss) := by
  simp [List.intercalate, List.intersperse]

theorem intercalate_one (sep s : Bytes) : List.intercalate sep [s] = s := by
  simp [List.intercalate, List.intersperse]

theorem intercalate_nil (sep : Bytes) : List.intercalate sep ([] : List Bytes) = [] := rfl

theorem strcat_ok {b : Buf} {s : Bytes} (h : b.str.length + s.length + 1 ≤ b.cap) :
    b.strcat s = .ok ⟨b.cap, b.str ++ s⟩ := by
  unfold Buf.strcat; rw [if_pos h]

theorem catSep_ok (sep : Bytes) (items : List Bytes) :
    ∀ b : Buf, b.str.length + (List.intercalate sep items).length + 1 ≤ b.cap →
      catSep b sep items = .ok ⟨b.cap, b.str ++ List.intercalate sep items⟩ := by
  match items with
  | [] => intro b _; simp [catSep]
  | [s] =>
    intro b h; rw [intercalate_one] at h ⊢; exact strcat_ok h
  | s :: s' :: ss =>
    intro b h
    rw [sepLen] at h ⊢
    simp only [List.length_append] at h
    rw [catSep, strcat_ok (by omega)]
    show (Buf.strcat _ sep >>= _) = _
    rw [strcat_ok (by simp only [List.length_append]; omega)]
    show catSep _ sep (s' :: ss) = _
    rw [catSep_ok sep (s' :: ss) _ (by simp only [List.length_append]; omega)]
    simp [List.append_assoc]

theorem listLen_eq (items : List Bytes) :
    listLen items = (List.intercalate b!", " items).length + 10 := by
  match items with
  | [] => rfl
  | [s] => rw [intercalate_one]; simp [listLen]; omega
  | s :: s' :: ss =>
    rw [sepLen, listLen, listLen_eq (s' :: ss)]
    simp only [List.length_append, List.length_cons, List.length_nil]
    omega

theorem archLen (items : List Bytes) (h : items ≠ []) :
    (items.map fun s => s.length + 1).sum = (List.intercalate b!" " items).length + 1 := by
  match items, h with
  | [s], _ => rw [intercalate_one]; simp
  | s :: s' :: ss, _ =>
    rw [List.map_cons, List.sum_cons, archLen (s' :: ss) (by simp), sepLen]
    simp only [List.length_append, List.length_cons, List.length_nil]
    omega

theorem archStr_ok (items : List Bytes) :
    archStr items = .ok ⟨(List.intercalate b!" " items).length + 1, List.intercalate b!" " items⟩ := by
  unfold archStr
  cases items with
  | nil => rfl
  | cons a as =>
    rw [archLen _ (by simp)]
    show ((if 1 ≤ _ then _ else _) >>= _) = _
    rw [if_pos (by omega)]
    show catSep _ _ _ = _
    rw [catSep_ok _ _ _ (by simp)]
    simp

theorem listToStr_ok (items : List Bytes) :
    listToStr items = .ok ⟨(List.intercalate b!", " items).length + 10,
      b!"[" ++ List.intercalate b!", " items ++ b!"]"⟩ := by
  unfold listToStr Buf.empty
  rw [listLen_eq, if_pos (by omega)]
  simp only [bind, Except.bind]
  rw [strcat_ok (by simp)]
  simp only
  rw [catSep_ok _ _ _ (by simp; omega)]
  simp only
  rw [strcat_ok (by simp)]
  rfl

/-! ## splitting -/

theorem isSep_iff (c : UInt8) : isSep c = true ↔ c = 32 ∨ c = 44 := by
  simp [isSep]

theorem split_read (w rest cur : Bytes) (h : ∀ c ∈ w, c ≠ 32 ∧ c ≠ 44) :
    splitArches cur (w ++ rest) = splitArches (cur ++ w) rest := by
  induction w generalizing cur with
  | nil => simp
  | cons c w ih =>
    have hc := h c List.mem_cons_self
    have : isSep c = false := by
      cases e : isSep c with
      | false => rfl
      | true => rcases (isSep_iff c).mp e with e | e <;> simp [e] at hc
    rw [List.cons_append, splitArches, this]
    simp only [Bool.false_eq_true, if_false]
    rw [ih _ (fun c' hc' => h c' (List.mem_cons_of_mem _ hc'))]
    simp

theorem split_join (items : List Bytes) (h : ∀ a ∈ items, ArchName a) :
    splitArches [] (List.intercalate b!" " items) = items := by
  match items with
  | [] => rfl
  | [s] =>
    have hs := h s (by simp)
    rw [intercalate_one, ← List.append_nil s, split_read _ _ _ hs.2]
    simp [splitArches, hs.1]
  | s :: s' :: ss =>
    have hs := h s (by simp)
    rw [sepLen, List.append_assoc, split_read _ _ _ hs.2]
    show splitArches ([] ++ s) (32 :: _) = _
    rw [splitArches, if_pos (by decide)]
    have : ([] ++ s : Bytes).isEmpty = false := by simp [hs.1]
    rw [this]
    simp only [Bool.false_eq_true, if_false, List.nil_append]
    show s :: splitArches [] (List.intercalate b!" " (s' :: ss)) = _
    rw [split_join (s' :: ss) (fun a ha => h a (List.mem_cons_of_mem _ ha))]

theorem split_names (s cur : Bytes) (hc : ∀ c ∈ cur, c ≠ 32 ∧ c ≠ 44) :
    ∀ a ∈ splitArches cur s, ArchName a := by
  induction s generalizing cur with
  | nil =>
    intro a ha
    unfold splitArches at ha
    cases cur with
    | nil => simp at ha
    | cons x xs => simp at ha; subst ha; exact ⟨by simp, hc⟩
  | cons c s ih =>
    intro a ha
    rw [splitArches] at ha
    split at ha
    · cases cur with
      | nil => simp at ha; exact ih [] (by simp) a ha
      | cons x xs =>
        simp at ha
        rcases ha with rfl | ha
        · exact ⟨by simp, hc⟩
        · exact ih [] (by simp) a ha
    · rename_i hs
      refine ih (cur ++ [c]) ?_ a ha
      intro c' hc'
      rcases List.mem_append.mp hc' with h | h
      · exact hc c' h
      · simp at h; subst h
        constructor
        · rintro rfl; exact hs (by decide)
        · rintro rfl; exact hs (by decide)

/-! ## formats -/

/-- Every `%` of the format starts a placeholder `%s`. -/
def plain : Bytes → Bool
  | [] => true
  | [c] => c != 37
  | c :: d :: fmt => if c = 37 then d == 115 && plain fmt else plain (d :: fmt)

theorem vsprintf_ok (fmt : Bytes) (args : List Bytes) (hp : plain fmt = true)
    (hn : args.length = placeholders fmt) :
    ∃ out, vsprintf fmt args = .ok out ∧ Renders fmt args out ∧
      out.length + 2 * args.length = fmt.length + (args.map List.length).sum := by
  match fmt with
  | [] =>
    have : args = [] := by simpa [placeholders] using hn
    subst this
    exact ⟨[], by simp [vsprintf], .nil, rfl⟩
  | [c] =>
    have hc : c ≠ 37 := by simpa [plain] using hp
    have : args = [] := by simpa [placeholders] using hn
    subst this
    exact ⟨[c], by simp [vsprintf, hc], .lit hc .nil, rfl⟩
  | c :: d :: fmt =>
    unfold plain at hp
    unfold placeholders at hn
    by_cases hc : c = 37
    · subst hc
      simp only [if_pos, Bool.and_eq_true, beq_iff_eq] at hp
      obtain ⟨rfl, hp⟩ := hp
      rw [if_pos ⟨rfl, rfl⟩] at hn
      cases args with
      | nil => simp at hn
      | cons a args =>
        obtain ⟨out, h1, h2, h3⟩ := vsprintf_ok fmt args hp (by simpa using hn)
        refine ⟨a ++ out, by simp [vsprintf, h1]; rfl, .arg h2, ?_⟩
        simp only [List.length_append, List.length_cons, List.map_cons, List.sum_cons]
        omega
    · rw [if_neg hc] at hp
      rw [if_neg (by simp [hc])] at hn
      obtain ⟨out, h1, h2, h3⟩ := vsprintf_ok (d :: fmt) args hp hn
      refine ⟨c :: out, by rw [vsprintf.eq_def]; simp only [if_neg hc, h1]; rfl, .lit hc h2, ?_⟩
      simp only [List.length_cons] at h3 ⊢
      omega

theorem plain_len (fmt : Bytes) : 2 * placeholders fmt ≤ fmt.length := by
  match fmt with
  | [] => simp [placeholders]
  | [c] => simp [placeholders]
  | c :: d :: fmt =>
    unfold placeholders
    split
    · have := plain_len fmt; simp only [List.length_cons]; omega
    · have := plain_len (d :: fmt); simp only [List.length_cons] at this ⊢; omega

theorem logFormat_plain {code : Nat} {fmt : Bytes} (h : logFormat code = some fmt) :
    plain fmt = true ∧ placeholders fmt ≤ 5 := by
  unfold logFormat at h
  split at h
  all_goals first
    | (injection h with h; subst h; exact ⟨by decide, by decide⟩)
    | exact absurd h (by simp)

theorem renders_fun {fmt : Bytes} {args : List Bytes} {o o' : Bytes}
    (h : Renders fmt args o) (h' : Renders fmt args o') : o = o' := by
  induction h generalizing o' with
  | nil => cases h'; rfl
  | lit hc _ ih =>
    cases h' with
    | lit _ h' => rw [ih h']
    | arg h' => exact absurd rfl hc
  | arg _ ih =>
    cases h' with
    | lit hc _ => exact absurd rfl hc
    | arg h' => rw [ih h']

end Comps.Text
