import Verif.Lemmas.Text

/-! # Properties of the text functions: C36, C37, C38, C39, C45, C46 -/

namespace Comps.Props
open Text Spec

/-! ## C36 package types -/

/-- **C36.** Each of the four package types is written, by the XML writer and by the text function
alike, as a name that reads back as the same type. -/
theorem C36_round_trip (t : PkgType) (h : t ≠ .unknown) :
    pkgGetType (some t.xml) = t ∧ pkgGetType (some t.str) = t := by
  cases t <;> first | exact absurd rfl h | decide

example : pkgGetType (some PkgType.conditional.xml) = .conditional := by decide

/-- **C36.** Any text but the four names is read as unknown, and the four names are read as a
known type. -/
theorem C36_unknown (s : Bytes) :
    pkgGetType (some s) = .unknown ↔
      s ∉ [b!"default", b!"optional", b!"conditional", b!"mandatory"] := by
  unfold pkgGetType strcmp
  simp only [beq_iff_eq, Option.isNone_some, Bool.or_false, List.mem_cons, List.not_mem_nil,
    or_false, not_or]
  constructor
  · intro h
    split at h
    · exact absurd h (by simp)
    split at h
    · exact absurd h (by simp)
    split at h
    · exact absurd h (by simp)
    split at h
    · exact absurd h (by simp)
    · exact ⟨‹_›, ‹_›, ‹_›, ‹_›⟩
  · rintro ⟨h1, h2, h3, h4⟩
    rw [if_neg h1, if_neg h2, if_neg h3, if_neg h4]

example : pkgGetType (some b!"Mandatory") = .unknown := by decide

/-! ## C37 architectures -/

/-- **C37.** The text written for an architecture list exactly fits its buffer, and splitting it
gives back the list exactly if every name is non-empty and free of separators. -/
theorem C37_round_trip (archs : List Bytes) :
    ∃ b, archStr archs = .ok b ∧ b.cap = b.str.length + 1 ∧
      (splitArches [] b.str = archs ↔ ∀ a ∈ archs, ArchName a) := by
  refine ⟨_, archStr_ok archs, rfl, ?_, fun h => split_join archs h⟩
  intro h a ha
  rw [← h] at ha
  exact split_names _ [] (by simp) a ha

example : ∃ b, archStr [b!"x86_64", b!"i686"] = .ok b ∧ b.str = b!"x86_64 i686" ∧
    splitArches [] b.str = [b!"x86_64", b!"i686"] := ⟨⟨12, _⟩, rfl, rfl, by decide⟩

/-- **C37.** Whatever the attribute text, the names read from it are ones that survive the round
trip. -/
theorem C37_read_names (s : Bytes) :
    ∃ b, archStr (splitArches [] s) = .ok b ∧ splitArches [] b.str = splitArches [] s :=
  ⟨_, archStr_ok _, split_join _ (split_names s [] (by simp))⟩

example : splitArches [] b!" ,x,, y ," = [b!"x", b!"y"] := by decide

/-! ## C38 log messages -/

/-- **C38.** For every code with a message and as many argument texts as the message has
placeholders, formatting succeeds, the text is the message with the arguments in place of the
placeholders, and it fills the buffer to the last byte. -/
theorem C38_exact_fit (code : Nat) (fmt : Bytes) (args : List Bytes)
    (hf : logFormat code = some fmt) (hn : args.length = placeholders fmt) :
    ∃ b, entryStr code args = .ok b ∧ Renders fmt args b.str ∧ b.cap = b.str.length + 1 := by
  obtain ⟨hp, h5⟩ := logFormat_plain hf
  obtain ⟨out, h1, h2, h3⟩ := vsprintf_ok fmt args hp hn
  have h4 := plain_len fmt
  refine ⟨⟨out.length + 1, out⟩, ?_, h2, rfl⟩
  unfold entryStr
  rw [hf]
  simp only
  rw [if_neg (by omega), if_neg (by omega), h1]
  simp only [bind, Except.bind, Buf.fill]
  rw [if_pos (by omega)]
  have : fmt.length + (args.map List.length).sum + 1 - 2 * args.length = out.length + 1 := by omega
  rw [this]

example : entryStr 19 [b!"/tmp/x"] =
    .ok ⟨25, b!"Can't write file /tmp/x\n"⟩ := by rfl

/-- **C38.** Every place in the library that logs a message gives as many arguments as the message
has placeholders. -/
theorem C38_calls : ∀ p ∈ libCalls, ∃ fmt, logFormat p.1 = some fmt ∧ placeholders fmt = p.2 := by
  have h : ∀ p ∈ libCalls, (logFormat p.1).map placeholders = some p.2 := by decide
  intro p hp
  have := h p hp
  cases e : logFormat p.1 with
  | none => rw [e] at this; simp at this
  | some fmt => rw [e] at this; simp at this; exact ⟨fmt, rfl, this⟩

example : (4, 3) ∈ libCalls := by decide

/-! ## C39 element names -/

/-- **C39.** The name of the type of a known name is the name itself. -/
theorem C39_name_of_type (s : Bytes) (h : getType s ≠ .unknown) : (getType s).getName = s := by
  have ht : ∀ p ∈ typeTable, p.2.getName = p.1 := by decide
  unfold getType at h ⊢
  split
  · rename_i p hp
    have h1 := ht p (List.mem_of_find?_eq_some hp)
    have h2 := List.find?_some hp
    rw [h1]; exact eq_of_beq h2
  · rename_i hp; rw [hp] at h; exact absurd rfl h

/-- **C39.** Every type but the three that stand for no element is the type of its name. -/
theorem C39_type_of_name (t : ElemType) (h : t ≠ .unknown ∧ t ≠ .none ∧ t ≠ .sentinel) :
    getType t.getName = t := by
  cases t <;> first | (exact absurd rfl h.1) | (exact absurd rfl h.2.1) |
    (exact absurd rfl h.2.2) | decide

/-- **C39.** The names of unknown type are exactly those outside the vocabulary. -/
theorem C39_unknown (s : Bytes) : getType s = .unknown ↔ s ∉ vocabulary := by
  constructor
  · intro h hm
    revert h
    have : ∀ s ∈ vocabulary, getType s ≠ .unknown := by decide
    exact this s hm
  · intro h
    have ht : ∀ p ∈ typeTable, p.1 ∈ vocabulary := by decide
    unfold getType
    split
    · rename_i p hp
      have h1 := ht p (List.mem_of_find?_eq_some hp)
      have h2 := List.find?_some hp
      rw [eq_of_beq h2] at h1
      exact absurd h1 h
    · rfl

example : getType b!"optionlist" = .optlist ∧ getType b!"Group" = .unknown := by decide

/-! ## C45 numbers -/

/-- **C45** fails for every negative number: the size of the buffer is computed from the logarithm
of the number, which is not a number then, and converting it to an integer is undefined. -/
theorem C45_false (v : Int) (h : v < 0) : numToStr v = .error .badConversion := by
  unfold numToStr; rw [if_pos h]

example : numToStr (-1) = .error .badConversion := C45_false _ (by decide)

/-- **C45**, for numbers that are not negative: the text is the decimal representation and exactly
fits its buffer.  Missing: negative numbers, for which it is false. -/
theorem C45_partial (v : Int) (h : 0 ≤ v) :
    ∃ b, numToStr v = .ok b ∧ IsDecInt v b.str ∧ b.cap = b.str.length + 1 := by
  obtain ⟨n, rfl⟩ := Int.eq_ofNat_of_zero_le h
  refine ⟨⟨(dec n).length + 1, dec n⟩, ?_, ?_, rfl⟩
  · unfold numToStr
    rw [if_neg (by omega)]
    have hx : (if (n : Int) = 0 then 1 else log10 (n : Int).toNat + 1) = (dec n).length := by
      rw [dec_length]
      split
      · have : n = 0 := by omega
        subst this; rw [log10, if_pos (by decide)]
      · rfl
    simp only [hx]
    show Buf.fill _ (dec n) = _
    unfold Buf.fill
    rw [if_pos (Nat.le_refl _)]
  · unfold IsDecInt
    rw [if_pos h]
    exact dec_isDec n

example : ∃ b, numToStr 1000 = .ok b ∧ b.str = b!"1000" ∧ b.cap = 5 := by
  refine ⟨⟨5, b!"1000"⟩, ?_, rfl, rfl⟩
  have h1 : dec 1000 = b!"1000" := by simp [dec]
  have h2 : log10 1000 = 3 := by simp [log10]
  show (if (1000 : Int) < 0 then _ else Buf.fill (_ + 1) (dec 1000)) = _
  rw [h1]
  simp [h2, Buf.fill]

/-- Decimal representations are unambiguous, so the specification of C45 admits one text only. -/
theorem C45_spec_unique {n m : Nat} {s : Bytes} (h : IsDec n s) (h' : IsDec m s) : n = m := by
  rw [← h.val, ← h'.val]

/-! ## C46 lists -/

/-- **C46.** The text of an object list is `[`, the texts of the elements separated by `, `, and
`]`; with its terminator it fits the buffer, in which seven bytes stay unused. -/
theorem C46_list (items : List Bytes) :
    ∃ b, listToStr items = .ok b ∧ b.str = b!"[" ++ List.intercalate b!", " items ++ b!"]" ∧
      b.str.length + 1 + 7 = b.cap :=
  ⟨_, listToStr_ok items, rfl, by simp⟩

example : ∃ b, listToStr [b!"a", b!"", b!"bc"] = .ok b ∧ b.str = b!"[a, , bc]" :=
  ⟨⟨17, _⟩, rfl, rfl⟩

end Comps.Props

section
open Comps.Props
#print axioms C36_round_trip
#print axioms C36_unknown
#print axioms C37_round_trip
#print axioms C37_read_names
#print axioms C38_exact_fit
#print axioms C38_calls
#print axioms C39_name_of_type
#print axioms C39_type_of_name
#print axioms C39_unknown
#print axioms C45_false
#print axioms C45_partial
#print axioms C46_list
end
