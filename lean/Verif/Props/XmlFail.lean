import Verif.Lemmas.XmlFail
import Verif.Props.Xml

/-!
# XML output with a failing writer (C60)

`start fails d` is a new libxml2 writer; `fails n` says whether the `n`-th call of a writer function
fails for a reason outside of the library.  Nothing is assumed about `fails`.
-/

namespace Comps.Props
open Comps Comps.Spec Comps.Obj Comps.Xml

variable {lt : UInt8 → UInt8 → Bool}

/-- C60: writing to a file never faults, whatever calls of the writer fail.  A failure of one of the
calls `Told` is logged.  Either the output ended at a failed call, nothing but ends of document type
and document came after it, -1 is returned and the failure is logged; or all `Vital` calls succeeded,
the result is the number of entries left out as a signed byte, and they are all logged. -/
theorem C60_file {d : Doc} (hd : DocBuilt lt d) {c : DocContent} (hs : Shows lt d c)
    (ht : DoctypeSet d) (hw : Writable c) (hl : d.logSet = true) (o : Option Options)
    (df : Option Defaults) (fails : Nat → Bool) :
    ∃ (code : Int) (st : St), toFile lt o df d (start fails d) = .ok (code, st) ∧
      TellsAll st.calls st.log ∧
      ((code = -1 ∧ HasXmlgen st.log ∧ Ended st.calls ∧
          skips st.log <+: (leftOut (o.getD .standard) c).map fun id => ⟨25, [id]⟩) ∨
        ((code - (leftOut (o.getD .standard) c).length) % 256 = 0 ∧ -128 ≤ code ∧ code < 128 ∧
          AllVital st.calls ∧
          skips st.log = (leftOut (o.getD .standard) c).map fun id => ⟨25, [id]⟩)) := by
  have hi := docBuilt_inv hd
  have hc := shows_unique hs (shows_content hi)
  subst hc
  obtain ⟨r, st, n, l, h1, h2, h3, h4⟩ := toFile_tail (o := o) (df := df) hi ht hw (start fails d) hl
  have e1 : st.calls = n := h2.calls
  have e2 : st.log = l := h2.log
  refine ⟨r, st, h1, by rw [e1, e2]; exact h3, ?_⟩
  rw [e1, e2]
  rcases h4 with h4 | ⟨rfl, k⟩
  · exact .inl h4
  · refine .inr ?_
    rw [addRet_eq (by decide)]
    unfold schar
    exact ⟨by omega, by omega, by omega, k⟩

/-- C60: the same for writing to a string, where moreover every result other than 0 is logged. -/
theorem C60_string {d : Doc} (hd : DocBuilt lt d) {c : DocContent} (hs : Shows lt d c)
    (ht : DoctypeSet d) (hw : Writable c) (hl : d.logSet = true) (o : Option Options)
    (df : Option Defaults) (fails : Nat → Bool) :
    ∃ (code : Int) (st : St), toStr lt o df d (start fails d) = .ok (code, st) ∧
      (code ≠ 0 → HasXmlgen st.log) ∧ TellsAll st.calls st.log ∧
      ((code = -1 ∧ HasXmlgen st.log ∧ Ended st.calls ∧
          skips st.log <+: (leftOut (o.getD .standard) c).map fun id => ⟨25, [id]⟩) ∨
        ((code - (leftOut (o.getD .standard) c).length) % 256 = 0 ∧ -128 ≤ code ∧ code < 128 ∧
          AllVital st.calls ∧
          skips st.log = (leftOut (o.getD .standard) c).map fun id => ⟨25, [id]⟩)) := by
  have hi := docBuilt_inv hd
  have hc := shows_unique hs (shows_content hi)
  subst hc
  obtain ⟨r, st, n, l, h1, h2, h0, h3, h4⟩ :=
    toStr_tail (o := o) (df := df) hi ht hw (start fails d) hl
  have e1 : st.calls = n := h2.calls
  have e2 : st.log = l := h2.log
  refine ⟨r, st, h1, by rw [e2]; exact h0, by rw [e1, e2]; exact h3, ?_⟩
  rw [e1, e2]
  rcases h4 with h4 | ⟨rfl, k⟩
  · exact .inl h4
  · refine .inr ?_
    rw [addRet_eq (by decide)]
    unfold schar
    exact ⟨by omega, by omega, by omega, k⟩

/-- C60: when a vital call fails the result is -1 and the log says so. -/
theorem C60_vital {d : Doc} (hd : DocBuilt lt d) {c : DocContent} (hs : Shows lt d c)
    (ht : DoctypeSet d) (hw : Writable c) (hl : d.logSet = true) (o : Option Options)
    (df : Option Defaults) (fails : Nat → Bool) {code : Int} {st : St}
    (h : toFile lt o df d (start fails d) = .ok (code, st)) {x : Call} (hx : (x, false) ∈ st.calls)
    (hv : Vital x = true) : code = -1 ∧ HasXmlgen st.log ∧ Ended st.calls := by
  obtain ⟨code', st', h1, -, h2⟩ := C60_file hd hs ht hw hl o df fails
  rw [h] at h1
  cases h1
  rcases h2 with ⟨k1, k2, k3, -⟩ | ⟨-, -, -, k, -⟩
  · exact ⟨k1, k2, k3⟩
  · exact absurd (k _ hx hv) (by simp)

/-- The hypotheses hold of documents made by calls, for every pattern of failures. -/
example (fails : Nat → Bool) : ∃ d code st, DocBuilt lt d ∧
    toFile lt none none d (start fails d) = .ok (code, st) ∧ (code = -1 ∨ code = 1) := by
  obtain ⟨d, h1, h2, h3, h4⟩ := made' (exCalls lt) exCalls_good exCalls_plain
  obtain ⟨n, hn, -⟩ := h2.name
  obtain ⟨p, hp⟩ := h2.pubid
  obtain ⟨y, hy⟩ := h2.sysid
  obtain ⟨code, st, k1, k2, k3⟩ := C60_file h1 h4 ⟨by rw [hn]; rfl, by rw [hp]; rfl, by rw [hy]; rfl⟩
    exContent_writable h3 none none fails
  refine ⟨d, code, st, h1, k1, ?_⟩
  rcases k3 with ⟨rfl, -⟩ | ⟨k3, k4, k5, -⟩
  · exact .inl rfl
  · refine .inr ?_
    have k3 : (code - (1 : Nat)) % 256 = 0 := k3
    omega

/-- The start of the group fails: -1, one message, the end of the document is still asked for. -/
example : (exRun (· == 4)).1 = -1 ∧ (exRun (· == 4)).2.log = [⟨20, []⟩] ∧
    (exRun (· == 4)).2.calls.getLast? = some (.endDocument, true) ∧
    (.startElement b!"group", false) ∈ (exRun (· == 4)).2.calls := by decide +kernel

end Comps.Props

section
open Comps.Props
#print axioms C60_file
#print axioms C60_string
#print axioms C60_vital
end
