import Verif.Props.FilterTwice

/-!
# Filtering and adding Python documents (C177)
-/

namespace Comps.Props.PyC
open Comps Comps.Obj Comps.Spec Comps.Spec.PyComps Comps.PyComps Comps.Props

variable (lt : UInt8 → UInt8 → Bool)

/-- Filtering looks at nothing but the contents and the encoding. -/
theorem filter_same {a b x : Doc} (ha : DocBuilt lt a) (hb : DocBuilt lt b) (hc : content b = content a)
    (he : b.encoding = a.encoding) {r : List CStr} (h : a.archFilter lt r = .ok x) :
    ∃ y, b.archFilter lt r = .ok y ∧ content y = content x ∧ rest y = rest x := by
  have ia := docBuilt_inv ha
  obtain ⟨e, lg, lk, le, ea, f1, f2, f3⟩ := archFilter_inv ia h
  obtain ⟨u, k1, -, k2, k3⟩ := archFilter_ok ia ea f1 f2 f3
  rw [h] at k1
  cases k1
  rw [← hc] at f1 f2 f3
  obtain ⟨y, l1, -, l2, l3⟩ := archFilter_ok (docBuilt_inv hb) (he.trans ea) f1 f2 f3
  exact ⟨y, l1, l2.trans k2.symm, l3.trans k3.symm⟩

/-- Documents with the same contents and the same attributes compare equal. -/
theorem cmp_same {a b : Doc} (ha : DocBuilt lt a) (hb : DocBuilt lt b) (hc : content a = content b)
    (h1 : a.encoding = b.encoding) (h2 : a.doctypeName = b.doctypeName)
    (h3 : a.doctypeSysid = b.doctypeSysid) (h4 : a.doctypePubid = b.doctypePubid) :
    a.cmp lt b = .ok true := by
  have sa := shows_content (docBuilt_inv ha)
  obtain ⟨v, e1, hv⟩ := C41_doc_meaning ha ha sa sa
  rw [(C41_doc ha ha ha).1] at e1
  cases e1
  have s := hv.1 rfl
  have sb := shows_content (docBuilt_inv hb)
  rw [← hc] at sb
  obtain ⟨v', e2, hv'⟩ := C41_doc_meaning ha hb sa sb
  rw [e2, hv'.2 ⟨h1, h2, h3, h4, s.groups, s.categories, s.environments,
    s.langpacks, s.blacklist, s.whiteout⟩]

/-- The program has documents `a` and `b`; in none of them two entries of a kind have one id, and entries
and members that both have are for the same architectures. -/
def Aligned (st : PyComps.St) (a b : Nat) : Prop :=
  ∃ y z cy cz, Holds lt st a y ∧ Holds lt st b z ∧ Made lt y cy ∧ Made lt z cz ∧ DistinctIds cy ∧
    DistinctIds cz ∧ Agree cy cz

/-- **C177, partial.**  In every program that Python can write, for documents without two entries of one
id that agree on the architectures of what both have:
`(a + b).arch_filter(r) == a.arch_filter(r) + b.arch_filter(r)`, and all these documents can be made.
Missing: other documents (`C177_false`). -/
theorem C177_partial {ops : List Op} {as : List Ans} {st : PyComps.St} (hn : ∀ o ∈ ops, NativeOp lt o)
    (h : run lt start ops = .ok (as, st)) {a b : Nat} (hab : Aligned lt st a b) (r : List CStr) :
    ∃ st1 st2 st3 st4 st5, step lt st (.union a b) = .ok (.comps, st1) ∧
      step lt st1 (.archFilter st.docs.length r) = .ok (.comps, st2) ∧
      step lt st2 (.archFilter a r) = .ok (.comps, st3) ∧
      step lt st3 (.archFilter b r) = .ok (.comps, st4) ∧
      step lt st4 (.union st2.docs.length st3.docs.length) = .ok (.comps, st5) ∧
      answer lt st5 (.eq st1.docs.length (some st4.docs.length)) = .ok (.bool true) := by
  obtain ⟨y, z, cy, cz, hy, hz, my, mz, dy, dz, ag⟩ := hab
  obtain ⟨st1, u, s1, x1, p1, w1, ⟨as1, r1⟩, n1⟩ := plus lt hn h hy hz
  obtain ⟨st2, l, s2, x2, p2, w2, ⟨as2, r2⟩, n2⟩ := filtered lt n1 r1 p1 r
  obtain ⟨st3, fa, s3, x3, p3, w3, ⟨as3, r3⟩, n3⟩ := filtered lt n2 r2 (w2 _ _ (w1 _ _ hy)) r
  obtain ⟨st4, fb, s4, x4, p4, w4, ⟨as4, r4⟩, n4⟩ := filtered lt n3 r3 (w3 _ _ (w2 _ _ (w1 _ _ hz))) r
  obtain ⟨st5, k, s5, x5, p5, w5, ⟨as5, r5⟩, n5⟩ := plus lt n4 r4 (w4 _ _ p3) p4
  refine ⟨st1, st2, st3, st4, st5, s1, s2, s3, s4, s5, ?_⟩
  obtain ⟨c0, m0, fy⟩ := C140_made lt hn h hy
  cases made_unique lt m0 my
  obtain ⟨c0, m0', fz⟩ := C140_made lt hn h hz
  cases made_unique lt m0' mz
  obtain ⟨c1, m1, -⟩ := C140_made lt n1 r1 p1
  obtain ⟨c2, m2, -⟩ := C140_made lt n2 r2 p2
  obtain ⟨c3, m3, -⟩ := C140_made lt n3 r3 p3
  obtain ⟨c4, m4, -⟩ := C140_made lt n4 r4 p4
  obtain ⟨c5, m5, -⟩ := C140_made lt n5 r5 p5
  obtain ⟨e, he⟩ := my.encoding
  obtain ⟨e', he'⟩ := mz.encoding
  have by' := made_built my; have bz := made_built mz
  obtain ⟨u0, l0, fa0, fb0, k0, _, _, q1, q2, q3, q4, q5, -, -, -, q6⟩ :=
    C170_partial r by'.1 bz.1 (e := e) (e' := e') he he' by'.2 bz.2 dy dz fy fz ag
  rw [x1] at q1; rw [x3] at q3; rw [x4] at q4
  cases q1; cases q3; cases q4
  have bu := DocBuilt.union by'.1 bz.1 x1
  have bl0 := DocBuilt.archFilter r bu q2
  have bl := DocBuilt.archFilter r (made_built m1).1 x2
  have bfa := DocBuilt.archFilter r by'.1 x3
  have bfb := DocBuilt.archFilter r bz.1 x4
  have bk0 := DocBuilt.union bfa bfb q5
  have bk := DocBuilt.union (made_built m3).1 (made_built m4).1 x5
  obtain ⟨l', t1, t2, t3⟩ := filter_same lt bu (made_built m1).1 (wrapped lt bu m1) rfl q2
  rw [x2] at t1
  cases t1
  simp only [rest, Prod.mk.injEq] at t3
  have f1 := cmp_same lt bl bl0 t2 t3.1 t3.2.1 t3.2.2.1 t3.2.2.2.1
  have same : ∀ {d : Doc} {c : DocContent}, DocBuilt lt d → Made lt (contentOf d) c →
      d.cmp lt ((contentOf d).toDoc lt) = .ok true := fun bd m =>
    cmp_same lt bd (made_built m).1 (wrapped lt bd m).symm rfl rfl rfl rfl
  obtain ⟨efa, hfa⟩ := m3.encoding
  obtain ⟨v1, v2, t4, t5, t6⟩ := C172_merge_docs_partial bfa (made_built m3).1 bfb (made_built m4).1
    (e := efa) hfa (same bfa m3) (same bfb m4)
  rw [q5] at t4; rw [x5] at t5
  cases t4; cases t5
  have f2 := (C41_doc bl bl0 bk0).2.2 f1 q6
  have f3 := (C41_doc bl bk0 bk).2.2 f2 t6
  exact eq_cmp lt r5 (w5 _ _ (w4 _ _ (w3 _ _ p2))) p5 (wrap_cmp lt bl bk m2 m5 f3)

/-- For `C177_false`: what is done with the documents. -/
def filterSums (r : List CStr) : List Op :=
  [.union 0 1, .archFilter 3 r, .archFilter 0 r, .archFilter 1 r, .union 5 6]

/-- For `C177_false`: whether `(a + b).arch_filter(r) == a.arch_filter(r) + b.arch_filter(r)`. -/
def filterEq (ops : List Op) : Option Bool :=
  match run asc start (ops ++ filterSums [cs b!"x86_64"]) with
  | .ok (_, st) =>
    match answer asc st (.eq 4 (some 7)) with
    | .ok (.bool v) => some v
    | _ => none
  | .error _ => none

/-- For `C177_false`: two documents with a group of the same id for different architectures. -/
def apartOps : List Op := sumOps [archGrp asc [cs b!"x86_64"] [pkg b!"a" b!"1"]]
  [archGrp asc [cs b!"ppc"] [pkg b!"a" b!"1"]]

/-- **C177, false**: both documents have a group of the same id, for different architectures.  In `a + b`
it is for those of `b` and is dropped; filtered first, the group of `a` stays. -/
theorem C177_false : (∀ o ∈ apartOps, NativeOp asc o) ∧ ∃ as st,
    run asc start (apartOps ++ filterSums [cs b!"x86_64"]) = .ok (as, st) ∧
    answer asc st (.eq 4 (some 7)) = .ok (.bool false) := by
  refine ⟨sumOps_native asc ?_ ?_, ?_⟩
  · intro g hg
    rw [List.mem_singleton.1 hg]; exact ⟨archGrp_built _ _, nofun⟩
  · intro g hg
    rw [List.mem_singleton.1 hg]; exact ⟨archGrp_built _ _, nofun⟩
  have h : filterEq apartOps = some false := by decide +kernel
  unfold filterEq at h
  split at h
  · next as st e =>
    split at h
    · next v e' => injection h with h; subst h; exact ⟨_, _, e, e'⟩
    · cases h
  · cases h

/-- Two documents with a group of one id for two architectures, one package of which both have, meet the
conditions of `C177_partial`. -/
example : ∃ as st, run asc start (sumOps [archGrp asc [cs b!"i386", cs b!"arm"] [pkg b!"c" b!"1", forArches [cs b!"ppc"]]]
      [archGrp asc [cs b!"i386", cs b!"arm"] [pkg b!"b" b!"2", forArches [cs b!"ppc"]]]) = .ok (as, st) ∧ Aligned asc st 0 1 := by
  have ga := archGrp_built (lt := asc) [cs b!"i386", cs b!"arm"] [pkg b!"c" b!"1", forArches [cs b!"ppc"]]
  have gb := archGrp_built (lt := asc) [cs b!"i386", cs b!"arm"] [pkg b!"b" b!"2", forArches [cs b!"ppc"]]
  have one : ∀ g : Group, DistinctIds { noContent with groups := [g] } := fun g =>
    ⟨by simp [UniqueNames], by simp [UniqueNames, noContent], by simp [UniqueNames, noContent]⟩
  refine ⟨_, _, rfl, _, _, { noContent with groups := [archGrp asc [cs b!"i386", cs b!"arm"] [pkg b!"c" b!"1", forArches [cs b!"ppc"]]] },
    { noContent with groups := [archGrp asc [cs b!"i386", cs b!"arm"] [pkg b!"b" b!"2", forArches [cs b!"ppc"]]] }, rfl, rfl, ?_, ?_, one _, one _, ?_⟩
  · exact ⟨⟨_, rfl⟩, ⟨_, rfl⟩, ⟨_, rfl⟩, ⟨_, rfl⟩, ⟨rfl, fun g hg => by rw [List.mem_singleton.1 hg]; exact ga⟩,
      ⟨rfl, nofun⟩, ⟨rfl, nofun⟩, ⟨rfl, .create⟩, ⟨rfl, .create⟩, ⟨rfl, .create⟩⟩
  · exact ⟨⟨_, rfl⟩, ⟨_, rfl⟩, ⟨_, rfl⟩, ⟨_, rfl⟩, ⟨rfl, fun g hg => by rw [List.mem_singleton.1 hg]; exact gb⟩,
      ⟨rfl, nofun⟩, ⟨rfl, nofun⟩, ⟨rfl, .create⟩, ⟨rfl, .create⟩, ⟨rfl, .create⟩⟩
  · refine ⟨?_, nofun, nofun⟩
    intro x hx y hy _
    rw [List.mem_singleton.1 hx, List.mem_singleton.1 hy]
    refine ⟨rfl, ?_⟩
    show OneArches Package.getName Package.getArches [pkg b!"c" b!"1", forArches [cs b!"ppc"], pkg b!"b" b!"2",
      forArches [cs b!"ppc"]]
    unfold OneArches
    decide

end Comps.Props.PyC

section
open Comps.Props.PyC
#print axioms C177_partial
#print axioms C177_false
end
