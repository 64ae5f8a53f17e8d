import Verif.Props.FilterNarrow

/-!
# The order of the requested architectures does not matter (C180)
-/

namespace Comps.Props
open Comps Comps.Spec Comps.Obj

variable {lt : UInt8 → UInt8 → Bool}

theorem archKeep_set {r s : List CStr} (h : ∀ x, x ∈ r ↔ x ∈ s) : archKeep r = archKeep s := by
  funext a
  rw [Bool.eq_iff_iff]
  exact ⟨archKeep_sub fun x => (h x).1, archKeep_sub fun x => (h x).2⟩

/-- **C180.**  Two lists with the same architectures, in whatever order and however often, filter every
group, category, environment and document in the same way, also where the filter fails. -/
theorem C180_filters {r s : List CStr} (h : ∀ x, x ∈ r ↔ x ∈ s) (g : Group) (k : Category) (e : Env)
    (d : Doc) : g.archFilter r = g.archFilter s ∧ k.archFilter r = k.archFilter s ∧
      e.archFilter r = e.archFilter s ∧ d.archFilter lt r = d.archFilter lt s := by
  have hk := archKeep_set h
  have h1 : (fun g : Group => g.archFilter r) = fun g => g.archFilter s := by
    funext g; unfold Group.archFilter; rw [hk]
  have h2 : (fun g : Category => g.archFilter r) = fun g => g.archFilter s := by
    funext g; unfold Category.archFilter; rw [hk]
  have h3 : (fun g : Env => g.archFilter r) = fun g => g.archFilter s := by
    funext g; unfold Env.archFilter; rw [hk]
  refine ⟨congrFun h1 g, congrFun h2 k, congrFun h3 e, ?_⟩
  unfold Doc.archFilter docFilterList
  rw [hk, h1, h2, h3]

/-- Two such lists, which leave one of two packages. -/
example : (∀ x, x ∈ [cs b!"arm", cs b!"ppc"] ↔ x ∈ [cs b!"ppc", cs b!"arm", cs b!"ppc"]) ∧
    ∃ g', (archGrp lt [cs b!"x"] [forArches [cs b!"arm"], forArches [cs b!"i386"]]).archFilter
      [cs b!"arm", cs b!"ppc"] = .ok g' ∧ g'.getPackageList = some [forArches [cs b!"arm"]] :=
  ⟨fun x => by simp only [List.mem_cons, List.not_mem_nil, or_false]; constructor <;>
    (intro h; rcases h with h | h <;> simp_all), _, rfl, rfl⟩

end Comps.Props

namespace Comps.Props.PyC
open Comps Comps.Obj Comps.Spec Comps.Spec.PyComps Comps.PyComps Comps.Props

variable (lt : UInt8 → UInt8 → Bool)

/-- **C180.**  In every program that Python can write, for two lists with the same architectures,
`a.arch_filter(r) == a.arch_filter(s)`. -/
theorem C180_python {ops : List Op} {as : List Ans} {st : PyComps.St} (hn : ∀ o ∈ ops, NativeOp lt o)
    (h : run lt start ops = .ok (as, st)) {a : Nat} {y : Content} (hy : Holds lt st a y)
    {r s : List CStr} (hrs : ∀ x, x ∈ r ↔ x ∈ s) :
    ∃ st1 st2, step lt st (.archFilter a r) = .ok (.comps, st1) ∧
      step lt st1 (.archFilter a s) = .ok (.comps, st2) ∧
      answer lt st2 (.eq st.docs.length (some st1.docs.length)) = .ok (.bool true) := by
  obtain ⟨st1, d1, s1, x1, p1, w1, ⟨as1, r1⟩, n1⟩ := filtered lt hn h hy r
  obtain ⟨st2, d2, s2, x2, p2, w2, ⟨as2, r2⟩, n2⟩ := filtered lt n1 r1 (w1 _ _ hy) s
  refine ⟨st1, st2, s1, s2, ?_⟩
  obtain ⟨c, m, -⟩ := C140_made lt hn h hy
  obtain ⟨c1, m1, -⟩ := C140_made lt n1 r1 p1
  obtain ⟨c2, m2, -⟩ := C140_made lt n2 r2 p2
  have b := (made_built m).1
  have e : (y.toDoc lt).archFilter lt r = (y.toDoc lt).archFilter lt s :=
    (C180_filters hrs Group.create Category.create Env.create _).2.2.2
  rw [e, x2] at x1
  cases x1
  have bd := DocBuilt.archFilter s b x2
  exact eq_cmp lt r2 (w2 _ _ p1) p2 (wrap_cmp lt bd bd m1 m2 (C41_doc bd bd bd).1)

/-- A program with such a document. -/
example : ∃ as st y, (∀ o ∈ sumOps [archGrp asc [cs b!"i386", cs b!"arm"] [forArches [cs b!"ppc"]]] [],
      NativeOp asc o) ∧
    run asc start (sumOps [archGrp asc [cs b!"i386", cs b!"arm"] [forArches [cs b!"ppc"]]] []) = .ok (as, st) ∧
    Holds asc st 0 y ∧ (∀ x, x ∈ [cs b!"arm", cs b!"ppc"] ↔ x ∈ [cs b!"ppc", cs b!"arm"]) ∧
    y.part .groups = .groups [archGrp asc [cs b!"i386", cs b!"arm"] [forArches [cs b!"ppc"]]] :=
  ⟨_, _, _, sumOps_native asc (fun g hg => by rw [List.mem_singleton.1 hg]; exact ⟨archGrp_built _ _, nofun⟩)
    nofun, rfl, rfl, fun x => by simp [or_comm], rfl⟩

end Comps.Props.PyC

open Comps.Props Comps.Props.PyC
#print axioms C180_filters
#print axioms C180_python
