import Verif.Lemmas.PyHeapProps
import Verif.Props.PyElem

/-!
# Python programs on documents, entries, lists and dictionaries (C106-C112)

A program is a list of calls; variables are numbered in the order they are bound.  `lt` is the order
of the dictionary's children, `utf8` what Python's decoder accepts; both are arbitrary.
-/

namespace Comps.Props.PyHeap
open Comps Comps.Obj Comps.PyHeap
open Comps.PyElem (Pkg EKind Attr PkgAttr GidAttr Arg)
open Comps.Props.PyElem (asc ascii askedType)

/-- For the examples: `v0 = Group(id="g"); v1 = GroupList(); v1.append(v0)`. -/
def making : List Op := [.newGroup { id := some (.str b!"g") }, .newList .groups, .append 1 0]

/-- For the examples: `v0 = Group(id="g"); v1 = Package("vim", type=0); v2 = Package("mc", type=2)` and
`v3 = PackageList(); v3.append(v1); v3.append(v2); v0.packages = v3`. -/
def packing : List Op :=
  [.newGroup { id := some (.str b!"g") }, .newPackage { name := some (.str b!"vim"), type := some (.int 0) },
    .newPackage { name := some (.str b!"mc"), type := some (.int 2) }, .newList .packages, .append 3 1,
    .append 3 2, .setList 0 false 3]

/-- For the examples: where a program gets to. -/
def reached (ops : List Op) : St :=
  match run asc ascii start ops with
  | .ok (st, _) => st
  | _ => start

section
variable (lt : UInt8 → UInt8 → Bool) (utf8 : Bytes → Bool)

/-- What a program sees, call by call, or how it crashes. -/
def sees (ops : List Op) : Res (List Obs) := (run lt utf8 start ops).map Prod.snd

/-- The same for objects that are never freed. -/
def seesPlain (ops : List Op) : Res (List Obs) := (R.run lt utf8 R.start ops).map Prod.snd

/-! ## C106 memory management cannot be seen -/

/-- **C106.**  Every program sees with counted references exactly what it would see if objects were
never freed: whatever a variable, a list or an entry holds stays as it is until it is changed through
some variable, whatever else is deleted. -/
theorem C106_invisible (ops : List Op) : sees lt utf8 ops = seesPlain lt utf8 ops := run_obs ops start_rel

/-- **C106.**  No program of up to a billion calls ever uses freed memory, reads out of bounds, or
releases for ever. -/
theorem C106_safe (ops : List Op) (hl : ops.length ≤ 1000000000) {f : Fault}
    (h : run lt utf8 start ops = .error f) : f = .nullDeref ∨ f = .typeConfusion := by
  have hs := run_sim lt utf8 ops start_rel
  rcases run_outcome (utf8 := utf8) ops (start_typed (lt := lt)) (by omega) with
    ⟨r', os, h1, -⟩ | ⟨pre, op, post, r', os, f', -, -, hc, h1⟩
  · rw [h1] at hs
    obtain ⟨st', h2, -⟩ := hs
    rw [h] at h2; cases h2
  · rw [h1] at hs
    simp only at hs
    rw [h] at hs
    cases hs
    unfold R.crash at hc
    split at hc <;> (try split at hc) <;> cases hc <;> simp

/-- `v2 = v1[0]; del v0; del v1; v2.id` -/
example : sees asc ascii (making ++ [.getItem 1 0, .del 0, .del 1, .getAttr 2 .id]) =
    .ok [.object, .object, .none, .object, .none, .none, .val (.ok (.text b!"g"))] := by
  rw [C106_invisible]; rfl

/-- `del v3; del v1; v4 = v0.packages; v5 = v4[0]; del v0; v5.name` -/
example : sees asc ascii (packing ++ [.del 3, .del 1, .getList 0 false, .getItem 4 0, .del 0,
      .getPkg 5 .name]) = .ok ([.object, .object, .object, .object, .none, .none, .none] ++
        [.none, .none, .object, .object, .none, .val (.ok (.text b!"vim"))]) := by
  rw [C106_invisible]; rfl

/-- `v1[1]` is refused and what the variable `v2` would be is not there. -/
example {f : Fault} (h : run asc ascii start (making ++ [.getItem 1 1, .getAttr 2 .id]) = .error f) :
    f = .nullDeref ∨ f = .typeConfusion := C106_safe asc ascii _ (by decide) h

/-! ## C107 the same member got twice -/

/-- **C107.**  Getting a member of a list, or a list of an entry, twice gives two Python objects around
the same thing: a later call gives the same results, and so does everything after it, whichever of the
two is used for it.  `f` gets the thing, twice; `op` is the later call.  Missing: programs that assign
`name_by_lang` or `desc_by_lang`, for which it is false (C109), and calls that keep the Python object
itself, `v is w` among them. -/
theorem C107_partial {pre mid rest : List Op} {f op : Op} {st st1 : St} {os : List Obs}
    (hpre : run lt utf8 start pre = .ok (st, os)) (hf : f.fetches = true)
    (hget : step lt utf8 st f = .ok (st1, .object))
    (hmid : ∀ o ∈ mid, o.leaves st.vars.length (st.vars.length + 1) = true)
    (hop : op.uses st.vars.length = true) :
    sees lt utf8 (pre ++ f :: f :: (mid ++ op.rename (subst st.vars.length (st.vars.length + 1)) :: rest)) =
      sees lt utf8 (pre ++ f :: f :: (mid ++ op :: rest)) := by
  obtain ⟨r, h1, hr⟩ := run_back start_rel hpre
  obtain ⟨r1, h2, -⟩ := step_back hr hget
  obtain ⟨r2, h3, ha⟩ := fetch_alias hf h2
  rw [← hr.vars] at ha
  unfold sees
  rw [run_obs _ start_rel, run_obs _ start_rel, run_parts h1, run_parts h1, run_cons h2, run_cons h3,
    run_cons h2, run_cons h3, alias_run hop rest mid ha hmid]

/-- `v2 = v1[0]; v3 = v1[0]; v2.name = "n"`: `v3.name` is "n", and so is `v2.name` after
`v3.name = "n"`. -/
example : sees asc ascii (making ++ .getItem 1 0 :: .getItem 1 0 ::
      ([] ++ .setAttr 3 .name (some (.str b!"n")) :: [.getAttr 2 .name, .getAttr 3 .name])) =
    sees asc ascii (making ++ .getItem 1 0 :: .getItem 1 0 ::
      ([] ++ .setAttr 2 .name (some (.str b!"n")) :: [.getAttr 2 .name, .getAttr 3 .name])) :=
  C107_partial asc ascii (pre := making) (mid := []) (op := .setAttr 2 .name (some (.str b!"n")))
    (st := ⟨_, [some 4, some 6]⟩) rfl rfl rfl (by simp) rfl

example : sees asc ascii (making ++ [.getItem 1 0, .getItem 1 0, .setAttr 2 .name (some (.str b!"n")),
      .getAttr 3 .name]) =
    .ok [.object, .object, .none, .object, .object, .out .done, .val (.ok (.text b!"n"))] := rfl

/-- **C107, false.**  `v1[0] is v1[0]` is `False`. -/
theorem C107_false :
    sees asc ascii (making ++ [.getItem 1 0, .getItem 1 0, .same 2 2]) =
      .ok [.object, .object, .none, .object, .object, .bool true] ∧
    sees asc ascii (making ++ [.getItem 1 0, .getItem 1 0, .same 3 2]) =
      .ok [.object, .object, .none, .object, .object, .bool false] := ⟨rfl, rfl⟩

/-! ## C108 a list assigned to an entry is shared -/

/-- **C108.**  After `v.packages = w` (and the same with `group_ids`, `option_ids`), `v.packages` is the
list `w`: a later call gives the same results, and so does everything after it, whichever of the two is
used for it.  (`op` is the later call; any but those that keep the Python object itself, `v is w` among
them.) -/
theorem C108_shared {pre mid rest : List Op} {v w : Nat} {o : Bool} {op : Op} {st st1 : St} {os : List Obs}
    (hpre : run lt utf8 start pre = .ok (st, os))
    (hset : step lt utf8 st (.setList v o w) = .ok (st1, .none))
    (hmid : ∀ o ∈ mid, o.holds st.vars.length w = true)
    (hop : op.uses st.vars.length = true) :
    (∃ st2, step lt utf8 st1 (.getList v o) = .ok (st2, .object)) ∧
    sees lt utf8 (pre ++ .setList v o w :: .getList v o :: (mid ++ op.rename (subst st.vars.length w) :: rest)) =
      sees lt utf8 (pre ++ .setList v o w :: .getList v o :: (mid ++ op :: rest)) := by
  obtain ⟨r, h1, hr⟩ := run_back start_rel hpre
  obtain ⟨r1, h2, hr1⟩ := step_back hr hset
  obtain ⟨r2, h3, ha⟩ := setList_sharing h2
  rw [← hr.vars] at ha
  refine ⟨?_, ?_⟩
  · obtain ⟨st2, h, -⟩ := step_forth hr1 h3
    exact ⟨st2, h⟩
  unfold sees
  rw [run_obs _ start_rel, run_obs _ start_rel, run_parts h1, run_parts h1, run_cons h2, run_cons h3,
    run_cons h2, run_cons h3, sharing_run hop rest mid ha hmid]

/-- `v0.packages = v3; v4 = v0.packages; v4.clear(); len(v3)` -/
example : sees asc ascii (packing.take 6 ++ .setList 0 false 3 :: .getList 0 false ::
      ([] ++ .clear 3 :: [.len 3, .len 4])) =
    sees asc ascii (packing.take 6 ++ .setList 0 false 3 :: .getList 0 false ::
      ([] ++ .clear 4 :: [.len 3, .len 4])) :=
  (C108_shared asc ascii (pre := packing.take 6) (mid := []) (op := .clear 4)
    (st := ⟨_, [some 4, some 6, some 8, some 10]⟩) rfl rfl (by simp) rfl).2

example : sees asc ascii (packing ++ [.getList 0 false, .clear 4, .len 3, .len 4]) =
    .ok [.object, .object, .object, .object, .none, .none, .none, .object, .none, .num 0, .num 0] := rfl

/-! ## C109 translations assigned to an entry -/

/-- **C109.**  After `v.name_by_lang = w`, `v.name_by_lang` is `w` itself, for the same Python object
`v`.  Missing: other Python objects around the same entry, for which it is false. -/
theorem C109_partial {pre mid : List Op} {v w : Nat} {desc : Bool} {st st1 st2 : St} {os os2 : List Obs}
    (hpre : run lt utf8 start pre = .ok (st, os))
    (hset : step lt utf8 st (.setDict v desc w) = .ok (st1, .none))
    (hmid : ∀ o ∈ mid, o.leaves v w = true)
    (hrun : run lt utf8 st1 mid = .ok (st2, os2)) :
    ∃ st3, step lt utf8 st2 (.getDict v desc) = .ok (st3, .object) ∧
      ∃ st4, step lt utf8 st3 (.same st2.vars.length w) = .ok (st4, .bool true) := by
  obtain ⟨r, h1, hr⟩ := run_back start_rel hpre
  obtain ⟨r1, h2, hr1⟩ := step_back hr hset
  obtain ⟨x, k, a, n, d, x2, hx, hb, hc, hw⟩ := setDict_cached h2
  obtain ⟨r2, h3, hr2⟩ := run_back hr1 hrun
  obtain ⟨g1, g2, g3⟩ := run_kept mid hmid h3
  have e : r2.step lt utf8 (.getDict v desc) = .ok (r2.push x2, .object) := by
    rw [R.step, with1_run (g2 _ hx) (g1 _ _ _ _ _ hb)]
    simp [hc]
  obtain ⟨st3, h4, hr3⟩ := step_forth hr2 e
  refine ⟨st3, h4, ?_⟩
  have e2 : (r2.push x2).step lt utf8 (.same st2.vars.length w) = .ok (r2.push x2, .bool true) := by
    rw [R.step, hr2.vars]
    have : var (r2.push x2).vars r2.vars.length = some x2 := var_new _ _
    rw [this, show var (r2.push x2).vars w = some x2 from var_old (g3 _ hw) _]
    simp
  obtain ⟨st4, h5, -⟩ := step_forth hr3 e2
  exact ⟨st4, h5⟩

/-- For the example: `v2 = Dict(); v2["de"] = "A"; v0.name_by_lang = v2; v2["de"] = "B"`. -/
def translating : List Op :=
  making ++ [.newDict, .dictSet 2 b!"de" b!"A", .setDict 0 false 2, .dictSet 2 b!"de" b!"B"]

/-- `v0.name_by_lang is v2` -/
example : ∃ st3, step asc ascii (reached translating) (.getDict 0 false) = .ok (st3, .object) ∧
    ∃ st4, step asc ascii st3 (.same 3 2) = .ok (st4, .bool true) :=
  C109_partial asc ascii (pre := translating.take 5) (mid := [.dictSet 2 b!"de" b!"B"]) (v := 0) (w := 2)
    (desc := false) (st2 := reached translating) rfl rfl (by simp [Op.leaves]) rfl

/-- **C109, false.**  Of two Python objects `v2 = v1[0]`, `v3 = v1[0]` around one group, the first goes on
giving the translations assigned through it after others have been assigned through the second. -/
theorem C109_false :
    sees asc ascii (making ++ [.getItem 1 0, .getItem 1 0, .newDict, .dictSet 4 b!"de" b!"A", .newDict,
      .dictSet 5 b!"de" b!"B", .setDict 2 false 4, .setDict 3 false 5, .getDict 2 false, .dictGet 6 b!"de",
      .getDict 3 false, .dictGet 7 b!"de"]) =
    .ok ([.object, .object, .none] ++ [.object, .object, .object, .none, .object, .none, .none, .none,
      .object, .val (.ok (.text b!"A")), .object, .val (.ok (.text b!"B"))]) := rfl

/-! ## C110 what stays in memory -/

/-- **C110.**  What is in memory after a program is exactly what can be got at from its variables and
from the references that calls have forgotten (`lost`). -/
theorem C110_exact {ops : List Op} {st : St} {os : List Obs} (hl : ops.length ≤ 1000000000)
    (h : run lt utf8 start ops = .ok (st, os)) :
    ∃ r, R.run lt utf8 R.start ops = .ok (r, os) ∧ st.vars = r.vars ∧
      ∀ a, (∃ c, st.heap[a]? = some (some c)) ↔
        Reach r.objs (st.vars.filterMap id ++ r.lost) a := by
  obtain ⟨r, h1, hr⟩ := run_back start_rel h
  refine ⟨r, h1, hr.vars, fun a => ?_⟩
  rcases run_outcome (utf8 := utf8) ops (start_typed (lt := lt)) (by omega) with
    ⟨r', os', h2, ht⟩ | ⟨pre, op, post, r', os', f', -, -, -, h2⟩
  · rw [h1] at h2
    cases h2
    exact live_iff hr ht a
  · rw [h1] at h2; cases h2

/-- **C110.**  Once a program has deleted all its variables nothing of what it made is left in memory.
Missing: programs that assign to members of lists, use `remove`, or assign lists to entries, for which
it is false. -/
theorem C110_partial {ops : List Op} {st : St} {os : List Obs} (hl : ops.length ≤ 1000000000)
    (hf : ∀ op ∈ ops, op.forgets = false) (h : run lt utf8 start ops = .ok (st, os))
    (hv : ∀ x ∈ st.vars, x = none) (a : Nat) : ¬ ∃ c, st.heap[a]? = some (some c) := by
  obtain ⟨r, h1, -, h2⟩ := C110_exact lt utf8 hl h
  rw [h2 a]
  have hl := run_lost ops hf h1
  have hn : st.vars.filterMap id = [] := by
    rw [List.filterMap_eq_nil_iff]
    intro x hx; rw [hv x hx]; rfl
  rw [hl, hn]
  intro hr
  induction hr with
  | here hm => simp [R.start] at hm
  | inside _ _ _ ih => exact ih

/-- For the example: `v2 = v1[0]; del v0; del v1; v2.id; del v2`. -/
def leaving : List Op := making ++ [.getItem 1 0, .del 0, .del 1, .getAttr 2 .id, .del 2]

/-- Nothing is left. -/
example (a : Nat) : ¬ ∃ c, (reached leaving).heap[a]? = some (some c) :=
  C110_partial asc ascii (ops := leaving) (by decide)
    (by intro op h; simp [leaving, making] at h
        rcases h with h | h | h | h | h | h | h | h <;> subst h <;> rfl) rfl
    (by intro x h; simpa using (show x ∈ [none, none, none] from h)) a

/-- Of the nine objects made by `making` and `v1[0]`, those left without the variables are those in reach
of the list. -/
example : ∃ r, R.run asc ascii R.start (making ++ [.getItem 1 0, .del 0]) =
      .ok (r, [.object, .object, .none, .object, .none]) ∧ (reached (making ++ [.getItem 1 0, .del 0])).vars = r.vars ∧
    ∀ a, (∃ c, (reached (making ++ [.getItem 1 0, .del 0])).heap[a]? = some (some c)) ↔
      Reach r.objs ((reached (making ++ [.getItem 1 0, .del 0])).vars.filterMap id ++ r.lost) a :=
  C110_exact asc ascii (by decide) rfl

/-- **C110, false.**  `v0 = Package("vim"); v1 = PackageList(); v1.append(v0); v1.remove(v0)`: the package
is never freed.  (0 is the package.) -/
theorem C110_false : ∃ st os, run asc ascii start [.newPackage { name := some (.str b!"vim") },
      .newList .packages, .append 1 0, .remove 1 0, .del 0, .del 1] = .ok (st, os) ∧
    st.vars = [none, none] ∧ ∃ c, st.heap[0]? = some (some c) := ⟨_, _, rfl, rfl, _, rfl⟩

/-- **C110, false.**  `v0 = Group("g"); v1 = PackageList(); v0.packages = v1`: the list and the Python
object around it are never freed. -/
theorem C110_false_assign : ∃ st os, run asc ascii start [.newGroup { id := some (.str b!"g") },
      .newList .packages, .setList 0 false 1, .del 0, .del 1] = .ok (st, os) ∧
    st.vars = [none, none] ∧ (∃ c, st.heap[5]? = some (some c)) ∧ (∃ c, st.heap[6]? = some (some c)) :=
  ⟨_, _, rfl, rfl, ⟨_, rfl⟩, ⟨_, rfl⟩⟩

/-- **C110, false.**  `v0 = Group("g"); v1 = Group("h"); v2 = GroupList(); v2.append(v0); v2[0] = v1`: the
second group is never freed. -/
theorem C110_false_item : ∃ st os, run asc ascii start [.newGroup { id := some (.str b!"g") },
      .newGroup { id := some (.str b!"h") }, .newList .groups, .append 2 0, .setItem 2 0 1, .del 0, .del 1,
      .del 2] = .ok (st, os) ∧
    st.vars = [none, none, none] ∧ ∃ c, st.heap[8]? = some (some c) := ⟨_, _, rfl, rfl, _, rfl⟩

/-! ## C111 the result of a search -/

/-- **C111.**  `g.packages_match(name, type)` gives a new list of the group's own packages: the objects
are members of `g.packages`, in order, and are those the search asks for (C104); no object that there
was is changed. -/
theorem C111_search {pre : List Op} {v : Nat} {name type : Option Arg} {st st1 : St} {os : List Obs}
    (hpre : run lt utf8 start pre = .ok (st, os))
    (hget : step lt utf8 st (.packagesMatch v name type) = .ok (st1, .object)) :
    ∃ r r1 r2, R.run lt utf8 R.start pre = .ok (r, os) ∧
      r.step lt utf8 (.packagesMatch v name type) = .ok (r1, .object) ∧
      r1.step lt utf8 (.getList v false) = .ok (r2, .object) ∧
      (r2.members r.vars.length).Sublist (r2.members (r.vars.length + 1)) ∧
      PyElem.packagesMatch (r2.packages (r.vars.length + 1)) name type = .ok (r2.packages r.vars.length) ∧
      (∀ a < r.objs.length, r2.objs[a]? = r.objs[a]?) := by
  obtain ⟨r, h1, hr⟩ := run_back start_rel hpre
  obtain ⟨r1, h2, -⟩ := step_back hr hget
  obtain ⟨r2, h3, g⟩ := search_spec h2
  exact ⟨r, r1, r2, h1, h2, h3, g⟩

/-- `v4 = v0.packages_match(type=2)`: `v4` has the second package alone; `v3` stays as it is, and a
change of the package through `v4` is seen through `v2`. -/
example : sees asc ascii (packing ++ [.packagesMatch 0 none (some (.int 2)), .len 4, .len 3, .getItem 4 0,
      .setPkg 5 .name (some (.str b!"nano")), .getPkg 2 .name]) =
    .ok ([.object, .object, .object, .object, .none, .none, .none] ++
      [.object, .num 1, .num 2, .object, .out .done, .val (.ok (.text b!"nano"))]) := rfl

example : ∃ r r1 r2,
    R.run asc ascii R.start packing = .ok (r, [.object, .object, .object, .object, .none, .none, .none]) ∧
    r.step asc ascii (.packagesMatch 0 none (some (.int 2))) = .ok (r1, .object) ∧
      r1.step asc ascii (.getList 0 false) = .ok (r2, .object) ∧
      (r2.members r.vars.length).Sublist (r2.members (r.vars.length + 1)) ∧
      PyElem.packagesMatch (r2.packages (r.vars.length + 1)) none (some (.int 2)) =
        .ok (r2.packages r.vars.length) ∧
      (∀ a < r.objs.length, r2.objs[a]? = r.objs[a]?) :=
  C111_search asc ascii (pre := packing) (st := reached packing)
    (st1 := reached (packing ++ [.packagesMatch 0 none (some (.int 2))])) rfl rfl

/-! ## C112 which programs crash -/

/-- **C112.**  A program of up to a billion calls ends, or crashes in a call of the kinds that `R.crash`
lists: deleting a number, a flag or a list of a document, or assigning to a member of a list of
packages. -/
theorem C112_exact (ops : List Op) (hl : ops.length ≤ 1000000000) :
    (∃ st os, run lt utf8 start ops = .ok (st, os)) ∨
    ∃ pre op post r os f, ops = pre ++ op :: post ∧ R.run lt utf8 R.start pre = .ok (r, os) ∧
      r.crash op = some f ∧ run lt utf8 start ops = .error f := by
  have hs := run_sim lt utf8 ops start_rel
  rcases run_outcome (utf8 := utf8) ops (start_typed (lt := lt)) (by omega) with
    ⟨r', os, h1, -⟩ | ⟨pre, op, post, r', os, f', e, hp, hc, h1⟩
  · rw [h1] at hs
    obtain ⟨st', h2, -⟩ := hs
    exact .inl ⟨st', os, h2⟩
  · rw [h1] at hs
    exact .inr ⟨pre, op, post, r', os, f', e, hp, hc, hs⟩

/-- **C112.**  Those calls crash, in every state a program can be in. -/
theorem C112_crash {pre : List Op} {st : St} {os : List Obs} (hl : pre.length ≤ 1000000000)
    (hpre : run lt utf8 start pre = .ok (st, os)) :
    ∃ r, R.run lt utf8 R.start pre = .ok (r, os) ∧
      ∀ op f, r.crash op = some f → step lt utf8 st op = .error f := by
  obtain ⟨r, h1, hr⟩ := run_back start_rel hpre
  refine ⟨r, h1, fun op f hc => ?_⟩
  rcases run_outcome (utf8 := utf8) pre (start_typed (lt := lt)) (by omega) with
    ⟨r', os', h2, ht⟩ | ⟨pre, op, post, r', os', f', -, -, -, h2⟩
  · rw [h1] at h2
    cases h2
    have ho := step_outcome (utf8 := utf8) ht (by omega) op
    rw [hc] at ho
    have hs := step_sim lt utf8 hr op
    rw [show r.step lt utf8 op = .error f from ho] at hs
    exact hs
  · rw [h1] at h2; cases h2

/-- The calls that may crash. -/
def risky : Op → Bool
  | .setAttr _ .displayOrder none => true
  | .setPkg _ .type none => true
  | .setPkg _ .basearchonly none => true
  | .setGid _ .default none => true
  | .setItem _ _ _ => true
  | .delSec _ _ => true
  | _ => false

/-- **C112.**  A program of up to a billion calls that deletes no numbers, flags and lists of documents
and does not assign to members of lists never crashes, whatever it does with its objects.  Missing: those calls, for which
it is false. -/
theorem C112_partial (ops : List Op) (hl : ops.length ≤ 1000000000) (hr : ∀ op ∈ ops, risky op = false) :
    ∃ st os, run lt utf8 start ops = .ok (st, os) := by
  rcases C112_exact lt utf8 ops hl with h | ⟨pre, op, post, r, os, f, e, -, hc, -⟩
  · exact h
  · have := hr op (by simp [e])
    unfold R.crash at hc
    split at hc <;> simp_all [risky]

example : ∃ st os, run asc ascii start (packing ++ [.clear 3, .del 0, .getItem 3 7, .append 3 3, .remove 3 2,
    .setPkg 1 .name none, .del 3, .len 3]) = .ok (st, os) :=
  C112_partial asc ascii _ (by decide)
    (by intro op h; simp [packing] at h; rcases h with h | h | h | h | h | h | h | h | h | h | h | h | h | h | h <;>
      subst h <;> rfl)

/-- Which objects each list type holds, by the documentation. -/
def membersOf : LKind → PType
  | .packages => .package
  | .ids => .groupId
  | .groups => .entry .group
  | .categories => .entry .category
  | .environments => .entry .environment

/-- `type(v)`. -/
def typeOf (st : St) (v : Nat) : Option PType :=
  match var st.vars v with
  | none => none
  | some w =>
    match st.heap[w]? with
    | some (some ⟨_, .wrap t _ _ _⟩) => some t
    | _ => none

theorem with1_typeOf {st : St} {v : Nat} {t : PType} (h : typeOf st v = some t) :
    ∃ w a n d, ∀ f, with1 st v f = f w t a n d := by
  unfold typeOf at h
  split at h
  · cases h
  · rename_i w hw
    split at h
    · rename_i rc t' a n d hb
      cases h
      refine ⟨w, a, n, d, fun f => ?_⟩
      simp [with1, hw, asWrap, PyHeap.read, load, hb, bind, Except.bind, pure, Except.pure]
    · cases h

theorem typeOf_wrapUp (st : St) (t : PType) (a : Nat) :
    typeOf (st.wrapUp t a) st.vars.length = some t := by
  simp [typeOf, St.wrapUp, var, alloc]

/-- **C112.**  No program confuses types through a list: in every state, a list refuses an object of
another type with `TypeError` and stays as it was, and `v[i]` and `v["id"]` of a list of groups is a
group, and so on. -/
theorem C112_kinds {st : St} {v : Nat} {k : LKind} (hv : typeOf st v = some (.list k)) :
    (∀ v2 t i, typeOf st v2 = some t → t ≠ membersOf k →
      step lt utf8 st (.append v v2) = .ok (st, .exc .typeError) ∧
      step lt utf8 st (.insert v i v2) = .ok (st, .exc .typeError) ∧
      step lt utf8 st (.setItem v i v2) = .ok (st, .exc .typeError)) ∧
    (∀ op i id st', op = .getItem v i ∨ op = .getById v id → step lt utf8 st op = .ok (st', .object) →
      typeOf st' st.vars.length = some (membersOf k)) := by
  have he : k.elem = membersOf k := by cases k <;> rfl
  obtain ⟨w, a, n, d, hw⟩ := with1_typeOf hv
  constructor
  · intro v2 t i h2 ht
    obtain ⟨w2, a2, n2, d2, hw2⟩ := with1_typeOf h2
    rw [← he] at ht
    simp [step, with2, hw, hw2, ht]
  · intro op i id st' hop h
    have key : ∀ (x : St) (b : Nat), x.vars = st.vars →
        typeOf (x.wrapUp k.elem b) st.vars.length = some (membersOf k) := by
      intro x b e
      rw [← he, ← e]; exact typeOf_wrapUp _ _ _
    rcases hop with rfl | rfl
    · simp only [step, hw, getItem, bind, Except.bind] at h
      split at h
      · cases h
      · split at h
        · cases h
        · split at h
          · cases h
          · cases h; exact key _ _ rfl
    · simp only [step, hw] at h
      split at h
      · simp only [getById, bind, Except.bind] at h
        split at h
        · cases h
        · split at h
          · cases h
          · split at h
            · cases h
            · split at h
              · cases h
              · cases h; exact key _ _ rfl
      · cases h

example : typeOf (reached making) 1 = some (.list .groups) ∧
    typeOf (reached making) 0 = some (membersOf .groups) ∧
    (step asc ascii (reached making) (.getById 1 b!"g")).toOption.map Prod.snd matches some .object :=
  ⟨rfl, rfl, rfl⟩

/-- **C112, false.**  `v3[0] = v2` for a list of packages uses a string as a dictionary; `del v0.display_order`,
`del v1.type` and `del v4.groups` for `v4 = Comps()` read through a NULL pointer. -/
theorem C112_false :
    sees asc ascii (packing ++ [.setItem 3 0 2]) = .error .typeConfusion ∧
    sees asc ascii (packing ++ [.setAttr 0 .displayOrder none]) = .error .nullDeref ∧
    sees asc ascii (packing ++ [.setPkg 1 .type none]) = .error .nullDeref ∧
    sees asc ascii (packing ++ [.newComps, .delSec 4 .groups]) = .error .nullDeref := ⟨rfl, rfl, rfl, rfl⟩

example : ∃ r,
    R.run asc ascii R.start packing = .ok (r, [.object, .object, .object, .object, .none, .none, .none]) ∧
    ∀ op f, r.crash op = some f → step asc ascii (reached packing) op = .error f :=
  C112_crash asc ascii (pre := packing) (by decide) rfl

example : ∃ r, R.run asc ascii R.start packing =
      .ok (r, [.object, .object, .object, .object, .none, .none, .none]) ∧
    r.crash (.setItem 3 0 2) = some .typeConfusion ∧ r.crash (.setItem 3 2 2) = none := ⟨_, rfl, rfl, rfl⟩

end
#print axioms C106_invisible
#print axioms C106_safe
#print axioms C107_partial
#print axioms C107_false
#print axioms C108_shared
#print axioms C109_partial
#print axioms C109_false
#print axioms C110_exact
#print axioms C110_partial
#print axioms C110_false
#print axioms C110_false_assign
#print axioms C110_false_item
#print axioms C111_search
#print axioms C112_exact
#print axioms C112_crash
#print axioms C112_partial
#print axioms C112_kinds
#print axioms C112_false

end Comps.Props.PyHeap
