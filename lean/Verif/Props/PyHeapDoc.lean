import Verif.Lemmas.PyHeapDoc
import Verif.Props.PyHeap

/-!
# Documents in Python programs: searches, attributes, validation (C144-C146)

`r` is where a program gets to if objects are never freed (`R`, Verif/Spec/PyHeap.lean), `st` where it gets
to with counted references; they show the same (C106).
-/

namespace Comps.Props.PyHeap
open Comps Comps.Obj Comps.PyHeap
open Comps.PyElem (Pkg EKind Attr PkgAttr GidAttr Arg)
open Comps.Props.PyElem (asc ascii)

section
variable (lt : UInt8 → UInt8 → Bool) (utf8 : Bytes → Bool)

/-- For the proofs: both are reached together. -/
theorem together {lt : UInt8 → UInt8 → Bool} {utf8 : Bytes → Bool} {pre : List Op} {st : St} {r : R}
    {os os' : List Obs} (h : run lt utf8 start pre = .ok (st, os))
    (hr : R.run lt utf8 R.start pre = .ok (r, os')) : Rel st r := by
  obtain ⟨r', h1, h2⟩ := run_back start_rel h
  rw [hr] at h1; cases h1; exact h2

/-! ## C144 searching a document -/

/-- **C144.**  `c.groups_match(...)` (and the same for categories and environments) with texts for
arguments gives a new list; its members are the entries of the document that are wanted, the same
objects in the same order.  Nothing else changes: no object but documents, and no document's entries. -/
theorem C144_search {pre : List Op} {st : St} {r : R} {os os' : List Obs} {v : Nat} (s : DSec)
    {args : SearchArgs} (hl : pre.length ≤ 1000000000) (h : run lt utf8 start pre = .ok (st, os))
    (hr : R.run lt utf8 R.start pre = .ok (r, os')) (hv : r.typeOf v = some .comps) (ha : Takes args) :
    (∃ st1, step lt utf8 st (.search v s args) = .ok (st1, .object)) ∧
    ∃ r1, r.step lt utf8 (.search v s args) = .ok (r1, .object) ∧
      r1.typeOf r.vars.length = some (.list s.kind) ∧
      r1.members r.vars.length = (r.entries v s).filter (wanted r.objs s args.fn (asked args)) ∧
      (∀ (x : Nat) (b : Body), r.objs[x]? = some b → (∀ ls cs, b ≠ .doc ls cs) → r1.objs[x]? = some b) ∧
      (∀ v' s', v' < r.vars.length → r1.entries v' s' = r.entries v' s') := by
  obtain ⟨a, w, n, d, -, hw, hb⟩ := bound_type hv
  obtain ⟨r1, h1, h2, h3, h4, h5⟩ := search_full (utf8 := utf8) (run_typed hl hr) hw hb s ha
  obtain ⟨st1, h6, -⟩ := step_forth (together h hr) h1
  exact ⟨⟨st1, h6⟩, r1, h1, h3, h2, h4, h5⟩

/-- **C144.**  With other arguments it raises an exception and nothing changes. -/
theorem C144_refused {pre : List Op} {st : St} {r : R} {os os' : List Obs} {v : Nat} (s : DSec)
    {args : SearchArgs} (h : run lt utf8 start pre = .ok (st, os))
    (hr : R.run lt utf8 R.start pre = .ok (r, os')) (hv : r.typeOf v = some .comps) (ha : ¬ Takes args) :
    ∃ e st1, step lt utf8 st (.search v s args) = .ok (st1, .exc (.elem e)) ∧
      r.step lt utf8 (.search v s args) = .ok (r, .exc (.elem e)) := by
  obtain ⟨a, w, n, d, -, hw, hb⟩ := bound_type hv
  have e : ∃ e, r.step lt utf8 (.search v s args) = .ok (r, .exc (.elem e)) := by
    rw [R.step, with1_run hw hb]
    dsimp only
    unfold R.search
    cases e : parseQuery args with
    | ok q => exact absurd (parseQuery_inv e).2 ha
    | error x => exact ⟨x, rfl⟩
  obtain ⟨e, he⟩ := e
  obtain ⟨st1, h6, -⟩ := step_forth (together h hr) he
  exact ⟨e, st1, h6, he⟩

/-- **C144.**  The entries searched are the members of `c.groups`: the search gives those of them that are
wanted.  Missing: programs that call `clear`, for which it is false. -/
theorem C144_partial {pre : List Op} {st : St} {r : R} {os os' : List Obs} {v : Nat} (s : DSec)
    {args : SearchArgs} (hl : pre.length < 1000000000) (h : run lt utf8 start pre = .ok (st, os))
    (hr : R.run lt utf8 R.start pre = .ok (r, os')) (hv : r.typeOf v = some .comps) (ha : Takes args)
    (hc : ∀ op ∈ pre, op.clears = false) :
    (∃ st1 st2, step lt utf8 st (.search v s args) = .ok (st1, .object) ∧
      step lt utf8 st1 (.getSec v s) = .ok (st2, .object)) ∧
    ∃ r1 r2, r.step lt utf8 (.search v s args) = .ok (r1, .object) ∧
      r1.step lt utf8 (.getSec v s) = .ok (r2, .object) ∧
      r1.members r.vars.length =
        (r2.members (r.vars.length + 1)).filter (wanted r.objs s args.fn (asked args)) := by
  obtain ⟨a, w, n, d, -, hw, hb⟩ := bound_type hv
  have ht := run_typed (by omega) hr
  obtain ⟨r1, h1, h2, h3, h4, h5⟩ := search_full (utf8 := utf8) ht hw hb s ha
  have hk := step_kept (op := .search v s args) rfl h1
  have ht1 : Typed lt (pre.length + 1) r1 := by
    have := step_outcome (utf8 := utf8) ht (by omega) (.search v s args)
    have hd : Done lt (pre.length + 1) (r.step lt utf8 (.search v s args)) := this
    obtain ⟨r', o, e, ht'⟩ := hd
    rw [h1] at e; cases e; exact ht'
  have htied := hk.tied rfl (run_tied pre hc hr (by intro a ls cs s w h; simp [R.start] at h))
  obtain ⟨r2, g1, g2⟩ := getSec_full (utf8 := utf8) ht1 htied (hk.vars _ _ hw) (hk.wraps _ _ _ _ _ hb) s
  obtain ⟨st1, k1, hr1⟩ := step_forth (together h hr) h1
  obtain ⟨st2, k2, -⟩ := step_forth hr1 g1
  refine ⟨⟨st1, st2, k1, k2⟩, r1, r2, h1, g1, ?_⟩
  have hlen : r1.vars.length = r.vars.length + 1 := by
    rw [R.step, with1_run hw hb] at h1
    dsimp only at h1
    unfold R.search at h1
    rw [parseQuery_takes ha] at h1
    simp only [bind, Except.bind, pure, Except.pure] at h1
    split at h1
    · cases h1
    rename_i x hx
    split at h1
    · cases h1
    split at h1
    · cases h1
    cases h1
    rw [← (secList_frame hx).1]
    simp [R.plain, R.wrapUp, R.push, R.make]
  have hlt : v < r.vars.length := by
    unfold var at hw
    rcases Nat.lt_or_ge v r.vars.length with h | h
    · exact h
    · rw [List.getElem?_eq_none h] at hw; simp at hw
  rw [hlen] at g2
  rw [h2, g2, h5 v s hlt]

end

/-- For the examples: what `fnmatch` answers for patterns without special characters. -/
def plainly : Bytes → Bytes → Bool := fun p t => p == t

/-- For the examples: a search by id. -/
def byId (id : Bytes) : SearchArgs := ⟨some (.str id), none, none, none, plainly⟩

/-- For the examples: `v0 = Group(id="g"); v1 = Group(id="h"); v2 = Comps(); v3 = v2.groups` and
`v3.append(v0); v3.append(v1)`. -/
def collecting : List Op :=
  [.newGroup { id := some (.str b!"g") }, .newGroup { id := some (.str b!"h") }, .newComps,
    .getSec 2 .groups, .append 3 0, .append 3 1]

/-- For the examples: where a program gets to if nothing is freed. -/
def reachedPlain (ops : List Op) : R :=
  match R.run asc ascii R.start ops with
  | .ok (r, _) => r
  | _ => R.start

theorem takes_byId {id : Bytes} (h : 0 ∉ id) : Takes (byId id) := by
  intro x hx
  simp only [byId, List.mem_cons, List.not_mem_nil, or_false] at hx
  rcases hx with rfl | rfl | rfl | rfl
  · rintro y ⟨⟩; exact ⟨id, rfl, h⟩
  · rintro y ⟨⟩
  · rintro y ⟨⟩
  · rintro y ⟨⟩

/-- `v4 = v2.groups_match(id="h")` has one member, and changing its name changes `v1.name`. -/
example : sees asc ascii (collecting ++ [.search 2 .groups (byId b!"h"), .len 4, .getItem 4 0,
      .setAttr 5 .name (some (.str b!"n")), .getAttr 1 .name, .len 3]) =
    .ok ([.object, .object, .object, .object, .none, .none] ++
      [.object, .num 1, .object, .out .done, .val (.ok (.text b!"n")), .num 2]) := rfl

/-- The member found is 8, the second group; the document has 3 and 8. -/
example : (∃ st1, step asc ascii (reached collecting) (.search 2 .groups (byId b!"h")) = .ok (st1, .object)) ∧
    ∃ r1, (reachedPlain collecting).step asc ascii (.search 2 .groups (byId b!"h")) = .ok (r1, .object) ∧
      r1.typeOf 4 = some (.list .groups) ∧ r1.members 4 = [8] ∧ (reachedPlain collecting).entries 2 .groups = [3, 8] := by
  obtain ⟨h1, r1, h2, h3, h4, -⟩ := C144_search asc ascii (pre := collecting) (st := reached collecting)
    (r := reachedPlain collecting) (v := 2) .groups (by decide) rfl rfl rfl (takes_byId (id := b!"h") (by decide))
  exact ⟨h1, r1, h2, h3, h4, rfl⟩

/-- An id that is a number. -/
example : ∃ e st1, step asc ascii (reached collecting) (.search 2 .groups ⟨some (.int 1), none, none, none, plainly⟩) =
      .ok (st1, .exc (.elem e)) ∧
    (reachedPlain collecting).step asc ascii (.search 2 .groups ⟨some (.int 1), none, none, none, plainly⟩) =
      .ok (reachedPlain collecting, .exc (.elem e)) :=
  C144_refused asc ascii (pre := collecting) .groups rfl rfl rfl (by
    intro h
    obtain ⟨b, e, -⟩ := h _ (List.mem_cons_self ..) _ rfl
    cases e)

example : (∃ st1 st2, step asc ascii (reached collecting) (.search 2 .groups (byId b!"h")) = .ok (st1, .object) ∧
      step asc ascii st1 (.getSec 2 .groups) = .ok (st2, .object)) ∧
    ∃ r1 r2, (reachedPlain collecting).step asc ascii (.search 2 .groups (byId b!"h")) = .ok (r1, .object) ∧
      r1.step asc ascii (.getSec 2 .groups) = .ok (r2, .object) ∧
      r1.members 4 = (r2.members 5).filter
        (wanted (reachedPlain collecting).objs .groups plainly (asked (byId b!"h"))) :=
  C144_partial asc ascii (pre := collecting) (r := reachedPlain collecting) .groups (by decide) rfl rfl rfl
    (takes_byId (by decide)) (by
      intro op h
      simp [collecting] at h
      rcases h with h | h | h | h | h | h <;> subst h <;> rfl)

/-- **C144, false.**  After `v2.clear()`, `v2.groups` still has two members but a search finds nothing. -/
theorem C144_false : sees asc ascii (collecting ++ [.clear 2, .getSec 2 .groups, .len 4,
      .search 2 .groups (byId b!"h"), .len 5]) =
    .ok ([.object, .object, .object, .object, .none, .none] ++
      [.none, .object, .num 2, .object, .num 0]) := rfl

/-! ## C145 the attribute is one object -/

section
variable (lt : UInt8 → UInt8 → Bool) (utf8 : Bytes → Bool)

/-- **C145.**  `c.groups` is the Python object it was the first time, whatever was done in between, unless
an attribute of that name has been assigned. -/
theorem C145_same {pre mid : List Op} {v : Nat} {s : DSec} {st st1 st2 : St} {os os2 : List Obs}
    (hpre : run lt utf8 start pre = .ok (st, os))
    (hget : step lt utf8 st (.getSec v s) = .ok (st1, .object))
    (hmid : ∀ o ∈ mid, o.holds v st.vars.length = true ∧ o.assigns ≠ some s)
    (hrun : run lt utf8 st1 mid = .ok (st2, os2)) :
    ∃ st3, step lt utf8 st2 (.getSec v s) = .ok (st3, .object) ∧
      ∃ st4, step lt utf8 st3 (.same st2.vars.length st.vars.length) = .ok (st4, .bool true) := by
  obtain ⟨r, h1, hr⟩ := run_back start_rel hpre
  obtain ⟨r1, h2, hr1⟩ := step_back hr hget
  obtain ⟨r2, h3, hr2⟩ := run_back hr1 hrun
  have hk := getSec_keeps h2
  rw [← hr.vars] at hk
  obtain ⟨r3, r4, g1, g2⟩ := (run_held mid hmid h3 |>.keeps hk).get (lt := lt) (utf8 := utf8)
  obtain ⟨st3, k1, hr3⟩ := step_forth hr2 g1
  rw [← hr2.vars] at g2
  obtain ⟨st4, k2, -⟩ := step_forth hr3 g2
  exact ⟨st3, k1, st4, k2⟩

/-- **C145.**  After `c.groups = l`, `c.groups` is `l` itself, whatever was done in between, unless an
attribute of that name has been assigned. -/
theorem C145_assigned {pre mid : List Op} {v w : Nat} {s : DSec} {st st1 st2 : St} {os os2 : List Obs}
    (hpre : run lt utf8 start pre = .ok (st, os))
    (hset : step lt utf8 st (.setSec v s w) = .ok (st1, .none))
    (hmid : ∀ o ∈ mid, o.holds v w = true ∧ o.assigns ≠ some s)
    (hrun : run lt utf8 st1 mid = .ok (st2, os2)) :
    ∃ st3, step lt utf8 st2 (.getSec v s) = .ok (st3, .object) ∧
      ∃ st4, step lt utf8 st3 (.same st2.vars.length w) = .ok (st4, .bool true) := by
  obtain ⟨r, h1, hr⟩ := run_back start_rel hpre
  obtain ⟨r1, h2, hr1⟩ := step_back hr hset
  obtain ⟨r2, h3, hr2⟩ := run_back hr1 hrun
  obtain ⟨r3, r4, g1, g2⟩ := (run_held mid hmid h3 |>.keeps (setSec_keeps h2)).get (lt := lt) (utf8 := utf8)
  obtain ⟨st3, k1, hr3⟩ := step_forth hr2 g1
  rw [← hr2.vars] at g2
  obtain ⟨st4, k2, -⟩ := step_forth hr3 g2
  exact ⟨st3, k1, st4, k2⟩

end

/-- `v3 = v2.groups` in `collecting`: after the appends `v2.groups is v3`. -/
example : ∃ st3, step asc ascii (reached collecting) (.getSec 2 .groups) = .ok (st3, .object) ∧
    ∃ st4, step asc ascii st3 (.same 4 3) = .ok (st4, .bool true) :=
  C145_same asc ascii (pre := collecting.take 3) (mid := [.append 3 0, .append 3 1]) (v := 2) (s := .groups)
    (st := reached (collecting.take 3)) (st2 := reached collecting) rfl rfl (by decide) rfl

/-- `v4 = GroupList(); v2.groups = v4; v2.clear(); v2.categories = CategoryList(); v2.groups is v4` -/
example : ∃ st3, step asc ascii (reached (collecting ++ [.newList .groups, .setSec 2 .groups 4, .clear 2,
      .newList .categories, .setSec 2 .categories 5])) (.getSec 2 .groups) = .ok (st3, .object) ∧
    ∃ st4, step asc ascii st3 (.same 6 4) = .ok (st4, .bool true) :=
  C145_assigned asc ascii (pre := collecting ++ [.newList .groups])
    (mid := [.clear 2, .newList .categories, .setSec 2 .categories 5]) (v := 2) (w := 4) (s := .groups)
    (st2 := reached (collecting ++ [.newList .groups, .setSec 2 .groups 4, .clear 2,
      .newList .categories, .setSec 2 .categories 5])) rfl rfl (by decide) rfl

/-! ## C146 what is valid -/

section
variable (lt : UInt8 → UInt8 → Bool) (utf8 : Bytes → Bool)

/-- **C146.**  `x.validate()` of a package, group id or entry returns exactly for those that are valid or
have a name without a text, and raises `ValueError` for all others; nothing changes. -/
theorem C146_exact {pre : List Op} {st : St} {r : R} {os os' : List Obs} {v a : Nat} {t : PType}
    (hl : pre.length ≤ 1000000000) (h : run lt utf8 start pre = .ok (st, os))
    (hr : R.run lt utf8 R.start pre = .ok (r, os')) (ht : r.typeOf v = some t) (hc : t.checked = true)
    (ha : r.at? v = some a) :
    ∃ o st1, step lt utf8 st (.validate v) = .ok (st1, o) ∧ r.step lt utf8 (.validate v) = .ok (r, o) ∧
      (o = .none ∧ (Valid r.objs a ∨ Nameless r.objs a) ∨
        o = .exc .valueError ∧ ¬ (Valid r.objs a ∨ Nameless r.objs a)) := by
  obtain ⟨o, h1, h2⟩ := validate_full (utf8 := utf8) (run_typed hl hr) hl ht ha hc
  obtain ⟨st1, h3, -⟩ := step_forth (together h hr) h1
  exact ⟨o, st1, h3, h1, h2⟩

/-- **C146.**  `x.validate()` returns exactly for what is valid.  Missing: packages made without a name, for
which it is false. -/
theorem C146_partial {pre : List Op} {st : St} {r : R} {os os' : List Obs} {v a : Nat} {t : PType}
    (hl : pre.length ≤ 1000000000) (h : run lt utf8 start pre = .ok (st, os))
    (hr : R.run lt utf8 R.start pre = .ok (r, os')) (ht : r.typeOf v = some t) (hc : t.checked = true)
    (ha : r.at? v = some a) (hn : ¬ Nameless r.objs a) :
    ∃ o st1, step lt utf8 st (.validate v) = .ok (st1, o) ∧
      (o = .none ∧ Valid r.objs a ∨ o = .exc .valueError ∧ ¬ Valid r.objs a) := by
  obtain ⟨o, st1, h1, -, h2⟩ := C146_exact lt utf8 hl h hr ht hc ha
  exact ⟨o, st1, h1, by simpa [hn] using h2⟩

/-- **C146.**  `l.append(x)` takes exactly what `validate` passes and, for lists of entries, whose id is not
taken: an id that is taken is a `KeyError`, anything else that does not pass a `ValueError`, and the list
changes only if `x` is added. -/
theorem C146_append {pre : List Op} {st : St} {r : R} {os os' : List Obs} {v v2 a l : Nat} {k : LKind}
    (hl : pre.length ≤ 1000000000) (h : run lt utf8 start pre = .ok (st, os))
    (hr : R.run lt utf8 R.start pre = .ok (r, os')) (ht : r.typeOf v = some (.list k))
    (hv : r.at? v = some l) (ht2 : r.typeOf v2 = some k.elem) (ha : r.at? v2 = some a) :
    ∃ o st1 r1, step lt utf8 st (.append v v2) = .ok (st1, o) ∧ r.step lt utf8 (.append v v2) = .ok (r1, o) ∧
      ((Taken r.objs k (r.members v) a ∧ o = .exc .keyError ∧ r1 = r) ∨
       (¬ Taken r.objs k (r.members v) a ∧ ¬ (Valid r.objs a ∨ Nameless r.objs a) ∧ o = .exc .valueError ∧
          r1 = r) ∨
       (¬ Taken r.objs k (r.members v) a ∧ (Valid r.objs a ∨ Nameless r.objs a) ∧ o = .none ∧
          r1.members v = r.members v ++ [a] ∧ ∀ x, x ≠ l → r1.objs[x]? = r.objs[x]?)) := by
  obtain ⟨g1, g2, g3⟩ := append_full (utf8 := utf8) (run_typed hl hr) hl ht hv ht2 ha
  have hrel := together h hr
  by_cases hT : Taken r.objs k (r.members v) a
  · obtain ⟨st1, h3, -⟩ := step_forth hrel (g1 hT)
    exact ⟨_, st1, r, h3, g1 hT, .inl ⟨hT, rfl, rfl⟩⟩
  · by_cases hV : Valid r.objs a ∨ Nameless r.objs a
    · obtain ⟨r1, h1, h2, h4⟩ := g3 hT hV
      obtain ⟨st1, h3, -⟩ := step_forth hrel h1
      exact ⟨_, st1, r1, h3, h1, .inr (.inr ⟨hT, hV, rfl, h2, h4⟩)⟩
    · obtain ⟨st1, h3, -⟩ := step_forth hrel (g2 hT hV)
      exact ⟨_, st1, r, h3, g2 hT hV, .inr (.inl ⟨hT, hV, rfl, rfl⟩)⟩

end

/-- For the examples: two equal packages in a group. -/
def doubling : List Op :=
  [.newGroup { id := some (.str b!"g") }, .newPackage { name := some (.str b!"vim"), type := some (.int 0) },
    .newPackage { name := some (.str b!"vim"), type := some (.int 0) }, .getList 0 false, .append 3 1,
    .append 3 2]

/-- The group is not valid. -/
theorem doubling_invalid : ¬ Valid (reachedPlain doubling).objs 3 := by
  intro h
  have : Distinct (reachedPlain doubling).objs (some 2) := h.2.1
  have : ([5, 7] : List Nat).Pairwise fun a b => ¬ alike (reachedPlain doubling).objs a b := this
  simp only [List.pairwise_cons] at this
  exact this.1 7 (by simp) ⟨rfl, rfl, rfl⟩

example : ∃ o st1, step asc ascii (reached doubling) (.validate 0) = .ok (st1, o) ∧
      (reachedPlain doubling).step asc ascii (.validate 0) = .ok (reachedPlain doubling, o) ∧
    (o = .none ∧ (Valid (reachedPlain doubling).objs 3 ∨ Nameless (reachedPlain doubling).objs 3) ∨
      o = .exc .valueError ∧ ¬ (Valid (reachedPlain doubling).objs 3 ∨ Nameless (reachedPlain doubling).objs 3)) :=
  C146_exact asc ascii (pre := doubling) (v := 0) (t := .entry .group) (by decide) rfl rfl rfl rfl rfl

example : ∃ st1, step asc ascii (reached doubling) (.validate 0) = .ok (st1, .exc .valueError) := by
  obtain ⟨o, st1, h, ⟨-, hv⟩ | ⟨rfl, -⟩⟩ := C146_partial asc ascii (pre := doubling) (st := reached doubling)
    (r := reachedPlain doubling) (v := 0) (a := 3) (t := .entry .group) (by decide) rfl rfl rfl rfl rfl id
  · exact absurd hv doubling_invalid
  · exact ⟨st1, h⟩

/-- Appending the group `v0` to the list `v3` of the document a second time is refused. -/
example : ∃ st1, step asc ascii (reached collecting) (.append 3 0) = .ok (st1, .exc .keyError) := by
  obtain ⟨o, st1, r1, h, -, ⟨-, rfl, -⟩ | ⟨hn, -⟩ | ⟨hn, -⟩⟩ := C146_append asc ascii (pre := collecting)
    (st := reached collecting) (r := reachedPlain collecting) (v := 3) (v2 := 0) (a := 3) (l := 12)
    (k := .groups) (by decide) rfl rfl rfl rfl rfl rfl
  · exact ⟨st1, h⟩
  · exact absurd ⟨rfl, 3, by decide, rfl⟩ hn
  · exact absurd ⟨rfl, 3, by decide, rfl⟩ hn

/-- **C146, false.**  `v0 = Package(); v1 = Package("")`: both have the name "", and `v0.validate()` returns
while `v1.validate()` raises. -/
theorem C146_false : sees asc ascii [.newPackage {}, .newPackage { name := some (.str b!"") }, .getPkg 0 .name,
      .getPkg 1 .name, .validate 0, .validate 1] =
    .ok [.object, .object, .val (.ok (.text b!"")), .val (.ok (.text b!"")), .none, .exc .valueError] := rfl

end Comps.Props.PyHeap
