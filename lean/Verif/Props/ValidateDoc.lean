import Verif.Lemmas.ValidateDoc
import Verif.Props.Xml

/-!
# Validation of documents and their entries (C61)

`execute o rules` is `comps_validate_execute`; `Says v report` (Spec/ValidateDoc) means that `v` is OK
if the report is empty, and otherwise has exactly the messages of the report with their objects, in
order.
-/

namespace Comps.Props
open Comps Comps.Spec Comps.Obj Comps.Val

variable {lt : UInt8 → UInt8 → Bool}

/-- C61, for documents reached through the API whose entries have lists (`Listed`).  Missing: entries
whose list was set to NULL, for which it is false. -/
theorem C61_partial {d : Doc} (hd : DocBuilt lt d) {c : DocContent} (hs : Shows lt d c)
    (hl : Listed c) : ∃ num : Nat → Bytes, (∀ n, IsDec n (num n)) ∧
      ∃ v, execute (.doc d) (docRules lt) = .ok v ∧ Says v (docReport num c) := by
  have hi := docBuilt_inv hd
  have hc := shows_unique hs (shows_content hi)
  subst hc
  exact ⟨Text.dec, Text.dec_isDec, doc_says hi hl⟩

/-- C61: a document is valid exactly if every entry has an id that is not empty and no entry has the
same package or group id twice in a list. -/
theorem C61_valid {d : Doc} (hd : DocBuilt lt d) {c : DocContent} (hs : Shows lt d c)
    (hl : Listed c) : execute (.doc d) (docRules lt) = .ok .ok ↔
      (∀ g ∈ c.groups, missingId g.props = [] ∧ NoRepeat samePackage (g.packages.getD [])) ∧
      (∀ g ∈ c.categories, missingId g.props = [] ∧ NoRepeat sameGroupId (g.groupIds.getD [])) ∧
      (∀ g ∈ c.environments, missingId g.props = [] ∧ NoRepeat sameGroupId (g.groupList.getD []) ∧
        NoRepeat sameGroupId (g.optionList.getD [])) := by
  obtain ⟨num, -, v, h1, h2⟩ := C61_partial hd hs hl
  have hv : execute (.doc d) (docRules lt) = .ok .ok ↔ docReport num c = [] := by
    rw [h1]
    cases v with
    | ok => exact ⟨fun _ => h2, fun _ => rfl⟩
    | err es => exact ⟨fun h => (by cases h), fun h => absurd h h2.1⟩
  have hz : ∀ {α : Type} {l : List α} {P : α → Prop}, (∀ e ∈ l.zipIdx, P e.1) ↔ ∀ x ∈ l, P x := by
    intro α l P
    refine ⟨fun h x hx => ?_, fun h e he => h _ (List.fst_mem_of_mem_zipIdx he)⟩
    obtain ⟨i, hi, rfl⟩ := List.getElem_of_mem hx
    exact h (l[i], i) (List.mem_zipIdx_iff_getElem?.2 (by simp))
  have hr : ∀ {α : Type} (same : α → α → Bool) (l : List α), repeats same l = [] ↔ NoRepeat same l := by
    intro α same l
    unfold NoRepeat
    rw [List.pairwise_iff_getElem]
    refine ⟨fun h i j hi hj hij => ?_, fun h => List.eq_nil_iff_forall_not_mem.2 ?_⟩
    · cases e : same l[i] l[j] with
      | false => rfl
      | true =>
        exfalso
        have : ∃ k, sameAt same l k j = true ∧ k < j ∧ ∀ k', k' < k → sameAt same l k' j = false := by
          have hs : sameAt same l i j = true := sameAt_iff.2 ⟨_, _, by simp [hi], by simp [hj], e⟩
          cases ef : (List.range j).find? fun k => sameAt same l k j with
          | none =>
            exact absurd hs (by simpa using List.find?_eq_none.1 ef i (List.mem_range.2 hij))
          | some k =>
            rw [List.find?_range_eq_some] at ef
            exact ⟨k, ef.1, List.mem_range.1 ef.2.1, fun k' hk' => by simpa using ef.2.2 k' hk'⟩
        obtain ⟨k, k1, k2, k3⟩ := this
        obtain ⟨a, b, ha, hb, hab⟩ := sameAt_iff.1 k1
        have : (k, j) ∈ repeats same l := mem_repeats.2 ⟨k2, a, b, ha, hb, hab, fun k' hk' c hc => by
          cases e2 : same c b with
          | false => rfl
          | true => rw [← k3 k' hk', sameAt_iff.2 ⟨c, b, hc, hb, e2⟩]⟩
        rw [h] at this; cases this
    · rintro ⟨i, j⟩ hx
      obtain ⟨hij, a, b, ha, hb, hab, -⟩ := mem_repeats.1 hx
      obtain ⟨hi, rfl⟩ := List.getElem?_eq_some_iff.1 ha
      obtain ⟨hj, rfl⟩ := List.getElem?_eq_some_iff.1 hb
      rw [h i j hi hj hij] at hab; cases hab
  rw [hv]
  simp only [docReport, listReport, List.append_eq_nil_iff, List.flatMap_eq_nil_iff, List.map_eq_nil_iff]
  rw [hz (P := fun g => groupReport num g = []), hz (P := fun g => categoryReport num g = []),
    hz (P := fun g => envReport num g = [])]
  simp only [groupReport, categoryReport, envReport, List.append_eq_nil_iff, List.map_eq_nil_iff, hr]

/-- C61: packages and group ids are valid exactly if they have a name that is not empty. -/
theorem C61_names (p : Package) (g : GroupId) :
    (execute (.package p) packageRules = .ok .ok ↔ ∃ t, p.getName = some t ∧ t.val ≠ some []) ∧
    (execute (.groupId g) groupIdRules = .ok .ok ↔ ∃ t, g.getName = some t ∧ t.val ≠ some []) := by
  have key : ∀ (o : VObj) (msg : Bytes) (get : VObj → Res (Option (Option Bytes))) (n : Option CStr),
      get o = .ok (strVal n) →
      (execute o [propRule msg get emptyCheck] = .ok .ok ↔ ∃ t, n = some t ∧ t.val ≠ some []) := by
    intro o msg get n hg
    obtain ⟨v, h1, h2⟩ := empty_says o (strVal n)
    obtain ⟨w, k1, k2⟩ := execute_says o
      [(propRule msg get emptyCheck, (missing (strVal n)).map fun m => (o, m))] (by
      intro x hx
      rw [List.mem_singleton.1 hx]
      exact ⟨v, by simp only [propRule, hg, bind, Except.bind, h1], h2⟩)
    have e : (execute o [propRule msg get emptyCheck] = .ok .ok ↔ missing (strVal n) = []) := by
      rw [show execute o [propRule msg get emptyCheck] = _ from k1]
      cases w with
      | ok => simpa [Says] using k2
      | err es =>
        refine ⟨fun h => (by cases h), fun h => absurd ?_ k2.1⟩
        simp [h]
    rw [e]
    match n with
    | none => simp [strVal, missing]
    | some ⟨none⟩ => simp [strVal, missing]
    | some ⟨some []⟩ => simp [strVal, missing]
    | some ⟨some (x :: xs)⟩ => simp [strVal, missing]
  exact ⟨key _ _ _ _ rfl, key _ _ _ _ rfl⟩

example : execute (.package (pkg b!"a" b!"1")) packageRules = .ok .ok :=
  (C61_names (pkg b!"a" b!"1") .create).1.2 ⟨_, rfl, by decide⟩

/-- A good group, then a group without id that has a package twice, and an environment with an empty
id. -/
def badCalls (lt : UInt8 → UInt8 → Bool) : List DocCall :=
  [.addGroup (idGrp lt b!"g" [pkg b!"a" b!"1"]),
   .addGroup (grp [pkg b!"a" b!"1", pkg b!"b" b!"1", pkg b!"a" b!"1"]),
   .addEnvironment { env [gid b!"x" true] [] with
     props := (PropCall.str .id (some [])).run lt RTree.create }]

theorem badCalls_good : ∀ x ∈ badCalls lt, x.Good lt := by
  simp only [badCalls, List.forall_mem_cons, DocCall.Good]
  refine ⟨idGrp_built _ _, grp_built _, ?_, nofun⟩
  exact EnvBuilt.prop (.str .id (some [])) (.add (gid b!"x" true) .create)

theorem badContent_listed : Listed ((badCalls lt).foldl (DocCall.effect lt) noContent) := by
  refine ⟨?_, fun g hg => (by cases (show g ∈ [] from hg)), ?_,
    show 2 < 2 ^ 64 by decide, show 0 < 2 ^ 64 by decide, show 1 < 2 ^ 64 by decide⟩
  · intro g hg
    rcases List.mem_cons.1 (show g ∈ [idGrp lt b!"g" [pkg b!"a" b!"1"],
        grp [pkg b!"a" b!"1", pkg b!"b" b!"1", pkg b!"a" b!"1"]] from hg) with rfl | hg
    · exact ⟨_, rfl, by decide⟩
    · rw [List.mem_singleton.1 hg]; exact ⟨_, rfl, by decide⟩
  · intro g hg
    rw [List.mem_singleton.1 (show g ∈ [_] from hg)]
    exact ⟨⟨_, rfl, by decide⟩, _, rfl, by decide⟩

/-- The three complaints about that document. -/
example : ∃ d, DocBuilt lt d ∧ ∃ num : Nat → Bytes, (∀ n, IsDec n (num n)) ∧
    ∃ es, execute (.doc d) (docRules lt) = .ok (.err es) ∧ es.map (·.msg) =
      [b!"Groups check:" ++ num 1 ++ b!"." ++ b!"Group id check: attr not set",
       b!"Groups check:" ++ num 1 ++ b!"." ++ b!"Group unique package list check: Duplicate items at " ++
         num 0 ++ b!" and " ++ num 2,
       b!"Environments check:" ++ num 0 ++ b!"." ++ b!"Environment id check: attr empty"] := by
  obtain ⟨d, h1, -, h2⟩ := made (badCalls lt) badCalls_good
  obtain ⟨num, hn, v, h3, h4⟩ := C61_partial h1 h2 badContent_listed
  have hid : ∀ t, (PropCall.run lt RTree.create (.str .id (some t))).get b!"id" = some (.str (cs t)) :=
    fun t => (C43_record (lt := lt) [.str .id (some t)]).1 .id
  have e1 : missingId (idGrp lt b!"g" [pkg b!"a" b!"1"]).props = [] := by
    unfold missingId idGrp
    rw [hid]; rfl
  have e2 : missingId (grp [pkg b!"a" b!"1", pkg b!"b" b!"1", pkg b!"a" b!"1"]).props =
      [b!"attr not set"] := rfl
  have e3 : missingId (PropCall.run lt RTree.create (.str .id (some []))) = [b!"attr empty"] := by
    unfold missingId
    rw [hid]; rfl
  have hr : (docReport num ((badCalls lt).foldl (DocCall.effect lt) noContent)).map (·.2) =
      [b!"Groups check:" ++ num 1 ++ b!"." ++ b!"Group id check: attr not set",
       b!"Groups check:" ++ num 1 ++ b!"." ++ b!"Group unique package list check: Duplicate items at " ++
         num 0 ++ b!" and " ++ num 2,
       b!"Environments check:" ++ num 0 ++ b!"." ++ b!"Environment id check: attr empty"] := by
    show (listReport num b!"Groups check:" (groupReport num) [idGrp lt b!"g" [pkg b!"a" b!"1"],
      grp [pkg b!"a" b!"1", pkg b!"b" b!"1", pkg b!"a" b!"1"]] ++ ([] ++
      listReport num b!"Environments check:" (envReport num) [{ env [gid b!"x" true] [] with
        props := (PropCall.str .id (some [])).run lt RTree.create }])).map Prod.snd = _
    have r1 : repeats samePackage ((idGrp lt b!"g" [pkg b!"a" b!"1"]).packages.getD []) = [] := rfl
    have r2 : repeats samePackage ((grp [pkg b!"a" b!"1", pkg b!"b" b!"1", pkg b!"a" b!"1"]).packages.getD
      []) = [(0, 2)] := by decide
    have r3 : repeats sameGroupId ((env [gid b!"x" true] []).groupList.getD []) = [] := rfl
    have r4 : repeats sameGroupId ((env [gid b!"x" true] []).optionList.getD []) = [] := rfl
    simp [listReport, groupReport, envReport, e1, e2, e3, r1, r2, r3, r4, dupText]
  refine ⟨d, h1, num, hn, ?_⟩
  cases v with
  | ok => rw [show docReport num _ = [] from h4] at hr; cases hr
  | err es =>
    refine ⟨es, h3, ?_⟩
    rw [← h4.2] at hr
    rw [← hr, List.map_map]; rfl

/-- C61 is false for a group whose packages were set to NULL: NULL is read. -/
theorem C61_false : ∃ d : Doc, DocBuilt lt d ∧
    execute (.doc d) (docRules lt) = .error .nullDeref := by
  have hb : DocBuilt lt (newDoc.setObj lt groupsSlot (some [(grp []).setPackageList none])) := by
    refine .call (.setGroups (some [(grp []).setPackageList none])) ?_ newDoc_built rfl
    intro g hg
    rw [List.mem_singleton.1 hg]
    exact .setPackages none (grp_built [])
  refine ⟨_, hb, ?_⟩
  obtain ⟨d1, g1, -⟩ := groupsAt.getObj (docBuilt_inv hb)
  rw [groupsAt.set (docBuilt_inv newDoc_built)] at g1
  have hg : _ = Except.ok ([(grp []).setPackageList none], d1) := g1
  simp only [execute, docRules, executeLoop, propRule, getList, hg, bind, Except.bind]
  rfl

end Comps.Props

section
open Comps.Props
#print axioms C61_partial
#print axioms C61_valid
#print axioms C61_names
#print axioms C61_false
end
