import Verif.Lemmas.PyHeap

/-! # Python programs with and without memory management -/

namespace Comps.PyHeap
open Comps Comps.Obj
open Comps.PyElem (Pkg EKind Attr PkgAttr GidAttr Arg)

/-! ## Reading -/

theorem idOf_eq {h : Heap} {e : List Nat} {objs : List Body} (g : Good h e objs) {a : Nat}
    {b : Body} (hh : Has h a b) : idOf (read h) a = idOf (look objs) a := by
  unfold idOf; rw [g.readEq hh]

theorem keyOf_eq {h : Heap} {e : List Nat} {objs : List Body} (g : Good h e objs) {a : Nat}
    {b : Body} (hh : Has h a b) : keyOf (read h) a = keyOf (look objs) a := by
  unfold keyOf; rw [g.readEq hh]

theorem asLeaf_eq {h : Heap} {e : List Nat} {objs : List Body} (g : Good h e objs) {a : Nat}
    {b : Body} (hh : Has h a b) : asLeaf (read h) a = asLeaf (look objs) a := by
  unfold asLeaf; rw [g.readEq hh]

theorem uniqueLoop_eq {h : Heap} {e : List Nat} {objs : List Body} (g : Good h e objs)
    (id : Option CStr) {items : List Nat} (hs : ∀ a ∈ items, ∃ b, Has h a b) :
    uniqueLoop (read h) id items = uniqueLoop (look objs) id items := by
  induction items with
  | nil => rfl
  | cons a as ih =>
    obtain ⟨b, hb⟩ := hs a (by simp)
    simp only [uniqueLoop]
    rw [idOf_eq g hb, ih (fun x hx => hs x (by simp [hx]))]

theorem unique_eq {h : Heap} {e : List Nat} {objs : List Body} (g : Good h e objs)
    {items : List Nat} (hs : ∀ a ∈ items, ∃ b, Has h a b) {a : Nat} {b : Body} (hh : Has h a b) :
    unique (read h) items a = unique (look objs) items a := by
  unfold unique
  rw [idOf_eq g hh]
  congr 1
  funext id
  exact uniqueLoop_eq g id hs

theorem findId_eq {h : Heap} {e : List Nat} {objs : List Body} (g : Good h e objs)
    (id : Bytes) {items : List Nat} (hs : ∀ a ∈ items, ∃ b, Has h a b) :
    findId (read h) id items = findId (look objs) id items := by
  induction items with
  | nil => rfl
  | cons a as ih =>
    obtain ⟨b, hb⟩ := hs a (by simp)
    simp only [findId]
    rw [keyOf_eq g hb, ih (fun x hx => hs x (by simp [hx]))]

theorem findId_mem (ld : Nat → Res Body) (id : Bytes) {items : List Nat} {a : Nat}
    (h : findId ld id items = .ok (some a)) : a ∈ items := by
  induction items with
  | nil => simp [findId] at h
  | cons x xs ih =>
    simp only [findId, bind, Except.bind] at h
    cases hk : keyOf ld x with
    | error f => rw [hk] at h; simp at h
    | ok k =>
      rw [hk] at h
      dsimp only at h
      split at h
      · simp at h; simp [h]
      · simp [ih h]

theorem leaves_eq {h : Heap} {e : List Nat} {objs : List Body} (g : Good h e objs)
    {items : List Nat} (hs : ∀ a ∈ items, ∃ b, Has h a b) :
    leaves (read h) items = leaves (look objs) items := by
  induction items with
  | nil => rfl
  | cons a as ih =>
    obtain ⟨b, hb⟩ := hs a (by simp)
    simp only [leaves]
    rw [asLeaf_eq g hb, ih (fun x hx => hs x (by simp [hx]))]

theorem matching_eq {h : Heap} {e : List Nat} {objs : List Body} (g : Good h e objs)
    (name : Option Bytes) (type : Int) {items : List Nat} (hs : ∀ a ∈ items, ∃ b, Has h a b) :
    matching (read h) name type items = matching (look objs) name type items := by
  induction items with
  | nil => rfl
  | cons a as ih =>
    obtain ⟨b, hb⟩ := hs a (by simp)
    simp only [matching]
    rw [asLeaf_eq g hb, ih (fun x hx => hs x (by simp [hx]))]

theorem matching_sub (ld : Nat → Res Body) (name : Option Bytes) (type : Int) {items : List Nat} :
    ∀ {found : List Nat}, matching ld name type items = .ok found → ∀ a ∈ found, a ∈ items := by
  induction items with
  | nil => intro found hf; simp only [matching] at hf; injection hf with hf; subst hf; simp
  | cons x xs ih =>
    intro found hf
    simp only [matching, bind, Except.bind] at hf
    cases hx : asLeaf ld x with
    | error f => rw [hx] at hf; simp at hf
    | ok l =>
      rw [hx] at hf
      cases l with
      | gid _ => simp at hf
      | pkg p =>
        cases hr : matching ld name type xs with
        | error f => rw [hr] at hf; simp at hf
        | ok rest =>
          rw [hr] at hf
          simp only [pure, Except.pure] at hf
          injection hf with hf
          have := ih hr
          intro a ha
          subst hf
          split at ha
          · rcases List.mem_cons.1 ha with h1 | h1
            · simp [h1]
            · simp [this a h1]
          · simp [this a ha]

theorem asList_has {h : Heap} {e : List Nat} {objs : List Body} (g : Good h e objs) {l : Nat}
    {b : Body} (hh : Has h l b) {k : LKind} {items : List Nat}
    (ho : asList (look objs) l = .ok (k, items)) : Has h l (.list k items) := by
  unfold asList at ho
  rw [g.look hh] at ho
  simp only [bind, Except.bind] at ho
  cases b <;> simp at ho
  obtain ⟨rfl, rfl⟩ := ho
  exact hh

theorem asEnt_has {h : Heap} {e : List Nat} {objs : List Body} (g : Good h e objs) {l : Nat}
    {b : Body} (hh : Has h l b) {en : Ent} (ho : asEnt (look objs) l = .ok en) :
    Has h l en.body := by
  unfold asEnt at ho
  rw [g.look hh] at ho
  simp only [bind, Except.bind] at ho
  cases b <;> simp at ho
  subst ho
  exact hh

theorem asDict_has {h : Heap} {e : List Nat} {objs : List Body} (g : Good h e objs) {l : Nat}
    {b : Body} (hh : Has h l b) {t : RTree PVal} (ho : asDict (look objs) l = .ok t) :
    Has h l (.dict t) := by
  unfold asDict at ho
  rw [g.look hh] at ho
  simp only [bind, Except.bind] at ho
  cases b <;> simp at ho
  subst ho
  exact hh

theorem asWrap_has {h : Heap} {e : List Nat} {objs : List Body} (g : Good h e objs) {l : Nat}
    {b : Body} (hh : Has h l b) {t : PType} {a : Nat} {n d : Option Nat}
    (ho : asWrap (look objs) l = .ok (t, a, n, d)) : Has h l (.wrap t a n d) := by
  unfold asWrap at ho
  rw [g.look hh] at ho
  simp only [bind, Except.bind] at ho
  cases b <;> simp at ho
  obtain ⟨rfl, rfl, rfl, rfl⟩ := ho
  exact hh

theorem asList_eq {h : Heap} {e : List Nat} {objs : List Body} (g : Good h e objs) {a : Nat}
    {b : Body} (hh : Has h a b) : asList (read h) a = asList (look objs) a := by
  unfold asList; rw [g.readEq hh]

theorem asEnt_eq {h : Heap} {e : List Nat} {objs : List Body} (g : Good h e objs) {a : Nat}
    {b : Body} (hh : Has h a b) : asEnt (read h) a = asEnt (look objs) a := by
  unfold asEnt; rw [g.readEq hh]

theorem asDict_eq {h : Heap} {e : List Nat} {objs : List Body} (g : Good h e objs) {a : Nat}
    {b : Body} (hh : Has h a b) : asDict (read h) a = asDict (look objs) a := by
  unfold asDict; rw [g.readEq hh]

theorem asWrap_eq {h : Heap} {e : List Nat} {objs : List Body} (g : Good h e objs) {a : Nat}
    {b : Body} (hh : Has h a b) : asWrap (read h) a = asWrap (look objs) a := by
  unfold asWrap; rw [g.readEq hh]

theorem items_live {h : Heap} {e : List Nat} {objs : List Body} (g : Good h e objs) {l : Nat}
    {k : LKind} {items : List Nat} (hh : Has h l (.list k items)) :
    ∀ a ∈ items, ∃ b, Has h a b := fun _ ha => g.child hh ha

theorem listFine_eq {h : Heap} {e : List Nat} {objs : List Body} (g : Good h e objs) {a : Nat}
    {b : Body} (hh : Has h a b) : listFine (read h) a = listFine (look objs) a := by
  unfold listFine
  rw [asList_eq g hh]
  cases ho : asList (look objs) a with
  | error f => rfl
  | ok p =>
    obtain ⟨k, items⟩ := p
    have := items_live g (asList_has g hh ho)
    simp only [bind, Except.bind]
    rw [leaves_eq g this]

theorem optFine_eq {h : Heap} {e : List Nat} {objs : List Body} (g : Good h e objs) {o : Option Nat}
    (hh : ∀ a, o = some a → ∃ b, Has h a b) : optFine (read h) o = optFine (look objs) o := by
  cases o with
  | none => rfl
  | some a => obtain ⟨b, hb⟩ := hh a rfl; exact listFine_eq g hb

theorem passes_eq {h : Heap} {e : List Nat} {objs : List Body} (g : Good h e objs) {a : Nat}
    {b : Body} (hh : Has h a b) : passes (read h) a = passes (look objs) a := by
  unfold passes
  rw [g.readEq hh, g.look hh]
  simp only [bind, Except.bind]
  cases b with
  | entry k p n d l o =>
    simp only
    have hl : ∀ x, l = some x → listFine (read h) x = listFine (look objs) x := by
      rintro x rfl
      obtain ⟨y, hy⟩ := g.child (c := x) hh (by simp [Body.children])
      exact listFine_eq g hy
    have ho : optFine (read h) o = optFine (look objs) o := by
      refine optFine_eq g ?_
      rintro x rfl
      exact g.child (c := x) hh (by simp [Body.children])
    rw [ho]
    cases l with
    | none => rfl
    | some x => simp only [nonNull]; rw [hl x rfl]
  | _ => rfl

theorem asDoc_eq {h : Heap} {e : List Nat} {objs : List Body} (g : Good h e objs) {a : Nat}
    {b : Body} (hh : Has h a b) : asDoc (read h) a = asDoc (look objs) a := by
  unfold asDoc; rw [g.readEq hh]

theorem asDoc_has {h : Heap} {e : List Nat} {objs : List Body} (g : Good h e objs) {l : Nat}
    {b : Body} (hh : Has h l b) {ls cs : Three} (ho : asDoc (look objs) l = .ok (ls, cs)) :
    Has h l (.doc ls cs) := by
  unfold asDoc at ho
  rw [g.look hh] at ho
  simp only [bind, Except.bind] at ho
  cases b <;> simp at ho
  obtain ⟨rfl, rfl⟩ := ho
  exact hh

theorem entMatches_eq {h : Heap} {e : List Nat} {objs : List Body} (g : Good h e objs) {a : Nat}
    {b : Body} (hh : Has h a b) (fn : Bytes → Bytes → Bool) (s : DSec) (q : Query) :
    entMatches (read h) fn s q a = entMatches (look objs) fn s q a := by
  unfold entMatches
  rw [asEnt_eq g hh]
  cases ho : asEnt (look objs) a with
  | error f => rfl
  | ok en =>
    have hen := asEnt_has g hh ho
    have hd : ∀ x : Nat, x ∈ en.body.children → asDict (read h) x = asDict (look objs) x := by
      intro x hx
      obtain ⟨b', hb'⟩ := g.child hen hx
      exact asDict_eq g hb'
    obtain ⟨ek, ep, en1, ed, el, eo⟩ := en
    simp only [Ent.body, Body.children] at hd
    simp only [bind, Except.bind]
    cases en1 with
    | none => rfl
    | some n =>
      cases ed with
      | none => simp only [nonNull]; rw [hd n (by simp)]
      | some d => simp only [nonNull]; rw [hd n (by simp), hd d (by simp)]

theorem matchingEnts_eq {h : Heap} {e : List Nat} {objs : List Body} (g : Good h e objs)
    (fn : Bytes → Bytes → Bool) (s : DSec) (q : Query) {items : List Nat}
    (hs : ∀ a ∈ items, ∃ b, Has h a b) :
    matchingEnts (read h) fn s q items = matchingEnts (look objs) fn s q items := by
  induction items with
  | nil => rfl
  | cons a as ih =>
    obtain ⟨b, hb⟩ := hs a (by simp)
    simp only [matchingEnts]
    rw [entMatches_eq g hb, ih (fun x hx => hs x (by simp [hx]))]

theorem matchingEnts_sub (ld : Nat → Res Body) (fn : Bytes → Bytes → Bool) (s : DSec) (q : Query)
    {items : List Nat} : ∀ {found : List Nat}, matchingEnts ld fn s q items = .ok found →
      ∀ a ∈ found, a ∈ items := by
  induction items with
  | nil => intro found hf; simp only [matchingEnts] at hf; injection hf with hf; subst hf; simp
  | cons x xs ih =>
    intro found hf
    simp only [matchingEnts, bind, Except.bind] at hf
    cases hx : entMatches ld fn s q x with
    | error f => rw [hx] at hf; simp at hf
    | ok l =>
      rw [hx] at hf
      cases hr : matchingEnts ld fn s q xs with
      | error f => rw [hr] at hf; simp at hf
      | ok rest =>
        rw [hr] at hf
        simp only [pure, Except.pure] at hf
        injection hf with hf
        have := ih hr
        intro a ha
        subst hf
        split at ha
        · rcases List.mem_cons.1 ha with h1 | h1
          · simp [h1]
          · simp [this a h1]
        · simp [this a ha]

theorem Three.get_set (t : Three) (s : DSec) (x : Option Nat) : (t.set s x).get s = x := by
  cases s <;> rfl

theorem Three.get_set_ne (t : Three) {s s' : DSec} (h : s ≠ s') (x : Option Nat) :
    (t.set s x).get s' = t.get s' := by
  cases s <;> cases s' <;> first | rfl | exact absurd rfl h

theorem Three.take_perm (t : Three) (s : DSec) :
    t.toList.Perm ((t.set s Option.none).toList ++ (t.get s).toList) := by
  cases s <;> simp only [Three.toList, Three.set, Three.get, Option.toList_none, List.nil_append,
    List.append_nil, List.append_assoc]
  · exact List.perm_append_comm.trans (by simp)
  · exact List.Perm.append_left _ List.perm_append_comm
  · exact List.Perm.refl _

theorem Three.put_perm (t : Three) (s : DSec) (x : Nat) :
    (t.set s (some x)).toList.Perm (x :: (t.set s Option.none).toList) := by
  cases s <;> simp only [Three.toList, Three.set, Option.toList_none, Option.toList_some,
    List.nil_append, List.append_nil, List.append_assoc]
  · exact List.Perm.refl _
  · exact List.perm_middle
  · rw [← List.append_assoc]; exact List.perm_append_comm

theorem Three.mem_get {t : Three} {s : DSec} {x : Nat} (h : t.get s = some x) : x ∈ t.toList := by
  cases s <;> simp only [Three.get] at h <;> simp [Three.toList, h]

theorem Three.mem_toList {t : Three} {x : Nat} (h : x ∈ t.toList) : ∃ s, t.get s = some x := by
  simp only [Three.toList, List.mem_append, Option.mem_toList] at h
  rcases h with (h | h) | h
  · exact ⟨.groups, h⟩
  · exact ⟨.categories, h⟩
  · exact ⟨.environments, h⟩

theorem Three.set_same {t : Three} {s : DSec} {x : Option Nat} (h : t.get s = x) : t.set s x = t := by
  subst h
  cases s <;> rfl

theorem Three.set_set (t : Three) (s : DSec) (x y : Option Nat) : (t.set s x).set s y = t.set s y := by
  cases s <;> rfl

/-! ## Running side by side -/

/-- The objects variables are bound to. -/
def roots (vars : List (Option Nat)) : List Nat := vars.filterMap id

/-- The same program with and without memory management. -/
structure Rel (st : St) (r : R) : Prop where
  good : Good st.heap (roots st.vars ++ r.lost) r.objs
  vars : st.vars = r.vars

/-- The same result. -/
def Sim (x : Res (St × Obs)) (y : Res (R × Obs)) : Prop :=
  match y with
  | .error f => x = .error f
  | .ok (r, o) => ∃ st, x = .ok (st, o) ∧ Rel st r

theorem Sim.bind {α : Type} {x y : Res α} {f : α → Res (St × Obs)} {k : α → Res (R × Obs)}
    (e : x = y) (hk : ∀ v, y = .ok v → Sim (f v) (k v)) : Sim (x >>= f) (y >>= k) := by
  subst e
  cases x with
  | error f => rfl
  | ok v => exact hk v rfl

theorem Sim.left {α : Type} {x : Res α} {v : α} {f : α → Res (St × Obs)} {y : Res (R × Obs)}
    (e : x = .ok v) (hk : Sim (f v) y) : Sim (x >>= f) y := by
  subst e; exact hk

theorem Sim.ret {st : St} {r : R} {o : Obs} (h : Rel st r) : Sim (.ok (st, o)) (.ok (r, o)) :=
  ⟨st, rfl, h⟩

theorem roots_push (vars : List (Option Nat)) (w : Nat) :
    roots (vars ++ [some w]) = roots vars ++ [w] := by
  simp [roots, List.filterMap_append]

theorem var_mem {vars : List (Option Nat)} {v w : Nat} (h : var vars v = some w) : w ∈ roots vars := by
  unfold var at h
  split at h
  · rename_i x hx
    injection h with h; subst h
    exact List.mem_filterMap.2 ⟨some x, List.mem_of_getElem? hx, rfl⟩
  · simp at h

theorem roots_del : ∀ {vars : List (Option Nat)} {v w : Nat}, var vars v = some w →
    (roots vars).Perm (w :: roots (vars.set v none)) := by
  intro vars
  induction vars with
  | nil => intro v w h; simp [var] at h
  | cons x xs ih =>
    intro v w h
    cases v with
    | zero =>
      simp [var] at h
      cases x with
      | none => simp at h
      | some y =>
        simp at h
        subst h
        simp [roots]
    | succ v =>
      have := ih (v := v) (w := w) (by simpa [var] using h)
      simp only [List.set_cons_succ]
      cases x with
      | none => simpa [roots] using this
      | some y =>
        simp only [roots, List.filterMap_cons, id] at this ⊢
        exact (List.Perm.cons y this).trans (List.Perm.swap _ _ _)

theorem Rel.wrapUp {st : St} {r : R} {t : PType} {a : Nat}
    (g : Good st.heap (a :: (roots st.vars ++ r.lost)) r.objs) (hv : st.vars = r.vars) :
    Rel (st.wrapUp t a) (r.wrapUp t a) := by
  have g2 := (Good.alloc (b := .wrap t a none none) (e := roots st.vars ++ r.lost) (by
    simpa [Body.children] using g)).1
  refine ⟨?_, ?_⟩
  · show Good _ (roots (st.vars ++ [some st.heap.length]) ++ r.lost) _
    rw [roots_push, List.append_assoc]
    refine g2.perm ?_
    simpa using List.perm_middle.symm
  · show st.vars ++ [some st.heap.length] = r.vars ++ [some r.objs.length]
    rw [hv, g.len]

theorem Rel.push {st : St} {r : R} {w : Nat}
    (g : Good st.heap (w :: (roots st.vars ++ r.lost)) r.objs) (hv : st.vars = r.vars) :
    Rel (st.push w) (r.push w) := by
  refine ⟨?_, ?_⟩
  · show Good _ (roots (st.vars ++ [some w]) ++ r.lost) _
    rw [roots_push, List.append_assoc]
    refine g.perm ?_
    simpa using List.perm_middle.symm
  · show st.vars ++ [some w] = r.vars ++ [some w]
    rw [hv]

theorem Rel.plain {st : St} {r : R} {t : PType} {b : Body}
    (g : Good st.heap (b.children ++ (roots st.vars ++ r.lost)) r.objs) (hv : st.vars = r.vars) :
    Rel (newPlain st t b) (r.plain t b) := by
  have g2 := g.alloc.1
  have hl := g.len
  have := Rel.wrapUp (st := { st with heap := alloc st.heap b }) (r := r.make b) (t := t)
    (a := st.heap.length) (by simpa [R.make] using g2) hv
  unfold newPlain R.plain
  rw [hl] at this ⊢
  exact this

theorem Rel.entry {st : St} {r : R} (h : Rel st r) (k : EKind) (p : RTree PVal) :
    Rel (newEntry st k p) (r.entry k p) := by
  have hl := h.good.len
  have g1 := (Good.alloc (b := .dict RTree.create) (e := roots st.vars ++ r.lost) h.good).1
  have g2 := (Good.alloc (b := .dict RTree.create) (e := _ :: (roots st.vars ++ r.lost)) g1).1
  have g3 := (Good.alloc (b := .list (listType k) []) (e := _ :: _ :: (roots st.vars ++ r.lost)) g2).1
  have e1 : ∀ (h : Heap) (b : Body), (alloc h b).length = h.length + 1 := by simp [alloc]
  have hp3 : ∀ n : Nat, ((n + 1 + 1) :: (n + 1) :: n :: (roots st.vars ++ r.lost)).Perm
      (n :: (n + 1) :: (n + 2) :: (roots st.vars ++ r.lost)) := fun n =>
    (List.reverse_perm [n, n + 1, n + 2]).append_right _
  have hp4 : ∀ n : Nat, ((n + 1 + 1 + 1) :: (n + 1 + 1) :: (n + 1) :: n :: (roots st.vars ++ r.lost)).Perm
      (n :: (n + 1) :: (n + 2) :: (n + 3) :: (roots st.vars ++ r.lost)) := fun n =>
    (List.reverse_perm [n, n + 1, n + 2, n + 3]).append_right _
  simp only [e1] at g3
  have three := Rel.plain (st := ⟨alloc (alloc (alloc st.heap (.dict RTree.create)) (.dict RTree.create))
      (.list (listType k) []), st.vars⟩)
    (r := ((r.make (.dict RTree.create)).make (.dict RTree.create)).make (.list (listType k) []))
    (t := .entry k) (b := .entry k p (some st.heap.length) (some (st.heap.length + 1))
        (some (st.heap.length + 2)) none) (g3.perm (hp3 _)) h.vars
  unfold newPlain at three
  simp only [e1] at three
  cases k with
  | group =>
    unfold newEntry R.entry
    rw [← hl]; exact three
  | category =>
    unfold newEntry R.entry
    rw [← hl]; exact three
  | environment =>
    have g4 := (Good.alloc (b := .list .ids []) (e := _ :: _ :: _ :: (roots st.vars ++ r.lost)) g3).1
    simp only [e1] at g4
    have four := Rel.plain (st := ⟨alloc (alloc (alloc (alloc st.heap (.dict RTree.create))
        (.dict RTree.create)) (.list (listType .environment) [])) (.list .ids []), st.vars⟩)
      (r := (((r.make (.dict RTree.create)).make (.dict RTree.create)).make
        (.list (listType .environment) [])).make (.list .ids []))
      (t := .entry .environment) (b := .entry .environment p (some st.heap.length)
        (some (st.heap.length + 1)) (some (st.heap.length + 2)) (some (st.heap.length + 3)))
      (g4.perm (hp4 _)) h.vars
    unfold newPlain at four
    simp only [e1] at four
    unfold newEntry R.entry
    rw [← hl]; exact four

theorem Rel.live {st : St} {r : R} (h : Rel st r) {w : Nat} (hw : w ∈ roots st.vars) :
    ∃ b, Has st.heap w b := h.good.has (by simp [hw])

theorem Rel.with1 {st : St} {r : R} (h : Rel st r) (v : Nat)
    {f : Nat → PType → Nat → Option Nat → Option Nat → Res (St × Obs)}
    {k : Nat → PType → Nat → Option Nat → Option Nat → Res (R × Obs)}
    (hk : ∀ w t a n d, w ∈ roots st.vars → Has st.heap w (.wrap t a n d) →
      (∃ b, Has st.heap a b) → Sim (f w t a n d) (k w t a n d)) :
    Sim (PyHeap.with1 st v f) (r.with1 v k) := by
  unfold PyHeap.with1 R.with1
  rw [← h.vars]
  cases hv : var st.vars v with
  | none => exact Sim.ret h
  | some w =>
    have hm := var_mem hv
    obtain ⟨b, hb⟩ := h.live hm
    refine Sim.bind (asWrap_eq h.good hb) ?_
    rintro ⟨t, a, n, d⟩ hw
    have hw' := asWrap_has h.good hb hw
    exact hk w t a n d hm hw' (h.good.child hw' (by simp [Body.children]))

theorem Rel.with2 {st : St} {r : R} (h : Rel st r) (v v2 : Nat)
    {f : Nat → PType → Nat → Nat → PType → Nat → Res (St × Obs)}
    {k : Nat → PType → Nat → Nat → PType → Nat → Res (R × Obs)}
    (hk : ∀ w t a n d w2 t2 a2 n2 d2, w ∈ roots st.vars → Has st.heap w (.wrap t a n d) →
      (∃ b, Has st.heap a b) → w2 ∈ roots st.vars → Has st.heap w2 (.wrap t2 a2 n2 d2) →
      (∃ b, Has st.heap a2 b) → Sim (f w t a w2 t2 a2) (k w t a w2 t2 a2)) :
    Sim (PyHeap.with2 st v v2 f) (r.with2 v v2 k) :=
  h.with1 v fun w t a n d h1 h2 h3 => h.with1 v2 fun w2 t2 a2 n2 d2 h4 h5 h6 =>
    hk w t a n d w2 t2 a2 n2 d2 h1 h2 h3 h4 h5 h6

/-- A release at the end of a call. -/
theorem Rel.releaseEnd {st : St} {r : R} {h1 : Heap} {a : Nat} {o : Obs}
    (g : Good h1 (a :: (roots st.vars ++ r.lost)) r.objs) (hv : st.vars = r.vars) :
    Sim (do let h ← release h1 a; return (⟨h, st.vars⟩, o)) (.ok (r, o)) := by
  obtain ⟨h2, e2, g2⟩ := g.release
  exact Sim.left e2 (Sim.ret ⟨g2, hv⟩)

theorem Rel.putIn {st : St} {r : R} {l i a : Nat} {bl : Body}
    (g : Good st.heap (a :: (roots st.vars ++ r.lost)) r.objs) (hv : st.vars = r.vars)
    (hl : Has st.heap l bl) : Sim (PyHeap.putIn st l i a) (r.putIn l i a) := by
  obtain ⟨b, hb⟩ := g.has (a := a) (by simp)
  unfold PyHeap.putIn R.putIn
  refine Sim.bind (passes_eq g hb) ?_
  intro ok _
  cases ok with
  | false => exact Rel.releaseEnd g hv
  | true =>
    refine Sim.bind (asList_eq g hl) ?_
    rintro ⟨kind, items⟩ ho
    have hl' := asList_has g hl ho
    obtain ⟨h2, e2, g2, -, -⟩ := g.write (e' := roots st.vars ++ r.lost)
      (b' := .list kind (items.take i ++ a :: items.drop i)) hl' (by
        simp only [Body.children]
        rw [List.append_assoc]
        conv => lhs; rw [← List.take_append_drop i items, List.append_assoc]
        refine List.Perm.append_left _ ?_
        exact List.perm_middle)
    exact Sim.left e2 (Sim.ret ⟨g2, hv⟩)

theorem Rel.append {st : St} {r : R} (h : Rel st r) {k : LKind} {l a : Nat} {bl ba : Body}
    (hl : Has st.heap l bl) (ha : Has st.heap a ba) :
    Sim (PyHeap.append st k l a) (r.append k l a) := by
  obtain ⟨h1, e1, g1, k1⟩ := h.good.incref ha
  unfold PyHeap.append R.append
  refine Sim.left e1 ?_
  refine Sim.bind (asList_eq g1 (k1 _ _ hl)) ?_
  rintro ⟨kind, items⟩ ho
  have hl' := asList_has g1 (k1 _ _ hl) ho
  refine Sim.bind ?_ ?_
  · rw [unique_eq g1 (items_live g1 hl') (k1 _ _ ha)]
  intro new _
  cases new with
  | true => exact Rel.putIn (st := ⟨h1, st.vars⟩) g1 h.vars hl'
  | false => exact Rel.releaseEnd g1 h.vars

theorem Rel.insert {st : St} {r : R} (h : Rel st r) {l i a : Nat} {bl ba : Body}
    (hl : Has st.heap l bl) (ha : Has st.heap a ba) :
    Sim (PyHeap.insert st l i a) (do
      let (_, items) ← asList (look r.objs) l
      r.putIn l (min i items.length) a) := by
  obtain ⟨h1, e1, g1, k1⟩ := h.good.incref ha
  unfold PyHeap.insert
  refine Sim.left e1 ?_
  refine Sim.bind (asList_eq g1 (k1 _ _ hl)) ?_
  rintro ⟨kind, items⟩ ho
  exact Rel.putIn (st := ⟨h1, st.vars⟩) g1 h.vars (asList_has g1 (k1 _ _ hl) ho)

theorem Rel.appendStr {st : St} {r : R} (h : Rel st r) {l : Nat} {s : Option Bytes} {bl : Body}
    (hl : Has st.heap l bl) :
    Sim (PyHeap.appendStr st l s) (match s with
      | none => .ok (r, .exc .typeError)
      | some b => do
        let r' := r.make (.gid { GroupId.create with name := some (compsStr (some (PyDict.cstr b))) })
        let (_, items) ← asList (look r'.objs) l
        r'.putIn l items.length r.objs.length) := by
  unfold PyHeap.appendStr
  cases s with
  | none => exact Sim.ret h
  | some b =>
    obtain ⟨g1, -, k1⟩ := Good.alloc (b := .gid { GroupId.create with
      name := some (compsStr (some (PyDict.cstr b))) }) (e := roots st.vars ++ r.lost) (by
        simpa [Body.children] using h.good)
    refine Sim.bind (asList_eq g1 (k1 _ _ hl)) ?_
    rintro ⟨kind, items⟩ ho
    have hlen := h.good.len
    dsimp only
    rw [hlen]
    rw [hlen] at g1
    exact Rel.putIn (st := ⟨_, st.vars⟩) (r := R.make r _) g1 h.vars (asList_has g1 (k1 _ _ hl) ho)

theorem erase_perm {items : List Nat} {i a : Nat} (h : items[i]? = some a) :
    items.Perm (a :: items.eraseIdx i) := by
  induction items generalizing i with
  | nil => simp at h
  | cons x xs ih =>
    cases i with
    | zero => simp at h; subst h; simp
    | succ i =>
      simp at h
      simp only [List.eraseIdx_cons_succ]
      exact (List.Perm.cons x (ih h)).trans (List.Perm.swap _ _ _)

theorem set_perm {items : List Nat} {i a : Nat} (h : i < items.length) :
    (items.set i a).Perm (a :: items.eraseIdx i) := by
  induction items generalizing i with
  | nil => simp at h
  | cons x xs ih =>
    cases i with
    | zero => simp
    | succ i =>
      simp only [List.set_cons_succ, List.eraseIdx_cons_succ]
      exact (List.Perm.cons x (ih (by simpa using h))).trans (List.Perm.swap _ _ _)

end Comps.PyHeap
