import Verif.Lemmas.MRadix

/-!
# The plain multi-dictionary: histories, listings, copies and unions
-/

namespace Comps
namespace MRadix
open Comps.Radix (Calls Store newData dropList dropNode)
open Comps.RTree (WF listLk nodeLk findAt matchKey)
open Comps.Spec Comps.Spec.PlainM
open Comps.Spec.Plain (made)
variable {V : Type}

/-! ## NULL lists -/

theorem listNull_iff (l : List (MN V)) : listNull l = true ↔ ∃ n ∈ l, nodeNull n = true := by
  induction l with
  | nil => simp [listNull]
  | cons n ns ih => simp [listNull, ih]

theorem nodeNull_eq (n : MN V) : nodeNull n = (n.data.isNone || listNull n.sub) := by
  cases n; simp [nodeNull, Node.data, Node.sub]

theorem plk_below {l : HSList (MN V)} (hl : WF l) {n : MN V} (hn : n ∈ l.items) (w : Bytes) :
    plk l.items (n.key ++ w) = if w = [] then some n.data else plk n.sub w := by
  have hne : n.key ≠ [] := hl.ne n hn
  have hw := wf_map (some : Option (List (Elem V)) → _) hl
  rw [plk, ← mapH_items, RTree.listLk_of_mem hw.pw (List.mem_map_of_mem hn)
    (by simpa using (MTree.head_append hne).symm), RTree.nodeLk_eq]
  simp only [mapN_key, mapN_data, mapN_sub]
  by_cases e : w = []
  · subst e; simp
  · rw [if_neg (by simpa using e), if_pos (List.prefix_append _ _), List.drop_left, if_neg e]
    rfl

theorem null_seen {l : HSList (MN V)} (hl : WF l) :
    listNull l.items = true ↔ ∃ p, plk l.items p = some none := by
  constructor
  · induction hl with
    | mk l h1 h2 h3 h4 ih =>
      have hl : WF l := .mk l h1 h2 h3 h4
      intro h
      obtain ⟨n, hn, h⟩ := (listNull_iff _).1 h
      rw [nodeNull_eq, Bool.or_eq_true] at h
      rcases h with h | h
      · refine ⟨n.key, ?_⟩
        have := plk_below hl hn []
        simp only [List.append_nil, if_true] at this
        rw [this]
        cases hd : n.data with
        | none => rfl
        | some _ => simp [hd] at h
      · obtain ⟨p, hp⟩ := ih n hn h
        refine ⟨n.key ++ p, ?_⟩
        rw [plk_below hl hn]
        by_cases e : p = []
        · subst e
          have : plk n.sub [] = none := by
            have hw := wf_map (some : Option (List (Elem V)) → _) (h4 n hn)
            exact RTree.listLk_nil_key hw.ne
          have hp : plk n.sub [] = some none := hp
          rw [this] at hp; cases hp
        · rw [if_neg e]; exact hp
  · rintro ⟨p, hp⟩
    cases h : listNull l.items with
    | true => rfl
    | false =>
      exfalso
      have full : MTree.Full l := by
        clear hp
        have key : ∀ l : HSList (MN V), WF l → listNull l.items = false → MTree.Full l := by
          intro l hl
          induction hl with
          | mk l h1 h2 h3 h4 ih =>
            intro h
            have hx : ∀ n ∈ l.items, n.data.isSome = true ∧ listNull n.sub = false := by
              intro n hn
              have : nodeNull n = false := by
                cases hnn : nodeNull n with
                | false => rfl
                | true => rw [(listNull_iff _).2 ⟨n, hn, hnn⟩] at h; cases h
              rw [nodeNull_eq, Bool.or_eq_false_iff] at this
              refine ⟨?_, this.2⟩
              cases hd : n.data with
              | none => simp [hd] at this
              | some _ => rfl
            exact .mk _ _ (fun n hn => (hx n hn).1) fun n hn => MTree.full_pre (ih n hn (hx n hn).2)
        exact key l hl h
      rw [plk_full hl full] at hp
      cases hlk : listLk l.items p with
      | none => simp [hlk] at hp
      | some d => simp [hlk] at hp

theorem lists_ok {l : HSList (MN V)} (h : CalmI l) : lists l = .ok () := by
  unfold lists
  rw [if_neg]
  intro hn
  obtain ⟨p, hp⟩ := (null_seen h.wf).1 hn
  rw [plk_full h.wf h.full] at hp
  cases hlk : listLk l.items p with
  | none => simp [hlk] at hp
  | some d => simp [hlk] at hp

theorem lists_fault {l : HSList (MN V)} (hl : WF l) :
    ((∃ f, lists l = .error f) ↔ ∃ p, plk l.items p = some none) ∧
    ∀ f, lists l = .error f → f = .nullDeref := by
  unfold lists
  rw [← null_seen hl]
  cases listNull l.items with
  | true => exact ⟨⟨fun _ => rfl, fun _ => ⟨_, rfl⟩⟩, fun f hf => by injection hf with hf; exact hf.symm⟩
  | false =>
    exact ⟨⟨fun ⟨_, hf⟩ => (by cases hf), fun hf => (by cases hf)⟩, fun f hf => (by cases hf)⟩

/-! ## Histories -/

/-- The list written under a key, none if nothing was. -/
def content (ws : List (Bytes × Option V)) (k : Bytes) : Option (Option (List (Elem V))) :=
  if written ws k = [] then none else some (some ((written ws k).map .one))

theorem written_append {W : Type} (a b : List (Bytes × W)) (k : Bytes) :
    written (a ++ b) k = written a k ++ written b k := by simp [written, List.filterMap_append]

theorem written_ne {W : Type} (ws : List (Bytes × W)) (k : Bytes) :
    written ws k ≠ [] ↔ ∃ w ∈ ws, w.1 = k := by
  constructor
  · intro h
    obtain ⟨x, hx⟩ := List.exists_mem_of_ne_nil _ h
    simp only [written, List.mem_filterMap] at hx
    obtain ⟨w, hw, hx⟩ := hx
    by_cases e : w.1 = k
    · exact ⟨w, hw, e⟩
    · simp [e] at hx
  · rintro ⟨w, hw, rfl⟩
    apply List.ne_nil_of_mem (a := w.2)
    simp only [written, List.mem_filterMap]
    exact ⟨w, hw, by simp⟩

theorem content_some (ws : List (Bytes × Option V)) (k : Bytes) :
    (content ws k).isSome = true ↔ ∃ w ∈ ws, w.1 = k := by
  rw [← written_ne, content]
  by_cases h : written ws k = [] <;> simp [h]

theorem content_none (ws : List (Bytes × Option V)) (k : Bytes) :
    content ws k = none ↔ ¬ ∃ w ∈ ws, w.1 = k := by
  rw [← content_some]
  cases content ws k <;> simp

theorem nested_noSplit {pre post : List (Bytes × Option V)} {w : Bytes × Option V}
    (hn : Nested (pre ++ w :: post)) {g : Bytes → Option (Option (List (Elem V)))}
    (hg : ∀ k, g k = content pre k) (p : Bytes) : ¬ Splits g w.1 p := by
  rintro ⟨hp, h0, a, as, b, bs, hab, e, hs⟩
  rw [hg] at h0 hs
  obtain ⟨w', hw', e'⟩ := (content_some _ _).1 hs
  exact (content_none _ _).1 h0 (hn pre w post rfl w' hw' p b a bs as e e' (Ne.symm hab) hp)

theorem sets_nested (c : Calls V) (post : List (Bytes × Option V)) (pre : List (Bytes × Option V))
    (l : HSList (MN V)) (hi : CalmI l) (hg : ∀ k, plk l.items k = content pre k)
    (hp : Proper c post) (hn : Nested (pre ++ stored c post)) {g : List (Option V)} {d : List (Option V)}
    (hc : Calm c (.live l) g d) :
    ∃ l', sets c (.live l) post = .ok (.live l') ∧ CalmI l' ∧
      (∀ k, plk l'.items k = content (pre ++ stored c post) k) ∧
      Calm c (.live l') (g ++ post.map fun e => made c e.2) d := by
  induction post generalizing pre l g with
  | nil => exact ⟨l, rfl, hi, by simpa [stored] using hg, by simpa using hc⟩
  | cons e es ih =>
    obtain ⟨hk, hv⟩ := hp e (by simp)
    have hseen : seen (.live l) = plk l.items := funext fun _ => seen_live hi.wf _
    have hns : ∀ p, ¬ Splits (seen (.live l)) e.1 p := by
      intro p
      rw [hseen]
      have hn' : Nested (pre ++ (e.1, made c e.2) :: stored c es) := hn
      exact nested_noSplit hn' hg p
    obtain ⟨l1, h1, h2, h3⟩ := set_calm c e.1 hk e.2 l hi hv hns
    obtain ⟨l1', h1', -, hw⟩ := set_live c e.1 hk e.2 l hi.good
    have : l1' = l1 := by
      rw [h1] at h1'; injection h1' with h; injection h with h; exact h.symm
    subst this
    have hg1 : ∀ k, plk l1'.items k = content (pre ++ [(e.1, made c e.2)]) k := by
      intro k
      by_cases hke : k = e.1
      · subst hke
        have hwr : written (pre ++ [(e.1, made c e.2)]) e.1 = written pre e.1 ++ [made c e.2] := by
          rw [written_append]; simp [written]
        cases hx : plk l.items e.1 with
        | none =>
          have hnil : written pre e.1 = [] := by
            have := hg e.1
            rw [hx] at this
            by_cases hz : written pre e.1 = []
            · exact hz
            · simp [content, hz] at this
          rw [hw.new hx, content, hwr, hnil]
          cases hm : made c e.2 with
          | none => exact (hv hm).elim
          | some p => simp
        | some o =>
          have hne : written pre e.1 ≠ [] := by
            intro hz
            have := hg e.1
            rw [hx] at this
            simp [content, hz] at this
          have ho : o = some ((written pre e.1).map .one) := by
            have := hg e.1
            rw [hx, content, if_neg hne] at this
            injection this
          rw [hw.added _ (by rw [hx, ho]), content, hwr, if_neg (by simp)]
          simp
      · rw [hw.other k hke (by rw [← hseen]; exact hns k) (fun p hp => by
          rw [← hseen] at hp; exact (hns p hp).elim), hg, content, content, written_append]
        have : written [(e.1, made c e.2)] k = [] := by
          simp [written]; exact fun h => hke h.symm
        rw [this, List.append_nil]
    obtain ⟨l', j1, j2, j3, j4⟩ := ih (pre ++ [(e.1, made c e.2)]) l1' h2 hg1
      (fun x hx => hp x (by simp [hx])) (by rw [List.append_assoc]; exact hn)
      (.set e.1 e.2 hc hk hv hns h1)
    refine ⟨l', by simp only [sets, h1, bind, Except.bind, j1], j2, ?_, ?_⟩
    · intro k; rw [j3, List.append_assoc]; rfl
    · simpa using j4

theorem sets_create (c : Calls V) (ws : List (Bytes × Option V)) (hp : Proper c ws)
    (hn : Nested (stored c ws)) :
    ∃ l', sets c create ws = .ok (.live l') ∧ CalmI l' ∧
      (∀ k, plk l'.items k = content (stored c ws) k) ∧
      Calm c (.live l') (ws.map fun e => made c e.2) [] := by
  have := sets_nested c ws [] HSList.empty calmI_empty (fun k => by
    simp [plk, HSList.empty, listLk, content, written]) hp (by simpa using hn) .create
  simp only [List.nil_append] at this
  exact this

/-! ## Listings -/

theorem visited_perm (l : HSList (MN V)) : (visited l).Perm (RTree.preL [] l.items) := by
  obtain ⟨ps, h1, h2⟩ := BRadix.pairs_live l
  have h1 : visited l = ps := by injection h1
  rw [h1]; exact h2

theorem visited_nodup {l : HSList (MN V)} (hl : WF l) :
    (visited l).Pairwise fun a b => a.1 ≠ b.1 :=
  ((visited_perm l).pairwise_iff (fun h => Ne.symm h)).2 (RTree.preL_nodup hl [])

theorem mem_visited {l : HSList (MN V)} (hl : WF l) (k : Bytes) (v : List (Elem V)) :
    (k, v) ∈ visited l ↔ listLk l.items k = some v := by
  rw [(visited_perm l).mem_iff, RTree.mem_preL hl]
  simp

theorem values_calm {l : HSList (MN V)} (h : CalmI l) :
    ∃ vs, values (.live l) = .ok vs ∧ vs.Perm (dropList l.items).flatten := by
  refine ⟨(RTree.valuesWalk ⟨l, 0⟩).flatten, by
    simp only [values, Store.list, bind, Except.bind, lists_ok h], ?_⟩
  refine List.Perm.flatten ((RTree.valuesWalk_perm _).trans ?_)
  rw [RTree.pairs_eq, Radix.preL_vals]

theorem keys_calm {l : HSList (MN V)} (h : CalmI l) :
    ∃ ks, keys (.live l) = .ok ks ∧ ks.Nodup ∧
      ∀ k, k ∈ ks ↔ ∃ d, listLk l.items k = some d ∧ d ≠ [] := by
  refine ⟨((visited l).filter fun e => !e.2.isEmpty).map Prod.fst, by
    simp only [keys, Store.list, bind, Except.bind, lists_ok h], ?_, ?_⟩
  · rw [List.Nodup, List.pairwise_map]
    exact (visited_nodup h.wf).filter _
  · intro k
    simp only [List.mem_map, List.mem_filter]
    constructor
    · rintro ⟨⟨k', d⟩, ⟨h1, h2⟩, rfl⟩
      refine ⟨d, (mem_visited h.wf _ _).1 h1, ?_⟩
      rintro rfl; simp at h2
    · rintro ⟨d, h1, h2⟩
      refine ⟨(k, d), ⟨(mem_visited h.wf _ _).2 h1, ?_⟩, rfl⟩
      cases d <;> simp_all

/-! ## Copies -/

theorem cloneElem_ok (c : Calls V) (f : V → V) (hf : c.cloner = some f) (l : List (Elem V))
    (h : PlainL l) : ∃ r, l.mapM (cloneElem c) = .ok r := by
  induction l with
  | nil => exact ⟨_, rfl⟩
  | cons e es ih =>
    obtain ⟨p, rfl⟩ := h e (by simp)
    obtain ⟨r, hr⟩ := ih fun x hx => h x (by simp [hx])
    refine ⟨.one (some (f p)) :: r, ?_⟩
    rw [List.mapM_cons, hr]
    simp [cloneElem, hf, bind, Except.bind, pure, Except.pure]

theorem cloned_one (c : Calls V) (f : V → V) (hf : c.cloner = some f) (p : V) :
    cloned c (.one (some p)) = .one (some (f p)) := by
  simp [cloned, cloneElem, hf]

mutual
theorem dropNode_clone {D : Type} (f : D → D) : ∀ n : Node D,
    dropNode (RTree.cloneNode f n) = (dropNode n).map f
  | .mk k d s t => by
    rw [RTree.cloneNode_eq, Radix.dropNode_eq, Radix.dropNode_eq, List.map_append]
    simp only [Node.data, Node.sub]
    rw [← RTree.cloneList_eq, dropList_clone f s]
    cases d <;> rfl
theorem dropList_clone {D : Type} (f : D → D) : ∀ l : List (Node D),
    dropList (RTree.cloneList f l) = (dropList l).map f
  | [] => by simp [RTree.cloneList]
  | n :: ns => by
    rw [RTree.cloneList, Radix.dropList_cons, Radix.dropList_cons, List.map_append, dropNode_clone f n,
      dropList_clone f ns]
end

theorem clone_calm (c : Calls V) (f : V → V) (hf : c.cloner = some f) {l : HSList (MN V)} (h : CalmI l) :
    ∃ l', clone c (.live l) = .ok (.live l') ∧ CalmI l' ∧
      (∀ k, listLk l'.items k = (listLk l.items k).map (List.map (cloned c))) ∧
      (dropList l'.items).flatten = (dropList l.items).flatten.map (cloned c) := by
  obtain ⟨r, hr⟩ := cloneElem_ok c f hf _ h.plain
  have hd : (dropList (HSList.ofAppends (RTree.cloneList (List.map (cloned c)) l.items)).items).flatten =
      (dropList l.items).flatten.map (cloned c) := by
    rw [RTree.ofAppends_eq]
    simp only [dropList_clone, List.map_flatten]
  refine ⟨_, by simp only [clone, Store.list, bind, Except.bind, lists_ok h, hr], ⟨?_, ?_, ?_, ?_⟩, ?_, hd⟩
  · rw [RTree.ofAppends_eq, RTree.cloneList_eq]
    have h1 := RTree.cloneHS_wf (List.map (cloned c)) h.wf
    rw [RTree.cloneHS] at h1
    simpa using h1
  · rw [RTree.ofAppends_eq, RTree.cloneList_eq]
    have h1 := RTree.cloneHS_tok (List.map (cloned c)) (fun _ => False) [] h.wf
    rw [RTree.cloneHS] at h1
    simpa using h1
  · rw [RTree.ofAppends_eq, RTree.cloneList_eq]
    have h1 := RTree.cloneHS_alln (List.map (cloned c)) (fun _ d => d.isSome = true)
      (fun _ d h => by simpa using h) h.full
    rw [RTree.cloneHS] at h1
    simpa using h1
  · rw [hd]
    intro e he
    obtain ⟨x, hx, rfl⟩ := List.mem_map.1 he
    obtain ⟨p, rfl⟩ := h.plain x hx
    exact ⟨f p, cloned_one c f hf p⟩
  · intro k
    rw [RTree.ofAppends_eq, RTree.cloneList_eq]
    exact RTree.listLk_clone _ h.wf k

/-! ## Unions -/

/-- Neither is a prefix of the other. -/
def Apart (a b : Bytes) : Prop := ¬ a <+: b ∧ ¬ b <+: a

theorem allLoop_below {D : Type} (fuel : Nat) (q : List (Bytes × List (Node D))) :
    ∀ e ∈ BRadix.allLoop fuel q, ∃ x ∈ q, x.1 <+: e.1 := by
  induction fuel generalizing q with
  | zero => intro e he; simp [BRadix.allLoop] at he
  | succ fuel ih =>
    cases q with
    | nil => intro e he; simp [BRadix.allLoop] at he
    | cons x xs =>
      obtain ⟨k, l⟩ := x
      intro e he
      simp only [BRadix.allLoop, List.mem_append, List.mem_flatMap] at he
      rcases he with ⟨n, hn, he⟩ | he
      · refine ⟨(k, l), by simp, ?_⟩
        cases hd : n.data with
        | none => simp [hd] at he
        | some v => simp [hd] at he; subst he; exact List.prefix_append _ _
      · obtain ⟨y, hy, hp⟩ := ih _ e he
        simp only [List.mem_append, List.mem_map] at hy
        rcases hy with hy | ⟨n, hn, rfl⟩
        · exact ⟨y, by simp [hy], hp⟩
        · exact ⟨(k, l), by simp, (List.prefix_append _ _).trans hp⟩

theorem not_prefix_heads {a b : Bytes} (ha : a ≠ []) (h : a.head? ≠ b.head?) (k : Bytes) :
    ¬ k ++ a <+: k ++ b := by
  rw [List.prefix_append_right_inj]
  intro hp
  exact h (RTree.head_of_prefix ha hp)

theorem allLoop_order {D : Type} (fuel : Nat) (q : List (Bytes × List (Node D)))
    (hw : ∀ x ∈ q, RTree.Heads x.2 ∧ ∀ n ∈ x.2, WF n.subnodes)
    (ha : q.Pairwise fun a b => Apart a.1 b.1) :
    (BRadix.allLoop fuel q).Pairwise fun a b => ¬ ProperPrefix b.1 a.1 := by
  induction fuel generalizing q with
  | zero => simp [BRadix.allLoop]
  | succ fuel ih =>
    cases q with
    | nil => simp [BRadix.allLoop]
    | cons x xs =>
      obtain ⟨k, l⟩ := x
      obtain ⟨hl, hls⟩ := hw (k, l) (by simp)
      simp only at hl hls
      have hemit : ∀ e, e ∈ l.flatMap (fun n => match n.data with
          | some v => [(k ++ n.key, v)] | none => []) → ∃ n ∈ l, e.1 = k ++ n.key := by
        intro e he
        simp only [List.mem_flatMap] at he
        obtain ⟨n, hn, he⟩ := he
        refine ⟨n, hn, ?_⟩
        cases hd : n.data with
        | none => simp [hd] at he
        | some v => simp [hd] at he; rw [he]
      simp only [BRadix.allLoop]
      rw [List.pairwise_append]
      refine ⟨?_, ih _ ?_ ?_, ?_⟩
      · -- the list itself
        rw [List.pairwise_flatMap]
        refine ⟨?_, ?_⟩
        · intro n hn
          cases n.data <;> simp
        · refine hl.2.imp_of_mem fun {a b} ha hb hab => ?_
          intro x hx y hy
          have hx' : x.1 = k ++ a.key := by
            cases hd : a.data with
            | none => simp [hd] at hx
            | some v => simp [hd] at hx; rw [hx]
          have hy' : y.1 = k ++ b.key := by
            cases hd : b.data with
            | none => simp [hd] at hy
            | some v => simp [hd] at hy; rw [hy]
          rintro ⟨z, zs, e⟩
          rw [hx', hy'] at e
          exact not_prefix_heads (hl.1 b hb) (Ne.symm hab) k (e ▸ List.prefix_append _ _)
      · intro x hx
        simp only [List.mem_append, List.mem_map, List.mem_filter] at hx
        rcases hx with hx | ⟨n, ⟨hn, -⟩, rfl⟩
        · exact hw x (by simp [hx])
        · exact ⟨(hls n hn).heads, (hls n hn).sub⟩
      · rw [List.pairwise_append]
        rw [List.pairwise_cons] at ha
        refine ⟨ha.2, ?_, ?_⟩
        · rw [List.pairwise_map]
          refine (hl.2.filter _).imp_of_mem fun {a b} ha hb hab => ?_
          have ha := (List.mem_filter.1 ha).1
          have hb := (List.mem_filter.1 hb).1
          exact ⟨not_prefix_heads (hl.1 a ha) hab k, not_prefix_heads (hl.1 b hb) (Ne.symm hab) k⟩
        · intro x hx y hy
          obtain ⟨n, -, rfl⟩ := List.mem_map.1 hy
          have := ha.1 x hx
          refine ⟨fun hp => ?_, fun hp => this.1 ((List.prefix_append _ _).trans hp)⟩
          rcases List.prefix_or_prefix_of_prefix hp (List.prefix_append k n.key) with h | h
          · exact this.2 h
          · exact this.1 h
      · intro a hA b hB
        obtain ⟨n, hn, ea⟩ := hemit a hA
        obtain ⟨y, hy, hp⟩ := allLoop_below _ _ b hB
        rintro ⟨z, zs, e⟩
        have hba : b.1 <+: a.1 := e ▸ List.prefix_append _ _
        simp only [List.mem_append, List.mem_map, List.mem_filter] at hy
        rw [List.pairwise_cons] at ha
        rcases hy with hy | ⟨m, ⟨hm, -⟩, rfl⟩
        · have := ha.1 y hy
          have h1 : y.1 <+: k ++ n.key := ea ▸ (hp.trans hba)
          rcases List.prefix_or_prefix_of_prefix h1 (List.prefix_append k n.key) with h | h
          · exact this.2 h
          · exact this.1 h
        · have h1 : k ++ m.key <+: k ++ n.key := ea ▸ (hp.trans hba)
          have hmn : m = n := by
            rw [List.prefix_append_right_inj] at h1
            have hh := RTree.head_of_prefix (hl.1 m hm) h1
            obtain ⟨s, t, hst⟩ := List.append_of_mem hm
            have hperm : l.Perm (m :: (s ++ t)) := hst ▸ RTree.perm_mid s t m
            have hpw := (RTree.heads_perm hperm hl).2
            rw [List.pairwise_cons] at hpw
            have hn' := hperm.mem_iff.1 hn
            rw [List.mem_cons] at hn'
            rcases hn' with h | h
            · exact h.symm
            · exact (hpw.1 n h hh).elim
          subst hmn
          have hlen := hp.length_le
          have hlen2 := congrArg List.length e
          rw [ea] at hlen2
          simp at hlen hlen2
          omega

theorem visited_order {l : HSList (MN V)} (hl : WF l) :
    (visited l).Pairwise fun a b => ¬ ProperPrefix b.1 a.1 :=
  allLoop_order _ _ (by intro x hx; simp at hx; subst hx; exact ⟨hl.heads, hl.sub⟩) (by simp)

/-- The writes of a union. -/
def uwrites (vs : List (Bytes × List (Elem V))) : List (Bytes × Option V) :=
  vs.flatMap fun e => e.2.map fun x => (e.1, ptr x)

theorem sets_append (c : Calls V) (a b : List (Bytes × Option V)) (s : MStore V) :
    sets c s (a ++ b) = (do let s' ← sets c s a; sets c s' b) := by
  induction a generalizing s with
  | nil => rfl
  | cons e es ih =>
    simp only [List.cons_append, sets]
    cases set c s e.1 e.2 with
    | error f => rfl
    | ok s' => exact ih s'

theorem unite_eq (c : Calls V) (s1 : MStore V) {l : HSList (MN V)} (h : CalmI l) :
    unite c s1 (.live l) = sets c s1 (uwrites (visited l)) := by
  have hpl : ∀ e ∈ visited l, PlainL e.2 := by
    intro e he x hx
    refine h.plain x ?_
    rw [← Radix.preL_vals []]
    exact List.mem_flatten.2 ⟨e.2, List.mem_map_of_mem ((visited_perm l).mem_iff.1 he), hx⟩
  simp only [unite, Store.list, bind, Except.bind, lists_ok h]
  generalize visited l = vs at hpl
  induction vs generalizing s1 with
  | nil => rfl
  | cons e es ih =>
    rw [List.foldlM_cons, show uwrites (e :: es) = (e.2.map fun x => (e.1, ptr x)) ++ uwrites es from by
      simp [uwrites], sets_append]
    have hin : ∀ (d : List (Elem V)) (s : MStore V), PlainL d →
        d.foldlM (fun s x => match x with
          | .one p => set c s e.1 p
          | .nested _ => .error .typeConfusion) s = sets c s (d.map fun x => (e.1, ptr x)) := by
      intro d
      induction d with
      | nil => intro s _; rfl
      | cons x xs ihx =>
        intro s hx
        obtain ⟨p, rfl⟩ := hx x (by simp)
        rw [List.foldlM_cons]
        simp only [List.map_cons, sets, ptr]
        cases set c s e.1 (some p) with
        | error f => rfl
        | ok s' => exact ihx s' fun y hy => hx y (by simp [hy])
    refine (congrArg (fun r => Except.bind r _) (hin e.2 s1 (hpl e (by simp)))).trans ?_
    show _ = Except.bind _ _
    cases sets c s1 (e.2.map fun x => (e.1, ptr x)) with
    | error f => rfl
    | ok s' => exact ih s' fun y hy => hpl y (by simp [hy])

theorem written_map {W : Type} (f : W → W) (ws : List (Bytes × W)) (k : Bytes) :
    written (ws.map fun e => (e.1, f e.2)) k = (written ws k).map f := by
  induction ws with
  | nil => rfl
  | cons e es ih =>
    simp only [written, List.map_cons, List.filterMap_cons] at ih ⊢
    by_cases h : e.1 = k <;> simp [h, ih]

theorem written_same {k : Bytes} (d : List (Elem V)) (k' : Bytes) :
    written (d.map fun x => (k', ptr x)) k = if k' = k then d.map ptr else [] := by
  induction d with
  | nil => simp [written]
  | cons x xs ih =>
    simp only [written, List.map_cons, List.filterMap_cons] at ih ⊢
    by_cases h : k' = k <;> simp [h, ih] <;> simp_all

theorem written_uwrites_none (vs : List (Bytes × List (Elem V))) (k : Bytes) (h : ∀ e ∈ vs, e.1 ≠ k) :
    written (uwrites vs) k = [] := by
  induction vs with
  | nil => rfl
  | cons e es ih =>
    rw [show uwrites (e :: es) = (e.2.map fun x => (e.1, ptr x)) ++ uwrites es from by simp [uwrites],
      written_append, written_same, if_neg (h e (by simp)), ih fun x hx => h x (by simp [hx])]
    rfl

theorem written_uwrites (vs : List (Bytes × List (Elem V))) (hd : vs.Pairwise fun a b => a.1 ≠ b.1)
    (k : Bytes) (d : List (Elem V)) (h : (k, d) ∈ vs) : written (uwrites vs) k = d.map ptr := by
  induction vs with
  | nil => simp at h
  | cons e es ih =>
    rw [List.pairwise_cons] at hd
    rw [show uwrites (e :: es) = (e.2.map fun x => (e.1, ptr x)) ++ uwrites es from by simp [uwrites],
      written_append, written_same]
    rw [List.mem_cons] at h
    rcases h with h | h
    · subst h
      rw [if_pos rfl, written_uwrites_none es k fun x hx => Ne.symm (hd.1 x hx)]
      simp
    · rw [if_neg (hd.1 _ h), ih hd.2 h]; rfl

theorem written_visited {l : HSList (MN V)} (h : CalmI l) {ws : List (Bytes × Option V)}
    (hg : ∀ k, plk l.items k = content ws k) (k : Bytes) :
    written (uwrites (visited l)) k = written ws k := by
  have hg' := hg k
  rw [plk_full h.wf h.full] at hg'
  cases hlk : listLk l.items k with
  | none =>
    rw [hlk] at hg'
    have : written ws k = [] := by
      by_cases hz : written ws k = []
      · exact hz
      · simp [content, hz] at hg'
    rw [this]
    refine written_uwrites_none _ _ fun e he hk => ?_
    have := (mem_visited h.wf e.1 e.2).1 he
    rw [hk, hlk] at this
    cases this
  | some d =>
    rw [hlk] at hg'
    rw [written_uwrites _ (visited_nodup h.wf) k d ((mem_visited h.wf _ _).2 hlk)]
    by_cases hz : written ws k = []
    · simp [content, hz] at hg'
    · rw [content, if_neg hz] at hg'
      simp at hg'
      rw [hg', List.map_map]
      exact List.map_id'' (fun _ => rfl) _

theorem nested_any {W : Type} {ws : List (Bytes × W)} (hn : Nested ws) {x y : Bytes × W} (hx : x ∈ ws)
    (hy : y ∈ ws) {p : Bytes} {a b : UInt8} {as bs : Bytes} (e1 : x.1 = p ++ a :: as)
    (e2 : y.1 = p ++ b :: bs) (hab : a ≠ b) (hp : p ≠ []) : ∃ w ∈ ws, w.1 = p := by
  obtain ⟨s, t, rfl⟩ := List.append_of_mem hx
  rw [List.mem_append, List.mem_cons] at hy
  rcases hy with hy | hy | hy
  · obtain ⟨w, hw, e⟩ := hn s x t rfl y hy p a b as bs e1 e2 hab hp
    exact ⟨w, by simp [hw], e⟩
  · subst hy
    rw [e1] at e2
    have := List.append_cancel_left e2
    simp at this
    exact (hab this.1).elim
  · obtain ⟨t1, t2, rfl⟩ := List.append_of_mem hy
    obtain ⟨w, hw, e⟩ := hn (s ++ x :: t1) y t2 (by simp) x (by simp) p b a bs as e2 e1 (Ne.symm hab) hp
    refine ⟨w, ?_, e⟩
    simp only [List.mem_append, List.mem_cons] at hw ⊢
    rcases hw with h | h | h <;> simp [h]

theorem uwrites_order {l : HSList (MN V)} (hl : WF l) {A B : List (Bytes × Option V)}
    {w w' : Bytes × Option V} (h : uwrites (visited l) = A ++ w :: B) (hw : w' ∈ uwrites (visited l))
    (hp : ProperPrefix w'.1 w.1) : w' ∈ A := by
  have hord : (uwrites (visited l)).Pairwise fun a b => ¬ ProperPrefix b.1 a.1 := by
    simp only [uwrites]
    rw [List.pairwise_flatMap]
    refine ⟨fun e _ => ?_, ?_⟩
    · rw [List.pairwise_map]
      refine List.Pairwise.imp_of_mem (R := fun _ _ => True) ?_ (List.pairwise_of_forall fun _ _ => trivial)
      rintro a b - - - ⟨z, zs, e⟩
      have := congrArg List.length e
      simp at this
    · refine (visited_order hl).imp fun {a b} hab x hx y hy => ?_
      obtain ⟨_, -, rfl⟩ := List.mem_map.1 hx
      obtain ⟨_, -, rfl⟩ := List.mem_map.1 hy
      exact hab
  rw [h] at hord hw
  rw [List.mem_append, List.mem_cons] at hw
  rw [List.pairwise_append, List.pairwise_cons] at hord
  rcases hw with hw | hw | hw
  · exact hw
  · subst hw
    obtain ⟨z, zs, e⟩ := hp
    have := congrArg List.length e
    simp at this
  · exact (hord.2.1.1 w' hw hp).elim

theorem nested_union (c : Calls V) {l : HSList (MN V)} (h : CalmI l) {ws1 ws2 : List (Bytes × Option V)}
    (hg : ∀ k, plk l.items k = content ws2 k) (hn : Nested (ws1 ++ ws2)) :
    Nested (ws1 ++ stored c (uwrites (visited l))) := by
  have hmem : ∀ k, (∃ w ∈ uwrites (visited l), w.1 = k) ↔ ∃ w ∈ ws2, w.1 = k := by
    intro k; rw [← written_ne, ← written_ne, written_visited h hg]
  have hkey : ∀ w ∈ stored c (uwrites (visited l)), ∃ w' ∈ ws2, w'.1 = w.1 := by
    intro w hw
    obtain ⟨x, hx, rfl⟩ := List.mem_map.1 hw
    exact (hmem _).1 ⟨x, hx, rfl⟩
  intro pre w post e w' hw' p a b as bs e1 e2 hab hp
  rcases List.append_eq_append_iff.1 e with ⟨z, rfl, hz⟩ | ⟨z, hz, hz2⟩
  · -- the write is one of the union
    have hwm : w ∈ stored c (uwrites (visited l)) := by rw [hz]; simp
    obtain ⟨x, hx, ex⟩ := hkey w hwm
    have hy : ∃ y ∈ ws1 ++ ws2, y.1 = w'.1 := by
      rw [List.mem_append] at hw'
      rcases hw' with hw' | hw'
      · exact ⟨w', by simp [hw'], rfl⟩
      · obtain ⟨y, hy, ey⟩ := hkey w' (by rw [hz]; simp [hw'])
        exact ⟨y, by simp [hy], ey⟩
    obtain ⟨y, hy, ey⟩ := hy
    obtain ⟨u, hu, eu⟩ := nested_any hn (x := x) (y := y) (by simp [hx]) hy (ex.trans e1) (ey.trans e2) hab hp
    rw [List.mem_append] at hu
    rcases hu with hu | hu
    · exact ⟨u, by simp [hu], eu⟩
    · obtain ⟨u', hu', eu'⟩ := (hmem p).2 ⟨u, hu, eu⟩
      -- in the union it comes before
      simp only [stored] at hz
      obtain ⟨A, B0, hAB, hA, hB⟩ := List.map_eq_append_iff.1 hz
      obtain ⟨w0, B, rfl, hw0, hB⟩ := List.map_eq_cons_iff.1 hB
      have := uwrites_order h.wf hAB hu' ⟨a, as, by
        rw [eu']
        have : w0.1 = w.1 := by rw [← hw0]
        rw [this, e1]⟩
      refine ⟨(u'.1, made c u'.2), ?_, eu'⟩
      rw [List.mem_append]
      right
      rw [← hA]
      exact List.mem_map_of_mem (f := fun e => (e.1, made c e.2)) this
  · -- the write is one of the first history
    cases z with
    | nil =>
      simp only [List.append_nil, List.nil_append] at hz hz2
      subst hz
      -- as above
      have hwm : w ∈ stored c (uwrites (visited l)) := by rw [← hz2]; simp
      obtain ⟨x, hx, ex⟩ := hkey w hwm
      obtain ⟨u, hu, eu⟩ := nested_any hn (x := x) (y := w') (by simp [hx]) (by simp [hw']) (ex.trans e1) e2 hab hp
      rw [List.mem_append] at hu
      rcases hu with hu | hu
      · exact ⟨u, hu, eu⟩
      · obtain ⟨u', hu', eu'⟩ := (hmem p).2 ⟨u, hu, eu⟩
        simp only [stored] at hz2
        obtain ⟨w0, B, hAB, hw0, hB⟩ := List.map_eq_cons_iff.1 hz2.symm
        have := uwrites_order h.wf (A := []) (by simpa using hAB) hu' ⟨a, as, by
          rw [eu']
          have : w0.1 = w.1 := by rw [← hw0]
          rw [this, e1]⟩
        simp at this
    | cons z zs =>
      simp only [List.cons_append, List.cons.injEq] at hz2
      obtain ⟨rfl, -⟩ := hz2
      subst hz
      obtain ⟨u, hu, eu⟩ := hn pre w (zs ++ ws2) (by simp) w' hw' p a b as bs e1 e2 hab hp
      exact ⟨u, hu, eu⟩

theorem unite_calm (c : Calls V) {l1 l2 : HSList (MN V)} (h1 : CalmI l1) (h2 : CalmI l2)
    {ws1 ws2 : List (Bytes × Option V)} (hg1 : ∀ k, plk l1.items k = content ws1 k)
    (hg2 : ∀ k, plk l2.items k = content ws2 k) (hn : Nested (ws1 ++ ws2))
    (hv : ∀ e ∈ ws2, e.1 ≠ [] ∧ made c e.2 ≠ none) {g d : List (Option V)} (hc : Calm c (.live l1) g d) :
    ∃ l', unite c (.live l1) (.live l2) = .ok (.live l') ∧ CalmI l' ∧
      (∀ k, plk l'.items k =
        if written ws1 k = [] ∧ written ws2 k = [] then none
        else some (some ((written ws1 k ++ (written ws2 k).map (made c)).map .one))) ∧
      ∃ g', Calm c (.live l') (g ++ g') d := by
  rw [unite_eq c _ h2]
  have hp : Proper c (uwrites (visited l2)) := by
    intro e he
    obtain ⟨k, hk⟩ : ∃ k, k = e.1 := ⟨_, rfl⟩
    have hm : e.2 ∈ written (uwrites (visited l2)) e.1 := by
      simp only [written, List.mem_filterMap]
      exact ⟨e, he, by simp⟩
    rw [written_visited h2 hg2] at hm
    simp only [written, List.mem_filterMap] at hm
    obtain ⟨x, hx, hxe⟩ := hm
    by_cases hxx : x.1 = e.1
    · simp [hxx] at hxe
      have := hv x hx
      rw [hxx, hxe] at this
      exact this
    · simp [hxx] at hxe
  obtain ⟨l', j1, j2, j3, j4⟩ := sets_nested c (uwrites (visited l2)) ws1 l1 h1 hg1 hp
    (nested_union c h2 hg2 hn) hc
  refine ⟨l', j1, j2, fun k => ?_, _, j4⟩
  rw [j3, content, written_append, show stored c (uwrites (visited l2)) =
    (uwrites (visited l2)).map fun e => (e.1, made c e.2) from rfl, written_map, written_visited h2 hg2]
  simp

theorem nested_map {W X : Type} (f : W → X) {ws : List (Bytes × W)} (h : Nested ws) :
    Nested (ws.map fun e => (e.1, f e.2)) := by
  intro pre w post e w' hw' p a b as bs e1 e2 hab hp
  obtain ⟨A, B0, rfl, rfl, hB⟩ := List.map_eq_append_iff.1 e
  obtain ⟨w0, B, rfl, rfl, rfl⟩ := List.map_eq_cons_iff.1 hB
  obtain ⟨x, hx, rfl⟩ := List.mem_map.1 hw'
  obtain ⟨u, hu, eu⟩ := h A w0 B rfl x hx p a b as bs e1 e2 hab hp
  exact ⟨_, List.mem_map_of_mem hu, eu⟩

theorem plain_at {l : HSList (MN V)} (h : CalmI l) {k : Bytes} {d : List (Elem V)}
    (hk : listLk l.items k = some d) : PlainL d := by
  intro x hx
  refine h.plain x ?_
  rw [← Radix.preL_vals []]
  exact List.mem_flatten.2 ⟨d, List.mem_map.2 ⟨(k, d),
    (visited_perm l).mem_iff.1 ((mem_visited h.wf k d).2 hk), rfl⟩, hx⟩

theorem plain_ptr {d : List (Elem V)} (h : PlainL d) : (d.map ptr).map .one = d := by
  induction d with
  | nil => rfl
  | cons x xs ih =>
    obtain ⟨p, rfl⟩ := h x (by simp)
    simp only [List.map_cons, ptr, ih fun y hy => h y (by simp [hy])]

theorem plain_some {d : List (Elem V)} (h : PlainL d) : ∃ ps : List V, d = ps.map fun p => .one (some p) := by
  induction d with
  | nil => exact ⟨[], rfl⟩
  | cons x xs ih =>
    obtain ⟨p, rfl⟩ := h x (by simp)
    obtain ⟨ps, e⟩ := ih fun y hy => h y (by simp [hy])
    exact ⟨p :: ps, by rw [e]; rfl⟩

theorem reads_live {l : HSList (MN V)} (h : WF l) (k : Bytes) : reads (.live l) k = listLk l.items k := by
  rw [reads, get_live h]

end MRadix
end Comps
