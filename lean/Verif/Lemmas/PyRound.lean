import Verif.Lemmas.PyCompsFacts
import Verif.Lemmas.Doc
import Verif.Spec.PyRound

/-!
# Python documents and documents of the C library
-/

namespace Comps.PyComps
open Comps Comps.Obj Comps.Spec Comps.Spec.PyComps
open Comps.Parse (Parsed)

variable {lt : UInt8 → UInt8 → Bool} {st st' : St} {r r' : RSt}

/-- The document handed to the C library is one reachable through the API, with the same entries. -/
theorem made_built {y : Content} {c : DocContent} (h : Made lt y c) :
    DocBuilt lt (y.toDoc lt) ∧ Shows lt (y.toDoc lt) c := by
  obtain ⟨⟨e, he⟩, ⟨n, hn⟩, ⟨s, hs⟩, ⟨p, hp⟩, ⟨g1, g2⟩, ⟨k1, k2⟩, ⟨e1, e2⟩, ⟨l1, l2⟩, ⟨b1, b2⟩, ⟨w1, w2⟩⟩ := h
  have c0 : Doc.create (some (some e)) = .ok (Doc.make (some e)) := rfl
  have d0 : DocBuilt lt (Doc.make (some e)) := .create _ c0
  have d1 := DocBuilt.doctype n s p d0
  have i1 := docBuilt_inv d1
  have d2 := groupsAt.built c.groups d1 g2
  have x2 := groupsAt.set i1 (some c.groups)
  have d3 := categoriesAt.built c.categories d2 k2
  have x3 := categoriesAt.set (docBuilt_inv d2) (some c.categories)
  have d4 := environmentsAt.built c.environments d3 e2
  have x4 := environmentsAt.set (docBuilt_inv d3) (some c.environments)
  have d5 := langpacksAt.built c.langpacks d4 l2
  have x5 := langpacksAt.set (docBuilt_inv d4) (some c.langpacks)
  have d6 := blacklistAt.built c.blacklist d5 b2
  have x6 := blacklistAt.set (docBuilt_inv d5) (some c.blacklist)
  have d7 := whiteoutAt.built c.whiteout d6 w2
  have x7 := whiteoutAt.set (docBuilt_inv d6) (some c.whiteout)
  have et : y.toDoc lt = Doc.setObj lt whiteoutSlot (Doc.setObj lt blacklistSlot
      (Doc.setObj lt langpacksSlot (Doc.setObj lt environmentsSlot (Doc.setObj lt categoriesSlot
      (Doc.setObj lt groupsSlot (⟨RTree.create, some e, some n, some s, some p, true, true⟩ : Doc)
      (some c.groups)) (some c.categories)) (some c.environments))
      (some c.langpacks)) (some c.blacklist)) (some c.whiteout) := by
    simp only [Content.toDoc, allSecs, List.foldl, g1, k1, e1, l1, b1, w1, he, hn, hs, hp]
    rfl
  rw [et]
  refine ⟨d7, ?_⟩
  have := shows_content (docBuilt_inv d7)
  rw [x7, x6, x5, x4, x3, x2] at this
  exact this

/-- What a getter shows is what Python shows. -/
theorem contentOf_part {d : Doc} {α : Type} {s : Slot α} {C : α → Prop} (hs : SlotOk lt s C)
    (hi : ObjsInv lt d.objects) {t : Sec} (hk : t.key = s.key) (he : t.kind.empty = s.inj s.empty) :
    (contentOf d).part t = s.inj (view s d) := by
  unfold contentOf
  simp only
  rcases get_cases hs hi with ⟨h1, h2⟩ | h1
  · rw [hk, h1, h2, he]
  · rw [hk, h1]

/-- A document of the C library that has an encoding and a document type, seen from Python. -/
theorem made_contentOf {d : Doc} (hd : DocBuilt lt d) {c : DocContent} (hs : Shows lt d c)
    (he : ∃ e, d.encoding = some e) (hn : ∃ n, d.doctypeName = some n)
    (hy : ∃ n, d.doctypeSysid = some n) (hp : ∃ n, d.doctypePubid = some n) :
    Made lt (contentOf d) c := by
  have hi := docBuilt_inv hd
  obtain rfl := shows_unique hs (shows_content hi)
  exact ⟨he, hn, hy, hp,
    ⟨contentOf_part groupsOk hi rfl rfl, view_ok groupsOk hi⟩,
    ⟨contentOf_part categoriesOk hi rfl rfl, view_ok categoriesOk hi⟩,
    ⟨contentOf_part environmentsOk hi rfl rfl, view_ok environmentsOk hi⟩,
    ⟨contentOf_part langpacksOk hi rfl rfl, view_ok langpacksOk hi⟩,
    ⟨contentOf_part blacklistOk hi rfl rfl, view_ok blacklistOk hi⟩,
    ⟨contentOf_part whiteoutOk hi rfl rfl, view_ok whiteoutOk hi⟩⟩

/-- The objects of such a document have the types Python expects. -/
theorem built_kinds {d : Doc} (hd : DocBuilt lt d) (s : Sec) {v : DocVal}
    (h : d.objects.get s.key = some v) : kindOf v = some s.kind := by
  have hi := docBuilt_inv hd
  have := (hi.typed.get hi.wf h).1
  cases s <;> cases v <;> first | rfl | (simp [keysOf, Sec.key] at this)

theorem takeParts_ok {x : Doc} (h : ∀ (s : Sec) v, x.objects.get s.key = some v → kindOf v = some s.kind) :
    ∀ (l : List Sec) (r : RSt), ∃ q, takeParts x r l = .ok q
  | [], r => ⟨_, rfl⟩
  | s :: ss, r => by
    obtain ⟨⟨f, r1⟩, e⟩ := takeParts_ok h ss r
    simp only [takeParts, e, bind, Except.bind]
    cases hg : x.objects.get s.key with
    | none => exact ⟨_, rfl⟩
    | some v =>
      simp only [h s v hg, if_true]
      exact ⟨_, rfl⟩

theorem takeDoc_ok {x : Doc} (h : ∀ (s : Sec) v, x.objects.get s.key = some v → kindOf v = some s.kind)
    (r : RSt) (l : List LogEntry) : ∃ q, takeDoc r x l = .ok q := by
  obtain ⟨⟨f, r1⟩, e⟩ := takeParts_ok h allSecs r
  exact ⟨_, by simp only [takeDoc, e, bind, Except.bind]; rfl⟩

end Comps.PyComps
