import Verif.Spec.RoundTrip
import Verif.Lemmas.Doc
import Verif.Lemmas.Xml
import Verif.Lemmas.ParseRun
import Verif.Lemmas.DictOrder

/-!
# Lemmas on reading what was written
-/

namespace Comps.Round
open Comps Comps.Spec Comps.Obj Comps.Text Comps.Xml
open Comps.Parse (Pos Event)

/-! ## Content as read -/

theorem reads_append {P : List Bytes → Prop} {c : List Tree} {ns : List XNode}
    (h : ReadsAll P c ns) : ∀ (a b : List Tree), c = a ++ b →
    ∃ na nb, ns = na ++ nb ∧ ReadsAll P a na ∧ ReadsAll P b nb := by
  induction h with
  | nil =>
    intro a b hc
    obtain ⟨rfl, rfl⟩ := List.append_eq_nil_iff.1 hc.symm
    exact ⟨[], [], rfl, .nil, .nil⟩
  | white p s hw _ ih =>
    intro a b hc
    obtain ⟨na, nb, rfl, h1, h2⟩ := ih a b hc
    exact ⟨_ :: na, nb, rfl, .white p s hw h1, h2⟩
  | @elem p q n attrs kids nodes ts ns hk ht ihk iht =>
    intro a b hc
    cases a with
    | nil =>
      simp only [List.nil_append] at hc; subst hc
      exact ⟨[], _, rfl, .nil, .elem p q n attrs hk ht⟩
    | cons t a =>
      simp only [List.cons_append, List.cons.injEq] at hc
      obtain ⟨rfl, rfl⟩ := hc
      obtain ⟨na, nb, rfl, h1, h2⟩ := iht a b rfl
      exact ⟨_ :: na, nb, rfl, .elem p q n attrs hk h1, h2⟩
  | @text l ts ns hp ht iht =>
    intro a b hc
    cases a with
    | nil =>
      simp only [List.nil_append] at hc; subst hc
      exact ⟨[], _, rfl, .nil, .text l hp ht⟩
    | cons t a =>
      simp only [List.cons_append, List.cons.injEq] at hc
      obtain ⟨rfl, rfl⟩ := hc
      obtain ⟨na, nb, rfl, h1, h2⟩ := iht a b rfl
      exact ⟨l.map (fun x => .text x.1 x.2) ++ na, nb, by simp, .text l hp h1, h2⟩

theorem addText_pieces {l : List (Pos × Bytes)} (h : NoBlank (l.map (·.2))) (r : Reading)
    (ns : List XNode) (pend : List Bytes) :
    lastPieces (l.map (fun x => .text x.1 x.2) ++ ns) pend = lastPieces ns (pend ++ l.map (·.2)) ∧
    strays r (l.map (fun x => .text x.1 x.2) ++ ns) pend = strays r ns (pend ++ l.map (·.2)) := by
  induction l generalizing pend with
  | nil => simp
  | cons x l ih =>
    have hx : White x.2 = false := h x.2 (by simp)
    have hl : NoBlank (l.map (·.2)) := fun s hs => h s (by simp [hs])
    obtain ⟨h1, h2⟩ := ih hl (pend ++ [x.2])
    simp only [List.map_cons, List.cons_append, lastPieces, strays, stray, addText, hx]
    refine ⟨?_, ?_⟩
    · simpa using h1
    · simp [h2]

/-- Text that is read: the kept pieces, and no messages. -/
theorem reads_text {s : Bytes} {ns : List XNode} (r : Reading)
    (h : ReadsAll NoBlank [.text s] ns) :
    ∃ l : List Bytes, l.flatten = s ∧ NoBlank l ∧
      ∀ pend, lastPieces ns pend = pend ++ l ∧ strays r ns pend = ([], pend ++ l) := by
  have nil : ∀ {ts : List Tree} {ns : List XNode}, ReadsAll NoBlank ts ns → ts = [] → ∀ pend,
      lastPieces ns pend = pend ∧ strays r ns pend = ([], pend) := by
    intro ts ns h
    induction h with
    | nil => intro _ pend; simp [lastPieces, strays]
    | white p s hw _ ih =>
      intro e pend
      obtain ⟨h1, h2⟩ := ih e pend
      simp [lastPieces, strays, stray, addText, hw, h1, h2]
    | elem => intro e; simp at e
    | text => intro e; simp at e
  generalize hc : [Tree.text s] = c at h
  induction h with
  | nil => simp at hc
  | white p s' hw _ ih =>
    obtain ⟨l, h1, h2, h3⟩ := ih hc
    refine ⟨l, h1, h2, fun pend => ?_⟩
    simp [lastPieces, strays, stray, addText, hw, (h3 pend).1, (h3 pend).2]
  | elem => simp at hc
  | @text l ts ns hp ht iht =>
    simp only [List.cons.injEq, Tree.text.injEq] at hc
    obtain ⟨rfl, rfl⟩ := hc
    refine ⟨_, rfl, hp, fun pend => ?_⟩
    obtain ⟨h1, h2⟩ := addText_pieces hp r ns pend
    obtain ⟨h3, h4⟩ := nil ht rfl (pend ++ l.map (·.2))
    exact ⟨h1.trans h3, h2.trans h4⟩

/-- The text of an element written with the text `s`. -/
def asText (s : Bytes) : Option Bytes := if s.isEmpty then none else some s

theorem joined_asText {l : List Bytes} (h : NoBlank l) : joined l = asText l.flatten := by
  cases l with
  | nil => rfl
  | cons x l =>
    have hx : White x = false := h x (by simp)
    cases x with
    | nil => simp [White] at hx
    | cons c x => rfl

theorem reads_leaf {s : Bytes} {ns : List XNode} (r : Reading)
    (h : ReadsAll NoBlank [.text s] ns) : leaf r ns = ([], asText s) := by
  obtain ⟨l, h1, h2, h3⟩ := reads_text r h
  simp [leaf, ownText, (h3 []).1, (h3 []).2, joined_asText h2, h1]

theorem reads_ownText {s : Bytes} {ns : List XNode} (r : Reading)
    (h : ReadsAll NoBlank [.text s] ns) : ownText ns = asText s := by
  have := reads_leaf r h
  simp only [leaf, Prod.mk.injEq] at this
  exact this.2

/-- An empty element. -/
theorem reads_none {ns : List XNode} (r : Reading) (h : ReadsAll NoBlank [] ns) :
    strays r ns [] = ([], []) := by
  generalize hc : ([] : List Tree) = c at h
  induction h with
  | nil => rfl
  | white p s hw _ ih => simp [strays, stray, addText, hw, ih hc]
  | elem => simp at hc
  | text => simp at hc

/-! ## Reading children -/

section steps
variable {σ : Type} (r : Reading)
  (kid : σ → Bytes → List (Bytes × Bytes) → List XNode → Option (σ × List Nat)) (Q : Prop)

/-- Reading elements leads from an object to an object, without messages if `Q`. -/
def Steps (ts : List Tree) (x y : σ) : Prop :=
  ∀ ns rest, ReadsAll NoBlank ts ns → ∃ codes, readAll r kid x (ns ++ rest) [] =
    ((readAll r kid y rest []).1, codes ++ (readAll r kid y rest []).2.1,
      (readAll r kid y rest []).2.2) ∧ (Q → codes = [])

variable {r kid Q}

theorem Steps.nil (x : σ) : Steps r kid Q [] x x := by
  intro ns rest h
  refine ⟨[], ?_, fun _ => rfl⟩
  generalize hc : ([] : List Tree) = c at h
  induction h with
  | nil => rfl
  | white p s hw _ ih => simpa [readAll, addText, hw] using ih hc
  | elem => simp at hc
  | text => simp at hc

theorem Steps.append {a b : List Tree} {x y z : σ} (h1 : Steps r kid Q a x y)
    (h2 : Steps r kid Q b y z) : Steps r kid Q (a ++ b) x z := by
  intro ns rest h
  obtain ⟨na, nb, rfl, ha, hb⟩ := reads_append h a b rfl
  obtain ⟨c1, e1, q1⟩ := h1 na (nb ++ rest) ha
  obtain ⟨c2, e2, q2⟩ := h2 nb rest hb
  refine ⟨c1 ++ c2, ?_, fun hq => by rw [q1 hq, q2 hq]; rfl⟩
  rw [List.append_assoc, e1, e2]
  simp

/-- What one element does. -/
def Kid (r : Reading)
    (kid : σ → Bytes → List (Bytes × Bytes) → List XNode → Option (σ × List Nat)) (Q : Prop)
    (n : Bytes) (attrs : List (Bytes × Bytes)) (ks : List Tree) (x y : σ) : Prop :=
  attrCodes r n attrs = [] ∧ ∀ nodes, ReadsAll NoBlank ks nodes →
    ∃ codes, kid x n attrs nodes = some (y, codes) ∧ (Q → codes = [])

theorem Steps.one {n : Bytes} {attrs : List (Bytes × Bytes)} {ks : List Tree} {x y : σ}
    (h : Kid r kid Q n attrs ks x y) : Steps r kid Q [.elem n attrs ks] x y := by
  intro ns rest hr
  generalize hc : [Tree.elem n attrs ks] = c at hr
  induction hr with
  | nil => simp at hc
  | white p s hw _ ih =>
    obtain ⟨codes, e, q⟩ := ih hc
    refine ⟨codes, ?_, q⟩
    simpa [readAll, addText, hw] using e
  | @elem p q n' attrs' kids nodes ts ns hk ht ihk iht =>
    simp only [List.cons.injEq, Tree.elem.injEq] at hc
    obtain ⟨⟨rfl, rfl, rfl⟩, rfl⟩ := hc
    obtain ⟨codes, e, q⟩ := h.2 nodes hk
    obtain ⟨c2, e2, q2⟩ := Steps.nil (r := r) (kid := kid) (Q := Q) y ns rest ht
    refine ⟨codes ++ c2, ?_, fun hq => by rw [q hq, q2 hq]; rfl⟩
    simp [readAll, e, e2, h.1, textCode]
  | text => simp at hc

theorem Steps.map {ι : Type} {nm : ι → Bytes} {at' : ι → List (Bytes × Bytes)} {ks : ι → List Tree}
    {f : σ → ι → σ} (items : List ι) (x : σ)
    (h : ∀ x, ∀ i ∈ items, Kid r kid Q (nm i) (at' i) (ks i) x (f x i)) :
    Steps r kid Q (items.map fun i => .elem (nm i) (at' i) (ks i)) x (items.foldl f x) := by
  induction items generalizing x with
  | nil => exact Steps.nil x
  | cons i is ih =>
    exact Steps.append (a := [_]) (Steps.one (h x i (by simp)))
      (ih (f x i) fun x j hj => h x j (by simp [hj]))

theorem Steps.inner {ts : List Tree} {x y : σ} (h : Steps r kid Q ts x y) {ns : List XNode}
    (hr : ReadsAll NoBlank ts ns) (atEnd : σ → List Nat) :
    ∃ codes, Spec.inner r kid x ns atEnd = (y, codes) ∧ (Q → atEnd y = [] → codes = []) := by
  obtain ⟨codes, e, q⟩ := h ns [] hr
  simp only [List.append_nil, readAll] at e
  refine ⟨codes ++ atEnd y, by simp [Spec.inner, e, textCode], fun hq he => by rw [q hq, he]; rfl⟩

end steps

/-! ## Words and numbers -/

/-- One step of `words`. -/
def wordStep (r : List Bytes × Bytes) (c : UInt8) : List Bytes × Bytes :=
  if c == 32 || c == 44 then (if r.2.isEmpty then r else (r.1 ++ [r.2], []))
  else (r.1, r.2 ++ [c])

theorem words_eq (s : Bytes) : words s =
    if (s.foldl wordStep ([], [])).2.isEmpty then (s.foldl wordStep ([], [])).1
    else (s.foldl wordStep ([], [])).1 ++ [(s.foldl wordStep ([], [])).2] := rfl

theorem word_foldl {w : Bytes} (h1 : (32 : UInt8) ∉ w) (h2 : (44 : UInt8) ∉ w) (acc : List Bytes)
    (cur : Bytes) : w.foldl wordStep (acc, cur) = (acc, cur ++ w) := by
  induction w generalizing cur with
  | nil => simp
  | cons c w ih =>
    simp only [List.mem_cons, not_or] at h1 h2
    rw [List.foldl_cons, wordStep, if_neg (by simp [Ne.symm h1.1, Ne.symm h2.1]), ih h1.2 h2.2]
    simp

theorem words_foldl (l : List Bytes) (w : Bytes) (acc : List Bytes)
    (h : ∀ x ∈ w :: l, x ≠ [] ∧ (32 : UInt8) ∉ x ∧ (44 : UInt8) ∉ x) :
    ∃ acc' cur, (List.intercalate b!" " (w :: l)).foldl wordStep (acc, []) = (acc', cur) ∧
      cur ≠ [] ∧ acc' ++ [cur] = acc ++ (w :: l) := by
  induction l generalizing w acc with
  | nil =>
    obtain ⟨h0, h1, h2⟩ := h w (by simp)
    exact ⟨acc, w, by simpa [List.intercalate] using word_foldl h1 h2 acc [], h0, rfl⟩
  | cons v l ih =>
    obtain ⟨h0, h1, h2⟩ := h w (by simp)
    obtain ⟨acc', cur, e1, e2, e3⟩ := ih v (acc ++ [w]) fun x hx => h x (by simp at hx ⊢; simp [hx])
    refine ⟨acc', cur, ?_, e2, by simpa using e3⟩
    have hi : List.intercalate b!" " (w :: v :: l) = w ++ (32 :: List.intercalate b!" " (v :: l)) := rfl
    rw [hi, List.foldl_append, word_foldl h1 h2, List.foldl_cons]
    have : wordStep (acc, [] ++ w) 32 = (acc ++ [w], []) := by
      cases w with
      | nil => exact absurd rfl h0
      | cons c w => rfl
    rw [this]
    exact e1

theorem words_intercalate {l : List Bytes}
    (h : ∀ x ∈ l, x ≠ [] ∧ (32 : UInt8) ∉ x ∧ (44 : UInt8) ∉ x) :
    words (List.intercalate b!" " l) = l := by
  cases l with
  | nil => rfl
  | cons w l =>
    obtain ⟨acc', cur, e1, e2, e3⟩ := words_foldl l w [] h
    rw [words_eq, e1]
    cases cur with
    | nil => exact absurd rfl e2
    | cons c cur => simpa using e3

theorem natValue_eq (s : Bytes) : natValue s = decVal s := rfl

theorem decimal_isDec (n : Nat) : IsDec n (decimal n) := by rw [← dec_decimal]; exact dec_isDec n

theorem digit_facts {c : UInt8} (h : 48 ≤ c ∧ c ≤ 57) :
    White [c] = false ∧ c ≠ 45 ∧ c ≠ 43 ∧ (decide (48 ≤ c) && decide (c ≤ 57)) = true := by
  have key : ∀ n : Fin 256, 48 ≤ UInt8.ofFin n ∧ UInt8.ofFin n ≤ 57 →
      White [UInt8.ofFin n] = false ∧ UInt8.ofFin n ≠ 45 ∧ UInt8.ofFin n ≠ 43 ∧
      (decide (48 ≤ UInt8.ofFin n) && decide (UInt8.ofFin n ≤ 57)) = true := by decide +kernel
  exact key c.toFin h

theorem takeWhile_all {α : Type} {p : α → Bool} {l : List α} (h : ∀ x ∈ l, p x = true) :
    l.takeWhile p = l := by
  induction l with
  | nil => rfl
  | cons x l ih =>
    rw [List.takeWhile_cons, if_pos (h x (by simp)), ih fun y hy => h y (by simp [hy])]

theorem numberAt_dec {n : Nat} {s : Bytes} (h : IsDec n s) : numberAt s = some (n : Int) := by
  obtain ⟨c, cs, e⟩ : ∃ c cs, s = c :: cs := by
    cases s with
    | nil => exact absurd rfl h.ne
    | cons c cs => exact ⟨c, cs, rfl⟩
  have hd := fun x hx => digit_facts (h.digit x hx)
  obtain ⟨f1, f2, f3, -⟩ := hd c (by rw [e]; simp)
  have hdrop : s.dropWhile (fun c => White [c]) = s := by
    rw [e, List.dropWhile_cons, if_neg (by simp [f1])]
  have hneg : (s.head? == some 45) = false := by rw [e]; simp [f2]
  have hpos : (s.head? == some 43) = false := by rw [e]; simp [f3]
  have htake : s.takeWhile (fun c => decide (48 ≤ c) && decide (c ≤ 57)) = s :=
    takeWhile_all fun x hx => (hd x hx).2.2.2
  unfold numberAt
  have hne : s.isEmpty = false := by rw [e]; rfl
  simp only [hdrop, hneg, hpos, Bool.false_or, Bool.false_eq_true, if_false, htake, hne, natValue_eq,
    h.val]

theorem decimal_white (n : Nat) : White (decimal n) = false := by
  have h := decimal_isDec n
  cases e : decimal n with
  | nil => exact absurd e h.ne
  | cons c cs =>
    have := (digit_facts (h.digit c (by rw [e]; simp))).1
    simp only [White, List.all_cons, List.all_nil, Bool.and_true] at this ⊢
    rw [this]; rfl

theorem white_ne {s : Bytes} (h : White s = false) : s ≠ [] := by
  rintro rfl; simp [White] at h

theorem asText_solid {s : Bytes} (h : s ≠ []) : asText s = some s := by
  cases s with
  | nil => exact absurd rfl h
  | cons c s => rfl

/-! ## Attributes -/

variable {lt : UInt8 → UInt8 → Bool} {opts : Defaults} {extra : Bytes → List Bytes}

theorem attrCodes_nil {n : Bytes} {attrs : List (Bytes × Bytes)}
    (h : ∀ a ∈ attrs, a.1 ∈ knownAttrs extra n) :
    attrCodes (Reading.plain lt opts extra) n attrs = [] := by
  simp only [attrCodes, Reading.plain, List.map_eq_nil_iff, List.filter_eq_nil_iff]
  intro a ha
  obtain ⟨x, hx, rfl⟩ := List.mem_map.1 ha
  simpa using h x hx

/-- The attribute list with the architectures. -/
theorem archAttr_cases {o : Options} {a : Option (List CStr)} (h : ArchesIn o a) :
    (a = none ∧ archAttr o a = []) ∨
    ∃ s, archAttr o a = [(b!"arch", s)] ∧ a = some ((words s).map fun w => ⟨some w⟩) := by
  rcases h with rfl | ⟨h1, l, h2, rfl, h3⟩
  · exact .inl ⟨rfl, rfl⟩
  · right
    cases l with
    | nil => exact absurd rfl h2
    | cons w l =>
      refine ⟨List.intercalate b!" " (w :: l), ?_, by rw [words_intercalate h3]⟩
      simp only [archAttr, List.map_cons, h1, if_true, textOf, List.map_map, Function.comp_def]
      simp

/-- Names of attributes that can be stored in order. -/
def okNames (l : List Bytes) : Bool :=
  l.all (fun a => !a.isEmpty) && decide (l.Pairwise fun a b => b.isPrefixOf a = false)

theorem attrsOk_names {attrs : List (Bytes × Bytes)} (h : okNames (attrs.map (·.1)) = true) :
    AttrsOk attrs := by
  simp only [okNames, Bool.and_eq_true, decide_eq_true_eq, List.pairwise_map] at h
  refine ⟨fun a ha e => ?_, h.2.imp ?_⟩
  · have := List.all_eq_true.1 h.1 a.1 (List.mem_map_of_mem ha)
    rw [e] at this; simp at this
  · intro a b hab
    refine ⟨fun e => ?_, fun ⟨c, cs, e⟩ => ?_⟩
    · have : b.1.isPrefixOf a.1 = true := by rw [List.isPrefixOf_iff_prefix, e]; simp
      rw [this] at hab; simp at hab
    · have : b.1.isPrefixOf a.1 = true := by rw [List.isPrefixOf_iff_prefix, e]; simp
      rw [this] at hab; simp at hab

theorem known_package : knownAttrs extra b!"packagereq" =
    [b!"requires", b!"type", b!"basearchonly", b!"arch"] := by simp [knownAttrs]
theorem known_groupid : knownAttrs extra b!"groupid" = [b!"default", b!"arch"] := by
  simp [knownAttrs]
theorem known_entry {n : Bytes} (h : n = b!"group" ∨ n = b!"category" ∨ n = b!"environment") :
    knownAttrs extra n = [b!"arch"] := by simp [knownAttrs, h]
theorem known_name {n : Bytes} (h : n = b!"name" ∨ n = b!"description") :
    b!"xml:lang" ∈ knownAttrs extra n := by rcases h with rfl | rfl <;> simp [knownAttrs]

theorem look_plain (attrs : List (Bytes × Bytes)) (k : Bytes) :
    (Reading.plain lt opts extra).look attrs k = attrOf attrs k := rfl

theorem typeNamed_word {t : PkgType} (h : t ≠ .unknown) : typeNamed (typeWord t) = t := by
  cases t <;> first | exact absurd rfl h | decide

/-! ## Packages and group ids -/

/-- The attributes of a package. -/
def packageAttrs (o : Options) (p : Package) : List (Bytes × Bytes) :=
  archAttr o p.arches ++ [(b!"type", typeWord p.type)] ++
      (if textOf p.requires = [] then [] else [(b!"requires", textOf p.requires)]) ++
      (if o.baoExplicit then [(b!"basearchonly", boolWord p.basearchonly.isSome)]
        else match p.basearchonly with
          | none => []
          | some n => if n = 0 then [] else [(b!"basearchonly", b!"true")])

theorem packageTree_eq (o : Options) (p : Package) :
    packageTree o p = .elem b!"packagereq" (packageAttrs o p) [.text (textOf p.name)] := rfl

/-- The possible attribute lists of a package. -/
theorem packageAttrs_cases {o : Options} {p : Package} (h : PackageIn o p) :
    ∃ A R B : List (Bytes × Bytes),
      packageAttrs o p = A ++ [(b!"type", typeWord p.type)] ++ R ++ B ∧
      ((A = [] ∧ p.arches = none) ∨
        ∃ s, A = [(b!"arch", s)] ∧ p.arches = some ((words s).map fun w => ⟨some w⟩)) ∧
      ((R = [] ∧ p.requires = none) ∨ ∃ s, R = [(b!"requires", s)] ∧ p.requires = some ⟨some s⟩) ∧
      ((B = [] ∧ p.basearchonly = none) ∨ (B = [(b!"basearchonly", b!"false")] ∧ p.basearchonly = none) ∨
        (B = [(b!"basearchonly", b!"true")] ∧ p.basearchonly = some 1)) := by
  refine ⟨_, _, _, rfl, ?_, ?_, ?_⟩
  · rcases archAttr_cases h.arches with ⟨h1, h2⟩ | ⟨s, h1, h2⟩
    · exact .inl ⟨h2, h1⟩
    · exact .inr ⟨s, h1, h2⟩
  · cases hr : p.requires with
    | none => exact .inl ⟨rfl, rfl⟩
    | some s =>
      obtain ⟨b, rfl, hb⟩ := h.requires s hr
      exact .inr ⟨b, by simp [textOf, hb], rfl⟩
  · rcases h.basearchonly with hb | hb <;> rw [hb] <;> cases o.baoExplicit <;> simp [boolWord]

theorem package_back {o : Options} {p : Package} (h : PackageIn o p) :
    packageOf (Reading.plain lt opts extra) (packageAttrs o p) (asText (textOf p.name)) = p ∧
    AttrsOk (packageAttrs o p) ∧ ∀ a ∈ packageAttrs o p, a.1 ∈ knownAttrs extra b!"packagereq" := by
  obtain ⟨A, R, B, e, hA, hR, hB⟩ := packageAttrs_cases h
  have hn : (asText (textOf p.name)).map (fun b => (⟨some b⟩ : CStr)) = p.name := by
    cases hp : p.name with
    | none => rfl
    | some s =>
      obtain ⟨b, rfl, hb⟩ := h.name s hp
      simp [textOf, asText_solid (white_ne hb)]
  have ht := typeNamed_word h.type
  rw [e]
  refine ⟨?_, ?_, ?_⟩
  · obtain ⟨nm, rq, ba, ar, ty⟩ := p
    simp only at hn ht hA hR hB ⊢
    simp only [packageOf, hn, Package.mk.injEq, true_and, archesIn, look_plain]
    rcases hA with ⟨rfl, rfl⟩ | ⟨s, rfl, rfl⟩ <;> rcases hR with ⟨rfl, rfl⟩ | ⟨s', rfl, rfl⟩ <;>
      rcases hB with ⟨rfl, rfl⟩ | ⟨rfl, rfl⟩ | ⟨rfl, rfl⟩ <;> simp [attrOf, ht, List.find?]
  · apply attrsOk_names
    rcases hA with ⟨rfl, -⟩ | ⟨s, rfl, -⟩ <;> rcases hR with ⟨rfl, -⟩ | ⟨s', rfl, -⟩ <;>
      rcases hB with ⟨rfl, -⟩ | ⟨rfl, -⟩ | ⟨rfl, -⟩ <;> rfl
  · rw [known_package]
    rcases hA with ⟨rfl, -⟩ | ⟨s, rfl, -⟩ <;> rcases hR with ⟨rfl, -⟩ | ⟨s', rfl, -⟩ <;>
      rcases hB with ⟨rfl, -⟩ | ⟨rfl, -⟩ | ⟨rfl, -⟩ <;> simp

/-- The attributes of a group id. -/
def groupIdAttrs (o : Options) (g : GroupId) : List (Bytes × Bytes) :=
  archAttr o g.arches ++
      (if o.gidDefaultExplicit ∨ g.dflt = true then [(b!"default", boolWord g.dflt)] else [])

theorem groupIdTree_eq (o : Options) (p : GroupId) :
    groupIdTree o p = .elem b!"groupid" (groupIdAttrs o p) [.text (textOf p.name)] := rfl

theorem groupIdAttrs_cases {o : Options} {g : GroupId} (h : GroupIdIn o g) :
    ∃ A B : List (Bytes × Bytes), groupIdAttrs o g = A ++ B ∧
      ((A = [] ∧ g.arches = none) ∨
        ∃ s, A = [(b!"arch", s)] ∧ g.arches = some ((words s).map fun w => ⟨some w⟩)) ∧
      ((B = [] ∧ g.dflt = false) ∨ (B = [(b!"default", b!"false")] ∧ g.dflt = false) ∨
        (B = [(b!"default", b!"true")] ∧ g.dflt = true)) := by
  refine ⟨_, _, rfl, ?_, ?_⟩
  · rcases archAttr_cases h.arches with ⟨h1, h2⟩ | ⟨s, h1, h2⟩
    · exact .inl ⟨h2, h1⟩
    · exact .inr ⟨s, h1, h2⟩
  · cases g.dflt <;> cases o.gidDefaultExplicit <;> simp [boolWord]

theorem groupId_back {o : Options} {g : GroupId} (h : GroupIdIn o g) :
    groupIdOf (Reading.plain lt opts extra) (groupIdAttrs o g) (asText (textOf g.name)) = g ∧
    AttrsOk (groupIdAttrs o g) ∧ ∀ a ∈ groupIdAttrs o g, a.1 ∈ knownAttrs extra b!"groupid" := by
  obtain ⟨A, B, e, hA, hB⟩ := groupIdAttrs_cases h
  have hn : some (⟨asText (textOf g.name)⟩ : CStr) = g.name := by
    rcases h.name with hp | ⟨s, hp, b, rfl, hb⟩
    · rw [hp]; rfl
    · rw [hp]; simp [textOf, asText_solid (white_ne hb)]
  rw [e]
  refine ⟨?_, ?_, ?_⟩
  · obtain ⟨nm, df, ar⟩ := g
    simp only at hn hA hB ⊢
    simp only [groupIdOf, hn, GroupId.mk.injEq, true_and, archesIn, look_plain]
    rcases hA with ⟨rfl, rfl⟩ | ⟨s, rfl, rfl⟩ <;>
      rcases hB with ⟨rfl, rfl⟩ | ⟨rfl, rfl⟩ | ⟨rfl, rfl⟩ <;> simp [attrOf, List.find?]
  · apply attrsOk_names
    rcases hA with ⟨rfl, -⟩ | ⟨s, rfl, -⟩ <;> rcases hB with ⟨rfl, -⟩ | ⟨rfl, -⟩ | ⟨rfl, -⟩ <;> rfl
  · rw [known_groupid]
    rcases hA with ⟨rfl, -⟩ | ⟨s, rfl, -⟩ <;> rcases hB with ⟨rfl, -⟩ | ⟨rfl, -⟩ | ⟨rfl, -⟩ <;> simp

theorem foldl_snoc {α : Type} (l : List α) (x : List α) :
    l.foldl (fun x a => x ++ [a]) x = x ++ l := by
  induction l generalizing x with
  | nil => simp
  | cons a l ih => rw [List.foldl_cons, ih]; simp

/-- Reading a list of packages. -/
theorem packages_steps {o : Options} {l : List Package} (h : ∀ p ∈ l, PackageIn o p)
    (x : List Package) (Q : Prop) (hq : Q → ∀ p ∈ l, p.name ≠ none) :
    Steps (Reading.plain lt opts extra) (packageKid (Reading.plain lt opts extra)) Q
      (l.map (packageTree o)) x (x ++ l) := by
  rw [← foldl_snoc]
  refine Steps.map (nm := fun _ => b!"packagereq") (at' := packageAttrs o)
    (ks := fun p => [.text (textOf p.name)]) (f := fun x a => x ++ [a]) l x fun x p hp => ?_
  obtain ⟨h1, h2, h3⟩ := package_back (lt := lt) (opts := opts) (extra := extra) (h p hp)
  refine ⟨attrCodes_nil h3, fun nodes hr => ?_⟩
  rw [packageKid, if_pos rfl, reads_leaf _ hr, h1]
  refine ⟨_, rfl, fun q => ?_⟩
  have hn := hq q p hp
  cases hp' : p.name with
  | none => exact absurd hp' hn
  | some s =>
    obtain ⟨b, rfl, hb⟩ := (h p hp).name s hp'
    simp [textOf, asText_solid (white_ne hb)]

/-- Reading a list of group ids. -/
theorem ids_steps {o : Options} {l : List GroupId} (h : ∀ p ∈ l, GroupIdIn o p)
    (x : List GroupId) (Q : Prop) :
    Steps (Reading.plain lt opts extra) (idKid (Reading.plain lt opts extra)) Q
      (l.map (groupIdTree o)) x (x ++ l) := by
  rw [← foldl_snoc]
  refine Steps.map (nm := fun _ => b!"groupid") (at' := groupIdAttrs o)
    (ks := fun p => [.text (textOf p.name)]) (f := fun x a => x ++ [a]) l x fun x p hp => ?_
  obtain ⟨h1, h2, h3⟩ := groupId_back (lt := lt) (opts := opts) (extra := extra) (h p hp)
  refine ⟨attrCodes_nil h3, fun nodes hr => ?_⟩
  rw [idKid, if_pos rfl, reads_leaf _ hr, h1]
  exact ⟨_, rfl, fun _ => rfl⟩

/-! ## Properties -/

/-- Write a property if there is a value. -/
def put (lt : UInt8 → UInt8 → Bool) (key : Bytes) (v : Option PVal) (t : RTree PVal) : RTree PVal :=
  match v with
  | some v => t.set lt key (some v)
  | none => t

theorem put_inv {key : Bytes} {v : Option PVal} {t : RTree PVal} (h : PropInv lt t)
    (hk : key ∈ propKeys) (hv : ∀ x, v = some x → (key, kind x) ∈ propKinds) :
    PropInv lt (put lt key v t) := by
  cases v with
  | none => exact h
  | some v => exact h.set key hk _ hv

theorem put_get {key : Bytes} {v : Option PVal} {t : RTree PVal} (h : PropInv lt t)
    (hk : key ∈ propKeys) (k : Bytes) :
    (put lt key v t).get k = if k = key then v.or (t.get key) else t.get k := by
  cases v with
  | none => simp only [put, Option.none_or]; split <;> simp_all
  | some v => simp only [put, Option.some_or]; exact h.set_get key hk _ k

/-- Write all entries of a list. -/
def putAll (lt : UInt8 → UInt8 → Bool) (l : List (Bytes × PVal)) (t : RTree PVal) : RTree PVal :=
  l.foldl (fun t e => t.set lt e.1 (some e.2)) t

theorem putAll_get {t : RTree PVal} (h : RTree.WF t.subnodes) (k : Bytes) :
    (putAll lt t.pairs RTree.create).get k = t.get k := by
  have e : putAll lt t.pairs RTree.create = RTree.setAll lt RTree.create (RTree.asWrites t.pairs) := by
    simp only [putAll, RTree.setAll, RTree.asWrites, List.foldl_map]
  rw [e, RTree.rewrite_get lt h]

/-! ## Texts of entries -/

/-- The texts of an entry after reading what was written for an entry with the given dictionaries. -/
def backTexts (lt : UInt8 → UInt8 → Bool) (x : Texts) (props names descs : RTree PVal) : Texts :=
  ⟨put lt b!"desc" (props.get b!"desc") (put lt b!"name" (props.get b!"name")
      (put lt b!"id" (props.get b!"id") x.props)),
    putAll lt names.pairs x.names, putAll lt descs.pairs x.descs⟩

section fields
variable {σ : Type}
  {kid : σ → Bytes → List (Bytes × Bytes) → List XNode → Option (σ × List Nat)} {emb : Texts → σ}

/-- `kid` treats the common fields as `fieldKid` does. -/
def Lifts (r : Reading) (kid : σ → Bytes → List (Bytes × Bytes) → List XNode → Option (σ × List Nat))
    (emb : Texts → σ) : Prop :=
  ∀ x n attrs nodes y, fieldKid r x n attrs nodes = some y →
    kid (emb x) n attrs nodes = some (emb y.1, y.2)

theorem solid_text {v : PVal} (h : ∃ s, v = .str s ∧ Solid s) :
    ∃ b, v = .str ⟨some b⟩ ∧ asText (valueText v) = some b := by
  obtain ⟨s, rfl, b, rfl, hb⟩ := h
  exact ⟨b, rfl, asText_solid (white_ne hb)⟩

/-- A text property. -/
theorem prop_step {r : Reading} (hl : Lifts r kid emb) {Q : Prop} {tag key : Bytes}
    (hk : (tag = b!"id" ∧ key = b!"id") ∨ (tag = b!"name" ∧ key = b!"name") ∨
      (tag = b!"description" ∧ key = b!"desc"))
    {v : Option PVal} (hv : ∀ x, v = some x → ∃ s, x = .str s ∧ Solid s)
    (hlook : r.look [] b!"xml:lang" = none) (hc : attrCodes r tag [] = [])
    (x : Texts) (hn : x.props.get key = none) :
    Steps r kid Q (propTree tag v) (emb x) (emb { x with props := put r.lt key v x.props }) := by
  cases v with
  | none => exact Steps.nil _
  | some v =>
    obtain ⟨b, rfl, hb⟩ := solid_text (hv v rfl)
    refine Steps.one ⟨hc, fun nodes hr => ?_⟩
    have ht : tag = b!"id" ∨ tag = b!"name" ∨ tag = b!"description" := by
      rcases hk with ⟨h, -⟩ | ⟨h, -⟩ | ⟨h, -⟩ <;> simp [h]
    have : fieldKid r x tag [] nodes =
        some ({ x with props := put r.lt key (some (.str ⟨some b⟩)) x.props }, []) := by
      rw [fieldKid, if_pos ht, reads_leaf r hr, hb]
      rcases hk with ⟨rfl, rfl⟩ | ⟨rfl, rfl⟩ | ⟨rfl, rfl⟩ <;>
        simp [textKid, hlook, putText, againCode, hn, put]
    exact ⟨[], hl _ _ _ _ _ this, fun _ => rfl⟩

/-- The translations of the name. -/
theorem names_steps {r : Reading} (hl : Lifts r kid emb) {Q : Prop} {t : RTree PVal}
    (hlook : ∀ l, r.look [(b!"xml:lang", l)] b!"xml:lang" = some l)
    (hc : ∀ l, attrCodes r b!"name" [(b!"xml:lang", l)] = [])
    (hv : ∀ e ∈ t.pairs, ∃ s, e.2 = .str s ∧ Solid s) (x : Texts) :
    Steps r kid Q (langTrees b!"name" t) (emb x) (emb { x with names := putAll r.lt t.pairs x.names }) := by
  have : ∀ (l : List (Bytes × PVal)) (x : Texts), (∀ e ∈ l, ∃ s, e.2 = .str s ∧ Solid s) →
      Steps r kid Q (l.map fun e => .elem b!"name" [(b!"xml:lang", e.1)] [.text (valueText e.2)])
        (emb x) (emb { x with names := putAll r.lt l x.names }) := by
    intro l
    induction l with
    | nil => intro x _; exact Steps.nil _
    | cons e l ih =>
      intro x hv
      have ih := ih { x with names := x.names.set r.lt e.1 (some e.2) } fun e' he' => hv e' (by simp [he'])
      refine Steps.append (a := [_]) (Steps.one ⟨hc _, fun nodes hr => ?_⟩) ih
      obtain ⟨b, eb, hb⟩ := solid_text (hv e (by simp))
      have : fieldKid r x b!"name" [(b!"xml:lang", e.1)] nodes =
          some ({ x with names := x.names.set r.lt e.1 (some e.2) }, []) := by
        rw [fieldKid, if_pos (by simp), reads_leaf r hr, hb]
        simp [textKid, hlook, eb]
      exact ⟨[], hl _ _ _ _ _ this, fun _ => rfl⟩
  exact this _ x hv

/-- The translations of the description. -/
theorem descs_steps {r : Reading} (hl : Lifts r kid emb) {Q : Prop} {t : RTree PVal}
    (hlook : ∀ l, r.look [(b!"xml:lang", l)] b!"xml:lang" = some l)
    (hc : ∀ l, attrCodes r b!"description" [(b!"xml:lang", l)] = [])
    (hv : ∀ e ∈ t.pairs, ∃ s, e.2 = .str s ∧ Solid s) (x : Texts) :
    Steps r kid Q (langTrees b!"description" t) (emb x)
      (emb { x with descs := putAll r.lt t.pairs x.descs }) := by
  have : ∀ (l : List (Bytes × PVal)) (x : Texts), (∀ e ∈ l, ∃ s, e.2 = .str s ∧ Solid s) →
      Steps r kid Q (l.map fun e => .elem b!"description" [(b!"xml:lang", e.1)] [.text (valueText e.2)])
        (emb x) (emb { x with descs := putAll r.lt l x.descs }) := by
    intro l
    induction l with
    | nil => intro x _; exact Steps.nil _
    | cons e l ih =>
      intro x hv
      have ih := ih { x with descs := x.descs.set r.lt e.1 (some e.2) } fun e' he' => hv e' (by simp [he'])
      refine Steps.append (a := [_]) (Steps.one ⟨hc _, fun nodes hr => ?_⟩) ih
      obtain ⟨b, eb, hb⟩ := solid_text (hv e (by simp))
      have : fieldKid r x b!"description" [(b!"xml:lang", e.1)] nodes =
          some ({ x with descs := x.descs.set r.lt e.1 (some e.2) }, []) := by
        rw [fieldKid, if_pos (by simp), reads_leaf r hr, hb]
        simp [textKid, hlook, eb]
      exact ⟨[], hl _ _ _ _ _ this, fun _ => rfl⟩
  exact this _ x hv

/-- The display order. -/
theorem order_step {r : Reading} (hl : Lifts r kid emb) {Q : Prop}
    {v : Option PVal} (hv : ∀ x, v = some x → ∃ n, x = .num n ∧ 0 ≤ n ∧ n ≤ 2147483647)
    (hc : attrCodes r b!"display_order" [] = []) (x : Texts)
    (hn : x.props.get b!"display_order" = none) :
    Steps r kid Q (propTree b!"display_order" v) (emb x)
      (emb { x with props := put r.lt b!"display_order" v x.props }) := by
  cases v with
  | none => exact Steps.nil _
  | some v =>
    obtain ⟨n, rfl, h0, -⟩ := hv v rfl
    refine Steps.one ⟨hc, fun nodes hr => ?_⟩
    have hnum : numberAt (decimal n.toNat) = some n := by
      rw [numberAt_dec (decimal_isDec _), Int.toNat_of_nonneg h0]
    have : fieldKid r x b!"display_order" [] nodes =
        some ({ x with props := put r.lt b!"display_order" (some (.num n)) x.props }, []) := by
      rw [fieldKid, if_neg (by simp), if_pos rfl, reads_leaf r hr]
      simp only [valueText]
      rw [asText_solid (white_ne (decimal_white _))]
      simp [orderKid, hnum, hn, againCode, put]
    exact ⟨[], hl _ _ _ _ _ this, fun _ => rfl⟩

end fields

/-- Name, description and translations. -/
theorem texts_steps {σ : Type}
    {kid : σ → Bytes → List (Bytes × Bytes) → List XNode → Option (σ × List Nat)} {emb : Texts → σ}
    (hl : Lifts (Reading.plain lt opts extra) kid emb) (Q : Prop) {o : Options}
    {props names descs : RTree PVal} (h : TextsIn o props names descs) (hnw : RTree.WF names.subnodes)
    (hdw : RTree.WF descs.subnodes) (x : Texts) (hx : PropInv lt x.props)
    (hn : ∀ k ∈ [b!"id", b!"name", b!"desc"], x.props.get k = none) :
    Steps (Reading.plain lt opts extra) kid Q (textTrees props names descs) (emb x)
      (emb (backTexts lt x props names descs)) := by
  have hlook : ∀ l, (Reading.plain lt opts extra).look [(b!"xml:lang", l)] b!"xml:lang" = some l := by
    intro l; simp [look_plain, attrOf]
  have hc : ∀ n, attrCodes (Reading.plain lt opts extra) n [] = [] := fun n => attrCodes_nil (by simp)
  have str : ∀ k ∈ [b!"id", b!"name", b!"desc"], ∀ v, props.get k = some v →
      ∃ s, v = .str s ∧ Solid s := fun k hk => h.strs k (by simp at hk ⊢; rcases hk with h | h | h <;> simp [h])
  have kd : ∀ k ∈ [b!"id", b!"name", b!"desc"], ∀ v, props.get k = some v →
      (k, kind v) ∈ propKinds := by
    intro k hk v hv
    obtain ⟨s, rfl, -⟩ := str k hk v hv
    simp at hk
    rcases hk with rfl | rfl | rfl <;> simp [propKinds, kind]
  have key : ∀ k ∈ [b!"id", b!"name", b!"desc"], k ∈ propKeys := by decide
  have p1 := put_inv (v := props.get b!"id") hx (key b!"id" (by simp)) (kd b!"id" (by simp))
  have p2 := put_inv (v := props.get b!"name") p1 (key b!"name" (by simp)) (kd b!"name" (by simp))
  unfold textTrees backTexts
  refine Steps.append (Steps.append (Steps.append (Steps.append
    (prop_step hl (.inl ⟨rfl, rfl⟩) (str _ (by simp)) rfl (hc _) x (hn _ (by simp)))
    (prop_step hl (.inr (.inl ⟨rfl, rfl⟩)) (str _ (by simp)) rfl (hc _) _ ?_))
    (names_steps hl hlook (fun l => attrCodes_nil ?_) ?_ _))
    (prop_step hl (.inr (.inr ⟨rfl, rfl⟩)) (str _ (by simp)) rfl (hc _) _ ?_))
    (descs_steps hl hlook (fun l => attrCodes_nil ?_) ?_ _)
  · show (put lt _ _ _).get _ = none
    rw [put_get hx (by decide), if_neg (by decide)]; exact hn _ (by simp)
  · simpa using known_name (.inl rfl)
  · exact fun e he => h.names e.1 e.2 ((RTree.mem_pairs hnw _ _).1 he)
  · show (put lt _ _ (put lt _ _ _)).get _ = none
    rw [put_get p1 (by decide), if_neg (by decide), put_get hx (by decide), if_neg (by decide)]
    exact hn _ (by simp)
  · simpa using known_name (.inr rfl)
  · exact fun e he => h.descs e.1 e.2 ((RTree.mem_pairs hdw _ _).1 he)

end Comps.Round
