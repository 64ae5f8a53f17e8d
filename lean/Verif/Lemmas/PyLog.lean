import Verif.Model.PyLog
import Verif.Spec.PyLog
import Verif.Lemmas.Text
import Verif.Lemmas.ParseAttrs
import Verif.Lemmas.RTreeBack
import Verif.Lemmas.PyTyped
import Verif.Props.Text

/-!
# Texts of the log
-/

namespace Comps.PyLog
open Comps Comps.Obj Comps.Text Comps.Spec Comps.Spec.PyLog

/-! ## One entry -/

/-- An argument with a text: strings of which `P` holds, numbers that are not negative. -/
def FineArg (P : Bytes → Prop) : Option PVal → Prop
  | none => True
  | some (.str s) => ∀ b, s.val = some b → P b
  | some (.num n) => 0 ≤ n
  | some (.list _) => False

/-- An entry with a text. -/
def Fine (P : Bytes → Prop) (e : LogEntry) : Prop :=
  ∃ fmt, logFormat e.code = some fmt ∧ e.args.length = placeholders fmt ∧ ∀ a ∈ e.args, FineArg P a

variable {P : Bytes → Prop}

theorem dec_toInt {n : Int} (h : 0 ≤ n) : decInt n = dec n.toNat := by
  obtain ⟨m, rfl⟩ := Int.eq_ofNat_of_zero_le h
  rfl

theorem argText_ok {a : Option PVal} (h : FineArg P a) : ∃ b, argText a = .ok b ∧ ArgSays a b := by
  match a, h with
  | none, _ => exact ⟨[], rfl, rfl⟩
  | some (.str ⟨none⟩), _ => exact ⟨[], rfl, rfl⟩
  | some (.str ⟨some b⟩), _ =>
    refine ⟨b, ?_, rfl⟩
    simp [argText, Xml.valText, Xml.strText, strToStr, Buf.fill]
    rfl
  | some (.num n), h =>
    have h0 : ¬ n < 0 := by simp only [FineArg] at h; omega
    have h0' : 0 ≤ n := h
    refine ⟨dec n.toNat, ?_, h, dec_isDec _⟩
    show (Buf.str <$> numToStr n) = _
    unfold numToStr
    rw [if_neg h0]
    simp only [Buf.fill]
    have hl : (decInt n).length + 1 ≤ (if n = 0 then 1 else log10 n.toNat + 1) + 1 := by
      rw [dec_toInt h0', dec_length]
      split
      · next e => subst e; simp [log10]
      · omega
    rw [if_pos hl, dec_toInt h0']
    rfl

theorem argTexts_ok : ∀ {as : List (Option PVal)}, (∀ a ∈ as, FineArg P a) →
    ∃ bs, argTexts as = .ok bs ∧ ArgsSay as bs ∧ bs.length = as.length
  | [], _ => ⟨[], rfl, trivial, rfl⟩
  | a :: as, h => by
    obtain ⟨b, h1, h2⟩ := argText_ok (h a (by simp))
    obtain ⟨bs, k1, k2, k3⟩ := argTexts_ok (as := as) fun x hx => h x (by simp [hx])
    refine ⟨b :: bs, ?_, ⟨h2, k2⟩, by simp [k3]⟩
    simp only [argTexts, h1, k1, bind, Except.bind]
    rfl

theorem entryText_ok {e : LogEntry} (h : Fine P e) : ∃ t, entryText e = .ok t ∧ Says e t := by
  obtain ⟨fmt, hf, hn, ha⟩ := h
  obtain ⟨bs, h1, h2, h3⟩ := argTexts_ok ha
  obtain ⟨b, k1, k2, -⟩ := Props.C38_exact_fit e.code fmt bs hf (by omega)
  refine ⟨b.str, ?_, fmt, bs, hf, h2, k2⟩
  simp only [entryText, h1, k1, bind, Except.bind]
  rfl

/-! ## What holds of the text -/

theorem renders_all {fmt : Bytes} {bs : List Bytes} {t : Bytes} (h : Renders fmt bs t)
    (hP : ∀ a b, P a → P b → P (a ++ b)) (h1 : ∀ c, c < 128 → P [c]) (h0 : P [])
    (hf : ∀ c ∈ fmt, c < 128) (hb : ∀ b ∈ bs, P b) : P t := by
  induction h with
  | nil => exact h0
  | @lit c fmt args out hc _ ih =>
    exact hP [c] out (h1 c (hf c (by simp))) (ih (fun c hc => hf c (by simp [hc])) hb)
  | @arg a fmt args out _ ih =>
    exact hP a out (hb a (by simp)) (ih (fun c hc => hf c (by simp [hc])) fun b h => hb b (by simp [h]))

theorem format_ascii {code : Nat} {fmt : Bytes} (h : logFormat code = some fmt) : ∀ c ∈ fmt, c < 128 := by
  unfold logFormat at h
  split at h
  all_goals first
    | (injection h with h; subst h; decide)
    | exact absurd h (by simp)

theorem isDec_ascii {n : Nat} {b : Bytes} (h : IsDec n b) : ∀ c ∈ b, c < 128 := by
  intro c hc
  have := (h.digit c hc).2
  exact UInt8.lt_of_le_of_lt this (by decide)

/-- Texts of which `P` holds: all of ASCII, and what is put together from such texts. -/
structure Texty (P : Bytes → Prop) : Prop where
  ascii : ∀ b : Bytes, (∀ c ∈ b, c < 128) → P b
  append : ∀ a b, P a → P b → P (a ++ b)

theorem argSays_all (hP : Texty P) {a : Option PVal} {b : Bytes} (h : ArgSays a b) (ha : FineArg P a) : P b := by
  match a, h, ha with
  | none, h, _ => cases h; exact hP.ascii [] (by simp)
  | some (.str ⟨none⟩), h, _ => cases h; exact hP.ascii [] (by simp)
  | some (.str ⟨some x⟩), h, ha => cases h; exact ha x rfl
  | some (.num n), h, _ => exact hP.ascii b (isDec_ascii h.2)

theorem argsSay_all (hP : Texty P) : ∀ {as : List (Option PVal)} {bs : List Bytes}, ArgsSay as bs →
    (∀ a ∈ as, FineArg P a) → ∀ b ∈ bs, P b
  | [], [], _, _ => nofun
  | a :: as, b :: bs, h, ha => by
    intro x hx
    rcases List.mem_cons.1 hx with rfl | hx
    · exact argSays_all hP h.1 (ha a (by simp))
    · exact argsSay_all hP h.2 (fun a h => ha a (by simp [h])) x hx
  | [], _ :: _, h, _ => h.elim
  | _ :: _, [], h, _ => h.elim

theorem says_all (hP : Texty P) {e : LogEntry} (h : Fine P e) {t : Bytes} (ht : Says e t) : P t := by
  obtain ⟨fmt, bs, hf, hb, hr⟩ := ht
  obtain ⟨-, -, -, ha⟩ := h
  exact renders_all hr hP.append (fun c hc => hP.ascii [c] (by simpa using hc)) (hP.ascii [] (by simp))
    (format_ascii hf) (argsSay_all hP hb ha)

/-! ## The parser -/

section
open Comps.Parse

/-- All entries have a text. -/
def FineAll (P : Bytes → Prop) (l : List LogEntry) : Prop := ∀ e ∈ l, Fine P e

theorem fine_nil : FineAll P [] := nofun

theorem FineAll.append {a b : List LogEntry} (ha : FineAll P a) (hb : FineAll P b) : FineAll P (a ++ b) :=
  fun e he => (List.mem_append.1 he).elim (ha e) (hb e)

variable {p : Pos} {t : Option Bytes}

/-- The texts the codes of three arguments want: a text and a position. -/
def shaped (c : Nat) : Bool := (logFormat c).map placeholders == some 3

theorem fine_entry (hp : PosOk p) (ht : ∀ b, t = some b → P b) {c : Nat} (hc : shaped c = true) :
    FineAll P [entry c t p] := by
  intro e he
  rw [List.mem_singleton] at he
  subst he
  unfold shaped at hc
  cases hf : logFormat c with
  | none => rw [hf] at hc; cases hc
  | some fmt =>
    rw [hf] at hc
    have h3 : placeholders fmt = 3 := by simpa using hc
    refine ⟨fmt, hf, h3.symm, ?_⟩
    intro a ha
    simp only [Parse.entry, List.mem_cons, List.not_mem_nil, or_false] at ha
    rcases ha with rfl | rfl | rfl
    · exact ht
    · exact hp.1
    · exact hp.2

theorem fine_const (hP : Texty P) (hp : PosOk p) {n : Bytes} (hn : ∀ c ∈ n, c < 128) {c : Nat}
    (hc : shaped c = true) : FineAll P [entry c (some n) p] :=
  fine_entry hp (fun b hb => by cases hb; exact hP.ascii n hn) hc

theorem infoName_ascii {ty : ElemType} {n : Bytes} (h : ty.infoName = .ok n) : ∀ c ∈ n, c < 128 := by
  cases ty <;> cases h <;> decide

theorem fine_required (hP : Texty P) (hp : PosOk p) (props : RTree PVal) :
    FineAll P (requiredProps props p) := by
  unfold requiredProps
  refine ((?_ : FineAll P _).append ?_).append ?_ <;>
  · unfold checkRequired
    split
    · exact fine_const hP hp (by decide) (by decide)
    · exact fine_nil

theorem fine_already (hP : Texty P) (hp : PosOk p) (v : Option PVal) {n : Bytes} (hn : ∀ c ∈ n, c < 128) :
    FineAll P (checkAlreadySet v n p) := by
  unfold checkAlreadySet
  split
  · exact fine_const hP hp hn (by decide)
  · exact fine_nil

theorem onLast_fine {α : Type} {cx : Ctx} {sl : Slot (List α)} {f : α → Res (α × List LogEntry)}
    {d : DocPtr} {taken : Bool} {r : After} (h : after taken (onLast cx sl f d) = .ok r)
    (hf : ∀ x y, f x = .ok y → FineAll P y.2) : FineAll P r.log := by
  unfold after onLast at h
  cases h1 : entries cx sl d with
  | error x => rw [h1] at h; cases h
  | ok l =>
    rw [h1] at h
    simp only [bind, Except.bind] at h
    cases h2 : lastOf l.1 with
    | error x => rw [h2] at h; cases h
    | ok x =>
      rw [h2] at h
      simp only at h
      cases h3 : f x with
      | error z => rw [h3] at h; cases h
      | ok y =>
        rw [h3] at h
        cases h
        exact hf x y h3

theorem checkList_fine (hP : Texty P) (hp : PosOk p) {α β : Type} {cx : Ctx} {sl : Slot (List α)}
    {list : α → Option (List β)} {ty : ElemType} {d : DocPtr} {r : After}
    (h : checkList cx sl list ty p d = .ok r) : FineAll P r.log := by
  refine onLast_fine h fun x y hy => ?_
  cases hn : emptyList (list x) ty p with
  | error z => rw [hn] at hy; cases hy
  | ok L =>
    rw [hn] at hy; cases hy
    unfold emptyList at hn
    split at hn
    · cases hn
    · cases hi : ty.infoName with
      | error x => rw [hi] at hn; cases hn
      | ok n => rw [hi] at hn; cases hn; exact fine_const hP hp (infoName_ascii hi) (by decide)
    · cases hn; exact fine_nil

theorem idNameDesc_fine (hP : Texty P) (hp : PosOk p) {α : Type} (cx : Ctx) (o : EntryOps α) (e : Elem)
    (b : Bytes) (x : α) : FineAll P (idNameDesc cx o e p b x).2 := by
  unfold idNameDesc setText
  split
  · exact fine_already hP hp _ (by decide)
  · split
    · split
      · exact fine_nil
      · exact fine_already hP hp _ (by decide)
    · split
      · exact fine_nil
      · exact fine_already hP hp _ (by decide)

theorem idNameDescOn_fine (hP : Texty P) (hp : PosOk p) {α : Type} {cx : Ctx} {o : EntryOps α} {e : Elem}
    {d : DocPtr} {r : After} (h : idNameDescOn cx o e p t d = .ok r) : FineAll P r.log := by
  refine onLast_fine h fun x y hy => ?_
  cases t with
  | none =>
    simp only at hy
    cases hn : e.type.infoName with
    | error z => rw [hn] at hy; cases hy
    | ok n => rw [hn] at hy; cases hy; exact fine_const hP hp (infoName_ascii hn) (by decide)
  | some b =>
    simp only [Except.ok.injEq] at hy
    subst hy
    exact idNameDesc_fine hP hp _ _ _ _ _

theorem displayOrder_fine (hp : PosOk p) {α : Type} {cx : Ctx} {o : EntryOps α} {e : Elem}
    (he : ∀ b, e.name = some b → P b) {d : DocPtr} {tk : Bool} {r : After}
    (h : after tk (onLast cx o.slot (displayOrder cx o e p t) d) = .ok r) : FineAll P r.log := by
  refine onLast_fine h fun x y hy => ?_
  unfold displayOrder at hy
  simp only [bind, Except.bind] at hy
  split at hy
  · cases hy
  · cases hy
    simp only
    split
    · exact fine_entry hp he (by decide)
    · exact fine_nil

theorem flagText_fine (hp : PosOk p) (ht : ∀ b, t = some b → P b) {cx : Ctx} {key : Bytes} {d : DocPtr}
    {r : After} (h : flagText cx key p t d = .ok r) : FineAll P r.log := by
  unfold flagText setFlag at h
  split at h
  · exact onLast_fine h fun x y hy => by cases hy; exact fine_nil
  · split at h
    · exact onLast_fine h fun x y hy => by cases hy; exact fine_nil
    · cases hn : entries cx groupsSlot d with
      | error z => rw [hn] at h; cases h
      | ok L => rw [hn] at h; cases h; exact fine_entry hp ht (by decide)

theorem strictFlag_fine (hp : PosOk p) (ht : ∀ b, t = some b → P b) {cx : Ctx} {key : Bytes} {d : DocPtr}
    {r : After} (h : strictFlagPost cx key p t d = .ok r) : FineAll P r.log := by
  unfold strictFlagPost at h
  split at h
  · cases hn : entries cx groupsSlot d with
    | error z => rw [hn] at h; cases h
    | ok L => rw [hn] at h; cases h
  · exact flagText_fine hp ht h

theorem idNameDescPost_fine (hP : Texty P) (hp : PosOk p) {cx : Ctx} {e : Elem} {a : List Elem}
    {d : DocPtr} {r : After} (h : idNameDescPost cx e a p t d = .ok r) : FineAll P r.log := by
  obtain ⟨x, h⟩ := parent_ok h
  split at h
  · exact idNameDescOn_fine hP hp h
  · split at h
    · exact idNameDescOn_fine hP hp h
    · exact idNameDescOn_fine hP hp h

theorem postproc_fine (hP : Texty P) (hp : PosOk p) (ht : ∀ b, t = some b → P b) {cx : Ctx} {e : Elem}
    (he : ∀ b, e.name = some b → P b) {a : List Elem} {d : DocPtr} {r : After}
    (h : postproc cx e a p t d = .ok r) : FineAll P r.log := by
  unfold postproc at h
  split at h
  · exact onLast_fine h fun x y hy => by cases hy; exact fine_required hP hp _
  · exact onLast_fine h fun x y hy => by cases hy; exact fine_required hP hp _
  · exact onLast_fine h fun x y hy => by cases hy; exact fine_required hP hp _
  · exact idNameDescPost_fine hP hp h
  · exact idNameDescPost_fine hP hp h
  · exact idNameDescPost_fine hP hp h
  · exact flagText_fine hp ht h
  · exact onLast_fine h fun x y hy => by cases hy; exact fine_already hP hp _ (by decide)
  · exact strictFlag_fine hp ht h
  · exact strictFlag_fine hp ht h
  · exact checkList_fine hP hp h
  · unfold packagereqPost at h
    split at h
    · refine onLast_fine h fun x y hy => ?_
      simp only [bind, Except.bind] at hy
      split at hy
      · cases hy
      · cases hy; exact fine_nil
    · simp only [bind, Except.bind] at h
      split at h
      · cases h
      · split at h
        · cases h
        · next n hn => cases h; exact fine_const hP hp (infoName_ascii hn) (by decide)
  · obtain ⟨x, h⟩ := parent_ok h
    split at h
    · exact checkList_fine hP hp h
    · exact checkList_fine hP hp h
  · unfold groupidPost at h
    simp only [bind, Except.bind] at h
    split at h
    · cases h
    · split at h
      · cases h
      · cases h; exact fine_nil
  · obtain ⟨x, h⟩ := parent_ok h
    split at h
    · exact displayOrder_fine hp he h
    · split at h
      · exact displayOrder_fine hp he h
      · exact displayOrder_fine hp he h
  · cases h; exact fine_nil

theorem closeElem_fine (hP : Texty P) (hp : PosOk p) (ht : ∀ b, t = some b → P b) {cx : Ctx} {e : Elem}
    (he : ∀ b, e.name = some b → P b) {a : List Elem} {d : DocPtr} {r : DocPtr × List LogEntry}
    (h : closeElem cx p e a t d = .ok r) : FineAll P r.2 := by
  unfold closeElem at h
  split at h
  · cases hn : postproc cx e a p t d with
    | error z => rw [hn] at h; cases h
    | ok x =>
      rw [hn] at h
      cases h
      refine (postproc_fine hP hp ht he hn).append ?_
      split
      · exact fine_entry hp ht (by decide)
      · exact fine_nil
  · cases h; exact fine_nil

/-- An event whose texts are all of the kind `P`. -/
def EventOk (P : Bytes → Prop) : Event → Prop
  | .start n attrs => P n ∧ ∀ a ∈ attrs, P a.1
  | .text b => P b
  | _ => True

/-- The texts a parser holds. -/
structure Held (P : Bytes → Prop) (s : Parsed) : Prop where
  log : FineAll P s.log
  names : ∀ e ∈ s.stack, ∀ b, e.name = some b → P b
  text : ∀ b ∈ s.textBuffer, P b

theorem held_init (enc : Option Bytes) : Held P (init enc) := ⟨nofun, nofun, nofun⟩

theorem flatten_all (hP : Texty P) : ∀ {l : List Bytes}, (∀ b ∈ l, P b) → P l.flatten
  | [], _ => hP.ascii [] (by simp)
  | b :: l, h => by
    rw [List.flatten_cons]
    exact hP.append _ _ (h b (by simp)) (flatten_all hP fun x hx => h x (by simp [hx]))

theorem collect_all (hP : Texty P) {s : Parsed} (hs : Held P s) (h : collectText s = .ok t) :
    ∀ b, t = some b → P b := by
  unfold collectText at h
  intro b hb
  subst hb
  split at h
  · split at h <;> cases h
  · split at h
    · cases h; exact flatten_all hP hs.text
    · cases h

theorem attrs_keys (lt : UInt8 → UInt8 → Bool) : ∀ (attrs : List (Bytes × Bytes)) {T : RTree Bytes},
    RTree.WF T.subnodes → (∀ k ∈ T.keys, P k) → (∀ a ∈ attrs, P a.1) →
    ∀ k ∈ (attrs.foldl (fun t a => t.set lt a.1 (some a.2)) T).keys, P k
  | [], _, _, hT, _ => hT
  | a :: as, T, hw, hT, h => by
    rw [List.foldl_cons]
    refine attrs_keys lt as (RTree.set_wf lt hw _ _) (fun k hk => ?_) fun x hx => h x (by simp [hx])
    rcases RTree.mem_keys_set lt hw hk with rfl | hk
    · exact h a (by simp)
    · exact hT k hk

theorem newElem_keys {cx : Ctx} {st : List Elem} {n : Bytes} {attrs : List (Bytes × Bytes)}
    (h : ∀ a ∈ attrs, P a.1) : ∀ k ∈ (newElem cx st n attrs).attrs.keys, P k :=
  attrs_keys cx.lt attrs (T := RTree.create) RTree.wf_empty nofun h

theorem unknown_sub : ∀ (known keys : List Bytes), ∀ k ∈ unknownAttrs known keys, k ∈ keys
  | [], _, _, h => h
  | a :: as, keys, k, h => List.mem_of_mem_erase (unknown_sub as (keys.erase a) k h)

theorem checkAttributes_fine (hP : Texty P) (hp : PosOk p) {cx : Ctx} {e : Elem}
    (he : ∀ k ∈ e.attrs.keys, P k) {l : List LogEntry} (h : checkAttributes cx e p = .ok l) :
    FineAll P l := by
  simp only [checkAttributes, bind, Except.bind] at h
  split at h
  · cases h
  · split at h
    · cases h
    · next n hn =>
      cases h
      intro x hx
      obtain ⟨k, hk, rfl⟩ := List.mem_map.1 hx
      refine ⟨_, rfl, rfl, ?_⟩
      intro a ha
      simp only [List.mem_cons, List.not_mem_nil, or_false] at ha
      rcases ha with rfl | rfl | rfl | rfl
      · intro b hb; cases hb; exact he k (unknown_sub _ _ k hk)
      · intro b hb; cases hb; exact hP.ascii n (infoName_ascii hn)
      · exact hp.1
      · exact hp.2

theorem step_held (hP : Texty P) {cx : Ctx} {s s' : Parsed} {x : Pos × Event} (hx : PosOk x.1)
    (hev : EventOk P x.2) (hs : Held P s) (h : step cx s x = .ok s') : Held P s' := by
  obtain ⟨q, ev⟩ := x
  cases ev with
  | start n attrs =>
    simp only [step, startElem, bind, Except.bind] at h
    split at h
    · cases h
    · next l hl =>
      split at h
      · cases h
      · cases h
        refine ⟨((hs.log.append ?_).append ?_).append ?_, ?_, ?_⟩
        · unfold logInvalid
          split
          · exact fine_nil
          · exact fine_entry hx (fun b hb => by cases hb; exact hev.1) (by decide)
        · unfold logText
          split
          · exact fine_nil
          · next c cs e => exact fine_entry hx (fun b hb => by cases hb; exact hs.text c (by rw [e]; simp)) (by decide)
        · exact checkAttributes_fine hP hx (newElem_keys hev.2) hl
        · intro e he b hb
          rcases List.mem_cons.1 he with rfl | he
          · simp only [newElem] at hb
            split at hb
            · cases hb; exact hev.1
            · cases hb
          · exact hs.names e he b hb
        · intro b hb
          have hb : b ∈ (dropText s).textBuffer := hb
          unfold dropText at hb
          split at hb
          · exact hs.text b hb
          · cases hb
  | text c =>
    cases h
    unfold charData
    split
    · exact hs
    · refine ⟨hs.log, hs.names, fun b hb => ?_⟩
      rcases List.mem_append.1 hb with hb | hb
      · exact hs.text b hb
      · rw [List.mem_singleton.1 hb]; exact hev
  | stop n =>
    simp only [step, endElem, bind, Except.bind] at h
    split at h
    · cases h
    · next t ht =>
      split at h
      · cases h
      · next e below he =>
        have hbelow : ∀ e ∈ below, ∀ b, e.name = some b → P b := fun x hx =>
          hs.names x (by rw [he]; simp [hx])
        split at h
        · split at h
          · cases h
          · next r hr =>
            cases h
            exact ⟨hs.log.append (closeElem_fine hP hx (collect_all hP hs ht)
              (hs.names e (by rw [he]; simp)) hr), hbelow, nofun⟩
        · cases h; exact ⟨hs.log, hs.names, nofun⟩
  | doctype n sy pu => cases h; exact ⟨hs.log, hs.names, hs.text⟩

theorem steps_held (hP : Texty P) {cx : Ctx} : ∀ {es : List (Pos × Event)} {s s' : Parsed},
    (∀ x ∈ es, PosOk x.1 ∧ EventOk P x.2) → Held P s → steps cx s es = .ok s' → Held P s'
  | [], s, s', _, hs, h => by cases h; exact hs
  | x :: es, s, s', hx, hs, h => by
    simp only [steps, List.foldlM_cons, bind, Except.bind] at h
    cases h1 : step cx s x with
    | error z => rw [h1] at h; cases h
    | ok s1 =>
      rw [h1] at h
      exact steps_held hP (fun y hy => hx y (by simp [hy]))
        (step_held hP (hx x (by simp)).1 (hx x (by simp)).2 hs h1) h

/-- A piece of input with positions that fit an `int` and texts of the kind `P`. -/
def Input (P : Bytes → Prop) (c : Chunk) : Prop :=
  (∀ x ∈ c.events, PosOk x.1 ∧ EventOk P x.2) ∧ ∀ p m, c.error = some (p, m) → PosOk p ∧ P m

theorem feed_held (hP : Texty P) {cx : Ctx} {c : Chunk} {s s' : Parsed} (hc : Input P c) (hs : Held P s)
    (h : feed cx s c = .ok s') : Held P s' := by
  simp only [feed, bind, Except.bind] at h
  split at h
  · cases h
  · next s1 h1 =>
    have hs1 := steps_held hP hc.1 hs h1
    split at h
    · cases h; exact hs1
    · next q m e =>
      cases h
      obtain ⟨hq, hm⟩ := hc.2 q m e
      refine ⟨hs1.log.append ?_, hs1.names, hs1.text⟩
      intro x hx
      rw [List.mem_singleton.1 hx]
      refine ⟨_, rfl, rfl, ?_⟩
      intro a ha
      simp only [List.mem_cons, List.not_mem_nil, or_false] at ha
      rcases ha with rfl | rfl | rfl
      · exact hq.1
      · exact hq.2
      · intro b hb; cases hb; exact hm

theorem feeds_held (hP : Texty P) {cx : Ctx} : ∀ {cs : List Chunk} {s s' : Parsed},
    (∀ c ∈ cs, Input P c) → Held P s → cs.foldlM (feed cx) s = .ok s' → Held P s'
  | [], s, s', _, hs, h => by cases h; exact hs
  | c :: cs, s, s', hc, hs, h => by
    simp only [List.foldlM_cons, bind, Except.bind] at h
    cases h1 : feed cx s c with
    | error z => rw [h1] at h; cases h
    | ok s1 =>
      rw [h1] at h
      exact feeds_held hP (fun y hy => hc y (by simp [hy])) (feed_held hP (hc c (by simp)) hs h1) h

theorem afterParse_held {s s' : Parsed} (hs : Held P s) (h : afterParse s = .ok s') : Held P s' := by
  unfold afterParse at h
  split at h
  · cases h; exact hs
  · split at h <;> cases h
    · exact hs
    · exact ⟨hs.log, hs.names, hs.text⟩

theorem reinit_held {s s' : Parsed} (h : reinit s = .ok s') : Held P s' := by
  unfold reinit at h
  split at h
  · cases h; exact ⟨nofun, nofun, nofun⟩
  · simp only [bind, Except.bind] at h
    split at h <;> cases h
    exact ⟨nofun, nofun, nofun⟩
  · cases h

theorem parseFile_held (hP : Texty P) {cx : Ctx} {f : Option (List Chunk)} {s : Parsed} {r : Int × Parsed}
    (hc : ∀ cs, f = some cs → ∀ c ∈ cs, Input P c) (hs : Held P s) (h : parseFile cx s f = .ok r) :
    Held P r.2 := by
  cases f with
  | none =>
    cases h
    refine ⟨hs.log.append ?_, hs.names, hs.text⟩
    intro x hx
    rw [List.mem_singleton.1 hx]
    exact ⟨_, rfl, rfl, nofun⟩
  | some cs =>
    simp only [parseFile, bind, Except.bind] at h
    split at h
    · cases h
    · next s1 h1 =>
      split at h
      · cases h
      · next s2 h2 =>
        split at h
        · cases h
        · next s3 h3 =>
          cases h
          exact afterParse_held (feeds_held hP (hc cs rfl) (reinit_held h1) h2) h3

theorem parseStr_held (hP : Texty P) {cx : Ctx} {c : Chunk} {s : Parsed} {r : Int × Parsed}
    (hc : Input P c) (hs : Held P s) (h : parseStr cx s c = .ok r) : Held P r.2 := by
  simp only [parseStr, bind, Except.bind] at h
  split at h
  · cases h
  · next s1 h1 =>
    split at h
    · cases h
    · next s2 h2 =>
      cases h
      exact afterParse_held (feed_held hP hc hs h1) h2

end

/-! ## The writer -/

section
open Comps.Xml

/-- A run adds only entries of which `G` holds. -/
def Logs {α : Type} (G : LogEntry → Prop) (m : M α) : Prop :=
  ∀ s a s', m s = .ok (a, s') → (∀ e ∈ s.log, G e) → ∀ e ∈ s'.log, G e

variable {α β : Type} {G : LogEntry → Prop}

theorem Logs.bind {m : M α} {f : α → M β} (h : Logs G m) (hf : ∀ a, Logs G (f a)) : Logs G (m >>= f) := by
  intro s b s' hm hs
  simp only [Bind.bind, StateT.bind, Except.bind] at hm
  split at hm
  · cases hm
  · next x hx => exact hf x.1 x.2 b s' hm (h s x.1 x.2 hx hs)

theorem Logs.pure (a : α) : Logs G (pure a : M α) := by
  intro s b s' hm hs
  cases hm; exact hs

theorem Logs.call (c : Call) : Logs G (call c) := by
  intro s b s' hm hs
  unfold Xml.call at hm
  split at hm <;> (cases hm; exact hs)

theorem Logs.log {code : Nat} {args : List (Option PVal)} (h : G ⟨code, args⟩) : Logs G (logError code args) := by
  intro s b s' hm hs
  unfold logError at hm
  split at hm <;> cases hm
  intro e he
  rcases List.mem_append.1 he with he | he
  · exact hs e he
  · rw [List.mem_singleton.1 he]; exact h

theorem Logs.text (r : Res Bytes) : Logs G (text r) := by
  intro s b s' hm hs
  unfold Xml.text at hm
  split at hm <;> cases hm
  exact hs

theorem Logs.lift (r : Res α) : Logs G (fun s => r.map fun x => (x, s) : M α) := by
  intro s b s' hm hs
  cases r <;> cases hm
  exact hs

theorem Logs.error (f : Fault) : Logs G (fun _ => .error f : M α) := by
  intro s b s' hm hs; cases hm

theorem Logs.check (h20 : G ⟨20, []⟩) {ok : Bool} {k : M Int} (h : Logs G k) : Logs G (check ok k) := by
  unfold Xml.check
  split
  · exact h
  · exact (Logs.log h20).bind fun _ => .pure _

theorem Logs.ite {c : Bool} {a b : M α} (ha : Logs G a) (hb : Logs G b) :
    Logs G (if c = true then a else b) := by
  split
  · exact ha
  · exact hb

theorem logs_prop (k v : Bytes) : Logs G (xmlProp k v) :=
  (Logs.call _).bind fun _ => (Logs.call _).bind fun _ => (Logs.call _).bind fun _ => .pure _

theorem logs_arch (l : Option (List CStr)) : Logs G (xmlArch l) := by
  unfold xmlArch
  split
  · exact .pure _
  · exact .pure _
  · exact (Logs.lift _).bind fun _ => (Logs.text _).bind fun _ => .call _

theorem logs_archOpt (o : Options) (l : Option (List CStr)) : Logs G (xmlArchOpt o l) :=
  .ite (logs_arch l) (.pure _)

theorem logs_archProp (o : Options) (t : RTree PVal) : Logs G (xmlArchProp o t) :=
  .ite ((Logs.lift _).bind fun l => logs_arch l) (.pure _)

theorem logs_requires (r : Option CStr) (ret : Bool) : Logs G (xmlRequires r ret) := by
  unfold xmlRequires
  split
  · exact .pure _
  · exact (Logs.text _).bind fun s => .ite (.pure _) (.call _)

theorem logs_bao (o : Options) (b : Option Int) (ret : Bool) : Logs G (xmlBao o b ret) := by
  unfold xmlBao
  split
  · exact .call _
  · split
    · exact .call _
    · exact .pure _

theorem logs_package (h : G ⟨20, []⟩) (o : Options) (p : Package) : Logs G (xmlPackage o p) :=
  (Logs.call _).bind fun _ => .check h <| (logs_archOpt _ _).bind fun _ => .check h <|
    (Logs.call _).bind fun _ => (logs_requires _ _).bind fun _ => .check h <|
    (logs_bao _ _ _).bind fun _ => .check h <| (Logs.text _).bind fun _ => (Logs.call _).bind fun _ =>
    .check h <| (Logs.call _).bind fun _ => .check h <| .pure _

theorem logs_gidDefault (o : Options) (b : Bool) : Logs G (xmlGidDefault o b) :=
  .ite (.call _) (.ite ((Logs.call _).bind fun _ => .pure _) (.pure _))

theorem logs_groupId (h : G ⟨20, []⟩) (o : Options) (g : GroupId) : Logs G (xmlGroupId o g) :=
  (Logs.call _).bind fun _ => .check h <| (logs_archOpt _ _).bind fun _ => .check h <|
    (logs_gidDefault _ _).bind fun _ => .check h <| (Logs.text _).bind fun _ =>
    (Logs.call _).bind fun _ => .check h <| (Logs.call _).bind fun _ => .check h <| .pure _

theorem logs_packages (h : G ⟨20, []⟩) (o : Options) : ∀ l, Logs G (xmlPackages o l)
  | [] => .pure _
  | p :: l => (logs_package h o p).bind fun _ => logs_packages h o l

theorem logs_groupIds (h : G ⟨20, []⟩) (o : Options) : ∀ l, Logs G (xmlGroupIds o l)
  | [] => .pure _
  | p :: l => (logs_groupId h o p).bind fun _ => logs_groupIds h o l

theorem logs_langs (h : G ⟨20, []⟩) (tag : Bytes) {k : M Int} (hk : Logs G k) : ∀ l, Logs G (xmlLangs tag l k)
  | [] => hk
  | (_, _) :: l => (Logs.call _).bind fun _ => .check h <| (Logs.call _).bind fun _ => .check h <|
    (Logs.text _).bind fun _ => (Logs.call _).bind fun _ => .check h <| (Logs.call _).bind fun _ =>
    .check h <| logs_langs h tag hk l

theorem logs_plain (tag : Bytes) (v : Option PVal) : Logs G (xmlPlain tag v) := by
  unfold xmlPlain
  split
  · exact .pure _
  · exact (Logs.text _).bind fun _ => (logs_prop _ _).bind fun _ => .pure _

theorem logs_flag (tag : Bytes) (a b : Bool) (v : Option PVal) : Logs G (xmlFlag tag a b v) := by
  unfold xmlFlag
  split
  · exact .ite ((logs_prop _ _).bind fun _ => .pure _) (.pure _)
  · exact (Logs.text _).bind fun _ => .ite ((logs_prop _ _).bind fun _ => .pure _) (.pure _)

theorem logs_list (h : G ⟨20, []⟩) {tag : Bytes} {opt : Bool} {items : List α} {write : List α → M Unit}
    (hw : Logs G (write items)) {k : M Int} (hk : Logs G k) : Logs G (xmlList tag opt items write k) :=
  .ite ((Logs.call _).bind fun _ => .check h <| hw.bind fun _ => (Logs.call _).bind fun _ => .check h hk) hk

theorem logs_end (h : G ⟨20, []⟩) : Logs G xmlEnd :=
  (Logs.call _).bind fun _ => .check h <| .pure _

theorem logs_group (h : G ⟨20, []⟩) (o : Options) (df : Defaults) {g : Group}
    (hg : G ⟨25, [g.props.get b!"id"]⟩) : Logs G (xmlGroup o df g) := by
  unfold xmlGroup
  split
  · exact .error _
  · refine .ite ((Logs.log hg).bind fun _ => .pure _) ?_
    exact (Logs.call _).bind fun _ => .check h <| (logs_archProp _ _).bind fun _ => .check h <|
      (logs_plain _ _).bind fun _ => (logs_plain _ _).bind fun _ => logs_langs h _ ((logs_plain _ _).bind
      fun _ => logs_langs h _ ((logs_flag _ _ _ _).bind fun _ => (logs_flag _ _ _ _).bind fun _ =>
      (logs_flag _ _ _ _).bind fun _ => (logs_plain _ _).bind fun _ => (logs_plain _ _).bind fun _ =>
      logs_list h (logs_packages h _ _) (logs_end h)) _) _

theorem logs_category (h : G ⟨20, []⟩) (o : Options) {g : Category}
    (hg : G ⟨25, [g.props.get b!"id"]⟩) : Logs G (xmlCategory o g) := by
  unfold xmlCategory
  split
  · exact .error _
  · refine .ite ((Logs.log hg).bind fun _ => .pure _) ?_
    exact (Logs.call _).bind fun _ => .check h <| (logs_archProp _ _).bind fun _ => .check h <|
      (logs_plain _ _).bind fun _ => (logs_plain _ _).bind fun _ => logs_langs h _ ((logs_plain _ _).bind
      fun _ => logs_langs h _ ((logs_plain _ _).bind fun _ =>
      logs_list h (logs_groupIds h _ _) (logs_end h)) _) _

theorem logs_env (h : G ⟨20, []⟩) (o : Options) {g : Env}
    (hg : G ⟨25, [g.props.get b!"id"]⟩) : Logs G (xmlEnv o g) := by
  unfold xmlEnv
  split
  · refine .ite ((Logs.log hg).bind fun _ => .pure _) ?_
    exact (Logs.call _).bind fun _ => .check h <| (logs_archProp _ _).bind fun _ => .check h <|
      (logs_plain _ _).bind fun _ => (logs_plain _ _).bind fun _ => logs_langs h _ ((logs_plain _ _).bind
      fun _ => logs_langs h _ ((logs_plain _ _).bind fun _ =>
      logs_list h (logs_groupIds h _ _) (logs_list h (logs_groupIds h _ _) (logs_end h))) _) _
  · exact .error _

theorem logs_entries {write : α → M Int} {k : Int → M Int} (hk : ∀ r, Logs G (k r)) :
    ∀ {l : List α} (r : Int), (∀ x ∈ l, Logs G (write x)) → Logs G (xmlEntries write l r k)
  | [], r, _ => hk r
  | x :: xs, r, h => (h x (by simp)).bind fun t => by
    show Logs G (if t = -1 then _ else _)
    split
    · exact .pure _
    · exact logs_entries hk _ fun y hy => h y (by simp [hy])

theorem logs_pairs (h : G ⟨20, []⟩) (tag a b : Bytes) {k : M Int} (hk : Logs G k) :
    ∀ l, Logs G (xmlPairs tag a b l k)
  | [] => hk
  | (_, _) :: l => (Logs.call _).bind fun _ => .check h <| (Logs.call _).bind fun _ =>
    (Logs.text _).bind fun _ => (Logs.call _).bind fun _ => (Logs.call _).bind fun _ =>
    .check h <| logs_pairs h tag a b hk l

theorem logs_block (h : G ⟨20, []⟩) (bl tag a b : Bytes) (n : Int) (l : List (Bytes × Res Bytes)) {k : M Int}
    (hk : Logs G k) : Logs G (xmlBlock bl tag a b n l k) := by
  unfold xmlBlock
  split
  · exact (Logs.call _).bind fun _ => .check h <| logs_pairs h _ _ _
      ((Logs.call _).bind fun _ => .check h hk) _
  · exact hk

/-- A run in which what is done next may depend on what was read of the document. -/
theorem Logs.part {lt : UInt8 → UInt8 → Bool} {sl : Slot α} {d : Doc} {f : α × Doc → M β}
    (h : ∀ x, d.getObj lt sl = .ok x → Logs G (f x)) : Logs G (getPart lt sl d >>= f) := by
  intro s b s' hm hs
  simp only [Bind.bind, StateT.bind, Except.bind, getPart] at hm
  cases hx : d.getObj lt sl with
  | error z => rw [hx] at hm; cases hm
  | ok x => rw [hx] at hm; exact h x hx s b s' hm hs

theorem logs_doctype (t : Option CStr) : Logs G (doctypeText t) := by
  unfold doctypeText
  split
  · exact .pure _
  · exact .error _

theorem logs_logIf (h : G ⟨20, []⟩) (c : Bool) : Logs G (logIf c) := .ite (.log h) (.pure _)

theorem logs_start (d : Doc) : Logs G (startXml d) := (Logs.text _).bind fun _ => .call _

/-- `G` holds of the entries about left out groups, categories and environments. -/
structure Names (G : LogEntry → Prop) (c : DocContent) : Prop where
  groups : ∀ g ∈ c.groups, G ⟨25, [g.props.get b!"id"]⟩
  categories : ∀ g ∈ c.categories, G ⟨25, [g.props.get b!"id"]⟩
  environments : ∀ g ∈ c.environments, G ⟨25, [g.props.get b!"id"]⟩

theorem logs_doc {lt : UInt8 → UInt8 → Bool} (h : G ⟨20, []⟩)
    {d : Doc} (hid : Names G (content d)) (o : Options) (df : Defaults)
    (hd : ObjsInv lt d.objects) : Logs G (xmlDoc lt o df d) := by
  obtain ⟨d1, g1, i1, c1, -⟩ := (groupsAt (lt := lt)).getObj hd
  obtain ⟨d2, g2, i2, c2, -⟩ := (categoriesAt (lt := lt)).getObj i1
  obtain ⟨d3, g3, i3, c3, -⟩ := (environmentsAt (lt := lt)).getObj i2
  rw [c1] at g2 c2; rw [c2] at g3
  refine (logs_doctype _).bind fun _ => (logs_doctype _).bind fun _ => (logs_doctype _).bind fun _ =>
    (Logs.call _).bind fun _ => (Logs.call _).bind fun _ => .check h <| (Logs.call _).bind fun _ =>
    .check h <| .part fun x hx => ?_
  rw [g1] at hx; cases hx
  refine logs_entries (fun _ => .part fun x hx => ?_) _
    fun x hx => logs_group h _ _ (hid.groups x hx)
  rw [g2] at hx; cases hx
  refine logs_entries (fun _ => .part fun x hx => ?_) _
    fun x hx => logs_category h _ (hid.categories x hx)
  rw [g3] at hx; cases hx
  refine logs_entries (fun _ => .part fun x hx => ?_) _
    fun x hx => logs_env h _ (hid.environments x hx)
  exact logs_block h _ _ _ _ _ _ <| .part fun _ _ => logs_block h _ _ _ _ _ _ <| .part fun _ _ =>
    logs_block h _ _ _ _ _ _ <| (Logs.call _).bind fun _ => .check h <| .pure _

theorem logs_toFile {lt : UInt8 → UInt8 → Bool} (h : G ⟨20, []⟩)
    {d : Doc} (hid : Names G (content d)) (o : Option Options) (df : Option Defaults)
    (hd : ObjsInv lt d.objects) : Logs G (toFile lt o df d) := by
  refine Logs.bind ?_ fun _ => (logs_start d).bind fun _ => (logs_logIf h _).bind fun _ =>
    (logs_doc h hid _ _ hd).bind fun _ => (Logs.call _).bind fun _ => (logs_logIf h _).bind fun _ =>
    .pure _
  intro s a s' hm hs
  replace hm : (if s.logSet = true then Except.ok ((), s) else Except.error Fault.uninitialised) =
    (Except.ok (a, s') : Except Fault (Unit × St)) := hm
  split at hm <;> cases hm
  exact hs

theorem logs_toStr {lt : UInt8 → UInt8 → Bool} (h : G ⟨20, []⟩)
    {d : Doc} (hid : Names G (content d)) (o : Option Options) (df : Option Defaults)
    (hd : ObjsInv lt d.objects) : Logs G (toStr lt o df d) :=
  (logs_start d).bind fun _ => (logs_logIf h _).bind fun _ =>
    (logs_doc h hid _ _ hd).bind fun _ => (logs_logIf h _).bind fun _ => (logs_logIf h _).bind fun _ =>
    (Logs.call _).bind fun _ => (logs_logIf h _).bind fun _ => .pure _

theorem fine20 : Fine P ⟨20, []⟩ := ⟨_, rfl, rfl, nofun⟩

theorem fine25 {lt : UInt8 → UInt8 → Bool} {t : RTree PVal} (ht : PropInv lt t)
    (hP : ∀ s b, t.get b!"id" = some (.str s) → s.val = some b → P b) : Fine P ⟨25, [t.get b!"id"]⟩ := by
  refine ⟨_, rfl, rfl, fun a ha => ?_⟩
  rw [List.mem_singleton.1 ha]
  cases hg : t.get b!"id" with
  | none => trivial
  | some v =>
    have hk := ht.typed.get ht.wf hg
    have hx : ∀ k ∈ propKinds, k.1 = b!"id" → k.2 = 0 := by decide
    have := hx _ hk rfl
    cases v with
    | str s => exact fun b hb => hP s b hg hb
    | num n => simp [kind] at this
    | list l => simp [kind] at this

theorem names_fine {lt : UInt8 → UInt8 → Bool} {d : Doc} (hd : ObjsInv lt d.objects)
    (hP : IdsAre P (content d)) : Names (Fine P) (content d) := by
  obtain ⟨xg, xc, xe, -⟩ := contents_built hd
  exact ⟨fun g hg => fine25 (groupBuilt_inv (xg g hg)).props (hP _ (.inl ⟨g, hg, rfl⟩)),
    fun g hg => fine25 (categoryBuilt_inv (xc g hg)).props (hP _ (.inr (.inl ⟨g, hg, rfl⟩))),
    fun g hg => fine25 (envBuilt_inv (xe g hg)).props (hP _ (.inr (.inr ⟨g, hg, rfl⟩)))⟩

end

/-! ## Programs -/

section
open Comps.PyComps Comps.Spec.PyComps

variable {lt : UInt8 → UInt8 → Bool}

theorem xmlStr_log {y : Content} {c : DocContent} (hm : Made lt y c) (hP : IdsAre P c)
    {o : Option Xml.Options} {df : Option Xml.Defaults} {fails : Nat → Bool} {a : Ans} {l : List LogEntry}
    (h : xmlStr lt y o df fails = .ok (a, l)) : FineAll P l := by
  obtain ⟨h1, h2⟩ := made_built hm
  have hi := docBuilt_inv h1
  rw [shows_unique h2 (shows_content hi)] at hP
  simp only [xmlStr, bind, Except.bind] at h
  split at h
  · cases h
  · next v hv =>
    cases h
    exact logs_toStr fine20 (names_fine hi hP) _ _ hi _ _ _ hv nofun

theorem xmlFile_log {y : Content} {c : DocContent} (hm : Made lt y c) (hP : IdsAre P c) {name : Bytes}
    (hn : P name) {o : Option Xml.Options} {df : Option Xml.Defaults} {fails : Nat → Bool} {saved : Bool}
    {a : Ans} {l : List LogEntry} (h : xmlFile lt y name o df fails saved = .ok (a, l)) : FineAll P l := by
  have hm' : Made lt { y with encoding := withEncoding y.encoding } c :=
    { hm with encoding := ⟨_, rfl⟩ }
  obtain ⟨h1, h2⟩ := made_built hm'
  have hi := docBuilt_inv h1
  rw [shows_unique h2 (shows_content hi)] at hP
  simp only [xmlFile, bind, Except.bind] at h
  split at h
  · cases h
  · next v hv =>
    cases h
    refine FineAll.append (logs_toFile fine20 (names_fine hi hP) _ _ hi _ _ _ hv nofun) ?_
    split
    · nofun
    · intro e he
      rw [List.mem_singleton.1 he]
      refine ⟨_, rfl, rfl, fun a ha => ?_⟩
      rw [List.mem_singleton.1 ha]
      intro b hb
      cases hb; exact hn

/-- Every text. -/
def AnyText (_ : Bytes) : Prop := True

theorem texty_any : Texty AnyText := ⟨fun _ _ => trivial, fun _ _ _ _ => trivial⟩

theorem idsAre_any (c : DocContent) : IdsAre AnyText c := fun _ _ _ _ _ _ => trivial

/-- Every entry of the log of every document has a text. -/
def Logged (r : RSt) : Prop := ∀ c d, r.doc c = some d → FineAll AnyText d.log

variable {r r' : RSt}

theorem logged_start : Logged rstart := fun c d h => by simp [rstart, RSt.doc] at h

theorem Logged.put (lg : Logged r) {c : Nat} {d : RDoc} (h : FineAll AnyText d.log) : Logged (r.put c d) := by
  intro c' d' hc
  rw [doc_put] at hc
  split at hc
  · cases hc; exact h
  · split at hc
    · cases hc
    · exact lg c' d' hc

theorem Logged.addDoc (lg : Logged r) {d : RDoc} (h : FineAll AnyText d.log) :
    Logged { r with docs := r.docs ++ [some d] } := by
  intro c' d' hc
  simp only [RSt.doc, List.getElem?_append] at hc
  split at hc
  · exact lg c' d' hc
  · next hl =>
    cases hk : c' - r.docs.length with
    | zero => rw [hk] at hc; simp at hc; subst hc; exact h
    | succ n => rw [hk] at hc; simp at hc

theorem takeParts_docs {x : Doc} : ∀ (l : List Sec) {r r' : RSt} {f : Sec → Option Nat},
    takeParts x r l = .ok (f, r') → r'.docs = r.docs := by
  intro l
  induction l with
  | nil => intro r r' f h; cases h; rfl
  | cons s l ih =>
    intro r r' f h
    simp only [takeParts, bind, Except.bind] at h
    cases h1 : takeParts x r l with
    | error e => simp [h1] at h
    | ok q =>
      obtain ⟨g, r1⟩ := q
      have e1 := ih h1
      simp only [h1] at h
      cases hg : x.objects.get s.key with
      | none => simp only [hg, pure, Except.pure] at h; cases h; exact e1
      | some v =>
        simp only [hg, pure, Except.pure] at h
        split at h
        · cases h; exact e1
        · cases h

theorem Logged.docs_eq (lg : Logged r) (h : r'.docs = r.docs) : Logged r' := by
  intro c d hd
  unfold RSt.doc at hd
  rw [h] at hd
  exact lg c d hd

theorem Logged.bindVar (lg : Logged r) (a : Nat) : Logged (r.bindVar a) := lg

theorem takeDoc_logged (lg : Logged r) {x : Doc} {log : List LogEntry} {d : RDoc}
    (h : takeDoc r x log = .ok (d, r')) : Logged r' ∧ d.log = log := by
  simp only [takeDoc, bind, Except.bind] at h
  cases h1 : takeParts x r allSecs with
  | error e => simp [h1] at h
  | ok q =>
    obtain ⟨f, r1⟩ := q
    simp only [h1, pure, Except.pure] at h
    cases h
    exact ⟨lg.docs_eq (takeParts_docs _ h1), rfl⟩

theorem addDoc_logged (lg : Logged r) {x : Doc} {a : Ans} (h : addDoc r x = .ok (a, r')) : Logged r' := by
  simp only [PyComps.addDoc, Spec.PyComps.addDoc, bind, Except.bind] at h
  split at h
  · cases h
  · next q hq =>
    obtain ⟨h1, h2⟩ := takeDoc_logged lg hq
    cases h
    exact h1.addDoc (by rw [h2]; exact fine_nil)

theorem takeParsed_logged (lg : Logged r) {p : Parse.Parsed} (hp : FineAll AnyText p.log) {c : Nat}
    (h : takeParsed r c p = .ok r') : Logged r' := by
  unfold takeParsed at h
  split at h
  · cases h; exact lg.put hp
  · simp only [bind, Except.bind] at h
    split at h
    · cases h
    · next q hq =>
      obtain ⟨h1, h2⟩ := takeDoc_logged lg hq
      cases h
      exact h1.put (by rw [h2]; exact hp)
  · cases h

theorem event_any : ∀ e : Parse.Event, EventOk AnyText e
  | .start _ _ => ⟨trivial, fun _ _ => trivial⟩
  | .text _ => trivial
  | .stop _ | .doctype _ _ _ => trivial

theorem input_any {c : Parse.Chunk} (h : ChunkOk c) : Input AnyText c :=
  ⟨fun x hx => ⟨h.1 x hx, event_any _⟩, fun p m hp => ⟨h.2 p m hp, trivial⟩⟩

theorem rstep_logged (lg : Logged r) (ty : Typed lt r) (wf : WF r) {o : Op} (ho : OpOk o) {a : Ans}
    (h : rstep lt RDoc.shown r o = .ok (a, r')) : Logged r' := by
  cases o with
  | new enc => cases h; exact lg.addDoc fine_nil
  | get c s =>
    simp only [rstep] at h
    split at h
    · cases h; exact lg
    · next d hd =>
      cases h
      unfold readAttr
      split
      · refine Logged.bindVar (Logged.put lg ?_) _
        exact lg c d hd
      · refine Logged.bindVar (Logged.put (Logged.docs_eq (r' := r.newList _) lg rfl) ?_) _
        exact lg c d hd
  | set c s v =>
    simp only [rstep] at h
    split at h
    · next d a hd hv =>
      simp only [bind, Except.bind] at h
      split at h
      · cases h
      · split at h
        · cases h; exact lg
        · cases h; exact lg.put (lg c d hd)
    · cases h; exact lg
  | delAttr c s =>
    simp only [rstep] at h
    split at h <;> cases h
    exact lg
  | make k => cases h; exact lg.docs_eq rfl
  | write v x =>
    simp only [rstep] at h
    split at h
    · cases h; exact lg
    · simp only [bind, Except.bind] at h
      split at h
      · cases h
      · split at h
        · cases h; exact lg
        · cases h; exact lg.docs_eq rfl
  | read v =>
    simp only [rstep] at h
    split at h
    · cases h; exact lg
    · simp only [bind, Except.bind] at h
      split at h <;> cases h
      exact lg
  | dump c => simp only [rstep] at h; split at h <;> (cases h; exact lg)
  | clear c =>
    simp only [rstep] at h
    split at h
    · cases h; exact lg
    · cases h; exact lg.put fine_nil
  | fromStr c cx text =>
    simp only [rstep] at h
    split at h
    · cases h; exact lg
    · simp only [bind, Except.bind] at h
      split at h
      · cases h
      · next q hq =>
        split at h
        · cases h; exact lg
        · have hh := parseStr_held texty_any (input_any ho) (held_init _) hq
          split at h
          · cases h
          · next r1 e1 => cases h; exact takeParsed_logged lg hh.log e1
  | fromFile c cx file =>
    simp only [rstep] at h
    split at h
    · cases h; exact lg
    · cases h; exact lg
    · next cs hcs =>
      simp only [bind, Except.bind] at h
      split at h
      · cases h
      · next q hq =>
        have hh := parseFile_held texty_any (fun l hl c hc => by cases hl; exact input_any (ho c hc))
          (held_init _) hq
        split at h
        · cases h
        · next r1 e1 => cases h; exact takeParsed_logged lg hh.log e1
  | union c1 c2 =>
    simp only [rstep] at h
    split at h
    · simp only [bind, Except.bind] at h
      split at h
      · cases h
      · exact addDoc_logged lg h
    · cases h; exact lg
  | archFilter c arches =>
    simp only [rstep] at h
    split at h
    · cases h; exact lg
    · simp only [bind, Except.bind] at h
      split at h
      · cases h
      · exact addDoc_logged lg h
  | eq c x =>
    simp only [rstep] at h
    split at h
    · cases h; exact lg
    · cases h
    · split at h
      · cases h; exact lg
      · simp only [bind, Except.bind] at h
        split at h <;> cases h
        exact lg
  | validate c =>
    simp only [rstep] at h
    split at h
    · cases h; exact lg
    · simp only [bind, Except.bind] at h
      split at h
      · cases h
      · split at h <;> cases h
        exact lg
  | validateNf c =>
    simp only [rstep] at h
    split at h
    · cases h; exact lg
    · simp only [bind, Except.bind] at h
      split at h <;> cases h
      exact lg
  | xmlStr c o df fails =>
    simp only [rstep] at h
    split at h
    · cases h; exact lg
    · next d hd =>
      simp only [bind, Except.bind] at h
      obtain ⟨x, hm, -⟩ := ty.made wf hd
      split at h
      · cases h
      · next q hq =>
        cases h
        exact lg.put ((lg c d hd).append (xmlStr_log hm (idsAre_any _) hq))
  | xmlFile c name o df fails saved =>
    simp only [rstep] at h
    split at h
    · cases h; exact lg
    · next d hd =>
      simp only [bind, Except.bind] at h
      obtain ⟨x, hm, -⟩ := ty.made wf hd
      split at h
      · cases h
      · next q hq =>
        cases h
        exact lg.put (xmlFile_log hm (idsAre_any _) trivial hq)
  | lastLog c => simp only [rstep] at h; split at h <;> (cases h; exact lg)
  | del v =>
    simp only [rstep] at h
    split at h
    · cases h; exact lg
    · cases h; exact lg.docs_eq rfl
  | drop c =>
    simp only [rstep] at h
    split at h
    · cases h; exact lg
    · cases h
      intro c' d' hc
      simp only [RSt.doc, List.getElem?_set] at hc
      split at hc
      · split at hc <;> cases hc
      · exact lg c' d' hc

/-- What holds at the end of a program. -/
theorem logged_reach {ops : List Op} (hn : ∀ o ∈ ops, NativeOp lt o ∧ OpOk o) : ∀ {st st' : PyComps.St}
    {r : RSt} {as : List Ans}, Good st r → Typed lt r → Logged r → run lt st ops = .ok (as, st') →
    ∃ r', Good st' r' ∧ Typed lt r' ∧ Logged r' := by
  induction ops with
  | nil => intro st st' r as g ty lg h; cases h; exact ⟨r, g, ty, lg⟩
  | cons o os ih =>
    intro st st' r as g ty lg h
    simp only [run, bind, Except.bind] at h
    cases h1 : PyComps.step lt st o with
    | error e => rw [h1] at h; cases h
    | ok q =>
      obtain ⟨a, st1⟩ := q
      obtain ⟨r1, e1, g1⟩ := step_ok g h1
      have t1 := rstep_typed ty g.wf (hn o (by simp)).1 e1
      have l1 := rstep_logged lg ty g.wf (hn o (by simp)).2 e1
      rw [h1] at h
      simp only at h
      cases h2 : run lt st1 os with
      | error e => rw [h2] at h; cases h
      | ok q =>
        obtain ⟨as', st2⟩ := q
        rw [h2] at h
        cases h
        exact ih (fun o ho => hn o (by simp [ho])) g1 t1 l1 h2

end

/-! ## Messages are determined -/

theorem decVal_pos {a : Bytes} (ha : a ≠ []) (hd : ∀ c ∈ a, 48 ≤ c ∧ c ≤ 57) (hl : a.head? ≠ some 48) :
    1 ≤ decVal a := by
  have key : ∀ (l : Bytes) (k : Nat), 1 ≤ k → 1 ≤ l.foldl (fun a c => 10 * a + (c.toNat - 48)) k := by
    intro l
    induction l with
    | nil => intro k h; exact h
    | cons c l ih => intro k h; exact ih _ (show 1 ≤ 10 * k + (c.toNat - 48) by omega)
  cases a with
  | nil => exact absurd rfl ha
  | cons c l =>
    refine key l _ ?_
    have h1 : (48 : UInt8).toNat ≤ c.toNat := UInt8.le_iff_toNat_le.1 (hd c (by simp)).1
    have h2 : c.toNat ≠ 48 := fun h => hl (by
      rw [List.head?_cons, show c = 48 from UInt8.toNat.inj h])
    have h3 : (48 : UInt8).toNat = 48 := rfl
    show 1 ≤ 10 * 0 + (c.toNat - 48)
    omega

theorem isDec_last {n : Nat} {i : Bytes} {c : UInt8} (h : IsDec n (i ++ [c])) :
    c = 48 + (n % 10).toUInt8 ∧ decVal i = n / 10 := by
  obtain ⟨h1, h2⟩ := h.digit c (by simp)
  rw [UInt8.le_iff_toNat_le] at h1 h2
  have e1 : (48 : UInt8).toNat = 48 := rfl
  have e2 : (57 : UInt8).toNat = 57 := rfl
  have hv := h.val
  rw [decVal_append] at hv
  have hm : n % 10 < 10 := Nat.mod_lt _ (by decide)
  refine ⟨UInt8.toNat.inj ?_, by omega⟩
  rw [digit_toNat hm]
  omega

theorem isDec_init {n : Nat} {i : Bytes} {c : UInt8} (h : IsDec n (i ++ [c])) (hi : i ≠ []) :
    IsDec (n / 10) i ∧ 10 ≤ n := by
  have hd : ∀ x ∈ i, 48 ≤ x ∧ x ≤ 57 := fun x hx => h.digit x (by simp [hx])
  have hl : i.head? ≠ some 48 := by
    intro e
    cases i with
    | nil => exact hi rfl
    | cons x l =>
      have := h.lead (by simpa using e)
      simp at this
  have hp := decVal_pos hi hd hl
  have hv := (isDec_last h).2
  exact ⟨⟨hi, hd, fun e => absurd e hl, hv⟩, by omega⟩

theorem isDec_unique : ∀ (n : Nat) {a : Bytes}, IsDec n a → a = dec n := by
  intro n
  induction n using dec.induct with
  | case1 n h =>
    intro a ha
    obtain ⟨i, c, rfl⟩ : ∃ i c, a = i ++ [c] := ⟨_, _, (List.dropLast_concat_getLast ha.ne).symm⟩
    by_cases hi : i = []
    · subst hi
      rw [dec, if_pos h, (isDec_last ha).1, Nat.mod_eq_of_lt h]
      rfl
    · have := (isDec_init ha hi).2
      omega
  | case2 n h ih =>
    intro a ha
    obtain ⟨i, c, rfl⟩ : ∃ i c, a = i ++ [c] := ⟨_, _, (List.dropLast_concat_getLast ha.ne).symm⟩
    by_cases hi : i = []
    · subst hi
      have := (isDec_last ha).2
      have e : decVal [] = 0 := rfl
      omega
    · rw [dec, if_neg h, ← ih (isDec_init ha hi).1, (isDec_last ha).1]

theorem argSays_unique {x : Option PVal} {a b : Bytes} (ha : ArgSays x a) (hb : ArgSays x b) : a = b := by
  match x, ha, hb with
  | none, ha, hb => rw [show a = [] from ha, show b = [] from hb]
  | some (.str s), ha, hb => rw [show a = s.val.getD [] from ha, show b = s.val.getD [] from hb]
  | some (.num n), ha, hb => rw [isDec_unique _ ha.2, isDec_unique _ hb.2]

theorem argsSay_unique : ∀ {xs : List (Option PVal)} {a b : List Bytes}, ArgsSay xs a → ArgsSay xs b → a = b
  | [], [], [], _, _ => rfl
  | _ :: _, _ :: _, _ :: _, ha, hb => by rw [argSays_unique ha.1 hb.1, argsSay_unique ha.2 hb.2]

theorem renders_unique {fmt : Bytes} {as : List Bytes} {a b : Bytes} (ha : Renders fmt as a)
    (hb : Renders fmt as b) : a = b := by
  induction ha generalizing b with
  | nil => cases hb; rfl
  | lit hc _ ih =>
    cases hb with
    | lit _ h => rw [ih h]
    | arg _ => exact absurd rfl hc
  | arg _ ih =>
    cases hb with
    | lit h _ => exact absurd rfl h
    | arg h => rw [ih h]

theorem says_unique {e : LogEntry} {a b : Bytes} (ha : Says e a) (hb : Says e b) : a = b := by
  obtain ⟨f, as, h1, h2, h3⟩ := ha
  obtain ⟨g, bs, k1, k2, k3⟩ := hb
  rw [h1] at k1
  cases k1
  rw [argsSay_unique k2 h2] at k3
  exact renders_unique h3 k3

theorem tells_unique : ∀ {es : List LogEntry} {a b : List Bytes}, Tells es a → Tells es b → a = b
  | [], [], [], _, _ => rfl
  | _ :: _, _ :: _, _ :: _, ha, hb => by rw [says_unique ha.1 hb.1, tells_unique ha.2 hb.2]

theorem renders_one {b suf : Bytes} (hs : ∀ c ∈ suf, c ≠ 37) : ∀ {pre : Bytes}, (∀ c ∈ pre, c ≠ 37) →
    Renders (pre ++ 37 :: 115 :: suf) [b] (pre ++ b ++ suf)
  | [], _ => by
    refine .arg ?_
    clear b
    induction suf with
    | nil => exact .nil
    | cons c l ih => exact .lit (hs c (by simp)) (ih fun x hx => hs x (by simp [hx]))
  | c :: pre, h => .lit (h c (by simp)) (renders_one hs fun x hx => h x (by simp [hx]))

/-! ## Whole logs -/

variable {utf8 : Bytes → Bool}

theorem lastLog_ok : ∀ {es : List LogEntry} {pre : List Bytes},
    FineAll P es → (∀ e ∈ es, ∀ t, Says e t → utf8 t = true) →
    ∃ ts, es.foldlM (appendText utf8) pre = .ok (pre ++ ts) ∧ Tells es ts
  | [], pre, _, _ => ⟨[], by simp; rfl, trivial⟩
  | e :: es, pre, h, hu => by
    obtain ⟨t, h1, h2⟩ := entryText_ok (h e (by simp))
    obtain ⟨ts, k1, k2⟩ := lastLog_ok (es := es) (pre := pre ++ [t]) (fun x hx => h x (by simp [hx]))
      fun x hx => hu x (by simp [hx])
    refine ⟨t :: ts, ?_, h2, k2⟩
    simp only [List.foldlM_cons, appendText, h1, bind, Except.bind, hu e (by simp) t h2, if_true, pure,
      Except.pure]
    rw [show es.foldlM (appendText utf8) (pre ++ [t]) = _ from k1]
    simp

theorem isWarning_iff {e : LogEntry} : isWarning e = true ↔ Warning e := by
  unfold isWarning Warning
  simp only [Bool.or_eq_true, Bool.and_eq_true, beq_iff_eq, or_assoc]

theorem lastErrors_eq (es : List LogEntry) : ∀ pre : List Bytes,
    es.foldlM (fun ret e => if isWarning e then .ok ret else appendText utf8 ret e) pre =
      (es.filter fun e => !isWarning e).foldlM (appendText utf8) pre := by
  induction es with
  | nil => intro pre; rfl
  | cons e es ih =>
    intro pre
    cases hw : isWarning e with
    | true =>
      simp only [List.foldlM_cons, hw, if_true, bind, Except.bind, List.filter_cons, Bool.not_true]
      exact ih pre
    | false =>
      rw [List.filter_cons_of_pos (by simp [hw])]
      simp only [List.foldlM_cons, hw, bind, Except.bind]
      rw [if_neg (by simp)]
      cases appendText utf8 pre e with
      | error x => rfl
      | ok q => exact ih q

theorem errors_filter : ∀ es : List LogEntry, Errors es (es.filter fun e => !isWarning e)
  | [] => .nil
  | e :: es => by
    cases hw : isWarning e with
    | true =>
      rw [List.filter_cons_of_neg (by simp [hw])]
      exact .skip (isWarning_iff.1 hw) (errors_filter es)
    | false =>
      rw [List.filter_cons_of_pos (by simp [hw])]
      exact .keep (fun h => by rw [isWarning_iff.2 h] at hw; cases hw) (errors_filter es)

theorem errors_unique {es a b : List LogEntry} (ha : Errors es a) (hb : Errors es b) : a = b := by
  induction ha generalizing b with
  | nil => cases hb; rfl
  | skip h _ ih =>
    cases hb with
    | skip _ k => exact ih k
    | keep k _ => exact absurd h k
  | keep h _ ih =>
    cases hb with
    | skip k _ => exact absurd k h
    | keep _ k => rw [ih k]

/-! ## UTF-8 -/

theorem utf8_ascii {c : UInt8} (h : c < 128) : String.utf8EncodeChar (Char.ofNat c.toNat) = [c] := by
  have key : ∀ n < 128, String.utf8EncodeChar (Char.ofNat n) = [n.toUInt8] := by decide +kernel
  rw [key c.toNat (UInt8.lt_iff_toNat_lt.1 h)]
  simp

theorem texty_utf8 : Texty Utf8 := by
  refine ⟨fun b hb => ?_, fun a b => ?_⟩
  · refine ⟨b.map fun c => Char.ofNat c.toNat, ?_⟩
    induction b with
    | nil => rfl
    | cons c l ih =>
      rw [List.map_cons, List.flatMap_cons, utf8_ascii (hb c (by simp)),
        ← ih fun x hx => hb x (by simp [hx])]
      rfl
  · rintro ⟨x, rfl⟩ ⟨y, rfl⟩
    exact ⟨x ++ y, by rw [List.flatMap_append]⟩

theorem input_utf8 {c : Parse.Chunk} (h : ChunkOk c) (hu : Utf8Chunk c) : Input Utf8 c := by
  refine ⟨fun x hx => ⟨h.1 x hx, ?_⟩, fun p m hp => ⟨h.2 p m hp, hu.2.2 p m hp⟩⟩
  obtain ⟨p, ev⟩ := x
  cases ev with
  | start n attrs => exact hu.1 p n attrs hx
  | text b => exact hu.2.1 p b hx
  | stop n => trivial
  | doctype n s p => trivial

end Comps.PyLog
