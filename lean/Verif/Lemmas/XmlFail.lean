import Verif.Lemmas.XmlDoc
import Verif.Spec.XmlFail

/-!
# Output with a failing writer
-/

namespace Comps.Xml
open Comps Comps.Spec Comps.Obj Comps.Text

variable {lt : UInt8 → UInt8 → Bool} {α β : Type}

/-- What a run adds to the calls and to the log. -/
structure Adds (s s' : St) (new : List (Call × Bool)) (nl : List LogEntry) : Prop where
  calls : s'.calls = s.calls ++ new
  log : s'.log = s.log ++ nl
  logSet : s'.logSet = s.logSet

theorem Adds.trans {s s' s'' : St} {a b : List (Call × Bool)} {l m : List LogEntry}
    (h : Adds s s' a l) (h' : Adds s' s'' b m) : Adds s s'' (a ++ b) (l ++ m) :=
  ⟨by rw [h'.calls, h.calls, List.append_assoc], by rw [h'.log, h.log, List.append_assoc],
    h'.logSet.trans h.logSet⟩

theorem Adds.refl (s : St) : Adds s s [] [] := ⟨by simp, by simp, rfl⟩

/-- Run of `m` in any state of the writer. -/
def Acts (m : M α) (T : α → List (Call × Bool) → List LogEntry → Prop) : Prop :=
  ∀ s : St, s.logSet = true → ∃ a s' new nl, m s = .ok (a, s') ∧ Adds s s' new nl ∧ T a new nl

theorem Acts.bind {m : M α} {f : α → M β} {T : α → List (Call × Bool) → List LogEntry → Prop}
    {T' : β → List (Call × Bool) → List LogEntry → Prop} (h : Acts m T)
    (hf : ∀ a n l, T a n l → Acts (f a) fun b n' l' => T' b (n ++ n') (l ++ l')) :
    Acts (m >>= f) T' := by
  intro s hs
  obtain ⟨a, s', n, l, h1, h2, h3⟩ := h s hs
  obtain ⟨b, s'', n', l', k1, k2, k3⟩ := hf a n l h3 s' (by rw [h2.logSet, hs])
  exact ⟨b, s'', _, _, by rw [bind_ok h1, k1], h2.trans k2, k3⟩

theorem Acts.mono {m : M α} {T T' : α → List (Call × Bool) → List LogEntry → Prop} (h : Acts m T)
    (hi : ∀ a n l, T a n l → T' a n l) : Acts m T' := by
  intro s hs
  obtain ⟨a, s', n, l, h1, h2, h3⟩ := h s hs
  exact ⟨a, s', n, l, h1, h2, hi _ _ _ h3⟩

theorem acts_pure (a : α) : Acts (pure a : M α) fun b n l => b = a ∧ n = [] ∧ l = [] :=
  fun s _ => ⟨a, s, [], [], rfl, .refl s, rfl, rfl, rfl⟩

theorem acts_call (c : Call) : Acts (call c) fun ok n l => n = [(c, ok)] ∧ l = [] := by
  intro s _
  unfold call
  split
  · exact ⟨true, _, _, [], rfl, ⟨rfl, by simp, rfl⟩, rfl, rfl⟩
  · exact ⟨false, _, _, [], rfl, ⟨rfl, by simp, rfl⟩, rfl, rfl⟩

theorem acts_log (code : Nat) (args : List (Option PVal)) :
    Acts (logError code args) fun _ n l => n = [] ∧ l = [⟨code, args⟩] := by
  intro s hs
  unfold logError
  rw [if_pos hs]
  exact ⟨(), _, [], _, rfl, ⟨by simp, rfl, rfl⟩, rfl, rfl⟩

theorem acts_text {r : Res Bytes} {b : Bytes} (h : r = .ok b) :
    Acts (text r) fun x n l => x = b ∧ n = [] ∧ l = [] := by
  intro s _
  subst h
  exact ⟨b, s, [], [], rfl, .refl s, rfl, rfl, rfl⟩

/-! ## the four kinds of pieces -/

theorem vital_append {a b : List (Call × Bool)} (ha : AllVital a) (hb : AllVital b) :
    AllVital (a ++ b) := fun x hx => (List.mem_append.1 hx).elim (ha x) (hb x)

theorem tells_append {a b : List (Call × Bool)} {l m : List LogEntry} (ha : TellsAll a l)
    (hb : TellsAll b m) : TellsAll (a ++ b) (l ++ m) := by
  rintro ⟨x, hx, h⟩
  rcases List.mem_append.1 hx with hx | hx
  · obtain ⟨e, he, h⟩ := ha ⟨x, hx, h⟩; exact ⟨e, by simp [he], h⟩
  · obtain ⟨e, he, h⟩ := hb ⟨x, hx, h⟩; exact ⟨e, by simp [he], h⟩

theorem tells_nil {l : List LogEntry} : TellsAll [] l := by
  rintro ⟨_, h, _⟩; cases h

theorem tells_gen {a : List (Call × Bool)} {l : List LogEntry} (h : HasXmlgen l) : TellsAll a l :=
  fun _ => h

theorem skips_append (a b : List LogEntry) : skips (a ++ b) = skips a ++ skips b := by
  simp [skips]

/-- Failures of no consequence for what follows. -/
def Quiet (m : M α) : Prop :=
  Acts m fun _ n l => AllVital n ∧ TellsAll n l ∧ skips l = []

/-- A call whose result is tested and whose failure does not end the output. -/
def AsksQ (m : M Bool) : Prop :=
  Acts m fun ok n l => AllVital n ∧ l = [] ∧ (ok = true → TellsAll n [])

/-- A call whose result is tested and whose failure ends the output. -/
def Asks (m : M Bool) : Prop :=
  Acts m fun ok n l => l = [] ∧ if ok then AllVital n ∧ TellsAll n [] else
    ∃ pre c, n = pre ++ [(c, false)] ∧ AllVital pre

/-- The rest of an output function, which gives `code` and logs `sk` unless it ends early. -/
def Tail (code : Int) (sk : List LogEntry) (m : M Int) : Prop :=
  Acts m fun r n l => TellsAll n l ∧
    ((r = -1 ∧ HasXmlgen l ∧ Ended n ∧ skips l <+: sk) ∨ (r = code ∧ AllVital n ∧ skips l = sk))

theorem Quiet.pure (a : α) : Quiet (pure a : M α) :=
  (acts_pure a).mono fun _ n l h => by
    obtain ⟨-, rfl, rfl⟩ := h
    exact ⟨nofun, tells_nil, rfl⟩

theorem Quiet.bind {m : M α} {f : α → M β} (h : Quiet m) (hf : ∀ a, Quiet (f a)) : Quiet (m >>= f) :=
  Acts.bind h fun a _ _ t => (hf a).mono fun _ _ _ t' =>
    ⟨vital_append t.1 t'.1, tells_append t.2.1 t'.2.1, by rw [skips_append, t.2.2, t'.2.2]; rfl⟩

theorem Quiet.text {r : Res Bytes} {b : Bytes} (h : r = .ok b) : Quiet (text r) :=
  (acts_text h).mono fun _ n l h => by
    obtain ⟨-, rfl, rfl⟩ := h
    exact ⟨nofun, tells_nil, rfl⟩

theorem vital_one {c : Call} {ok : Bool} (h : Vital c = false) : AllVital [(c, ok)] := by
  intro x hx hv
  rw [List.mem_singleton.1 hx] at hv
  rw [h] at hv; cases hv

theorem tells_one {c : Call} {ok : Bool} (h : Told c = false) : TellsAll [(c, ok)] [] := by
  rintro ⟨x, hx, -, hv⟩
  rw [List.mem_singleton.1 hx] at hv
  rw [h] at hv; cases hv

theorem tells_true (c : Call) : TellsAll [(c, true)] [] := by
  rintro ⟨x, hx, hv, -⟩
  rw [List.mem_singleton.1 hx] at hv
  cases hv

theorem vital_true (c : Call) : AllVital [(c, true)] := by
  intro x hx _
  rw [List.mem_singleton.1 hx]

theorem Quiet.call {c : Call} (hv : Vital c = false) (ht : Told c = false) : Quiet (call c) :=
  (acts_call c).mono fun ok n l h => by
    obtain ⟨rfl, rfl⟩ := h
    exact ⟨vital_one hv, tells_one ht, rfl⟩

theorem AsksQ.call {c : Call} (hv : Vital c = false) : AsksQ (call c) :=
  (acts_call c).mono fun ok n l h => by
    obtain ⟨rfl, rfl⟩ := h
    exact ⟨vital_one hv, rfl, fun e => by rw [e]; exact tells_true c⟩

theorem AsksQ.pure (b : Bool) : AsksQ (pure b) :=
  (acts_pure b).mono fun _ n l h => by
    obtain ⟨-, rfl, rfl⟩ := h
    exact ⟨nofun, rfl, fun _ => tells_nil⟩

theorem Asks.call (c : Call) : Asks (call c) :=
  (acts_call c).mono fun ok n l h => by
    obtain ⟨rfl, rfl⟩ := h
    refine ⟨rfl, ?_⟩
    cases ok with
    | true => exact ⟨vital_true c, tells_true c⟩
    | false => exact ⟨[], c, rfl, nofun⟩

theorem Asks.pure : Asks (pure true) :=
  (acts_pure true).mono fun _ n l h => by
    obtain ⟨rfl, rfl, rfl⟩ := h
    exact ⟨rfl, nofun, tells_nil⟩

theorem xmlgen_one : HasXmlgen [⟨20, []⟩] := ⟨_, List.mem_singleton.2 rfl, rfl⟩

theorem Quiet.check {m : M Bool} {k : Bool → M Int} (h : AsksQ m) (hk : Quiet (k true)) :
    Quiet (m >>= fun r => check r (k r)) := by
  refine Acts.bind h fun ok n l t => ?_
  obtain ⟨t1, rfl, t3⟩ := t
  cases ok with
  | true =>
    exact hk.mono fun _ _ _ t' => ⟨vital_append t1 t'.1, tells_append (t3 rfl) t'.2.1, t'.2.2⟩
  | false =>
    show Acts (logError 20 [] >>= fun _ => Pure.pure (-1 : Int)) _
    refine Acts.bind (acts_log 20 []) fun _ n' l' t' => ?_
    obtain ⟨rfl, rfl⟩ := t'
    refine (acts_pure (-1 : Int)).mono fun _ n' l' t' => ?_
    obtain ⟨-, rfl, rfl⟩ := t'
    exact ⟨by simpa using t1, tells_gen xmlgen_one, rfl⟩

theorem Tail.check {m : M Bool} {k : Bool → M Int} {code : Int} {sk : List LogEntry} (h : Asks m)
    (hk : Tail code sk (k true)) : Tail code sk (m >>= fun r => check r (k r)) := by
  refine Acts.bind h fun ok n l t => ?_
  obtain ⟨rfl, t⟩ := t
  cases ok with
  | true =>
    refine hk.mono fun r n' l' t' => ⟨tells_append t.2 t'.1, ?_⟩
    rcases t'.2 with ⟨h1, h2, ⟨pre, c, rest, e, h3, h4⟩, h5⟩ | ⟨h1, h2, h3⟩
    · exact .inl ⟨h1, h2, ⟨n ++ pre, c, rest, by rw [e, List.append_assoc], vital_append t.1 h3, h4⟩, h5⟩
    · exact .inr ⟨h1, vital_append t.1 h2, h3⟩
  | false =>
    obtain ⟨pre, c, rfl, hp⟩ := t
    show Acts (logError 20 [] >>= fun _ => Pure.pure (-1 : Int)) _
    refine Acts.bind (acts_log 20 []) fun _ n' l' t' => ?_
    obtain ⟨rfl, rfl⟩ := t'
    refine (acts_pure (-1 : Int)).mono fun r n' l' t' => ?_
    obtain ⟨rfl, rfl, rfl⟩ := t'
    refine ⟨tells_gen xmlgen_one, .inl ⟨rfl, xmlgen_one, ⟨pre, c, [], by simp, hp, nofun⟩, ?_⟩⟩
    exact List.nil_prefix

theorem Tail.after {m : M α} {f : α → M Int} {code : Int} {sk : List LogEntry} (h : Quiet m)
    (hk : ∀ a, Tail code sk (f a)) : Tail code sk (m >>= f) := by
  refine Acts.bind h fun a n l t => (hk a).mono fun r n' l' t' => ⟨tells_append t.2.1 t'.1, ?_⟩
  rw [skips_append, t.2.2, List.nil_append]
  rcases t'.2 with ⟨h1, ⟨e, he, h2⟩, ⟨pre, c, rest, e', h3, h4⟩, h5⟩ | ⟨h1, h2, h3⟩
  · exact .inl ⟨h1, ⟨e, by simp [he], h2⟩, ⟨n ++ pre, c, rest, by rw [e', List.append_assoc],
      vital_append t.1 h3, h4⟩, h5⟩
  · exact .inr ⟨h1, vital_append t.1 h2, h3⟩

theorem Tail.pure (code : Int) : Tail code [] (pure code) :=
  (acts_pure code).mono fun _ n l h => by
    obtain ⟨rfl, rfl, rfl⟩ := h
    exact ⟨tells_nil, .inr ⟨rfl, nofun, rfl⟩⟩

/-! ## the output functions -/

theorem quiet_prop {tag val : Bytes} (hv : Vital (.startElement tag) = false)
    (ht : Told (.startElement tag) = false) : Quiet (xmlProp tag val) :=
  (Quiet.call hv ht).bind fun _ => (Quiet.call rfl rfl).bind fun _ => (Quiet.call rfl rfl).bind fun _ =>
    .pure _

theorem arch_call (a : Option (List CStr)) : (∀ s : St, xmlArch a s = .ok (true, s)) ∨
    ∃ str, ∀ s : St, xmlArch a s = call (.attribute b!"arch" str) s := by
  match a with
  | none => exact .inl fun _ => rfl
  | some [] => exact .inl fun _ => rfl
  | some (x :: xs) =>
    refine .inr ⟨List.intercalate b!" " ((x :: xs).map fun s => textOf (some s)), fun s => ?_⟩
    simp only [xmlArch]
    rw [bind_ok (a := (x :: xs).map fun s => textOf (some s)) (s' := s) (by rw [strTexts_eq]; rfl)]
    rw [archStr_ok]
    rw [bind_ok (a := List.intercalate b!" " ((x :: xs).map fun s => textOf (some s))) (s' := s) rfl]

theorem acts_congr {m m' : M α} {T : α → List (Call × Bool) → List LogEntry → Prop}
    (e : ∀ s, m s = m' s) (h : Acts m' T) : Acts m T := by
  intro s hs
  rw [e]; exact h s hs

theorem arch_asks (o : Options) (a : Option (List CStr)) :
    Asks (xmlArchOpt o a) ∧ AsksQ (xmlArchOpt o a) := by
  unfold xmlArchOpt
  split
  · rcases arch_call a with h | ⟨str, h⟩
    · exact ⟨acts_congr (fun s => h s) Asks.pure, acts_congr (fun s => h s) (AsksQ.pure true)⟩
    · exact ⟨acts_congr h (Asks.call _), acts_congr h (AsksQ.call rfl)⟩
  · exact ⟨Asks.pure, AsksQ.pure true⟩

theorem archProp_asks (o : Options) {props : RTree PVal} (hp : PropInv lt props) :
    Asks (xmlArchProp o props) := by
  have := (arch_asks o (archesOf props)).1
  unfold xmlArchOpt at this
  unfold xmlArchProp
  split
  · rename_i ha
    rw [if_pos ha] at this
    refine acts_congr (fun s => ?_) this
    rw [bind_ok (a := archesOf props) (s' := s)]
    unfold getArchesProp archesOf
    cases e : props.get b!"arches" with
    | none => rfl
    | some v =>
      have := hp.typed.get hp.wf e
      cases v with
      | list l => rfl
      | str _ => revert this; simp [kind, propKinds]
      | num _ => revert this; simp [kind, propKinds]
  · exact Asks.pure

theorem quiet_asks {m : M α} {f : α → M Bool} (h : Quiet m) (hl : Acts m fun _ _ l => l = [])
    (hf : ∀ a, AsksQ (f a)) : AsksQ (m >>= f) := by
  intro s hs
  obtain ⟨a, s', n, l, h1, h2, h3, h4, -⟩ := h s hs
  obtain ⟨a2, s2, n2, l2, k1, k2, rfl⟩ := hl s hs
  rw [k1] at h1
  cases h1
  have e := h2.log.symm.trans k2.log
  have : l = [] := by simpa using e
  subst this
  obtain ⟨b, s'', n', l', j1, j2, j3, rfl, j5⟩ := hf a s' (by rw [h2.logSet, hs])
  exact ⟨b, s'', _, _, by rw [bind_ok k1, j1], h2.trans j2, vital_append h3 j3, rfl,
    fun e => tells_append h4 (j5 e)⟩

theorem requires_asks (r : Option CStr) (ret : Bool) : AsksQ (xmlRequires r ret) := by
  cases r with
  | none => exact .pure ret
  | some r =>
    refine quiet_asks (.text (strText_eq _)) ((acts_text (strText_eq _)).mono fun _ _ _ h => h.2.2)
      fun a => ?_
    split
    · exact .pure ret
    · exact .call rfl

theorem bao_asks (o : Options) (b : Option Int) (ret : Bool) : AsksQ (xmlBao o b ret) := by
  unfold xmlBao
  split
  · exact .call rfl
  · split
    · exact .call rfl
    · exact .pure ret

theorem package_quiet (o : Options) (p : Package) : Quiet (xmlPackage o p) := by
  unfold xmlPackage
  refine .check (.call (by decide)) (.check (arch_asks o _).2 ?_)
  refine .bind (.call rfl rfl) fun ret => .check (requires_asks _ ret) ?_
  refine .check (bao_asks _ _ _) (.bind (.text (strText_eq _)) fun str => ?_)
  exact .check (.call rfl) (.check (.call rfl) (.pure _))

theorem gid_asks (o : Options) (b : Bool) : AsksQ (xmlGidDefault o b) := by
  unfold xmlGidDefault
  split
  · exact .call rfl
  · split
    · exact quiet_asks (.call rfl rfl) ((acts_call _).mono fun _ _ _ h => h.2) fun _ => .pure true
    · exact .pure true

theorem groupId_quiet (o : Options) (p : GroupId) : Quiet (xmlGroupId o p) := by
  unfold xmlGroupId
  refine .check (.call (by decide)) (.check (arch_asks o _).2 ?_)
  refine .check (gid_asks _ _) (.bind (.text (strText_eq _)) fun str => ?_)
  exact .check (.call rfl) (.check (.call rfl) (.pure _))

theorem packages_quiet (o : Options) : ∀ l : List Package, Quiet (xmlPackages o l)
  | [] => .pure _
  | p :: ps => (package_quiet o p).bind fun _ => packages_quiet o ps

theorem groupIds_quiet (o : Options) : ∀ l : List GroupId, Quiet (xmlGroupIds o l)
  | [] => .pure _
  | p :: ps => (groupId_quiet o p).bind fun _ => groupIds_quiet o ps

theorem plain_quiet {tag : Bytes} (hv : Vital (.startElement tag) = false)
    (ht : Told (.startElement tag) = false) {v : Option PVal} (h : ∀ n, v = some (.num n) → 0 ≤ n) :
    Quiet (xmlPlain tag v) := by
  cases v with
  | none => exact .pure _
  | some v =>
    exact .bind (.text (valText_eq fun n e => h n (by rw [e]))) fun str =>
      (quiet_prop hv ht).bind fun _ => .pure _

theorem flag_quiet {tag : Bytes} (hv : Vital (.startElement tag) = false)
    (ht : Told (.startElement tag) = false) (expl dflt : Bool) {v : Option PVal}
    (h : ∀ x, v = some x → ∃ n, x = .num n) : Quiet (xmlFlag tag expl dflt v) := by
  cases v with
  | none =>
    unfold xmlFlag
    dsimp only
    split
    · exact (quiet_prop hv ht).bind fun _ => .pure _
    · exact .pure _
  | some v =>
    obtain ⟨n, rfl⟩ := h v rfl
    refine .bind (.text rfl) fun str => ?_
    split
    · exact (quiet_prop hv ht).bind fun _ => .pure _
    · exact .pure _

theorem langs_tail {tag : Bytes} {code : Int} {sk : List LogEntry} {k : M Int} (hk : Tail code sk k) :
    ∀ {l : List (Bytes × PVal)}, (∀ e ∈ l, ∃ s, e.2 = .str s) → Tail code sk (xmlLangs tag l k)
  | [], _ => hk
  | (lang, v) :: rest, hl => by
    unfold xmlLangs
    obtain ⟨b, e⟩ := hl (lang, v) (by simp)
    simp only at e
    subst e
    refine .check (.call _) (.check (.call _) (.after (.text (valText_eq nofun)) fun str => ?_))
    exact .check (.call _) (.check (.call _) (langs_tail hk fun e he => hl e (by simp [he])))

theorem list_tail {tag : Bytes} {opt : Bool} {items : List α} {write : List α → M Unit} {k : M Int}
    {code : Int} {sk : List LogEntry} (hw : Quiet (write items)) (hk : Tail code sk k) :
    Tail code sk (xmlList tag opt items write k) := by
  unfold xmlList
  split
  · exact .check (.call _) (.after hw fun _ => .check (.call _) hk)
  · exact hk

theorem end_tail : Tail 0 [] xmlEnd := .check (.call _) (.pure 0)

theorem skip_tail (id : Option PVal) : Tail 1 [⟨25, [id]⟩] (do logError 25 [id]; return 1) := by
  refine Acts.bind (acts_log _ _) fun _ n l h => ?_
  obtain ⟨rfl, rfl⟩ := h
  refine (acts_pure (1 : Int)).mono fun r n' l' t' => ?_
  obtain ⟨rfl, rfl, rfl⟩ := t'
  exact ⟨tells_nil, .inr ⟨rfl, nofun, rfl⟩⟩

/-- What is logged for an entry. -/
def skipOf (isShown : Bool) (id : Option PVal) : List LogEntry := if isShown then [] else [⟨25, [id]⟩]
/-- What an entry adds to the result. -/
def skipCode (isShown : Bool) : Int := if isShown then 0 else 1

theorem group_tail {o : Options} {d : Defaults} {g : Group}
    (h : DictsInv lt g.props g.nameByLang g.descByLang) (hp : g.packages.isSome = true)
    (hn : ∀ n, g.props.get b!"display_order" = some (.num n) → 0 ≤ n) :
    Tail (skipCode (groupShown o g)) (skipOf (groupShown o g) (g.props.get b!"id"))
      (xmlGroup o d g) := by
  unfold xmlGroup
  cases e : g.packages with
  | none => rw [e] at hp; cases hp
  | some l =>
    dsimp only
    split
    · rename_i hs
      have : groupShown o g = false := by
        simp only [groupShown, e, Option.getD_some]
        cases l <;> simp_all
      rw [this]; exact skip_tail _
    · rename_i hs
      have : groupShown o g = true := by
        simp only [groupShown, e, Option.getD_some]
        cases l <;> simp_all
      rw [this]
      refine .check (.call _) (.check (archProp_asks o h.props) ?_)
      refine .after (plain_quiet (by decide) (by decide) (not_num h.props (by decide))) fun _ => ?_
      refine .after (plain_quiet (by decide) (by decide) (not_num h.props (by decide))) fun _ => ?_
      refine langs_tail ?_ (lang_str h.name)
      refine .after (plain_quiet (by decide) (by decide) (not_num h.props (by decide))) fun _ => ?_
      refine langs_tail ?_ (lang_str h.desc)
      refine .after (flag_quiet (by decide) (by decide) _ _ (is_num h.props (by decide) (by decide)))
        fun _ => ?_
      refine .after (flag_quiet (by decide) (by decide) _ _ (is_num h.props (by decide) (by decide)))
        fun _ => ?_
      refine .after (flag_quiet (by decide) (by decide) _ _ (is_num h.props (by decide) (by decide)))
        fun _ => ?_
      refine .after (plain_quiet (by decide) (by decide) hn) fun _ => ?_
      refine .after (plain_quiet (by decide) (by decide) (not_num h.props (by decide))) fun _ => ?_
      exact list_tail (packages_quiet o _) end_tail

theorem category_tail {o : Options} {g : Category}
    (h : DictsInv lt g.props g.nameByLang g.descByLang) (hp : g.groupIds.isSome = true)
    (hn : ∀ n, g.props.get b!"display_order" = some (.num n) → 0 ≤ n) :
    Tail (skipCode (categoryShown o g)) (skipOf (categoryShown o g) (g.props.get b!"id"))
      (xmlCategory o g) := by
  unfold xmlCategory
  cases e : g.groupIds with
  | none => rw [e] at hp; cases hp
  | some l =>
    dsimp only
    split
    · rename_i hs
      have : categoryShown o g = false := by
        simp only [categoryShown, e, Option.getD_some]
        cases l <;> simp_all
      rw [this]; exact skip_tail _
    · rename_i hs
      have : categoryShown o g = true := by
        simp only [categoryShown, e, Option.getD_some]
        cases l <;> simp_all
      rw [this]
      refine .check (.call _) (.check (archProp_asks o h.props) ?_)
      refine .after (plain_quiet (by decide) (by decide) (not_num h.props (by decide))) fun _ => ?_
      refine .after (plain_quiet (by decide) (by decide) (not_num h.props (by decide))) fun _ => ?_
      refine langs_tail ?_ (lang_str h.name)
      refine .after (plain_quiet (by decide) (by decide) (not_num h.props (by decide))) fun _ => ?_
      refine langs_tail ?_ (lang_str h.desc)
      refine .after (plain_quiet (by decide) (by decide) hn) fun _ => ?_
      exact list_tail (groupIds_quiet o _) end_tail

theorem env_tail {o : Options} {g : Env}
    (h : DictsInv lt g.props g.nameByLang g.descByLang) (hp : g.groupList.isSome = true)
    (hq : g.optionList.isSome = true)
    (hn : ∀ n, g.props.get b!"display_order" = some (.num n) → 0 ≤ n) :
    Tail (skipCode (envShown o g)) (skipOf (envShown o g) (g.props.get b!"id"))
      (xmlEnv o g) := by
  unfold xmlEnv
  cases e : g.groupList with
  | none => rw [e] at hp; cases hp
  | some l =>
    cases e' : g.optionList with
    | none => rw [e'] at hq; cases hq
    | some l' =>
      dsimp only
      split
      · rename_i hs
        have : envShown o g = false := by
          simp only [envShown, e, e', Option.getD_some]
          cases l <;> cases l' <;> simp_all
        rw [this]; exact skip_tail _
      · rename_i hs
        have : envShown o g = true := by
          simp only [envShown, e, e', Option.getD_some]
          cases l <;> cases l' <;> simp_all
        rw [this]
        refine .check (.call _) (.check (archProp_asks o h.props) ?_)
        refine .after (plain_quiet (by decide) (by decide) (not_num h.props (by decide))) fun _ => ?_
        refine .after (plain_quiet (by decide) (by decide) (not_num h.props (by decide))) fun _ => ?_
        refine langs_tail ?_ (lang_str h.name)
        refine .after (plain_quiet (by decide) (by decide) (not_num h.props (by decide))) fun _ => ?_
        refine langs_tail ?_ (lang_str h.desc)
        refine .after (plain_quiet (by decide) (by decide) hn) fun _ => ?_
        exact list_tail (groupIds_quiet o _) (list_tail (groupIds_quiet o _) end_tail)

theorem prefix_append {a b : List LogEntry} (h : a <+: b) (c : List LogEntry) : a <+: b ++ c :=
  h.trans (List.prefix_append b c)

theorem gen_left {a : List LogEntry} (h : HasXmlgen a) (b : List LogEntry) : HasXmlgen (a ++ b) := by
  obtain ⟨e, he, h⟩ := h; exact ⟨e, by simp [he], h⟩

theorem gen_right {b : List LogEntry} (h : HasXmlgen b) (a : List LogEntry) : HasXmlgen (a ++ b) := by
  obtain ⟨e, he, h⟩ := h; exact ⟨e, by simp [he], h⟩

theorem ended_after {a b : List (Call × Bool)} (ha : AllVital a) (hb : Ended b) : Ended (a ++ b) := by
  obtain ⟨pre, c, rest, rfl, h3, h4⟩ := hb
  exact ⟨a ++ pre, c, rest, by simp, vital_append ha h3, h4⟩

theorem entries_tail (write : α → M Int) (isShown : α → Bool) (id : α → Option PVal) (k : Int → M Int)
    (code : Int) (sk : List LogEntry) :
    ∀ (l : List α) (r : Int), -128 ≤ r ∧ r < 128 →
      (∀ x ∈ l, Tail (skipCode (isShown x)) (skipOf (isShown x) (id x)) (write x)) →
      Tail code sk (k (addRet r (l.filter fun x => !isShown x).length)) →
      Tail code (((l.filter fun x => !isShown x).map fun x => ⟨25, [id x]⟩) ++ sk)
        (xmlEntries write l r k)
  | [], r, _, _, hk => hk
  | x :: xs, r, hr, hw, hk => by
    unfold xmlEntries
    have e : ((x :: xs).filter fun x => !isShown x).map (fun x => (⟨25, [id x]⟩ : LogEntry)) ++ sk =
        skipOf (isShown x) (id x) ++ (((xs.filter fun x => !isShown x).map fun x => ⟨25, [id x]⟩) ++ sk)
        := by
      cases h : isShown x <;> simp [skipOf, h]
    rw [e]
    refine Acts.bind (hw x (by simp)) fun tmp n l t => ?_
    rcases t with ⟨t0, ⟨rfl, h2, h3, h5⟩ | ⟨h1, h2, h3⟩⟩
    · refine (acts_pure (-1 : Int)).mono fun r n' l' t' => ?_
      obtain ⟨rfl, rfl, rfl⟩ := t'
      rw [List.append_nil, List.append_nil]
      exact ⟨t0, .inl ⟨rfl, h2, h3, prefix_append h5 _⟩⟩
    · have hne : tmp ≠ -1 := by rw [h1]; unfold skipCode; split <;> decide
      rw [if_neg hne]
      have hr' : -128 ≤ schar (r + tmp) ∧ schar (r + tmp) < 128 := schar_range _
      have ih := entries_tail write isShown id k code sk xs (schar (r + tmp)) hr'
        (fun y hy => hw y (by simp [hy])) (by
          have : addRet (schar (r + tmp)) (xs.filter fun x => !isShown x).length =
              addRet r ((x :: xs).filter fun x => !isShown x).length := by
            rw [h1]
            cases h : isShown x with
            | true => simp only [skipCode, if_true, schar_zero hr]; simp [h]
            | false => simp [skipCode, h, addRet]
          rw [this]; exact hk)
      refine ih.mono fun r' n' l' t' => ⟨tells_append t0 t'.1, ?_⟩
      rw [skips_append, h3]
      rcases t'.2 with ⟨k1, k2, k3, k4⟩ | ⟨k1, k2, k3⟩
      · exact .inl ⟨k1, gen_right k2 _, ended_after h2 k3, (List.prefix_append_right_inj _).2 k4⟩
      · exact .inr ⟨k1, vital_append h2 k2, by rw [k3]⟩

theorem pairs_tail {tag key value : Bytes} {k : M Int} {code : Int} {sk : List LogEntry}
    (h1 : ∀ v, Vital (.attribute key v) = false) (h2 : ∀ v, Told (.attribute key v) = false)
    (h3 : ∀ v, Vital (.attribute value v) = false) (h4 : ∀ v, Told (.attribute value v) = false)
    (hk : Tail code sk k) : ∀ its : List (Bytes × Bytes),
    Tail code sk (xmlPairs tag key value (its.map fun e => (e.1, .ok e.2)) k)
  | [] => hk
  | e :: es => by
    simp only [List.map_cons, xmlPairs]
    refine .check (.call _) (.after (.call (h1 _) (h2 _)) fun _ => .after (.text rfl) fun str =>
      .after (.call (h3 _) (h4 _)) fun _ => .check (.call _) ?_)
    exact pairs_tail h1 h2 h3 h4 hk es

theorem block_tail {block tag key value : Bytes} {len : Int} {items : List (Bytes × Res Bytes)}
    {its : List (Bytes × Bytes)} (hi : items = its.map fun e => (e.1, .ok e.2)) {k : M Int}
    {code : Int} {sk : List LogEntry}
    (h1 : ∀ v, Vital (.attribute key v) = false) (h2 : ∀ v, Told (.attribute key v) = false)
    (h3 : ∀ v, Vital (.attribute value v) = false) (h4 : ∀ v, Told (.attribute value v) = false)
    (hk : Tail code sk k) : Tail code sk (xmlBlock block tag key value len items k) := by
  unfold xmlBlock
  subst hi
  split
  · exact .check (.call _) (pairs_tail h1 h2 h3 h4 (.check (.call _) hk) its)
  · exact hk

theorem tail_eq {m : M α} {f : α → M Int} {a : α} (h : ∀ s : St, m s = .ok (a, s)) {code : Int}
    {sk : List LogEntry} (hf : Tail code sk (f a)) : Tail code sk (m >>= f) :=
  acts_congr (fun s => bind_ok (h s)) hf

theorem doc_tail {o : Options} {df : Defaults} {d : Doc} (hd : ObjsInv lt d.objects)
    (hdt : DoctypeSet d) (hw : Writable (content d)) :
    Tail (addRet 0 (leftOut o (content d)).length) ((leftOut o (content d)).map fun id => ⟨25, [id]⟩)
      (xmlDoc lt o df d) := by
  obtain ⟨n, hn⟩ := Option.isSome_iff_exists.1 hdt.name
  obtain ⟨p, hp⟩ := Option.isSome_iff_exists.1 hdt.pubid
  obtain ⟨y, hy⟩ := Option.isSome_iff_exists.1 hdt.sysid
  obtain ⟨xg, xc, xe, xl, xb, xw⟩ := contents_built hd
  obtain ⟨d1, g1, i1, c1⟩ := getPart_ok groupsAt hd
  obtain ⟨d2, g2, i2, c2⟩ := getPart_ok categoriesAt i1
  obtain ⟨d3, g3, i3, c3⟩ := getPart_ok environmentsAt i2
  obtain ⟨d4, g4, i4, c4⟩ := getPart_ok langpacksAt i3
  obtain ⟨d5, g5, i5, c5⟩ := getPart_ok blacklistAt i4
  obtain ⟨d6, g6, i6, c6⟩ := getPart_ok whiteoutAt i5
  rw [c1] at g2 c2; rw [c2] at g3 c3; rw [c3] at g4 c4; rw [c4] at g5 c5; rw [c5] at g6
  unfold xmlDoc
  rw [hn, hp, hy]
  refine tail_eq (fun s => rfl) (tail_eq (fun s => rfl) (tail_eq (fun s => rfl) ?_))
  have key : Tail (addRet 0 (leftOut o (content d)).length)
      ((leftOut o (content d)).map fun id => ⟨25, [id]⟩) (do
        let ret ← call (.startElement b!"comps")
        check ret do
        let (groups, d) ← getPart lt groupsSlot d
        xmlEntries (xmlGroup o df) groups 0 fun ret => do
        let (cats, d) ← getPart lt categoriesSlot d
        xmlEntries (xmlCategory o) cats ret fun ret => do
        let (envs, d) ← getPart lt environmentsSlot d
        xmlEntries (xmlEnv o) envs ret fun ret => do
        let (packs, d) ← getPart lt langpacksSlot d
        xmlBlock b!"langpacks" b!"match" b!"name" b!"install" packs.len
          (packs.pairs.map fun e => (e.1, valText e.2)) do
        let (black, d) ← getPart lt blacklistSlot d
        xmlBlock b!"blacklist" b!"package" b!"name" b!"arch" black.len (mItems black) do
        let (white, _) ← getPart lt whiteoutSlot d
        xmlBlock b!"whiteout" b!"ignoredep" b!"requires" b!"package" white.len (mItems white) do
        let ok ← call .endElement
        check ok do
        return ret) := by
    refine .check (.call _) (tail_eq g1 ?_)
    have hr : ∀ n, -128 ≤ addRet 0 n ∧ addRet 0 n < 128 := fun n => addRet_range (by decide) n
    have el : (leftOut o (content d)).map (fun id => (⟨25, [id]⟩ : LogEntry)) =
        (((content d).groups.filter fun x => !groupShown o x).map fun x => ⟨25, [x.props.get b!"id"]⟩) ++
        ((((content d).categories.filter fun x => !categoryShown o x).map fun x =>
            ⟨25, [x.props.get b!"id"]⟩) ++
        ((((content d).environments.filter fun x => !envShown o x).map fun x =>
            ⟨25, [x.props.get b!"id"]⟩) ++ [])) := by
      simp [leftOut, Function.comp_def]
    rw [el]
    refine entries_tail (xmlGroup o df) (groupShown o) (fun x => x.props.get b!"id") _ _ _ _ _
      (by decide) (fun x hx => group_tail (groupBuilt_inv (xg x hx)) (hw.groups x hx).1
        (hw.groups x hx).2) (tail_eq g2 ?_)
    refine entries_tail (xmlCategory o) (categoryShown o) (fun x => x.props.get b!"id") _ _ _ _ _
      (hr _) (fun x hx => category_tail (categoryBuilt_inv (xc x hx)) (hw.categories x hx).1
        (hw.categories x hx).2) (tail_eq g3 ?_)
    refine entries_tail (xmlEnv o) (envShown o) (fun x => x.props.get b!"id") _ _ _ _ _
      (by rw [addRet_add]; exact hr _) (fun x hx => env_tail (envBuilt_inv (xe x hx))
        (hw.environments x hx).1 (hw.environments x hx).2.1 (hw.environments x hx).2.2) (tail_eq g4 ?_)
    refine block_tail (packItems_built xl) (fun _ => rfl) (fun _ => rfl) (fun _ => rfl) (fun _ => rfl)
      (tail_eq g5 ?_)
    refine block_tail (mItems_eq _) (fun _ => rfl) (fun _ => rfl) (fun _ => rfl) (fun _ => rfl)
      (tail_eq g6 ?_)
    refine block_tail (mItems_eq _) (fun _ => rfl) (fun _ => rfl) (fun _ => rfl) (fun _ => rfl)
      (.check (.call _) ?_)
    have := Tail.pure (addRet 0 (leftOut o (content d)).length)
    simpa [leftOut, addRet_add, Nat.add_assoc] using this
  refine Acts.bind (acts_call _) fun ok n1 l1 t1 => ?_
  obtain ⟨rfl, rfl⟩ := t1
  refine Acts.bind (acts_call _) fun ok' n2 l2 t2 => ?_
  obtain ⟨rfl, rfl⟩ := t2
  cases ok with
  | true =>
    have hv : AllVital ([(Call.startDTD n.val p.val y.val, true)] ++ [(.endDTD, ok')]) :=
      vital_append (vital_true _) (vital_one rfl)
    refine key.mono fun r n' l' t' => ?_
    rw [← List.append_assoc]
    refine ⟨tells_append (l := []) (tells_append (m := []) (tells_true _) (tells_one rfl)) t'.1, ?_⟩
    rcases t'.2 with ⟨k1, k2, k3, k4⟩ | ⟨k1, k2, k3⟩
    · exact .inl ⟨k1, k2, ended_after hv k3, k4⟩
    · exact .inr ⟨k1, vital_append hv k2, k3⟩
  | false =>
    show Acts (logError 20 [] >>= fun _ => Pure.pure (-1 : Int)) _
    refine Acts.bind (acts_log 20 []) fun _ n' l' t' => ?_
    obtain ⟨rfl, rfl⟩ := t'
    refine (acts_pure (-1 : Int)).mono fun r n' l' t' => ?_
    obtain ⟨rfl, rfl, rfl⟩ := t'
    refine ⟨tells_gen xmlgen_one, .inl ⟨rfl, xmlgen_one, ⟨[], _, [(.endDTD, ok')], rfl, nofun, ?_⟩,
      List.nil_prefix⟩⟩
    intro x hx
    rw [List.mem_singleton.1 hx]; exact .inl rfl

/-- `logIf` logs at most one message, and does so when told. -/
theorem acts_logIf (b : Bool) :
    Acts (logIf b) fun _ n l => n = [] ∧ skips l = [] ∧ (b = true → HasXmlgen l) := by
  cases b with
  | false => exact (acts_pure ()).mono fun _ _ _ h => ⟨h.2.1, by rw [h.2.2]; rfl, nofun⟩
  | true =>
    refine (acts_log 20 []).mono fun _ _ _ h => ⟨h.1, by rw [h.2]; rfl, fun _ => ?_⟩
    rw [h.2]; exact xmlgen_one

theorem startXml_acts (d : Doc) :
    Acts (startXml d) fun ok n l => ∃ e, n = [(.startDocument e, ok)] ∧ l = [] := by
  have key : ∀ e : Bytes, Acts (call (.startDocument e)) fun ok n l =>
      ∃ e, n = [(.startDocument e, ok)] ∧ l = [] := fun e =>
    (acts_call _).mono fun _ _ _ h => ⟨e, h⟩
  unfold startXml
  cases d.encoding with
  | none => exact acts_congr (fun s => bind_ok (a := b!"UTF-8") (s' := s) rfl) (key _)
  | some e =>
    exact acts_congr (fun s => bind_ok (a := textOf (some e)) (s' := s)
      (by simp only [xmlEncoding, strText_eq]; rfl)) (key _)

theorem tells_logged {c : Call} {ok : Bool} {l : List LogEntry} (h : (!ok) = true → HasXmlgen l) :
    TellsAll [(c, ok)] l := by
  rintro ⟨x, hx, h1, h2⟩
  rw [List.mem_singleton.1 hx] at h1
  simp only at h1
  exact h (by rw [h1]; rfl)

theorem ended_before {a b : List (Call × Bool)} (ha : Ended a)
    (hb : ∀ x ∈ b, x.1 = .endDTD ∨ x.1 = .endDocument) : Ended (a ++ b) := by
  obtain ⟨pre, c, rest, rfl, h3, h4⟩ := ha
  refine ⟨pre, c, rest ++ b, by simp, h3, fun x hx => ?_⟩
  rcases List.mem_append.1 hx with h | h
  · exact h4 x h
  · exact hb x h

theorem outcome_wrap {code r : Int} {sk : List LogEntry} {e : Bytes} {ok1 ok2 : Bool}
    {n : List (Call × Bool)} {l1 l l2 : List LogEntry} (h1 : skips l1 = [])
    (h1' : (!ok1) = true → HasXmlgen l1) (h2 : skips l2 = []) (h2' : (!ok2) = true → HasXmlgen l2)
    (h : TellsAll n l ∧ ((r = -1 ∧ HasXmlgen l ∧ Ended n ∧ skips l <+: sk) ∨
      (r = code ∧ AllVital n ∧ skips l = sk))) :
    TellsAll ([(Call.startDocument e, ok1)] ++ (n ++ [(.endDocument, ok2)])) (l1 ++ (l ++ l2)) ∧
      ((r = -1 ∧ HasXmlgen (l1 ++ (l ++ l2)) ∧
          Ended ([(Call.startDocument e, ok1)] ++ (n ++ [(.endDocument, ok2)])) ∧
          skips (l1 ++ (l ++ l2)) <+: sk) ∨
        (r = code ∧ AllVital ([(Call.startDocument e, ok1)] ++ (n ++ [(.endDocument, ok2)])) ∧
          skips (l1 ++ (l ++ l2)) = sk)) := by
  refine ⟨tells_append (tells_logged h1') (tells_append h.1 (tells_logged h2')), ?_⟩
  have es : skips (l1 ++ (l ++ l2)) = skips l := by rw [skips_append, skips_append, h1, h2]; simp
  rw [es]
  rcases h.2 with ⟨k1, k2, k3, k4⟩ | ⟨k1, k2, k3⟩
  · refine .inl ⟨k1, gen_right (gen_left k2 _) _, ended_after (vital_one rfl) (ended_before k3 ?_), k4⟩
    intro x hx; rw [List.mem_singleton.1 hx]; exact .inr rfl
  · exact .inr ⟨k1, vital_append (vital_one rfl) (vital_append k2 (vital_one rfl)), k3⟩

theorem toFile_tail {o : Option Options} {df : Option Defaults} {d : Doc} (hd : ObjsInv lt d.objects)
    (hdt : DoctypeSet d) (hw : Writable (content d)) :
    Tail (addRet 0 (leftOut (o.getD .standard) (content d)).length)
      ((leftOut (o.getD .standard) (content d)).map fun id => ⟨25, [id]⟩) (toFile lt o df d) := by
  unfold toFile
  intro s hs
  rw [bind_ok (a := ()) (s' := s) (by rw [if_pos hs])]
  revert s
  change Acts _ _
  refine Acts.bind (startXml_acts d) fun ok1 n1 l1 t1 => ?_
  obtain ⟨e, rfl, rfl⟩ := t1
  refine Acts.bind (acts_logIf _) fun _ n2 l2 t2 => ?_
  obtain ⟨rfl, h2, h2'⟩ := t2
  refine Acts.bind (doc_tail (o := o.getD .standard) (df := df.getD .standard) hd hdt hw)
    fun r n3 l3 t3 => ?_
  refine Acts.bind (acts_call _) fun ok4 n4 l4 t4 => ?_
  obtain ⟨rfl, rfl⟩ := t4
  refine Acts.bind (acts_logIf _) fun _ n5 l5 t5 => ?_
  obtain ⟨rfl, h5, h5'⟩ := t5
  refine (acts_pure r).mono fun r' n6 l6 t6 => ?_
  obtain ⟨rfl, rfl, rfl⟩ := t6
  simpa using outcome_wrap (e := e) h2 h2' h5 h5' t3

/-- The text: as for the file; a result other than 0 is also logged. -/
theorem toStr_tail {o : Option Options} {df : Option Defaults} {d : Doc} (hd : ObjsInv lt d.objects)
    (hdt : DoctypeSet d) (hw : Writable (content d)) :
    Acts (toStr lt o df d) fun r n l => (r ≠ 0 → HasXmlgen l) ∧ TellsAll n l ∧
      ((r = -1 ∧ HasXmlgen l ∧ Ended n ∧
          skips l <+: (leftOut (o.getD .standard) (content d)).map fun id => ⟨25, [id]⟩) ∨
        (r = addRet 0 (leftOut (o.getD .standard) (content d)).length ∧ AllVital n ∧
          skips l = (leftOut (o.getD .standard) (content d)).map fun id => ⟨25, [id]⟩)) := by
  unfold toStr
  refine Acts.bind (startXml_acts d) fun ok1 n1 l1 t1 => ?_
  obtain ⟨e, rfl, rfl⟩ := t1
  refine Acts.bind (acts_logIf _) fun _ n2 l2 t2 => ?_
  obtain ⟨rfl, h2, h2'⟩ := t2
  refine Acts.bind (doc_tail (o := o.getD .standard) (df := df.getD .standard) hd hdt hw)
    fun r n3 l3 t3 => ?_
  refine Acts.bind (acts_logIf _) fun _ n4 l4 t4 => ?_
  obtain ⟨rfl, h4, h4'⟩ := t4
  refine Acts.bind (acts_logIf _) fun _ n5 l5 t5 => ?_
  obtain ⟨rfl, h5, h5'⟩ := t5
  refine Acts.bind (acts_call _) fun ok6 n6 l6 t6 => ?_
  obtain ⟨rfl, rfl⟩ := t6
  refine Acts.bind (acts_logIf _) fun _ n7 l7 t7 => ?_
  obtain ⟨rfl, h7, h7'⟩ := t7
  refine (acts_pure r).mono fun r' n8 l8 t8 => ?_
  obtain ⟨rfl, rfl, rfl⟩ := t8
  refine ⟨fun hr => ?_, ?_⟩
  · have := gen_left (h4' (by simpa using hr)) (l5 ++ l7)
    simpa using gen_right this (l2 ++ l3)
  · have e7 : skips (l4 ++ (l5 ++ l7)) = [] := by rw [skips_append, skips_append, h4, h5, h7]; rfl
    have := outcome_wrap (e := e) h2 h2' e7 (ok2 := ok6)
      (fun h => by simpa using gen_right (h7' h) (l4 ++ l5)) t3
    simpa using this

end Comps.Xml
