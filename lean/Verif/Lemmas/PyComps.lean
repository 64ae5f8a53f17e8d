import Verif.Spec.PyComps

/-!
# Reference counts of Python documents

`Inv st tw to`: the counters of `st` agree with the references held by variables, fields and Python
objects, where `tw` and `to` count the references that the running C function holds.
-/

namespace Comps.PyComps
open Comps Comps.Obj

/-! ## Counting -/

def one (x : Option Nat) (a : Nat) : Nat := if x = some a then 1 else 0

theorem one_none (a : Nat) : one none a = 0 := rfl
theorem one_self (a : Nat) : one (some a) a = 1 := by simp [one]
theorem one_ne {a b : Nat} (h : a ≠ b) : one (some a) b = 0 := by simp [one, h]

def secCount (f : Sec → Option Nat) (a : Nat) : Nat :=
  one (f .groups) a + one (f .categories) a + one (f .environments) a + one (f .langpacks) a +
    one (f .blacklist) a + one (f .whiteout) a

theorem secCount_upd (f : Sec → Option Nat) (s : Sec) (v : Option Nat) (a : Nat) :
    secCount (upd f s v) a + one (f s) a = secCount f a + one v a := by
  cases s <;> simp [secCount, upd] <;> omega

theorem secCount_none (a : Nat) : secCount (fun _ => none) a = 0 := rfl

theorem secCount_pos {f : Sec → Option Nat} {s : Sec} {a : Nat} (h : f s = some a) :
    0 < secCount f a := by
  have := secCount_upd f s none a
  rw [h, one_self, one_none] at this
  omega

def lcount : List (Option Nat) → Nat → Nat
  | [], _ => 0
  | x :: l, a => one x a + lcount l a

theorem lcount_secs (f : Sec → Option Nat) (a : Nat) : lcount (allSecs.map f) a = secCount f a := by
  simp [lcount, allSecs, secCount]
  omega

def ov {α : Type} (f : α → Nat → Nat) (x : Option α) (a : Nat) : Nat :=
  match x with
  | none => 0
  | some d => f d a

def hold {α : Type} (f : α → Nat → Nat) : List (Option α) → Nat → Nat
  | [], _ => 0
  | x :: l, a => ov f x a + hold f l a

theorem hold_append {α : Type} (f : α → Nat → Nat) (l m : List (Option α)) (a : Nat) :
    hold f (l ++ m) a = hold f l a + hold f m a := by
  induction l with
  | nil => simp [hold]
  | cons x l ih => simp [hold, ih]; omega

theorem hold_set {α : Type} (f : α → Nat → Nat) {l : List (Option α)} {c : Nat} {x : Option α}
    (h : l[c]? = some x) (y : Option α) (a : Nat) :
    hold f (l.set c y) a + ov f x a = hold f l a + ov f y a := by
  induction l generalizing c with
  | nil => simp at h
  | cons z l ih =>
    cases c with
    | zero => simp at h; subst h; simp [hold]; omega
    | succ c => simp at h; simp [hold]; have := ih h; omega

theorem hold_pos {α : Type} {f : α → Nat → Nat} {l : List (Option α)} {c : Nat} {d : α} {a : Nat}
    (h : l[c]? = some (some d)) (hp : 0 < f d a) : 0 < hold f l a := by
  have := hold_set f h none a
  simp only [ov] at this
  omega

theorem hold_zero {α : Type} {f : α → Nat → Nat} {l : List (Option α)} {a : Nat}
    (h : ∀ (c : Nat) (d : α), l[c]? = some (some d) → f d a = 0) : hold f l a = 0 := by
  induction l with
  | nil => rfl
  | cons x l ih =>
    have h1 : hold f l a = 0 := ih fun c d hc => h (c + 1) d (by simpa using hc)
    cases x with
    | none => simp [hold, ov, h1]
    | some d => simp [hold, ov, h1, h 0 d (by simp)]

/-- The references to a Python object. -/
def cntW (st : St) (w : Nat) : Nat :=
  hold (fun v w => one (some v) w) st.vars w + hold (fun d w => secCount d.cache w) st.docs w +
    st.lost.count w

/-- The references to an object of the C library. -/
def cntO (st : St) (a : Nat) : Nat :=
  hold (fun d a => secCount d.secs a) st.docs a +
    hold (fun (o : Wrap) a => one (some o.obj) a) st.wraps a

def refsW (st : St) (w : Nat) : Nat :=
  match st.wraps[w]? with
  | some (some o) => o.refs
  | _ => 0

def refsO (st : St) (a : Nat) : Nat :=
  match st.objs[a]? with
  | some (some o) => o.rc + 1
  | _ => 0

structure Inv (st : St) (tw to : Nat → Nat) : Prop where
  w : ∀ w, refsW st w = cntW st w + tw w
  o : ∀ a, refsO st a = cntO st a + to a
  pos : ∀ (w : Nat) (o : Wrap), st.wraps[w]? = some (some o) → 1 ≤ o.refs
  kw : ∀ (w : Nat) (o : Wrap) (b : Obj), st.wraps[w]? = some (some o) →
    st.objs[o.obj]? = some (some b) → kindOf b.val = some o.kind
  ks : ∀ (c : Nat) (d : PyDoc) (s : Sec) (a : Nat) (b : Obj), st.docs[c]? = some (some d) →
    d.secs s = some a → st.objs[a]? = some (some b) → kindOf b.val = some s.kind
  kc : ∀ (c : Nat) (d : PyDoc) (s : Sec) (w : Nat) (o : Wrap), st.docs[c]? = some (some d) →
    d.cache s = some w → st.wraps[w]? = some (some o) → o.kind = s.kind

theorem Inv.congr {st : St} {tw to tw' to' : Nat → Nat} (h : Inv st tw to)
    (h1 : ∀ w, tw w = tw' w) (h2 : ∀ a, to a = to' a) : Inv st tw' to' := by
  have e1 : tw = tw' := funext h1
  have e2 : to = to' := funext h2
  exact e1 ▸ e2 ▸ h

theorem inv_start : Inv start (fun _ => 0) (fun _ => 0) := by
  refine ⟨fun w => ?_, fun a => ?_, ?_, ?_, ?_, ?_⟩ <;> simp [start, refsW, refsO, cntW, cntO, hold]

/-- What an operation on counters leaves alone. -/
structure Keeps (st st' : St) : Prop where
  docs : st'.docs = st.docs
  vars : st'.vars = st.vars
  lost : st'.lost = st.lost
  lenW : st'.wraps.length = st.wraps.length
  lenO : st'.objs.length = st.objs.length
  wraps : ∀ (w : Nat) (o' : Wrap), st'.wraps[w]? = some (some o') →
    ∃ o, st.wraps[w]? = some (some o) ∧ o'.kind = o.kind ∧ o'.obj = o.obj
  objs : ∀ (a : Nat) (b' : Obj), st'.objs[a]? = some (some b') →
    ∃ b, st.objs[a]? = some (some b) ∧ b'.val = b.val

theorem Keeps.refl (st : St) : Keeps st st :=
  ⟨rfl, rfl, rfl, rfl, rfl, fun _ o h => ⟨o, h, rfl, rfl⟩, fun _ b h => ⟨b, h, rfl⟩⟩

theorem Keeps.trans {a b c : St} (h : Keeps a b) (k : Keeps b c) : Keeps a c := by
  refine ⟨k.docs.trans h.docs, k.vars.trans h.vars, k.lost.trans h.lost, k.lenW.trans h.lenW,
    k.lenO.trans h.lenO, fun w o ho => ?_, fun x y hy => ?_⟩
  · obtain ⟨o1, h1, e1, e2⟩ := k.wraps w o ho
    obtain ⟨o2, h2, e3, e4⟩ := h.wraps w o1 h1
    exact ⟨o2, h2, e1.trans e3, e2.trans e4⟩
  · obtain ⟨o1, h1, e1⟩ := k.objs x y hy
    obtain ⟨o2, h2, e2⟩ := h.objs x o1 h1
    exact ⟨o2, h2, e1.trans e2⟩

/-! ## Live objects -/

theorem live_obj {st : St} {a : Nat} (h : 0 < refsO st a) :
    ∃ b, st.objs[a]? = some (some b) := by
  unfold refsO at h
  split at h
  · next b hb => exact ⟨b, hb⟩
  · omega

theorem live_wrap {st : St} {w : Nat} (h : 0 < refsW st w) :
    ∃ o, st.wraps[w]? = some (some o) := by
  unfold refsW at h
  split at h
  · next b hb => exact ⟨b, hb⟩
  · omega

theorem refsO_eq {st : St} {a : Nat} {b : Obj} (h : st.objs[a]? = some (some b)) :
    refsO st a = b.rc + 1 := by simp [refsO, h]

theorem refsW_eq {st : St} {w : Nat} {o : Wrap} (h : st.wraps[w]? = some (some o)) :
    refsW st w = o.refs := by simp [refsW, h]

theorem loadObj_eq {st : St} {a : Nat} {b : Obj} (h : st.objs[a]? = some (some b)) :
    loadObj st a = .ok b := by simp [loadObj, h]

theorem loadWrap_eq {st : St} {w : Nat} {o : Wrap} (h : st.wraps[w]? = some (some o)) :
    loadWrap st w = .ok o := by simp [loadWrap, h]

theorem refsO_none {st : St} {a : Nat} (h : st.objs.length ≤ a) : refsO st a = 0 := by
  simp [refsO, List.getElem?_eq_none h]

theorem refsW_none {st : St} {w : Nat} (h : st.wraps.length ≤ w) : refsW st w = 0 := by
  simp [refsW, List.getElem?_eq_none h]

variable {st : St} {tw to : Nat → Nat}

theorem Inv.var_live (h : Inv st tw to) {v w : Nat} (hv : st.vars[v]? = some (some w)) :
    ∃ o, st.wraps[w]? = some (some o) := by
  refine live_wrap ?_
  rw [h.w w]
  have := hold_pos (f := fun v w => one (some v) w) (a := w) hv (by simp [one])
  unfold cntW
  omega

theorem Inv.cache_live (h : Inv st tw to) {c w : Nat} {d : PyDoc} {s : Sec}
    (hd : st.docs[c]? = some (some d)) (hw : d.cache s = some w) :
    ∃ o, st.wraps[w]? = some (some o) := by
  refine live_wrap ?_
  rw [h.w w]
  have := hold_pos (f := fun (d : PyDoc) w => secCount d.cache w) (a := w) hd (secCount_pos hw)
  unfold cntW
  omega

theorem Inv.sec_live (h : Inv st tw to) {c a : Nat} {d : PyDoc} {s : Sec}
    (hd : st.docs[c]? = some (some d)) (hw : d.secs s = some a) :
    ∃ b, st.objs[a]? = some (some b) := by
  refine live_obj ?_
  rw [h.o a]
  have := hold_pos (f := fun (d : PyDoc) w => secCount d.secs w) (a := a) hd (secCount_pos hw)
  unfold cntO
  omega

theorem Inv.obj_live (h : Inv st tw to) {w : Nat} {o : Wrap} (hw : st.wraps[w]? = some (some o)) :
    ∃ b, st.objs[o.obj]? = some (some b) := by
  refine live_obj ?_
  rw [h.o o.obj]
  have := hold_pos (f := fun (o : Wrap) a => one (some o.obj) a) (a := o.obj) hw (by simp [one])
  unfold cntO
  omega

/-! ## Counting up and down -/

theorem getElem?_set_cases {α : Type} {l : List α} {i j : Nat} {x y : α}
    (h : (l.set i x)[j]? = some y) : (i = j ∧ x = y) ∨ (i ≠ j ∧ l[j]? = some y) := by
  rw [List.getElem?_set] at h
  split at h
  · next e =>
    split at h
    · exact .inl ⟨e, by simpa using h⟩
    · simp at h
  · next e => exact .inr ⟨e, h⟩

/-- Changing the counter of one object. -/
theorem Inv.setObj (h : Inv st tw to) {a : Nat} {b : Obj} (hb : st.objs[a]? = some (some b))
    {x : Option Obj} (hx : ∀ b', x = some b' → b'.val = b.val) {to' : Nat → Nat}
    (ha : (match x with | some b' => b'.rc + 1 | none => 0) = cntO st a + to' a)
    (hn : ∀ a', a' ≠ a → to' a' = to a') :
    Inv { st with objs := st.objs.set a x } tw to' ∧ Keeps st { st with objs := st.objs.set a x } := by
  have hl : a < st.objs.length := (List.getElem?_eq_some_iff.1 hb).1
  have hk : Keeps st { st with objs := st.objs.set a x } := by
    refine ⟨rfl, rfl, rfl, rfl, by simp, fun w o h => ⟨o, h, rfl, rfl⟩, fun a' b' h' => ?_⟩
    rcases getElem?_set_cases h' with ⟨rfl, e⟩ | ⟨_, e⟩
    · exact ⟨b, hb, hx b' e⟩
    · exact ⟨b', e, rfl⟩
  refine ⟨⟨h.w, fun a' => ?_, h.pos, ?_, ?_, h.kc⟩, hk⟩
  · show refsO _ a' = cntO st a' + to' a'
    by_cases e : a' = a
    · subst e
      rw [← ha]
      simp only [refsO, List.getElem?_set_self hl]
      cases x <;> rfl
    · rw [hn a' e, ← h.o a']
      simp only [refsO, List.getElem?_set_ne (Ne.symm e)]
  · intro w o b' hw hb'
    obtain ⟨b2, h2, e2⟩ := hk.objs o.obj b' hb'
    rw [e2]
    exact h.kw w o b2 hw h2
  · intro c d s a' b' hd hs hb'
    obtain ⟨b2, h2, e2⟩ := hk.objs a' b' hb'
    rw [e2]
    exact h.ks c d s a' b2 hd hs h2

theorem incObj_ok (h : Inv st tw to) {a : Nat} {b : Obj} (hb : st.objs[a]? = some (some b)) :
    ∃ st', incObj st a = .ok st' ∧ Inv st' tw (fun x => to x + one (some a) x) ∧ Keeps st st' := by
  have := h.setObj hb (x := some { b with rc := b.rc + 1 }) (to' := fun x => to x + one (some a) x)
    (by intro b' e; cases e; rfl)
    (by have := h.o a; rw [refsO_eq hb] at this; simp only [one_self]; omega)
    (by intro a' e; rw [one_ne (Ne.symm e)]; omega)
  exact ⟨_, by simp [incObj, loadObj_eq hb, bind, Except.bind, pure, Except.pure], this.1, this.2⟩

theorem decObj_ok {a : Nat} (h : Inv st tw (fun x => to x + one (some a) x)) :
    ∃ st', decObj st a = .ok st' ∧ Inv st' tw to ∧ Keeps st st' := by
  have h1 := h.o a
  simp only [one_self] at h1
  obtain ⟨b, hb⟩ := live_obj (st := st) (a := a) (by omega)
  rw [refsO_eq hb] at h1
  cases hr : b.rc with
  | zero =>
    have := h.setObj hb (x := none) (to' := to) (by simp) (by simp; omega)
      (by intro a' e; simp [one_ne (Ne.symm e)])
    exact ⟨_, by simp [decObj, loadObj_eq hb, bind, Except.bind, pure, Except.pure, hr], this.1, this.2⟩
  | succ n =>
    have := h.setObj hb (x := some { b with rc := n }) (to' := to)
      (by intro b' e; cases e; rfl) (by simp; omega) (by intro a' e; simp [one_ne (Ne.symm e)])
    exact ⟨_, by simp [decObj, loadObj_eq hb, bind, Except.bind, pure, Except.pure, hr], this.1, this.2⟩

theorem decObjs_ok (l : List (Option Nat)) : ∀ {st : St},
    Inv st tw (fun x => to x + lcount l x) →
    ∃ st', decObjs st l = .ok st' ∧ Inv st' tw to ∧ Keeps st st' := by
  induction l with
  | nil => intro st h; exact ⟨st, rfl, h.congr (fun _ => rfl) (fun a => by simp [lcount]), .refl st⟩
  | cons x l ih =>
    intro st h
    cases x with
    | none =>
      obtain ⟨st', h1, h2, h3⟩ := ih (h.congr (fun _ => rfl) (fun a => by simp [lcount, one_none]))
      exact ⟨st', by simpa [decObjs] using h1, h2, h3⟩
    | some a =>
      obtain ⟨st1, h1, h2, h3⟩ := decObj_ok (to := fun x => to x + lcount l x) (a := a)
        (h.congr (fun _ => rfl) (fun a => by simp [lcount]; omega))
      obtain ⟨st2, k1, k2, k3⟩ := ih h2
      exact ⟨st2, by simp [decObjs, h1, bind, Except.bind, k1], k2, h3.trans k3⟩

/-- Changing the counter of one Python object, or dropping it. -/
theorem Inv.setWrap (h : Inv st tw to) {w : Nat} {o : Wrap} (hw : st.wraps[w]? = some (some o))
    {x : Option Wrap} (hx : ∀ o', x = some o' → o'.kind = o.kind ∧ o'.obj = o.obj ∧ 1 ≤ o'.refs)
    {tw' to' : Nat → Nat}
    (ha : (match x with | some o' => o'.refs | none => 0) = cntW st w + tw' w)
    (hn : ∀ w', w' ≠ w → tw' w' = tw w')
    (ho : ∀ a, to' a = to a + (match x with | some _ => 0 | none => one (some o.obj) a)) :
    Inv { st with wraps := st.wraps.set w x } tw' to' ∧
      Keeps st { st with wraps := st.wraps.set w x } := by
  have hl : w < st.wraps.length := (List.getElem?_eq_some_iff.1 hw).1
  have hk : Keeps st { st with wraps := st.wraps.set w x } := by
    refine ⟨rfl, rfl, rfl, by simp, rfl, fun w' o' h' => ?_, fun a' b' h' => ⟨b', h', rfl⟩⟩
    rcases getElem?_set_cases h' with ⟨rfl, e⟩ | ⟨_, e⟩
    · exact ⟨o, hw, (hx o' e).1, (hx o' e).2.1⟩
    · exact ⟨o', e, rfl, rfl⟩
  refine ⟨⟨fun w' => ?_, fun a => ?_, ?_, ?_, h.ks, ?_⟩, hk⟩
  · show refsW _ w' = cntW st w' + tw' w'
    by_cases e : w' = w
    · subst e
      rw [← ha]
      simp only [refsW, List.getElem?_set_self hl]
      cases x <;> rfl
    · rw [hn w' e, ← h.w w']
      simp only [refsW, List.getElem?_set_ne (Ne.symm e)]
  · have h1 := h.o a
    have h2 := hold_set (fun (o : Wrap) a => one (some o.obj) a) hw x a
    rw [ho a]
    show refsO st a = _
    simp only [cntO] at *
    rw [h1]
    cases x with
    | none => simp only [ov] at h2 ⊢; omega
    | some o' => simp only [ov, (hx o' rfl).2.1] at h2 ⊢; omega
  · intro w' o' h'
    rcases getElem?_set_cases h' with ⟨rfl, e⟩ | ⟨_, e⟩
    · exact (hx o' e).2.2
    · exact h.pos w' o' e
  · intro w' o' b h' hb
    obtain ⟨o2, h2, e1, e2⟩ := hk.wraps w' o' h'
    rw [e1]
    exact h.kw w' o2 b h2 (e2 ▸ hb)
  · intro c d s w' o' hd hs h'
    obtain ⟨o2, h2, e1, e2⟩ := hk.wraps w' o' h'
    rw [e1]
    exact h.kc c d s w' o2 hd hs h2

theorem incWrap_ok (h : Inv st tw to) {w : Nat} {o : Wrap} (hw : st.wraps[w]? = some (some o)) :
    ∃ st', incWrap st w = .ok st' ∧ Inv st' (fun x => tw x + one (some w) x) to ∧ Keeps st st' := by
  have := h.setWrap hw (x := some { o with refs := o.refs + 1 })
    (tw' := fun x => tw x + one (some w) x) (to' := to)
    (by intro b' e; cases e; exact ⟨rfl, rfl, by simp⟩)
    (by have := h.w w; rw [refsW_eq hw] at this; simp only [one_self]; omega)
    (by intro a' e; rw [one_ne (Ne.symm e)]; omega) (by simp)
  exact ⟨_, by simp [incWrap, loadWrap_eq hw, bind, Except.bind, pure, Except.pure], this.1, this.2⟩

theorem decWrap_ok {w : Nat} (h : Inv st (fun x => tw x + one (some w) x) to) :
    ∃ st', decWrap st w = .ok st' ∧ Inv st' tw to ∧ Keeps st st' := by
  have h1 := h.w w
  simp only [one_self] at h1
  obtain ⟨o, hw⟩ := live_wrap (st := st) (w := w) (by omega)
  rw [refsW_eq hw] at h1
  by_cases hr : o.refs ≤ 1
  · have := h.setWrap hw (x := none) (tw' := tw) (to' := fun x => to x + one (some o.obj) x)
      (by simp) (by simp; omega) (by intro a' e; simp [one_ne (Ne.symm e)]) (by simp)
    obtain ⟨st', k1, k2, k3⟩ := decObj_ok this.1
    exact ⟨st', by simp [decWrap, loadWrap_eq hw, bind, Except.bind, hr, k1], k2, this.2.trans k3⟩
  · have := h.setWrap hw (x := some { o with refs := o.refs - 1 }) (tw' := tw) (to' := to)
      (by intro b' e; cases e; exact ⟨rfl, rfl, by simp; omega⟩) (by simp; omega)
      (by intro a' e; simp [one_ne (Ne.symm e)]) (by simp)
    exact ⟨_, by simp [decWrap, loadWrap_eq hw, bind, Except.bind, pure, Except.pure, hr], this.1, this.2⟩

theorem decWraps_ok (l : List (Option Nat)) : ∀ {st : St},
    Inv st (fun x => tw x + lcount l x) to →
    ∃ st', decWraps st l = .ok st' ∧ Inv st' tw to ∧ Keeps st st' := by
  induction l with
  | nil => intro st h; exact ⟨st, rfl, h.congr (fun a => by simp [lcount]) (fun _ => rfl), .refl st⟩
  | cons x l ih =>
    intro st h
    cases x with
    | none =>
      obtain ⟨st', h1, h2, h3⟩ := ih (h.congr (fun a => by simp [lcount, one_none]) (fun _ => rfl))
      exact ⟨st', by simpa [decWraps] using h1, h2, h3⟩
    | some a =>
      obtain ⟨st1, h1, h2, h3⟩ := decWrap_ok (tw := fun x => tw x + lcount l x) (w := a)
        (h.congr (fun a => by simp [lcount]; omega) (fun _ => rfl))
      obtain ⟨st2, k1, k2, k3⟩ := ih h2
      exact ⟨st2, by simp [decWraps, h1, bind, Except.bind, k1], k2, h3.trans k3⟩

/-! ## New objects, fields and variables -/

theorem newObj_inv (h : Inv st tw to) (v : DocVal) :
    Inv (newObj st v).2 tw (fun x => to x + one (some st.objs.length) x) := by
  have hz : cntO st st.objs.length + to st.objs.length = 0 := by
    rw [← h.o, refsO_none (Nat.le_refl _)]
  refine ⟨h.w, fun a => ?_, h.pos, ?_, ?_, h.kc⟩
  · show refsO (newObj st v).2 a = cntO st a + _
    by_cases e : a = st.objs.length
    · subst e
      simp only [one_self]
      have : refsO (newObj st v).2 st.objs.length = 1 := by simp [newObj, refsO]
      omega
    · rw [one_ne (Ne.symm e), Nat.add_zero, ← h.o a]
      simp only [newObj, refsO]
      by_cases hl : a < st.objs.length
      · rw [List.getElem?_append_left hl]
      · rw [List.getElem?_eq_none (by simp; omega), List.getElem?_eq_none (by omega)]
  · intro w o b hw hb
    by_cases e : o.obj < st.objs.length
    · exact h.kw w o b hw (by simpa [newObj, List.getElem?_append_left e] using hb)
    · obtain ⟨b', hb'⟩ := h.obj_live hw
      have := (List.getElem?_eq_some_iff.1 hb').1
      omega
  · intro c d s a b hd hs hb
    by_cases e : a < st.objs.length
    · exact h.ks c d s a b hd hs (by simpa [newObj, List.getElem?_append_left e] using hb)
    · obtain ⟨b', hb'⟩ := h.sec_live hd hs
      have := (List.getElem?_eq_some_iff.1 hb').1
      omega

theorem newObj_get (st : St) (v : DocVal) :
    (newObj st v).2.objs[st.objs.length]? = some (some ⟨0, v⟩) := by simp [newObj]

theorem newWrap_inv {a : Nat} (h : Inv st tw (fun x => to x + one (some a) x)) {k : Kind}
    (hk : ∀ b : Obj, st.objs[a]? = some (some b) → kindOf b.val = some k) :
    Inv (newWrap st k a).2 (fun x => tw x + one (some st.wraps.length) x) to := by
  have hz : cntW st st.wraps.length + tw st.wraps.length = 0 := by
    rw [← h.w, refsW_none (Nat.le_refl _)]
  have hget : ∀ (w : Nat) (o : Wrap), (newWrap st k a).2.wraps[w]? = some (some o) →
      (w = st.wraps.length ∧ o = ⟨1, k, a⟩) ∨ st.wraps[w]? = some (some o) := by
    intro w o hw
    simp only [newWrap] at hw
    by_cases hl : w < st.wraps.length
    · exact .inr (by simpa [List.getElem?_append_left hl] using hw)
    · by_cases e : w = st.wraps.length
      · subst e
        simp at hw
        exact .inl ⟨rfl, hw.symm⟩
      · rw [List.getElem?_eq_none (by simp; omega)] at hw
        simp at hw
  refine ⟨fun w => ?_, fun x => ?_, ?_, ?_, h.ks, ?_⟩
  · show refsW (newWrap st k a).2 w = cntW st w + _
    by_cases e : w = st.wraps.length
    · subst e
      simp only [one_self]
      have : refsW (newWrap st k a).2 st.wraps.length = 1 := by simp [newWrap, refsW]
      omega
    · rw [one_ne (Ne.symm e), Nat.add_zero, ← h.w w]
      simp only [newWrap, refsW]
      by_cases hl : w < st.wraps.length
      · rw [List.getElem?_append_left hl]
      · rw [List.getElem?_eq_none (by simp; omega), List.getElem?_eq_none (by omega)]
  · show refsO st x = _
    rw [h.o x]
    simp only [cntO, newWrap, hold_append, hold, ov]
    omega
  · intro w o hw
    rcases hget w o hw with ⟨_, rfl⟩ | e
    · exact Nat.le_refl 1
    · exact h.pos w o e
  · intro w o b hw hb
    rcases hget w o hw with ⟨_, rfl⟩ | e
    · exact hk b hb
    · exact h.kw w o b e hb
  · intro c d s w o hd hs hw
    rcases hget w o hw with ⟨rfl, _⟩ | e
    · obtain ⟨o', ho'⟩ := h.cache_live hd hs
      have := (List.getElem?_eq_some_iff.1 ho').1
      omega
    · exact h.kc c d s w o hd hs e

theorem putDoc_inv {tw' to' : Nat → Nat} (h : Inv st tw to) {c : Nat} {d d' : PyDoc}
    (hd : st.docs[c]? = some (some d))
    (h1 : ∀ w, tw w + secCount d.cache w = tw' w + secCount d'.cache w)
    (h2 : ∀ a, to a + secCount d.secs a = to' a + secCount d'.secs a)
    (k1 : ∀ (s : Sec) (a : Nat) (b : Obj), d'.secs s = some a → st.objs[a]? = some (some b) →
      kindOf b.val = some s.kind)
    (k2 : ∀ (s : Sec) (w : Nat) (o : Wrap), d'.cache s = some w → st.wraps[w]? = some (some o) →
      o.kind = s.kind) : Inv (putDoc st c d') tw' to' := by
  refine ⟨fun w => ?_, fun a => ?_, h.pos, h.kw, ?_, ?_⟩
  · show refsW st w = _
    have e := hold_set (fun (d : PyDoc) w => secCount d.cache w) hd (some d') w
    have := h.w w
    have := h1 w
    simp only [cntW, putDoc, ov] at *
    omega
  · show refsO st a = _
    have e := hold_set (fun (d : PyDoc) w => secCount d.secs w) hd (some d') a
    have := h.o a
    have := h2 a
    simp only [cntO, putDoc, ov] at *
    omega
  · intro c' d2 s a b hc hs hb
    rcases getElem?_set_cases hc with ⟨rfl, e⟩ | ⟨_, e⟩
    · cases e
      exact k1 s a b hs hb
    · exact h.ks c' d2 s a b e hs hb
  · intro c' d2 s w o hc hs hw
    rcases getElem?_set_cases hc with ⟨rfl, e⟩ | ⟨_, e⟩
    · cases e
      exact k2 s w o hs hw
    · exact h.kc c' d2 s w o e hs hw

theorem putDoc_get {c : Nat} {d d' : PyDoc} (hd : st.docs[c]? = some (some d)) :
    (putDoc st c d').docs[c]? = some (some d') := by
  have hl := (List.getElem?_eq_some_iff.1 hd).1
  simp [putDoc, List.getElem?_set_self hl]

theorem pushVar_inv {w : Nat} (h : Inv st (fun x => tw x + one (some w) x) to) :
    Inv (pushVar st w) tw to := by
  refine ⟨fun x => ?_, h.o, h.pos, h.kw, h.ks, h.kc⟩
  show refsW st x = _
  rw [h.w x]
  simp only [cntW, pushVar, hold_append, hold, ov]
  omega

theorem dropVar_inv {v w : Nat} (h : Inv st tw to) (hv : st.vars[v]? = some (some w)) :
    Inv { st with vars := st.vars.set v none } (fun x => tw x + one (some w) x) to := by
  refine ⟨fun x => ?_, h.o, h.pos, h.kw, h.ks, h.kc⟩
  show refsW st x = _
  have e := hold_set (fun v w => one (some v) w) hv none x
  rw [h.w x]
  simp only [cntW, ov] at *
  omega

theorem addDoc_inv {d : PyDoc} (h : Inv st tw (fun x => to x + secCount d.secs x))
    (hc : d.cache = fun _ => none)
    (k1 : ∀ (s : Sec) (a : Nat) (b : Obj), d.secs s = some a → st.objs[a]? = some (some b) →
      kindOf b.val = some s.kind) : Inv { st with docs := st.docs ++ [some d] } tw to := by
  have hget : ∀ (c : Nat) (d' : PyDoc), (st.docs ++ [some d])[c]? = some (some d') →
      d' = d ∨ st.docs[c]? = some (some d') := by
    intro c d' hw
    by_cases hl : c < st.docs.length
    · exact .inr (by simpa [List.getElem?_append_left hl] using hw)
    · by_cases e : c = st.docs.length
      · subst e
        simp at hw
        exact .inl hw.symm
      · rw [List.getElem?_eq_none (by simp; omega)] at hw
        simp at hw
  refine ⟨fun x => ?_, fun x => ?_, h.pos, h.kw, ?_, ?_⟩
  · show refsW st x = _
    rw [h.w x]
    simp only [cntW, hold_append, hold, ov, hc, secCount_none]
    omega
  · show refsO st x = _
    rw [h.o x]
    simp only [cntO, hold_append, hold, ov]
    omega
  · intro c d' s a b hd hs hb
    rcases hget c d' hd with rfl | e
    · exact k1 s a b hs hb
    · exact h.ks c d' s a b e hs hb
  · intro c d' s w o hd hs hw
    rcases hget c d' hd with rfl | e
    · rw [hc] at hs
      simp at hs
    · exact h.kc c d' s w o e hs hw

end Comps.PyComps
