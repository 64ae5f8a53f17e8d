import Verif.Lemmas.LogOwn

/-!
# C163: who owns the arguments of log entries
-/

namespace Comps.Props
open Comps Comps.Spec Comps.LogOwn
variable {α : Type}

/-- A client that uses and gives away only what it holds meets no fault, whatever it does and however
often it clears the log.  The log shows, for every entry in order, the values the arguments had when
they were copied and the values they have now when they were taken.  Every object of the client has as
many owners as the client holds references to it and entries took it; so it is destroyed exactly when
neither holds it. -/
theorem C163_owned (os : List (Op α)) (h : LView.new.Legals os) :
    ∃ s, run start os = .ok s ∧
      showLog s.mem s.entries = .ok (LView.new.after os).shown ∧
      s.ptr.length = (LView.new.after os).objs.length ∧
      ∀ k p, s.ptr[k]? = some p →
        ownersAt s.mem p = (LView.new.after os).mine.count k + (LView.new.after os).given k := by
  obtain ⟨s, h1, h2⟩ := run_ok start_inv h
  refine ⟨s, h1, showLog_ok h2, h2.len, fun k p hk => ?_⟩
  rw [h2.owners, occ_given h2 hk, held_count h2 hk]

/-- Once the log is cleared (or destroyed) nothing is left of the copies: an object that is still
there is one the client made and holds, and it has exactly as many owners as the client holds
references. -/
theorem C163_released (os : List (Op α)) (h : LView.new.Legals os) :
    ∃ s, run start (os ++ [.clear]) = .ok s ∧ s.entries = [] ∧
      (∀ p, 0 < ownersAt s.mem p → ∃ k, k ∈ (LView.new.after os).mine ∧ s.ptr[k]? = some p) ∧
      (∀ k p, s.ptr[k]? = some p → ownersAt s.mem p = (LView.new.after os).mine.count k) ∧
      ((LView.new.after os).mine = [] → ∀ p, ownersAt s.mem p = 0) := by
  have hl : ∀ {os : List (Op α)} {a : LView α}, a.Legals os → a.Legals (os ++ [.clear]) := by
    intro os
    induction os with
    | nil => intro a _; exact ⟨trivial, trivial⟩
    | cons o os ih => intro a h; exact ⟨h.1, ih h.2⟩
  obtain ⟨s, h1, h2⟩ := run_ok start_inv (hl h)
  have ha : LView.new.after (os ++ [.clear]) = { LView.new.after os with log := [] } := by
    simp [LView.after, List.foldl_append, LView.next]
  rw [ha] at h2
  have he : s.entries = [] := by
    have := h2.log
    cases hs : s.entries with
    | nil => rfl
    | cons e es => rw [hs] at this; exact this.elim
  have ho : ∀ p, ownersAt s.mem p = heldAt s.ptr (LView.new.after os).mine p := by
    intro p
    have := h2.owners p
    rw [he] at this
    exact this
  refine ⟨s, h1, he, fun p hp => ?_, fun k p hk => ?_, fun hm p => ?_⟩
  · rw [ho] at hp
    obtain ⟨k, hk, hkp⟩ := List.mem_filterMap.1 (List.count_pos_iff.1 hp)
    exact ⟨k, hk, hkp⟩
  · rw [ho]
    exact held_count h2 hk
  · rw [ho, hm]; rfl

/-- An argument that was copied does not change any more: whatever the client then does short of
clearing the log, the entry stays where it
is and shows the values of the moment of the call. -/
theorem C163_copied (os more : List (Op α)) (kd : Kind) (c : Nat) (args : List (Option Nat))
    (hl : LView.new.Legals (os ++ .copying kd c args :: more)) (hc : Op.clear ∉ more) :
    ∃ s, run start (os ++ .copying kd c args :: more) = .ok s ∧ ∃ before after,
      showLog s.mem s.entries = .ok (before ++
        (kd, c, args.map fun x => x.bind fun k => (LView.new.after os).objs[k]?) :: after) ∧
      before.length = (LView.new.after os).log.length := by
  obtain ⟨s, h1, h2⟩ := run_ok start_inv hl
  refine ⟨s, h1, ?_⟩
  rw [showLog_ok h2]
  have hm : ∀ {more : List (Op α)} {a : LView α} {x : List (Kind × Nat × List (LArg α))}, Op.clear ∉ more →
      (∃ y, a.log = x ++ y) → ∃ y, (a.after more).log = x ++ y := by
    intro more
    induction more with
    | nil => intro a x _ h; exact h
    | cons o os ih =>
      intro a x hc h
      refine ih (a := a.next o) (fun hh => hc (.tail _ hh)) ?_
      obtain ⟨y, hy⟩ := h
      cases o with
      | clear => exact absurd (.head _) hc
      | copying kd c args => exact ⟨y ++ [_], by simp only [LView.next, hy, List.append_assoc]; rfl⟩
      | taking kd c args => exact ⟨y ++ [_], by simp only [LView.next, hy, List.append_assoc]; rfl⟩
      | _ => exact ⟨y, hy⟩
  have e : LView.new.after (os ++ .copying kd c args :: more) =
      ((LView.new.after os).next (.copying kd c args)).after more := by
    simp [LView.after, List.foldl_append]
  obtain ⟨y, hy⟩ := hm (more := more) (a := (LView.new.after os).next (.copying kd c args))
    (x := (LView.new.after os).log ++ [(kd, c, args.map (LView.new.after os).copied)]) hc
    ⟨[], by simp [LView.next]⟩
  rw [e]
  generalize hb : ((LView.new.after os).next (.copying kd c args)).after more = b at hy ⊢
  refine ⟨((LView.new.after os).log.map fun e => (e.1, e.2.1, e.2.2.map b.showArg)),
    (y.map fun e => (e.1, e.2.1, e.2.2.map b.showArg)), ?_, by simp⟩
  simp only [LView.shown, hy, List.map_append, List.map_cons, List.map_map,
    List.append_assoc, List.singleton_append]
  congr 4
  refine congrArg (Prod.mk c) ?_
  refine List.map_congr_left fun x _ => ?_
  cases x with
  | none => rfl
  | some k =>
    simp only [Function.comp, LView.copied, Option.bind_some]
    cases (LView.new.after os).objs[k]? <;> rfl

/-- A client that gives away one reference and keeps another; changes the object after an entry that
copied it and one that took it; and clears the log in the end. -/
def logProg : List (Op Nat) :=
  [.new 1, .incref 0, .new 2, .copying .err 7 [some 0, none, some 0], .taking .war 9 [some 0, some 1],
   .assign 0 5]

example : LView.new.Legals logProg := by
  simp [logProg, LView.Legals, LView.Legal, LView.next, LView.new, List.count_cons, giveAway]
  intro k
  split <;> split <;> omega
example : (LView.new.after logProg).shown =
    [(.err, 7, [some 1, none, some 1]), (.war, 9, [some 5, some 2])] := by decide +kernel
example : (LView.new.after logProg).mine = [0] ∧ (LView.new.after logProg).given 0 = 1 ∧
    (LView.new.after logProg).given 1 = 1 := by decide +kernel

/-- Giving away more than one holds ends in a fault: the object is destroyed twice. -/
example : (run start ([.new 1, .taking .err 1 [some 0], .drop 0, .clear] : List (Op Nat))).isOk = false := by
  decide +kernel

end Comps.Props

section
open Comps.Props
#print axioms C163_owned
#print axioms C163_released
#print axioms C163_copied
end
