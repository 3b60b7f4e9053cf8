import Verif.Proof.IntervalSignal
import Verif.Props.Interval

/-
C171: limits that hold from the last signal on.
-/

namespace Soro.Runtime.Props

open Soro.Physics Soro.Runtime Soro.Runtime.Spec

/-- C171 for borders at least a centimetre apart and limits that differ: before the limits are adjusted to the braking distances
the list has one interval per border, with its distance and its halt, and behind it the limit that was activated last.
Missing: limits that repeat the limit behind the last signal (see the negation). -/
theorem C171_in_force_partial (initial : Rat) (nodes : List TNode) (hb : BordersApart nodes) (hn : NoRepeat initial nodes) :
    (rawIntervals initial nodes).list.map (fun i => (i.dist, i.halt, i.right)) = limitsOf initial nodes :=
  (rawIntervals_signal initial nodes hb hn).rows

/-- C171 for borders at least a centimetre apart and limits that differ: in the list that is returned no limit is higher than the
one in force. Missing: limits that repeat the limit behind the last signal (see the negation). -/
theorem C171_limits_partial (fuel : Nat) (tp : Train) (a initial : Rat) (nodes : List TNode) (l : List Interval)
    (ha : tp.deceleration = some a) (hneg : a < 0) (hb : BordersApart nodes) (hn : NoRepeat initial nodes)
    (h : getIntervalList fuel tp initial nodes = .done l) :
    List.Forall₂ (fun b i => i.dist = b.1 ∧ i.halt = b.2.1 ∧ i.right ≤ b.2.2) (limitsOf initial nodes) l := by
  rw [← (rawIntervals_signal initial nodes hb hn).rows]
  have hsig : SignalsApart nodes := fun i j x y hij hx hy hbx ho hm => hb i j x y hij hx hy hbx ⟨ho, Or.inl hm⟩
  have h1 := adjustAll_lower ha hneg h (rawIntervals_limits initial nodes hsig).1
  have h2 := adjustAll_key h
  rw [List.forall₂_map_left_iff]
  clear h hn hb hsig
  revert h1 h2
  generalize (rawIntervals initial nodes).list = m
  intro h1 h2
  induction h1 with
  | nil => exact List.Forall₂.nil
  | cons h3 _ ih =>
    simp only [List.map_cons, List.cons.injEq] at h2
    have h4 : ∀ x y : Interval, key x = key y → x.dist = y.dist ∧ x.halt = y.halt := by
      intro x y hxy
      simp only [key, Prod.mk.injEq] at hxy
      exact ⟨hxy.1, hxy.2.1⟩
    exact List.Forall₂.cons ⟨(h4 _ _ h2.1).1, (h4 _ _ h2.1).2, h3⟩ (ih h2.2)

/-- a halt, a signal, a limit of 10, a limit of 15 for the signal, a halt -/
def exAnnounced (here last : Rat) : List TNode :=
  [exHalt 0 0 (some ⟨30, 100⟩), exSignal 1 50, exLimit 2 110 here true, exLimit 3 100 last false, exHalt 4 200 (some ⟨60, 500⟩)]

theorem exAnnounced_apart (here last : Rat) : BordersApart (exAnnounced here last) := by
  intro i j _ _ hij _ hb _ _
  have hj := (List.getElem?_eq_some_iff.mp hb).1
  have : ∀ j : Fin 5, ∀ i : Fin 5, i < j → pos (exAnnounced 0 0) i + 1 / 100 ≤ pos (exAnnounced 0 0) j := by decide +kernel
  have hp : ∀ i, pos (exAnnounced here last) i = pos (exAnnounced 0 0) i := by
    intro i
    unfold pos
    rw [List.map_take, List.map_take]
    rfl
  rw [hp, hp]
  exact this ⟨j, hj⟩ ⟨i, lt_trans hij hj⟩ hij

example : exTrain.deceleration = some (-1) ∧ BordersApart (exAnnounced 10 15) ∧ NoRepeat 20 (exAnnounced 10 15) ∧
    limitsOf 20 (exAnnounced 10 15) =
      [(0, some ⟨30, 100⟩, 20), (50, none, 15), (160, none, 10), (460, some ⟨60, 500⟩, 10)] ∧
    getIntervalList 100 exTrain 20 (exAnnounced 10 15) ≠ .running ∧ getIntervalList 100 exTrain 20 (exAnnounced 10 15) ≠ .bad := by
  refine ⟨rfl, exAnnounced_apart _ _, ?_, by decide +kernel, by decide +kernel, by decide +kernel⟩
  intro j k m n v h hk ho ha hj hmo hb hact hjk
  have hkl := (List.getElem?_eq_some_iff.mp hk).1
  have hk3 : k = 3 := by
    have h5 : k < 5 := hkl
    rcases (by omega : k = 0 ∨ k = 1 ∨ k = 2 ∨ k = 3 ∨ k = 4) with rfl | rfl | rfl | rfl | rfl <;>
      simp [exAnnounced] at hk <;> subst hk <;> first | rfl | (simp [announcedLimit, signalValue, exHalt, exSignal, exLimit, exNode] at ha)
  subst hk3
  have hj2 : j = 2 := by
    rcases (by omega : j = 0 ∨ j = 1 ∨ j = 2) with rfl | rfl | rfl <;>
      simp [exAnnounced] at hj <;> subst hj <;> first | rfl | (simp [broughtLimit, hereValue, exHalt, exSignal, exLimit, exNode] at hb)
  subst hj2
  simp [exAnnounced] at hj
  subst hj
  obtain rfl : (10 : Rat) = h := by
    have : broughtLimit (exLimit 2 110 10 true) = some 10 := by decide +kernel
    rw [this] at hb
    exact Option.some.inj hb
  have hv : inForce 20 ((exAnnounced 10 15).take 3) (activation ((exAnnounced 10 15).take 3)) = 20 := by decide +kernel
  rw [hv]
  decide +kernel

/-- C171 fails: a limit that repeats the one behind the last signal is taken for a part of it. A limit of 20 is followed by one of
30 for the signal before; then 30 is allowed behind the limit of 20 as well. -/
theorem C171_repeated_limit_negation :
    ¬ ∀ (fuel : Nat) (tp : Train) (a initial : Rat) (nodes : List TNode) (l : List Interval),
      tp.deceleration = some a → a < 0 → BordersApart nodes → getIntervalList fuel tp initial nodes = .done l →
      List.Forall₂ (fun b i => i.dist = b.1 ∧ i.halt = b.2.1 ∧ i.right ≤ b.2.2) (limitsOf initial nodes) l := by
  intro h
  have hl : limitsOf 20 (exAnnounced 20 30) =
      [(0, some ⟨30, 100⟩, 20), (50, none, 30), (160, none, 20), (460, some ⟨60, 500⟩, 20)] := by decide +kernel
  have := h 100 exTrain (-1) 20 (exAnnounced 20 30)
    [{ dist := 0, left := none, right := 20, halt := some ⟨30, 100⟩, events := [⟨0, 0⟩] },
     { dist := 50, left := some 20, right := 28, halt := none, events := [⟨1, 50⟩] },
     { dist := 160, left := some 28, right := 24, halt := none, events := [⟨2, 160⟩] },
     { dist := 460, left := some 24, right := 30, halt := some ⟨60, 500⟩, events := [⟨3, 260⟩, ⟨4, 460⟩] }]
    rfl (by decide +kernel) (exAnnounced_apart _ _) (by decide +kernel)
  rw [hl] at this
  simp only [List.forall₂_cons] at this
  revert this
  decide +kernel

end Soro.Runtime.Props
