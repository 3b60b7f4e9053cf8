import Verif.Proof.RuntimeDebug
import Verif.Props.Runtime

/-! Property C177: the assertions of the running time calculation. -/

namespace Soro.Runtime.Props
open Soro.Physics Soro.Runtime Soro.Runtime.Spec

variable {fuel : Nat} {tp : Train} {d : Rat} {start : Nat} {initial : Rat} {nodes : List TNode} {l : List Interval}
  {stamps : List Stamp}

/-- C177. For trains that neither break in nor out, with stops at least a centimetre apart, and a calculation that ends in the
release build: the debug build calculates the same if the start is known, events at the first border happen at a stop, all
arrivals but the first are known and no departure is before its arrival; otherwise it is stopped by an assertion. -/
theorem C177_assertions (hf : Forward nodes) (hs : StopsApart nodes) (hl : getIntervalList fuel tp initial nodes = .done l)
    (h : runtime fuel tp start initial nodes = .done stamps) :
    (Known start ∧ (∀ i, l.head? = some i → i.events ≠ [] → i.halt.isSome = true) ∧ Sensible stamps →
      Same (runtimeD fuel tp start initial nodes false) (runtime fuel tp start initial nodes)) ∧
    (¬ (Known start ∧ (∀ i, l.head? = some i → i.events ≠ [] → i.halt.isSome = true) ∧ Sensible stamps) →
      Stopped (runtimeD fuel tp start initial nodes false)) := by
  have hinc := C57_increasing fuel tp initial nodes l hf hl
  unfold runtime at h
  rw [hl] at h
  simp only [Outcome.bind] at h
  obtain ⟨q, hq, rfl⟩ := Outcome.map_eq_done h
  cases l with
  | nil => cases hq
  | cons p l =>
    have hpw : (p :: l).Pairwise (fun a b => a.dist + 1 / 100 ≤ b.dist) := by
      rw [List.pairwise_iff_getElem]
      intro i j hi hj hij
      exact hinc i j _ _ hij (List.getElem?_eq_getElem hi) (List.getElem?_eq_getElem hj)
    have hlist : Verdict True (getIntervalListD fuel tp initial nodes false) (p :: l) := by
      unfold getIntervalListD
      rw [rawIntervalsD_apart initial nodes hf hs]
      exact ((Verdict.check _ _).bind ((Verdict.ok _).bind (Verdict.lift hl))).imp (by simp)
    have hv : Verdict (Known start ∧ (p.events = [] ∨ p.halt.isSome = true) ∧ Sensible q.2)
        (runtimeD fuel tp start initial nodes false) q.2 := by
      unfold runtimeD
      exact ((Verdict.check _ _).bind (hlist.bind ((runIntervalsD_spec hpw hq).bind (Verdict.ok _)))).imp (by simp)
    have hv' := hv.imp (show _ ↔ (Known start ∧ (∀ i, (p :: l).head? = some i → i.events ≠ [] → i.halt.isSome = true) ∧
        Sensible q.2) by
      simp only [List.head?_cons, Option.some.injEq, forall_eq']
      tauto)
    refine ⟨fun hok => ⟨q.2, ?_, hv'.1 hok⟩, hv'.2⟩
    unfold runtime
    rw [hl]
    simp only [Outcome.bind]
    rw [hq]; rfl

theorem exNodes_stopsApart : StopsApart exNodes := fun i j a b hij ha hb h1 h2 =>
  exNodes_bordersApart i j a b hij ha hb h1.1 h2.1

example : Forward exNodes ∧ StopsApart exNodes ∧ getIntervalList 100 exTrain 20 exNodes = .done exList ∧
    runtime 100 exTrain 100 20 exNodes = .done exStamps ∧ Known 100 ∧
    (∀ i, exList.head? = some i → i.events ≠ [] → i.halt.isSome = true) ∧ Sensible exStamps := by
  refine ⟨by unfold Forward; decide +kernel, exNodes_stopsApart, by decide +kernel, by decide +kernel, by unfold Known; decide, ?_, ?_⟩
  · intro i hi _
    cases hi; rfl
  · unfold Sensible Known
    decide

/-- C177. For trains from a stop on whose running time fits into 32 bits, only an arrival at the time that stands for an unknown
one stops the debug build. -/
theorem C177_calculated (ha : tp.deceleration = some d) (hneg : d < 0) (hf : Forward nodes) (hs : StopsApart nodes)
    (hst : StartsAtStop nodes) (h0 : start < 2 ^ 32 - 1) (h : Calculated fuel tp start initial nodes l stamps) :
    ((∀ s ∈ stamps.tail, Known s.arrival) →
      Same (runtimeD fuel tp start initial nodes false) (runtime fuel tp start initial nodes)) ∧
    (¬ (∀ s ∈ stamps.tail, Known s.arrival) → Stopped (runtimeD fuel tp start initial nodes false)) := by
  obtain ⟨h1, h2, -⟩ := C56_order_partial ha hneg hf (by omega) h
  obtain ⟨t, hl, -, -⟩ := h
  have hfirst : ∀ i, l.head? = some i → i.events ≠ [] → i.halt.isSome = true := by
    intro i hi _
    obtain ⟨k, hk, hh⟩ := skelRun_first nodes hst
    rw [← getIntervalList_keys hl, List.head?_map, hi] at hk
    cases hk
    exact hh
  obtain ⟨h3, h4⟩ := C177_assertions (start := start) hf hs hl h1
  refine ⟨fun hk => h3 ⟨by unfold Known; omega, hfirst, hk, h2.2⟩, fun hk => h4 fun hok => hk hok.2.2.1⟩

example : exTrain.deceleration = some (-1) ∧ Forward exNodes ∧ StopsApart exNodes ∧ StartsAtStop exNodes ∧
    Calculated 100 exTrain 100 20 exNodes exList exStamps ∧ ∀ s ∈ exStamps.tail, Known s.arrival := by
  refine ⟨rfl, by unfold Forward; decide +kernel, exNodes_stopsApart, ⟨_, rfl, ⟨rfl, .inr (.inl rfl)⟩, rfl⟩, exCalculated, ?_⟩
  unfold Known
  decide

/-- C177. Two stops at the same place stop the debug build, whatever is between them. -/
theorem C177_together (fuel start : Nat) (tp : Train) (initial : Rat) (nodes : List TNode) (hf : Forward nodes) (i j : Nat)
    (a b : TNode) (hij : i < j) (ha : nodes[i]? = some a) (hb : nodes[j]? = some b) (hsa : Stopping a) (hsb : Stopping b)
    (hp : pos nodes i = pos nodes j) : Stopped (runtimeD fuel tp start initial nodes false) := by
  obtain ⟨line, h⟩ := rawIntervalsD_together initial nodes hf i j a b hij ha hb hsa hsb hp
  refine ⟨line, ?_⟩
  unfold runtimeD getIntervalListD
  rw [h]; rfl

/-- a train that stops twice at the same place -/
def exTwice : List TNode := [exHalt 0 0 (some ⟨30, 100⟩), exHalt 1 200 (some ⟨30, 200⟩), exHalt 2 0 (some ⟨60, 500⟩)]

/-- C177, finding: the release build keeps the second one of two stops at the same place only; nothing of the first stop, where
the train has to stay until 200, is left. -/
theorem C177_stop_lost : Forward exTwice ∧ Stopping (exHalt 1 200 (some ⟨30, 200⟩)) ∧ Stopping (exHalt 2 0 (some ⟨60, 500⟩)) ∧
    pos exTwice 1 = pos exTwice 2 ∧ Stopped (runtimeD 200 exTrain 100 20 exTwice false) ∧
    runtime 200 exTrain 100 20 exTwice = .done [⟨100, 100, 0⟩, ⟨129, 500, 1⟩, ⟨129, 500, 2⟩] := by
  have hf : Forward exTwice := by unfold Forward; decide +kernel
  have h1 : Stopping (exHalt 1 200 (some ⟨30, 200⟩)) := ⟨⟨rfl, .inr (.inl rfl)⟩, rfl⟩
  have h2 : Stopping (exHalt 2 0 (some ⟨60, 500⟩)) := ⟨⟨rfl, .inr (.inl rfl)⟩, rfl⟩
  have hp : pos exTwice 1 = pos exTwice 2 := by decide +kernel
  exact ⟨hf, h1, h2, hp, C177_together 200 100 exTrain 20 exTwice hf 1 2 _ _ (by decide) rfl rfl h1 h2 hp, by decide +kernel⟩

/-- a train that has to leave its second stop at an unknown time -/
def exUnknown : List TNode :=
  [exHalt 0 0 (some ⟨30, 100⟩), exHalt 1 200 (some ⟨30, 4294967295⟩), exHalt 2 200 (some ⟨60, 500⟩)]

/-- C177, finding: an unknown departure on the way makes the times overflow, and the train arrives before it left (C56). No
assertion notices. -/
theorem C177_unnoticed : runtime 200 exTrain 100 20 exUnknown = .done [⟨100, 100, 0⟩, ⟨129, 4294967295, 1⟩, ⟨29, 500, 2⟩] ∧
    runtimeD 200 exTrain 100 20 exUnknown false = .done (.ok [⟨100, 100, 0⟩, ⟨129, 4294967295, 1⟩, ⟨29, 500, 2⟩]) := by
  have hr : runtime 200 exTrain 100 20 exUnknown = .done [⟨100, 100, 0⟩, ⟨129, 4294967295, 1⟩, ⟨29, 500, 2⟩] := by decide +kernel
  have hf : Forward exUnknown := by unfold Forward; decide +kernel
  have hs : StopsApart exUnknown := by
    intro i j _ _ hij _ hb _ _
    have hj := (List.getElem?_eq_some_iff.mp hb).1
    have : ∀ j : Fin 3, ∀ i : Fin 3, i < j → pos exUnknown i + 1 / 100 ≤ pos exUnknown j := by decide +kernel
    exact this ⟨j, hj⟩ ⟨i, lt_trans hij hj⟩ hij
  have hl : getIntervalList 200 exTrain 20 exUnknown = .done
      [{ dist := 0, left := none, right := 20, halt := some ⟨30, 100⟩, events := [⟨0, 0⟩] },
       { dist := 200, left := some 20, right := 20, halt := some ⟨30, 4294967295⟩, events := [⟨1, 200⟩] },
       { dist := 400, left := some 20, right := 20, halt := some ⟨60, 500⟩, events := [⟨2, 400⟩] }] := by decide +kernel
  obtain ⟨a, h1, h2⟩ := (C177_assertions hf hs hl hr).1 ⟨by unfold Known; decide, by intro i hi _; cases hi; rfl, by
    unfold Sensible Known; decide⟩
  rw [hr] at h1
  cases h1
  exact ⟨hr, h2⟩

end Soro.Runtime.Props
