import Verif.Model.OrderingGraphDebug
import Verif.Spec.OrderingGraphDebug
import Verif.Proof.Debug
import Verif.Props.OrderingGraph

/-! Lemmas about the ordering graph in a build with assertions. -/

namespace Soro.OrderingGraph
open OGraph Dbg

theorem pathIdxAfter_eq (ts : List (Int × Int)) (i : Nat) : pathIdxAfter ts i = i + (ts.length - 1) := by
  induction ts generalizing i with
  | nil => rfl
  | cons t ts ih =>
    cases ts with
    | nil => rfl
    | cons t' ts => rw [pathIdxAfter, ih]; simp only [List.length_cons]; omega

theorem lift_bind {α β : Type} (o : Option α) (f : α → Option β) : lift (o.bind f) = (lift o >>= fun a => lift (f a)) := by
  cases o <;> rfl

theorem foldlM_lift {α β : Type} (f : β → α → Option β) (l : List α) (b : β) :
    l.foldlM (fun s a => lift (f s a)) b = lift (l.foldlM f b) := by
  induction l generalizing b with
  | nil => rfl
  | cons a l ih =>
    rw [List.foldlM_cons, List.foldlM_cons]
    cases f b a with
    | none => rfl
    | some s => exact ih s

theorem addTripD_ok {irs : List (List Nat)} {tr : OTrain} (hf : Fits tr) (hne : tr.times ≠ []) (s : BState) (a : Int) :
    addTripD irs tr s a = lift (addTrip irs tr s a) := by
  unfold addTripD
  cases addTrip irs tr s a with
  | none => rfl
  | some s' =>
    have : tr.times.length ≠ 0 := fun h => hne (List.length_eq_zero_iff.1 h)
    unfold Fits at hf
    rw [lift, ok_bind, check_pos (by rw [pathIdxAfter_eq]; omega), ok_bind]; rfl

theorem addTrainD_ok {irs : List (List Nat)} {tr : OTrain} (hf : tr.anchors ≠ [] → Fits tr) (s : BState) :
    addTrainD irs s tr = lift (addTrain irs s tr) := by
  unfold addTrainD addTrain
  by_cases ha : tr.anchors = []
  · rw [if_pos ha, ha]
    split <;> rfl
  · rw [if_neg ha, check_pos (show tr.path.length = _ from hf ha), ok_bind]
    split
    · rfl
    · rename_i hne
      rw [← foldlM_lift]
      congr 1
      funext s a
      exact addTripD_ok (hf ha) hne s a

theorem addTrainsD_ok {irs : List (List Nat)} {filter : List Nat} {trains : List OTrain}
    (hf : ∀ tr ∈ trains, Used filter tr → Fits tr) (s : BState) :
    addTrainsD irs filter trains s = lift (addTrains irs filter trains s) := by
  induction trains generalizing s with
  | nil => rfl
  | cons tr trs ih =>
    have ih' := fun s => ih (fun t ht => hf t (List.mem_cons_of_mem _ ht)) s
    unfold addTrainsD addTrains
    by_cases hsel : filter ≠ [] ∧ tr.id ∉ filter
    · rw [if_pos hsel, if_pos hsel, ih']
    · rw [if_neg hsel, if_neg hsel, addTrainD_ok fun ha => hf tr List.mem_cons_self ⟨?_, ha⟩, lift_bind]
      · congr 1; funext s; exact ih' s
      · by_cases h0 : filter = []
        · exact .inl h0
        · exact .inr (Classical.not_not.1 fun h => hsel ⟨h0, h⟩)

theorem addTrainsD_append (irs : List (List Nat)) (filter : List Nat) (l l' : List OTrain) (s : BState) :
    addTrainsD irs filter (l ++ l') s = (addTrainsD irs filter l s >>= addTrainsD irs filter l') := by
  induction l generalizing s with
  | nil => rfl
  | cons tr l ih =>
    rw [List.cons_append]
    unfold addTrainsD
    split
    · rw [ih]
    · cases addTrainD irs s tr with
      | error e => rfl
      | ok s' => rw [ok_bind, ih, ok_bind]

/-- trains without departures leave the state as it is -/
theorem addTrains_departing (irs : List (List Nat)) (filter : List Nat) (trains : List OTrain) (s : BState) :
    addTrains irs filter (trains.filter fun tr => decide (tr.anchors ≠ [])) s = addTrains irs filter trains s := by
  induction trains generalizing s with
  | nil => rfl
  | cons tr trs ih =>
    by_cases ha : tr.anchors = []
    · rw [List.filter_cons_of_neg (by simp [ha]), ih]
      conv => rhs; unfold addTrains
      split
      · rfl
      · rw [show addTrain irs s tr = some s by unfold addTrain; rw [ha]; split <;> rfl]; rfl
    · rw [List.filter_cons_of_pos (by simp [ha])]
      unfold addTrains
      split
      · exact ih s
      · congr 1; funext s; exact ih s

theorem construct_departing (srt : Nat → List Usage → List Usage) (n : Nat) (irs : List (List Nat)) (filter : List Nat)
    (trains : List OTrain) :
    construct srt n irs filter (trains.filter fun tr => decide (tr.anchors ≠ [])) = construct srt n irs filter trains := by
  unfold construct preGraph generate
  rw [addTrains_departing]

theorem wellFormed_departing {n : Nat} {irs : List (List Nat)} {filter : List Nat} {trains : List OTrain}
    (hr : InRange n irs trains) (hf : ∀ tr ∈ trains, Used filter tr → Fits tr) :
    WellFormed n irs filter (trains.filter fun tr => decide (tr.anchors ≠ [])) := by
  refine ⟨fun tr htr => ?_, hr.2⟩
  have h1 : tr ∈ trains ∧ tr.anchors ≠ [] ∧ (filter = [] ∨ tr.id ∈ filter) := by
    unfold selected at htr
    simp only [List.mem_filter, decide_eq_true_eq, Bool.or_eq_true, Bool.and_eq_true] at htr
    exact ⟨htr.1.1, htr.1.2, htr.2.1⟩
  exact ⟨hf tr h1.1 ⟨h1.2.2, h1.2.1⟩, hr.1 tr h1.1⟩

theorem constructD_ok {srt : Nat → List Usage → List Usage} {n : Nat} {irs : List (List Nat)} {filter : List Nat}
    {trains : List OTrain} (hf : ∀ tr ∈ trains, Used filter tr → Fits tr) :
    constructD srt n irs filter trains = lift (construct srt n irs filter trains) := by
  unfold constructD construct preGraph generate
  rw [addTrainsD_ok hf]
  cases addTrains irs filter trains ⟨[], List.replicate n [], [], 0⟩ with
  | none => rfl
  | some s =>
    rw [lift, ok_bind, Option.bind_some]
    cases addEdges srt 0 s.orderings s.nodes with
    | none => rfl
    | some g => rfl

/-- the first element with a property -/
theorem first_bad {α : Type} {P : α → Prop} {l : List α} (h : ∃ x ∈ l, P x) :
    ∃ l1 x l2, l = l1 ++ x :: l2 ∧ P x ∧ ∀ y ∈ l1, ¬ P y := by
  induction l with
  | nil => obtain ⟨x, hx, -⟩ := h; cases hx
  | cons a l ih =>
    by_cases ha : P a
    · exact ⟨[], a, l, rfl, ha, fun y hy => nomatch hy⟩
    · obtain ⟨x, hx, hp⟩ := h
      rcases List.mem_cons.1 hx with rfl | hx
      · exact absurd hp ha
      · obtain ⟨l1, y, l2, rfl, h1, h2⟩ := ih ⟨x, hx, hp⟩
        refine ⟨a :: l1, y, l2, rfl, h1, fun z hz => ?_⟩
        rcases List.mem_cons.1 hz with rfl | hz
        · exact ha
        · exact h2 z hz

theorem constructD_stops {srt : Nat → List Usage → List Usage} (hs : IsSorter srt) {n : Nat} {irs : List (List Nat)}
    {filter : List Nat} {trains : List OTrain} (hr : InRange n irs trains)
    (hb : ∃ tr ∈ trains, Used filter tr ∧ ¬ Fits tr) : Stops (constructD srt n irs filter trains) := by
  obtain ⟨l1, tr, l2, rfl, ⟨hu, hnf⟩, hgood⟩ := first_bad hb
  have hf : ∀ t ∈ l1, Used filter t → Fits t := fun t ht hu => Classical.not_not.1 fun h => hgood t ht ⟨hu, h⟩
  have hr1 : InRange n irs l1 := ⟨fun t ht => hr.1 t (List.mem_append_left _ ht), hr.2⟩
  obtain ⟨g, g', h1, -⟩ := construct_spec hs (wellFormed_departing hr1 hf)
  unfold preGraph generate at h1
  rw [addTrains_departing] at h1
  obtain ⟨s, h2, -⟩ := Option.bind_eq_some_iff.1 h1
  refine ⟨95, ?_⟩
  unfold constructD
  rw [addTrainsD_append, addTrainsD_ok hf, h2, lift, ok_bind]
  unfold addTrainsD
  rw [if_neg (by
    rintro ⟨h3, h4⟩
    exact hu.1.elim h3 h4)]
  unfold addTrainD
  rw [if_neg hu.2, check_neg (show ¬ tr.path.length = _ from hnf)]; rfl

end Soro.OrderingGraph
