import Verif.Spec.Trip
import Verif.Props.Train
import Verif.Props.Runtime

/-! How many main signals a train passes. -/

namespace Soro.Trip
open Soro.Route Soro.Route.Spec Soro.Runtime Soro.Runtime.Spec Soro.Train Soro.Train.Spec Soro.Trip.Spec

/-- decides `SignalAt` -/
def sigB (f : Facts) (o : Option (Nat × Bool)) : Bool :=
  match o with
  | some (n, b) => !b && decide (f.kind n = .mainSignal)
  | none => false

theorem sigB_iff (i : Train.Infra) (f : Facts) (p : Nat × Nat) : sigB f (shownAt i.routes p) = true ↔ SignalAt i f p := by
  unfold sigB SignalAt
  cases shownAt i.routes p with
  | none => simp
  | some x =>
    obtain ⟨n, b⟩ := x
    cases b <;> simp

/-- the interior of a list: neither first nor last -/
theorem mem_inner {α : Type} {L : List α} {k : Nat} {x : α} (h : L[k]? = some x) (h0 : k ≠ 0) (h1 : k + 1 ≠ L.length) :
    x ∈ L.tail.dropLast := by
  obtain ⟨hk, rfl⟩ := List.getElem?_eq_some_iff.1 h
  refine List.mem_of_getElem? (i := k - 1) ?_
  rw [List.getElem?_dropLast, if_pos (by simp; omega), List.getElem?_tail, show k - 1 + 1 = k by omega]
  exact List.getElem?_eq_getElem hk

variable {i : Train.Infra} {f : Facts}

theorem countP_drop {S : (Nat × Nat) → Bool} {L : List (Nat × Nat)} (hc : ∀ x ∈ L.tail.dropLast, S x = false)
    (hl : ∀ x, L.getLast? = some x → S x = true) (k : Nat) (h0 : k ≠ 0) (hk : k < L.length) : (L.drop k).countP S = 1 := by
  have hne : L.drop k ≠ [] := by
    intro h
    have := congrArg List.length h
    simp at this
    omega
  have hlast : L.getLast? = some ((L.drop k).getLast hne) := by
    rw [← List.getLast?_eq_some_getLast hne, List.getLast?_drop, if_neg (by omega)]
  rw [← List.dropLast_concat_getLast hne, List.countP_append, List.countP_singleton, hl _ hlast, if_pos rfl, List.countP_eq_zero.2]
  intro x hx
  obtain ⟨j, hj⟩ := List.mem_iff_getElem?.1 hx
  have hjl := (List.getElem?_eq_some_iff.1 hj).1
  simp only [List.length_dropLast, List.length_drop] at hjl
  rw [List.getElem?_dropLast, if_pos (by simp; omega), List.getElem?_drop] at hj
  rw [hc x (mem_inner hj (by omega) (by omega))]
  simp

/-- the main signals between first and last stop of a train -/
theorem count_signals {infos : List Interlocking.Info} {g : Interlocking.SRG} {t : Train.Train} {first last : IR} {p q : Nat × Nat}
    (hw : Train.Wellformed i t first last p q) (hr : Routed i f infos g t p q) (hs : SameSignals i f infos) :
    ((((joined i.routes t.path).take (upTo i.routes t.breakOut q t.path last)).drop
        (before i.routes t.breakIn p first)).countP fun x => sigB f (shownAt i.routes x)) + 1 = t.path.length := by
  have hp := (hw.start hr.noBreakIn).2
  have hq := (hw.stop hr.noBreakOut).2
  have hSp : sigB f (shownAt i.routes p) = false := by
    rw [Bool.eq_false_iff, ne_eq, sigB_iff]; exact hr.startHalt
  have hSq : sigB f (shownAt i.routes q) = false := by
    rw [Bool.eq_false_iff, ne_eq, sigB_iff]; exact hr.stopHalt
  have hclear : ∀ ir ∈ t.path, ∀ x ∈ (positions i.routes ir).tail.dropLast, sigB f (shownAt i.routes x) = false := by
    intro ir hir x hx
    rw [Bool.eq_false_iff, ne_eq, sigB_iff, ← hs]
    exact (hr.routes ir hir).clear x hx
  have hlastS : ∀ ir ∈ t.path.dropLast, ∀ x, (positions i.routes ir).getLast? = some x → sigB f (shownAt i.routes x) = true := by
    intro ir hir x hx
    rw [sigB_iff]; exact hr.meet ir hir x hx
  generalize hS : (fun x => sigB f (shownAt i.routes x)) = S
  have hS' : ∀ x, sigB f (shownAt i.routes x) = S x := fun x => by rw [← hS]
  simp only [hS'] at hSp hSq hclear hlastS
  have hip : (positions i.routes first)[(positions i.routes first).idxOf p]? = some p := by
    rw [List.getElem?_eq_getElem (List.idxOf_lt_length_iff.2 hp), List.getElem_idxOf]
  have hiq : (positions i.routes last)[(positions i.routes last).idxOf q]? = some q := by
    rw [List.getElem?_eq_getElem (List.idxOf_lt_length_iff.2 hq), List.getElem_idxOf]
  have hipl := List.idxOf_lt_length_iff.2 hp
  have hiql := List.idxOf_lt_length_iff.2 hq
  simp only [before, upTo, hr.noBreakIn, hr.noBreakOut, Bool.false_eq_true, if_false]
  generalize hkp : (positions i.routes first).idxOf p = kp at *
  generalize hkq : (positions i.routes last).idxOf q = kq at *
  cases hpath : t.path with
  | nil => have := hw.head; rw [hpath] at this; cases this
  | cons a rest =>
    have hfa : a = first := by have := hw.head; rw [hpath] at this; simpa using this
    subst hfa
    have hamem : a ∈ t.path := by rw [hpath]; simp
    cases hrest : rest with
    | nil =>
      subst hrest
      have hla : a = last := by have := hw.back; rw [hpath] at this; simpa using this
      subst hla
      simp only [joined, List.flatMap_nil, List.append_nil, List.length_singleton]
      rw [List.countP_eq_zero.2]
      intro x hx
      obtain ⟨j, hj⟩ := List.mem_iff_getElem?.1 hx
      rw [List.getElem?_drop, List.getElem?_take] at hj
      split at hj
      · rename_i hlt
        by_cases h1 : kp + j = kp
        · rw [h1, hip] at hj; cases hj; simp [hSp]
        · by_cases h2 : kp + j = kq
          · rw [h2, hiq] at hj; cases hj; simp [hSq]
          · rw [hclear a hamem x (mem_inner hj (by omega) (by omega))]; simp
      · cases hj
    | cons b l =>
      have hlast : rest.getLast? = some last := by
        have := hw.back
        rw [hpath, hrest, List.getLast?_cons_cons] at this
        rw [hrest]; exact this
      have hne : rest ≠ [] := by rw [hrest]; simp
      have hdec : rest = rest.dropLast ++ [last] := by
        rw [List.getLast?_eq_some_getLast hne] at hlast
        injection hlast with e
        rw [← e, List.dropLast_concat_getLast]
      have hdl : t.path.dropLast = a :: rest.dropLast := by rw [hpath, hrest, List.dropLast_cons_cons]
      have hlmem : last ∈ t.path := by rw [hpath, hdec]; simp
      rw [← hrest]
      have hj : joined i.routes (a :: rest) = positions i.routes a ++ ((rest.dropLast.flatMap fun r => (positions i.routes r).tail) ++
          (positions i.routes last).tail) := by
        rw [joined]
        conv_lhs => rw [hdec]
        simp [List.flatMap_append]
      generalize hM : (rest.dropLast.flatMap fun r => (positions i.routes r).tail) = M at hj
      have hlen : rest.length = rest.dropLast.length + 1 := by
        have := congrArg List.length hdec
        simpa using this
      have hMc : M.countP S = rest.dropLast.length := by
        rw [← hM, List.countP_flatMap]
        have : (rest.dropLast.map fun r => ((positions i.routes r).tail).countP S) = rest.dropLast.map fun _ => 1 := by
          refine List.map_congr_left fun r hr' => ?_
          have hmem : r ∈ t.path.dropLast := by rw [hdl]; simp [hr']
          have hmem' : r ∈ t.path := List.dropLast_subset _ hmem
          rw [← List.drop_one]
          exact countP_drop (hclear r hmem') (hlastS r hmem) 1 (by omega) (by have := hr.two r hmem'; omega)
        rw [show (List.countP S ∘ fun r => (positions i.routes r).tail) = fun r => ((positions i.routes r).tail).countP S from rfl, this]
        simp
      have htl : (positions i.routes last).length = (positions i.routes last).tail.length + 1 := by simp; omega
      have htake : (joined i.routes (a :: rest)).take ((joined i.routes (a :: rest)).length - ((positions i.routes last).length - (kq + 1))) =
          positions i.routes a ++ (M ++ (positions i.routes last).tail.take kq) := by
        rw [hj]
        simp only [List.length_append]
        rw [List.take_append, List.take_of_length_le (by omega), List.take_append, List.take_of_length_le (by omega)]
        congr 3
        omega
      rw [htake, List.drop_append_of_le_length (by omega), List.countP_append, List.countP_append, hMc]
      have h1 : ((positions i.routes a).drop kp).countP S = 1 := by
        have hmem : a ∈ t.path.dropLast := by rw [hdl]; simp
        by_cases h0 : kp = 0
        · subst h0
          have : positions i.routes a = p :: (positions i.routes a).drop 1 := by
            cases hpa : positions i.routes a with
            | nil => rw [hpa] at hipl; simp at hipl
            | cons y ys => rw [hpa] at hip; simp at hip; simp [hip]
          rw [List.drop_zero, this, List.countP_cons, hSp]
          simp only [Bool.false_eq_true, if_false, Nat.add_zero]
          exact countP_drop (hclear a hamem) (hlastS a hmem) 1 (by omega) (by have := hr.two a hamem; omega)
        · exact countP_drop (hclear a hamem) (hlastS a hmem) kp h0 hipl
      have h2 : ((positions i.routes last).tail.take kq).countP S = 0 := by
        rw [List.countP_eq_zero]
        intro x hx
        obtain ⟨j, hj'⟩ := List.mem_iff_getElem?.1 hx
        rw [List.getElem?_take] at hj'
        split at hj'
        · rename_i hlt
          rw [List.getElem?_tail] at hj'
          by_cases h2 : j + 1 = kq
          · rw [h2, hiq] at hj'; cases hj'; simp [hSq]
          · rw [hclear last hlmem x (mem_inner hj' (by omega) (by omega))]; simp
        · cases hj'
      rw [h1, h2, List.length_cons, hlen]
      omega

/-! ### the nodes seen by the running time calculation -/

theorem eventsOf_length (f : Facts) (s : Schedule) (d : Rat) (prev : Nat) (l : List (RNode × Option Nat)) :
    (eventsOf d (tnodes f s prev l)).length = (l.map (·.1)).countP fun x => sigB f (told x) := by
  induction l generalizing d prev with
  | nil => rfl
  | cons x l ih =>
    rw [tnodes, eventsOf, List.length_append, ih, List.map_cons, List.countP_cons, Nat.add_comm]
    congr 1
    obtain ⟨⟨n, e, o⟩, k⟩ := x
    simp only [tnode, told, sigB]
    cases o <;> by_cases hk : f.kind n = .mainSignal <;> simp [hk]

theorem tnodes_events (f : Facts) (s : Schedule) (prev : Nat) (l : List (RNode × Option Nat)) :
    ∀ n ∈ tnodes f s prev l, n.isEvent = true → n.mainSignal = true := by
  induction l generalizing prev with
  | nil => intro n hn; cases hn
  | cons x l ih =>
    intro n hn
    rcases List.mem_cons.1 hn with rfl | hn
    · exact id
    · exact ih _ n hn

/-- main signals are borders, so none of them is left behind -/
theorem skelRun_signals (nodes : List TNode) (h : ∀ n ∈ nodes, n.isEvent = true → n.mainSignal = true) :
    (skelRun nodes).events = [] := by
  induction nodes using List.reverseRecOn with
  | nil => rfl
  | append_singleton pre n ih =>
    have ih := ih fun m hm => h m (by simp [hm])
    rw [skelRun_concat]
    unfold skelStep
    by_cases ho : n.omitted = true
    · simp [ho, ih]
    · simp only [ho, Bool.false_eq_true, if_false]
      by_cases he : n.isEvent = true
      · have hc : closes n = true := by simp [closes, h n (by simp) he]
        simp [hc]
      · by_cases hc : closes n = true
        · simp [hc]
        · simp [hc, he, ih]

end Soro.Trip
