import Verif.Props.Physics

/-! Property C185: the forces and the mass of a train. -/

namespace Soro.Physics.Props
open Soro.Physics Soro.Physics.Spec

/-- the force that every vehicle of the train has at a speed, and the resistance against it -/
def Forces (tp : Train) (v : Rat) (fs rs : List Rat) : Prop :=
  List.Forall₂ (fun w f => ∃ p ∈ w.tractive, v < p.upper ∧ (∀ q ∈ w.tractive.takeWhile (· != p), q.upper ≤ v) ∧
    f = polyValue v p.poly) tp.vehicles fs ∧
  List.Forall₂ (fun w r => r = polyValue v w.resistance) tp.vehicles rs

theorem sumForces_some {f : Vehicle → Option Rat} {vs : List Vehicle} {t : Rat} (h : Train.sumForces f vs = some t) :
    ∃ fs, List.Forall₂ (fun w a => f w = some a) vs fs ∧ fs.sum = t := by
  induction vs generalizing t with
  | nil => cases h; exact ⟨[], .nil, rfl⟩
  | cons w vs ih =>
    unfold Train.sumForces at h
    cases hw : f w with
    | none => rw [hw] at h; cases h
    | some a =>
      cases hs : Train.sumForces f vs with
      | none => rw [hw, hs] at h; cases h
      | some b =>
        rw [hw, hs] at h
        cases h
        obtain ⟨fs, h1, h2⟩ := ih hs
        exact ⟨a :: fs, .cons hw h1, by rw [List.sum_cons, h2]⟩

theorem evalPoly_some {l : List Rat} {x y : Rat} (h : evalPoly l x = some y) : y = polyValue x l := by
  cases l with
  | nil => cases h
  | cons a l =>
    rw [C92_polynomial _ _ (by simp)] at h
    exact (Option.some.inj h).symm

theorem find_first {α : Type} [DecidableEq α] {p : α → Bool} {l : List α} {x : α} (h : l.find? p = some x) :
    ∀ q ∈ l.takeWhile (· != x), p q = false := by
  induction l with
  | nil => cases h
  | cons a l ih =>
    intro q hq
    rw [List.find?_cons] at h
    rw [List.takeWhile_cons] at hq
    cases ha : p a with
    | true =>
      rw [ha] at h; cases h
      simp at hq
    | false =>
      rw [ha] at h
      split at hq
      · rcases List.mem_cons.1 hq with rfl | hq
        · exact ha
        · exact ih h q hq
      · cases hq

theorem acceleration_forces {tp : Train} {v a : Rat} (h : tp.acceleration v = some a) :
    ∃ fs rs, Forces tp v fs rs ∧ tp.carriageWeight * (53 / 50) * a = fs.sum - rs.sum := by
  unfold Train.acceleration at h
  cases ht : tp.tractiveForce v with
  | none => rw [ht] at h; cases h
  | some t =>
    cases hr : tp.resistiveForce v with
    | none => rw [ht, hr] at h; cases h
    | some r =>
      rw [ht, hr] at h
      dsimp only at h
      split at h
      · cases h
      · rename_i hw
        cases h
        obtain ⟨fs, h1, h2⟩ := sumForces_some ht
        obtain ⟨rs, h3, h4⟩ := sumForces_some hr
        refine ⟨fs, rs, ⟨h1.imp ?_, h3.imp fun _ _ h => evalPoly_some h⟩, ?_⟩
        · intro w f hf
          unfold evalPieces at hf
          cases hp : w.tractive.find? (fun p => decide (v < p.upper)) with
          | none => rw [hp] at hf; cases hf
          | some p =>
            rw [hp] at hf
            refine ⟨p, List.mem_of_find?_eq_some hp, by simpa using List.find?_some hp, fun q hq => ?_, evalPoly_some hf⟩
            simpa using find_first hp q hq
        · rw [h2, h4]
          have hw' : tp.carriageWeight ≠ 0 := hw
          show tp.carriageWeight * (53 / 50) * ((t - r) / (tp.carriageWeight * massFactor)) = t - r
          unfold massFactor
          field_simp

/-- C185. Accelerating: from one result to the next one half a second passes, and the change of speed times the mass of the train
(with 6 % for rotating parts) is the sum of the tractive forces of all vehicles less the sum of their resistances at the speed
before; the distance grows by the mean of both speeds. The distance of the last result is excepted if it is the maximum distance. -/
theorem C185_accelerate (tp : Train) (initial target maxD : Rat) (fuel : Nat) (l : List Result)
    (h : accelerate fuel tp initial target maxD = .done l) (i : Nat) (a b : Result) (ha : l[i]? = some a) (hb : l[i + 1]? = some b) :
    b.time = a.time + 1 / 2 ∧
    (∃ fs rs, Forces tp a.speed fs rs ∧ tp.carriageWeight * (53 / 50) * (b.speed - a.speed) = (fs.sum - rs.sum) * (1 / 2)) ∧
    (b.dist = a.dist + (a.speed + b.speed) / 2 * (1 / 2) ∨ (b.dist = maxD ∧ l.length = i + 2)) := by
  obtain ⟨top, k, -, hch, -, rfl⟩ := accelerate_done h
  have step : ∀ (i : Nat) (x y : Result), ({ time := 0, dist := 0, speed := initial } :: k)[i]? = some x →
      ({ time := 0, dist := 0, speed := initial } :: k)[i + 1]? = some y → y.time = x.time + 1 / 2 ∧
      (∃ fs rs, Forces tp x.speed fs rs ∧ tp.carriageWeight * (53 / 50) * (y.speed - x.speed) = (fs.sum - rs.sum) * (1 / 2)) ∧
      y.dist = x.dist + (x.speed + y.speed) / 2 * (1 / 2) := by
    intro i x y hx hy
    rw [List.isChain_iff_getElem] at hch
    obtain ⟨h1, rfl⟩ := List.getElem?_eq_some_iff.mp hx
    obtain ⟨h2, rfl⟩ := List.getElem?_eq_some_iff.mp hy
    obtain ⟨acc, hacc, ht, hs, hd⟩ := accelStep_some (hch i h2).2
    obtain ⟨fs, rs, hf, hm⟩ := acceleration_forces hacc
    refine ⟨ht, ⟨fs, rs, hf, ?_⟩, ?_⟩
    · rw [hs, ← hm]; ring
    · rw [hd]; ring
  rcases cut_cases maxD ({ time := 0, dist := 0, speed := initial } :: k) (by simp) with
    ⟨last', hlast', hle, heq⟩ | ⟨x, last', hl, hgt, heq⟩ | ⟨last', hl, hgt, heq⟩ | ⟨k', x, last', hk', hl, hgt, heq⟩
  · rw [heq] at ha hb
    obtain ⟨g1, g2, g3⟩ := step i a b ha hb
    exact ⟨g1, g2, .inl g3⟩
  · rw [heq] at hb; simp at hb
  · rw [heq] at hb; simp at hb
  · rw [heq] at ha hb ⊢
    have hi : i < k'.length := by
      have := (List.getElem?_eq_some_iff.1 hb).1
      simp only [List.length_append, List.length_singleton] at this
      omega
    rw [List.getElem?_append_left hi] at ha
    have ha' : ({ time := 0, dist := 0, speed := initial } :: k)[i]? = some a := by
      rw [hl, List.getElem?_append_left hi, ha]
    by_cases hlast : i + 1 < k'.length
    · rw [List.getElem?_append_left hlast] at hb
      obtain ⟨g1, g2, g3⟩ := step i a b ha' (by rw [hl, List.getElem?_append_left hlast, hb])
      exact ⟨g1, g2, .inl g3⟩
    · have he : i + 1 = k'.length := by omega
      rw [he, List.getElem?_append_right (Nat.le_refl _), Nat.sub_self] at hb
      cases hb
      obtain ⟨g1, g2, g3⟩ := step i a x ha' (by rw [hl, he, List.getElem?_append_right (Nat.le_refl _), Nat.sub_self]; rfl)
      exact ⟨g1, g2, .inr ⟨rfl, by simp; omega⟩⟩

example : accelerate 4 (exTrain 106 (-1) 40) 0 1 10 = .done
      [{ time := 0, dist := 0, speed := 0 }, { time := 1 / 2, dist := 1 / 8, speed := 1 / 2 },
       { time := 1, dist := 1 / 2, speed := 1 }] ∧ (exTrain 106 (-1) 40).carriageWeight * (53 / 50) * (1 / 2 - 0) = (106 - 0) * (1 / 2) := by
  decide +kernel

/-- C185. Braking: a train brakes like its first vehicle, whatever the others can. With its deceleration `d` (a negative number) the
braking distance from `v` to `w` is `(v² - w²) / (2 |d|)`. -/
theorem C185_brake (tp : Train) (first : Vehicle) (others : List Vehicle) (v w : Rat) (hvs : tp.vehicles = first :: others)
    (hneg : first.deceleration < 0) (hv : w < v) (hw : 0 ≤ w) :
    ∃ l last, Returns (fun fuel => brake fuel tp v w) l ∧ l.getLast? = some last ∧ last.speed = w ∧
      last.dist = (v * v - w * w) / (2 * -first.deceleration) := by
  have ha : tp.deceleration = some first.deceleration := by unfold Train.deceleration; rw [hvs]
  obtain ⟨l, last, h1, -, h2, h3, h4, -⟩ := C53_brake_partial tp _ v w ha hneg hv hw
  refine ⟨l, last, h1, h2, h3, ?_⟩
  rw [eq_div_iff (by linarith)]
  linarith

example : (exTrain 0 (-1) 40).vehicles = exVehicle 0 (-1) :: [] ∧ (exVehicle 0 (-1)).deceleration < 0 ∧ (0 : Rat) < 21 / 10 := by
  decide +kernel

end Soro.Physics.Props
