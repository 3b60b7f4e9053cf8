import Verif.Model.ExclusionDebug
import Verif.Proof.ExclElements
import Verif.Proof.InterlockingDebug
import Verif.Proof.ExclusionSetDebug
import Verif.Props.Exclusion
import Verif.Props.HasCycle

/-! Proofs about the exclusion data in a build with assertions. -/

namespace Soro.Infra
open Dbg

theorem usedSectionsD_same (ids : Nat → List Nat) (route : List Item) (acc : List Nat)
    (h : ∀ e ∈ route, e.ty.isTrack = true → (ids e.id).length = 1) :
    ∃ used, route.foldlM (useSection ids) acc = some used ∧ route.foldlM (useSectionD ids) acc = .ok used ∧
      (used = [] ↔ acc = [] ∧ ∀ e ∈ route, e.ty.isTrack = false) := by
  induction route generalizing acc with
  | nil => exact ⟨acc, rfl, rfl, by simp⟩
  | cons e l ih =>
    have h' : ∀ x ∈ l, x.ty.isTrack = true → (ids x.id).length = 1 := fun x hx => h x (List.mem_cons_of_mem _ hx)
    cases ht : e.ty.isTrack with
    | false =>
      obtain ⟨u, h1, h2, h3⟩ := ih acc h'
      refine ⟨u, ?_, ?_, by simp [h3, ht]⟩
      · rw [List.foldlM_cons]; simp only [useSection, ht]; exact h1
      · rw [List.foldlM_cons]; simp only [useSectionD, ht]; exact h2
    | true =>
      have hl := h e (by simp) ht
      obtain ⟨s, hs⟩ := List.length_eq_one_iff.mp hl
      have hu : ∃ u, useSection ids acc e = some u ∧ u ≠ [] := by
        simp only [useSection, ht, hs]
        by_cases hg : acc.getLast? = some s
        · exact ⟨acc, by simp [hg], by rintro rfl; simp at hg⟩
        · exact ⟨acc ++ [s], by simp [hg], by simp⟩
      obtain ⟨u, hu, hne⟩ := hu
      obtain ⟨v, h1, h2, h3⟩ := ih u h'
      refine ⟨v, ?_, ?_, by simp [h3, hne, ht]⟩
      · rw [List.foldlM_cons, hu]; exact h1
      · rw [List.foldlM_cons]
        have : useSectionD ids acc e = .ok u := by
          unfold useSectionD
          rw [ht, check_pos hl, ok_bind, hu]; rfl
        rw [this]; exact h2

theorem usedSectionsD_stops (ids : Nat → List Nat) (route : List Item) (acc : List Nat)
    (h : ∃ e ∈ route, e.ty.isTrack = true ∧ (ids e.id).length ≠ 1) :
    route.foldlM (useSectionD ids) acc = .error (.assertion 60) := by
  induction route generalizing acc with
  | nil => obtain ⟨e, he, -⟩ := h; cases he
  | cons e l ih =>
    rw [List.foldlM_cons]
    cases ht : e.ty.isTrack with
    | false =>
      have : useSectionD ids acc e = .ok acc := by simp [useSectionD, ht]
      rw [this]
      refine ih acc ?_
      obtain ⟨x, hx, hxt, hxl⟩ := h
      rcases List.mem_cons.1 hx with rfl | hx
      · rw [ht] at hxt; cases hxt
      · exact ⟨x, hx, hxt, hxl⟩
    | true =>
      by_cases hl : (ids e.id).length = 1
      · have hs : ∃ u, useSectionD ids acc e = .ok u := by
          obtain ⟨s, hs⟩ := List.length_eq_one_iff.mp hl
          unfold useSectionD
          rw [ht, check_pos hl, ok_bind]
          simp only [useSection, ht, hs]
          by_cases hg : acc.getLast? = some s
          · exact ⟨acc, by simp [hg, lift]⟩
          · exact ⟨acc ++ [s], by simp [hg, lift]⟩
        obtain ⟨u, hu⟩ := hs
        rw [hu]
        refine ih u ?_
        obtain ⟨x, hx, hxt, hxl⟩ := h
        rcases List.mem_cons.1 hx with rfl | hx
        · exact absurd hl hxl
        · exact ⟨x, hx, hxt, hxl⟩
      · have : useSectionD ids acc e = .error (.assertion 60) := by
          unfold useSectionD
          rw [ht, check_neg hl]; rfl
        rw [this]; rfl

theorem exclusionElementsD_same (sections : List Section) (ids : Nat → List Nat) (route : List Item)
    (h : ∀ e ∈ route, e.ty.isTrack = true → (ids e.id).length = 1) (ht : ∃ e ∈ route, e.ty.isTrack = true) :
    exclusionElementsD sections ids route = lift (exclusionElements sections ids route) := by
  obtain ⟨u, -, h2, h3⟩ := usedSectionsD_same ids route [] h
  have hu : u ≠ [] := by
    intro he
    obtain ⟨e, he', hte⟩ := ht
    have := (h3.1 he).2 e he'
    rw [hte] at this; cases this
  unfold exclusionElementsD usedSectionsD
  rw [h2, ok_bind, check_pos hu, ok_bind]

theorem exclusionElementsD_none (sections : List Section) (ids : Nat → List Nat) (route : List Item)
    (ht : ∀ e ∈ route, e.ty.isTrack = false) :
    exclusionElementsD sections ids route = .error (.assertion 103) ∧ exclusionElements sections ids route = none := by
  obtain ⟨u, h1, h2, h3⟩ := usedSectionsD_same ids route [] (fun e he h => by rw [ht e he] at h; cases h)
  obtain rfl := h3.2 ⟨rfl, ht⟩
  constructor
  · unfold exclusionElementsD usedSectionsD
    rw [h2, ok_bind, check_neg (by simp)]; rfl
  · unfold exclusionElements usedSections
    rw [h1]
    cases route.head? <;> cases route.getLast? <;> rfl

theorem exclusionElementsD_stops (sections : List Section) (ids : Nat → List Nat) (route : List Item)
    (h : ¬ ((∀ e ∈ route, e.ty.isTrack = true → (ids e.id).length = 1) ∧ ∃ e ∈ route, e.ty.isTrack = true)) :
    Stops (exclusionElementsD sections ids route) := by
  by_cases h1 : ∃ e ∈ route, e.ty.isTrack = true ∧ (ids e.id).length ≠ 1
  · refine ⟨60, ?_⟩
    unfold exclusionElementsD usedSectionsD
    rw [usedSectionsD_stops ids route [] h1]; rfl
  · have h2 : ∀ e ∈ route, e.ty.isTrack = true → (ids e.id).length = 1 := by
      intro e he ht
      exact Classical.byContradiction fun hc => h1 ⟨e, he, ht, hc⟩
    have h3 : ∀ e ∈ route, e.ty.isTrack = false := by
      intro e he
      cases ht : e.ty.isTrack
      · rfl
      · exact absurd ⟨h2, e, he, ht⟩ h
    exact ⟨103, (exclusionElementsD_none sections ids route h3).1⟩

theorem exclusionElements_sorted {sections : List Section} {ids : Nat → List Nat} {route : List Item} {r : List Nat}
    (h : exclusionElements sections ids route = some r) : r.Pairwise (· ≤ ·) := by
  unfold exclusionElements at h
  simp only [Option.bind_eq_some_iff] at h
  obtain ⟨used, -, first, -, last, -, fs, -, ls, -, h⟩ := h
  split at h
  · unfold exclusionOne at h
    obtain ⟨l, -, rfl⟩ := Option.map_eq_some_iff.1 h
    exact Algo.lt_le (Algo.eraseDup_lt _)
  · obtain ⟨m, -, h⟩ := Option.bind_eq_some_iff.1 h
    obtain ⟨z, -, rfl⟩ := Option.map_eq_some_iff.1 h
    exact Algo.lt_le (Algo.eraseDup_lt _)

end Soro.Infra

namespace Soro.Dbg

theorem mapM_same {α β : Type} {f : α → Dbg β} {g : α → Option β} {l : List α} (h : ∀ x ∈ l, f x = lift (g x)) :
    l.mapM f = lift (l.mapM g) := by
  induction l with
  | nil => rfl
  | cons a l ih =>
    rw [List.mapM_cons, List.mapM_cons, h a (by simp), ih fun x hx => h x (List.mem_cons_of_mem _ hx)]
    cases g a with
    | none => rfl
    | some b => cases l.mapM g <;> rfl

/-- the first call that does not return -/
theorem mapM_stops {α β : Type} {f : α → Dbg β} {l : List α} (h : ∀ x ∈ l, (∃ y, f x = .ok y) ∨ Stops (f x))
    (hs : ∃ x ∈ l, Stops (f x)) : Stops (l.mapM f) := by
  induction l with
  | nil => obtain ⟨x, hx, -⟩ := hs; cases hx
  | cons a l ih =>
    rw [List.mapM_cons]
    rcases h a (by simp) with ⟨y, hy⟩ | ⟨n, hn⟩
    · rw [hy, ok_bind]
      have : ∃ x ∈ l, Stops (f x) := by
        obtain ⟨x, hx, hxs⟩ := hs
        rcases List.mem_cons.1 hx with rfl | hx
        · obtain ⟨n, hn⟩ := hxs
          rw [hy] at hn; cases hn
        · exact ⟨x, hx, hxs⟩
      obtain ⟨n, hn⟩ := ih (fun x hx => h x (List.mem_cons_of_mem _ hx)) this
      exact ⟨n, by rw [hn]; rfl⟩
    · exact ⟨n, by rw [hn]; rfl⟩

end Soro.Dbg

namespace Soro.Exclusion
open Dbg Algo

theorem exclusionNodeD_same (ch : Nat → Nat) (closed usedBy : List (List Nat)) (firstNode lastNode : Nat → Nat)
    (startingAt endingAt : Nat → List Nat) (u : Nat)
    (hub : ∀ e ∈ closed[u]?.getD [], (usedBy[e]?.getD []).Pairwise (· < ·) ∧
      ∀ r, r ∈ usedBy[e]?.getD [] ↔ e ∈ closed[r]?.getD [])
    (hsz : closed.length ≤ 2 ^ 32 - 64) :
    exclusionNodeD ch closed usedBy firstNode lastNode startingAt endingAt u =
      lift (exclusionNode ch closed usedBy firstNode lastNode startingAt endingAt u) := by
  unfold exclusionNodeD exclusionNode
  dsimp only
  obtain ⟨l, h1, h2, h3⟩ := multiSetMerge_spec ch ((closed[u]?.getD []).map fun e => usedBy[e]?.getD []) (by
    intro r hr
    obtain ⟨e, he, rfl⟩ := List.mem_map.1 hr
    exact (hub e he).1)
  rw [h1]
  have hv : ValidIds (setDifference l (eraseDup (startingAt (lastNode u) ++ endingAt (firstNode u)))) := by
    refine ⟨(lt_le h2).sublist (setDifference_sublist _ _), fun i hi => ?_⟩
    have hi' := (setDifference_sublist _ _).subset hi
    obtain ⟨r, hr, hv⟩ := (h3 i).1 hi'
    obtain ⟨e, he, rfl⟩ := List.mem_map.1 hr
    have he' := ((hub e he).2 i).1 hv
    have : i < closed.length := by
      rcases Nat.lt_or_ge i closed.length with h' | h'
      · exact h'
      · rw [List.getElem?_eq_none h'] at he'; cases he'
    omega
  obtain ⟨s, h4, h5⟩ := ES.makeD_same INVALID _ hv
  show ES.makeD _ _ = lift (ES.make _ _)
  rw [h4, h5]; rfl

end Soro.Exclusion
