import Verif.Proof.HasCycle

/-! Property C27: `has_cycle` decides cyclicity. -/

namespace Soro
open HasCycle

/-- C27: on every graph with nodes `0 .. n-1` the search terminates (the recursion is never deeper than `n + 1`), and its
answer is whether some node is on a cycle. -/
theorem C27_has_cycle (n : Nat) (nbrs : Nat → List Nat) (hn : ∀ x, x < n → ∀ y ∈ nbrs x, y < n) :
    ∃ b, hasCycle n nbrs = some b ∧ (b = true ↔ ∃ i, i < n ∧ ReachPlus nbrs i i) := by
  have h := (impl_spec n hn (n + 1)).2 [] (List.range n) { visited := [], finished := [] }
    ⟨(by intro x hx; cases hx), by simp, by simp, by simp, by simp⟩ (fun m hm => List.mem_range.1 hm) (by simp) (by simp)
  unfold hasCycle
  match hr : implAll nbrs (n + 1) (List.range n) { visited := [], finished := [] } with
  | none => rw [hr] at h; exact h.elim
  | some (true, s') => rw [hr] at h; exact ⟨true, rfl, fun _ => h, fun _ => rfl⟩
  | some (false, s') =>
    rw [hr] at h
    refine ⟨false, rfl, by simp, ?_⟩
    rintro ⟨i, hi, hc⟩
    exact absurd hc (h.1.done i (h.2.1 i (List.mem_range.2 hi))).2

/-- a graph with an unreached cycle 2 → 3 → 2, and one without -/
example : (∀ x, x < 4 → ∀ y ∈ (fun i => [[1], [], [3], [2, 1]][i]?.getD []) x, y < 4) ∧
    hasCycle 4 (fun i => [[1], [], [3], [2, 1]][i]?.getD []) = some true ∧
    hasCycle 4 (fun i => [[1], [], [3, 0], [0, 1]][i]?.getD []) = some false := by
  refine ⟨by decide, ?_, ?_⟩ <;> simp [hasCycle, implAll, impl, show List.range 4 = [0, 1, 2, 3] from rfl]

end Soro
