/-
Model of `utls::has_cycle` (`include/soro/utls/graph/has_cycle.h`).

The recursion is bounded by fuel; `none` means the fuel is used up. `Props/HasCycle.lean` shows that fuel `n + 1`
suffices for graphs with `n` nodes.
-/

namespace Soro.HasCycle

/-- has_cycle.h:17-18: `visited` and `finished`, as sets of nodes -/
structure DState where
  visited : List Nat
  finished : List Nat

mutual
/-- has_cycle.h:21-42 `cycle_detection_impl` -/
def impl (nbrs : Nat → List Nat) : Nat → Nat → DState → Option (Bool × DState)
  | 0, _, _ => none
  | fuel + 1, n, s =>
    if n ∈ s.finished then some (false, s)
    else if n ∈ s.visited then some (true, s)
    else
      match implAll nbrs fuel (nbrs n) { s with visited := n :: s.visited } with
      | none => none
      | some (true, s') => some (true, s')
      | some (false, s') => some (false, { s' with finished := n :: s'.finished })

/-- has_cycle.h:33-37: the loop over the neighbours -/
def implAll (nbrs : Nat → List Nat) (fuel : Nat) : List Nat → DState → Option (Bool × DState)
  | [], s => some (false, s)
  | m :: ms, s =>
    match impl nbrs fuel m s with
    | none => none
    | some (true, s') => some (true, s')
    | some (false, s') => implAll nbrs fuel ms s'
end

/-- has_cycle.h:14-55 `has_cycle` on the nodes `0 .. n-1`: `any_of` over all nodes, which is the same loop as over
neighbours. -/
def hasCycle (n : Nat) (nbrs : Nat → List Nat) : Option Bool :=
  (implAll nbrs (n + 1) (List.range n) { visited := [], finished := [] }).map (·.1)

end Soro.HasCycle
