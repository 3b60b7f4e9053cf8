import Verif.Model.Algo
import Verif.Model.ExclusionSet

/-
Model of the exclusion data of an infrastructure: `src/infrastructure/exclusion/get_exclusion.cc`,
`get_exclusion_graph.cc` and the second half of `exclusion_elements.cc`.

Routes and elements are their ids. Jobs of `utl::parallel_for_run` write to their own vector entry only, they are
modelled by a map. The explicitly created threads of `get_closed_element_used_by` are modelled with all interleavings
of their atomic steps.
-/

namespace Soro.Exclusion

open Algo

/-- get_exclusion.cc:25-28: push exclusion set `id` to the routes in the set; `none`: route id out of range -/
def pushAll (id : Nat) : List Nat → List (List Nat) → Option (List (List Nat))
  | [], acc => some acc
  | r :: rs, acc => if r < acc.length then pushAll id rs (acc.modify r (· ++ [id])) else none

/-- get_exclusion.cc:24-29 -/
def irsLoop : Nat → List (List Nat) → List (List Nat) → Option (List (List Nat))
  | _, [], acc => some acc
  | id, s :: ss, acc => (pushAll id s acc).bind fun acc' => irsLoop (id + 1) ss acc'

/-- get_exclusion.cc:16-32 `get_irs_to_exclusion_sets` -/
def irsToExclusionSets (sets : List (List Nat)) (irCount : Nat) : Option (List (List Nat)) :=
  irsLoop 0 sets (List.replicate irCount [])

/-! ### get_closed_element_used_by -/

/-- get_exclusion.cc:52-55: first and one past the last route of thread `t` of `T` -/
def batch (irCount T t : Nat) : Nat × Nat :=
  let batchSize := irCount / T
  (t * batchSize, if t = T - 1 then irCount else (t + 1) * batchSize)

/-- get_exclusion.cc:57-61: the `emplace_back` operations of thread `t` as (element, route), in program order -/
def threadOps (closed : List (List Nat)) (T t : Nat) : List (Nat × Nat) :=
  let b := batch closed.length T t
  (List.range' b.1 (b.2 - b.1)).flatMap fun ir => (closed[ir]?.getD []).map fun e => (e, ir)

/-- The shared state: what every thread still has to do, and `thread_results[t][e]`. -/
structure UState where
  todo : List (List (Nat × Nat))
  res : Nat → Nat → List Nat

/-- get_exclusion.cc:46-47, 66-70: all threads are started -/
def initThreads (closed : List (List Nat)) (T : Nat) : UState :=
  { todo := (List.range T).map (threadOps closed T), res := fun _ _ => [] }

/-- Thread `t` performs its next `emplace_back` (get_exclusion.cc:59); `none`: element id out of range. A finished thread
does nothing. -/
def stepThread (elementCount : Nat) (s : UState) (t : Nat) : Option UState :=
  match s.todo[t]? with
  | some ((e, r) :: rest) =>
    if e < elementCount then
      some { todo := s.todo.set t rest
             res := fun t' e' => if t' = t ∧ e' = e then s.res t e ++ [r] else s.res t' e' }
    else none
  | _ => some s

/-- an interleaving of the threads: `sched` lists which thread performs the next step -/
def runThreads (elementCount : Nat) : List Nat → UState → Option UState
  | [], s => some s
  | t :: ts, s => (stepThread elementCount s t).bind (runThreads elementCount ts)

/-- get_exclusion.cc:72: `join` returns for all threads -/
def finished (s : UState) : Bool := s.todo.all List.isEmpty

/-- get_exclusion.cc:78-90: combine the thread results and erase duplicates -/
def combine (elementCount T : Nat) (s : UState) : List (List Nat) :=
  (List.range elementCount).map fun e => eraseDup ((List.range T).flatMap fun t => s.res t e)

/-! ### get_exclusion_graph.cc -/

/-- get_exclusion_graph.cc:36-61: the exclusion set of one route. `firstNode`, `lastNode`: end nodes of the routes,
`startingAt`, `endingAt`: `interlocking_.starting_at_` and `ending_at_`. -/
def exclusionNode (ch : Nat → Nat) (closed usedBy : List (List Nat)) (firstNode lastNode : Nat → Nat)
    (startingAt endingAt : Nat → List Nat) (ir : Nat) : Option ES :=
  let ranges := (closed[ir]?.getD []).map fun e => usedBy[e]?.getD []
  match multiSetMerge ch ranges with
  | none => none
  | some merged =>
    let remove := eraseDup (startingAt (lastNode ir) ++ endingAt (firstNode ir))
    ES.make INVALID (setDifference merged remove)

/-- get_exclusion_graph.cc:14-64; `ch ir` are the heap choices while route `ir` is processed -/
def exclusionGraph (ch : Nat → Nat → Nat) (closed usedBy : List (List Nat)) (firstNode lastNode : Nat → Nat)
    (startingAt endingAt : Nat → List Nat) : Option (List ES) :=
  (List.range closed.length).mapM fun ir => exclusionNode (ch ir) closed usedBy firstNode lastNode startingAt endingAt ir

/-! ### exclusion_elements.cc -/

/-- exclusion_elements.cc:157-171 `get_open_exclusion_elements`; routes as (id, first element, last element).
`utl::erase` removes all equal elements. `none`: route id out of range. -/
def openElements : List (Nat × Nat × Nat) → List (List Nat) → Option (List (List Nat))
  | [], acc => some acc
  | (id, f, l) :: rs, acc =>
    if id < acc.length then openElements rs (acc.modify id fun es => (es.filter (· != f)).filter (· != l)) else none

end Soro.Exclusion
