/-
Model of the generic graph traversals `utls::bfs` and `utls::dfs`
(`include/soro/utls/graph/traversal.h`).

The node type, the neighbour function, the state of the caller and its two callbacks are arbitrary.
The outer `while` loop is bounded by fuel; `none` means that the fuel is used up. `Props/Traversal.lean` shows that fuel
`n + 2` suffices for graphs with `n` nodes.
-/

namespace Soro.Trav

/-- traversal.h:57-62: `std::queue` for bfs, `std::stack` for dfs -/
inductive Kind where
  | bfs | dfs
deriving DecidableEq, Repr

/-- traversal.h:28-29: the todo container (head = next element) and `seen` -/
structure TState (α : Type) where
  q : List (α × α)
  seen : List α

/-- `q.emplace`: at the back of a queue, on top of a stack -/
def push {β : Type} (k : Kind) (q : List β) (x : β) : List β :=
  match k with
  | .bfs => q ++ [x]
  | .dfs => x :: q

/-- traversal.h:49-52: remember and enqueue a neighbour that was not seen before -/
def visit {α : Type} [DecidableEq α] (k : Kind) (c : α) (t : TState α) (b : α) : TState α :=
  if b ∈ t.seen then t else { q := push k t.q (b, c), seen := b :: t.seen }

/-- traversal.h:44-53: the loop over the neighbours of `c`; the flag says that `work_on_edge` returned true. -/
def scan {α σ : Type} [DecidableEq α] (k : Kind) (workOnEdge : σ → α → α → σ × Bool) (c : α) :
    List α → TState α → σ → Bool × TState α × σ
  | [], t, s => (false, t, s)
  | b :: bs, t, s =>
    let r := workOnEdge s c b
    if r.2 then (true, t, r.1) else scan k workOnEdge c bs (visit k c t b) r.1

/-- traversal.h:33-54: the main loop -/
def loop {α σ : Type} [DecidableEq α] (k : Kind) (start : α) (out : α → List α)
    (workOnNode workOnEdge : σ → α → α → σ × Bool) : Nat → TState α → σ → Option σ
  | 0, _, _ => none
  | fuel + 1, t, s =>
    match t.q with
    | [] => some s
    | (c, p) :: q =>
      let r := if c ≠ start then workOnNode s c p else (s, false)
      if r.2 then some r.1
      else
        match scan k workOnEdge c (out c) { t with q := q } r.1 with
        | (true, _, s') => some s'
        | (false, t', s') => loop k start out workOnNode workOnEdge fuel t' s'

/-- traversal.h:15-55 `graph_traversal` (98-138: `bfs`, `dfs`); the final state of the caller. -/
def traverse {α σ : Type} [DecidableEq α] (k : Kind) (fuel : Nat) (start : α) (out : α → List α)
    (workOnNode workOnEdge : σ → α → α → σ × Bool) (s : σ) : Option σ :=
  loop k start out workOnNode workOnEdge fuel { q := [(start, start)], seen := [] } s

end Soro.Trav
