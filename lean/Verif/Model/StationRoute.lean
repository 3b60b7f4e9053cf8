/-
Model of `src/infrastructure/station/station_route.cc` and `src/infrastructure/interlocking/interlocking_route.cc`.

A node is its id, a station route its position in `infrastructure::station_routes_`. Generators are modelled by the list of
the values they yield, `none` is undefined behaviour (an access beyond the end of a vector). Vectors of nodes are assumed
to be shorter than 2^16 (`node::idx`), as the assertion in station_route.cc:13-15 demands.
-/

namespace Soro.Route

/-- element types, as far as they matter here (include/soro/infrastructure/graph/type.h) -/
inductive Kind where
  | border | trackEnd | bumper | mainSignal | halt | other
  deriving DecidableEq, Repr

/-- `station_route` (include/soro/infrastructure/station/station_route.h:28-107): nodes of the path, the indices of the
omitted nodes, and the nodes of the extra speed limits -/
structure SRoute where
  nodes : List Nat
  omitted : List Nat
  spls : List Nat
  deriving DecidableEq, Repr

/-- `route_node` (station_route.h:19-25); the extra speed limit as index into `extra_speed_limits_` -/
structure RNode where
  node : Nat
  extra : Option Nat
  omitted : Bool
  deriving DecidableEq, Repr

/-- include/soro/infrastructure/graph/node.h:22 -/
def INVALID_IDX : Nat := 65535

/-- station_route.cc:12-18 -/
def SRoute.size (r : SRoute) : Nat := r.nodes.length

/-- station_route.cc:127-137: how many extra speed limits lie on the first nodes -/
def ffSpl (spls : List Nat) : List Nat → Nat → Nat
  | [], k => k
  | n :: ns, k =>
    let k' := if spls[k]? = some n then k + 1 else k
    if k' = spls.length then k' else ffSpl spls ns k'

/-- station_route.cc:106-142 -/
def fastForward (r : SRoute) (ffTo : Nat) : Nat × Nat :=
  let init := (if r.omitted.isEmpty then INVALID_IDX else 0, if r.spls.isEmpty then INVALID_IDX else 0)
  if ffTo = 0 then init
  else
    let omitIdx := if r.omitted.isEmpty then init.1 else r.omitted.findIdx (fun o => decide (ffTo ≤ o))
    if r.spls.isEmpty then (omitIdx, init.2)
    else (omitIdx, ffSpl r.spls (r.nodes.take ffTo) 0)

/-- station_route.cc:161-181: the loop with the remaining number of nodes, `node_idx`, `omit_idx`, `spl_idx` and the
current value of `result.extra_spl_` -/
def yieldLoop (r : SRoute) : Nat → Nat → Nat → Nat → Option Nat → Option (List RNode)
  | 0, _, _, _, _ => some []
  | n + 1, idx, oi, spl, extra =>
    match r.nodes[idx]? with
    | none => none
    | some nd =>
      if r.omitted[oi]? = some idx then
        (yieldLoop r n (idx + 1) (oi + 1) spl extra).map (⟨nd, extra, true⟩ :: ·)
      else if r.spls[spl]? = some nd then
        (yieldLoop r n (idx + 1) oi (spl + 1) (some spl)).map (⟨nd, some spl, false⟩ :: ·)
      else
        (yieldLoop r n (idx + 1) oi spl extra).map (⟨nd, extra, false⟩ :: ·)

/-- station_route.cc:148-182 `station_route::from_to` -/
def SRoute.fromTo (r : SRoute) (frm to : Nat) : Option (List RNode) :=
  if r.size ≤ frm then some []
  else
    let ff := fastForward r frm
    yieldLoop r (to - frm) frm ff.1 ff.2 none

/-- station_route.cc:144-146 -/
def SRoute.iterate (r : SRoute) : Option (List RNode) := r.fromTo 0 r.size

/-- station_route.cc:184-187 -/
def SRoute.from_ (r : SRoute) (frm : Nat) : Option (List RNode) := r.fromTo frm r.size

/-- station_route.cc:189-191 -/
def SRoute.to (r : SRoute) (to : Nat) : Option (List RNode) := r.fromTo 0 to

/-! ### kinds of station routes -/

/-- station_route.cc:28-31; `none`: no nodes, `front()` is undefined -/
def startsAtBoundary (kind : Nat → Kind) (r : SRoute) : Option Bool :=
  r.nodes.head?.map fun n => decide (kind n = .border) || decide (kind n = .trackEnd)

/-- station_route.cc:33-36 -/
def endsAtBoundary (kind : Nat → Kind) (r : SRoute) : Option Bool :=
  r.nodes.getLast?.map fun n => decide (kind n = .border) || decide (kind n = .trackEnd)

/-- station_route.cc:42-44 -/
def isThrough (kind : Nat → Kind) (r : SRoute) : Option Bool :=
  (startsAtBoundary kind r).bind fun s => if s then endsAtBoundary kind r else some false

/-- station_route.cc:46-48 -/
def isIn (kind : Nat → Kind) (r : SRoute) : Option Bool :=
  (startsAtBoundary kind r).bind fun s => if s then (endsAtBoundary kind r).map (!·) else some false

/-- station_route.cc:50-52 -/
def isOut (kind : Nat → Kind) (r : SRoute) : Option Bool :=
  (startsAtBoundary kind r).bind fun s => if !s then endsAtBoundary kind r else some false

/-- station_route.cc:54-56 -/
def isContained (kind : Nat → Kind) (r : SRoute) : Option Bool :=
  (startsAtBoundary kind r).bind fun s => if !s then (endsAtBoundary kind r).map (!·) else some false

/-! ### interlocking routes -/

/-- `interlocking_route` (include/soro/infrastructure/interlocking/interlocking_route.h:76-84) without its id -/
structure IR where
  start : Nat
  stop : Nat
  srs : List Nat
  deriving DecidableEq, Repr

/-- `sub_path` (interlocking_route.h:14-20) -/
structure SubPath where
  sr : Nat
  frm : Nat
  to : Nat
  deriving DecidableEq, Repr

/-- interlocking_route.h:15 -/
def SubPath.contains (s : SubPath) (idx : Nat) : Bool := decide (s.frm ≤ idx) && decide (idx < s.to)

/-- interlocking_route.cc:28-43; `infra` are the station routes, subtraction and addition in `uint16_t`.
`none`: no station route or an unknown id. -/
def IR.size (ir : IR) (infra : List SRoute) : Option Nat :=
  match ir.srs with
  | [] => none
  | [_] => some (((ir.stop : Int) - ir.start) % 65536).toNat
  | srs =>
    (srs.mapM fun s => infra[s]?.map SRoute.size).bind fun sizes =>
      sizes.getLast?.map fun (last : Nat) => (((sizes.sum : Int) - ir.start - ((last : Int) - ir.stop)) % 65536).toNat

/-- interlocking_route.cc:45-64 -/
def IR.contains (ir : IR) (sr idx : Nat) : Option Bool :=
  match ir.srs with
  | [] => none
  | [s] => some (decide (s = sr) && decide (ir.start ≤ idx) && decide (idx < ir.stop))
  | s :: rest =>
    some (if decide (s = sr) && decide (ir.start ≤ idx) then true
      else if decide (rest.getLast? = some sr) && decide (idx < ir.stop) then true
      else rest.dropLast.any fun m => decide (m = sr))

/-- append the values of the next generator -/
def app (a b : Option (List RNode)) : Option (List RNode) := a.bind fun x => b.map fun y => x ++ y

/-- interlocking_route.cc:155-157: iterate the station routes between first and last completely -/
def iterAll (infra : List SRoute) : List Nat → Option (List RNode)
  | [] => some []
  | s :: ss => app (infra[s]?.bind SRoute.iterate) (iterAll infra ss)

/-- interlocking_route.cc:127-160 `detail::from_to`, the iterators as positions `i`, `j` in the vector of station routes.
If `j ≤ i` the loop runs past the end of the vector: `none`. -/
def IR.detailFromTo (ir : IR) (infra : List SRoute) (i frm j to : Nat) : Option (List RNode) :=
  if j ≤ i then none
  else
    match ir.srs[i]?.bind fun s => infra[s]?, ir.srs[j]?.bind fun s => infra[s]? with
    | some f, some l => app (f.from_ frm) (app (iterAll infra ((ir.srs.take j).drop (i + 1))) (l.to to))
    | _, _ => none

/-- interlocking_route.cc:164-199 -/
def IR.fromTo (ir : IR) (infra : List SRoute) (fromSr frm toSr to : Nat) : Option (List RNode) :=
  match ir.srs with
  | [] => none
  | [s] => infra[s]?.bind fun r => r.fromTo frm to
  | srs =>
    let i := srs.findIdx (fun x => decide (x = fromSr))
    let j := srs.findIdx (fun x => decide (x = toSr))
    match srs[i]?, srs[j]? with
    | some a, some b => if a = b then infra[a]?.bind fun r => r.fromTo frm to else ir.detailFromTo infra i frm j to
    | _, _ => none

/-- interlocking_route.cc:201-206 -/
def IR.to (ir : IR) (infra : List SRoute) (sr to : Nat) : Option (List RNode) :=
  ir.srs.head?.bind fun f => ir.fromTo infra f ir.start sr to

/-- interlocking_route.cc:208-213 -/
def IR.from_ (ir : IR) (infra : List SRoute) (sr frm : Nat) : Option (List RNode) :=
  ir.srs.getLast?.bind fun l => ir.fromTo infra sr frm l ir.stop

/-- interlocking_route.cc:215-224 -/
def IR.iterate (ir : IR) (infra : List SRoute) : Option (List RNode) :=
  match ir.srs with
  | [] => none
  | [s] => infra[s]?.bind fun r => r.fromTo ir.start ir.stop
  | srs => ir.detailFromTo infra 0 ir.start (srs.length - 1) ir.stop

/-- interlocking_route.cc:226-252 -/
def IR.subPaths (ir : IR) (infra : List SRoute) : Option (List SubPath) :=
  match ir.srs with
  | [] => none
  | [s] => if s < infra.length then some [⟨s, ir.start, ir.stop⟩] else none
  | s :: rest =>
    infra[s]?.bind fun f =>
    (rest.dropLast.mapM fun m => infra[m]?.map fun r => (⟨m, 0, r.size⟩ : SubPath)).bind fun mid =>
    rest.getLast?.bind fun l => infra[l]?.map fun _ => ⟨s, ir.start, f.size⟩ :: mid ++ [⟨l, 0, ir.stop⟩]

/-- interlocking_route.cc:93-95 -/
def IR.firstNode (ir : IR) (infra : List SRoute) : Option Nat :=
  ir.srs.head?.bind fun s => infra[s]?.bind fun r => r.nodes[ir.start]?

/-- interlocking_route.cc:97-99; `end_offset_ - 1` is an `int`, -1 converts to `node::idx` 65535 -/
def IR.lastNode (ir : IR) (infra : List SRoute) : Option Nat :=
  ir.srs.getLast?.bind fun s => infra[s]?.bind fun r => if ir.stop = 0 then r.nodes[INVALID_IDX]? else r.nodes[ir.stop - 1]?

/-- interlocking_route.cc:116-119 -/
def IR.follows (ir other : IR) (infra : List SRoute) : Option Bool :=
  (ir.firstNode infra).bind fun f => (other.lastNode infra).map fun l => decide (f = l)

/-! ### construction of a station route's annotations -/

/-- parse_iss.cc:781-803: for every index of a track element record the omitted nodes; `isTrack` is `is_track_element`
and `om` the set of nodes to omit. -/
def omittedLoop (isTrack om : Nat → Bool) : Nat → List Nat → List Nat
  | _, [] => []
  | i, n :: ns => if isTrack n && om n then i :: omittedLoop isTrack om (i + 1) ns else omittedLoop isTrack om (i + 1) ns

/-- parse_iss.cc:788-798 the same loop for a halt or the runtime checkpoint: the last node of the element wins. `el n` is
the element of node `n`, `e` the wanted element (`none`: `nullptr`). -/
def haltLoop (isTrack : Nat → Bool) (el : Nat → Nat) (e : Option Nat) : Nat → List Nat → Option Nat → Option Nat
  | _, [], acc => acc
  | i, n :: ns, acc => haltLoop isTrack el e (i + 1) ns (if isTrack n && decide (e = some (el n)) then some i else acc)

end Soro.Route
