import Mathlib.Data.List.Basic

/-
Model of the switches that highlight routes: `web/client/src/components/base/soro-switch.vue`, their use in
`web/client/src/components/sidebar/station/station.vue` and the actions of `web/client/src/stores/sidebar-store.ts`.

Station routes and interlocking routes have lists of their own and are treated alike; one kind is modelled. Infrastructures
and routes are numbers, `ok i r`: the server knows route `r` of infrastructure `i` and answers with its path. A highlighted
route is modelled by the infrastructure it was asked from and its id; the code keeps the id and the path only, so
comparisons use the id. Not modelled: labels, colours, drawing (see `InfraMap`).
-/

namespace Soro.RouteSwitch

/-- `infra`: `currentInfrastructure`; `shown`: the highlighted routes (sidebar-store.ts:27-28); `asked`: requests without an
answer; `switches`: `isChecked` of the switch of a route in the panel, `none` without one -/
structure State where
  infra : Option Nat
  shown : List (Nat × Nat)
  asked : List (Nat × Nat)
  switches : Nat → Option Bool

/-- sidebar-store.ts:54-75: nothing is highlighted at first, no station is shown -/
def State.init (infra : Option Nat) : State := ⟨infra, [], [], fun _ => none⟩

/-- `panel`: the panel shows the switches of these routes from now on, since a station has been fetched, or the panel has been
opened or closed (then there are none); `toggle`: a click on a switch; `answer`: the server answers a request;
`infra`: another infrastructure is selected -/
inductive Event where
  | panel (ids : List Nat)
  | toggle (r : Nat)
  | answer (k : Nat)
  | infra (i : Option Nat)
deriving DecidableEq

/-- station.vue:105-107 -/
def State.isInitiallyChecked (s : State) (r : Nat) : Bool := s.shown.any fun f => f.2 == r

/-- station.vue:9-19, 24-34 and soro-switch.vue:45-49: a switch with a known key is kept, a new one looks at the list once -/
def State.panel (s : State) (ids : List Nat) : State :=
  { s with switches := fun r => if r ∈ ids then some ((s.switches r).getD (s.isInitiallyChecked r)) else none }

/-- sidebar-store.ts:148-158, 164-177: the request -/
def State.add (s : State) (r : Nat) : State :=
  match s.infra with
  | none => s
  | some i => { s with asked := s.asked ++ [(i, r)] }

/-- sidebar-store.ts:118-122, 128-133, 160-162, 179-181 -/
def State.delete (s : State) (r : Nat) : State := { s with shown := s.shown.filter fun f => f.2 != r }

/-- soro-switch.vue:51-59 -/
def State.toggle (s : State) (r : Nat) : State :=
  match s.switches r with
  | none => s
  | some b =>
    let s' : State := { s with switches := fun q => if q = r then some (!b) else s.switches q }
    if !b then s'.add r else s'.delete r

/-- sidebar-store.ts:114-116, 124-126, 157, 176: an error leaves the action before `commit` -/
def State.answer (ok : Nat → Nat → Bool) (s : State) (k : Nat) : State :=
  match s.asked[k]? with
  | none => s
  | some q => { s with shown := if ok q.1 q.2 then s.shown ++ [q] else s.shown, asked := s.asked.eraseIdx k }

def State.step (ok : Nat → Nat → Bool) (s : State) : Event → State
  | .panel ids => s.panel ids
  | .toggle r => s.toggle r
  | .answer k => s.answer ok k
  /- sidebar-store.ts:183-186: the highlighted routes are kept -/
  | .infra i => { s with infra := i }

def run (ok : Nat → Nat → Bool) (evs : List Event) (s : State) : State := evs.foldl (State.step ok) s

end Soro.RouteSwitch
