/-!
The station panel of the web client: `web/client/src/components/sidebar/station/station.vue:41-108`,
`web/client/src/components/sidebar/sidebar.vue:18-27, 77-104`, the click on a station of the map
(`web/client/src/components/infrastructure/infrastructure-map.vue:351-383`) and the choice of an infrastructure
(`web/client/src/stores/sidebar-store.ts:188-199`) as far as it matters for the panel.

Infrastructures and stations are numbers; an answer of the server is the pair that was asked for. Everything vue does after a change
of the state (watchers, mounting) happens before the next event. Answers to a panel that was closed have no effect.
-/

namespace Soro.StationPanel

inductive Overlay where
  | menu | search | station
  deriving DecidableEq, Repr

/-- station.vue:57-64: a mounted panel; `shown`: the station in `data`, `none` for the id -1; `asked`: requests without answer -/
structure Panel where
  shown : Option (Option Nat × Nat)
  asked : List (Option Nat × Nat)
  deriving DecidableEq, Repr

/-- stores.ts:9-13, sidebar-store.ts:11-30 -/
structure State where
  infra : Option Nat
  station : Option Nat
  visible : Bool
  overlay : Overlay
  panel : Option Panel
  deriving DecidableEq, Repr

/-- stores.ts:18-24, sidebar-store.ts:54-74 -/
def State.init : State := ⟨none, none, false, .menu, none⟩

/-- what happens: a station of the map is clicked, an infrastructure is chosen, a button of the sidebar is pressed, the server answers
the request at a position, a request fails -/
inductive Event where
  | click (station : Nat)
  | infra (name : Option Nat)
  | button (o : Overlay)
  | answer (k : Nat)
  | fail (k : Nat)
  deriving DecidableEq, Repr

/-- station.vue:95-104: the request is sent -/
def State.ask (s : State) (p : Panel) (i : Nat) : Panel := { p with asked := p.asked ++ [(s.infra, i)] }

/-- sidebar.vue:26, station.vue:81-85: the panel exists while its overlay is selected; when it is mounted it asks for the current station -/
def State.render (s : State) : State :=
  if s.overlay = .station then
    match s.panel with
    | some _ => s
    | none => { s with panel := some (match s.station with | some i => s.ask ⟨none, []⟩ i | none => ⟨none, []⟩) }
  else { s with panel := none }

/-- sidebar.vue:78-85 and station.vue:76-78: the watchers of `currentStation`, called if it has changed -/
def State.watch (s : State) (i : Nat) : State :=
  let s := { s with panel := s.panel.map fun p => s.ask p i }
  if i = 0 then s else { s with visible := true, overlay := .station }

/-- infrastructure-map.vue:370-373 -/
def State.click (s : State) (i : Nat) : State :=
  let old := s.station
  let s := { s with overlay := .station, visible := true, station := some i }
  let s := if old = some i then s else s.watch i
  s.render

/-- sidebar.vue:91-103 -/
def State.button (s : State) (o : Overlay) : State :=
  if s.overlay = o then { s with visible := !s.visible }
  else State.render { s with visible := true, overlay := o }

/-- station.vue:100-103 -/
def Panel.answer (p : Panel) (k : Nat) : Panel :=
  match p.asked[k]? with
  | some r => ⟨some r, p.asked.eraseIdx k⟩
  | none => p

/-- station.vue:96-98: the promise is rejected -/
def Panel.fail (p : Panel) (k : Nat) : Panel := { p with asked := p.asked.eraseIdx k }

def State.step (s : State) : Event → State
  | .click i => s.click i
  | .infra n => { s with infra := n }
  | .button o => s.button o
  | .answer k => { s with panel := s.panel.map (·.answer k) }
  | .fail k => { s with panel := s.panel.map (·.fail k) }

def run (es : List Event) : State := es.foldl State.step .init

end Soro.StationPanel
