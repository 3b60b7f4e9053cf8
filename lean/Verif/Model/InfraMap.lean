/-!
The map of an infrastructure in the web client: `web/client/src/components/infrastructure/infrastructure-map.vue:46-343`, the layers of
`web/client/src/components/infrastructure/map-style.ts:1-212` and the types of `element-types.ts`.

One map; types of elements are the positions in `ElementTypes`. The library maplibre is a contract: while a style is being loaded
layers cannot be changed (the call throws) and sources do not exist; `setStyle` replaces visibilities, filters and data of sources by
those of the new style. The event `load` includes the loading of the icons.
-/

namespace Soro.InfraMap

/-- element-types.ts:1-22: number of types, and the last of them -/
def typeCount : Nat := 18
def stationType : Nat := 17

/-- infrastructure-legend.vue:58-63 -/
inductive Control where
  | type (t : Nat)
  | rising
  | falling
  deriving DecidableEq, Repr

/-- infrastructure-map.vue:269-276: a filter on the property `rising` of an element -/
inductive Filter where
  | all | onlyRising | onlyFalling | nothing
  deriving DecidableEq, Repr

def Filter.passes : Filter → Bool → Bool
  | .all, _ => true
  | .onlyRising, r => r
  | .onlyFalling, r => !r
  | .nothing, _ => false

/-- the layers `…-layer` and `circle-…-layer` of the types (map-style.ts:141-209), the data of the sources of highlighted routes -/
structure GLMap where
  loaded : Bool
  icon : Nat → Bool
  dot : Nat → Bool
  iconFilter : Nat → Filter
  dotFilter : Nat → Filter
  routes : List Nat

/-- map-style.ts:6-212: the style for the activated elements -/
def style (loaded : Bool) (cs : List Control) : GLMap :=
  ⟨loaded, fun t => decide (.type t ∈ cs), fun t => decide (t ≠ stationType) && decide (.type t ∈ cs), fun _ => .all, fun _ => .all, []⟩

/-- infrastructure-map.vue:46-53, 87-95: `own`: `checkedControls`, `none` if it is the array `initiallyCheckedControls` itself;
`storage`: the controls in the storage of the browser; `highlighted`: the routes of the store -/
structure State where
  initially : List Control
  own : Option (List Control)
  storage : Option (List Control)
  map : Option GLMap
  highlighted : List Nat

def State.checked (s : State) : List Control := s.own.getD s.initially

/-- infrastructure-map.vue:91-94, 180-195: created and mounted, with an infrastructure or without -/
def State.init (initially : List Control) (storage : Option (List Control)) (highlighted : List Nat) (infra : Bool) : State :=
  let cs := storage.getD initially
  ⟨initially, some cs, storage, if infra then some (style false cs) else none, highlighted⟩

/-- infrastructure-map.vue:245-259: both layers of a type, one for stations; no effect while the style is being loaded -/
def GLMap.setVisible (m : GLMap) (t : Nat) (v : Bool) : GLMap :=
  if !m.loaded then m
  else
    let m := if t = stationType then m else { m with dot := fun u => if u = t then v else m.dot u }
    { m with icon := fun u => if u = t then v else m.icon u }

/-- infrastructure-map.vue:261-276 -/
def filterOf (cs : List Control) : Filter :=
  let r := decide (.rising ∈ cs)
  let f := decide (.falling ∈ cs)
  if !r && f then .onlyFalling
  else if r && !f then .onlyRising
  else if !r && !f then .nothing
  else .all

/-- infrastructure-map.vue:278-286: the filter of all layers but that of stations -/
def GLMap.setFilters (m : GLMap) (f : Filter) : GLMap :=
  if !m.loaded then m
  else
    { m with
      iconFilter := fun u => if u < typeCount ∧ u ≠ stationType then f else m.iconFilter u
      dotFilter := fun u => if u < typeCount ∧ u ≠ stationType then f else m.dotFilter u }

/-- infrastructure-map.vue:238-243 -/
def GLMap.setAll (m : GLMap) (cs : List Control) : GLMap :=
  ((List.range typeCount).foldl (fun m t => m.setVisible t (decide (.type t ∈ cs))) m).setFilters (filterOf cs)

/-- infrastructure-map.vue:231-236 -/
def State.save (s : State) : State := { s with storage := some s.checked }

/-- what happens: a control is checked or unchecked, the legend is reset, the theme changes, an infrastructure is chosen or none, the map
has been loaded, the highlighted routes change -/
inductive Event where
  | check (c : Control)
  | uncheck (c : Control)
  | reset
  | theme
  | infra (some : Bool)
  | load
  | highlight (routes : List Nat)
  deriving DecidableEq, Repr

/-- infrastructure-map.vue:212-222: the layers after a control was changed -/
def State.apply (s : State) (c : Control) (v : Bool) : State :=
  { s with map := s.map.map fun m =>
      match c with
      | .type t => m.setVisible t v
      | _ => m.setFilters (filterOf s.checked) }

def State.step (s : State) : Event → State
  -- infrastructure-map.vue:202-203, 210: `push` changes the array in place
  | .check c =>
    let s := match s.own with
      | some l => { s with own := some (l ++ [c]) }
      | none => { s with initially := s.initially ++ [c] }
    s.save.apply c true
  -- infrastructure-map.vue:204-208
  | .uncheck c => State.apply (State.save { s with own := some (s.checked.filter (· ≠ c)) }) c false
  -- infrastructure-map.vue:225-229
  | .reset =>
    let s := State.save { s with own := none }
    { s with map := s.map.map fun m => m.setAll s.checked }
  -- infrastructure-map.vue:163-177
  | .theme => { s with map := s.map.map fun m => style m.loaded s.checked }
  -- infrastructure-map.vue:112-125, 316-328
  | .infra b => { s with map := if b then some (style false s.checked) else none }
  -- infrastructure-map.vue:330-336
  | .load => { s with map := s.map.map fun m => { m with loaded := true }.setAll s.checked }
  -- infrastructure-map.vue:135-161, 55-70
  | .highlight l => { s with highlighted := l, map := s.map.map fun m => if m.loaded then { m with routes := l } else m }

def State.run (s : State) (es : List Event) : State := es.foldl State.step s

/-- what is drawn of an element of a type: its icon, its dot -/
def GLMap.drawsIcon (m : GLMap) (t : Nat) (rising : Bool) : Bool := m.icon t && (m.iconFilter t).passes rising
def GLMap.drawsDot (m : GLMap) (t : Nat) (rising : Bool) : Bool := m.dot t && (m.dotFilter t).passes rising

end Soro.InfraMap
