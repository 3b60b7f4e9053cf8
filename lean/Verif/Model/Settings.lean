/-
Model of the settings of the web client: `web/client/src/stores/settings-store.ts`, with the themes of `web/client/src/vuetify.ts` and
`web/client/src/style.ts:7-30`.

An action ends before the next event: what is awaited are microtasks. The storage of the browser and the theme of the operating
system outlive a session, the state of the store and the themes do not. Colours are texts. Not modelled: other windows that write
to the same storage, and values of the storage that this client did not write.
-/

namespace Soro.Settings

/-- DarkLightModes without `OS`, the themes -/
inductive Theme where
  | dark
  | light
  deriving DecidableEq

/-- DarkLightModes, settings-store.ts:10-14 -/
inductive Pref where
  | dark
  | light
  | os
  deriving DecidableEq

/-- style.ts:8-10 and 20-22 -/
def ownColour : Theme → String
  | .dark => "#2196F3"
  | .light => "#2196F3"

/-- window.localStorage -/
structure Storage where
  pref : Option Pref
  colour : Option String

/-- settings-store.ts:4-8 and 21-27, the global theme of vuetify and the primary colours of its themes; whether the listener of
lines 94-107 is there; storage and operating system -/
structure State where
  pref : Pref
  theme : Theme
  primary : Option String
  shown : Theme
  colours : Theme → String
  listens : Bool
  storage : Storage
  system : Theme

/-- settings-store.ts:21-27, vuetify.ts:7-15: a page that was just opened -/
def State.fresh (own : Theme → String) (st : Storage) (system : Theme) : State :=
  ⟨.os, .dark, none, .light, own, false, st, system⟩

/-- settings-store.ts:34-39 -/
def State.setTheme (s : State) (t : Theme) : State := { s with theme := t, shown := t }

/-- settings-store.ts:41-49 -/
def State.commitColour (s : State) (c : String) : State := { s with primary := some c, colours := fun _ => c }

/-- settings-store.ts:51-54 -/
def State.restoreColour (s : State) : State := { s with primary := some (s.colours s.shown) }

/-- settings-store.ts:109-121 -/
def State.applyTheme (s : State) : State :=
  match s.pref with
  | .dark => s.setTheme .dark
  | .light => s.setTheme .light
  | .os => s.setTheme s.system

/-- settings-store.ts:78-86; the empty colour is not stored -/
def State.save (s : State) : State :=
  let st := { s.storage with pref := some s.pref }
  match s.primary with
  | none => { s with storage := st }
  | some c => { s with storage := if c = "" then st else { st with colour := some c } }

/-- settings-store.ts:58-76 -/
def State.loadSettings (s : State) : State :=
  let s := match s.storage.pref with
    | none => s
    | some p => { s with pref := p }
  let s := { s with listens := true }
  let s := s.applyTheme
  match s.storage.colour with
  | none => s.restoreColour
  | some c => if c = "" then s.restoreColour else s.commitColour c

/-- App.vue:61-62 -/
def start (own : Theme → String) (st : Storage) (system : Theme) : State := (State.fresh own st system).loadSettings

/-- what happens -/
inductive Event where
  | prefer (p : Pref)
  | colour (c : String)
  | system (t : Theme)
  | restart

/-- settings-store.ts:88-92, 123-126, 94-107, and a new page -/
def State.step (own : Theme → String) (s : State) : Event → State
  | .prefer p => ({ s with pref := p } : State).applyTheme.save
  | .colour c => (s.commitColour c).save
  | .system t =>
    let s := { s with system := t }
    if s.listens && s.pref == .os then s.setTheme t else s
  | .restart => start own s.storage s.system

/-- a browser in which the client was never used, then these events -/
def run (own : Theme → String) (system : Theme) (evs : List Event) : State :=
  evs.foldl (State.step own) (start own ⟨none, none⟩ system)

end Soro.Settings
