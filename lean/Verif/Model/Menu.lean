import Verif.Model.WebClient

/-!
The fields of the menu in the sidebar: the selects of infrastructure and timetable (`web/client/src/components/base/soro-select.vue`), the
range of time (`web/client/src/components/base/soro-datetimerange.vue`), as used in `components/sidebar/menu/menu.vue:27-52`, on the store
of `Model/WebClient.lean`.

Events as there; watchers run at the end of an event and only if the value they watch has changed, for a range if another array was
stored. Times are not before 1970. The menu exists while its overlay is selected (`components/sidebar/sidebar.vue:18-22`).
-/

namespace Soro.Menu
open WebClient

variable {ν : Type} [DecidableEq ν]

/-- soro-select.vue:50-54 (twice), soro-datetimerange.vue:41-47: what the fields show; a range in milliseconds -/
structure Fields (ν : Type) where
  infra : Option ν
  tt : Option ν
  range : Option (Nat × Nat)
  deriving DecidableEq

/-- the fields when the menu is created -/
def Fields.fresh : Fields ν := ⟨none, none, none⟩

/-- soro-datetimerange.vue:20-22 -/
def dateToUnix (ms : Nat) : Nat := ms / 1000

/-- soro-datetimerange.vue:24-26 -/
def unixToDate (unix : Nat) : Nat := unix * 1000

/-- the store, and the fields while the menu is selected -/
structure State (ν : Type) where
  side : Side ν
  fields : Option (Fields ν)

/-- stores.ts:18-24: the menu is selected when the page is opened -/
def State.init : State ν := ⟨.init, some .fresh⟩

/-- what happens: a select is changed or cleared, a range is picked or cleared, a request is answered, another overlay or the menu is
selected -/
inductive Event (ν : Type) where
  | infra (i : Option ν)
  | timetable (t : Option ν)
  | range (start stop : Nat)
  | clearRange
  | answer (k : Nat)
  | leave
  | enter

/-- the watchers: soro-select.vue:56-60 -/
def watchSelect (old new field : Option ν) : Option ν := if new = old then field else new

/-- soro-datetimerange.vue:49-53 -/
def watchRange (r : Nat × Nat) : Option (Nat × Nat) := some (unixToDate r.1, unixToDate r.2)

/-- menu.vue:28-42: the selects after the store has changed -/
def Fields.watch (old new : Side ν) (f : Fields ν) : Fields ν :=
  { f with infra := watchSelect old.infra new.infra f.infra, tt := watchSelect old.tt new.tt f.tt }

def State.step (srv : Server ν) (s : State ν) : Event ν → State ν
  -- soro-select.vue:4-8, 62-66, menu.vue:28-34
  | .infra i =>
    match s.fields with
    | none => s
    | some f =>
      let side := s.side.loadInfrastructure i
      ⟨side, some (Fields.watch s.side side { f with infra := i })⟩
  -- menu.vue:35-42: disabled without an infrastructure
  | .timetable t =>
    match s.fields with
    | none => s
    | some f =>
      if s.side.infra.isNone then s
      else
        let side := s.side.loadTimetable t
        ⟨side, some (Fields.watch s.side side { f with tt := t })⟩
  -- soro-datetimerange.vue:3-7, 56-65, menu.vue:47-51: disabled without an infrastructure and a timetable
  | .range a b =>
    match s.fields with
    | none => s
    | some f =>
      if s.side.infra.isNone || s.side.tt.isNone then s
      else
        let r := (dateToUnix a, dateToUnix b)
        ⟨{ s.side with range := some r }, some { f with range := watchRange r }⟩
  -- soro-datetimerange.vue:57-59: nothing is emitted
  | .clearRange =>
    match s.fields with
    | none => s
    | some f => if s.side.infra.isNone || s.side.tt.isNone then s else ⟨s.side, some { f with range := none }⟩
  -- sidebar-store.ts:194, 207-213
  | .answer k =>
    match s.side.asked[k]? with
    | none => s
    | some q =>
      let side := ({ s.side with asked := s.side.asked.eraseIdx k } : Side ν).receive srv q
      let stored : Option (Nat × Nat) := match q with
        | .timetables _ => none
        | .interval i t => srv.interval i t
      ⟨side, s.fields.map fun f =>
        let f := Fields.watch s.side side f
        match stored with
        | none => f
        | some r => { f with range := watchRange r }⟩
  -- sidebar.vue:18-22, 91-103
  | .leave => { s with fields := none }
  | .enter => { s with fields := some (s.fields.getD .fresh) }

def State.run (srv : Server ν) (s : State ν) (es : List (Event ν)) : State ν := es.foldl (State.step srv) s

end Soro.Menu
