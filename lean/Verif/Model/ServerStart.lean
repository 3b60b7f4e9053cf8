/-
Model of the start of the server: `web/server/src/modules/infrastructure/infrastructure_module.cc` and
`web/server/src/modules/timetable/timetable_module.cc`, which load infrastructures and timetables from the source
directories or from files saved by an earlier start, with the outside changes to the source directories between starts.

Names are numbers. Parsers are parameters (functions of name and content); loading a saved file gives back the saved value
(cista is trusted). Times are those of a clock that advances with every event. `none`: an exception ends the program.
`ser` says whether the program is compiled with serialization. Not modelled: failing parsers of infrastructures, the tile
module, the coordinate file as a second source.
-/

namespace Soro.ServerStart

variable {C V I : Type}

/-- an entry of a source directory; `mtime` is its `last_write_time` -/
structure Entry (C : Type) where
  name : Nat
  isDir : Bool
  mtime : Nat
  content : C

/-- the saved files: time of writing and value -/
abbrev Cache (V : Type) := Nat → Option (Nat × V)

/-- a path of the todo list: an entry of the source directory, or a saved file -/
inductive Item (C : Type) where
  | source (e : Entry C)
  | raw (name : Nat)

/-- infrastructure_module.cc:45-48 and timetable_module.cc:53-55 -/
def mustParse (regenerate ser : Bool) (cache : Cache V) (e : Entry C) : Bool :=
  regenerate || !ser ||
    match cache e.name with
    | none => true
    | some (written, _) => decide (written < e.mtime)

/-- infrastructure_module.cc:25-56 `get_infrastructure_todo_list`, timetable_module.cc:33-63 `get_timetable_todo_list` -/
def todoList (regenerate ser : Bool) (cache : Cache V) : List (Entry C) → List (Item C)
  | [] => []
  | e :: es =>
    if e.isDir then
      (if mustParse regenerate ser cache e then .source e else .raw e.name) :: todoList regenerate ser cache es
    else todoList regenerate ser cache es

/-- `save` -/
def save (cache : Cache V) (name now : Nat) (v : V) : Cache V := fun n => if n = name then some (now, v) else cache n

/-- `unordered_map::emplace`: an existing entry stays -/
def emplace (m : List (Nat × V)) (k : Nat) (v : V) : List (Nat × V) := if m.any (fun e => e.1 == k) then m else m ++ [(k, v)]

/-- `unordered_map::find` -/
def lookup (m : List (Nat × V)) (k : Nat) : Option V := (m.find? fun e => e.1 == k).map Prod.snd

/-! ### infrastructures -/

/-- infrastructure_module.cc:66-78: the loop over the todo list. `parse` is the constructor of the infrastructure, `source` is
`source_`. -/
def loadInfras (parse : Nat → C → V) (source : V → Nat) (ser : Bool) (now : Nat) :
    List (Item C) → Cache V → List (Nat × V) → Option (Cache V × List (Nat × V))
  | [], cache, m => some (cache, m)
  | .source e :: is, cache, m =>
    let v := parse e.name e.content
    loadInfras parse source ser now is (if ser then save cache e.name now v else cache) (emplace m (source v) v)
  | .raw n :: is, cache, m =>
    match cache n with
    | none => none
    | some (_, v) => loadInfras parse source ser now is cache (emplace m (source v) v)

/-- infrastructure_module.cc:58-81 `get_infrastructure_module` -/
def startInfras (parse : Nat → C → V) (source : V → Nat) (ser regenerate : Bool) (now : Nat) (entries : List (Entry C))
    (cache : Cache V) : Option (Cache V × List (Nat × V)) :=
  loadInfras parse source ser now (todoList regenerate ser cache entries) cache []

/-- what happens to the source directory and the server -/
inductive Event (C : Type) where
  /-- a start of the server -/
  | start (regenerate : Bool)
  /-- an entry is created, or replaced if there is one with this name -/
  | create (name : Nat) (isDir : Bool) (content : C)
  /-- an entry is removed -/
  | remove (name : Nat)
  /-- files are added to, removed from or renamed in an entry, which sets its write time -/
  | change (name : Nat) (content : C)
  /-- a file in a directory is overwritten, which does not change the write time of the directory -/
  | overwrite (name : Nat) (content : C)

/-- source directory, saved files, clock, and what the last start of the server serves -/
structure World (C V : Type) where
  entries : List (Entry C)
  cache : Cache V
  clock : Nat
  served : List (Nat × V)

/-- one event -/
def step (parse : Nat → C → V) (source : V → Nat) (ser : Bool) (w : World C V) : Event C → Option (World C V)
  | .start regenerate =>
    (startInfras parse source ser regenerate w.clock w.entries w.cache).map fun r =>
      { w with cache := r.1, served := r.2, clock := w.clock + 1 }
  | .create name isDir content =>
    some { w with
      entries := w.entries.filter (fun e => e.name != name) ++ [⟨name, isDir, w.clock, content⟩], clock := w.clock + 1 }
  | .remove name => some { w with entries := w.entries.filter fun e => e.name != name, clock := w.clock + 1 }
  | .change name content =>
    some { w with
      entries := w.entries.map fun e => if e.name = name then { e with mtime := w.clock, content := content } else e
      clock := w.clock + 1 }
  | .overwrite name content =>
    some { w with
      entries := w.entries.map fun e => if e.name = name then { e with content := content } else e
      clock := w.clock + 1 }

/-- a history -/
def run (parse : Nat → C → V) (source : V → Nat) (ser : Bool) : List (Event C) → World C V → Option (World C V)
  | [], w => some w
  | e :: es, w => (step parse source ser w e).bind (run parse source ser es)

/-- nothing yet -/
def World.init : World C V := ⟨[], fun _ => none, 0, []⟩

/-! ### timetables -/

/-- timetable_module.cc:74-89: the timetables of one infrastructure. `parse` is `try_parsing_timetable` for a directory; for a
saved file, which is not a directory, `is_kss_timetable` is false (parse_kss_timetable.cc:39-42) and the result is an error
(timetable.cc:52-66), so the loop continues. -/
def loadTimetables (parse : I → Nat → C → Option V) (source : V → Nat) (ser : Bool) (now : Nat) (infra : I) :
    List (Item C) → Cache V → List (Nat × V) → Cache V × List (Nat × V)
  | [], cache, m => (cache, m)
  | .source e :: is, cache, m =>
    match parse infra e.name e.content with
    | none => loadTimetables parse source ser now infra is cache m
    | some v =>
      loadTimetables parse source ser now infra is (if ser then save cache e.name now v else cache) (emplace m (source v) v)
  | .raw _ :: is, cache, m => loadTimetables parse source ser now infra is cache m

/-- timetable_module.cc:71-95: the loop over the infrastructures -/
def loadContexts (parse : I → Nat → C → Option V) (source : V → Nat) (ser : Bool) (now : Nat) (todo : List (Item C)) :
    List I → Cache V → List (I × List (Nat × V)) → Cache V × List (I × List (Nat × V))
  | [], cache, cs => (cache, cs)
  | i :: is, cache, cs =>
    let r := loadTimetables parse source ser now i todo cache []
    loadContexts parse source ser now todo is r.1 (cs ++ [(i, r.2)])

/-- timetable_module.cc:65-95 `get_timetable_module`: the timetables of every infrastructure -/
def startTimetables (parse : I → Nat → C → Option V) (source : V → Nat) (ser regenerate : Bool) (now : Nat)
    (entries : List (Entry C)) (infras : List I) (cache : Cache V) : Cache V × List (I × List (Nat × V)) :=
  loadContexts parse source ser now (todoList regenerate ser cache entries) infras cache []

end Soro.ServerStart
