import Verif.Model.ServerStart
import Verif.Model.TypeNames

/-
Model of `web/server/src/modules/tiles/tiles_module.cc:50-101` (files of the map tiles) and of the checks in
`web/server/src/main.cc`.

The content of a map file is the infrastructure it was exported from, the content of a tile database the map file it was imported
from (`osm_export` is modelled in `Osm`, the tiles library is not modelled). All files of one start of the server are written
at the time of the start. `none`: an exception ends the program.
-/

namespace Soro.Tiles
open TypeNames

variable {C V : Type}

/-- `std::filesystem::path::replace_extension` for a file name other than `.` and `..`: the part after the last point is
replaced, unless this point is the first character -/
def replaceExtension (name ext : Text) : Text :=
  match name.reverse.dropWhile (· != '.') with
  | [] => name ++ ext
  | [_] => name ++ ext
  | _ :: r => r.reverse ++ ext

/-- the map files and tile databases: time of writing and content -/
structure Files (V : Type) where
  osm : Text → Option (Nat × V)
  db : Text → Option (Nat × V)

def put (m : Text → Option (Nat × V)) (p : Text) (now : Nat) (v : V) : Text → Option (Nat × V) := fun q => if q = p then some (now, v) else m q

/-- tiles_module.cc:50-62 `create_osm_file` -/
def createOsm (regenerate : Bool) (now : Nat) (name : Text) (v : V) (f : Files V) : Files V :=
  let p := replaceExtension name ".osm".toList
  if regenerate || (f.osm p).isNone then { f with osm := put f.osm p now v } else f

/-- tiles_module.cc:64-79 `create_tiles_db` -/
def createDb (regenerate : Bool) (now : Nat) (name : Text) (f : Files V) : Option (Files V) :=
  let p := replaceExtension name ".mdb".toList
  match f.osm (replaceExtension name ".osm".toList) with
  | none => none
  | some (written, v) =>
    match f.db p with
    | none => some { f with db := put f.db p now v }
    | some (t, _) => if regenerate || decide (t < written) then some { f with db := put f.db p now v } else some f

/-- tiles_module.cc:81-101 `get_tile_module`: the files and the opened databases by name of the infrastructure -/
def startTiles (regenerate : Bool) (now : Nat) : List (Text × V) → Files V → List (Text × Text) → Option (Files V × List (Text × Text))
  | [], f, m => some (f, m)
  | (name, v) :: is, f, m =>
    match createDb regenerate now name (createOsm regenerate now name v f) with
    | none => none
    | some f =>
      startTiles regenerate now is f
        (if m.any (fun e => e.1 == name) then m else m ++ [(name, replaceExtension name ".mdb".toList)])

/-- tiles_module.cc:15-47 `serve_tile`: the infrastructure whose tiles are served under a name; `none`: not found -/
def tilesOf (f : Files V) (m : List (Text × Text)) (name : Text) : Option V :=
  match m.find? fun e => e.1 == name with
  | none => none
  | some e => (f.db e.2).map Prod.snd

/-! ### The checks at the start -/

/-- the file system at the start -/
structure Fs where
  present : List Text → Bool
  isDir : List Text → Bool

/-- how the program ends, or that it runs -/
inductive Outcome where
  /-- exit code 0 -/
  | help
  /-- an error message and exit code 1 -/
  | refused
  /-- ended by an uncaught exception -/
  | aborted
  | running
  deriving DecidableEq, Repr

/-- server_settings.h:7-76 -/
structure Settings where
  help : Bool
  resources : List Text
  infraSources : List Text
  timetableSources : List Text

/-- main.cc:26-66 with the directory iterators of infrastructure_module.cc:29-30 and timetable_module.cc:39-40, which throw unless
they get a directory. The modules are assumed to succeed otherwise. -/
def main (fs : Fs) (s : Settings) : Outcome :=
  if s.help then .help
  else if !fs.present s.resources then .refused
  else if !fs.present (s.resources ++ ["misc".toList, "btrs_geo.csv".toList]) then .refused
  else if !fs.present (s.resources ++ ["profile".toList, "profile.lua".toList]) then .refused
  else if !fs.present s.infraSources && fs.isDir s.infraSources then .refused
  else if !fs.present s.timetableSources && fs.isDir s.timetableSources then .refused
  else if !fs.isDir s.infraSources then .aborted
  else if !fs.isDir s.timetableSources then .aborted
  else .running

end Soro.Tiles
