import Verif.Model.Kss

/-! The error report of the timetable parser: include/soro/base/error.h, the error categories, and the parallel loop of
src/timetable/parsers/kss/parse_kss_timetable.cc:469-499,579-609.

Simplifications: the map from error codes to counts is a function (a code with count 0 is not in the map); a work item is
a thread of its own (`utl::parallel_for_run` runs some of them one after the other, which is one of the schedules);
counters do not overflow. The lock, the increment and the unlock of `count` are four separate steps. -/

namespace Soro.ErrorStats
open Soro.Kss

/-- `std::error_category`: compared by address, here one value per category -/
inductive Cat where
  | kss | routeTransform | rs
  deriving DecidableEq, Repr

/-- `std::error_code` -/
structure Code where
  cat : Cat
  value : Nat
  deriving DecidableEq, Repr

/-- `make_error_code`: kss_error.h:8-22, route_transform_error.h:8-14, rolling_stock_error.h:8-10 -/
def code : KErr → Code
  | .stationNotFound => ⟨.kss, 1⟩
  | .stationRouteNotFound => ⟨.kss, 2⟩
  | .workedOnTrain => ⟨.kss, 3⟩
  | .haltWithoutHalt => ⟨.kss, 5⟩
  | .timeWithoutCheckpoint => ⟨.kss, 6⟩
  | .ctc => ⟨.kss, 7⟩
  | .singleStop => ⟨.kss, 8⟩
  | .breakIn => ⟨.kss, 9⟩
  | .breakOut => ⟨.kss, 10⟩
  | .firstNoHalt => ⟨.kss, 11⟩
  | .lastNoHalt => ⟨.kss, 12⟩
  | .vehicle => ⟨.rs, 1⟩
  | .transform .noFirstIr => ⟨.routeTransform, 1⟩
  | .transform .noUniqueFirstIr => ⟨.routeTransform, 2⟩
  | .transform .noIr => ⟨.routeTransform, 3⟩
  | .transform .noUniqueIr => ⟨.routeTransform, 4⟩

/-- `message`: kss_error.cc:12-41, route_transform_error.cc:14-30, rolling_stock_error.cc:12-19 -/
def message (c : Code) : String :=
  match c.cat with
  | .kss =>
    match c.value with
    | 1 => "could not find station from timetable in infrastructure"
    | 2 => "could not find station route used in timetable in infrastructure"
    | 3 => "worked on train skipped"
    | 4 => "could not determine interlocking route path"
    | 5 => "stop is marked halt but station route does not have halt"
    | 6 => "transit time is set but no runtime checkpoint in station route"
    | 7 => "CTC is not supported"
    | 8 => "single stop train is not supported"
    | 9 => "break in not supported"
    | 10 => "break out not supported"
    | 11 => "first stop has no halt is not supported"
    | 12 => "last stop has no halt is not supported"
    | 13 => "infrastructure version mismatch"
    | _ => "not reachable"
  | .routeTransform =>
    match c.value with
    | 1 => "could not find first interlocking route"
    | 2 => "could not find unique first interlocking route"
    | 3 => "could not find interlocking route"
    | 4 => "could not find unique interlocking route"
    | 5 => "halt in sequence but not in station route"
    | _ => "not reachable"
  | .rs =>
    match c.value with
    | 1 => "could not find rolling stock vehicle"
    | _ => "not reachable"

/-- where a work item is in `stats::count` (error.h:23-26) -/
inductive PC where
  /-- outside -/
  | out
  /-- after `std::lock_guard const lock{mutex_}` -/
  | locked
  /-- `errors_[e]` is read -/
  | loaded (v : Nat)
  /-- `errors_[e]` is written, the lock is still held -/
  | stored
  deriving DecidableEq, Repr

/-- a work item: the errors it has yet to count -/
structure Thread where
  todo : List Code
  pc : PC
  deriving DecidableEq, Repr

structure St where
  /-- `mutex_` -/
  owner : Option Nat
  /-- `errors_` -/
  errors : Code → Nat
  threads : List Thread

/-- the next step of work item `i`; `none`: it is finished or waits for the mutex -/
def step (s : St) (i : Nat) : Option St :=
  match s.threads[i]? with
  | none => none
  | some ⟨todo, .out⟩ =>
    match todo with
    | [] => none
    | e :: es => if s.owner = none then some { s with owner := some i, threads := s.threads.set i ⟨e :: es, .locked⟩ } else none
  | some ⟨todo, .locked⟩ =>
    match todo with
    | [] => none
    | e :: es => some { s with threads := s.threads.set i ⟨e :: es, .loaded (s.errors e)⟩ }
  | some ⟨todo, .loaded v⟩ =>
    match todo with
    | [] => none
    | e :: es =>
      some { s with errors := fun c => if c = e then v + 1 else s.errors c, threads := s.threads.set i ⟨es, .stored⟩ }
  | some ⟨todo, .stored⟩ => some { s with owner := none, threads := s.threads.set i ⟨todo, .out⟩ }

/-- a schedule: which work item makes the next step -/
def run (s : St) : List Nat → Option St
  | [] => some s
  | i :: is => (step s i).bind fun s' => run s' is

/-- parse_kss_timetable.cc:553,579: every work item with the errors it will count -/
def init (todo : List (List Code)) : St := ⟨none, fun _ => 0, todo.map fun es => ⟨es, .out⟩⟩

/-- parse_kss_timetable.cc:483-496: the errors counted by the work items, from what they read -/
def counted {β : Type} (rs : List (List β × List KErr)) : List (List Code) := rs.map fun r => r.2.map code

/-- error.h:28-37: a line for every code of the map; `order` lists the codes as the map orders them -/
def report (order : List Code) (errors : Code → Nat) : List (String × Nat) :=
  (order.filter fun c => decide (0 < errors c)).map fun c => (message c, errors c)

end Soro.ErrorStats
