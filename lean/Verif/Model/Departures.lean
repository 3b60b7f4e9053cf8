import Verif.Model.Bitfield

/-
Model of the departure iterator of a train
(`include/soro/timetable/train.h`, `src/timetable/train.cc`, `include/soro/timetable/interval.h`,
`include/soro/base/time.h`).

Absolute and relative times are 32 bit second counts, modelled by `Nat` with explicit wrap-around.
-/

namespace Soro

/-- interval.h:7-19 `interval` (`start_`, `end_`). -/
structure TimeInterval where
  start : Nat
  stop : Nat
deriving DecidableEq, Repr

/-- interval.h:10-12 `overlaps` -/
def TimeInterval.overlaps (a b : TimeInterval) : Bool := decide (a.start ≤ b.stop) && decide (b.start ≤ a.stop)

/-- interval.h:17-18: the default interval `[absolute_time::min(), absolute_time::max()]`. -/
def TimeInterval.default : TimeInterval := ⟨0, 2 ^ 32 - 1⟩

/-- time.h:34-37 `relative_to_absolute` (32 bit addition) -/
def relToAbs (anchor rel : Nat) : Nat := (anchor + rel) % 2 ^ 32

/-- Conversion of a `sys_days` to `absolute_time` (32 bit seconds), used at train.cc:35, 36, 50. -/
def secOf (d : Int) : Nat := ((d * 86400) % 2 ^ 32).toNat

/-- train.h:28-133, restricted to what the departure iterator reads: the id, the calendar,
`first_departure()` (train.cc:74-78) and `last_arrival()` (train.cc:80-84). -/
structure DepTrain where
  id : Nat
  days : Bitfield
  firstDeparture : Nat
  lastArrival : Nat
deriving DecidableEq, Repr

namespace DepTrain

/-- train.cc:95-107 `event_interval` -/
def eventInterval (t : DepTrain) (midnight : Nat) : TimeInterval :=
  ⟨relToAbs midnight t.firstDeparture, relToAbs midnight t.lastArrival⟩

/-- train.cc:33-39 `iterator::advance`. (The C++ test is `it != end`; indices never exceed the end index.) -/
def advance (t : DepTrain) (iv : TimeInterval) (i : Nat) : Nat :=
  if i < t.days.endIdx ∧ secOf (t.days.idxToDate i) ≤ iv.stop ∧
      iv.overlaps (t.eventInterval (secOf (t.days.idxToDate i))) = false then
    t.advance iv (t.days.incr i)
  else i
termination_by t.days.endIdx - i
decreasing_by
  have : ∀ j, j ≤ t.days.skip j := by
    intro j
    fun_induction Bitfield.skip t.days j <;> omega
  have := this (i + 1)
  simp only [Bitfield.incr]
  omega

/-- train.cc:24-31 `iterator::iterator(train, interval, end = false)` -/
def depBegin (t : DepTrain) (iv : TimeInterval) : Nat := t.advance iv (t.days.fromIt iv.start)

/-- train.cc:24-31 `iterator::iterator(train, interval, end = true)` -/
def depEnd (t : DepTrain) (iv : TimeInterval) : Nat := t.advance iv (t.days.toIt iv.stop)

theorem le_advance (t : DepTrain) (iv : TimeInterval) (i : Nat) : i ≤ t.advance iv i := by
  have hs : ∀ j, j ≤ t.days.skip j := by
    intro j
    fun_induction Bitfield.skip t.days j <;> omega
  fun_induction DepTrain.advance t iv i with
  | case1 i h ih => have := hs (i + 1); simp only [Bitfield.incr] at ih ⊢; omega
  | case2 => omega

/-- The range-for loop over departures: dereference (train.cc:49-51), then `operator++` (train.cc:41-47).
`none`: the loop increments past the end, i.e. `stop` is never met. -/
def walk (t : DepTrain) (iv : TimeInterval) (i stop : Nat) : Option (List Nat) :=
  if i = stop then some []
  else if i < t.days.endIdx then
    (t.walk iv (t.advance iv (t.days.incr i)) stop).map (secOf (t.days.idxToDate i) :: ·)
  else none
termination_by t.days.endIdx - i
decreasing_by
  have hs : ∀ j, j ≤ t.days.skip j := by
    intro j
    fun_induction Bitfield.skip t.days j <;> omega
  have h1 := hs (i + 1)
  have h2 := le_advance t iv (t.days.incr i)
  simp only [Bitfield.incr] at h2 ⊢
  omega

/-- train.cc:53-57 `departures(interval)`, collected into a list -/
def departures (t : DepTrain) (iv : TimeInterval) : Option (List Nat) :=
  t.walk iv (t.depBegin iv) (t.depEnd iv)

/-- train.cc:59-61 `departures()` -/
def allDepartures (t : DepTrain) : Option (List Nat) := t.departures TimeInterval.default

/-- train.cc:114 `trip_count` -/
def tripCount (t : DepTrain) : Nat := t.days.count

/-- train.cc:116-125 `trips`: pairs of train id and anchor -/
def trips (t : DepTrain) : Option (List (Nat × Nat)) := t.allDepartures.map (·.map fun a => (t.id, a))

end DepTrain
end Soro
