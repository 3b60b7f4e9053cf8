import Verif.Model.Debug
import Verif.Model.Departures

/-
Model of the debug build of service day calendars and departures (`src/timetable/bitfield.cc`,
`include/soro/timetable/bitfield.h`, `src/timetable/train.cc`): the functions of `Verif.Model.Bitfield` and
`Verif.Model.Departures` with their assertions, in the order in which they are evaluated. Some of the functions are
`noexcept`, so the exception of a failed assertion terminates the program; the model does not distinguish this.
-/

namespace Soro
namespace Bitfield
open Dbg

/-- bitfield.h:16: `anchor_time::max()`, the day that marks a missing date (the count of days has 32 bits) -/
def NODAY : Int := 2 ^ 31 - 1

/-- bitfield.cc:12-22 `distance` -/
def distD (a b : Int) : Dbg Nat := do
  check 14 (a ≠ NODAY)
  check 15 (b ≠ NODAY)
  check 16 (a ≤ b)
  return dist a b

/-- bitfield.cc:24-27 `get_end_idx` -/
def endIdxD (b : Bitfield) : Dbg Nat := do
  let d ← distD b.first b.last
  return d + 1

/-- bitfield.cc:29-38 `get_idx` -/
def getIdxD (b : Bitfield) (d : Int) : Dbg Nat := do
  check 32 (b.first ≤ d ∧ d ≤ b.last)
  distD b.first d

/-- bitfield.cc:40-45 `idx_to_date` -/
def idxToDateD (b : Bitfield) (i : Nat) : Dbg Int := do
  check 42 (b.first ≠ NODAY)
  return b.idxToDate i

/-- bitfield.cc:134-143 `at` -/
def atD (b : Bitfield) (d : Int) : Dbg Bool :=
  if b.first ≤ d ∧ d ≤ b.last then do
    let i ← b.getIdxD d
    return b.test i
  else .error .undefined

/-- bitfield.cc:59-72 `iterator::operator++` -/
def incrD (b : Bitfield) (i : Nat) : Dbg Nat := do
  let e ← b.endIdxD
  check 60 (i < e)
  let j := b.skip (i + 1)
  check 67 (j ≤ e)
  check 68 (j = e ∨ b.test j = true)
  return j

/-- bitfield.cc:51-54: what the constructor of an iterator does -/
def moveD (b : Bitfield) (i e : Nat) : Dbg Nat :=
  if i ≠ e then do
    let d ← b.idxToDateD i
    let runs ← b.atD d
    if runs then return i else b.incrD i
  else return i

/-- bitfield.cc:47-57 `iterator::iterator(bitfield, idx)` -/
def iterD (b : Bitfield) (i : Nat) : Dbg Nat := do
  let e ← b.endIdxD
  check 49 (i ≤ e)
  let j ← b.moveD i e
  check 56 (j ≤ e)
  return j

/-- bitfield.cc:74-78 `iterator::operator*` -/
def derefD (b : Bitfield) (i : Nat) : Dbg Int := do
  let runs ← b.atD (b.idxToDate i)
  check 75 (runs = true)
  return b.idxToDate i

/-- bitfield.cc:80-82 `begin` -/
def beginD (b : Bitfield) : Dbg Nat := b.iterD 0

/-- bitfield.cc:84-86 `end` -/
def endD (b : Bitfield) : Dbg Nat := do
  let e ← b.endIdxD
  b.iterD e

/-- bitfield.cc:88-101 `from` -/
def fromD (b : Bitfield) (t : Nat) : Dbg Nat :=
  if dayOf t ≤ b.first then b.iterD 0
  else do
    let d ← distD b.first (dayOf t)
    let e ← b.endIdxD
    if d ≥ e then b.iterD e else b.iterD d

/-- bitfield.cc:103-116 `to` -/
def toD (b : Bitfield) (t : Nat) : Dbg Nat :=
  if dayOf t ≥ b.last then do
    let e ← b.endIdxD
    b.iterD e
  else if dayOf t < b.first then b.iterD 0
  else do
    let d ← distD b.first (dayOf t)
    b.iterD (d + 1)

/-- A range-for loop from position `i` to `stop`; the iterator is advanced as in the release build, which is what
`incrD` returns if it returns. -/
def walkD (b : Bitfield) (i stop : Nat) : Dbg (List Int) :=
  if i = stop then return []
  else if i < b.endIdx then do
    let d ← b.derefD i
    let _ ← b.incrD i
    let rest ← b.walkD (b.incr i) stop
    return d :: rest
  else .error (.assertion 60)
termination_by b.endIdx - i
decreasing_by
  have : ∀ j, j ≤ b.skip j := by
    intro j
    fun_induction Bitfield.skip b j <;> omega
  have := this (i + 1)
  simp only [incr]
  omega

/-- bitfield.cc:122-132 `get_set_days` -/
def getSetDaysD (b : Bitfield) : Dbg (List Int) :=
  ((List.range BITSIZE).filter b.test).mapM b.idxToDateD

/-- bitfield.cc:168-177: the range that `set` needs -/
def widenD (b : Bitfield) (d : Int) : Dbg Bitfield :=
  if d < b.first then do
    let n ← distD d b.first
    return { b with bits := b.bits <<< n, first := d }
  else if d ≤ b.last then return b
  else return { b with last := d }

/-- bitfield.cc:167-185 `set` -/
def setD (b : Bitfield) (d : Int) (v : Bool) : Dbg Bitfield := do
  let b' ← b.widenD d
  let n ← distD b'.first b'.last
  check 179 (n < BITSIZE)
  let i ← b'.getIdxD d
  if i < BITSIZE then
    return { b' with bits := if v then b'.bits ||| BitVec.twoPow 512 i else b'.bits &&& ~~~ BitVec.twoPow 512 i }
  else .error .undefined

/-- bitfield.cc:209-226 `operator|=` -/
def unionD (a o : Bitfield) : Dbg Bitfield := do
  let n ← distD (min a.first o.first) (max a.last o.last)
  check 210 (n < BITSIZE)
  let _ ← if a.first < o.first then distD a.first o.first else distD o.first a.first
  return a.union o

/-- bitfield.cc:232-240 `first_set_date` -/
def firstSetDateD (b : Bitfield) : Dbg Int := do
  check 233 ((List.range BITSIZE).any b.test = true)
  let i ← lift ((List.range BITSIZE).find? b.test)
  b.idxToDateD i

/-- bitfield.cc:242-250 `last_set_date` -/
def lastSetDateD (b : Bitfield) : Dbg Int := do
  check 243 ((List.range BITSIZE).any b.test = true)
  let n ← distD b.first b.last
  let i ← lift ((List.range (n + 1)).reverse.find? b.test)
  b.idxToDateD i

/-- bitfield.cc:252-282 `make_bitfield`; a mask is a C string, so its length is that of `strlen` -/
def makeD (first last : Int) (mask : List Char) : Dbg Bitfield := do
  let n ← distD first last
  check 258 (first ≤ last)
  check 262 (mask.length = n + 1)
  lift (make first last mask)

end Bitfield

namespace DepTrain
open Dbg

/-- train.cc:74-78 `first_departure` and train.cc:80-84 `last_arrival`: times have 32 bits, the greatest marks a missing one
(time.h:70-76) -/
def timeD (line t : Nat) : Dbg Nat := do
  check line (t ≠ 2 ^ 32 - 1)
  return t

/-- train.cc:95-107 `event_interval` -/
def eventIntervalD (t : DepTrain) (midnight : Nat) : Dbg TimeInterval := do
  check 98 (midnight % 86400 = 0)
  let runs ← t.days.atD ((midnight / 86400 : Nat) : Int)
  check 99 (runs = true)
  let d ← timeD 76 t.firstDeparture
  let a ← timeD 82 t.lastArrival
  return ⟨relToAbs midnight d, relToAbs midnight a⟩

/-- train.cc:33-39 `iterator::advance` -/
def advanceD (t : DepTrain) (iv : TimeInterval) (i : Nat) : Dbg Nat :=
  if i < t.days.endIdx then do
    let d ← t.days.derefD i
    if secOf d ≤ iv.stop then do
      let e ← t.eventIntervalD (secOf d)
      if iv.overlaps e = false then do
        let _ ← t.days.incrD i
        t.advanceD iv (t.days.incr i)
      else return i
    else return i
  else return i
termination_by t.days.endIdx - i
decreasing_by
  have : ∀ j, j ≤ t.days.skip j := by
    intro j
    fun_induction Bitfield.skip t.days j <;> omega
  have := this (i + 1)
  simp only [Bitfield.incr]
  omega

/-- train.cc:24-31 `iterator::iterator(train, interval, end = false)` -/
def depBeginD (t : DepTrain) (iv : TimeInterval) : Dbg Nat := do
  let i ← t.days.fromD iv.start
  t.advanceD iv i

/-- train.cc:24-31 `iterator::iterator(train, interval, end = true)` -/
def depEndD (t : DepTrain) (iv : TimeInterval) : Dbg Nat := do
  let i ← t.days.toD iv.stop
  t.advanceD iv i

/-- The range-for loop over departures: dereference (train.cc:49-51), then `operator++` (train.cc:41-47). The iterator is
advanced as in the release build, which is what `incrD` and `advanceD` return if they return. -/
def walkD (t : DepTrain) (iv : TimeInterval) (i stop : Nat) : Dbg (List Nat) :=
  if i = stop then return []
  else if i < t.days.endIdx then do
    let d ← t.days.derefD i
    let j ← t.days.incrD i
    let _ ← t.advanceD iv j
    let rest ← t.walkD iv (t.advance iv (t.days.incr i)) stop
    return secOf d :: rest
  else .error (.assertion 42)
termination_by t.days.endIdx - i
decreasing_by
  have hs : ∀ j, j ≤ t.days.skip j := by
    intro j
    fun_induction Bitfield.skip t.days j <;> omega
  have h1 := hs (i + 1)
  have h2 := le_advance t iv (t.days.incr i)
  simp only [Bitfield.incr] at h2 ⊢
  omega

/-- train.cc:53-57 `departures(interval)`, collected into a list -/
def departuresD (t : DepTrain) (iv : TimeInterval) : Dbg (List Nat) := do
  let b ← t.depBeginD iv
  let e ← t.depEndD iv
  t.walkD iv b e

end DepTrain
end Soro
