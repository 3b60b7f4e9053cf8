/-
Model of the service day calendar `soro::tt::bitfield`
(`include/soro/timetable/bitfield.h`, `src/timetable/bitfield.cc`).

Dates (`date::sys_days`) are day counts since the epoch, modelled by `Int`.
`cista::bitset<512>` is modelled by `BitVec 512`; bit `i` of the bitset is `getLsbD i`.
-/

namespace Soro

/-- bitfield.h:11-74: `first_date_`, `last_date_`, `bitset_`. -/
structure Bitfield where
  first : Int
  last : Int
  bits : BitVec 512
deriving DecidableEq, Repr

namespace Bitfield

/-- bitfield.h:12 -/
abbrev BITSIZE : Nat := 512

/-- bitfield.cc:12-22 `distance`. For `from > to` the C++ code casts a negative number to
`size_t`; all call sites in the model are guarded by `from ≤ to`. -/
def dist (a b : Int) : Nat := (b - a).toNat

/-- bitfield.cc:24-27 `get_end_idx` (the cast to `uint16_t` is exact because `last - first < 512`). -/
def endIdx (b : Bitfield) : Nat := dist b.first b.last + 1

/-- cista bitset `test`/`operator[]`. -/
def test (b : Bitfield) (i : Nat) : Bool := b.bits.getLsbD i

/-- bitfield.cc:40-45 `idx_to_date` -/
def idxToDate (b : Bitfield) (i : Nat) : Int := b.first + i

/-- bitfield.cc:134-143 `at`; `none` is the thrown exception. -/
def at? (b : Bitfield) (d : Int) : Option Bool :=
  if b.first ≤ d ∧ d ≤ b.last then some (b.test (dist b.first d)) else none

/-- bitfield.cc:63-65, the loop of `iterator::operator++`. -/
def skip (b : Bitfield) (i : Nat) : Nat :=
  if i < b.endIdx ∧ b.test i = false then b.skip (i + 1) else i
termination_by b.endIdx - i

/-- bitfield.cc:59-72 `iterator::operator++` -/
def incr (b : Bitfield) (i : Nat) : Nat := b.skip (i + 1)

/-- bitfield.cc:47-57 `iterator::iterator(bitfield, idx)`.
`at` never throws here because the index is inside the range. -/
def iter (b : Bitfield) (i : Nat) : Nat :=
  if i ≠ b.endIdx ∧ b.test i = false then b.incr i else i

/-- bitfield.cc:80-82 `begin` -/
def beginIt (b : Bitfield) : Nat := b.iter 0

/-- bitfield.cc:84-86 `end` -/
def endIt (b : Bitfield) : Nat := b.iter b.endIdx

/-- time.h:44-46 `midnight` as a day number; `t` is a time in seconds since the epoch. -/
def dayOf (t : Nat) : Int := ((t / 86400 : Nat) : Int)

/-- bitfield.cc:88-101 `from` -/
def fromIt (b : Bitfield) (t : Nat) : Nat :=
  if dayOf t ≤ b.first then b.iter 0
  else if dist b.first (dayOf t) ≥ b.endIdx then b.iter b.endIdx
  else b.iter (dist b.first (dayOf t))

/-- bitfield.cc:103-116 `to` -/
def toIt (b : Bitfield) (t : Nat) : Nat :=
  if dayOf t ≥ b.last then b.iter b.endIdx
  else if dayOf t < b.first then b.iter 0
  else b.iter (dist b.first (dayOf t) + 1)

/-- A range-for loop over `[i, stop)`: dereference (bitfield.cc:74-78), then increment.
`none`: the loop increments past the end iterator, i.e. `stop` is never met. -/
def walk (b : Bitfield) (i stop : Nat) : Option (List Int) :=
  if i = stop then some []
  else if i < b.endIdx then (b.walk (b.incr i) stop).map (b.idxToDate i :: ·)
  else none
termination_by b.endIdx - i
decreasing_by
  have : ∀ j, j ≤ b.skip j := by
    intro j
    fun_induction Bitfield.skip b j <;> omega
  have := this (i + 1)
  simp only [incr]
  omega

/-- bitfield.cc:122-132 `get_set_days` -/
def getSetDays (b : Bitfield) : List Int :=
  ((List.range BITSIZE).filter b.test).map b.idxToDate

/-- bitfield.cc:167-185 `set`. `none`: the bit index is outside the bitset (undefined behaviour). -/
def set (b : Bitfield) (d : Int) (v : Bool) : Option Bitfield :=
  let b' : Bitfield :=
    if d < b.first then { b with bits := b.bits <<< dist d b.first, first := d }
    else if d ≤ b.last then b
    else { b with last := d }
  let i := dist b'.first d
  if i < BITSIZE then
    some { b' with bits := if v then b'.bits ||| BitVec.twoPow 512 i
                           else b'.bits &&& ~~~ BitVec.twoPow 512 i }
  else none

/-- bitfield.cc:187-201 `equivalent`. The result of `copy.bitset_ >> n` is discarded in the C++ code,
so the shift has no effect and the comparison is the member-wise `operator==`. -/
def equivalent (a o : Bitfield) : Bool :=
  if a = o then true
  else if a.first < o.first then
    let copy := o
    decide (a = copy)
  else
    let copy := a
    decide (copy = o)

/-- bitfield.cc:209-226 `operator|=` (and `operator|`, 203-207) -/
def union (a o : Bitfield) : Bitfield :=
  let a' : Bitfield :=
    if a.first < o.first then
      { a with bits := a.bits ||| (o.bits <<< dist a.first o.first) }
    else
      { a with bits := (a.bits <<< dist o.first a.first) ||| o.bits, first := o.first }
  { a' with last := max a.last o.last }

/-- bitfield.cc:228-230 `count` -/
def count (b : Bitfield) : Nat := (List.range BITSIZE).countP b.test

/-- bitfield.cc:232-240 `first_set_date`; `none`: no bit is set, the loop does not end. -/
def firstSetDate (b : Bitfield) : Option Int :=
  ((List.range BITSIZE).find? b.test).map b.idxToDate

/-- bitfield.cc:242-250 `last_set_date`: scans downwards from the last day;
`none`: no bit is set at or below it. -/
def lastSetDate (b : Bitfield) : Option Int :=
  ((List.range (b.endIdx)).reverse.find? b.test).map b.idxToDate

/-- bitfield.cc:252-282 `make_bitfield`. As many characters as there are days are copied to the end of a 512 character buffer
of `'0'`s and reversed there; cista reads the buffer most significant bit first and sets a bit iff its character is not `'0'`.
The mask ends with a zero character; what follows the copied characters is ignored.
`none`: the copy reads beyond that zero or does not fit into the buffer. -/
def make (first last : Int) (mask : List Char) : Option Bitfield :=
  let n := (last - first + 1).toNat
  if first ≤ last + 1 ∧ n ≤ mask.length + 1 ∧ n ≤ BITSIZE then
    let m := (mask ++ ['\x00']).take n
    let buf := List.replicate (BITSIZE - m.length) '0' ++ m.reverse
    some { first, last, bits := BitVec.ofBoolListBE (buf.map (· != '0')) |>.setWidth 512 }
  else none

/-- Well-formed calendars: what every constructor and operation establishes. -/
structure WF (b : Bitfield) : Prop where
  le : b.first ≤ b.last
  fits : b.last - b.first < 512
  zero : ∀ i : Nat, b.last - b.first < i → b.test i = false

end Bitfield
end Soro
