/-
Model of `include/soro/simulation/dpd.h`, `granularity.h`, `kilometer_per_hour.h` and `fold_max` of `src/simulation/sim_graph.cc`.
Probabilities are rationals. Times and durations are integers (`time_t`, overflow not modelled), speeds are 16 bit unsigned
integers: naturals below 65536 with wrapping arithmetic.
`none`: undefined behaviour or an exception.
-/

namespace Soro.Dpd

/-- dpd.h:21-33; `%` and `/` truncate towards zero -/
def roundToNearestMultiple (num multiple : Int) : Int :=
  if multiple = 0 ∨ multiple = 1 then num
  else
    let remainder := num.tmod multiple
    if remainder ≤ multiple.tdiv 2 then num - remainder else num - remainder + multiple

/-- granularity.h:23-31 -/
def timeGranularity : Int := 6

/-- `v.resize(n)` as used by insert (grow only), new elements are `x` -/
def grow {α : Type} (x : α) (l : List α) (n : Nat) : List α := l ++ List.replicate (n - l.length) x

/-! ### one level, time or duration -/

/-- dpd.h:88-151 with a time or duration -/
structure TimeDist where
  first : Int
  ps : List Rat
  deriving Repr

/-- dpd.h:113-117 for an offset that is not negative -/
def TimeDist.toIdx (d : TimeDist) (i : Int) : Nat :=
  ((roundToNearestMultiple i timeGranularity - d.first).tdiv timeGranularity).toNat

/-- dpd.h:119-147. Points before the first one (lines 129-139): the shifted copy is discarded and the index of line 141 is a
negative number converted to an unsigned one; `resize` throws, or, if the index is `2^64 - 1`, the list is resized to zero and
accessed out of bounds. -/
def TimeDist.insert (d : TimeDist) (head : Int) (p : Rat) : Option TimeDist :=
  let granular := roundToNearestMultiple head timeGranularity
  if d.ps.isEmpty then some ⟨granular, [p]⟩
  else if granular < d.first then none
  else
    let idx := d.toIdx head
    let ps := if d.ps.length ≤ idx then grow 0 d.ps (idx + 1) else d.ps
    some { d with ps := ps.modify idx (· + p) }

/-- default constructed distribution; the value of `first` is the sentinel `numeric_limits::max()` and is never read -/
def TimeDist.init : TimeDist := ⟨2 ^ 63 - 1, []⟩

/-- dpd.h:35-79, 100-101: what iterating with `begin`/`end` yields -/
def TimeDist.entries (d : TimeDist) : List (Int × Rat) :=
  d.ps.zipIdx.map fun x => (d.first + timeGranularity * x.2, x.1)

/-- fp_precision.h:20-23 -/
def isZero (p : Rat) : Bool := decide ((if 0 - p < 0 then -(0 - p) else 0 - p) < 1 / 100)

/-- dpd.h:267-282 -/
def TimeDist.iterate (d : TimeDist) : List (Int × Rat) :=
  d.ps.zipIdx.flatMap fun x => if isZero x.1 then [] else [(d.first + timeGranularity * x.2, x.1)]

/-- sim_graph.cc:175-185 -/
def foldMax (a b : TimeDist) : Option TimeDist :=
  (a.entries.flatMap fun x => b.entries.map fun y => (max x.1 y.1, x.2 * y.2)).foldlM (fun r e => r.insert e.1 e.2) TimeDist.init

/-! ### one level, speed -/

/-- dpd.h:88-151 with a speed, granularity 1 (granularity.h:18-21) -/
structure SpeedDist where
  first : Nat
  ps : List Rat
  deriving Repr

/-- dpd.h:119-147. For a point before the first one the loop of lines 132-138 reads index `diff` of the stored list, undefined
unless `diff < size`; its result is discarded; the index of line 141 is the difference as a 16 bit number (lines 24-26 of
kilometer_per_hour.h). -/
def SpeedDist.insert (d : SpeedDist) (head : Nat) (p : Rat) : Option SpeedDist :=
  if d.ps.isEmpty then some ⟨head, [p]⟩
  else if head < d.first ∧ d.ps.length ≤ d.first - head then none
  else
    let idx := (head + 65536 - d.first) % 65536
    let ps := if d.ps.length ≤ idx then grow 0 d.ps (idx + 1) else d.ps
    some { d with ps := ps.modify idx (· + p) }

/-- default constructed distribution -/
def SpeedDist.init : SpeedDist := ⟨65535, []⟩

/-- dpd.h:35-79, 100-101: what iterating with `begin`/`end` yields; the point is increased with wrap-around -/
def SpeedDist.entries (d : SpeedDist) : List (Nat × Rat) :=
  d.ps.zipIdx.map fun x => ((d.first + x.2) % 65536, x.1)

/-! ### two levels, time and speed -/

/-- dpd.h:153-220; `first = none` is the sentinel -/
structure TimeSpeedDist where
  first : Option Int
  ds : List SpeedDist
  deriving Repr

/-- dpd.h:186-216. For a point before the first one the loop of lines 201-207 reads `dpd_[idx]` for an index up to
`size + diff - 1`, which is out of bounds. -/
def TimeSpeedDist.insert (d : TimeSpeedDist) (time : Int) (speed : Nat) (p : Rat) : Option TimeSpeedDist :=
  let granular := roundToNearestMultiple time timeGranularity
  match d.first with
  | none => (SpeedDist.init.insert speed p).map fun x => ⟨some granular, d.ds ++ [x]⟩
  | some f =>
    if granular < f then none
    else
      let idx := ((granular - f).tdiv timeGranularity).toNat
      let ds := if d.ds.length ≤ idx then grow SpeedDist.init d.ds (idx + 1) else d.ds
      match ds[idx]? with
      | none => none
      | some x => (x.insert speed p).map fun x' => ⟨some f, ds.set idx x'⟩

/-- default constructed distribution -/
def TimeSpeedDist.init : TimeSpeedDist := ⟨none, []⟩

/-- dpd.h:35-79, 165-166, nested iteration -/
def TimeSpeedDist.entries (d : TimeSpeedDist) : List (Int × Nat × Rat) :=
  d.ds.zipIdx.flatMap fun x => x.1.entries.map fun e => (d.first.getD (2 ^ 63 - 1) + timeGranularity * x.2, e.1, e.2)

/-- dpd.h:222-241: sum of all probabilities -/
def TimeSpeedDist.sum (d : TimeSpeedDist) : Rat :=
  d.ds.foldl (fun p x => p + x.entries.foldl (fun q e => q + e.2) 0) 0

/-- dpd.h:243-265 -/
def TimeSpeedDist.iterate (d : TimeSpeedDist) : List (Int × Nat × Rat) :=
  d.ds.zipIdx.flatMap fun x => x.1.ps.zipIdx.flatMap fun e =>
    if isZero e.1 then []
    else [(d.first.getD (2 ^ 63 - 1) + timeGranularity * x.2, ((x.1.first + 1) % 65536 + e.2 % 65536) % 65536, e.1)]

end Soro.Dpd
