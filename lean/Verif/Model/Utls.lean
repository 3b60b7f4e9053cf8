/-
Models of small utilities: `include/soro/utls/narrow.h`, `parse_int.h`, `string.h`, `container/optional.h`,
`math/polynomial.h`, `math/piecewise_function.h` and `include/soro/base/fp_precision.h`.
Floating point numbers are rationals.
-/

namespace Soro.Utls

/-! ### integral types, narrow.h -/

/-- a built-in integral type: signedness and `sizeof` (`bool` and character types are left out) -/
structure IntTy where
  signed : Bool
  bytes : Nat
  deriving DecidableEq, Repr

/-- number of values -/
def IntTy.card (t : IntTy) : Int := 2 ^ (8 * t.bytes)
/-- `numeric_limits<T>::min()` -/
def IntTy.min (t : IntTy) : Int := if t.signed then -(2 ^ (8 * t.bytes - 1)) else 0
/-- `numeric_limits<T>::max()` -/
def IntTy.max (t : IntTy) : Int := if t.signed then 2 ^ (8 * t.bytes - 1) - 1 else 2 ^ (8 * t.bytes) - 1

/-- narrow.h:15-32 (three overloads selected by signedness) -/
def isNarrowing (out inp : IntTy) : Bool :=
  if !out.signed && inp.signed then true
  else if out.signed && !inp.signed then decide (out.bytes ≤ inp.bytes)
  else decide (out.bytes < inp.bytes)

/-- narrow.h:36-68 (five overloads) -/
def fits (out inp : IntTy) (v : Int) : Bool :=
  if !isNarrowing out inp then true
  else if !out.signed && inp.signed then
    if out.bytes < inp.bytes then decide (0 ≤ v) && decide (v ≤ out.max) else decide (0 ≤ v)
  else if out.signed && !inp.signed then decide (v ≤ out.max)
  else decide (out.min ≤ v) && decide (v ≤ out.max)

/-- `static_cast` between integral types: the value modulo the number of values -/
def cast (out : IntTy) (v : Int) : Int := (v - out.min) % out.card + out.min

/-- narrow.h:72-78; the assertion throws (`none`) in debug builds only -/
def narrow (debug : Bool) (out inp : IntTy) (v : Int) : Option Int :=
  if debug && !fits out inp v then none else some (cast out v)

/-! ### parse_int.h -/

/-- `std::errc` as used by `std::from_chars` -/
inductive Errc where
  | ok | invalidArgument | outOfRange
  deriving DecidableEq, Repr

/-- value of a digit character -/
def digit (c : Char) : Nat := c.toNat - 48

/-- result of `std::from_chars` for base 10: error code, the unread rest, the written value (`none`: not modified).
Contract of the standard library: an optional minus (signed types only), then the longest run of digits. -/
def fromChars (t : IntTy) (s : List Char) : Errc × List Char × Option Int :=
  let neg := t.signed && decide (s.head? = some '-')
  let body := if neg then s.tail else s
  let ds := body.takeWhile Char.isDigit
  let rest := body.dropWhile Char.isDigit
  if ds.isEmpty then (.invalidArgument, s, none)
  else
    let n : Nat := ds.foldl (fun a c => 10 * a + digit c) 0
    let v : Int := if neg then -(n : Int) else n
    if t.min ≤ v ∧ v ≤ t.max then (.ok, rest, some v) else (.outOfRange, rest, none)

/-- parse_int.h:21-39 `try_parse_int` -/
def tryParseInt (t : IntTy) (s : List Char) : Option Int :=
  match fromChars t s with
  | (.ok, [], v) => v
  | _ => none

/-- parse_int.h:41-53 `parse_int` in a release build: the value is initialised with the maximum (parse_int.h:15) and errors are
ignored -/
def parseInt (t : IntTy) (s : List Char) : Int := ((fromChars t s).2.2).getD t.max

/-! ### string.h -/

/-- `std::string_view::find(delim, start)` -/
def find (s d : List Char) (start : Nat) : Option Nat :=
  if start ≤ s.length then (List.range' start (s.length + 1 - start)).find? fun i => d.isPrefixOf (s.drop i) else none

/-- string.h:85-93: the loop with `start`, `end` and the tokens so far; `none`: it has not ended after `fuel` rounds -/
def splitLoop (s d : List Char) : Nat → Nat → Option Nat → List (List Char) → Option (List (List Char))
  | 0, _, _, _ => none
  | fuel + 1, start, e, tokens =>
    match e with
    | none => some (tokens ++ [s.drop start])
    | some e => splitLoop s d fuel (e + d.length) (find s d (e + d.length)) (tokens ++ [(s.drop start).take (e - start)])

/-- string.h:77-95 -/
def split (fuel : Nat) (s d : List Char) : Option (List (List Char)) :=
  if s.isEmpty then some [] else splitLoop s d fuel 0 (find s d 0) []

/-- `strcmp(a, b) == 0` on the bytes from two addresses on; `none`: read beyond the memory -/
def strcmpEq : List Char → List Char → Option Bool
  | [], _ => none
  | _, [] => none
  | a :: as, b :: bs => if a = b then if a = '\x00' then some true else strcmpEq as bs else some false

/-- a `string_view`: the memory from its address on and its size -/
structure View where
  mem : List Char
  size : Nat

/-- string.h:54-56: `equal` of two views -/
def viewEqual (a b : View) : Option Bool := strcmpEq a.mem b.mem

/-! ### optional.h -/

/-- `optional<T, INVALID>` (optional.h:23-155) -/
structure Opt (α : Type) (inv : α) where
  val : α

variable {α β : Type} [DecidableEq α] {inv : α}

/-- optional.h:26-27, 154 -/
def Opt.empty : Opt α inv := ⟨inv⟩
/-- optional.h:28 -/
def Opt.make (v : α) : Opt α inv := ⟨v⟩
/-- optional.h:61 -/
def Opt.hasValue (o : Opt α inv) : Bool := decide (o.val ≠ inv)
/-- optional.h:83-95 -/
def Opt.valueOr (o : Opt α inv) (d : α) : α := if o.hasValue then o.val else d
/-- optional.h:97 -/
def Opt.reset (_ : Opt α inv) : Opt α inv := ⟨inv⟩
/-- optional.h:99-104: the arguments the function is called with -/
def Opt.executeIf (o : Opt α inv) : List α := if o.hasValue then [o.val] else []
/-- optional.h:106-114; `dflt` is the default constructed result -/
def Opt.andThen (dflt : β) (o : Opt α inv) (f : α → β) : β := if o.hasValue then f o.val else dflt
/-- optional.h:116-125 -/
def Opt.transform (dflt : β) (o : Opt α inv) (f : α → β) : β := if o.hasValue then f o.val else dflt
/-- optional.h:127-135 -/
def Opt.orElse (o : Opt α inv) (f : Unit → Opt α inv) : Opt α inv := if o.hasValue then o else f ()

/-! ### polynomial.h, piecewise_function.h, fp_precision.h -/

/-- polynomial.h:44-51, 81-107: factors in descending order of degree -/
def horner (fs : List Rat) (x : Rat) : Rat :=
  match fs with
  | [] => 0
  | f :: fs => fs.foldl (fun r g => g + r * x) f

/-- piecewise_function.h:19-29 -/
structure Piece where
  factors : List Rat
  frm : Rat
  to : Rat

/-- piecewise_function.h:50-66; `none`: the verification throws -/
def evalPieces (ps : List Piece) (x : Rat) : Option Rat :=
  (ps.find? fun p => decide (x < p.to)).map fun p => horner p.factors x

/-- fp_precision.h:14-18 -/
def equal (a b : Rat) : Bool := decide ((if a - b < 0 then -(a - b) else a - b) < 1 / 100)

/-- piecewise_function.h:37-45 -/
def isContinuous : List Piece → Bool
  | p :: q :: ps => equal (if p.to - q.frm < 0 then -(p.to - q.frm) else p.to - q.frm) 0 && isContinuous (q :: ps)
  | _ => true

end Soro.Utls
