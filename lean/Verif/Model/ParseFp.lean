import Verif.Model.Utls

/-
Model of `include/soro/utls/parse_fp.h`, `parse_kilometrage` (`src/infrastructure/parsers/iss/parse_helpers.cc:11-25`) and
`get_section_length` (`src/infrastructure/parsers/iss/parse_iss.cc:48-56`).

Floating point numbers are rationals; `none` is the largest number (or infinity), the result of a failed parse. The release
build with `std::from_chars` is modelled. Texts that begin with "inf" or "nan" are treated like other texts without digits.
-/

namespace Soro.ParseFp
open Utls

/-- number written by digits -/
def natOf (ds : List Char) : Nat := ds.foldl (fun a c => 10 * a + digit c) 0

/-- the exponent part of `std::from_chars`: (negative, digits, rest); without digits it is not an exponent -/
def exponent (s : List Char) : Bool × List Char × List Char :=
  match s with
  | c :: r =>
    if c = 'e' ∨ c = 'E' then
      let neg := decide (r.head? = some '-')
      let body := if r.head? = some '-' ∨ r.head? = some '+' then r.tail else r
      if (body.takeWhile Char.isDigit).isEmpty then (false, [], s)
      else (neg, body.takeWhile Char.isDigit, body.dropWhile Char.isDigit)
    else (false, [], s)
  | [] => (false, [], s)

/-- `std::from_chars` for floating point numbers: error code, the unread rest, the written value (`none`: not modified).
Contract of the standard library: an optional minus, then the longest run of digits with at most one point and an optional
exponent. -/
def fpFromChars (s : List Char) : Errc × List Char × Option Rat :=
  let neg := decide (s.head? = some '-')
  let body := if neg then s.tail else s
  let ip := body.takeWhile Char.isDigit
  let r1 := body.dropWhile Char.isDigit
  let point := decide (r1.head? = some '.')
  let fp := if point then r1.tail.takeWhile Char.isDigit else []
  let r2 := if point then r1.tail.dropWhile Char.isDigit else r1
  if ip.isEmpty && fp.isEmpty then (.invalidArgument, s, none)
  else
    let e := exponent r2
    let m : Rat := (natOf (ip ++ fp) : Rat) / (10 ^ fp.length : Nat)
    let x : Rat := if e.1 then m / (10 ^ natOf e.2.1 : Nat) else m * (10 ^ natOf e.2.1 : Nat)
    (.ok, e.2.2, some (if neg then -x else x))

/-- `std::replace` of commas: parse_fp.h:53 -/
def replaceComma (s : List Char) : List Char := s.map fun c => if c = ',' then '.' else c

/-- parse_fp.h:21-86 in a release build: errors and unread characters are ignored -/
def parseFp (replace : Bool) (s : List Char) : Option Rat := (fpFromChars (if replace then replaceComma s else s)).2.2

/-- units.h:57-59 -/
def fromKm (x : Option Rat) : Option Rat := x.map (· * 1000)
/-- units.h:67-69 -/
def fromKmH (x : Option Rat) : Option Rat := x.map (· * 5 / 18)
/-- addition; the largest number stays it -/
def plus (x y : Option Rat) : Option Rat :=
  match x, y with
  | some x, some y => some (x + y)
  | _, _ => none

/-- parse_helpers.cc:11-25 -/
def parseKilometrage (s : List Char) : Option Rat :=
  match s.dropWhile (· != '+') with
  | _ :: extra => plus (fromKm (parseFp true (s.takeWhile (· != '+')))) (fromKm (parseFp true extra))
  | [] => fromKm (parseFp true s)

/-- parse_iss.cc:48-56; the difference of two largest numbers is not a number -/
def sectionLength (start fin : List Char) : Option Rat :=
  match parseKilometrage start, parseKilometrage fin with
  | some a, some b => some (if a - b < 0 then -(a - b) else a - b)
  | _, _ => none

end Soro.ParseFp
