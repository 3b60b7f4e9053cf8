import Verif.Model.Debug
import Verif.Model.ParseFp

/-
Model of `include/soro/utls/parse_int.h` and `include/soro/utls/parse_fp.h` in a build with assertions, on the texts between
the two pointers. As in `Verif.Model.ParseFp` the branch with `std::from_chars` is modelled, floating point numbers are
rationals of any size, and texts that begin with "inf" or "nan" are treated like other texts without digits.
-/

namespace Soro.Utls
open Dbg

/-- parse_int.h:41-53 `parse_int` -/
def parseIntD (t : IntTy) (s : List Char) : Dbg Int := do
  check 45 ((fromChars t s).1 = .ok)
  check 48 ((fromChars t s).2.1 = [])
  return (fromChars t s).2.2.getD t.max

end Soro.Utls

namespace Soro.ParseFp
open Dbg Utls

/-- parse_fp.h:21-47 `detail::parse_fp`; the result `none` is the largest number -/
def parseFpImplD (s : List Char) : Dbg (Option Rat) := do
  check 37 ((fpFromChars s).1 = .ok)
  check 40 ((fpFromChars s).2.1 = [])
  return (fpFromChars s).2.2

/-- parse_fp.h:51-86 `parse_fp` -/
def parseFpD (replace : Bool) (s : List Char) : Dbg (Option Rat) :=
  if replace then parseFpImplD (replaceComma s)
  else do
    check 63 (s.any (· == ',') = false)
    parseFpImplD s

end Soro.ParseFp
