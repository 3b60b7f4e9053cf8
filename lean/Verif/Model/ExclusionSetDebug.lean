import Verif.Model.Debug
import Verif.Model.ExclusionSet

/-
Model of the debug build of `soro::infra::exclusion_set`
(`include/soro/infrastructure/exclusion/exclusion_set.h`, `src/infrastructure/exclusion/exclusion_set.cc`): the
functions of `Verif.Model.ExclusionSet` with their assertions, in the order in which they are evaluated. Line numbers
are those of exclusion_set.cc, except for `beginD` and `endD`. `b.bits_.blocks_.size() - 1` of line 85 is unsigned
and wraps around for a set without blocks; the model keeps the wrap.
-/

namespace Soro
namespace ES
open Dbg

/-- exclusion_set.cc:43-53 `lower_first` -/
def lowerFirstD (s : ES) (newFirst : Nat) : Dbg ES := do
  check 45 (s.first > newFirst)
  check 46 (newFirst % 64 = 0)
  pure (s.lowerFirst newFirst)

/-- exclusion_set.cc:55-64 `increase_last` -/
def increaseLastD (s : ES) (newLast : Nat) : Dbg ES := do
  check 57 (s.last < newLast)
  check 58 ((newLast + 1) % 64 = 0)
  pure (s.increaseLast newLast)

/-- exclusion_set.cc:66-98 `contains_impl` -/
def containsImplD (a b : ES) : Dbg Bool := do
  check 67 (a.first ≤ b.first ∧ a.last ≥ b.last)
  check 73 (a.bits.size % 64 = 0)
  check 75 (b.bits.size % 64 = 0)
  check 79 ((b.first - a.first) % 64 = 0)
  check 84 (((b.bits.nblocks + (2 ^ 32 - 1)) % 2 ^ 32 + (b.first - a.first) / 64) % 2 ^ 32 < a.bits.nblocks)
  lift (containsImpl a b)

/-- exclusion_set.cc:100-135 `contains_impl_same_size` -/
def containsImplSameSizeD (a b : ES) : Dbg POrd := do
  check 102 (a.first = b.first ∧ a.last = b.last)
  check 108 (a.bits.size % 64 = 0)
  check 110 (b.bits.size % 64 = 0)
  check 114 (a.bits.nblocks = b.bits.nblocks)
  pure (containsImplSameSize a b)

/-- exclusion_set.cc:334-409 `ok`: every violated condition is a failed assertion -/
def okD (s : ES) : Dbg Bool := do
  if s.isEmpty then return true
  check 344 (s.first ≠ INVALID ∧ s.last ≠ INVALID ∧ s.firstSet ≠ INVALID ∧ s.lastSet ≠ INVALID ∧ s.bits.size ≠ 0)
  check 352 (s.first ≤ s.firstSet ∧ s.last ≥ s.lastSet)
  check 359 (s.first < s.last)
  check 369 (s.firstSet ≤ s.first + 64 ∧ s.lastSet ≥ s.last - 63)
  check 378 (s.bits.size ≥ (s.lastSet - s.firstSet + 1) / 64 + 1)
  check 386 (s.bits.test (s.firstSet - s.first) = true ∧ s.bits.test (s.lastSet - s.first) = true)
  check 404 (s.firstSet = s.getFirstSet ∧ s.lastSet = s.getLastSet)
  return true

/-- exclusion_set.cc:160-167: the window that `set` needs -/
def windowD (s : ES) (i : Nat) : Dbg ES :=
  if i < s.first then s.lowerFirstD (i / 64 * 64)
  else if i > s.last then s.increaseLastD ((i / 64 + 1) * 64 - 1)
  else pure s

/-- exclusion_set.cc:159-175 `set` -/
def setD (s : ES) (i : Nat) : Dbg ES := do
  let s1 ← s.windowD i
  let bits ← lift (s1.bits.set (i - s1.first))
  let s2 : ES := { s1 with bits, firstSet := min i s1.firstSet, lastSet := max i s1.lastSet }
  let good ← s2.okD
  check 174 (good = true)
  pure s2

/-- exclusion_set.cc:177-231 `operator-=` with another object -/
def diffD (a o : ES) : Dbg ES := do
  if a.isEmpty || o.isEmpty then return a
  if ¬ (a.lastSet ≥ o.firstSet ∧ o.lastSet ≥ a.firstSet) then return a
  let bitDiff := if a.first ≤ o.first then o.first - a.first else a.first - o.first
  check 198 (bitDiff % 64 = 0)
  let bits ← lift (a.maskBlocks o)
  let s1 : ES := { a with bits }
  let s2 : ES := if s1.bits.test (s1.firstSet - s1.first) then s1 else { s1 with firstSet := s1.getFirstSet }
  if s2.firstSet = INVALID then return s2.clear
  let s3 : ES := if s2.bits.test (s2.lastSet - s2.first) then s2 else { s2 with lastSet := s2.getLastSet }
  let good ← s3.compact.okD
  check 228 (good = true)
  return s3.compact

/-- exclusion_set.cc:242-244 -/
def lowerToD (s o : ES) : Dbg ES := if s.first > o.first then s.lowerFirstD o.first else pure s

/-- exclusion_set.cc:246-248 -/
def increaseToD (s o : ES) : Dbg ES := if s.last < o.last then s.increaseLastD o.last else pure s

/-- exclusion_set.cc:233-264 `operator|=` with another object -/
def unionD (a o : ES) : Dbg ES := do
  if o.isEmpty then return a
  let a1 := if a.isEmpty then o else a
  let a2 ← a1.lowerToD o
  let a3 ← a2.increaseToD o
  check 251 ((o.first - a3.first) % 64 = 0)
  let bits ← lift (a3.orBlocks o)
  let r : ES := { a3 with bits, firstSet := min a3.firstSet o.firstSet, lastSet := max a3.lastSet o.lastSet }
  let good ← r.okD
  check 261 (good = true)
  return r

/-- exclusion_set.cc:278-308 `compare`; `alias` says that both are the same object -/
def compareD (a o : ES) (alias : Bool) : Dbg POrd := do
  if a.isEmpty && !o.isEmpty then return .less
  if o.isEmpty then return .greater
  if alias then return .equivalent
  if a.first = o.first ∧ a.last = o.last then
    containsImplSameSizeD a o
  else if a.firstSet ≤ o.firstSet ∧ a.lastSet ≥ o.lastSet then do
    let c ← containsImplD a o
    return if c then .greater else .unordered
  else if a.firstSet ≥ o.firstSet ∧ a.lastSet ≤ o.lastSet then do
    let c ← containsImplD o a
    return if c then .less else .unordered
  else return .unordered

/-- exclusion_set.h:29-33: the constructor of `iterator` (line number of the header) -/
def iteratorD (s : ES) (i : Nat) : Dbg Nat := do
  check 31 (i ≤ s.bits.size)
  return i

/-- exclusion_set.h:66-67: the range-for loop over `begin()` and `end()` -/
def iterateD (s : ES) : Dbg (List Nat) := do
  let b ← s.iteratorD (s.firstSet - s.first)
  let _ ← s.iteratorD s.bits.size
  lift (s.walk b)

/-- exclusion_set.cc:411-446 `make_exclusion_set` -/
def makeD (id : Nat) (ids : List Nat) : Dbg ES := do
  check 414 (ids.Pairwise (· ≤ ·))
  let s ← lift (make id ids)
  if ids.isEmpty then return s
  let good ← s.okD
  check 443 (good = true)
  return s

end ES
end Soro
