/-
Model of `include/soro/utls/strong_types/type_list.h` and `fraction.h`: a type list of unit tags is a list of tags, a
`fraction<N, D, P>` is a pair of such lists and a value (a rational instead of a floating point number).
-/

namespace Soro.Units

/-- fraction.h:21-24 -/
inductive Tag where
  | meter | second | kilogram | ampere
  deriving DecidableEq, Repr

/-- type_list.h:41-64 (the special case for one element agrees with the general one) -/
def removeOnce (x : Tag) : List Tag → List Tag
  | [] => []
  | y :: ys => if x = y then ys else y :: removeOnce x ys

/-- type_list.h:76-93 -/
def removeTimes : Nat → Tag → List Tag → List Tag
  | 0, _, l => l
  | n + 1, x, l => removeTimes n x (removeOnce x l)

/-- type_list.h:103-118 -/
def concatTimes : Nat → List Tag → List Tag
  | 0, _ => []
  | n + 1, l => l ++ concatTimes n l

/-- type_list.h:13-22 -/
def countType (x : Tag) (l : List Tag) : Nat := l.foldl (fun a y => a + if x = y then 1 else 0) 0

/-- fraction.h:28-35 -/
def minV (a b : Nat) : Nat := if a > b then b else a

/-- fraction.h:44-47 -/
def simplifyTagN (n d : List Tag) (x : Tag) : List Tag :=
  if countType x n ≠ 0 ∧ countType x d ≠ 0 then removeTimes (minV (countType x n) (countType x d)) x n else n

/-- fraction.h:49-53 -/
def simplifyTagD (n d : List Tag) (x : Tag) : List Tag :=
  if countType x n ≠ 0 ∧ countType x d ≠ 0 then removeTimes (minV (countType x n) (countType x d)) x d else d

/-- fraction.h:71-75 -/
def simplifyN (n d : List Tag) : List Tag :=
  simplifyTagN (simplifyTagN (simplifyTagN (simplifyTagN n d .meter) d .second) d .kilogram) d .ampere

/-- fraction.h:77-82 -/
def simplifyD (n d : List Tag) : List Tag :=
  simplifyTagD n (simplifyTagD n (simplifyTagD n (simplifyTagD n d .meter) .second) .kilogram) .ampere

/-- fraction.h:115-223 -/
structure Quantity where
  num : List Tag
  den : List Tag
  val : Rat
  deriving Repr

/-- fraction.h:194-201 -/
def Quantity.mul (a b : Quantity) : Quantity :=
  ⟨simplifyN (a.num ++ b.num) (a.den ++ b.den), simplifyD (a.num ++ b.num) (a.den ++ b.den), a.val * b.val⟩

/-- fraction.h:203-210 -/
def Quantity.div (a b : Quantity) : Quantity :=
  ⟨simplifyN (a.num ++ b.den) (a.den ++ b.num), simplifyD (a.num ++ b.den) (a.den ++ b.num), a.val / b.val⟩

/-- fraction.h:212-220, the member -/
def Quantity.pow (a : Quantity) (e : Nat) : Quantity :=
  ⟨simplifyN (concatTimes e a.num) (concatTimes e a.den), simplifyD (concatTimes e a.num) (concatTimes e a.den), a.val ^ e⟩

/-- fraction.h:243-253, the free function for exponent `e + 1` (exponent 0 does not compile) -/
def Quantity.powFree (a : Quantity) : Nat → Quantity
  | 0 => a
  | e + 1 => a.mul (a.powFree e)

/-- fraction.h:85-92 -/
def isSameTypeList (a b : List Tag) : Bool :=
  decide (countType .meter a = countType .meter b) && decide (countType .second a = countType .second b) &&
  decide (countType .kilogram a = countType .kilogram b) && decide (countType .ampere a = countType .ampere b)

/-- fraction.h:98-105, 119-126 for one precision: whether a quantity converts to another unit -/
def isSameFraction (a b : Quantity) : Bool := isSameTypeList a.num b.num && isSameTypeList a.den b.den

/-- fraction.h:128-130 with fp_precision.h:15-18 -/
def eqVal (a b : Rat) : Bool := decide ((if a - b < 0 then -(a - b) else a - b) < 1 / 100)
/-- fraction.h:134 -/
def ltVal (a b : Rat) : Bool := decide (a < b)
/-- fraction.h:136 -/
def leVal (a b : Rat) : Bool := decide (a ≤ b)

/-- fraction.h:269-280 -/
def Tag.symbol : Tag → List Char
  | .meter => ['m']
  | .second => ['s']
  | .kilogram => ['k', 'g']
  | .ampere => ['A']

/-- fraction.h:282-283: the superscript for a count below 10 -/
def exponentSymbol : Nat → List Char
  | 2 => ['²'] | 3 => ['³'] | 4 => ['⁴'] | 5 => ['⁵'] | 6 => ['⁶'] | 7 => ['⁷'] | 8 => ['⁸'] | 9 => ['⁹']
  | _ => []

/-- fraction.h:289-297 -/
def tagStr (l : List Tag) (t : Tag) : List Char :=
  let c := countType t l
  if c ≠ 0 ∧ c < 10 then t.symbol ++ exponentSymbol c ++ ['*'] else []

/-- fraction.h:285-313 -/
def typeListStr (l : List Tag) : Option (List Char) :=
  let r := tagStr l .meter ++ tagStr l .second ++ tagStr l .kilogram ++ tagStr l .ampere
  if r.isEmpty then none else some (if r.getLast? = some '*' then r.dropLast else r)

/-- fraction.h:139-141, 315-326 -/
def Quantity.unitStr (q : Quantity) : List Char :=
  if q.den = [] then ['['] ++ (typeListStr q.num).getD [] ++ [']']
  else ['['] ++ (typeListStr q.num).getD ['1'] ++ ['/'] ++ (typeListStr q.den).getD [] ++ [']']

end Soro.Units
