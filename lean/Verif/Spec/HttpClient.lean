import Mathlib.Data.List.Basic

/-
What servers read from an `Authorization` header, after RFC 4648 (base64), RFC 7617 (Basic) and RFC 6750 (Bearer).
Independent of the model of the client.
-/

namespace Soro.HttpClient.Spec

/-- the value of a character of the alphabet of base64 -/
def value (c : Char) : Option Nat :=
  if 65 ≤ c.toNat ∧ c.toNat ≤ 90 then some (c.toNat - 65)
  else if 97 ≤ c.toNat ∧ c.toNat ≤ 122 then some (c.toNat - 97 + 26)
  else if 48 ≤ c.toNat ∧ c.toNat ≤ 57 then some (c.toNat - 48 + 52)
  else if c = '+' then some 62
  else if c = '/' then some 63
  else none

/-- the bytes of one group of four characters; the last group may be padded -/
def group (a b c d : Char) (last : Bool) : Option (List Nat) :=
  match value a, value b, value c, value d with
  | some x, some y, some z, some w => some [x * 4 + y / 16, y % 16 * 16 + z / 4, z % 4 * 64 + w]
  | some x, some y, some z, none => if last ∧ d = '=' then some [x * 4 + y / 16, y % 16 * 16 + z / 4] else none
  | some x, some y, none, none => if last ∧ c = '=' ∧ d = '=' then some [x * 4 + y / 16] else none
  | _, _, _, _ => none

/-- decoding of base64 -/
def decode : List Char → Option (List Nat)
  | [] => some []
  | a :: b :: c :: d :: r =>
    match group a b c d r.isEmpty, decode r with
    | some g, some l => some (g ++ l)
    | _, _ => none
  | _ => none

/-- the text after a prefix -/
def after : List Char → List Char → Option (List Char)
  | [], s => some s
  | p :: ps, c :: s => if p = c then after ps s else none
  | _ :: _, [] => none

/-- user and password: what is before and after the first colon -/
def splitColon : List Nat → Option (List Nat × List Nat)
  | [] => none
  | c :: s => if c = 58 then some ([], s) else (splitColon s).map fun r => (c :: r.1, r.2)

/-- the credentials of the scheme Basic -/
def credentials (header : List Char) : Option (List Nat × List Nat) :=
  ((after "Basic ".toList header).bind decode).bind splitColon

/-- the token of the scheme Bearer -/
def token (header : List Char) : Option (List Char) := after "Bearer ".toList header

end Soro.HttpClient.Spec
