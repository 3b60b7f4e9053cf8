import Verif.Spec.Utls
import Verif.Model.ParseFp

/-! Decimal numbers as texts. -/

namespace Soro.ParseFp
open Utls Utls.Spec

/-- a run of digits -/
def AllDigits (s : List Char) : Prop := ∀ c ∈ s, c.isDigit = true

/-- `s` writes the number `q`: a minus for negative numbers, at least one digit, and possibly a separator followed by digits -/
def Decimal (separators : List Char) (s : List Char) (q : Rat) : Prop :=
  ∃ (neg : Bool) (ip fp : List Char), ip ≠ [] ∧ AllDigits ip ∧ AllDigits fp ∧
    (fp = [] ∧ s = (if neg then ['-'] else []) ++ ip ∨
      ∃ sep ∈ separators, s = (if neg then ['-'] else []) ++ ip ++ sep :: fp) ∧
    q = (if neg then -1 else 1) * ((value ip : Rat) + (value fp : Rat) / (10 ^ fp.length : Nat))

/-- a text that cannot continue a number -/
def Stops (g : List Char) : Prop := ∀ c, g.head? = some c → c.isDigit = false ∧ c ≠ '.' ∧ c ≠ ',' ∧ c ≠ 'e' ∧ c ≠ 'E'

/-- the text is empty or an exponent of ten -/
inductive Exponent : List Char → Int → Prop
  | none : Exponent [] 0
  | plain (c : Char) (ds : List Char) : c = 'e' ∨ c = 'E' → ds ≠ [] → AllDigits ds → Exponent (c :: ds) (value ds)
  | plus (c : Char) (ds : List Char) : c = 'e' ∨ c = 'E' → ds ≠ [] → AllDigits ds → Exponent (c :: '+' :: ds) (value ds)
  | minus (c : Char) (ds : List Char) : c = 'e' ∨ c = 'E' → ds ≠ [] → AllDigits ds → Exponent (c :: '-' :: ds) (-(value ds : Int))

/-- `s` writes the number `q` as floating point numbers are written: a minus for negative numbers, digits with at most one
separator among them, and possibly an exponent of ten -/
def Floating (separators : List Char) (s : List Char) (q : Rat) : Prop :=
  ∃ (neg : Bool) (ip fp frac ex : List Char) (e : Int), AllDigits ip ∧ AllDigits fp ∧ ip ++ fp ≠ [] ∧
    (fp = [] ∧ frac = [] ∨ ∃ sep ∈ separators, frac = sep :: fp) ∧ Exponent ex e ∧
    s = (if neg then ['-'] else []) ++ ip ++ frac ++ ex ∧
    q = (if neg then -1 else 1) * ((value ip : Rat) + (value fp : Rat) / (10 ^ fp.length : Nat)) * (10 : Rat) ^ e

end Soro.ParseFp
