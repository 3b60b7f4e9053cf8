import Verif.Spec.ParseFp
import Verif.Spec.Utls

/-! The texts of times and durations that a timetable parser with assertions lets pass. -/

namespace Soro.Kss
open Utls Utls.Spec ParseFp

/-- two digits each for hours, minutes and seconds, with any characters between and three behind them -/
def TimeText (s : List Char) (sec : Nat) : Prop :=
  ∃ (h1 h2 m1 m2 s1 s2 : Fin 10) (a b c d e : Char),
    s = [Nat.digitChar h1.val, Nat.digitChar h2.val, a, Nat.digitChar m1.val, Nat.digitChar m2.val, b,
      Nat.digitChar s1.val, Nat.digitChar s2.val, c, d, e] ∧
    sec = (10 * h1.val + h2.val) * 3600 + (10 * m1.val + m2.val) * 60 + (10 * s1.val + s2.val)

/-- the nearest whole number, halves away from zero -/
def Rounded (q : Rat) (n : Nat) : Prop := (n : Rat) - 1 / 2 ≤ q ∧ q < n + 1 / 2 ∧ q ≠ -(1 / 2)

/-- a letter of the English alphabet in upper case -/
def Capital (c : Char) : Prop := 'A' ≤ c ∧ c ≤ 'Z'

/-- the seconds that a text with a unit stands for; of other units there are none -/
inductive Piece : List Char → Char → Nat → Prop
  | hours (text : List Char) (n : Nat) : Numeral ⟨false, 4⟩ text n → n < 2 ^ 32 → Piece text 'H' (3600 * n)
  | minutes (text : List Char) (n : Nat) : Numeral ⟨false, 4⟩ text n → n < 2 ^ 32 → Piece text 'M' (60 * n)
  | seconds (text : List Char) (q : Rat) (n : Nat) : Floating ['.'] text q → Rounded q n → n < 2 ^ 32 → Piece text 'S' n
  | other (text : List Char) (c : Char) : c ≠ 'H' → c ≠ 'M' → c ≠ 'S' → Piece text c 0

/-- the text consists of texts without capitals that are each followed by a unit; it stands for their sum -/
inductive Pieces : List Char → Nat → Prop
  | nil : Pieces [] 0
  | cons (text : List Char) (c : Char) (n : Nat) (rest : List Char) (m : Nat) :
      (∀ x ∈ text, ¬ Capital x) → Capital c → Piece text c n → Pieces rest m → Pieces (text ++ c :: rest) (n + m)

end Soro.Kss
