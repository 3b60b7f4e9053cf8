import Verif.Model.Cliques
import Verif.Spec.Utls
import Mathlib.Data.List.Forall2

/-
Vocabulary for files with cliques and exported exclusion graphs.
-/

namespace Soro.Cliques.Spec
open TypeNames Utls.Spec

/-- the line lists the numbers, separated by single blanks -/
def LineOf (line : Text) (ids : List Nat) : Prop :=
  ∃ ts : List Text, line = [' '].intercalate ts ∧ List.Forall₂ (fun (t : Text) (id : Nat) => Numeral ⟨false, 4⟩ t (id : Int) ∧ id < 2 ^ 32) ts ids

/-- the file has a line for every clique, each with a newline at the end, which may be missing for a last line that is not
empty -/
def FileOf (file : Text) (cliques : List (List Nat)) : Prop :=
  ∃ ls : List Text, (file = ls.flatMap (fun l => l ++ ['\n']) ∨
      (file ++ ['\n'] = ls.flatMap (fun l => l ++ ['\n']) ∧ ∃ f c, file = f ++ [c] ∧ c ≠ '\n')) ∧
    List.Forall₂ LineOf ls cliques

/-- numbers with a blank behind each, and a newline -/
def row (js : List Nat) : Text := js.flatMap (fun j => Nat.toDigits 10 j ++ [' ']) ++ ['\n']

/-- `a` comes before `b` in a dictionary -/
inductive Before : List Nat → List Nat → Prop
  | shorter {b bs} : Before [] (b :: bs)
  | smaller {a b as bs} : a < b → Before (a :: as) (b :: bs)
  | next {a as bs} : Before as bs → Before (a :: as) (a :: bs)

end Soro.Cliques.Spec
