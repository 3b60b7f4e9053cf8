import Verif.Model.Exclusion
import Verif.Model.TypeNames
import Verif.Model.Utls

/-
Model of `src/infrastructure/exclusion/read_cliques.cc`, of `get_exclusion` (get_exclusion.cc:100-128) and of the tool
`tools/export_exclusion_graph/src/export_exclusion_graph.cc`.

A file is its text, `none`: it cannot be opened. Numbers that are not written as numbers are the largest number (release
builds). The exclusion graph that `get_exclusion_graph` would compute is a parameter (modelled in `Exclusion`).
-/

namespace Soro.Cliques
open Utls TypeNames

/-- `getline` until the end of the file: a last line without newline counts, an empty one does not -/
def lines : Text → List Text
  | [] => []
  | c :: cs =>
    if c = '\n' then [] :: lines cs
    else match lines cs with
      | [] => [[c]]
      | l :: ls => (c :: l) :: ls

/-- `interlocking_route::id` -/
def u32 : IntTy := ⟨false, 4⟩

/-- read_cliques.cc:22-26 -/
def clique (line : Text) : List Nat :=
  ((split (line.length + 1) line [' ']).getD []).map fun t => (parseInt u32 t).toNat

/-- `operator<` of vectors of numbers -/
def lexLt : List Nat → List Nat → Bool
  | _, [] => false
  | [], _ :: _ => true
  | a :: as, b :: bs => decide (a < b) || (decide (a = b) && lexLt as bs)

def insertLex (a : List Nat) : List (List Nat) → List (List Nat)
  | [] => [a]
  | b :: l => if lexLt b a then b :: insertLex a l else a :: b :: l

/-- `std::sort` with `<`: the result is unique -/
def sortLex (l : List (List Nat)) : List (List Nat) := l.foldr insertLex []

/-- read_cliques.cc:13-36 -/
def readCliques (file : Option Text) : List (List Nat) :=
  sortLex (((lines (file.getD [])).map clique).map Algo.sortNat)

/-- exclusion.h:18-24 -/
structure Data where
  graph : List ES
  sets : List (List Nat)
  irsToSets : List (List Nat)

/-- get_exclusion.cc:100-128; `elements`, `graph`: the options; `none`: undefined behaviour -/
def getExclusion (elements graph : Bool) (g : Option (List ES)) (file : Option Text) (irCount : Nat) : Option Data :=
  (if elements && graph then g else some []).bind fun nodes =>
    (Exclusion.irsToExclusionSets (readCliques file) irCount).map fun irs => ⟨nodes, readCliques file, irs⟩

/-- export_exclusion_graph.cc:41-50 -/
def writeRow (i : Nat) : List Nat → Text
  | [] => ['\n']
  | j :: js => if i = j then ['\n'] else Nat.toDigits 10 j ++ ' ' :: writeRow i js

/-- export_exclusion_graph.cc:40-51 from node `i` on; `none`: iteration beyond the set -/
def writeFrom : Nat → List ES → Option Text
  | _, [] => some []
  | i, n :: ns => do
    let l ← n.iterate
    let t ← writeFrom (i + 1) ns
    pure (writeRow i l ++ t)

/-- export_exclusion_graph.cc:37-53 -/
def writeOut (nodes : List ES) : Option Text := writeFrom 0 nodes

/-- export_exclusion_graph.cc:70-78: the options (infrastructure_options.h:24-28: exclusion elements are off by default) and the
written file -/
def exportTool (g : Option (List ES)) (file : Option Text) (irCount : Nat) : Option Text :=
  (getExclusion false true g file irCount).bind fun d => writeOut d.graph

end Soro.Cliques
