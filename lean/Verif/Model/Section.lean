import Verif.Model.Utls

/-
Model of element types (`include/soro/infrastructure/graph/type.h`), the element order and the section orders of
`src/infrastructure/parsers/iss/parse_iss.cc`, `include/soro/infrastructure/graph/section.h` and
`src/infrastructure/line.cc`. Kilometrages are rationals.
-/

namespace Soro.Infra

/-- type.h:11-47, in this order -/
inductive Ty where
  | bumper | trackEnd
  | kmJump | border | lineSwitch
  | simpleSwitch
  | cross
  | mainSignal | protectionSignal | approachSignal | runtimeCheckpoint | eotd | speedLimit | pointSpeed | brakePath
  | lzbStart | lzbEnd | lzbBlockSign | etcsStart | etcsEnd | etcsBlockSign | forcedHalt | metaElement | halt
  | tunnel | entry | trackName | runtimeCheckpointUndirected | levelCrossing | slope
  | invalid
  deriving DecidableEq, Repr

/-- type.h:51 -/
def Ty.id : Ty → Nat
  | .bumper => 0 | .trackEnd => 1 | .kmJump => 2 | .border => 3 | .lineSwitch => 4 | .simpleSwitch => 5 | .cross => 6
  | .mainSignal => 7 | .protectionSignal => 8 | .approachSignal => 9 | .runtimeCheckpoint => 10 | .eotd => 11
  | .speedLimit => 12 | .pointSpeed => 13 | .brakePath => 14 | .lzbStart => 15 | .lzbEnd => 16 | .lzbBlockSign => 17
  | .etcsStart => 18 | .etcsEnd => 19 | .etcsBlockSign => 20 | .forcedHalt => 21 | .metaElement => 22 | .halt => 23
  | .tunnel => 24 | .entry => 25 | .trackName => 26 | .runtimeCheckpointUndirected => 27 | .levelCrossing => 28
  | .slope => 29 | .invalid => 30

/-- type.h:73-75 -/
def Ty.isEnd (t : Ty) : Bool := decide (Ty.bumper.id ≤ t.id ∧ t.id ≤ Ty.trackEnd.id)
/-- type.h:77-79 -/
def Ty.isSimple (t : Ty) : Bool := decide (Ty.kmJump.id ≤ t.id ∧ t.id ≤ Ty.lineSwitch.id)
/-- type.h:85-87 -/
def Ty.isTrack (t : Ty) : Bool := decide (Ty.mainSignal.id ≤ t.id ∧ t.id ≤ Ty.slope.id)
/-- type.h:89-91 -/
def Ty.isDirected (t : Ty) : Bool := decide (Ty.mainSignal.id ≤ t.id ∧ t.id ≤ Ty.halt.id)
/-- type.h:93-95 -/
def Ty.isUndirected (t : Ty) : Bool := decide (Ty.tunnel.id ≤ t.id ∧ t.id ≤ Ty.slope.id)

/-! ### element order -/

/-- parse_iss.cc:85-138 -/
def orderKey (t : Ty) (rising : Bool) : Nat :=
  match t with
  | .lineSwitch | .kmJump | .border | .bumper | .simpleSwitch | .cross | .trackEnd => 32767
  | .tunnel => 0
  | .slope => 10
  | .entry => 20
  | .runtimeCheckpointUndirected => 100
  | .runtimeCheckpoint => if rising then 101 else 102
  | .halt => if rising then 110 else 111
  | .mainSignal => if rising then 120 else 121
  | .approachSignal => if rising then 130 else 131
  | .protectionSignal => if rising then 140 else 141
  | .eotd => if rising then 150 else 151
  | .lzbStart => if rising then 160 else 161
  | .lzbBlockSign => if rising then 170 else 171
  | .lzbEnd => if rising then 180 else 181
  | .etcsStart => if rising then 190 else 191
  | .etcsBlockSign => if rising then 200 else 201
  | .etcsEnd => if rising then 210 else 211
  | .speedLimit => if rising then 220 else 221
  | .forcedHalt => if rising then 230 else 231
  | .pointSpeed => if rising then 240 else 241
  | .brakePath => if rising then 250 else 251
  | .trackName => 300
  | .levelCrossing => 310
  | .metaElement => 999
  | .invalid => 32767

/-- what the order reads of an element -/
structure Item where
  km : Rat
  ty : Ty
  rising : Bool
  id : Nat
  deriving DecidableEq, Repr

/-- parse_iss.cc:140-156; `up`: the comparator is `std::less`, otherwise `std::greater` -/
def orderImpl (up : Bool) (a b : Item) : Bool :=
  if !Utls.equal a.km b.km then (if up then decide (a.km < b.km) else decide (b.km < a.km))
  else if orderKey a.ty a.rising ≠ orderKey b.ty b.rising then decide (orderKey a.ty a.rising < orderKey b.ty b.rising)
  else decide (a.id < b.id)

/-- the result of `std::sort` for a strict weak order (it is undefined for other comparisons) -/
def IsSort (up : Bool) (l l' : List Item) : Prop :=
  l'.Perm l ∧ l'.Pairwise fun a b => orderImpl up b a = false

/-! ### sections -/

/-- section.h:80-81 -/
structure Section where
  rising : List Item
  falling : List Item

/-- parse_iss.cc:498-515: `r` and `f` are the sorted track elements -/
def Section.build (start fin : Item) (r f : List Item) : Section := ⟨start :: r ++ [fin], fin :: f ++ [start]⟩

def Section.order (s : Section) (up : Bool) : List Item := if up then s.rising else s.falling

/-- section.h:23-38 with `skip::Yes` -/
def Section.iterate (s : Section) (up : Bool) : List Item :=
  (s.order up).filter fun e => !(e.ty.isDirected && decide (e.rising ≠ up))

/-- section.h:40-48 -/
def Section.since (s : Section) (e : Item) (up : Bool) : List Item := (s.order up).drop ((s.order up).idxOf e)

/-- section.h:50-58; `none`: the element is not there, the span reaches beyond the end -/
def Section.to (s : Section) (e : Item) (up : Bool) : Option (List Item) :=
  let i := (s.order up).idxOf e
  if i < (s.order up).length then some ((s.order up).take (i + 1)) else none

/-- section.h:60-70; `none`: the span reaches beyond the end or has negative size -/
def Section.fromTo (s : Section) (a b : Item) (up : Bool) : Option (List Item) :=
  let i := (s.order up).idxOf a
  let j := (s.order up).idxOf b
  if j < (s.order up).length ∧ i ≤ j + 1 then some (((s.order up).take (j + 1)).drop i) else none

/-! ### lines -/

/-- include/soro/infrastructure/line.h:11-16; `tag` stands for the other data -/
structure Segment where
  frm : Rat
  to : Rat
  tag : Nat
  deriving DecidableEq, Repr

/-- `std::lower_bound` as in the usual libraries: `first` and `len`; `fuel` at least `len` -/
def lowerBound {α : Type} (p : α → Bool) (l : List α) : Nat → Nat → Nat → Option Nat
  | 0, first, _ => some first
  | fuel + 1, first, len =>
    if len = 0 then some first
    else
      let half := len / 2
      match l[first + half]? with
      | none => none
      | some x => if p x then lowerBound p l fuel (first + half + 1) (len - half - 1) else lowerBound p l fuel first half

/-- line.cc:7-36; `none`: access to a segment that does not exist -/
def getSegment (l : List Segment) (km : Rat) : Option Segment :=
  match l.head?, l.getLast? with
  | some f, some b =>
    if km < f.frm then some f
    else if b.to < km then some b
    else
      (lowerBound (fun s : Segment => decide (s.frm ≤ km)) l l.length 0 l.length).bind fun i => if i = 0 then none else l[i - 1]?
  | _, _ => none

end Soro.Infra
