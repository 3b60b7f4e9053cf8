import Verif.Model.Network

/-!
What a train running through a network may expect, in terms of the sections of the input: independent of neighbours, direction flags
and the other parts the construction of the graph works with.
-/

namespace Soro.Infra

/-- the points of the types -/
def Ty.points : Ty → List Pt
  | .bumper | .trackEnd | .border => [.only]
  | .kmJump | .lineSwitch => [.start, .fin]
  | .simpleSwitch => [.start, .stem, .branch]
  | .cross => [.startLeft, .endLeft, .startRight, .endRight]
  | _ => []

/-- the point a train leaves an element at if it came in at point `p`: without and with changing the track. `arcL`, `arcR`: a cross can
be used from start left to end right, from start right to end left. -/
def exits (ty : Ty) (arcL arcR : Bool) (p : Pt) : Option Pt × Option Pt :=
  match ty, p with
  | .kmJump, .start | .lineSwitch, .start => (some .fin, none)
  | .kmJump, .fin | .lineSwitch, .fin => (some .start, none)
  | .simpleSwitch, .start => (some .stem, some .branch)
  | .simpleSwitch, .stem | .simpleSwitch, .branch => (some .start, none)
  | .cross, .startLeft => (some .endLeft, if arcL then some .endRight else none)
  | .cross, .endLeft => (some .startLeft, if arcR then some .startRight else none)
  | .cross, .startRight => (some .endRight, if arcR then some .endLeft else none)
  | .cross, .endRight => (some .startRight, if arcL then some .startLeft else none)
  | _, _ => (none, none)

/-- the two ends of a section: `true` its start -/
def SecIn.elem (x : SecIn) (b : Bool) : Nat := if b then x.start else x.fin
def SecIn.pt (x : SecIn) (b : Bool) : Pt := if b then x.ptS else x.ptF

/-- the track elements of a section when leaving it at the end `b` -/
def SecOut.towards (o : SecOut) (b : Bool) : List Nat := if b then o.down else o.up

/-- the node of a track element for a train in rising or falling direction -/
def trackNode (el : Nat → Elem) (i : Nat) (up : Bool) : Node :=
  if (el i).ty.isDirected then (i, 0) else (i, if up then 0 else 1)

/-- the nodes a train runs over in a section towards the end `b` -/
def SecOut.nodes (o : SecOut) (el : Nat → Elem) (b : Bool) : List Node := (o.towards b).map fun i => trackNode el i (!b)

/-- the track elements a train in direction `dir` meets: all but the directed ones of the other direction -/
def TNode.kept (dir : Bool) (nd : TNode) : Bool := !(nd.ty.isDirected && decide (nd.rising ≠ dir))

/-- the types of the elements between the ends of a section: at least a meta element -/
def kinds (dir : Bool) (l : List TNode) : List Ty :=
  if l.filter (·.kept dir) = [] then [.metaElement] else (l.filter (·.kept dir)).map (·.ty)

/-- the ends of a section -/
def SecIn.ends (x : SecIn) : List (Nat × Pt) := [(x.start, x.ptS), (x.fin, x.ptF)]

/-- a section between elements of `g0`: different elements with such points, track elements with different identities -/
structure SecIn.Valid (x : SecIn) (g0 : Graph) : Prop where
  elem : ∀ b, x.elem b < g0.n
  pt : ∀ b, x.pt b ∈ (g0.el (x.elem b)).ty.points
  ne : x.start ≠ x.fin
  track : ∀ m ∈ x.up, m.ty.isTrack = true
  nodup : (x.up.map (·.xid)).Nodup
  perm : x.down.Perm x.up

/-- a network: section elements `g0` without neighbours, sections `xs`, borders of neighbouring stations `bs`. Every point of every
section element belongs to exactly one section. A border is low if its section starts there. -/
structure ValidNet (g0 : Graph) (xs : List SecIn) (bs : List (Nat × Bool × Nat)) : Prop where
  fresh : ∀ i, i < g0.n → (∀ k, (g0.el i).nb k = none) ∧ (g0.el i).ty.points ≠ []
  secs : ∀ x ∈ xs, x.Valid g0
  once : (xs.flatMap (·.ends)).Nodup
  complete : ∀ i, i < g0.n → ∀ p ∈ (g0.el i).ty.points, (i, p) ∈ xs.flatMap (·.ends)
  borders : ∀ t ∈ bs, t.1 < g0.n ∧ t.2.2 < g0.n ∧ (g0.el t.1).ty = .border ∧ (g0.el t.2.2).ty = .border ∧
    ∃ x ∈ xs, x.elem t.2.1 = t.1

/-- the graph of a network -/
def netGraph (g0 : Graph) (xs : List SecIn) (bs : List (Nat × Bool × Nat)) : Graph := connectBorders bs (parseAll xs g0).1

/-- the pairs of points that are used without changing the track -/
def Ty.pairs : Ty → List (Pt × Pt)
  | .kmJump | .lineSwitch => [(.start, .fin)]
  | .simpleSwitch => [(.start, .stem), (.start, .branch)]
  | .cross => [(.startLeft, .endLeft), (.startRight, .endRight)]
  | _ => []

/-- the sections `x` and `y` that meet with their ends `b` and `c` at an element of type `ty`, `x` at the first point of a pair, run in
the same direction, or belong to different lines; at a kilometrage jump the first point is the start of its section. At a line switch
any directions may meet. -/
def Joined (ty : Ty) (x : SecIn) (b : Bool) (y : SecIn) (c : Bool) : Prop :=
  if ty = .kmJump then b = true ∧ c = false else if ty = .lineSwitch then True else b ≠ c ∨ x.line ≠ y.line

/-- the sections at element `i` are joined -/
def Oriented (xs : List SecIn) (i : Nat) (ty : Ty) : Prop :=
  ∀ pq ∈ ty.pairs, ∀ x ∈ xs, ∀ y ∈ xs, ∀ b c, x.elem b = i → y.elem c = i → x.pt b = pq.1 → y.pt c = pq.2 → Joined ty x b y c

/-- `f` leads from node `n` of element `i` to the first node behind point `q`, or nowhere -/
def Leads (out : List SecOut) (el : Nat → Elem) (i : Nat) (f : Node → Option Node) (n : Node) (q : Option Pt) : Prop :=
  match q with
  | some q => ∃ o ∈ out, ∃ c, o.x.elem c = i ∧ o.x.pt c = q ∧ ∃ m, (o.nodes el (!c)).head? = some m ∧ f n = some m
  | none => f n = none

end Soro.Infra
