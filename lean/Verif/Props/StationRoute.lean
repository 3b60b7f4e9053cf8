import Verif.Proof.InterlockingRoute

/-
Properties C38 to C42 and C70: iteration of station routes and interlocking routes.
-/

namespace Soro.Route
open Spec

/-! ### C40 -/

/-- C40: for `a ≤ b ≤ size`, `from_to(a, b)` yields exactly the nodes `a, ..., b - 1` in order, each marked omitted iff
its index is in the omitted list. -/
theorem C40_from_to (r : SRoute) (hs : r.omitted.Pairwise (· < ·)) (a b : Nat) (hab : a ≤ b) (hb : b ≤ r.nodes.length) :
    ∃ l, r.fromTo a b = some l ∧ l.length = b - a ∧
      ∀ i < b - a, ∃ x, l[i]? = some x ∧ r.nodes[a + i]? = some x.node ∧ (x.omitted = true ↔ a + i ∈ r.omitted) := by
  obtain ⟨l, h1, h2⟩ := fromTo_told r hs a b hab hb
  have hlen : l.length = b - a := by simpa using congrArg List.length h2
  refine ⟨l, h1, hlen, fun i hi => ?_⟩
  have hil : i < l.length := by omega
  refine ⟨l[i], List.getElem?_eq_getElem hil, ?_⟩
  have hn : a + i < r.nodes.length := by omega
  have := congrArg (fun l => l[i]?) h2
  simp only [List.getElem?_map, List.getElem?_eq_getElem hil, Option.map_some, List.getElem?_range' hi, Nat.one_mul,
    shown, List.getElem?_eq_getElem hn, told, Option.some.injEq, Prod.mk.injEq] at this
  rw [List.getElem?_eq_getElem hn, this.1, this.2]
  simp

/-- C40: splitting the range at any point gives the same sequence of nodes and omitted flags. -/
theorem C40_split (r : SRoute) (hs : r.omitted.Pairwise (· < ·)) (a m b : Nat) (ham : a ≤ m) (hmb : m ≤ b)
    (hb : b ≤ r.nodes.length) : ∃ l l1 l2, r.fromTo a b = some l ∧ r.fromTo a m = some l1 ∧ r.fromTo m b = some l2 ∧
      l.map told = (l1 ++ l2).map told := by
  obtain ⟨l, h1, h2⟩ := fromTo_told r hs a b (by omega) hb
  obtain ⟨l1, h3, h4⟩ := fromTo_told r hs a m ham (by omega)
  obtain ⟨l2, h5, h6⟩ := fromTo_told r hs m b hmb hb
  refine ⟨l, l1, l2, h1, h3, h5, ?_⟩
  rw [List.map_append, h2, h4, h6, ← List.map_append]
  congr 1
  have h := List.range'_append (s := a) (m := m - a) (n := b - m) (step := 1)
  rw [show a + 1 * (m - a) = m by omega, show m - a + (b - m) = b - a by omega] at h
  exact h.symm

/-- C40, the remaining inputs: a start behind the end yields nothing, an end behind the end of the route reads behind the
vector (undefined behaviour). -/
theorem C40_beyond (r : SRoute) (a b : Nat) :
    (r.nodes.length ≤ a → r.fromTo a b = some []) ∧ (a < r.nodes.length → r.nodes.length < b → r.fromTo a b = none) := by
  unfold SRoute.fromTo SRoute.size
  constructor
  · intro h; rw [if_pos h]
  · intro h1 h2
    rw [if_neg (by omega)]
    exact yieldLoop_none r _ _ _ _ _ (by omega) (by omega)

/-- a route with omitted nodes and limits -/
def exRoute : SRoute := ⟨[10, 11, 12, 13, 14], [1, 3], [10, 12]⟩

example : exRoute.omitted.Pairwise (· < ·) ∧ 2 ≤ 4 ∧ 4 ≤ exRoute.nodes.length := by decide
example : exRoute.fromTo 2 4 = some [⟨12, some 1, false⟩, ⟨13, some 1, true⟩] := by decide

/-! ### C41 -/

/-- C41 is false in the code: `result.extra_spl_` is never reset, so after a node with an extra speed limit all later
nodes report that limit too. -/
theorem C41_negation : ∃ r : SRoute, LimitsInOrder r ∧ r.omitted.Pairwise (· < ·) ∧
    ∃ l x k p, r.iterate = some l ∧ l[p]? = some x ∧ x.extra = some k ∧ ¬ LimitAt r k p := by
  refine ⟨⟨[10, 11, 12], [], [10]⟩, ⟨by decide, ?_, ?_, ?_⟩, by decide,
    [⟨10, some 0, false⟩, ⟨11, some 0, false⟩, ⟨12, some 0, false⟩], ⟨12, some 0, false⟩, 0, 2, by decide, rfl, rfl, ?_⟩
  · intro k hk
    have : k = 0 := by simp at hk; exact hk
    subst this
    exact ⟨0, 10, rfl, rfl⟩
  · rintro k p k' p' ⟨n, h1, -⟩ ⟨m, h2, -⟩ hlt
    have := (List.getElem?_eq_some_iff.1 h2).1
    simp at this
    omega
  · simp
  · rintro ⟨n, h1, h2⟩
    simp at h1 h2
    omega

/-- C41, a second violation: an extra speed limit on an omitted node is skipped and hides all later limits when iterating
from the start, while an iteration that starts after that node does report them. -/
theorem C41_omitted_negation : ∃ r : SRoute, r.nodes.Nodup ∧ r.omitted.Pairwise (· < ·) ∧
    r.iterate = some [⟨10, none, true⟩, ⟨11, none, false⟩, ⟨12, none, false⟩] ∧ LimitAt r 1 2 ∧ 2 ∉ r.omitted ∧
    r.from_ 2 = some [⟨12, some 1, false⟩] :=
  ⟨⟨[10, 11, 12], [0], [10, 12]⟩, by decide, by decide, by decide, ⟨12, rfl, rfl⟩, by decide, by decide⟩

/-- C41, what holds: if the limits are listed in the order of their nodes and no node with a limit is omitted, the limit
reported at index `i` of an iteration starting at `a` is the last one at an index in `[a, i]`, and there is none iff no such
limit exists. -/
theorem C41_latest_partial (r : SRoute) (h : LimitsInOrder r) (hs : r.omitted.Pairwise (· < ·)) (a b : Nat)
    (hab : a ≤ b) (hb : b ≤ r.nodes.length) : ∃ l, r.fromTo a b = some l ∧ ∀ i x, l[i]? = some x →
      (x.extra = none ↔ ∀ k p, LimitAt r k p → ¬ (a ≤ p ∧ p ≤ a + i)) ∧
      ∀ k, x.extra = some k ↔ ∃ p, LimitAt r k p ∧ a ≤ p ∧ p ≤ a + i ∧
        ∀ k' p', LimitAt r k' p' → a ≤ p' → p' ≤ a + i → p' ≤ p := by
  obtain ⟨l, h1, -⟩ := fromTo_told r hs a b hab hb
  refine ⟨l, h1, fun i x hx => ?_⟩
  have key : Latest r a (a + i + 1) x.extra := by
    unfold SRoute.fromTo at h1
    by_cases ha : r.size ≤ a
    · rw [if_pos ha] at h1; cases h1; simp at hx
    · rw [if_neg ha] at h1
      refine yieldLoop_extra r h hs a _ _ _ _ _ (Nat.le_refl _) (fastForward_OInv r hs a)
        (fastForward_SInv r h a (by omega)) ?_ l h1 i x hx
      intro k p _; omega
  cases he : x.extra with
  | none =>
    rw [he] at key
    refine ⟨by simp only [true_iff]; intro k p hk hp; exact key k p hk ⟨hp.1, by omega⟩, fun k => ?_⟩
    constructor
    · simp
    · rintro ⟨p, hk, h2, h3, -⟩; exact absurd ⟨h2, by omega⟩ (key k p hk)
  | some k0 =>
    rw [he] at key
    obtain ⟨p0, hk0, h2, h3, h4⟩ := key
    refine ⟨by simp only [reduceCtorEq, false_iff]; intro hh; exact hh k0 p0 hk0 ⟨h2, by omega⟩, fun k => ?_⟩
    constructor
    · intro e; cases e
      exact ⟨p0, hk0, h2, by omega, fun k' p' hk' ha hp' => h4 k' p' hk' ha (by omega)⟩
    · rintro ⟨p, hk, h5, h6, h7⟩
      have e1 := h4 k p hk h5 (by omega)
      have e2 := h7 k0 p0 hk0 h2 (by omega)
      have : p = p0 := by omega
      subst this
      rw [LimitAt.unique_limit h hk hk0]

/-- C41, what holds: at the node it belongs to the limit is reported. -/
theorem C41_at_node_partial (r : SRoute) (h : LimitsInOrder r) (hs : r.omitted.Pairwise (· < ·)) (a b k p : Nat)
    (hb : b ≤ r.nodes.length) (hk : LimitAt r k p) (hap : a ≤ p) (hpb : p < b) :
    ∃ l x, r.fromTo a b = some l ∧ l[p - a]? = some x ∧ x.extra = some k := by
  obtain ⟨l, h1, h2⟩ := C41_latest_partial r h hs a b (by omega) hb
  obtain ⟨l', h3, h4, h5⟩ := C40_from_to r hs a b (by omega) hb
  rw [h1] at h3; cases h3
  obtain ⟨x, hx, -, -⟩ := h5 (p - a) (by omega)
  exact ⟨l, x, h1, hx, ((h2 _ x hx).2 k).2 ⟨p, hk, hap, by omega, fun _ _ _ _ hh => by omega⟩⟩

example : LimitsInOrder exRoute := by
  have e : ∀ k p, LimitAt exRoute k p → (k = 0 ∧ p = 0) ∨ (k = 1 ∧ p = 2) := by
    rintro k p ⟨n, h1, h2⟩
    have hk := (List.getElem?_eq_some_iff.1 h1).1
    have hp := (List.getElem?_eq_some_iff.1 h2).1
    have : ∀ k < 2, ∀ p < 5, exRoute.spls[k]? = exRoute.nodes[p]? → (k = 0 ∧ p = 0) ∨ (k = 1 ∧ p = 2) := by decide
    exact this k hk p hp (h1.trans h2.symm)
  refine ⟨by decide, ?_, ?_, ?_⟩
  · intro k hk
    have : k = 0 ∨ k = 1 := by simp [exRoute] at hk; omega
    rcases this with rfl | rfl
    · exact ⟨0, 10, rfl, rfl⟩
    · exact ⟨2, 12, rfl, rfl⟩
  · intro k p k' p' h1 h2 hlt
    have := e _ _ h1; have := e _ _ h2; omega
  · intro k p h1
    rcases e _ _ h1 with ⟨-, rfl⟩ | ⟨-, rfl⟩ <;> decide

/-! ### C42 -/

/-- a border or the end of a track -/
def Boundary (kind : Nat → Kind) (n : Nat) : Prop := kind n = .border ∨ kind n = .trackEnd

/-- C42: a station route with nodes is exactly one of through, in, out and contained route. -/
theorem C42_one_kind (kind : Nat → Kind) (r : SRoute) (h : r.nodes ≠ []) :
    let kinds := [isThrough kind r, isIn kind r, isOut kind r, isContained kind r]
    kinds.count (some true) = 1 ∧ kinds.count (some false) = 3 := by
  obtain ⟨f, hf⟩ : ∃ f, r.nodes.head? = some f := ⟨_, List.head?_eq_some_head h⟩
  obtain ⟨l, hl⟩ : ∃ l, r.nodes.getLast? = some l := ⟨_, List.getLast?_eq_some_getLast h⟩
  simp only [isThrough, isIn, isOut, isContained, startsAtBoundary, endsAtBoundary, hf, hl, Option.map_some, Option.bind_some]
  cases (decide (kind f = Kind.border) || decide (kind f = Kind.trackEnd)) <;>
    cases (decide (kind l = Kind.border) || decide (kind l = Kind.trackEnd)) <;> decide

/-- C42: which kind it is depends on whether the first and the last node are boundaries. -/
theorem C42_meaning (kind : Nat → Kind) (r : SRoute) (f l : Nat) (hf : r.nodes.head? = some f) (hl : r.nodes.getLast? = some l) :
    (isThrough kind r = some true ↔ Boundary kind f ∧ Boundary kind l) ∧
    (isIn kind r = some true ↔ Boundary kind f ∧ ¬ Boundary kind l) ∧
    (isOut kind r = some true ↔ ¬ Boundary kind f ∧ Boundary kind l) ∧
    (isContained kind r = some true ↔ ¬ Boundary kind f ∧ ¬ Boundary kind l) := by
  have b : ∀ n, (decide (kind n = Kind.border) || decide (kind n = Kind.trackEnd)) = true ↔ Boundary kind n := by
    intro n; simp [Boundary]
  rw [← b f, ← b l]
  simp only [isThrough, isIn, isOut, isContained, startsAtBoundary, endsAtBoundary, hf, hl, Option.map_some, Option.bind_some]
  cases (decide (kind f = Kind.border) || decide (kind f = Kind.trackEnd)) <;>
    cases (decide (kind l = Kind.border) || decide (kind l = Kind.trackEnd)) <;> simp

example : isIn (fun n => if n = 10 then .border else .halt) exRoute = some true := by decide

/-! ### C38 -/

/-- C38: iterating an interlocking route visits its positions in order: the first station route from the start offset, all
nodes of the middle ones and the last one up to the end offset, each node with its omitted flag. -/
theorem C38_iterate (infra : List SRoute) (hs : ∀ r ∈ infra, r.omitted.Pairwise (· < ·)) (ir : IR) (hv : Valid infra ir) :
    ∃ l, ir.iterate infra = some l ∧ l.map told = (positions infra ir).map (shownAt infra) :=
  iterate_Tells hs ir hv

theorem span_head (s a b : Nat) (h : a < b) : (span s a b).head? = some (s, a) := by
  unfold span
  rw [show b - a = (b - a - 1) + 1 by omega, List.range'_succ]
  rfl

theorem span_last (s a b : Nat) (h : a < b) : (span s a b).getLast? = some (s, b - 1) := by
  unfold span
  rw [show b - a = (b - a - 1) + 1 by omega, List.range'_concat]
  simp
  omega

/-- C38: first and last node are the first and last node yielded; hence `follows` compares the ends of the iterations. -/
theorem C38_ends (infra : List SRoute) (hs : ∀ r ∈ infra, r.omitted.Pairwise (· < ·)) (ir : IR) (hv : Valid infra ir)
    (hstart : ∀ s r, ir.srs.head? = some s → infra[s]? = some r → ir.start < r.nodes.length) (hstop : 0 < ir.stop)
    (hsingle : ir.srs.length = 1 → ir.start < ir.stop) :
    ∃ l x y, ir.iterate infra = some l ∧ l.head? = some x ∧ l.getLast? = some y ∧
      ir.firstNode infra = some x.node ∧ ir.lastNode infra = some y.node := by
  obtain ⟨l, h1, h2⟩ := iterate_Tells hs ir hv
  have hpos : ∃ f e, ir.srs.head? = some f ∧ ir.srs.getLast? = some e ∧ (positions infra ir).head? = some (f, ir.start) ∧
      (positions infra ir).getLast? = some (e, ir.stop - 1) := by
    rcases srs_cases ir.srs hv.nonempty with ⟨s, h⟩ | ⟨f, A, e, h⟩
    · refine ⟨s, s, by simp [h], by simp [h], ?_⟩
      have := hsingle (by simp [h])
      rw [positions_single _ _ _ h]
      exact ⟨span_head _ _ _ this, span_last _ _ _ this⟩
    · refine ⟨f, e, by simp [h], getLast_multi h, ?_⟩
      rw [positions_multi _ _ _ _ _ h]
      unfold seg
      have hf := List.getElem?_eq_getElem (hv.known f (by simp [h]))
      have hlt := hstart f _ (by simp [h]) hf
      rw [← len_of hf] at hlt
      constructor
      · rw [List.head?_append, span_head _ _ _ hlt]; rfl
      · rw [List.getLast?_append, List.getLast?_append, span_last _ _ _ hstop]; rfl
  obtain ⟨f, e, hf, he, hh, hl⟩ := hpos
  have e1 := congrArg List.head? h2
  have e2 := congrArg List.getLast? h2
  rw [List.head?_map, List.head?_map, hh] at e1
  rw [List.getLast?_map, List.getLast?_map, hl] at e2
  obtain ⟨x, hx, hx'⟩ := Option.map_eq_some_iff.1 e1
  obtain ⟨y, hy, hy'⟩ := Option.map_eq_some_iff.1 e2
  refine ⟨l, x, y, h1, hx, hy, ?_, ?_⟩
  · unfold IR.firstNode
    unfold told shownAt shown at hx'
    simp only at hx'
    obtain ⟨r, h3, h4⟩ := Option.bind_eq_some_iff.1 hx'.symm
    obtain ⟨n, h5, h6⟩ := Option.map_eq_some_iff.1 h4
    have h6 := congrArg Prod.fst h6
    simp only at h6 h5
    rw [hf, Option.bind_some, h3, Option.bind_some, h5, h6]
  · unfold IR.lastNode
    unfold told shownAt shown at hy'
    simp only at hy'
    obtain ⟨r, h3, h4⟩ := Option.bind_eq_some_iff.1 hy'.symm
    obtain ⟨n, h5, h6⟩ := Option.map_eq_some_iff.1 h4
    have h6 := congrArg Prod.fst h6
    simp only at h6 h5
    rw [he, Option.bind_some, h3, Option.bind_some, if_neg (by omega), h5, h6]

/-- C38: route `b` follows route `a` iff the first node of `b` is the last node of `a`. -/
theorem C38_follows (infra : List SRoute) (hs : ∀ r ∈ infra, r.omitted.Pairwise (· < ·)) (a b : IR) (ha : Valid infra a)
    (hb : Valid infra b)
    (hsa : ∀ s r, a.srs.head? = some s → infra[s]? = some r → a.start < r.nodes.length) (hea : 0 < a.stop)
    (hna : a.srs.length = 1 → a.start < a.stop)
    (hsb : ∀ s r, b.srs.head? = some s → infra[s]? = some r → b.start < r.nodes.length) (heb : 0 < b.stop)
    (hnb : b.srs.length = 1 → b.start < b.stop) :
    ∃ la lb x y, a.iterate infra = some la ∧ b.iterate infra = some lb ∧ la.getLast? = some x ∧ lb.head? = some y ∧
      b.follows a infra = some (decide (y.node = x.node)) := by
  obtain ⟨la, _, x, h1, -, h2, -, h3⟩ := C38_ends infra hs a ha hsa hea hna
  obtain ⟨lb, y, _, h4, h5, -, h6, -⟩ := C38_ends infra hs b hb hsb heb hnb
  exact ⟨la, lb, x, y, h1, h4, h2, h5, by unfold IR.follows; rw [h6, h3]; rfl⟩

/-- two adjoining routes and their ends -/
example : (IR.mk 1 1 [0, 1]).follows ⟨0, 2, [0]⟩ [⟨[1, 2, 3], [], []⟩, ⟨[4, 5], [], []⟩] = some true ∧
    (IR.mk 1 1 [0, 1]).lastNode [⟨[1, 2, 3], [], []⟩, ⟨[4, 5], [], []⟩] = some 4 := by decide

/-- C38: `size` is the number of nodes yielded (if it fits into `node::idx`). -/
theorem C38_size (infra : List SRoute) (hs : ∀ r ∈ infra, r.omitted.Pairwise (· < ·)) (ir : IR) (hv : Valid infra ir)
    (h16 : (positions infra ir).length < 65536) :
    ∃ l, ir.iterate infra = some l ∧ ir.size infra = some l.length := by
  obtain ⟨l, h1, h2⟩ := iterate_Tells hs ir hv
  refine ⟨l, h1, ?_⟩
  rw [size_eq ir hv h16]
  have := congrArg List.length h2
  simp only [List.length_map] at this
  rw [this]

/-- C38: `to(x)` followed by `from(x)` yields the same nodes and flags as `iterate`, for every position `x` of the route
(the station route at place `m`, index `idx`, end of the range included) if no station route occurs twice. -/
theorem C38_split (infra : List SRoute) (hs : ∀ r ∈ infra, r.omitted.Pairwise (· < ·)) (ir : IR) (hv : Valid infra ir)
    (hnd : ir.srs.Nodup) (m sr idx : Nat) (r : SRoute) (hm : ir.srs[m]? = some sr) (hr : infra[sr]? = some r)
    (hlo : (if m = 0 then ir.start else 0) ≤ idx) (hhi : idx ≤ if m + 1 = ir.srs.length then ir.stop else r.nodes.length) :
    ∃ l l1 l2, ir.iterate infra = some l ∧ ir.to infra sr idx = some l1 ∧ ir.from_ infra sr idx = some l2 ∧
      l.map told = (l1 ++ l2).map told := by
  obtain ⟨l, h1, h2⟩ := iterate_Tells hs ir hv
  obtain ⟨p, q, ⟨l1, h3, h4⟩, ⟨l2, h5, h6⟩, h7⟩ := split_Tells hs ir hv hnd m sr idx hm hlo (by rw [len_of hr]; exact hhi)
  refine ⟨l, l1, l2, h1, h3, h5, ?_⟩
  rw [h2, List.map_append, h4, h6, h7]

/-- three station routes and an interlocking route over all of them -/
def exInfra : List SRoute := [exRoute, ⟨[20, 21], [], []⟩, ⟨[30, 31, 32], [0], []⟩]
def exIR : IR := ⟨3, 2, [0, 1, 2]⟩

theorem exIR_valid : Valid exInfra exIR := by
  refine ⟨by decide, by decide, ?_, ?_, by decide⟩
  · intro s r h1 h2; cases h1; cases h2; decide
  · intro s r h1 h2; cases h1; cases h2; decide

example : (∀ r ∈ exInfra, r.omitted.Pairwise (· < ·)) ∧ exIR.srs.Nodup ∧ exIR.srs[1]? = some 1 ∧
    positions exInfra exIR = [(0, 3), (0, 4), (1, 0), (1, 1), (2, 0), (2, 1)] ∧ exIR.size exInfra = some 6 := by decide

/-- C38: with a repeated station route the split iteration is wrong, because the station route is looked up by its id: of
the six nodes of the route only two are visited. -/
theorem C38_repeated_route : ∃ (infra : List SRoute) (ir : IR), Valid infra ir ∧ ir.srs = [0, 1, 0] ∧
    (ir.iterate infra).map List.length = some 6 ∧ (ir.to infra 0 1).map List.length = some 1 ∧
    (ir.from_ infra 0 1).map List.length = some 1 := by
  refine ⟨[⟨[1, 2], [], []⟩, ⟨[3, 4], [], []⟩], ⟨0, 2, [0, 1, 0]⟩, ⟨by decide, by decide, ?_, ?_, by decide⟩, rfl, ?_, ?_, ?_⟩
  · intro s r h1 h2; cases h1; cases h2; decide
  · intro s r h1 h2; cases h1; cases h2; decide
  all_goals decide

/-! ### C39 -/

/-- C39: for a position inside station route `sr`, `contains` holds iff the iteration visits it. -/
theorem C39_contains (infra : List SRoute) (ir : IR) (hv : Valid infra ir) (sr idx : Nat) (r : SRoute)
    (hr : infra[sr]? = some r) (hidx : idx < r.nodes.length) :
    ∃ b, ir.contains sr idx = some b ∧ (b = true ↔ (sr, idx) ∈ positions infra ir) :=
  contains_iff ir hv sr idx r hr hidx

/-- C39: the sub paths are the visited positions, cut at the station routes; a position is visited iff a sub path of its
station route contains it. -/
theorem C39_sub_paths (infra : List SRoute) (ir : IR) (hv : Valid infra ir) :
    ∃ sps, ir.subPaths infra = some sps ∧ sps.map (·.sr) = ir.srs ∧
      (positions infra ir = sps.flatMap fun p => span p.sr p.frm p.to) ∧
      ∀ sr idx, (sr, idx) ∈ positions infra ir ↔ ∃ p ∈ sps, p.sr = sr ∧ p.contains idx = true := by
  obtain ⟨sps, h1, h2⟩ := subPaths_spec ir hv
  refine ⟨sps, h1, ?_, h2, ?_⟩
  · rcases srs_cases ir.srs hv.nonempty with ⟨s, h⟩ | ⟨f, A, l, h⟩
    · unfold IR.subPaths at h1
      rw [h] at h1
      simp only at h1
      rw [if_pos (hv.known s (by simp [h]))] at h1
      cases h1
      rw [h]; rfl
    · have hf := List.getElem?_eq_getElem (hv.known f (by simp [h]))
      have hl := List.getElem?_eq_getElem (hv.known l (by simp [h]))
      unfold IR.subPaths at h1
      obtain ⟨x, rest, hx⟩ := two_cases f A l
      have hx' : x :: rest = A ++ [l] := by injection hx with _ h2; exact h2.symm
      rw [h, hx] at h1
      simp only [hf, Option.bind_some] at h1
      rw [hx', List.dropLast_concat, mapM_mid A fun s hs => hv.known s (by simp [h, hs])] at h1
      simp only [Option.bind_some, List.getLast?_append, List.getLast?_singleton, Option.some_or, hl, Option.map_some,
        Option.some.injEq] at h1
      subst h1
      simp [Function.comp_def, h]
  · intro sr idx
    rw [h2, List.mem_flatMap]
    constructor
    · rintro ⟨p, hp, hm⟩
      rw [mem_span] at hm
      refine ⟨p, hp, hm.1.symm, ?_⟩
      simp only [SubPath.contains, Bool.and_eq_true, decide_eq_true_eq]
      exact hm.2
    · rintro ⟨p, hp, rfl, hc⟩
      simp only [SubPath.contains, Bool.and_eq_true, decide_eq_true_eq] at hc
      exact ⟨p, hp, (mem_span _ _ _ _).2 ⟨rfl, hc⟩⟩

/-- Beyond the end of a station route `contains` still answers yes. -/
theorem C39_beyond : ∃ (infra : List SRoute) (ir : IR) (sr idx : Nat), Valid infra ir ∧ ir.contains sr idx = some true ∧
    (sr, idx) ∉ positions infra ir := by
  refine ⟨[⟨[1, 2], [], []⟩, ⟨[3, 4], [], []⟩], ⟨0, 2, [0, 1]⟩, 0, 7, ⟨by decide, by decide, ?_, ?_, by decide⟩, by decide, by decide⟩
  · intro s r h1 h2; cases h1; cases h2; decide
  · intro s r h1 h2; cases h1; cases h2; decide

example : exIR.contains 1 1 = some true ∧ exIR.contains 0 2 = some false ∧ exIR.contains 2 2 = some false := by decide

/-! ### C70 -/

/-- C70: the omitted indices of a constructed station route are increasing and exactly the indices of the track elements
whose node is in the omitted set. -/
theorem C70_omitted (isTrack om : Nat → Bool) (nodes : List Nat) :
    (omittedLoop isTrack om 0 nodes).Pairwise (· < ·) ∧
    ∀ k, k ∈ omittedLoop isTrack om 0 nodes ↔ ∃ n, nodes[k]? = some n ∧ isTrack n = true ∧ om n = true := by
  refine ⟨omittedLoop_lt _ _ _ _, fun k => ?_⟩
  rw [mem_omittedLoop]
  constructor
  · rintro ⟨j, n, h1, h2, h3⟩
    rw [show k = j by omega]
    exact ⟨n, h1, h3⟩
  · rintro ⟨n, h1, h2⟩
    exact ⟨k, n, h1, by omega, h2⟩

theorem haltLoop_spec (isTrack : Nat → Bool) (el : Nat → Nat) (e : Option Nat) (i : Nat) (ns : List Nat) (acc : Option Nat) :
    (haltLoop isTrack el e i ns acc = acc ∧ ∀ (j : Nat) n, ns[j]? = some n → ¬ (isTrack n = true ∧ e = some (el n))) ∨
    ∃ (j n : Nat), haltLoop isTrack el e i ns acc = some (i + j) ∧ ns[j]? = some n ∧ isTrack n = true ∧ e = some (el n) ∧
      ∀ (j' : Nat) n', ns[j']? = some n' → isTrack n' = true → e = some (el n') → j' ≤ j := by
  induction ns generalizing i acc with
  | nil => exact .inl ⟨rfl, by simp⟩
  | cons m ns ih =>
    rw [haltLoop]
    rcases ih (i + 1) (if isTrack m && decide (e = some (el m)) then some i else acc) with ⟨h1, h2⟩ | ⟨j, n, h1, h2, h3, h4, h5⟩
    · by_cases hm : isTrack m = true ∧ e = some (el m)
      · right
        refine ⟨0, m, ?_, rfl, hm.1, hm.2, ?_⟩
        · rw [h1]; simp [hm.1, ← hm.2]
        · intro j' n' hj' ht he
          cases j' with
          | zero => omega
          | succ j' => exact absurd ⟨ht, he⟩ (h2 j' n' (by simpa using hj'))
      · left
        refine ⟨?_, ?_⟩
        · rw [h1, if_neg]
          simpa [Bool.and_eq_true] using hm
        · intro j n hj
          cases j with
          | zero => simp at hj; subst hj; exact hm
          | succ j => exact h2 j n (by simpa using hj)
    · right
      refine ⟨j + 1, n, by rw [h1]; simp; omega, by simpa using h2, h3, h4, ?_⟩
      intro j' n' hj' ht he
      cases j' with
      | zero => omega
      | succ j' => have := h5 j' n' (by simpa using hj') ht he; omega

/-- C70: the halt (and runtime checkpoint) index is the last index of a track element that is the wanted element, and
absent iff there is none. -/
theorem C70_halt (isTrack : Nat → Bool) (el : Nat → Nat) (e : Option Nat) (nodes : List Nat) :
    (haltLoop isTrack el e 0 nodes none = none ↔ ∀ (j : Nat) n, nodes[j]? = some n → ¬ (isTrack n = true ∧ e = some (el n))) ∧
    ∀ j, haltLoop isTrack el e 0 nodes none = some j →
      (∃ n, nodes[j]? = some n ∧ isTrack n = true ∧ e = some (el n)) ∧
      ∀ (j' : Nat) n', nodes[j']? = some n' → isTrack n' = true → e = some (el n') → j' ≤ j := by
  rcases haltLoop_spec isTrack el e 0 nodes none with ⟨h1, h2⟩ | ⟨j, n, h1, h2, h3, h4, h5⟩
  · rw [h1]
    exact ⟨by simpa using h2, by simp⟩
  · rw [h1]
    refine ⟨?_, ?_⟩
    · simp only [reduceCtorEq, false_iff]
      intro h; exact h j n h2 ⟨h3, h4⟩
    · intro j' hj'
      simp only [Nat.zero_add, Option.some.injEq] at hj'
      subst hj'
      exact ⟨⟨n, h2, h3, h4⟩, h5⟩

example : omittedLoop (fun n => n != 5) (fun n => n % 2 == 0) 0 [4, 5, 6, 7, 8] = [0, 2, 4] ∧
    haltLoop (fun _ => true) (fun n => n / 2) (some 3) 0 [4, 5, 6, 7, 8] none = some 3 := by decide

end Soro.Route
