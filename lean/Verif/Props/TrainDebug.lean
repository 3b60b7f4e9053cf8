import Verif.Model.TrainDebug
import Verif.Props.InterlockingDebug
import Verif.Props.Train
import Verif.Props.Transform

/-! Property C179: the assertions of the iteration of a train and of the choice of its interlocking routes. -/

namespace Soro.Train
open Dbg Route Route.Spec Spec Soro.Interlocking

/-- a part of a route of any number of station routes -/
theorem fromToD_same {infra : List SRoute} (hs : ∀ r ∈ infra, r.omitted.Pairwise (· < ·)) (hsmall : Small infra) {ir : IR}
    (h : Proper infra ir) {m n s t a b : Nat} (hm : ir.srs[m]? = some s) (hn : ir.srs[n]? = some t)
    (ha : a ≤ hi infra ir m s) (hb : b ≤ hi infra ir n t) (hmn : m < n ∨ m = n ∧ a ≤ b) :
    SameAs (ir.fromToD infra s a t b) (ir.fromTo infra s a t b) := by
  have hks := List.getElem?_eq_getElem (h.known s (List.mem_of_getElem? hm))
  have hkt := List.getElem?_eq_getElem (h.known t (List.mem_of_getElem? hn))
  have ha' := Nat.le_trans ha (hi_le h.valid hm)
  have hb' := Nat.le_trans hb (hi_le h.valid hn)
  simp only [len, hks, hkt, Option.map_some, Option.getD_some] at ha' hb'
  by_cases h1 : ir.srs.length = 1
  · obtain ⟨u, hu⟩ := List.length_eq_one_iff.1 h1
    have e1 : m = 0 := by have := (List.getElem?_eq_some_iff.1 hm).1; omega
    have e2 : n = 0 := by have := (List.getElem?_eq_some_iff.1 hn).1; omega
    subst e1 e2
    rw [hu] at hm hn
    cases hm; cases hn
    exact (C175_part_one infra hs hsmall ir _ _ hu hkt _ _ a b hb').1 ⟨rfl, by omega⟩
  · have hlen : 1 < ir.srs.length := by
      have := List.length_pos_iff.2 h.nonempty
      omega
    exact ((C175_part infra hs hsmall ir h.valid h.nodup hlen s t a b).1 m n _ _ hm hn hks hkt ha' hb').1 hmn

theorem fromD_same {infra : List SRoute} (hs : ∀ r ∈ infra, r.omitted.Pairwise (· < ·)) (hsmall : Small infra) {ir : IR}
    (h : Proper infra ir) {m s a : Nat} (hm : ir.srs[m]? = some s) (ha : a ≤ hi infra ir m s) :
    SameAs (ir.fromD infra s a) (ir.from_ infra s a) := by
  obtain ⟨l, hl, hl'⟩ := last_some h
  have hlt := (List.getElem?_eq_some_iff.1 hm).1
  unfold IR.fromD IR.from_
  rw [hl]
  simp only [lift, ok_bind, Option.bind_some]
  refine fromToD_same hs hsmall h hm hl' ha (Nat.le_of_eq (hi_last h _).symm) ?_
  by_cases he : m = ir.srs.length - 1
  · right
    subst he
    rw [hi_last h] at ha
    exact ⟨rfl, ha⟩
  · left; omega

theorem middleD_same {i : Infra} (hs : ∀ r ∈ i.routes, r.omitted.Pairwise (· < ·)) (hsmall : Small i.routes) (irs : List IR)
    (h : ∀ ir ∈ irs, Proper i.routes ir) : SameAs (middleD i irs) (middle i irs) := by
  induction irs with
  | nil => exact ⟨[], rfl, rfl⟩
  | cons ir irs ih =>
    obtain ⟨y, hy, hy'⟩ := ih fun r hr => h r (by simp [hr])
    have hp := h ir (by simp)
    obtain ⟨f, hf, hf'⟩ := head_some hp
    obtain ⟨x, hx, hx'⟩ := fromD_same hs hsmall hp hf' (bounds_first hp hf)
    refine ⟨x ++ y, ?_, ?_⟩
    · unfold middle
      rw [hf, Option.bind_some, hx, hy]; rfl
    · unfold middleD
      rw [hf]
      simp only [lift, ok_bind]
      rw [hx', ok_bind, hy', ok_bind]; rfl

theorem firstPartD_same {i : Infra} (hs : ∀ r ∈ i.routes, r.omitted.Pairwise (· < ·)) (hsmall : Small i.routes) {t : Train}
    {ir : IR} (h : Proper i.routes ir) {p : Nat × Nat} (hp : t.breakIn = false → LiesAt i t.freight t.points.head? p ir)
    (hh : t.breakIn = false → ∀ sp, t.points.head? = some sp → sp.ty ≠ .transit) :
    SameAs (firstPartD i t ir) (firstPart i t ir) := by
  unfold firstPartD firstPart
  cases hb : t.breakIn with
  | true =>
    simp only [if_true]
    refine (C175_iterate i.routes hs hsmall ir h.valid).1 ?_
    by_cases h1 : ir.srs.length = 1
    · exact .inl h1
    · right
      obtain ⟨f, hf, hf'⟩ := head_some h
      obtain ⟨l, hl, hl'⟩ := last_some h
      rw [hf, hl]
      intro he
      cases he
      have h0 := (List.getElem?_eq_some_iff.1 hf')
      have hl0 := (List.getElem?_eq_some_iff.1 hl')
      have h2 := (List.Nodup.getElem_inj_iff h.nodup).1 (h0.2.trans hl0.2.symm)
      have h3 := h0.1
      omega
  | false =>
    obtain ⟨⟨sp, e1, e2, e3⟩, hm⟩ := hp hb
    have hidx := (nodeIdx_iff _ _ _ _).2 e3
    obtain ⟨m, m1, -, m3, -⟩ := mem_cut h hm
    simp only [Bool.false_eq_true, if_false, startAt, hb, e1, Option.bind_some, hidx, Option.map_some, lift, ok_bind,
      Option.isSome_some]
    rw [check_pos (by unfold SPoint.isHalt; simpa using hh hb sp e1), ok_bind]
    have hst : ∃ s, i.stops[sp.sr]? = some s := by
      unfold SPoint.nodeIdx at hidx
      obtain ⟨s, hs, -⟩ := Option.bind_eq_some_iff.1 hidx
      exact ⟨s, hs⟩
    obtain ⟨s, hst⟩ := hst
    rw [hst]
    simp only [ok_bind]
    rw [check_pos trivial, ok_bind]
    rw [e2]
    exact fromD_same hs hsmall h m1 (by omega)

theorem lastPartD_same {i : Infra} (hs : ∀ r ∈ i.routes, r.omitted.Pairwise (· < ·)) (hsmall : Small i.routes) {t : Train}
    {ir : IR} (h : Proper i.routes ir) {q : Nat × Nat} (hq : t.breakOut = false → LiesAt i t.freight t.points.getLast? q ir)
    (hh : t.breakOut = false → ∀ sp, t.points.getLast? = some sp → sp.ty ≠ .transit) :
    SameAs (lastPartD i t ir) (lastPart i t ir) := by
  obtain ⟨f, hf, hf'⟩ := head_some h
  unfold lastPartD lastPart
  rw [hf]
  simp only [lift, ok_bind, Option.bind_some]
  cases hb : t.breakOut with
  | true =>
    simp only [if_true]
    exact fromD_same hs hsmall h hf' (bounds_first h hf)
  | false =>
    obtain ⟨⟨sp, e1, e2, e3⟩, hm⟩ := hq hb
    have hidx := (nodeIdx_iff _ _ _ _).2 e3
    obtain ⟨m, m1, m2, m3, -⟩ := mem_cut h hm
    simp only [Bool.false_eq_true, if_false, stopAt, hb, e1, Option.bind_some, hidx, Option.map_some, lift, ok_bind,
      Option.isSome_some]
    rw [check_pos (by unfold SPoint.isHalt; simpa using hh hb sp e1), ok_bind]
    have hst : ∃ s, i.stops[sp.sr]? = some s := by
      unfold SPoint.nodeIdx at hidx
      obtain ⟨s, hs, -⟩ := Option.bind_eq_some_iff.1 hidx
      exact ⟨s, hs⟩
    obtain ⟨s, hst⟩ := hst
    rw [hst]
    simp only [ok_bind]
    rw [check_pos trivial, ok_bind]
    rw [e2]
    refine fromToD_same hs hsmall h hf' m1 (bounds_first h hf) m3 ?_
    by_cases h0 : m = 0
    · subst h0
      simp only [lo, if_true] at m2
      exact .inr ⟨rfl, by omega⟩
    · exact .inl (by omega)

/-- the train begins, and ends, with a stop unless it breaks in or out -/
def Halts (t : Train) : Prop :=
  (t.breakIn = false → ∀ sp, t.points.head? = some sp → sp.ty ≠ .transit) ∧
  (t.breakOut = false → ∀ sp, t.points.getLast? = some sp → sp.ty ≠ .transit)

theorem two_of {t : Train} {first : IR} (hf : t.path.head? = some first) (h : t.path.length ≠ 1) :
    ∃ a irs, t.path = first :: a :: irs := by
  cases hp : t.path with
  | nil => rw [hp] at hf; cases hf
  | cons x xs =>
    rw [hp] at hf h
    cases hf
    cases xs with
    | nil => simp at h
    | cons a irs => exact ⟨a, irs, rfl⟩

/-- C179. Iterating a train is the same in both builds if its path has one route only, or if it begins and ends with a stop
unless it breaks in or out. -/
theorem C179_iterate (i : Infra) (t : Train) (first last : IR) (p q : Nat × Nat) (h : Wellformed i t first last p q)
    (hsmall : Small i.routes) (hok : t.path.length = 1 ∨ Halts t) : SameAs (iterateTrainD i t) (iterateTrain i t) := by
  by_cases h1 : t.path.length = 1
  · obtain ⟨ir, hir⟩ := List.length_eq_one_iff.1 h1
    obtain rfl : ir = first := by have := h.head; rw [hir] at this; simpa using this
    obtain rfl : ir = last := by have := h.back; rw [hir] at this; simpa using this
    have hpr := h.proper ir (by simp [hir])
    obtain ⟨m, s, a, e1, m1, m2, m3, m4, m5⟩ := start_cut (t := t) hpr p
      (fun hb => ⟨(h.start hb).1.imp fun _ ⟨a, b, c⟩ => ⟨a, b, (nodeIdx_iff _ _ _ _).2 c⟩, (h.start hb).2⟩)
    obtain ⟨n, u, b, f1, n1, n2, n3, n4, n5⟩ := stop_cut (t := t) hpr q
      (fun hb => ⟨(h.stop hb).1.imp fun _ ⟨a, b, c⟩ => ⟨a, b, (nodeIdx_iff _ _ _ _).2 c⟩, (h.stop hb).2⟩)
    unfold iterateTrainD iterateTrain
    rw [hir]
    simp only [e1, f1, lift, ok_bind, Option.bind_some]
    refine fromToD_same h.sorted hsmall hpr m1 n1 m3 n3 ?_
    have hlt : off i.routes ir m a < off i.routes ir n b := by
      rw [m4, n4]
      have ho := h.order h1
      have hpos := m5
      rw [m4] at hpos
      unfold used before at *
      cases hbi : t.breakIn <;> cases hbo : t.breakOut <;> simp [hbi, hbo] at * <;> omega
    rcases Nat.lt_trichotomy m n with hmn | hmn | hmn
    · exact .inl hmn
    · subst hmn
      right
      refine ⟨rfl, ?_⟩
      unfold off at hlt
      omega
    · have := off_lt (a := a) n1 n3 hmn
      omega
  · have hh := hok.resolve_left h1
    obtain ⟨a, irs, hp⟩ := two_of h.head h1
    have hpr := h.proper
    rw [hp] at hpr
    have hlast : (a :: irs).getLast? = some last := by
      have := h.back
      rw [hp, List.getLast?_cons_cons] at this
      exact this
    obtain ⟨x, hx, hx'⟩ := firstPartD_same h.sorted hsmall (hpr first (by simp)) h.start hh.1
    obtain ⟨y, hy, hy'⟩ := middleD_same h.sorted hsmall (a :: irs).dropLast fun r hr =>
      hpr r (List.mem_cons_of_mem _ (List.dropLast_subset _ hr))
    obtain ⟨z, hz, hz'⟩ := lastPartD_same h.sorted hsmall (hpr last (List.mem_cons_of_mem _ (List.mem_of_getLast? hlast)))
      h.stop hh.2
    unfold iterateTrainD iterateTrain
    rw [hp]
    simp only [hlast, hx, hy, hx', hy', lift, ok_bind, Option.bind_some, hz, hz']
    exact ⟨_, rfl, rfl⟩

/-- C179. A train over several routes that begins or ends with a passed point is iterated by the release build and stopped by an
assertion in the debug build. -/
theorem C179_stopped (i : Infra) (t : Train) (first last : IR) (p q : Nat × Nat) (h : Wellformed i t first last p q)
    (hsmall : Small i.routes) (hlen : t.path.length ≠ 1) (hno : ¬ Halts t) :
    Dbg.Stops (iterateTrainD i t) ∧ (iterateTrain i t).isSome = true := by
  refine ⟨?_, by obtain ⟨l, hl, -⟩ := C47_iterate i t first last p q h; rw [hl]; rfl⟩
  obtain ⟨a, irs, hp⟩ := two_of h.head hlen
  have hpr := h.proper
  rw [hp] at hpr
  have hlast : (a :: irs).getLast? = some last := by
    have := h.back
    rw [hp, List.getLast?_cons_cons] at this
    exact this
  unfold iterateTrainD
  rw [hp]
  simp only [hlast, lift, ok_bind]
  by_cases hfirst : t.breakIn = false → ∀ sp, t.points.head? = some sp → sp.ty ≠ .transit
  · obtain ⟨x, hx, hx'⟩ := firstPartD_same h.sorted hsmall (hpr first (by simp)) h.start hfirst
    obtain ⟨y, hy, hy'⟩ := middleD_same h.sorted hsmall (a :: irs).dropLast fun r hr =>
      hpr r (List.mem_cons_of_mem _ (List.dropLast_subset _ hr))
    simp only [hx', hy', ok_bind]
    have hs : t.breakOut = false ∧ ∃ sp, t.points.getLast? = some sp ∧ sp.ty = .transit := by
      by_cases hb : t.breakOut = false
      · refine ⟨hb, ?_⟩
        obtain ⟨⟨sp, e1, -⟩, -⟩ := h.stop hb
        refine ⟨sp, e1, Classical.not_not.1 fun hne => hno ⟨hfirst, fun _ sp' hsp' => ?_⟩⟩
        rw [e1] at hsp'; cases hsp'; exact hne
      · exact absurd ⟨hfirst, fun hb' => absurd hb' hb⟩ hno
    obtain ⟨hb, sp, e1, e2⟩ := hs
    obtain ⟨f, hf, -⟩ := head_some (hpr last (List.mem_cons_of_mem _ (List.mem_of_getLast? hlast)))
    refine ⟨224, ?_⟩
    unfold lastPartD
    simp only [hf, hb, e1, lift, ok_bind, Bool.false_eq_true, if_false]
    rw [check_neg (by unfold SPoint.isHalt; simp [e2])]
    rfl
  · have hs : t.breakIn = false ∧ ∃ sp, t.points.head? = some sp ∧ sp.ty = .transit := by
      by_cases hb : t.breakIn = false
      · refine ⟨hb, ?_⟩
        obtain ⟨⟨sp, e1, -⟩, -⟩ := h.start hb
        refine ⟨sp, e1, Classical.not_not.1 fun hne => hfirst fun _ sp' hsp' => ?_⟩
        rw [e1] at hsp'; cases hsp'; exact hne
      · exact absurd (fun hb' => absurd hb' hb) hfirst
    obtain ⟨hb, sp, e1, e2⟩ := hs
    refine ⟨196, ?_⟩
    unfold firstPartD
    simp only [hb, e1, lift, ok_bind, Bool.false_eq_true, if_false]
    rw [check_neg (by unfold SPoint.isHalt; simp [e2])]
    rfl

/-- C179. A train over several routes whose first stop has no place for such a train is stopped by an assertion; in the release
build the place is read from an empty optional. -/
theorem C179_no_place (i : Infra) (t : Train) (hin : t.breakIn = false) (hlen : 1 < t.path.length) (sp : SPoint)
    (hsp : t.points.head? = some sp) (hk : sp.sr < i.stops.length) (hno : ∀ idx, ¬ StandsAt i t.freight sp idx) :
    Dbg.Stops (iterateTrainD i t) ∧ iterateTrain i t = none := by
  have hn : sp.nodeIdx i t.freight = none := by
    cases hc : sp.nodeIdx i t.freight with
    | none => rfl
    | some idx => exact absurd ((nodeIdx_iff _ _ _ _).1 hc) (hno idx)
  obtain ⟨first, hf⟩ : ∃ first, t.path.head? = some first := by
    cases hp : t.path with
    | nil => rw [hp] at hlen; simp at hlen
    | cons a b => exact ⟨a, rfl⟩
  obtain ⟨a, irs, hp⟩ := two_of hf (by omega)
  constructor
  · unfold iterateTrainD firstPartD
    rw [hp]
    simp only [hin, hsp, lift, ok_bind, Bool.false_eq_true, if_false, List.getElem?_eq_getElem hk, hn, Option.isSome_none]
    by_cases hh : sp.isHalt = true
    · rw [check_pos hh]
      exact ⟨204, rfl⟩
    · rw [check_neg hh]
      exact ⟨196, rfl⟩
  · unfold iterateTrain firstPart startAt
    rw [hp]
    simp [hin, hsp, hn, app]

/-- C179. The same for a train that starts at a stop and whose last stop has no place. -/
theorem C179_no_end (i : Infra) (t : Train) (hsort : ∀ r ∈ i.routes, r.omitted.Pairwise (· < ·)) (hsmall : Small i.routes)
    (first : IR) (hf : t.path.head? = some first) (hpr : ∀ ir ∈ t.path, Proper i.routes ir) (p : Nat × Nat)
    (hstart : t.breakIn = false → LiesAt i t.freight t.points.head? p first ∧ ∀ sp, t.points.head? = some sp → sp.ty ≠ .transit)
    (hout : t.breakOut = false) (hlen : 1 < t.path.length) (sp : SPoint) (hsp : t.points.getLast? = some sp)
    (hk : sp.sr < i.stops.length) (hno : ∀ idx, ¬ StandsAt i t.freight sp idx) :
    Dbg.Stops (iterateTrainD i t) ∧ iterateTrain i t = none := by
  have hn : sp.nodeIdx i t.freight = none := by
    cases hc : sp.nodeIdx i t.freight with
    | none => rfl
    | some idx => exact absurd ((nodeIdx_iff _ _ _ _).1 hc) (hno idx)
  obtain ⟨a, irs, hp⟩ := two_of hf (by omega)
  rw [hp] at hpr
  obtain ⟨x, hx, hx'⟩ := firstPartD_same hsort hsmall (hpr first (by simp)) (fun hb => (hstart hb).1) fun hb => (hstart hb).2
  obtain ⟨y, hy, hy'⟩ := middleD_same hsort hsmall (a :: irs).dropLast fun r hr =>
    hpr r (List.mem_cons_of_mem _ (List.dropLast_subset _ hr))
  obtain ⟨last, hlast⟩ : ∃ last, (a :: irs).getLast? = some last := ⟨_, List.getLast?_eq_some_getLast (by simp)⟩
  obtain ⟨f, hf', -⟩ := head_some (hpr last (List.mem_cons_of_mem _ (List.mem_of_getLast? hlast)))
  constructor
  · unfold iterateTrainD
    rw [hp]
    simp only [hlast, hx', hy', lift, ok_bind]
    unfold lastPartD
    simp only [hf', hout, hsp, lift, ok_bind, Bool.false_eq_true, if_false, List.getElem?_eq_getElem hk, hn, Option.isSome_none]
    by_cases hh : sp.isHalt = true
    · rw [check_pos hh]
      exact ⟨232, rfl⟩
    · rw [check_neg hh]
      exact ⟨224, rfl⟩
  · unfold iterateTrain
    rw [hp]
    simp only [hx, hy, hlast, Option.bind_some]
    unfold lastPart stopAt
    simp [hf', hout, hsp, hn, app]

theorem exTrain_wellformed : Wellformed exInfra exTrain exFirst exLast (0, 1) (1, 1) := by
  refine ⟨by decide, rfl, rfl, ?_, fun _ => ⟨⟨_, rfl, rfl, .passengerHalt _ rfl (by decide) rfl rfl⟩, by decide⟩,
    fun _ => ⟨⟨_, rfl, rfl, .passengerHalt _ rfl (by decide) rfl rfl⟩, by decide⟩, fun h => absurd h (by decide)⟩
  intro ir hir
  simp [exTrain] at hir
  rcases hir with rfl | rfl
  · exact exProper.1
  · exact exProper.2

example : Wellformed exInfra exTrain exFirst exLast (0, 1) (1, 1) ∧ Small exInfra.routes ∧ Halts exTrain :=
  ⟨exTrain_wellformed, by unfold Small; decide, fun _ sp h => by cases h; decide, fun _ sp h => by cases h; decide⟩

/-- the same train starting at the checkpoint -/
example : Wellformed exInfra ⟨false, false, false, [exFirst, exLast], [⟨.transit, true, 0⟩, ⟨.passenger, false, 1⟩]⟩ exFirst exLast
    (0, 2) (1, 1) ∧ ¬ Halts ⟨false, false, false, [exFirst, exLast], [⟨.transit, true, 0⟩, ⟨.passenger, false, 1⟩]⟩ := by
  refine ⟨⟨by decide, rfl, rfl, ?_, fun _ => ⟨⟨_, rfl, rfl, .checkpoint _ rfl (by decide) rfl rfl⟩, by decide⟩,
    fun _ => ⟨⟨_, rfl, rfl, .passengerHalt _ rfl (by decide) rfl rfl⟩, by decide⟩, fun h => absurd h (by decide)⟩,
    fun h => h.1 rfl _ rfl rfl⟩
  intro ir hir
  simp at hir
  rcases hir with rfl | rfl
  · exact exProper.1
  · exact exProper.2

/-- there is no freight halt on the first station route -/
example : Dbg.Stops (iterateTrainD exInfra { exTrain with freight := true }) := by
  refine (C179_no_place _ _ rfl (by decide) _ rfl (by decide) fun idx h => ?_).1
  rw [← nodeIdx_iff] at h
  cases h

/-- the last station route has no passenger halt any more -/
example : Dbg.Stops (iterateTrainD ⟨exInfra.routes, [⟨some 2, some 1, none⟩, ⟨none, none, some 0⟩]⟩ exTrain) := by
  refine (C179_no_end ⟨exInfra.routes, [⟨some 2, some 1, none⟩, ⟨none, none, some 0⟩]⟩ exTrain (by decide) (by unfold Small; decide) exFirst rfl exTrain_wellformed.proper (0, 1)
    (fun _ => ⟨⟨⟨_, rfl, rfl, .passengerHalt _ rfl (by decide) rfl rfl⟩, by decide⟩, fun sp h => by cases h; decide⟩) rfl (by decide)
    _ rfl (by decide) fun idx h => ?_).1
  rw [← nodeIdx_iff] at h
  cases h

end Soro.Train

namespace Soro.Transform
open Dbg Route Route.Spec Train Train.Spec Interlocking Spec

open Classical in
theorem pointsOn_length (i : Infra) (k : Ilk) (freight : Bool) (points : List SPoint) (path : List Nat) :
    (pointsOn i k freight points path).length = (points.map (visits i k freight path)).sum := by
  unfold pointsOn visits
  induction path with
  | nil => induction points with
    | nil => rfl
    | cons p ps ih => simpa using ih
  | cons id path ih =>
    rw [List.flatMap_cons, List.length_append, ih]
    clear ih
    induction points with
    | nil => rfl
    | cons p ps ih =>
      rw [List.map_cons, List.map_cons, List.sum_cons, List.sum_cons, List.filter_cons, List.countP_cons, ← ih]
      split <;> simp_all <;> omega

theorem timed_iff (sp : SPoint) : sp.isMeasurable = true ↔ Timed sp := by
  unfold SPoint.isMeasurable SPoint.hasTransitTime SPoint.isHalt Timed
  cases sp.ty <;> simp

theorem visits_untimed {i : Infra} {k : Ilk} {freight : Bool} {path : List Nat} {sp : SPoint} (h : ¬ Timed sp) :
    visits i k freight path sp = 0 := by
  unfold visits
  rw [List.countP_eq_zero]
  rintro id - hc
  simp only [decide_eq_true_eq] at hc
  obtain ⟨r, -, idx, hs, -⟩ := hc
  refine h ?_
  cases hs with
  | passengerHalt s hs hh hf h => exact .inl hh
  | freightHalt s hs hh hf h => exact .inl hh
  | checkpoint s hs hh hd h => exact .inr hd

theorem sum_eq_countP (l : List SPoint) (f : SPoint → Nat) (h0 : ∀ p ∈ l, ¬ Timed p → f p = 0) (h1 : ∀ p ∈ l, Timed p → f p = 1) :
    (l.map f).sum = l.countP (·.isMeasurable) := by
  induction l with
  | nil => rfl
  | cons p l ih =>
    rw [List.map_cons, List.sum_cons, List.countP_cons, ih (fun q hq => h0 q (by simp [hq])) (fun q hq => h1 q (by simp [hq]))]
    by_cases ht : Timed p
    · rw [h1 p (by simp) ht, if_pos ((timed_iff p).2 ht)]; omega
    · rw [h0 p (by simp) ht, if_neg (fun hc => ht ((timed_iff p).1 hc))]; omega

theorem countP_le_sum (l : List SPoint) (f : SPoint → Nat) (h1 : ∀ p ∈ l, Timed p → 1 ≤ f p) :
    l.countP (·.isMeasurable) ≤ (l.map f).sum := by
  induction l with
  | nil => simp
  | cons p l ih =>
    rw [List.map_cons, List.sum_cons, List.countP_cons]
    have := ih fun q hq => h1 q (by simp [hq])
    by_cases ht : Timed p
    · have := h1 p (by simp) ht
      rw [if_pos ((timed_iff p).2 ht)]; omega
    · rw [if_neg (fun hc => ht ((timed_iff p).1 hc))]; omega

theorem countP_lt_sum (l : List SPoint) (f : SPoint → Nat) (h1 : ∀ p ∈ l, Timed p → 1 ≤ f p) {q : SPoint} (hq : q ∈ l)
    (h2 : 2 ≤ f q) : l.countP (·.isMeasurable) < (l.map f).sum := by
  obtain ⟨a, b, rfl⟩ := List.append_of_mem hq
  have ha := countP_le_sum a f fun p hp => h1 p (by simp [hp])
  have hb := countP_le_sum b f fun p hp => h1 p (by simp [hp])
  rw [List.countP_append, List.countP_cons, List.map_append, List.sum_append, List.map_cons, List.sum_cons]
  split <;> omega

theorem sum_le_countP (l : List SPoint) (f : SPoint → Nat) (h0 : ∀ p ∈ l, ¬ Timed p → f p = 0) (h1 : ∀ p ∈ l, f p ≤ 1) :
    (l.map f).sum ≤ l.countP (·.isMeasurable) := by
  induction l with
  | nil => simp
  | cons p l ih =>
    rw [List.map_cons, List.sum_cons, List.countP_cons]
    have := ih (fun q hq => h0 q (by simp [hq])) fun q hq => h1 q (by simp [hq])
    by_cases ht : Timed p
    · have := h1 p (by simp)
      rw [if_pos ((timed_iff p).2 ht)]; omega
    · have := h0 p (by simp) ht
      rw [if_neg (fun hc => ht ((timed_iff p).1 hc))]; omega

theorem sum_lt_countP (l : List SPoint) (f : SPoint → Nat) (h0 : ∀ p ∈ l, ¬ Timed p → f p = 0) (h1 : ∀ p ∈ l, f p ≤ 1) {q : SPoint}
    (hq : q ∈ l) (ht : Timed q) (h2 : f q = 0) : (l.map f).sum < l.countP (·.isMeasurable) := by
  obtain ⟨a, b, rfl⟩ := List.append_of_mem hq
  have ha := sum_le_countP a f (fun p hp => h0 p (by simp [hp])) fun p hp => h1 p (by simp [hp])
  have hb := sum_le_countP b f (fun p hp => h0 p (by simp [hp])) fun p hp => h1 p (by simp [hp])
  rw [List.countP_append, List.countP_cons, List.map_append, List.sum_append, List.map_cons, List.sum_cons,
    if_pos ((timed_iff q).2 ht)]
  omega

/-- C179. Where the returned points are those standing on the chosen routes (see C85): the transformation is the same in both
builds if every planned point that is a stop or has a time stands on exactly one route of the path. It is stopped by its
assertion if all stand on a route and one on several, or if none stands on several and one on none. -/
theorem C179_transform (i : Infra) (nodeCount : Nat) (routes : List IR) (k : Ilk) (hk : Built i nodeCount routes k) (ss : StopSeq)
    (freight : Bool) (fuel : Nat) (path : List Nat) (pts : List SPoint) (h : transform i k ss freight fuel = .ok path pts)
    (hsz : ss.points.length < 2 ^ 64) (hst : Stays i k ss.plan path)
    (hfirst : ∀ a r, path.head? = some a → k.routes[a]? = some r → r.srs.length < 2 ^ 64 ∧ Enters r.srs ss.plan)
    (hnd : (ss.points.map (·.sr)).Nodup) (hmd : (merged k path).Nodup)
    (hin : ∀ sp ∈ ss.points, ∀ idx, StandsAt i freight sp idx → ∃ r, i.routes[sp.sr]? = some r ∧ idx < r.nodes.length)
    (hv : ∀ r ∈ routes, Valid i.routes r) :
    ((∀ sp ∈ ss.points, Timed sp → visits i k freight path sp = 1) →
      SameAs (transformD i k ss freight fuel) (some (transform i k ss freight fuel))) ∧
    ((∀ sp ∈ ss.points, Timed sp → 1 ≤ visits i k freight path sp) → (∃ sp ∈ ss.points, 2 ≤ visits i k freight path sp) →
      Dbg.Stops (transformD i k ss freight fuel)) ∧
    ((∀ sp ∈ ss.points, visits i k freight path sp ≤ 1) →
      (∃ sp ∈ ss.points, Timed sp ∧ visits i k freight path sp = 0) → Dbg.Stops (transformD i k ss freight fuel)) := by
  obtain ⟨hp, -⟩ := C85_points_partial i nodeCount routes k hk ss freight fuel path pts h hsz hst hfirst hnd hmd hin hv
  have hlen := pointsOn_length i k freight ss.points path
  rw [← hp] at hlen
  unfold transformD
  rw [h]
  refine ⟨fun h1 => ⟨_, rfl, ?_⟩, fun h1 ⟨q, hq, h2⟩ => ⟨280, ?_⟩, fun h1 ⟨q, hq, ht, h2⟩ => ⟨280, ?_⟩⟩
  · have := sum_eq_countP ss.points (visits i k freight path) (fun p _ hp => visits_untimed hp) h1
    simp only
    rw [check_pos (by omega)]; rfl
  · have := countP_lt_sum ss.points _ h1 hq h2
    have hne : ¬ ss.points.countP (·.isMeasurable) = pts.length := by rw [hlen]; omega
    simp only
    rw [check_neg hne]; rfl
  · have := sum_lt_countP ss.points (visits i k freight path) (fun p _ hp => visits_untimed hp) h1 hq ht h2
    have hne : ¬ ss.points.countP (·.isMeasurable) = pts.length := by rw [hlen]; omega
    simp only
    rw [check_neg hne]; rfl

/-- C179. The paths of C49 that leave the plan or end before it does are stopped by the assertion, and so is the one of C85 with
a point twice. -/
theorem C179_caught :
    Dbg.Stops (transformD offInfra (ilkOf offInfra offRoutes) offPlan false 3) ∧
    Dbg.Stops (transformD alignedInfra (ilkOf alignedInfra alignedRoutes) alignedPlan false 3) ∧
    Dbg.Stops (transformD twiceInfra (ilkOf twiceInfra twiceRoutes) twicePlan false 4) :=
  ⟨⟨280, by decide +kernel⟩, ⟨280, by decide +kernel⟩, ⟨280, by decide +kernel⟩⟩

def missInfra : Infra := ⟨[⟨[0, 1, 2, 3], [], []⟩, ⟨[10, 11, 12, 13], [], []⟩, ⟨[20, 21, 22, 23], [], []⟩, ⟨[30, 31, 32, 33], [], []⟩],
  [⟨none, some 2, none⟩, ⟨some 1, none, none⟩, ⟨none, none, some 2⟩, ⟨none, some 2, none⟩]⟩
def missInfos : List Info := [⟨4, [1], false⟩, ⟨4, [1], false⟩, ⟨4, [1], false⟩, ⟨4, [1], false⟩]
def missGraph : SRG := ⟨[[1], [2], [3], []], [[], [0], [1], [2]]⟩
def missRoutes : List IR := [⟨1, 2, [0, 1]⟩, ⟨0, 2, [0]⟩, ⟨1, 2, [1, 2]⟩, ⟨1, 2, [2, 3]⟩, ⟨1, 4, [3]⟩]
def missPlan : StopSeq := ⟨[⟨.passenger, true, 0⟩, ⟨.transit, true, 1⟩, ⟨.passenger, true, 2⟩, ⟨.passenger, true, 3⟩], false, false⟩

theorem missBuilt : getRoutes missInfos missGraph = some missRoutes ∧ Built missInfra 40 missRoutes (ilkOf missInfra missRoutes) :=
  ⟨by decide, built_of _ _ (by decide +kernel) (by decide) (by decide)⟩

/-- C179, the assertion only counts: a train passes a checkpoint at the signal between two routes and is to stop where there is
no passenger halt. One point is returned twice, the stop is lost, and the debug build does not notice. -/
theorem C179_unnoticed : ∃ (infos : List Info) (g : SRG) (routes : List IR) (i : Infra) (k : Ilk) (ss : StopSeq) (path : List Nat)
    (p0 p1 p2 p3 : SPoint), getRoutes infos g = some routes ∧ Built i 40 routes k ∧ ss.points = [p0, p1, p2, p3] ∧
    ss.points.Nodup ∧ p2.ty = .passenger ∧ transformD i k ss false 5 = .ok (.ok path [p0, p1, p1, p3]) :=
  ⟨missInfos, missGraph, missRoutes, missInfra, _, missPlan, [0, 2, 3, 4], _, _, _, _, missBuilt.1, missBuilt.2, rfl, by decide, rfl,
    by decide +kernel⟩

/-- the points standing on the routes begin and end with the planned ones if these stand on the first and last route -/
theorem pointsOn_ends {i : Infra} {k : Ilk} {freight : Bool} {points : List SPoint} {path : List Nat} {a b : Nat} {ra rb : IR}
    (ha : path.head? = some a) (hb : path.getLast? = some b) (hra : k.routes[a]? = some ra) (hrb : k.routes[b]? = some rb)
    (p q : SPoint) (hp : points.head? = some p) (hq : points.getLast? = some q) :
    (OnRoute i freight ra p → (pointsOn i k freight points path).head? = some p) ∧
    (OnRoute i freight rb q → (pointsOn i k freight points path).getLast? = some q) := by
  classical
  constructor
  · intro hon
    obtain ⟨rest, rfl⟩ : ∃ rest, path = a :: rest := by
      cases path with
      | nil => cases ha
      | cons x xs => cases ha; exact ⟨xs, rfl⟩
    obtain ⟨ps, rfl⟩ : ∃ ps, points = p :: ps := by
      cases points with
      | nil => cases hp
      | cons x xs => cases hp; exact ⟨xs, rfl⟩
    unfold pointsOn
    rw [List.flatMap_cons, List.filter_cons, if_pos (by simpa using ⟨ra, hra, hon⟩)]
    rfl
  · intro hon
    obtain ⟨rest, rfl⟩ := List.getLast?_eq_some_iff.1 hb
    obtain ⟨ps, rfl⟩ := List.getLast?_eq_some_iff.1 hq
    rw [pointsOn_append, pointsOn_single, List.filter_append]
    have : [q].filter (fun sp => decide (∃ r, k.routes[b]? = some r ∧ OnRoute i freight r sp)) = [q] := by
      rw [List.filter_cons, if_pos (by simpa using ⟨rb, hrb, hon⟩)]; rfl
    rw [this, ← List.append_assoc, List.getLast?_concat]

/-- C179, from the plan to the nodes of the train: a train that begins with a stop on the first chosen route and ends with one on
the last (unless it breaks in or out) and whose timed points each stand on one chosen route passes the assertion of the
transformation and all assertions of the iteration. -/
theorem C179_planned (i : Infra) (nodeCount : Nat) (routes : List IR) (k : Ilk) (hk : Built i nodeCount routes k) (ss : StopSeq)
    (freight : Bool) (fuel : Nat) (path : List Nat) (pts : List SPoint) (h : transform i k ss freight fuel = .ok path pts)
    (hsz : ss.points.length < 2 ^ 64) (hst : Stays i k ss.plan path)
    (hfirst : ∀ a r, path.head? = some a → k.routes[a]? = some r → r.srs.length < 2 ^ 64 ∧ Enters r.srs ss.plan)
    (hnd : (ss.points.map (·.sr)).Nodup) (hmd : (merged k path).Nodup)
    (hin : ∀ sp ∈ ss.points, ∀ idx, StandsAt i freight sp idx → ∃ r, i.routes[sp.sr]? = some r ∧ idx < r.nodes.length)
    (hv : ∀ r ∈ routes, Proper i.routes r) (hsort : ∀ r ∈ i.routes, r.omitted.Pairwise (· < ·)) (hsmall : Small i.routes)
    (hone : ∀ sp ∈ ss.points, Timed sp → visits i k freight path sp = 1) (hlen : 1 < path.length)
    (a b : Nat) (ra rb : IR) (ha : path.head? = some a) (hb : path.getLast? = some b) (hra : routes[a]? = some ra)
    (hrb : routes[b]? = some rb) (p q : SPoint) (hp : ss.points.head? = some p) (hq : ss.points.getLast? = some q)
    (hstart : ss.breakIn = false → p.ty ≠ .transit ∧ OnRoute i freight ra p)
    (hend : ss.breakOut = false → q.ty ≠ .transit ∧ OnRoute i freight rb q) :
    ∃ irs, path.mapM (routes[·]?) = some irs ∧ transformD i k ss freight fuel = .ok (.ok path pts) ∧
      SameAs (iterateTrainD i ⟨ss.breakIn, ss.breakOut, freight, irs, pts⟩)
        (iterateTrain i ⟨ss.breakIn, ss.breakOut, freight, irs, pts⟩) := by
  have hv' : ∀ r ∈ routes, Valid i.routes r := fun r hr => (hv r hr).valid
  obtain ⟨ek, -, -⟩ := hk.tables
  obtain ⟨hpts, -⟩ := C85_points_partial i nodeCount routes k hk ss freight fuel path pts h hsz hst hfirst hnd hmd hin hv'
  obtain ⟨v, hv1, hv2⟩ := (C179_transform i nodeCount routes k hk ss freight fuel path pts h hsz hst hfirst hnd hmd hin hv').1 hone
  rw [h] at hv1; cases hv1
  have hknown : ∀ x ∈ path, ∃ r, routes[x]? = some r := by
    have hc := (C49_connected i nodeCount routes k hk ss freight fuel path pts h).1
    rw [List.isChain_iff_getElem] at hc
    intro x hx
    obtain ⟨n, hn, rfl⟩ := List.getElem_of_mem hx
    by_cases h0 : n + 1 < path.length
    · obtain ⟨r1, -, -, h1, -⟩ := hc n h0
      exact ⟨r1, h1⟩
    · obtain ⟨m, rfl⟩ : ∃ m, n = m + 1 := ⟨n - 1, by omega⟩
      obtain ⟨-, r2, -, -, h2, -⟩ := hc m hn
      exact ⟨r2, h2⟩
  have hirs : ∃ irs, path.mapM (routes[·]?) = some irs ∧ irs.map some = path.map (routes[·]?) := by
    clear hpts hv2 hmd hst hfirst h ha hb hlen hone
    induction path with
    | nil => exact ⟨[], rfl, rfl⟩
    | cons x xs ih =>
      obtain ⟨r, hr⟩ := hknown x (by simp)
      obtain ⟨irs, h1, h2⟩ := ih fun y hy => hknown y (by simp [hy])
      exact ⟨r :: irs, by rw [List.mapM_cons, hr, h1]; rfl, by rw [List.map_cons, List.map_cons, h2, hr]⟩
  obtain ⟨irs, hm, hmap⟩ := hirs
  refine ⟨irs, hm, hv2, ?_⟩
  have hhead : irs.head? = some ra := by
    have := congrArg List.head? hmap
    rw [List.head?_map, List.head?_map, ha, Option.map_some, hra] at this
    cases hx : irs.head? with
    | none => rw [hx] at this; cases this
    | some y => rw [hx] at this; simpa using this
  have hback : irs.getLast? = some rb := by
    have := congrArg List.getLast? hmap
    rw [List.getLast?_map, List.getLast?_map, hb, Option.map_some, hrb] at this
    cases hx : irs.getLast? with
    | none => rw [hx] at this; cases this
    | some y => rw [hx] at this; simpa using this
  have hlen' : irs.length = path.length := by have := congrArg List.length hmap; simpa using this
  obtain ⟨e1, e2⟩ := pointsOn_ends (i := i) (freight := freight) ha hb (by rw [ek]; exact hra) (by rw [ek]; exact hrb) p q hp hq
  rw [← hpts] at e1 e2
  have place : ∀ (r : IR) (sp : SPoint), OnRoute i freight r sp → ∃ x, sp.sr = x.1 ∧ StandsAt i freight sp x.2 ∧
      x ∈ positions i.routes r := fun r sp ⟨idx, h1, h2⟩ => ⟨(sp.sr, idx), rfl, h1, h2⟩
  have hp' : ∃ x, ss.breakIn = false → LiesAt i freight pts.head? x ra := by
    by_cases hbi : ss.breakIn = false
    · obtain ⟨x, h1, h2, h3⟩ := place ra p (hstart hbi).2
      exact ⟨x, fun _ => ⟨⟨p, e1 (hstart hbi).2, h1, h2⟩, h3⟩⟩
    · exact ⟨(0, 0), fun hc => absurd hc hbi⟩
  have hq' : ∃ x, ss.breakOut = false → LiesAt i freight pts.getLast? x rb := by
    by_cases hbo : ss.breakOut = false
    · obtain ⟨x, h1, h2, h3⟩ := place rb q (hend hbo).2
      exact ⟨x, fun _ => ⟨⟨q, e2 (hend hbo).2, h1, h2⟩, h3⟩⟩
    · exact ⟨(0, 0), fun hc => absurd hc hbo⟩
  obtain ⟨x, hx⟩ := hp'
  obtain ⟨y, hy⟩ := hq'
  refine C179_iterate i _ ra rb x y ⟨hsort, hhead, hback, ?_, hx, hy, fun h1 => ?_⟩ hsmall (.inr ⟨?_, ?_⟩)
  · intro ir hir
    have : some ir ∈ path.map (routes[·]?) := by rw [← hmap]; exact List.mem_map_of_mem hir
    obtain ⟨z, -, hz⟩ := List.mem_map.1 this
    exact hv ir (List.mem_of_getElem? hz)
  · simp only at h1
    omega
  · intro hbi sp hsp
    rw [e1 (hstart hbi).2] at hsp
    cases hsp
    exact (hstart hbi).1
  · intro hbo sp hsp
    rw [e2 (hend hbo).2] at hsp
    cases hsp
    exact (hend hbo).1

/-! Examples: the train of C49, the same with the checkpoint at the signal, and the same with a stop instead of the checkpoint. -/

theorem visits_eq (i : Infra) (k : Ilk) (freight : Bool) (path : List Nat) (sp : SPoint) :
    visits i k freight path sp = path.countP fun id =>
      match k.routes[id]?, sp.nodeIdx i freight with
      | some r, some idx => decide ((sp.sr, idx) ∈ positions i.routes r)
      | _, _ => false := by
  unfold visits
  refine List.countP_congr fun id _ => ?_
  simp only [decide_eq_true_eq]
  constructor
  · rintro ⟨r, hr, idx, h1, h2⟩
    rw [hr, (nodeIdx_iff _ _ _ _).2 h1]
    simpa using h2
  · intro h
    split at h
    · rename_i r idx hr hi
      exact ⟨r, hr, idx, (nodeIdx_iff _ _ _ _).1 hi, by simpa using h⟩
    · cases h

theorem plan_visits : ∀ sp ∈ planned.points, visits planInfra (ilkOf planInfra planRoutes) false [0, 2, 3] sp = 1 := by
  simp only [visits_eq]
  rw [planRoutes_eq]
  decide

theorem plan_proper : ∀ r ∈ planRoutes, Proper planInfra.routes r := by
  intro r hr
  simp [planRoutes] at hr
  rcases hr with rfl | rfl | rfl | rfl <;> refine ⟨by decide, by decide, by decide, ?_, ?_, by decide⟩ <;> intro s r h1 h2 <;>
    cases h1 <;> cases h2 <;> decide

example : ∃ irs, [0, 2, 3].mapM (planRoutes[·]?) = some irs ∧
    SameAs (iterateTrainD planInfra ⟨false, false, false, irs, planned.points⟩)
      (iterateTrain planInfra ⟨false, false, false, irs, planned.points⟩) := by
  obtain ⟨irs, h1, -, h3⟩ := C179_planned _ _ _ _ planBuilt _ _ _ _ _ plan_done (by decide) plan_stays plan_enters (by decide)
    (by decide +kernel) (plan_inside false) plan_proper (by decide) (by unfold Small; decide) (fun sp h _ => plan_visits sp h)
    (by decide) 0 3 _ _ rfl rfl rfl rfl _ _ rfl rfl
    (fun _ => ⟨by decide, 2, .passengerHalt _ rfl (by decide) rfl rfl, by decide⟩)
    (fun _ => ⟨by decide, 2, .passengerHalt _ rfl (by decide) rfl rfl, by decide⟩)
  exact ⟨irs, h1, h3⟩

theorem twice_eq : (ilkOf twiceInfra twiceRoutes).routes = twiceRoutes := twiceBuilt.2.tables.1

example : Stays twiceInfra (ilkOf twiceInfra twiceRoutes) twicePlan.plan [0, 2, 3] ∧
    (∀ sp ∈ twicePlan.points, 1 ≤ visits twiceInfra (ilkOf twiceInfra twiceRoutes) false [0, 2, 3] sp) ∧
    ∃ sp ∈ twicePlan.points, 2 ≤ visits twiceInfra (ilkOf twiceInfra twiceRoutes) false [0, 2, 3] sp := by
  refine ⟨?_, ?_, ?_⟩
  · obtain ⟨h1, h2, h3⟩ := plan_stays
    rw [planRoutes_eq] at h1 h2 h3
    refine ⟨?_, ?_, ?_⟩ <;> rw [twice_eq] <;> assumption
  · simp only [visits_eq]
    rw [twice_eq]
    decide
  · simp only [visits_eq]
    rw [twice_eq]
    decide

def lostPlan : StopSeq := ⟨[⟨.passenger, true, 0⟩, ⟨.passenger, true, 1⟩, ⟨.passenger, true, 2⟩], false, false⟩

example : transform planInfra (ilkOf planInfra planRoutes) lostPlan false 4 = .ok [0, 2, 3]
      [⟨.passenger, true, 0⟩, ⟨.passenger, true, 2⟩] ∧ lostPlan.plan = planned.plan ∧
    (∀ sp ∈ lostPlan.points, visits planInfra (ilkOf planInfra planRoutes) false [0, 2, 3] sp ≤ 1) ∧
    visits planInfra (ilkOf planInfra planRoutes) false [0, 2, 3] ⟨.passenger, true, 1⟩ = 0 := by
  refine ⟨by decide +kernel, rfl, ?_, ?_⟩
  · simp only [visits_eq]
    rw [planRoutes_eq]
    decide
  · simp only [visits_eq]
    rw [planRoutes_eq]
    decide

end Soro.Transform
