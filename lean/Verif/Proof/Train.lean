import Verif.Proof.InterlockingRoute
import Verif.Spec.Train
import Mathlib.Data.List.Nodup
import Mathlib.Data.List.Chain

namespace Soro.Train
open Soro.Route Soro.Route.Spec Spec

/-! ### cutting an interlocking route -/

/-- where the part of the station route at position `m` starts -/
def lo (ir : IR) (m : Nat) : Nat := if m = 0 then ir.start else 0

/-- where the part of the station route `s` at position `m` ends -/
def hi (infra : List SRoute) (ir : IR) (m s : Nat) : Nat := if m + 1 = ir.srs.length then ir.stop else len infra s

/-- the positions in the station route at position `x.2` -/
def blk (infra : List SRoute) (ir : IR) (x : Nat × Nat) : List (Nat × Nat) := span x.1 (lo ir x.2) (hi infra ir x.2 x.1)

theorem positions_blk (infra : List SRoute) (ir : IR) : positions infra ir = ir.srs.zipIdx.flatMap (blk infra ir) := rfl

/-- the number of positions before index `a` of the station route at position `m` -/
def off (infra : List SRoute) (ir : IR) (m a : Nat) : Nat :=
  ((ir.srs.take m).zipIdx.flatMap (blk infra ir)).length + (a - lo ir m)

theorem positions_split (infra : List SRoute) (ir : IR) (P R : List Nat) (s : Nat) (h : ir.srs = P ++ s :: R) :
    positions infra ir = P.zipIdx.flatMap (blk infra ir) ++
      (blk infra ir (s, P.length) ++ (R.zipIdx (P.length + 1)).flatMap (blk infra ir)) := by
  rw [positions_blk, h, List.zipIdx_append, List.zipIdx_cons]
  simp

theorem mid_blk (infra : List SRoute) (ir : IR) (M : List Nat) (k : Nat) (hk : 1 ≤ k) (hl : k + M.length < ir.srs.length) :
    (M.zipIdx k).flatMap (blk infra ir) = M.flatMap fun s => span s 0 (len infra s) := by
  induction M generalizing k with
  | nil => rfl
  | cons a M ih =>
    simp only [List.length_cons] at hl
    rw [List.zipIdx_cons, List.flatMap_cons, List.flatMap_cons, ih (k + 1) (by omega) (by omega)]
    congr 1
    simp only [blk, lo, hi]
    rw [if_neg (by omega), if_neg (by omega)]

theorem hi_le {infra : List SRoute} {ir : IR} (hv : Valid infra ir) {m s : Nat} (hm : ir.srs[m]? = some s) :
    hi infra ir m s ≤ len infra s := by
  unfold hi
  split
  · rename_i h
    have hl : ir.srs.getLast? = some s := by
      rw [List.getLast?_eq_getElem?, ← h]; simpa using hm
    have hr := List.getElem?_eq_getElem (hv.known s (List.mem_of_getElem? hm))
    rw [len_of hr]
    exact hv.stop s _ hl hr
  · exact Nat.le_refl _

theorem take_drop_mid {α : Type} (X S Y : List α) (a b : Nat) (ha : a = X.length) (hb : b = X.length + S.length) :
    ((X ++ (S ++ Y)).take b).drop a = S := by
  subst ha hb
  rw [← List.append_assoc, List.take_append_of_le_length (by simp), List.take_of_length_le (by simp),
    List.drop_append_of_le_length (by simp), List.drop_eq_nil_of_le (by simp), List.nil_append]

theorem split_at {srs : List Nat} {m s : Nat} (hm : srs[m]? = some s) :
    srs = srs.take m ++ s :: srs.drop (m + 1) ∧ (srs.take m).length = m := by
  have hlt := (List.getElem?_eq_some_iff.1 hm).1
  have h3 : srs.drop m = s :: srs.drop (m + 1) := by
    rw [List.drop_eq_getElem_cons hlt]
    rw [List.getElem?_eq_getElem hlt] at hm
    injection hm with h4; rw [h4]
  exact ⟨by rw [← h3, List.take_append_drop], by simp; omega⟩

/-- `from_to` between two cuts of the interlocking route -/
theorem cut_Tells {infra : List SRoute} (hs : Sorted infra) (ir : IR) (hv : Valid infra ir) (hnd : ir.srs.Nodup)
    {m n s t a b : Nat} (hm : ir.srs[m]? = some s) (hn : ir.srs[n]? = some t)
    (ha : lo ir m ≤ a) (ha' : a ≤ hi infra ir m s) (hb : lo ir n ≤ b) (hb' : b ≤ hi infra ir n t)
    (hmn : m < n ∨ m = n ∧ a ≤ b) :
    Tells (ir.fromTo infra s a t b)
      ((((positions infra ir).take (off infra ir n b)).drop (off infra ir m a)).map (shownAt infra)) := by
  have hsm := List.mem_of_getElem? hm
  have htm := List.mem_of_getElem? hn
  have hrs := List.getElem?_eq_getElem (hv.known s hsm)
  obtain ⟨e1, l1⟩ := split_at hm
  have hp := positions_split infra ir _ _ _ e1
  rw [l1] at hp
  rcases hmn with hlt | ⟨rfl, hab⟩
  · -- different station routes
    obtain ⟨e2, l2⟩ := split_at hn
    have hnlen := (List.getElem?_eq_some_iff.1 hn).1
    have e3 : ir.srs = ir.srs.take m ++ s :: ((ir.srs.take n).drop (m + 1) ++ t :: ir.srs.drop (n + 1)) := by
      have : ir.srs.drop (m + 1) = (ir.srs.take n).drop (m + 1) ++ t :: ir.srs.drop (n + 1) := by
        conv => lhs; rw [e2]
        rw [List.drop_append_of_le_length (by omega)]
      rw [← this]; exact e1
    have htk : ir.srs.take n = ir.srs.take m ++ s :: (ir.srs.take n).drop (m + 1) := by
      have h5 := split_at (srs := ir.srs.take n) (m := m) (s := s) (by rw [List.getElem?_take]; simp [hlt, hm])
      have h6 : (ir.srs.take n).take m = ir.srs.take m := by rw [List.take_take]; congr 1; omega
      rw [h6] at h5
      exact h5.1
    have hlenM : ((ir.srs.take n).drop (m + 1)).length = n - (m + 1) := by simp; omega
    generalize hM : (ir.srs.take n).drop (m + 1) = M at e3 htk hlenM
    have hdrop : ir.srs.drop (m + 1) = M ++ t :: ir.srs.drop (n + 1) := by
      have := congrArg (List.drop (m + 1)) e3
      rw [this, List.drop_append, List.drop_eq_nil_of_le (by omega), l1]
      simp
    rw [hdrop, List.zipIdx_append, List.zipIdx_cons, List.flatMap_append, List.flatMap_cons,
      mid_blk infra ir M (m + 1) (by omega) (by rw [hlenM]; omega)] at hp
    have hn' : m + 1 + M.length = n := by omega
    rw [hn'] at hp
    have him : hi infra ir m s = len infra s := by unfold hi; rw [if_neg (by omega)]
    have hlon : lo ir n = 0 := by unfold lo; rw [if_neg (by omega)]
    have hoff : off infra ir n b = off infra ir m a + (seg infra s a M t b).length := by
      unfold off
      rw [htk, List.zipIdx_append, List.zipIdx_cons, List.flatMap_append, List.flatMap_cons, l1, Nat.zero_add,
        mid_blk infra ir M (m + 1) (by omega) (by rw [hlenM]; omega)]
      simp only [seg, blk, List.length_append, length_span, him, hlon]
      rw [him] at ha'
      omega
    have hS : ((positions infra ir).take (off infra ir n b)).drop (off infra ir m a) = seg infra s a M t b := by
      have hdec : positions infra ir = ((ir.srs.take m).zipIdx.flatMap (blk infra ir) ++ span s (lo ir m) a) ++
          (seg infra s a M t b ++ (span t b (hi infra ir n t) ++ ((ir.srs.drop (n + 1)).zipIdx (n + 1)).flatMap (blk infra ir))) := by
        rw [hp]
        simp only [blk, seg, him, hlon]
        rw [him] at ha'
        rw [hlon] at hb
        rw [← span_append s ha ha', ← span_append t hb hb']
        simp only [List.append_assoc]
      rw [hdec]
      refine take_drop_mid _ _ _ _ _ ?_ ?_
      · simp only [off, List.length_append, length_span]
      · rw [hoff]; simp only [off, List.length_append, length_span]
    rw [hS]
    rcases srs_cases ir.srs hv.nonempty with ⟨x, h⟩ | ⟨f, A, l, h⟩
    · rw [h] at hnlen; simp at hnlen; omega
    · rw [fromTo_differ ir infra f l A h _ M _ s t a b e3 hnd]
      refine detail_Tells hs ir _ M _ s t a b _ _ e3 hv.known rfl rfl (by rw [him] at ha'; exact ha') ?_
      exact Nat.le_trans hb' (hi_le hv hn)
  · -- same station route
    have hst : s = t := by rw [hm] at hn; injection hn
    subst hst
    have hS : ((positions infra ir).take (off infra ir m b)).drop (off infra ir m a) = span s a b := by
      have hdec : positions infra ir = ((ir.srs.take m).zipIdx.flatMap (blk infra ir) ++ span s (lo ir m) a) ++
          (span s a b ++ (span s b (hi infra ir m s) ++ ((ir.srs.drop (m + 1)).zipIdx (m + 1)).flatMap (blk infra ir))) := by
        rw [hp]
        simp only [blk]
        rw [← span_append s ha ha', ← span_append s hab hb']
        simp only [List.append_assoc]
      rw [hdec]
      refine take_drop_mid _ _ _ _ _ ?_ ?_
      · simp only [off, List.length_append, length_span]
      · simp only [off, List.length_append, length_span]; omega
    rw [hS]
    have hbl : b ≤ len infra s := Nat.le_trans hb' (hi_le hv hm)
    rw [len_of hrs] at hbl
    rcases srs_cases ir.srs hv.nonempty with ⟨x, h⟩ | ⟨f, A, l, h⟩
    · have hx : s = x := by rw [h] at hsm; simpa using hsm
      subst hx
      unfold IR.fromTo
      rw [h]
      simp only [hrs, Option.bind_some]
      exact fromTo_Tells hs hrs hab hbl
    · rw [fromTo_same ir infra f l A h s a b hsm, hrs]
      exact fromTo_Tells hs hrs hab hbl

/-! ### proper routes -/

theorem Spec.Proper.valid {infra : List SRoute} {ir : IR} (h : Proper infra ir) : Valid infra ir :=
  ⟨h.known, h.nonempty, fun s r a b => Nat.le_of_lt (h.start s r a b), fun s r a b => (h.stop s r a b).2,
    fun a => Nat.le_of_lt (h.single a)⟩

theorem head_some {infra : List SRoute} {ir : IR} (h : Proper infra ir) : ∃ f, ir.srs.head? = some f ∧ ir.srs[0]? = some f := by
  cases hsr : ir.srs with
  | nil => exact absurd hsr h.nonempty
  | cons f A => exact ⟨f, rfl, rfl⟩

theorem last_some {infra : List SRoute} {ir : IR} (h : Proper infra ir) :
    ∃ l, ir.srs.getLast? = some l ∧ ir.srs[ir.srs.length - 1]? = some l := by
  have := List.getLast?_eq_some_getLast h.nonempty
  exact ⟨_, this, by rw [← List.getLast?_eq_getElem?, this]⟩

theorem off_start (infra : List SRoute) (ir : IR) (a : Nat) : off infra ir 0 a = a - ir.start := by
  simp [off, lo]

theorem off_end {infra : List SRoute} {ir : IR} (h : Proper infra ir) :
    off infra ir (ir.srs.length - 1) ir.stop = (positions infra ir).length := by
  obtain ⟨l, _, hl⟩ := last_some h
  obtain ⟨e1, l1⟩ := split_at hl
  have hp := positions_split infra ir _ _ _ e1
  have hlt := (List.getElem?_eq_some_iff.1 hl).1
  rw [hp, l1]
  have : ir.srs.drop (ir.srs.length - 1 + 1) = [] := List.drop_eq_nil_of_le (by omega)
  rw [this]
  have hh : hi infra ir (ir.srs.length - 1) l = ir.stop := by unfold hi; rw [if_pos (by omega)]
  simp only [off, List.zipIdx_nil, List.flatMap_nil, List.append_nil, List.length_append, blk, length_span, hh]

theorem bounds_first {infra : List SRoute} {ir : IR} (h : Proper infra ir) {f : Nat} (hf : ir.srs.head? = some f) :
    ir.start + 1 ≤ hi infra ir 0 f := by
  have hm : f ∈ ir.srs := List.mem_of_head? hf
  have hr := List.getElem?_eq_getElem (h.known f hm)
  unfold hi
  split
  · rename_i h1; exact h.single (by omega)
  · rw [len_of hr]; exact h.start f _ hf hr

theorem bounds_last {infra : List SRoute} {ir : IR} (h : Proper infra ir) :
    lo ir (ir.srs.length - 1) < ir.stop := by
  obtain ⟨l, hl, hl'⟩ := last_some h
  have hm := List.mem_of_getElem? hl'
  have hr := List.getElem?_eq_getElem (h.known l hm)
  have hlt := (List.getElem?_eq_some_iff.1 hl').1
  unfold lo
  split
  · exact h.single (by omega)
  · exact (h.stop l _ hl hr).1

theorem hi_last {infra : List SRoute} {ir : IR} (h : Proper infra ir) (s : Nat) :
    hi infra ir (ir.srs.length - 1) s = ir.stop := by
  obtain ⟨l, hl, hl'⟩ := last_some h
  have hlt := (List.getElem?_eq_some_iff.1 hl').1
  unfold hi; rw [if_pos (by omega)]

/-- `from` yields everything behind the cut -/
theorem from_cut {infra : List SRoute} (hs : Sorted infra) {ir : IR} (h : Proper infra ir) {m s a : Nat}
    (hm : ir.srs[m]? = some s) (ha : lo ir m ≤ a) (ha' : a ≤ hi infra ir m s) :
    Tells (ir.from_ infra s a) (((positions infra ir).drop (off infra ir m a)).map (shownAt infra)) := by
  obtain ⟨l, hl, hl'⟩ := last_some h
  have hlt := (List.getElem?_eq_some_iff.1 hm).1
  have h1 := cut_Tells hs ir h.valid h.nodup hm hl' ha ha' (Nat.le_of_lt (bounds_last h)) (Nat.le_of_eq (hi_last h _).symm)
    (by
      by_cases c : m < ir.srs.length - 1
      · exact .inl c
      · have : m = ir.srs.length - 1 := by omega
        subst this
        rw [hi_last h] at ha'
        exact .inr ⟨rfl, ha'⟩)
  rw [off_end h, List.take_length] at h1
  unfold IR.from_
  rw [hl]
  exact h1

theorem positions_nodup {infra : List SRoute} {ir : IR} (h : ir.srs.Nodup) : (positions infra ir).Nodup := by
  rw [positions_blk]
  rw [List.nodup_flatMap]
  constructor
  · intro x _
    rw [blk, span]
    rw [List.nodup_iff_pairwise_ne, List.pairwise_map]
    exact (List.nodup_iff_pairwise_ne.1 (List.nodup_range' (step := 1) (by omega))).imp fun h e => h (by simpa using e)
  · rw [List.pairwise_iff_getElem]
    intro i j hi' hj hij
    simp only [Function.onFun]
    intro p hp hq
    simp only [List.getElem_zipIdx, blk, mem_span] at hp hq
    have := hp.1.symm.trans hq.1
    simp only [List.length_zipIdx] at hi' hj
    exact absurd ((List.getElem_inj h).1 this) (by omega)

/-- a position of the route lies at its cut -/
theorem mem_cut {infra : List SRoute} {ir : IR} (h : Proper infra ir) {p : Nat × Nat} (hp : p ∈ positions infra ir) :
    ∃ m, ir.srs[m]? = some p.1 ∧ lo ir m ≤ p.2 ∧ p.2 < hi infra ir m p.1 ∧ (positions infra ir).idxOf p = off infra ir m p.2 := by
  rw [positions_blk, List.mem_flatMap] at hp
  obtain ⟨x, hx, hp⟩ := hp
  rw [blk, mem_span] at hp
  obtain ⟨e, h1, h2⟩ := hp
  have hx' := List.mem_zipIdx_iff_getElem?.1 hx
  obtain ⟨s, m⟩ := x
  simp only at e h1 h2 hx'
  subst e
  refine ⟨m, hx', h1, h2, ?_⟩
  obtain ⟨e1, l1⟩ := split_at hx'
  have hd := positions_split infra ir _ _ _ e1
  rw [l1, blk, ← span_append p.1 h1 (Nat.le_of_lt h2)] at hd
  have hc : span p.1 p.2 (hi infra ir m p.1) = p :: span p.1 (p.2 + 1) (hi infra ir m p.1) := by
    unfold span
    rw [show hi infra ir m p.1 - p.2 = (hi infra ir m p.1 - (p.2 + 1)) + 1 by omega, List.range'_succ]
    rfl
  have hnd := positions_nodup (infra := infra) h.nodup
  have hd' : positions infra ir = ((ir.srs.take m).zipIdx.flatMap (blk infra ir) ++ span p.1 (lo ir m) p.2) ++
      p :: (span p.1 (p.2 + 1) (hi infra ir m p.1) ++ ((ir.srs.drop (m + 1)).zipIdx (m + 1)).flatMap (blk infra ir)) := by
    rw [hd, hc]
    simp
  rw [hd'] at hnd ⊢
  have hno : p ∉ (ir.srs.take m).zipIdx.flatMap (blk infra ir) ++ span p.1 (lo ir m) p.2 := fun hm =>
    (List.nodup_append.1 hnd).2.2 p hm p (by simp) rfl
  rw [List.idxOf_append, if_neg hno, List.idxOf_cons_self]
  simp [off, length_span]

end Soro.Train

namespace Soro.Train
open Soro.Route Soro.Route.Spec Spec

theorem off_lt {infra : List SRoute} {ir : IR} {m n s a b : Nat} (hn : ir.srs[n]? = some s)
    (hb' : b ≤ hi infra ir n s) (h : n < m) : off infra ir n b ≤ off infra ir m a := by
  obtain ⟨e1, l1⟩ := split_at (srs := ir.srs.take m) (m := n) (s := s) (by rw [List.getElem?_take]; simp [h, hn])
  have h6 : (ir.srs.take m).take n = ir.srs.take n := by rw [List.take_take]; congr 1; omega
  rw [h6] at e1 l1
  unfold off
  rw [e1, List.zipIdx_append, List.zipIdx_cons, List.flatMap_append, List.flatMap_cons, l1, Nat.zero_add]
  simp only [List.length_append, blk, length_span]
  omega

/-- the start of the train as a cut of the first route -/
theorem start_cut {i : Infra} {t : Train} {ir : IR} (h : Proper i.routes ir) (p : Nat × Nat)
    (hp : t.breakIn = false → (∃ sp, t.points.head? = some sp ∧ sp.sr = p.1 ∧ sp.nodeIdx i t.freight = some p.2) ∧
      p ∈ positions i.routes ir) :
    ∃ m s a, startAt i t ir = some (s, a) ∧ ir.srs[m]? = some s ∧ lo ir m ≤ a ∧ a ≤ hi i.routes ir m s ∧
      off i.routes ir m a = before i.routes t.breakIn p ir ∧ off i.routes ir m a < (positions i.routes ir).length := by
  have hpos : 0 < (positions i.routes ir).length := by
    have := off_end h
    have h2 := bounds_last h
    unfold off at this
    omega
  cases hb : t.breakIn with
  | true =>
    obtain ⟨f, hf, hf'⟩ := head_some h
    refine ⟨0, f, ir.start, by simp [startAt, hb, hf], hf', by simp [lo], ?_, ?_, ?_⟩
    · have := bounds_first h hf; omega
    · simp [off_start, before]
    · simpa [off_start] using hpos
  | false =>
    obtain ⟨⟨sp, h1, h2, h3⟩, hm⟩ := hp hb
    obtain ⟨m, hm1, hm2, hm3, hm4⟩ := mem_cut h hm
    refine ⟨m, p.1, p.2, by simp [startAt, hb, h1, h2, h3], hm1, hm2, by omega, ?_, ?_⟩
    · simp [before, hm4]
    · rw [← hm4]; exact List.idxOf_lt_length_iff.2 hm

/-- number of positions of the last route the train uses -/
def used (infra : List SRoute) (breakOut : Bool) (p : Nat × Nat) (last : IR) : Nat :=
  if breakOut then (positions infra last).length else (positions infra last).idxOf p + 1

theorem stop_cut {i : Infra} {t : Train} {ir : IR} (h : Proper i.routes ir) (p : Nat × Nat)
    (hp : t.breakOut = false → (∃ sp, t.points.getLast? = some sp ∧ sp.sr = p.1 ∧ sp.nodeIdx i t.freight = some p.2) ∧
      p ∈ positions i.routes ir) :
    ∃ n s b, stopAt i t ir = some (s, b) ∧ ir.srs[n]? = some s ∧ lo ir n < b ∧ b ≤ hi i.routes ir n s ∧
      off i.routes ir n b = used i.routes t.breakOut p ir ∧ off i.routes ir n b ≤ (positions i.routes ir).length := by
  cases hb : t.breakOut with
  | true =>
    obtain ⟨l, hl, hl'⟩ := last_some h
    refine ⟨ir.srs.length - 1, l, ir.stop, by simp [stopAt, hb, hl], hl', bounds_last h, ?_, ?_, ?_⟩
    · exact Nat.le_of_eq (hi_last h _).symm
    · simp [off_end h, used]
    · exact Nat.le_of_eq (off_end h)
  | false =>
    obtain ⟨⟨sp, h1, h2, h3⟩, hm⟩ := hp hb
    obtain ⟨m, hm1, hm2, hm3, hm4⟩ := mem_cut h hm
    have ho : off i.routes ir m (p.2 + 1) = off i.routes ir m p.2 + 1 := by unfold off; omega
    have hlt := List.idxOf_lt_length_iff.2 hm
    refine ⟨m, p.1, p.2 + 1, by simp [stopAt, hb, h1, h2, h3], hm1, by omega, by omega, ?_, ?_⟩
    · simp [used, hm4, ho]
    · rw [ho, ← hm4]; omega

theorem single_Tells {i : Infra} (hs : Sorted i.routes) {t : Train} {ir : IR} (h : Proper i.routes ir) {p q : Nat × Nat}
    (hp : t.breakIn = false → (∃ sp, t.points.head? = some sp ∧ sp.sr = p.1 ∧ sp.nodeIdx i t.freight = some p.2) ∧
      p ∈ positions i.routes ir)
    (hq : t.breakOut = false → (∃ sp, t.points.getLast? = some sp ∧ sp.sr = q.1 ∧ sp.nodeIdx i t.freight = some q.2) ∧
      q ∈ positions i.routes ir)
    (ho : t.breakIn = false → t.breakOut = false → (positions i.routes ir).idxOf p ≤ (positions i.routes ir).idxOf q) :
    Tells ((startAt i t ir).bind fun p => (stopAt i t ir).bind fun q => ir.fromTo i.routes p.1 p.2 q.1 q.2)
      ((((positions i.routes ir).take (used i.routes t.breakOut q ir)).drop (before i.routes t.breakIn p ir)).map
        (shownAt i.routes)) := by
  obtain ⟨m, s, a, e1, m1, m2, m3, m4, m5⟩ := start_cut h p hp
  obtain ⟨n, u, b, f1, n1, n2, n3, n4, n5⟩ := stop_cut h q hq
  rw [e1, f1, ← m4, ← n4]
  simp only [Option.bind_some]
  have hlt : off i.routes ir m a < off i.routes ir n b := by
    rw [m4, n4] at *
    unfold used before at *
    cases hbi : t.breakIn <;> cases hbo : t.breakOut <;> simp [hbi, hbo] at *
    · have := ho; omega
    · omega
    · omega
  refine cut_Tells hs ir h.valid h.nodup m1 n1 m2 m3 (by omega) n3 ?_
  rcases Nat.lt_trichotomy m n with c | c | c
  · exact .inl c
  · subst c
    have : off i.routes ir m a < off i.routes ir m b := hlt
    unfold off at this
    exact .inr ⟨rfl, by omega⟩
  · have := off_lt (infra := i.routes) (a := a) n1 n3 c
    omega

theorem firstPart_Tells {i : Infra} (hs : Sorted i.routes) {t : Train} {ir : IR} (h : Proper i.routes ir) {p : Nat × Nat}
    (hp : t.breakIn = false → (∃ sp, t.points.head? = some sp ∧ sp.sr = p.1 ∧ sp.nodeIdx i t.freight = some p.2) ∧
      p ∈ positions i.routes ir) :
    Tells (firstPart i t ir) (((positions i.routes ir).drop (before i.routes t.breakIn p ir)).map (shownAt i.routes)) := by
  obtain ⟨m, s, a, e1, m1, m2, m3, m4, m5⟩ := start_cut h p hp
  unfold firstPart
  cases hb : t.breakIn with
  | true => simpa [before] using iterate_Tells hs ir h.valid
  | false =>
    rw [hb] at m4
    rw [← m4, e1]
    simpa using from_cut hs h m1 m2 m3

theorem tail_Tells {i : Infra} (hs : Sorted i.routes) {ir : IR} (h : Proper i.routes ir) {s : Nat} (hf : ir.srs.head? = some s) :
    Tells (ir.from_ i.routes s (ir.start + 1)) ((positions i.routes ir).tail.map (shownAt i.routes)) := by
  have hm : ir.srs[0]? = some s := by rw [← List.head?_eq_getElem?]; exact hf
  have := from_cut hs h hm (a := ir.start + 1) (by simp [lo]) (bounds_first h hf)
  rw [off_start, show ir.start + 1 - ir.start = 1 by omega, List.drop_one] at this
  exact this

theorem middle_Tells {i : Infra} (hs : Sorted i.routes) (irs : List IR) (h : ∀ ir ∈ irs, Proper i.routes ir) :
    Tells (middle i irs) ((irs.flatMap fun r => (positions i.routes r).tail).map (shownAt i.routes)) := by
  induction irs with
  | nil => exact ⟨[], rfl, rfl⟩
  | cons ir irs ih =>
    rw [middle, List.flatMap_cons, List.map_append]
    refine Tells.app ?_ (ih fun r hr => h r (by simp [hr]))
    obtain ⟨f, hf, _⟩ := head_some (h ir (by simp))
    rw [hf]
    exact tail_Tells hs (h ir (by simp)) hf

theorem lastPart_Tells {i : Infra} (hs : Sorted i.routes) {t : Train} {ir : IR} (h : Proper i.routes ir) {q : Nat × Nat}
    (hq : t.breakOut = false → (∃ sp, t.points.getLast? = some sp ∧ sp.sr = q.1 ∧ sp.nodeIdx i t.freight = some q.2) ∧
      q ∈ positions i.routes ir) :
    Tells (lastPart i t ir) ((((positions i.routes ir).take (used i.routes t.breakOut q ir)).tail).map (shownAt i.routes)) := by
  obtain ⟨n, u, b, f1, n1, n2, n3, n4, n5⟩ := stop_cut h q hq
  obtain ⟨f, hf, hf'⟩ := head_some h
  unfold lastPart
  rw [hf, Option.bind_some]
  cases hb : t.breakOut with
  | true => simpa [used] using tail_Tells hs h hf
  | false =>
    rw [hb] at n4
    rw [← n4, f1]
    simp only [Option.bind_some, Bool.false_eq_true, if_false]
    have := cut_Tells hs ir h.valid h.nodup (a := ir.start + 1) hf' n1 (by simp [lo]) (bounds_first h hf) (by omega) n3
      (by
        by_cases c : 0 < n
        · exact .inl c
        · have : n = 0 := by omega
          subst this
          simp [lo] at n2
          exact .inr ⟨rfl, by omega⟩)
    rw [off_start, show ir.start + 1 - ir.start = 1 by omega, List.drop_one] at this
    exact this

theorem used_le {infra : List SRoute} {bo : Bool} {q : Nat × Nat} {ir : IR} (h : Proper infra ir)
    (hq : bo = false → q ∈ positions infra ir) : 1 ≤ used infra bo q ir ∧ used infra bo q ir ≤ (positions infra ir).length := by
  have hpos : 0 < (positions infra ir).length := by
    have := off_end h
    have h2 := bounds_last h
    unfold off at this
    omega
  unfold used
  cases bo with
  | true => simp; omega
  | false => have := List.idxOf_lt_length_iff.2 (hq rfl); simp; omega

theorem upTo_used {infra : List SRoute} {bo : Bool} {q : Nat × Nat} {ir : IR} {path : List IR} :
    upTo infra bo q path ir = (joined infra path).length - ((positions infra ir).length - used infra bo q ir) := by
  unfold upTo used
  cases bo <;> simp

theorem join_lists {α : Type} (A M L : List α) (k e : Nat) (hk : k ≤ A.length) (he : 1 ≤ e) (he' : e ≤ L.length) :
    ((A ++ (M ++ L.tail)).take ((A ++ (M ++ L.tail)).length - (L.length - e))).drop k =
      A.drop k ++ (M ++ (L.take e).tail) := by
  cases L with
  | nil => simp at he'; omega
  | cons x L =>
    cases e with
    | zero => omega
    | succ e =>
      simp only [List.length_cons, List.tail_cons, List.take_succ_cons] at *
      have : (A ++ (M ++ L)).length - (L.length + 1 - (e + 1)) = A.length + (M.length + e) := by
        simp only [List.length_append]; omega
      rw [this, List.take_length_add_append, List.take_length_add_append, List.drop_append_of_le_length hk]

/-- the nodes a train visits -/
theorem iterateTrain_Tells {i : Infra} (hs : Sorted i.routes) (t : Train) (first last : IR) (p q : Nat × Nat)
    (hf : t.path.head? = some first) (hl : t.path.getLast? = some last) (hpr : ∀ ir ∈ t.path, Proper i.routes ir)
    (hp : t.breakIn = false → (∃ sp, t.points.head? = some sp ∧ sp.sr = p.1 ∧ sp.nodeIdx i t.freight = some p.2) ∧
      p ∈ positions i.routes first)
    (hq : t.breakOut = false → (∃ sp, t.points.getLast? = some sp ∧ sp.sr = q.1 ∧ sp.nodeIdx i t.freight = some q.2) ∧
      q ∈ positions i.routes last)
    (ho : t.path.length = 1 → t.breakIn = false → t.breakOut = false →
      (positions i.routes first).idxOf p ≤ (positions i.routes first).idxOf q) :
    Tells (iterateTrain i t)
      ((((joined i.routes t.path).take (upTo i.routes t.breakOut q t.path last)).drop
        (before i.routes t.breakIn p first)).map (shownAt i.routes)) := by
  unfold iterateTrain
  match hpath : t.path with
  | [] => rw [hpath] at hf; simp at hf
  | [ir] =>
    rw [hpath] at hf hl hpr ho
    simp at hf hl; subst hf; subst hl
    have h := hpr ir (by simp)
    have := single_Tells hs h hp hq (by simpa using ho)
    have hu := (used_le (infra := i.routes) h fun hb => (hq hb).2).2
    have he : (joined i.routes [ir]) = positions i.routes ir := by simp [joined]
    rw [upTo_used, he, show (positions i.routes ir).length - ((positions i.routes ir).length - used i.routes t.breakOut q ir) =
      used i.routes t.breakOut q ir by omega]
    exact this
  | ir :: r :: rest =>
    rw [hpath] at hf hl hpr
    simp only [List.head?_cons, Option.some.injEq] at hf
    subst hf
    have hlast : (r :: rest).getLast? = some last := by
      rw [← hl]
      rw [List.getLast?_cons_cons]
    have hdec : r :: rest = (r :: rest).dropLast ++ [last] := by
      rw [List.getLast?_eq_some_getLast (by simp)] at hlast
      injection hlast with e
      rw [← e, List.dropLast_concat_getLast]
    have hlm : last ∈ ir :: r :: rest := List.mem_of_getLast? hl
    have h1 := firstPart_Tells hs (hpr ir (by simp)) hp
    have h2 := middle_Tells hs (r :: rest).dropLast (fun x hx => hpr x (List.mem_cons_of_mem _ (List.dropLast_subset _ hx)))
    have h3 := lastPart_Tells hs (hpr last hlm) hq
    have hj : joined i.routes (ir :: r :: rest) = positions i.routes ir ++
        (((r :: rest).dropLast.flatMap fun r => (positions i.routes r).tail) ++ (positions i.routes last).tail) := by
      rw [joined, hdec, List.flatMap_append]
      simp
    have hb : before i.routes t.breakIn p ir ≤ (positions i.routes ir).length := by
      unfold before
      split
      · omega
      · exact List.idxOf_le_length
    obtain ⟨u1, u2⟩ := used_le (infra := i.routes) (hpr last hlm) fun hb => (hq hb).2
    rw [upTo_used, hj, join_lists _ _ _ _ _ hb u1 u2, List.map_append, List.map_append]
    simp only
    rw [hlast, Option.bind_some]
    exact Tells.app h1 (Tells.app h2 h3)

/-! ### attaching sequence points -/

theorem attach_some {f : SPoint → Option Nat} (ps : List SPoint) (rns : List RNode) (k : Nat)
    (h : ∀ p ∈ ps, ∃ n, f p = some n) : ∃ l, attach f k ps rns = some l := by
  induction rns generalizing k ps with
  | nil => cases ps <;> simp [attach]
  | cons rn rns ih =>
    cases ps with
    | nil => simp [attach]
    | cons p ps =>
      obtain ⟨n, hn⟩ := h p (by simp)
      simp only [attach, hn, Option.bind_some]
      split
      · obtain ⟨l, hl⟩ := ih ps (k + 1) fun x hx => h x (by simp [hx])
        simp [hl]
      · obtain ⟨l, hl⟩ := ih (p :: ps) k h
        simp [hl]

theorem attach_fst {f : SPoint → Option Nat} (ps : List SPoint) (rns : List RNode) (k : Nat) {l : List (RNode × Option Nat)}
    (h : attach f k ps rns = some l) : l.map (·.1) = rns := by
  induction rns generalizing k ps l with
  | nil => cases ps <;> simp [attach] at h <;> simp [h]
  | cons rn rns ih =>
    cases ps with
    | nil => simp only [attach, Option.some.injEq] at h; subst h; simp [Function.comp_def]
    | cons p ps =>
      simp only [attach] at h
      cases hp : f p with
      | none => simp [hp] at h
      | some n =>
        simp only [hp, Option.bind_some] at h
        split at h
        · obtain ⟨l', h1, rfl⟩ := Option.map_eq_some_iff.1 h
          simp [ih ps (k + 1) h1]
        · obtain ⟨l', h1, rfl⟩ := Option.map_eq_some_iff.1 h
          simp [ih (p :: ps) k h1]

theorem attach_range {f : SPoint → Option Nat} (ps : List SPoint) (rns : List RNode) (k : Nat) {l : List (RNode × Option Nat)}
    (h : attach f k ps rns = some l) : ∃ j ≤ ps.length, l.filterMap (·.2) = List.range' k j := by
  induction rns generalizing k ps l with
  | nil => cases ps <;> simp [attach] at h <;> exact ⟨0, by simp, by simp [h]⟩
  | cons rn rns ih =>
    cases ps with
    | nil =>
      simp only [attach, Option.some.injEq] at h; subst h
      exact ⟨0, by simp, by simp⟩
    | cons p ps =>
      simp only [attach] at h
      cases hp : f p with
      | none => simp [hp] at h
      | some n =>
        simp only [hp, Option.bind_some] at h
        split at h
        · obtain ⟨l', h1, rfl⟩ := Option.map_eq_some_iff.1 h
          obtain ⟨j, hj, e⟩ := ih ps (k + 1) h1
          exact ⟨j + 1, by simp; omega, by simp [e, List.range'_succ]⟩
        · obtain ⟨l', h1, rfl⟩ := Option.map_eq_some_iff.1 h
          obtain ⟨j, hj, e⟩ := ih (p :: ps) k h1
          exact ⟨j, hj, by simp [e]⟩

/-- the longest prefix of the sequence points whose nodes are visited in order is attached -/
theorem attach_count {f : SPoint → Option Nat} (ps : List SPoint) (rns : List RNode) (k : Nat) {l : List (RNode × Option Nat)}
    (h : attach f k ps rns = some l) (j : Nat) (hj : j ≤ ps.length) :
    j ≤ (l.filterMap (·.2)).length ↔ ((ps.take j).map f).Sublist (rns.map fun rn => some rn.node) := by
  induction rns generalizing k ps l j with
  | nil =>
    cases ps with
    | nil => simp at hj; subst hj; simp
    | cons p ps =>
      simp [attach] at h; subst h
      cases j <;> simp
  | cons rn rns ih =>
    cases ps with
    | nil => simp at hj; subst hj; simp
    | cons p ps =>
      simp only [attach] at h
      cases hp : f p with
      | none => simp [hp] at h
      | some n =>
        simp only [hp, Option.bind_some] at h
        split at h
        · rename_i hn
          obtain ⟨l', h1, rfl⟩ := Option.map_eq_some_iff.1 h
          cases j with
          | zero => simp
          | succ j =>
            have := ih ps (k + 1) h1 j (by simpa using hj)
            simp only [List.filterMap_cons, List.length_cons, Nat.add_le_add_iff_right, List.take_succ_cons, List.map_cons, hp, hn]
            rw [this, List.cons_sublist_cons]
        · rename_i hn
          obtain ⟨l', h1, rfl⟩ := Option.map_eq_some_iff.1 h
          have := ih (p :: ps) k h1 j hj
          cases j with
          | zero => simp
          | succ j =>
            simp only [List.filterMap_cons]
            rw [this]
            simp only [List.take_succ_cons, List.map_cons, hp]
            constructor
            · exact fun h => h.cons _
            · intro h
              cases h with
              | cons _ h => exact h
              | cons_cons _ h => exact absurd rfl hn

/-- exactly which node gets which sequence point -/
theorem attach_at {f : SPoint → Option Nat} (ps : List SPoint) (rns : List RNode) (k : Nat) {l : List (RNode × Option Nat)}
    (h : attach f k ps rns = some l) (a : Nat) (x : RNode × Option Nat) (hx : l[a]? = some x) :
    x.2 = if ps[((l.take a).filterMap (·.2)).length]?.bind f = some x.1.node
      then some (k + ((l.take a).filterMap (·.2)).length) else none := by
  induction rns generalizing k ps l a with
  | nil => cases ps <;> simp [attach] at h <;> subst h <;> simp at hx
  | cons rn rns ih =>
    cases ps with
    | nil =>
      simp only [attach, Option.some.injEq] at h; subst h
      rw [List.getElem?_map] at hx
      obtain ⟨y, _, rfl⟩ := Option.map_eq_some_iff.1 hx
      simp
    | cons p ps =>
      simp only [attach] at h
      cases hp : f p with
      | none => simp [hp] at h
      | some n =>
        simp only [hp, Option.bind_some] at h
        split at h
        · rename_i hn
          obtain ⟨l', h1, rfl⟩ := Option.map_eq_some_iff.1 h
          cases a with
          | zero => simp at hx; subst hx; simp [hp, hn]
          | succ a =>
            have := ih ps (k + 1) h1 a (by simpa using hx)
            rw [this]
            simp only [List.take_succ_cons, List.filterMap_cons, List.length_cons, List.getElem?_cons_succ]
            rw [Nat.add_assoc, Nat.add_comm 1]
            congr
        · rename_i hn
          obtain ⟨l', h1, rfl⟩ := Option.map_eq_some_iff.1 h
          cases a with
          | zero => simp at hx; subst hx; simp [hp, hn]
          | succ a =>
            have := ih (p :: ps) k h1 a (by simpa using hx)
            rw [this]
            simp only [List.take_succ_cons, List.filterMap_cons]
            congr

/-! ### no gap between the routes -/

theorem chain_tail {α : Type} {R : α → α → Prop} {A B : List α} (hA : A.IsChain R) (hB : B.IsChain R) {z : α}
    (h1 : A.getLast? = some z) (h2 : B.head? = some z) : (A ++ B.tail).IsChain R ∧ (A ++ B.tail).getLast? = B.getLast? := by
  cases B with
  | nil => simp at h2
  | cons y B =>
    simp only [List.head?_cons, Option.some.injEq] at h2
    subst h2
    constructor
    · rw [List.tail_cons, List.isChain_append]
      refine ⟨hA, hB.tail, ?_⟩
      intro x hx w hw
      rw [h1] at hx
      simp at hx
      subst hx
      cases B with
      | nil => simp at hw
      | cons v B =>
        simp at hw
        subst hw
        exact (List.isChain_cons_cons.1 hB).1
    · rw [List.tail_cons]
      cases B with
      | nil => simp [h1]
      | cons v B => rw [List.getLast?_append_of_ne_nil _ (by simp), List.getLast?_cons_cons]

theorem chain_join {α β : Type} {R : α → α → Prop} (N : β → List α) (irs : List β) (A : List α) (hA : A.IsChain R)
    (hN : ∀ r ∈ irs, (N r).IsChain R) (first : β) (hAl : A.getLast? = (N first).getLast?)
    (hl : (first :: irs).IsChain fun a b => ∃ z, (N a).getLast? = some z ∧ (N b).head? = some z) :
    (A ++ irs.flatMap fun r => (N r).tail).IsChain R := by
  induction irs generalizing A first with
  | nil => simpa using hA
  | cons r irs ih =>
    obtain ⟨⟨z, e1, e2⟩, hl'⟩ := List.isChain_cons_cons.1 hl
    have := chain_tail hA (hN r (by simp)) (hAl.trans e1) e2
    rw [List.flatMap_cons, ← List.append_assoc]
    exact ih _ this.1 (fun x hx => hN x (by simp [hx])) r this.2 hl'

theorem positions_head {infra : List SRoute} {ir : IR} (h : Proper infra ir) {f : Nat} (hf : ir.srs.head? = some f) :
    (positions infra ir).head? = some (f, ir.start) := by
  have h0 : ir.srs[0]? = some f := by rw [← List.head?_eq_getElem?]; exact hf
  obtain ⟨e1, l1⟩ := split_at h0
  rw [positions_split infra ir _ _ _ e1]
  have hb := bounds_first h hf
  simp only [List.take_zero, List.zipIdx_nil, List.flatMap_nil, List.nil_append, List.length_nil, blk]
  unfold span
  rw [show lo ir 0 = ir.start from rfl, show hi infra ir 0 f - ir.start = (hi infra ir 0 f - (ir.start + 1)) + 1 by omega,
    List.range'_succ]
  rfl

theorem positions_last {infra : List SRoute} {ir : IR} (h : Proper infra ir) {l : Nat} (hl : ir.srs.getLast? = some l) :
    (positions infra ir).getLast? = some (l, ir.stop - 1) := by
  have h0 : ir.srs[ir.srs.length - 1]? = some l := by rw [← List.getLast?_eq_getElem?]; exact hl
  obtain ⟨e1, l1⟩ := split_at h0
  rw [positions_split infra ir _ _ _ e1]
  have hlt := (List.getElem?_eq_some_iff.1 h0).1
  have hb := bounds_last h
  rw [List.drop_eq_nil_of_le (by omega)]
  simp only [List.zipIdx_nil, List.flatMap_nil, List.append_nil, l1, blk, hi_last h]
  generalize lo ir (ir.srs.length - 1) = a at *
  rw [← span_append l (a := a) (b := ir.stop - 1) (c := ir.stop) (by omega) (by omega), ← List.append_assoc]
  rw [List.getLast?_append_of_ne_nil]
  · unfold span
    rw [show ir.stop - (ir.stop - 1) = 1 by omega]
    rfl
  · unfold span
    rw [show ir.stop - (ir.stop - 1) = 1 by omega]
    simp [List.range']

theorem joined_length {infra : List SRoute} (first last : IR) (path : List IR) (hf : path.head? = some first)
    (hl : path.getLast? = some last) (h2 : path.length ≠ 1) :
    (positions infra first).length + ((positions infra last).length - 1) ≤ (joined infra path).length := by
  match path with
  | [] => simp at hf
  | [_] => simp at h2
  | ir :: r :: rest =>
    simp only [List.head?_cons, Option.some.injEq] at hf
    subst hf
    have hlast : (r :: rest).getLast? = some last := by rw [← hl, List.getLast?_cons_cons]
    have hdec : r :: rest = (r :: rest).dropLast ++ [last] := by
      rw [List.getLast?_eq_some_getLast (by simp)] at hlast
      injection hlast with e
      rw [← e, List.dropLast_concat_getLast]
    rw [joined, hdec, List.flatMap_append]
    simp

theorem nodeIdx_iff (i : Infra) (freight : Bool) (sp : SPoint) (idx : Nat) :
    sp.nodeIdx i freight = some idx ↔ StandsAt i freight sp idx := by
  unfold SPoint.nodeIdx SPoint.hasTransitTime SPoint.isHalt Stops.haltIdx
  constructor
  · intro h
    cases hs : i.stops[sp.sr]? with
    | none => simp [hs] at h
    | some s =>
      rw [hs, Option.bind_some] at h
      by_cases ht : sp.ty = .transit
      · by_cases hd : sp.hasDeparture = true
        · exact .checkpoint s hs ht hd (by simpa [ht, hd] using h)
        · simp [ht, hd] at h
      · cases freight
        · exact .passengerHalt s hs ht rfl (by simpa [ht] using h)
        · exact .freightHalt s hs ht rfl (by simpa [ht] using h)
  · rintro (⟨s, hs, hh, hf, h⟩ | ⟨s, hs, hh, hf, h⟩ | ⟨s, hs, hh, hd, h⟩)
    · simp [hs, hh, hf, h]
    · simp [hs, hh, hf, h]
    · simp [hs, hh, hd, h]

theorem node_iff (i : Infra) (freight : Bool) (sp : SPoint) (n : Nat) :
    sp.node i freight = some n ↔ ∃ idx, StandsAt i freight sp idx ∧ nodeAt i.routes (sp.sr, idx) = some n := by
  unfold SPoint.node nodeAt
  rw [Option.bind_eq_some_iff]
  simp only [nodeIdx_iff]

end Soro.Train
