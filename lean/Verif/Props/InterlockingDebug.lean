import Verif.Proof.InterlockingDebug
import Verif.Props.InterlockingWhole
import Verif.Props.StationRoute

/-! Property C175: the assertions of interlocking routes. -/

namespace Soro.Interlocking
open Dbg Route Route.Spec Interlocking.Spec

/-- C175. No assertion stops the creation of the interlocking, and the result is that of the release build. -/
theorem C175_create (p : Plan) : ¬ Stops (getInterlockingD p) ∧
    ∀ w, getInterlocking p = some w → SameAs (getInterlockingD p) (getInterlocking p) := by
  rw [getInterlockingD_ok]
  refine ⟨?_, fun w h => ⟨w, h, by rw [h]; rfl⟩⟩
  rintro ⟨line, h⟩
  cases hg : getInterlocking p <;> rw [hg] at h <;> cases h

theorem ends {l : List Nat} (h : 1 < l.length) : ∃ a b, l.head? = some a ∧ l.getLast? = some b ∧ l[0]? = some a ∧
    l[l.length - 1]? = some b := by
  refine ⟨l[0], l[l.length - 1], ?_, ?_, ?_, ?_⟩
  · rw [List.head?_eq_getElem?]; exact List.getElem?_eq_getElem (by omega)
  · rw [List.getLast?_eq_getElem?]; exact List.getElem?_eq_getElem (by omega)
  · exact List.getElem?_eq_getElem (by omega)
  · exact List.getElem?_eq_getElem (by omega)

/-- C175. Iterating an interlocking route is the same in both builds if it has one station route only or begins and ends on
different ones, and is stopped by an assertion if it comes back to the station route where it begins. -/
theorem C175_iterate (infra : List SRoute) (hs : ∀ r ∈ infra, r.omitted.Pairwise (· < ·)) (hsmall : Small infra) (ir : IR)
    (hv : Valid infra ir) :
    (ir.srs.length = 1 ∨ ir.srs.head? ≠ ir.srs.getLast? → SameAs (ir.iterateD infra) (ir.iterate infra)) ∧
    (¬ (ir.srs.length = 1 ∨ ir.srs.head? ≠ ir.srs.getLast?) → Stops (ir.iterateD infra)) := by
  obtain ⟨l, hl, -⟩ := C38_iterate infra hs ir hv
  by_cases h1 : ir.srs.length = 1
  · refine ⟨fun _ => ⟨l, hl, ?_⟩, fun h => absurd (.inl h1) h⟩
    obtain ⟨s, hsr⟩ := List.length_eq_one_iff.1 h1
    have hk := hv.known s (by simp [hsr])
    unfold IR.iterate at hl
    unfold IR.iterateD
    rw [hsr] at hl ⊢
    simp only [List.getElem?_eq_getElem hk, Option.bind_some] at hl
    simp only [List.getElem?_eq_getElem hk, lift, ok_bind]
    rw [fromToD_ok (small_get hsmall (List.getElem?_eq_getElem hk)) (hv.single h1), hl]; rfl
  · have hlen : 1 < ir.srs.length := by
      have := List.length_pos_iff.2 hv.nonempty
      omega
    obtain ⟨a, b, ha, hb, ha', hb'⟩ := ends hlen
    rw [iterateD_srs ir infra hlen]
    constructor
    · intro h
      have hne : a ≠ b := by
        rintro rfl
        rcases h with h | h
        · exact h1 h
        · exact h (by rw [ha, hb])
      have hk := hv.known a (List.mem_of_getElem? ha')
      refine ⟨l, hl, ?_⟩
      rw [detailFromToD_ok hsmall ir (by omega) ha' hb' hne (List.getElem?_eq_getElem hk)
        (hv.start a _ ha (List.getElem?_eq_getElem hk)), ← iterate_srs ir infra hlen, hl]
      rfl
    · intro h
      have he : a = b := Classical.not_not.1 fun hne => h (.inr (by rw [ha, hb]; simpa using hne))
      refine ⟨148, ?_⟩
      unfold IR.detailFromToD
      rw [check_pos hlen, ok_bind, check_pos (by omega), ok_bind, check_pos (by omega), ok_bind, check_pos (by omega),
        ok_bind, check_neg (by rw [ha', hb', he]; simp)]
      rfl

example : (∀ r ∈ exInfra, r.omitted.Pairwise (· < ·)) ∧ Small exInfra ∧ Valid exInfra exIR ∧
    exIR.srs.head? ≠ exIR.srs.getLast? := ⟨by decide, by unfold Small; decide, exIR_valid, by decide⟩

/-- C175. Iterating a part of an interlocking route with one station route: the same in both builds if both station routes asked
for are equal and the second position is not before the first, whichever station route was asked for; stopped by an assertion
otherwise. -/
theorem C175_part_one (infra : List SRoute) (hs : ∀ r ∈ infra, r.omitted.Pairwise (· < ·)) (hsmall : Small infra) (ir : IR)
    (s : Nat) (r : SRoute) (hir : ir.srs = [s]) (hr : infra[s]? = some r) (x y frm to : Nat) (hto : to ≤ r.nodes.length) :
    (x = y ∧ frm ≤ to → SameAs (ir.fromToD infra x frm y to) (ir.fromTo infra x frm y to)) ∧
    (¬ (x = y ∧ frm ≤ to) → Stops (ir.fromToD infra x frm y to)) := by
  unfold IR.fromToD IR.fromTo
  rw [hir]
  simp only [hr, Option.bind_some]
  constructor
  · rintro ⟨h1, h2⟩
    rw [check_pos h1, ok_bind, lift, ok_bind, fromToD_ok (small_get hsmall hr) h2]
    obtain ⟨l, hl, -⟩ := fromTo_told r (hs r (List.mem_of_getElem? hr)) frm to (by omega) hto
    exact ⟨l, hl, by rw [hl]; rfl⟩
  · intro h
    by_cases h1 : x = y
    · rw [check_pos h1, ok_bind, lift, ok_bind]
      refine ⟨150, ?_⟩
      unfold SRoute.fromToD
      rw [check_neg (fun h2 => h ⟨h1, h2⟩)]; rfl
    · rw [check_neg h1]
      exact ⟨170, rfl⟩

example : (∀ r ∈ exInfra, r.omitted.Pairwise (· < ·)) ∧ Small exInfra ∧ (IR.mk 0 2 [1]).srs = [1] ∧
    exInfra[1]? = some ⟨[20, 21], [], []⟩ := ⟨by decide, by unfold Small; decide, rfl, rfl⟩

/-- C175. Iterating a part of an interlocking route without repeated station routes: the same in both builds from any position to
one that is not before it, and stopped by an assertion if a station route is not part of the route, the second station route is
before the first, or the second position is before the first on the same station route. -/
theorem C175_part (infra : List SRoute) (hs : ∀ r ∈ infra, r.omitted.Pairwise (· < ·)) (hsmall : Small infra) (ir : IR)
    (hv : Valid infra ir) (hn : ir.srs.Nodup) (hlen : 1 < ir.srs.length) (x y frm to : Nat) :
    (∀ (m n : Nat) (f t : SRoute), ir.srs[m]? = some x → ir.srs[n]? = some y → infra[x]? = some f → infra[y]? = some t →
      frm ≤ f.nodes.length → to ≤ t.nodes.length →
      (m < n ∨ m = n ∧ frm ≤ to → SameAs (ir.fromToD infra x frm y to) (ir.fromTo infra x frm y to)) ∧
      (¬ (m < n ∨ m = n ∧ frm ≤ to) → Stops (ir.fromToD infra x frm y to))) ∧
    (¬ (x ∈ ir.srs ∧ y ∈ ir.srs) → Stops (ir.fromToD infra x frm y to)) := by
  rw [fromToD_srs ir infra hlen]
  refine ⟨?_, ?_⟩
  · intro m n f t hm hn' hf ht hfrm hto
    have em := findIdx_eq ir.srs hn m x hm
    have en := findIdx_eq ir.srs hn n y hn'
    obtain ⟨hm', -⟩ := List.getElem?_eq_some_iff.1 hm
    obtain ⟨hn'', -⟩ := List.getElem?_eq_some_iff.1 hn'
    rw [fromTo_srs ir infra hlen em en hm hn', em, en, check_pos hm', ok_bind, check_pos hn'', ok_bind]
    have hinj : x = y ↔ m = n := by
      constructor
      · rintro rfl; rw [← em, ← en]
      · rintro rfl; rw [hm] at hn'; exact Option.some.inj hn'
    constructor
    · intro h
      rw [check_pos (by omega), ok_bind]
      unfold IR.betweenD
      rw [hm, hn']
      by_cases he : m = n
      · have hxy := hinj.2 he
        subst hxy
        rw [hf] at ht; cases ht
        rw [if_pos rfl, if_pos rfl]
        simp only [hf, Option.bind_some, lift, ok_bind]
        rw [fromToD_ok (small_get hsmall hf) (by omega)]
        obtain ⟨l, hl, -⟩ := fromTo_told f (hs f (List.mem_of_getElem? hf)) frm to (by omega) hto
        exact ⟨l, hl, by rw [hl]; rfl⟩
      · have hxy : ¬ x = y := fun h => he (hinj.1 h)
        rw [if_neg (by simpa using hxy), if_neg hxy, detailFromToD_ok hsmall ir (by omega) hm hn' hxy hf hfrm]
        have hl : ∃ l, ir.detailFromTo infra m frm n to = some l := by
          unfold IR.detailFromTo
          rw [if_neg (by omega), hm, hn']
          simp only [Option.bind_some, hf, ht]
          obtain ⟨l1, h1, -⟩ := fromTo_told f (hs f (List.mem_of_getElem? hf)) frm f.size hfrm (Nat.le_refl _)
          obtain ⟨l3, h3, -⟩ := fromTo_told t (hs t (List.mem_of_getElem? ht)) 0 to (by omega) hto
          have hmid : ∀ ss : List Nat, (∀ s ∈ ss, s < infra.length) → ∃ l, iterAll infra ss = some l := by
            intro ss
            induction ss with
            | nil => intro _; exact ⟨[], rfl⟩
            | cons s ss ih =>
              intro hk
              obtain ⟨l, hl⟩ := ih fun t ht => hk t (by simp [ht])
              have hks := hk s (by simp)
              obtain ⟨l', hl', -⟩ := fromTo_told infra[s] (hs _ (List.getElem_mem hks)) 0 infra[s].size (by omega)
                (Nat.le_refl _)
              refine ⟨l' ++ l, ?_⟩
              unfold iterAll
              rw [List.getElem?_eq_getElem hks, Option.bind_some, SRoute.iterate, hl', hl]
              rfl
          obtain ⟨l2, h2⟩ := hmid ((ir.srs.take n).drop (m + 1)) fun s h =>
            hv.known s (List.mem_of_mem_take (List.mem_of_mem_drop h))
          unfold SRoute.from_ SRoute.to
          rw [h1, h2, h3]
          exact ⟨_, rfl⟩
        obtain ⟨l, hl⟩ := hl
        exact ⟨l, hl, by rw [hl]; rfl⟩
    · intro h
      by_cases hle : m ≤ n
      · obtain rfl : m = n := by omega
        obtain rfl := hinj.2 rfl
        refine ⟨150, ?_⟩
        rw [check_pos hle, ok_bind]
        unfold IR.betweenD
        rw [if_pos rfl, hm]
        simp only [hf, Option.bind_some, lift, ok_bind]
        unfold SRoute.fromToD
        rw [check_neg (by omega)]; rfl
      · exact ⟨189, by rw [check_neg hle]; rfl⟩
  · intro h
    by_cases hx : x ∈ ir.srs
    · have hy : y ∉ ir.srs := fun hy => h ⟨hx, hy⟩
      have h1 : ir.srs.findIdx (fun z => decide (z = x)) < ir.srs.length :=
        List.findIdx_lt_length_of_exists ⟨x, hx, by simp⟩
      refine ⟨185, ?_⟩
      rw [check_pos h1, ok_bind, check_neg (fun hc => ?_)]
      · rfl
      · have := List.findIdx_getElem (w := hc)
        simp only [decide_eq_true_eq] at this
        exact hy (this ▸ List.getElem_mem hc)
    · refine ⟨181, ?_⟩
      rw [check_neg (fun hc => ?_)]
      · rfl
      · have := List.findIdx_getElem (w := hc)
        simp only [decide_eq_true_eq] at this
        exact hx (this ▸ List.getElem_mem hc)

example : exIR.srs.Nodup ∧ 1 < exIR.srs.length ∧ exIR.srs[0]? = some 0 ∧ exIR.srs[2]? = some 2 ∧ 7 ∉ exIR.srs := by decide

/-- C175. Where station routes cannot be followed in a circle, every generated route is iterated in the debug build as in the
release build. -/
theorem C175_generated (infra : List SRoute) (hs : ∀ r ∈ infra, r.omitted.Pairwise (· < ·)) (hsmall : Small infra)
    (infos : List Info) (g : SRG) (hw : WellFormed infra infos g) (ha : Acyclic g.succ) (l : List IR)
    (h : getRoutes infos g = some l) (ir : IR) (hir : ir ∈ l) : SameAs (ir.iterateD infra) (ir.iterate infra) := by
  have hsr := (C37_sound infra infos g hw l h ir hir).1
  refine (C175_iterate infra hs hsmall ir (signalRoute_valid hw hsr).1).1 ?_
  by_cases h1 : ir.srs.length = 1
  · exact .inl h1
  · refine .inr fun he => ?_
    obtain ⟨f, rest, e, -, hf⟩ := hsr.chain
    rw [e] at he h1
    rw [List.head?_cons] at he
    have hwalk := hf.walk he.symm
    cases rest with
    | nil => simp at h1
    | cons b rest => exact ha f ⟨_, hwalk⟩

example : (∀ r ∈ exPlan.srs, r.omitted.Pairwise (· < ·)) ∧ Small exPlan.srs ∧
    WellFormed exPlan.srs exPlan.infos exPlan.graph ∧ Acyclic exPlan.graph.succ ∧
    (getRoutes exPlan.infos exPlan.graph).map List.length = some 3 :=
  ⟨by decide, by unfold Small; decide, exPlan_consistent.wf, exPlan_consistent.acyclic, by decide +kernel⟩

/-- a circle: a station route with a signal, one without, and the first again -/
def exCircle : List SRoute := [⟨[0, 1, 2], [], []⟩, ⟨[3, 4], [], []⟩]
def exCircleInfos : List Info := [⟨3, [1], false⟩, ⟨2, [], false⟩]
def exCircleGraph : SRG := ⟨[[1], [0]], [[1], [0]]⟩

/-- C175, in a circle: the only generated route begins and ends at the signal; the release build iterates it, the debug build is
stopped. -/
theorem C175_circle : WellFormed exCircle exCircleInfos exCircleGraph ∧
    getRoutes exCircleInfos exCircleGraph = some [⟨1, 2, [0, 1, 0]⟩] ∧
    ((IR.mk 1 2 [0, 1, 0]).iterate exCircle).map (·.map (·.node)) = some [1, 2, 3, 4, 0, 1] ∧
    Stops ((IR.mk 1 2 [0, 1, 0]).iterateD exCircle) :=
  ⟨⟨by decide, by decide, by decide, by decide, by decide, by decide⟩, by decide +kernel, by decide +kernel,
    ⟨148, rfl⟩⟩

end Soro.Interlocking
