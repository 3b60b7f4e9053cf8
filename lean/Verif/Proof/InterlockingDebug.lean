import Verif.Model.InterlockingDebug
import Verif.Proof.Debug
import Verif.Proof.Interlocking
import Verif.Proof.Algo
import Verif.Spec.InterlockingDebug

/-! Proofs about the debug build of interlocking routes. -/

namespace Soro.Route
open Dbg Route.Spec

theorem sizeD_ok {r : SRoute} (h : r.nodes.length < INVALID_IDX) : r.sizeD = .ok r.size := by
  unfold SRoute.sizeD
  rw [check_pos h]; rfl

theorem fromToD_ok {r : SRoute} (h : r.nodes.length < INVALID_IDX) {a b : Nat} (hab : a ≤ b) :
    r.fromToD a b = lift (r.fromTo a b) := by
  unfold SRoute.fromToD
  rw [check_pos hab, sizeD_ok h]; rfl

theorem iterateD_ok {r : SRoute} (h : r.nodes.length < INVALID_IDX) : r.iterateD = lift r.iterate := by
  unfold SRoute.iterateD SRoute.iterate
  rw [sizeD_ok h, ok_bind, fromToD_ok h (by omega)]

theorem fromD_ok {r : SRoute} (h : r.nodes.length < INVALID_IDX) {a : Nat} (ha : a ≤ r.nodes.length) :
    r.fromD a = lift (r.from_ a) := by
  unfold SRoute.fromD SRoute.from_
  rw [sizeD_ok h, ok_bind, fromToD_ok h (by unfold SRoute.size; omega)]

theorem toD_ok {r : SRoute} (h : r.nodes.length < INVALID_IDX) (a : Nat) : r.toD a = lift (r.to a) := by
  unfold SRoute.toD SRoute.to
  rw [fromToD_ok h (by omega)]

theorem small_get {infra : List SRoute} (h : Small infra) {s : Nat} {r : SRoute} (hr : infra[s]? = some r) :
    r.nodes.length < INVALID_IDX := h r (List.mem_of_getElem? hr)

theorem iterAllD_ok {infra : List SRoute} (h : Small infra) (ss : List Nat) :
    iterAllD infra ss = lift (iterAll infra ss) := by
  induction ss with
  | nil => rfl
  | cons s ss ih =>
    unfold iterAllD iterAll
    cases hr : infra[s]? with
    | none => rfl
    | some r =>
      simp only [lift, ok_bind, Option.bind_some]
      rw [iterateD_ok (small_get h hr), ih]
      cases r.iterate with
      | none => rfl
      | some x => cases iterAll infra ss <;> rfl

theorem detailFromToD_ok {infra : List SRoute} (h : Small infra) (ir : IR) {i j frm to a b : Nat} {f : SRoute}
    (hij : i < j) (hi : ir.srs[i]? = some a) (hj : ir.srs[j]? = some b) (hne : a ≠ b)
    (hf : infra[a]? = some f) (hfrm : frm ≤ f.nodes.length) :
    ir.detailFromToD infra i frm j to = lift (ir.detailFromTo infra i frm j to) := by
  obtain ⟨hi', -⟩ := List.getElem?_eq_some_iff.1 hi
  obtain ⟨hj', -⟩ := List.getElem?_eq_some_iff.1 hj
  unfold IR.detailFromToD IR.detailFromTo
  rw [check_pos (by omega), ok_bind, check_pos hi', ok_bind, check_pos hj', ok_bind, check_pos (by omega), ok_bind,
    check_pos (by rw [hi, hj]; simpa using hne), ok_bind, if_neg (by omega), hi, hj]
  simp only [Option.bind_some, hf, lift, ok_bind]
  rw [fromD_ok (small_get h hf) hfrm, iterAllD_ok h]
  cases hl : infra[b]? with
  | none =>
    cases f.from_ frm with
    | none => rfl
    | some x => cases iterAll infra ((ir.srs.take j).drop (i + 1)) <;> rfl
  | some l =>
    dsimp only
    cases f.from_ frm with
    | none => rfl
    | some x =>
      cases iterAll infra ((ir.srs.take j).drop (i + 1)) with
      | none => rfl
      | some y =>
        change (l.toD to >>= fun z => pure (x ++ (y ++ z))) = _
        rw [toD_ok (small_get h hl)]
        cases l.to to <;> rfl

theorem iterate_srs (ir : IR) (infra : List SRoute) (h : 1 < ir.srs.length) :
    ir.iterate infra = ir.detailFromTo infra 0 ir.start (ir.srs.length - 1) ir.stop := by
  unfold IR.iterate
  rcases hs : ir.srs with _ | ⟨s, _ | ⟨t, l⟩⟩
  · simp [hs] at h
  · simp [hs] at h
  · rfl

theorem iterateD_srs (ir : IR) (infra : List SRoute) (h : 1 < ir.srs.length) :
    ir.iterateD infra = ir.detailFromToD infra 0 ir.start (ir.srs.length - 1) ir.stop := by
  unfold IR.iterateD
  rcases hs : ir.srs with _ | ⟨s, _ | ⟨t, l⟩⟩
  · simp [hs] at h
  · simp [hs] at h
  · rfl

theorem fromTo_srs (ir : IR) (infra : List SRoute) (h : 1 < ir.srs.length) {x y i j a b frm to : Nat}
    (hi : ir.srs.findIdx (fun z => decide (z = x)) = i) (hj : ir.srs.findIdx (fun z => decide (z = y)) = j)
    (ha : ir.srs[i]? = some a) (hb : ir.srs[j]? = some b) :
    ir.fromTo infra x frm y to = if a = b then infra[a]?.bind fun r => r.fromTo frm to else ir.detailFromTo infra i frm j to := by
  unfold IR.fromTo
  rcases hs : ir.srs with _ | ⟨s, _ | ⟨t, l⟩⟩
  · simp [hs] at h
  · simp [hs] at h
  · simp only [← hs, hi, hj, ha, hb]

theorem fromToD_srs (ir : IR) (infra : List SRoute) (h : 1 < ir.srs.length) (x y frm to : Nat) :
    ir.fromToD infra x frm y to = (do
      check 181 (ir.srs.findIdx (fun z => decide (z = x)) < ir.srs.length)
      check 185 (ir.srs.findIdx (fun z => decide (z = y)) < ir.srs.length)
      check 189 (ir.srs.findIdx (fun z => decide (z = x)) ≤ ir.srs.findIdx (fun z => decide (z = y)))
      ir.betweenD infra (ir.srs.findIdx (fun z => decide (z = x))) frm (ir.srs.findIdx (fun z => decide (z = y))) to) := by
  conv => lhs; unfold IR.fromToD
  rcases hs : ir.srs with _ | ⟨s, _ | ⟨t, l⟩⟩
  · simp [hs] at h
  · simp [hs] at h
  · rfl

theorem findIdx_eq (l : List Nat) (hn : l.Nodup) (m x : Nat) (h : l[m]? = some x) :
    l.findIdx (fun z => decide (z = x)) = m := by
  obtain ⟨hm, rfl⟩ := List.getElem?_eq_some_iff.1 h
  rw [List.findIdx_eq hm]
  refine ⟨by simp, fun k hk => ?_⟩
  simp only [decide_eq_false_iff_not]
  intro he
  exact List.pairwise_iff_getElem.1 hn k m (by omega) hm hk he

end Soro.Route

namespace Soro.Interlocking
open Dbg Route Algo

theorem startedD_ok (infos : List Info) (g : SRG) (r : Nat) (i : Info) :
    startedD infos g r i = lift (if canStart g r i && !i.etcs then routesFromSr infos g r i else some []) := by
  unfold startedD
  by_cases h : canStart g r i = true
  · cases he : i.etcs
    · simp only [h, Bool.not_false, Bool.and_true, if_true, routesFromSrD]
      rw [check_pos trivial]; rfl
    · simp only [Bool.not_true, Bool.and_false, Bool.false_eq_true, if_false]; rfl
  · simp only [Bool.not_eq_true] at h
    simp only [h, Bool.false_and, Bool.false_eq_true, if_false]; rfl

theorem routesOfD_ok (infos : List Info) (g : SRG) (r : Nat) : routesOfD infos g r = lift (routesOf infos g r) := by
  unfold routesOfD routesOf
  cases infos[r]? with
  | none => rfl
  | some i =>
    simp only [lift, ok_bind]
    rw [startedD_ok]
    cases (if (canStart g r i && !i.etcs) = true then routesFromSr infos g r i else some []) <;> rfl

theorem mapM_lift {α β : Type} (f : α → Option β) (l : List α) : (l.mapM fun x => lift (f x)) = lift (l.mapM f) := by
  induction l with
  | nil => rfl
  | cons a l ih =>
    rw [List.mapM_cons, List.mapM_cons, ih]
    cases f a with
    | none => rfl
    | some b => cases l.mapM f <;> rfl

theorem getRoutesD_ok (infos : List Info) (g : SRG) : getRoutesD infos g = lift (getRoutes infos g) := by
  unfold getRoutesD getRoutes
  have : routesOfD infos g = fun r => lift (routesOf infos g r) := funext fun r => routesOfD_ok infos g r
  rw [this, mapM_lift]
  cases (List.range infos.length).mapM (routesOf infos g) <;> rfl

theorem foldl_length (v : List (List Nat)) (a : Nat) : v.foldl (fun a l => a + l.length) a = a + (v.map List.length).sum := by
  induction v generalizing a with
  | nil => simp
  | cons x v ih => simp only [List.foldl_cons, ih, List.map_cons, List.sum_cons]; omega

theorem sum_modify (v : List (List Nat)) (k x : Nat) (h : k < v.length) :
    ((v.modify k (· ++ [x])).map List.length).sum = (v.map List.length).sum + 1 := by
  induction v generalizing k with
  | nil => simp at h
  | cons l v ih =>
    cases k with
    | zero => simp [List.modify_zero_cons]; omega
    | succ k => simp [List.modify_succ_cons, ih k (by simpa using h)]; omega

theorem bucket_sum (ops : List (Nat × Nat)) (acc v : List (List Nat)) (h : bucket ops acc = some v) :
    (v.map List.length).sum = (acc.map List.length).sum + ops.length := by
  induction ops generalizing acc with
  | nil => simp only [bucket, Option.some.injEq] at h; subst h; simp
  | cons o ops ih =>
    obtain ⟨k, x⟩ := o
    rw [bucket] at h
    by_cases hk : k < acc.length
    · rw [if_pos hk] at h
      rw [ih _ h, sum_modify _ _ _ hk, List.length_cons]
      omega
    · rw [if_neg hk] at h; cases h

theorem mapM_length {α β : Type} (f : α → Option β) (l : List α) (r : List β) (h : l.mapM f = some r) : r.length = l.length := by
  induction l generalizing r with
  | nil => simp at h; subst h; rfl
  | cons a l ih =>
    rw [List.mapM_cons] at h
    cases hf : f a with
    | none => simp [hf] at h
    | some b =>
      cases hl : l.mapM f with
      | none => simp [hf, hl] at h
      | some bs =>
        simp only [hf, hl, Option.bind_eq_bind, Option.bind_some, Option.pure_def, Option.some.injEq] at h
        subst h
        simp [ih bs hl]

theorem table_sum {irs : List (Nat × IR)} {f : Nat × IR → Option (Nat × Nat)} {n : Nat} {v : List (List Nat)}
    (h : ((irs.mapM f).bind fun ops => (bucket ops (List.replicate n [])).map fun v => v.map sortNat) = some v) :
    v.foldl (fun a l => a + l.length) 0 = irs.length := by
  obtain ⟨ops, h1, h2⟩ := Option.bind_eq_some_iff.1 h
  obtain ⟨w, h3, rfl⟩ := Option.map_eq_some_iff.1 h2
  rw [foldl_length, List.map_map]
  have e : (List.length ∘ sortNat) = List.length := by
    funext l; exact (sortNat_perm l).length_eq
  rw [e, bucket_sum _ _ _ h3, mapM_length _ _ _ h1]
  simp

theorem startingAtD_ok (infra : List SRoute) (n : Nat) (irs : List (Nat × IR)) :
    startingAtD infra n irs = lift (startingAt infra n irs) := by
  unfold startingAtD
  cases h : startingAt infra n irs with
  | none => rfl
  | some v => simp only [lift, ok_bind]; rw [check_pos (table_sum h)]; rfl

theorem endingAtD_ok (infra : List SRoute) (n : Nat) (irs : List (Nat × IR)) :
    endingAtD infra n irs = lift (endingAt infra n irs) := by
  unfold endingAtD
  cases h : endingAt infra n irs with
  | none => rfl
  | some v => simp only [lift, ok_bind]; rw [check_pos (table_sum h)]; rfl

theorem isSorted_of (l : List Nat) (h : l.Pairwise (· < ·)) : isSorted l = true := by
  induction l with
  | nil => rfl
  | cons a l ih =>
    cases l with
    | nil => rfl
    | cons b l =>
      simp only [isSorted, Bool.and_eq_true, decide_eq_true_eq]
      refine ⟨?_, ih (List.pairwise_cons.1 h).2⟩
      have := (List.pairwise_cons.1 h).1 b (by simp)
      omega

theorem stationToIrsD_ok (station : Nat → Nat) (n : Nat) (irs : List (Nat × IR)) :
    stationToIrsD station n irs = lift (stationToIrs station n irs) := by
  unfold stationToIrsD
  cases h : stationToIrs station n irs with
  | none => rfl
  | some v =>
    simp only [lift, ok_bind]
    rw [check_pos]
    · rfl
    · obtain ⟨w, -, rfl⟩ := Option.map_eq_some_iff.1 h
      rw [List.all_eq_true]
      intro l hl
      obtain ⟨l', -, rfl⟩ := List.mem_map.1 hl
      exact isSorted_of _ (eraseDup_lt l')

theorem getInterlockingD_ok (p : Plan) : getInterlockingD p = lift (getInterlocking p) := by
  unfold getInterlockingD getInterlocking
  rw [getRoutesD_ok]
  cases getRoutes p.infos p.graph with
  | none => rfl
  | some l =>
    simp only [lift, ok_bind, Option.bind_some, startingAtD_ok, endingAtD_ok, stationToIrsD_ok]
    cases haltingAt p.srs p.passenger p.freight p.nodeCount (assignIds 0 l) with
    | none => rfl
    | some h =>
      cases startingAt p.srs p.nodeCount (assignIds 0 l) with
      | none => rfl
      | some s =>
        cases endingAt p.srs p.nodeCount (assignIds 0 l) with
        | none => rfl
        | some e =>
          cases participating p.srs.length (assignIds 0 l) with
          | none => rfl
          | some q =>
            cases stationToIrs p.station p.stationCount (assignIds 0 l) with
            | none => rfl
            | some t => cases averageLength (assignIds 0 l) <;> rfl

end Soro.Interlocking
