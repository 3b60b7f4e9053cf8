import Verif.Proof.Transform

namespace Soro.Transform
open Soro.Route Soro.Route.Spec Soro.Train Soro.Train.Spec Spec

theorem positions_sr {infra : List SRoute} {ir : IR} {p : Nat × Nat} (h : p ∈ positions infra ir) : p.1 ∈ ir.srs := by
  unfold positions at h
  obtain ⟨⟨s, n⟩, hx, h⟩ := List.mem_flatMap.1 h
  unfold span at h
  obtain ⟨y, _, rfl⟩ := List.mem_map.1 h
  have := List.fst_mem_of_mem_zipIdx hx
  exact this

/-- every stop index of a planned point lies in its station route -/
def Inside (i : Infra) (freight : Bool) (points : List SPoint) : Prop :=
  ∀ sp ∈ points, ∀ idx, StandsAt i freight sp idx → ∃ r, i.routes[sp.sr]? = some r ∧ idx < r.nodes.length

open Classical in
theorem seqPoints_filter {i : Infra} {freight : Bool} {ir : IR} (hv : Valid i.routes ir) (l : List SPoint) (hin : Inside i freight l) :
    seqPoints i freight ir l = some (l.filter fun sp => decide (OnRoute i freight ir sp)) := by
  induction l with
  | nil => rfl
  | cons sp l ih =>
    have ih := ih fun x hx => hin x (by simp [hx])
    rw [seqPoints]
    cases hn : sp.nodeIdx i freight with
    | none =>
      have : ¬ OnRoute i freight ir sp := by
        rintro ⟨idx, h1, _⟩
        rw [← nodeIdx_iff, hn] at h1
        cases h1
      simp only [List.filter_cons, this, decide_false, Bool.false_eq_true, if_false]
      exact ih
    | some idx =>
      have hs := (nodeIdx_iff _ _ _ _).1 hn
      obtain ⟨r, hr, hlt⟩ := hin sp (by simp) idx hs
      obtain ⟨b, hb, hiff⟩ := contains_iff ir hv sp.sr idx r hr hlt
      have hon : OnRoute i freight ir sp ↔ b = true := by
        rw [hiff]
        constructor
        · rintro ⟨x, h1, h2⟩
          rw [← nodeIdx_iff, hn] at h1
          cases h1
          exact h2
        · exact fun h => ⟨idx, hs, h⟩
      simp only [hb, Option.bind_some, ih, Option.map_some, List.filter_cons, hon]
      cases b <;> simp

open Classical in
theorem filter_range {α : Type} (P : α → Prop) (l : List α) (a b : Nat) (hab : a ≤ b)
    (h : ∀ j x, l[j]? = some x → P x → a ≤ j ∧ j < b) :
    ((l.take b).drop a).filter (fun x => decide (P x)) = l.filter fun x => decide (P x) := by
  have h1 : l = l.take a ++ ((l.take b).drop a ++ l.drop b) := by
    rw [← List.append_assoc]
    have : l.take a ++ (l.take b).drop a = l.take b := by
      rw [show l.take a = (l.take b).take a by rw [List.take_take, Nat.min_eq_left hab], List.take_append_drop]
    rw [this, List.take_append_drop]
  conv_rhs => rw [h1]
  rw [List.filter_append, List.filter_append]
  have h2 : (l.take a).filter (fun x => decide (P x)) = [] := by
    rw [List.filter_eq_nil_iff]
    intro x hx
    obtain ⟨j, hj⟩ := List.getElem?_of_mem hx
    rw [List.getElem?_take] at hj
    split at hj
    · intro hp
      have := (h j x hj (by simpa using hp)).1
      omega
    · cases hj
  have h3 : (l.drop b).filter (fun x => decide (P x)) = [] := by
    rw [List.filter_eq_nil_iff]
    intro x hx
    obtain ⟨j, hj⟩ := List.getElem?_of_mem hx
    rw [List.getElem?_drop] at hj
    intro hp
    have := (h _ x hj (by simpa using hp)).2
    omega
  rw [h2, h3]
  simp

theorem nodup_get {l : List Nat} (h : l.Nodup) {a b x : Nat} (ha : l[a]? = some x) (hb : l[b]? = some x) : a = b := by
  obtain ⟨ha1, ha2⟩ := List.getElem?_eq_some_iff.1 ha
  obtain ⟨hb1, hb2⟩ := List.getElem?_eq_some_iff.1 hb
  exact (List.Nodup.getElem_inj_iff h).1 (by rw [ha2, hb2])

theorem mem_take_get {l : List Nat} {j n x : Nat} (h : l[j]? = some x) (hj : j < n) : x ∈ l.take n :=
  List.mem_of_getElem? (i := j) (by rw [List.getElem?_take_of_lt hj]; exact h)

open Classical in
/-- the points of one route -/
theorem new_points {i : Infra} {k : Ilk} {ss : StopSeq} {freight : Bool} {ir : IR} {id a b : Nat} {new : List SPoint}
    (h : (pointsRange ss a b).bind (seqPoints i freight ir) = some new) (hab : a ≤ b) (hr : k.routes[id]? = some ir)
    (hv : Valid i.routes ir) (hin : Inside i freight ss.points)
    (hrange : ∀ j s, ss.plan[j]? = some s → s ∈ ir.srs → a ≤ j ∧ j < b) :
    new = ss.points.filter fun sp => decide (∃ r, k.routes[id]? = some r ∧ OnRoute i freight r sp) := by
  have hP : (fun sp => decide (∃ r, k.routes[id]? = some r ∧ OnRoute i freight r sp)) =
      fun sp => decide (OnRoute i freight ir sp) := by
    funext sp
    simp [hr]
  rw [hP]
  rw [← filter_range (OnRoute i freight ir) ss.points a b hab]
  · obtain ⟨l, hl, h⟩ := Option.bind_eq_some_iff.1 h
    have hl' : l = (ss.points.take b).drop a := by
      unfold pointsRange at hl
      split at hl
      · cases hl
        rw [List.drop_of_length_le (by simp; omega)]
      · split at hl
        · cases hl; rfl
        · cases hl
    rw [seqPoints_filter hv l] at h
    · rw [← hl']
      exact (Option.some.inj h).symm
    · intro sp hsp
      refine hin sp ?_
      rw [hl'] at hsp
      exact List.mem_of_mem_take (List.mem_of_mem_drop hsp)
  · rintro j sp hj ⟨idx, _, hpos⟩
    exact hrange j sp.sr (by rw [plan_getElem, hj]; rfl) (positions_sr hpos)

theorem pointsOn_append (i : Infra) (k : Ilk) (freight : Bool) (points : List SPoint) (path : List Nat) (id : Nat) :
    pointsOn i k freight points (path ++ [id]) = pointsOn i k freight points path ++ pointsOn i k freight points [id] := by
  simp [pointsOn]


open Classical in
theorem pointsOn_single (i : Infra) (k : Ilk) (freight : Bool) (points : List SPoint) (id : Nat) :
    pointsOn i k freight points [id] =
      points.filter fun sp => decide (∃ r, k.routes[id]? = some r ∧ OnRoute i freight r sp) := by
  unfold pointsOn
  rw [List.flatMap_cons, List.flatMap_nil, List.append_nil]
  exact List.filter_congr fun x _ => decide_eq_decide.2 Iff.rfl

/-- the plan is done and the last route runs on -/
def Beyond (k : Ilk) (ss : StopSeq) (path : List Nat) (cur : IR) (o : Nat) : Prop :=
  o + 1 = ss.points.length ∧ ∃ pre x xs, merged k path = pre ++ ss.plan ++ x :: xs ∧ cur.srs.getLast? = (x :: xs).getLast?

/-- position in the plan -/
def rank (ss : StopSeq) (sp : SPoint) : Nat := ss.plan.idxOf sp.sr

theorem rank_get {ss : StopSeq} (hnd : ss.plan.Nodup) {j : Nat} {sp : SPoint} (h : ss.points[j]? = some sp) : rank ss sp = j := by
  have hj : ss.plan[j]? = some sp.sr := by rw [plan_getElem, h]; rfl
  obtain ⟨h1, h2⟩ := List.getElem?_eq_some_iff.1 hj
  unfold rank
  rw [← h2]
  exact hnd.idxOf_getElem j h1

theorem points_sorted {ss : StopSeq} (hnd : ss.plan.Nodup) : ss.points.Pairwise fun a b => rank ss a ≤ rank ss b := by
  rw [List.pairwise_iff_getElem]
  intro a b ha hb hab
  rw [rank_get hnd (List.getElem?_eq_getElem ha), rank_get hnd (List.getElem?_eq_getElem hb)]
  omega

theorem loop_points {i : Infra} {k : Ilk} {ss : StopSeq} {freight : Bool} {fuel : Nat} {cur : IR} {c : Cover} {path path' : List Nat}
    {pts pts' : List SPoint} {a : Nat} (h : loop i k ss freight fuel cur c path pts = .ok path' pts')
    (hsz : ss.points.length < SIZE) (hst : Stays i k ss.plan path')
    (hpart : ∀ (s : Nat) (part : List Nat), k.participating[s]? = some part → ∀ id ∈ part, ∃ r : IR, k.routes[id]? = some r ∧ s ∈ r.srs)
    (hnd : ss.plan.Nodup) (hmd : (merged k path').Nodup) (hin : Inside i freight ss.points)
    (hv : ∀ id ∈ path', ∀ r, k.routes[id]? = some r → Valid i.routes r)
    (hl : path.getLast? = some a) (ha : k.routes[a]? = some cur)
    (hinv : ss.points.length ≤ c.offset ∨ Run k ss path cur c.offset ∨ Beyond k ss path cur c.offset)
    (hpts : pts = pointsOn i k freight ss.points path)
    (hsort : pts.Pairwise fun a b => rank ss a ≤ rank ss b) (hle : Run k ss path cur c.offset → ∀ sp ∈ pts, rank ss sp ≤ c.offset) :
    pts' = pointsOn i k freight ss.points path' ∧ pts'.Pairwise fun a b => rank ss a ≤ rank ss b := by
  have hne : path ≠ [] := by rintro rfl; simp at hl
  induction fuel generalizing cur c path pts a with
  | zero => simp [loop] at h
  | succ fuel ih =>
    have hlen := plan_length ss
    rcases loop_step h with ⟨hcov, rfl, rfl⟩ | ⟨n, cands, id, p, ir, new, _, hn, hcs, hlong, hr, hnew, h⟩
    · exact ⟨hpts, hsort⟩
    · have hpre : path ++ [id] <+: path' := by
        rcases h with ⟨_, rfl, _⟩ | ⟨_, c', _, h⟩
        · exact List.prefix_refl _
        · exact loop_prefix h
      have hmd' : (merged k (path ++ [id])).Nodup := hmd.sublist (merged_prefix hpre (by simp)).sublist
      have hidm := (longest_mem hlong id (by simp)).1
      obtain ⟨⟨sp, part, hsp, hp, hidp⟩, _⟩ := mem_candidates hcs hidm
      have ho : c.offset < ss.points.length := (List.getElem?_eq_some_iff.1 hsp).1
      have hvir : Valid i.routes ir := hv id (hpre.subset (by simp)) ir hr
      rcases hinv with hbig | hrun | ⟨hon, pre, x, xs, hm, hlast⟩
      · omega
      · obtain ⟨hpos, hp, htake, htail, pre, hm⟩ := run_step hst hpre hl ha hr hrun hlong
        have hmrun := merged_append k path id ir hr hne
        have hle := hle hrun
        obtain ⟨_, ⟨pre0, hpre0⟩, hcl⟩ := hrun
        have hhead : ir.srs.head? = ss.plan[c.offset]? := by
          have := congrArg (fun l => l[0]?) htake
          rw [List.getElem?_take_of_lt (by omega), List.getElem?_take_of_lt (by omega), List.getElem?_drop] at this
          rw [List.head?_eq_getElem?, this, Nat.add_zero]
        have hrange : ∀ j s, ss.plan[j]? = some s → s ∈ ir.srs → c.offset ≤ j ∧ j < c.offset + p := by
          intro j s hj hs
          have hjn : j < ss.points.length := by
            have := (List.getElem?_eq_some_iff.1 hj).1
            omega
          constructor
          · -- nothing before the current station route
            by_cases hlt : j < c.offset
            · exfalso
              rw [hmrun, hpre0] at hmd'
              have h1 : s ∈ ss.plan.take (c.offset + 1) := mem_take_get hj (by omega)
              cases hsr : ir.srs with
              | nil => simp [hsr] at hpos
              | cons y ys =>
                rw [hsr] at hs hhead hmd'
                rcases List.mem_cons.1 hs with rfl | hs
                · have := nodup_get hnd hj hhead.symm
                  omega
                · rw [List.nodup_append] at hmd'
                  exact hmd'.2.2 s (by simp [h1]) s (by simpa using hs) rfl
            · omega
          · by_cases hge : c.offset + p ≤ j
            · exfalso
              have hfull : p = ir.srs.length := by omega
              have : s ∈ (ss.plan.drop c.offset).take p := by
                rw [← htake, List.take_of_length_le (by omega)]
                exact hs
              obtain ⟨q, hq⟩ := List.getElem?_of_mem this
              rw [List.getElem?_take] at hq
              split at hq
              · rw [List.getElem?_drop] at hq
                have := nodup_get hnd hj hq
                omega
              · cases hq
            · omega
        have hnew' := new_points hnew (by omega) hr hvir hin hrange
        have hnr : ∀ sp ∈ new, c.offset ≤ rank ss sp ∧ rank ss sp < c.offset + p := by
          intro sp hsp
          rw [hnew', List.mem_filter] at hsp
          obtain ⟨h1, h2⟩ := hsp
          obtain ⟨r, hr2, idx, _, hpos⟩ := by simpa only [decide_eq_true_eq] using h2
          rw [hr] at hr2; cases hr2
          obtain ⟨j, hj⟩ := List.getElem?_of_mem h1
          rw [rank_get hnd hj]
          exact hrange j sp.sr (by rw [plan_getElem, hj]; rfl) (positions_sr hpos)
        have hsort' : (pts ++ new).Pairwise fun a b => rank ss a ≤ rank ss b := by
          rw [List.pairwise_append]
          refine ⟨hsort, ?_, fun a ha b hb => ?_⟩
          · rw [hnew']
            exact (points_sorted hnd).sublist List.filter_sublist
          · have := hle a ha
            have := hnr b hb
            omega
        have hpts' : pts ++ new = pointsOn i k freight ss.points (path ++ [id]) := by
          rw [pointsOn_append, ← hpts, hnew', pointsOn_single]
        rcases h with ⟨hlt, rfl, rfl⟩ | ⟨hge, c', hadv, h⟩
        · exact ⟨hpts', hsort'⟩
        · obtain ⟨m, sp', sr, e, h1, h2, h3, h4, rfl⟩ := advance_some hadv (by omega) (by omega)
          refine ih h (by simp) hr ?_ hpts' hsort' ?_ (by simp)
          swap
          · intro _ sp hsp
            simp only
            have : rank ss sp ≤ c.offset + p - 1 := by
              rcases List.mem_append.1 hsp with hsp | hsp
              · have := hle sp hsp
                omega
              · have := hnr sp hsp
                omega
            split <;> omega
          by_cases hme : m = e
          · -- only possible at the end of the plan
            by_cases hfin : c.offset + 1 < ss.points.length
            · subst hme
              exfalso
              refine hst.ends id (List.mem_of_mem_tail htail) ir hr c.offset sp'.sr sr (by omega) ?_ h3 (by rw [h1, h4])
              rw [plan_getElem, h2]; rfl
            · left
              simp only [hme, if_true]
              omega
          · right; left
            simp only [hme, if_false]
            exact run_next ho hpos hp (by omega) htake hm
      · exfalso
        obtain ⟨r, hr', hmem⟩ := hpart _ _ hp id hidp
        rw [hr] at hr'; cases hr'
        have hplan : ss.plan[c.offset]? = some sp.sr := by rw [plan_getElem, hsp]; rfl
        have hin' : sp.sr ∈ ss.plan := List.mem_of_getElem? hplan
        rw [merged_append k path id ir hr hne, hm] at hmd'
        have hx : sp.sr ∉ x :: xs := by
          rw [List.nodup_append, List.nodup_append] at hmd'
          intro hc
          exact hmd'.1.2.2 sp.sr (by simp [hin']) sp.sr hc rfl
        have hhead : ir.srs.head? = cur.srs.getLast? := by
          obtain ⟨tl, htl⟩ := hpre
          have hch := hst.next
          rw [← htl, List.isChain_append, List.isChain_append] at hch
          exact hch.1.2.2 a hl id (by simp) cur ir ha hr
        cases hsr : ir.srs with
        | nil => rw [hsr] at hmem; cases hmem
        | cons y ys =>
          rw [hsr] at hmem hhead hmd'
          rcases List.mem_cons.1 hmem with hy | hmem
          · rw [hlast] at hhead
            apply hx
            rw [hy]
            exact List.mem_of_getLast? hhead.symm
          · rw [List.nodup_append] at hmd'
            exact hmd'.2.2 sp.sr (by simp [hin']) sp.sr (by simpa using hmem) rfl

theorem transform_points {i : Infra} {k : Ilk} {ss : StopSeq} {freight : Bool} {fuel : Nat} {path : List Nat} {pts : List SPoint}
    (h : transform i k ss freight fuel = .ok path pts) (hsz : ss.points.length < SIZE)
    (hst : Stays i k ss.plan path)
    (hfirst : ∀ a r, path.head? = some a → k.routes[a]? = some r → r.srs.length < SIZE ∧ Enters r.srs ss.plan)
    (hpart : ∀ (s : Nat) (part : List Nat), k.participating[s]? = some part → ∀ id ∈ part, ∃ r : IR, k.routes[id]? = some r ∧ s ∈ r.srs)
    (hnd : ss.plan.Nodup) (hmd : (merged k path).Nodup) (hin : Inside i freight ss.points)
    (hv : ∀ id ∈ path, ∀ r, k.routes[id]? = some r → Valid i.routes r) :
    pts = pointsOn i k freight ss.points path ∧ pts.Pairwise fun a b => rank ss a ≤ rank ss b := by
  have hcov := transform_covers h hsz hst hfirst
  obtain ⟨id, ir, c, pts0, hf, hp0, hloop⟩ := transform_step h
  have hr := (firstIr_some hf).choose_spec.choose_spec.choose_spec.choose_spec.choose_spec.2.2.2.2.1
  have hlen := plan_length ss
  have hpre := loop_prefix hloop
  have hhd : path.head? = some id := by
    obtain ⟨t, rfl⟩ := hpre
    simp
  obtain ⟨h1, h2⟩ := hfirst id ir hhd hr
  obtain ⟨hole, j0, hj, hnot, hcase⟩ := first_run hf h1 h2
  rw [Nat.mod_eq_of_lt (by omega)] at hp0
  have hon : c.offset + 1 ≤ ss.points.length := by
    obtain ⟨l, hl, _⟩ := Option.bind_eq_some_iff.1 hp0
    unfold pointsRange at hl
    rw [if_neg (by omega)] at hl
    split at hl
    · assumption
    · cases hl
  have hm1 : merged k [id] = ir.srs := by simp [merged, srsAt_some hr]
  -- the part of the first route before the plan meets no planned station route
  have hlead : ∀ s ∈ ss.plan, s ∉ ir.srs.take j0 := by
    obtain ⟨A, B, hAB⟩ := hcov
    obtain ⟨t, ht⟩ := merged_prefix (k := k) hpre (by simp)
    rw [hm1] at ht
    obtain ⟨q, hq⟩ : ∃ q, ir.srs.drop j0 = ss.plan.head?.toList ++ q := by
      rcases hcase with ⟨_, _, hd, _⟩ | ⟨_, _, x, xs, hd⟩
      · rw [hd]
        cases ss.plan with
        | nil => exact ⟨[], by simp⟩
        | cons y ys => exact ⟨_, by simp; rfl⟩
      · rw [hd]
        cases ss.plan with
        | nil => exact ⟨x :: xs, by simp⟩
        | cons y ys => exact ⟨ys ++ x :: xs, by simp⟩
    cases hpl : ss.plan with
    | nil => simp
    | cons y ys =>
      rw [hpl] at hAB hq
      simp only [List.head?_cons, Option.toList_some, List.singleton_append] at hq
      have hy : y ∉ ir.srs.take j0 := hnot y (by rw [hpl]; rfl)
      have hA : y ∉ A := by
        rw [← hAB, List.nodup_append, List.nodup_append] at hmd
        intro hc
        exact hmd.1.2.2 y hc y (by simp) rfl
      have hi1 : (merged k path).idxOf y = A.length := by
        rw [← hAB, List.append_assoc, List.idxOf_append, if_neg hA]
        simp
      have hi2 : (merged k path).idxOf y = (ir.srs.take j0).length := by
        rw [← ht, ← List.take_append_drop j0 ir.srs, hq, List.append_assoc, List.idxOf_append, if_neg (by simpa using hy)]
        simp
        omega
      have hAeq : A = ir.srs.take j0 := by
        have e1 : A = (merged k path).take A.length := by rw [← hAB, List.append_assoc, List.take_left']; rfl
        have e2 : ir.srs.take j0 = (merged k path).take (ir.srs.take j0).length := by
          rw [← ht]
          conv_rhs => rw [← List.take_append_drop j0 ir.srs, List.append_assoc]
          rw [List.take_left']
          simp
        rw [e1, e2, ← hi1, ← hi2]
      intro s hs
      rw [← hAeq]
      rw [← hAB, List.nodup_append, List.nodup_append] at hmd
      intro hc
      exact hmd.1.2.2 s hc s hs rfl
  have hrange : ∀ j s, ss.plan[j]? = some s → s ∈ ir.srs → 0 ≤ j ∧ j < c.offset + 1 := by
    intro j s hjs hs
    refine ⟨Nat.zero_le _, ?_⟩
    have hjn : j < ss.points.length := by
      have := (List.getElem?_eq_some_iff.1 hjs).1
      omega
    rcases hcase with ⟨_, _, hd, _⟩ | ⟨_, hge, _⟩
    · rw [← List.take_append_drop j0 ir.srs, hd] at hs
      rcases List.mem_append.1 hs with hs | hs
      · exact absurd hs (hlead s (List.mem_of_getElem? hjs))
      · obtain ⟨q, hq⟩ := List.getElem?_of_mem hs
        rw [List.getElem?_take] at hq
        split at hq
        · have := nodup_get hnd hjs hq
          omega
        · cases hq
    · omega
  have hpts0 := new_points hp0 (by omega) hr (hv id (hpre.subset (by simp)) ir hr) hin hrange
  refine loop_points hloop hsz hst hpart hnd hmd hin hv (a := id) (by simp) hr ?_ ?_ ?_ ?_
  · right
    rcases hcase with ⟨_, _, _, hrun⟩ | ⟨_, hge, x, xs, hd⟩
    · exact .inl hrun
    · refine .inr ⟨by omega, ir.srs.take j0, x, xs, ?_, ?_⟩
      · rw [hm1, List.append_assoc, ← hd, List.take_append_drop]
      · conv_lhs => rw [← List.take_append_drop j0 ir.srs, hd]
        simp [List.getLast?_cons]
  · rw [hpts0, pointsOn_single]
  · rw [hpts0]
    exact (points_sorted hnd).sublist List.filter_sublist
  · intro _ sp hsp
    rw [hpts0, List.mem_filter] at hsp
    obtain ⟨h1, h2⟩ := hsp
    obtain ⟨r, hr2, idx, _, hpos⟩ := by simpa only [decide_eq_true_eq] using h2
    rw [hr] at hr2; cases hr2
    obtain ⟨j, hj⟩ := List.getElem?_of_mem h1
    rw [rank_get hnd hj]
    have := hrange j sp.sr (by rw [plan_getElem, hj]; rfl) (positions_sr hpos)
    omega

end Soro.Transform
