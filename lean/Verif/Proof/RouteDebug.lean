import Verif.Spec.RouteDebug
import Verif.Spec.Debug
import Verif.Proof.Debug
import Verif.Proof.RouteTable
import Verif.Props.Section
import Mathlib.Data.Finset.Card
import Mathlib.Data.Finset.Dedup
import Mathlib.Data.List.Nodup

/-! Lemmas about the construction of station routes in a build with assertions. -/

namespace Soro.RouteDebug
open Soro.Infra Soro.Route Soro.RouteBuild Soro.RouteTable Dbg Spec

/-! ### how many positions are left out -/

theorem omittedLoop_length (f g : Nat → Bool) (i : Nat) (ns : List Nat) :
    (omittedLoop f g i ns).length = (ns.filter fun n => f n && g n).length := by
  induction ns generalizing i with
  | nil => rfl
  | cons n ns ih =>
    rw [omittedLoop, List.filter_cons]
    split <;> simp [ih]

theorem range_filter_length {α : Type} (l : List α) (p : α → Bool) :
    ((List.range l.length).filter fun i => (l[i]?).any p).length = (l.filter p).length := by
  induction l with
  | nil => rfl
  | cons a l ih =>
    rw [List.length_cons, List.range_succ_eq_map, List.filter_cons, List.filter_cons, List.filter_map]
    simp only [List.getElem?_cons_zero, Option.any_some]
    split <;> simp [Function.comp_def, ih]

theorem filter_count (l om : List Node) (h : l.Nodup) :
    (l.filter fun n => decide (n ∈ om)).length = om.length ↔ om.Nodup ∧ ∀ n ∈ om, n ∈ l := by
  have hn : (l.filter fun n => decide (n ∈ om)).Nodup := h.filter _
  have hc : (l.filter fun n => decide (n ∈ om)).toFinset.card = (l.filter fun n => decide (n ∈ om)).length :=
    List.toFinset_card_of_nodup hn
  have hsub : (l.filter fun n => decide (n ∈ om)).toFinset ⊆ om.toFinset := by
    intro x hx
    simp only [List.mem_toFinset, List.mem_filter, decide_eq_true_eq] at hx ⊢
    exact hx.2
  constructor
  · intro he
    have h1 := Finset.card_le_card hsub
    have h2 := List.toFinset_card_le om
    have h3 : om.toFinset.card = om.length := by omega
    refine ⟨Multiset.toFinset_card_eq_card_iff_nodup.1 h3, fun n hnm => ?_⟩
    have := Finset.eq_of_subset_of_card_le hsub (by omega)
    have hm : n ∈ om.toFinset := List.mem_toFinset.2 hnm
    rw [← this] at hm
    exact (List.mem_filter.1 (List.mem_toFinset.1 hm)).1
  · rintro ⟨h1, h2⟩
    rw [← hc, ← List.toFinset_card_of_nodup h1]
    congr 1
    ext x
    simp only [List.mem_toFinset, List.mem_filter, decide_eq_true_eq]
    exact ⟨fun h => h.2, fun h => ⟨h2 x h, h⟩⟩

theorem track_of_directed {t : Ty} (h : t.isDirected = true) : t.isTrack = true := by
  cases t <;> first | rfl | (exact absurd h (by decide))

theorem omittedAt_length (el : Nat → Elem) (om nodes : List Node) (hd : ∀ n ∈ om, (el n.1).ty.isDirected = true) :
    (omittedAt el om nodes).length = (nodes.filter fun n => decide (n ∈ om)).length := by
  unfold omittedAt
  rw [omittedLoop_length]
  have : ∀ i : Nat, ((nodes[i]?.any fun n : Node => (el n.1).ty.isTrack) && nodes[i]?.any fun n => om.contains n) =
      nodes[i]?.any fun n => decide (n ∈ om) := by
    intro i
    cases nodes[i]? with
    | none => rfl
    | some n =>
      simp only [Option.any_some]
      by_cases hm : n ∈ om
      · simp [hm, track_of_directed (hd n hm)]
      · simp [hm]
  rw [show (fun n => (nodes[n]?.any fun n : Node => (el n.1).ty.isTrack) && nodes[n]?.any fun n => om.contains n) =
    fun i => nodes[i]?.any fun n => decide (n ∈ om) from funext this]
  exact range_filter_length nodes _

theorem omittedNodes_eq (el : Nat → Elem) (rp : Nat → Option Nat) (s : Src) (h : Leaves el rp s) :
    omittedNodes el rp s.route = some (s.route.omitted.map fun o => ((rp o.1).getD 0, 0)) := by
  unfold omittedNodes
  unfold Leaves at h
  generalize s.route.omitted = om at h
  induction om with
  | nil => rfl
  | cons o om ih =>
    obtain ⟨e, h1, h2⟩ := h o List.mem_cons_self
    rw [List.mapM_cons, h1]
    simp only [Option.bind_some, h2, if_true, List.map_cons, h1, Option.getD_some]
    rw [ih fun o' ho => h o' (List.mem_cons_of_mem _ ho)]
    rfl

/-- the assertion about the omitted nodes -/
theorem omitted_iff (el : Nat → Elem) (rp : Nat → Option Nat) (s : Src) (h : Leaves el rp s) (hn : s.nodes.Nodup) (om : List Node)
    (ho : omittedNodes el rp s.route = some om) :
    (omittedAt el om s.nodes).length = s.route.omitted.length ↔ EachOnce rp s := by
  rw [omittedNodes_eq el rp s h] at ho
  cases ho
  rw [omittedAt_length]
  · have := filter_count s.nodes (s.route.omitted.map fun o => ((rp o.1).getD 0, 0)) hn
    rw [List.length_map] at this
    refine this.trans ?_
    unfold EachOnce
    rw [and_comm]
    refine and_congr ?_ ?_
    · constructor
      · intro hm o ho e he
        have := hm _ (List.mem_map.2 ⟨o, ho, rfl⟩)
        rwa [he] at this
      · intro hm n hnm
        obtain ⟨o, ho, rfl⟩ := List.mem_map.1 hnm
        obtain ⟨e, he, -⟩ := h o ho
        have := hm o ho e he
        rwa [he]
    · unfold List.Nodup
      rw [List.pairwise_map]
      refine List.Pairwise.iff_of_mem ?_
      intro a b ha hb
      obtain ⟨e, he, -⟩ := h a ha
      obtain ⟨e', he', -⟩ := h b hb
      rw [he, he']
      simp
  · intro n hnm
    obtain ⟨o, ho, rfl⟩ := List.mem_map.1 hnm
    obtain ⟨e, he, hd⟩ := h o ho
    rw [he]; exact hd

/-! ### extra speed limits -/

theorem assignNodesD_same (path : List PNode) (ls ls' : List Spl) (h : assignNodes path ls = some ls') :
    assignNodesD path ls = .ok ls' ∧ ls'.length = ls.length := by
  induction ls generalizing ls' with
  | nil => cases h; exact ⟨rfl, rfl⟩
  | cons l ls ih =>
    rw [assignNodes] at h
    cases hf : path.find? (fun n => n.element = l.element) with
    | none => rw [hf] at h; cases h
    | some n =>
      cases ha : assignNodes path ls with
      | none => rw [hf, ha] at h; cases h
      | some out =>
        rw [hf, ha] at h; cases h
        obtain ⟨h1, h2⟩ := ih out ha
        refine ⟨?_, by simp [h2]⟩
        rw [assignNodesD, hf, check_pos (by rfl : (some n).isSome = true), ok_bind, lift, ok_bind, h1, ok_bind]; rfl

theorem assignNodesD_stops (path : List PNode) (ls : List Spl) (h : assignNodes path ls = none) :
    assignNodesD path ls = .error (.assertion 811) := by
  induction ls with
  | nil => cases h
  | cons l ls ih =>
    rw [assignNodes] at h
    rw [assignNodesD]
    cases hf : path.find? (fun n => n.element = l.element) with
    | none => rw [check_neg (by simp), error_bind]
    | some n =>
      cases ha : assignNodes path ls with
      | none => rw [check_pos (by rfl : (some n).isSome = true), ok_bind, lift, ok_bind, ih ha, error_bind]
      | some out => rw [hf, ha] at h; cases h

theorem limitsOn_iff (num : Node → Nat) (s : Src) :
    LimitsOn s ↔ ∃ ls, assignNodes (pathOf num s.nodes) s.limits = some ls := by
  have h := assignNodes_spec (pathOf num s.nodes) s.limits
  have he : LimitsOn s ↔ ∀ l ∈ s.limits, ∃ n ∈ pathOf num s.nodes, n.element = l.element := by
    unfold LimitsOn pathOf
    simp only [List.mem_map, exists_exists_and_eq_and]
  rw [he]
  exact ⟨h.2.1, h.2.2⟩

/-! ### one route -/

theorem stepD_same {el : Nat → Elem} {rp : Nat → Option Nat} {num : Node → Nat} {sort : List PNode → List Spl → List Spl} {st : State}
    {s : Src} (hsort : ∀ path ls, SortedBy path ls (sort path ls)) (hl : Leaves el rp s) (hn : s.nodes.Nodup)
    (hid : s.id = st.1.length) (hname : find s.name (st.2 s.station) = none) (hlim : LimitsOn s) (ho : EachOnce rp s) :
    ∃ b, step el rp num sort st s = some (st.1 ++ [b], nameLoop [s.inter num] st.2) ∧
      stepD el rp num sort st s = .ok (st.1 ++ [b], nameLoop [s.inter num] st.2) := by
  obtain ⟨ls, hls⟩ := (limitsOn_iff num s).1 hlim
  obtain ⟨h1, h2⟩ := assignNodesD_same _ _ _ hls
  have hom := omittedNodes_eq el rp s hl
  have hlen : (sort (pathOf num s.nodes) ls).length = s.limits.length := by
    rw [← (hsort (pathOf num s.nodes) ls).1.length_eq, h2]
  refine ⟨⟨omittedAt el (s.route.omitted.map fun o => ((rp o.1).getD 0, 0)) s.nodes, sort (pathOf num s.nodes) ls⟩, ?_, ?_⟩
  rotate_left
  · unfold stepD
    rw [check_pos (by omega), ok_bind, check_pos hname, ok_bind, hom, lift, ok_bind, h1]
    dsimp only
    rw [ok_bind, check_pos hlen, ok_bind, check_pos ((omitted_iff el rp s hl hn _ hom).2 ho), ok_bind]
    rfl
  · unfold step
    rw [hom, Option.bind_some, hls]; rfl

theorem stepD_stops {el : Nat → Elem} {rp : Nat → Option Nat} {num : Node → Nat} {sort : List PNode → List Spl → List Spl} {st : State}
    {s : Src} (hl : Leaves el rp s) (hn : s.nodes.Nodup)
    (h : ¬ (find s.name (st.2 s.station) = none ∧ LimitsOn s ∧ EachOnce rp s)) : Stops (stepD el rp num sort st s) := by
  unfold stepD
  by_cases h0 : st.1.length + 1 = s.id + 1
  · rw [check_pos h0, ok_bind]
    by_cases h1 : find s.name (st.2 s.station) = none
    · rw [check_pos h1, ok_bind]
      have hom := omittedNodes_eq el rp s hl
      rw [hom, lift, ok_bind]
      dsimp only
      cases hls : assignNodes (pathOf num s.nodes) s.limits with
      | none => rw [assignNodesD_stops _ _ hls, error_bind]; exact ⟨_, rfl⟩
      | some ls =>
        rw [(assignNodesD_same _ _ _ hls).1, ok_bind]
        by_cases h2 : (sort (pathOf num s.nodes) ls).length = s.limits.length
        · rw [check_pos h2, ok_bind, check_neg]
          · exact ⟨_, rfl⟩
          · intro hc
            exact h ⟨h1, (limitsOn_iff num s).2 ⟨ls, hls⟩, (omitted_iff el rp s hl hn _ hom).1 hc⟩
        · rw [check_neg h2]; exact ⟨_, rfl⟩
    · rw [check_neg h1]; exact ⟨_, rfl⟩
  · rw [check_neg h0]; exact ⟨_, rfl⟩

/-! ### all routes -/

theorem find_single (x : Inter) (t : Nat → List (Nat × Nat)) (s n : Nat) :
    find n (nameLoop [x] t s) = none ↔ ¬ (x.station = s ∧ x.name = n) ∧ find n (t s) = none := by
  rw [nameLoop_find]
  cases hl : lastNamed [x] s n with
  | none =>
    have := (lastNamed_none _ _ _).1 hl x List.mem_cons_self
    simp only [this, not_false_iff, true_and]
  | some y =>
    have : ¬ lastNamed [x] s n = none := by rw [hl]; simp
    rw [lastNamed_none] at this
    simp only [List.mem_singleton, forall_eq, not_not] at this
    simp [this]

theorem buildD_from {el : Nat → Elem} {rp : Nat → Option Nat} {num : Node → Nat} {sort : List PNode → List Spl → List Spl}
    (hsort : ∀ path ls, SortedBy path ls (sort path ls)) (rs : List Src) (st : State) (hl : ∀ r ∈ rs, Leaves el rp r)
    (hn : ∀ r ∈ rs, r.nodes.Nodup) (hid : ∀ (i : Nat) r, rs[i]? = some r → r.id = st.1.length + i) :
    (Accepted rp rs ∧ (∀ r ∈ rs, find r.name (st.2 r.station) = none) →
      SameAs (rs.foldlM (stepD el rp num sort) st) (rs.foldlM (step el rp num sort) st)) ∧
    (¬ (Accepted rp rs ∧ ∀ r ∈ rs, find r.name (st.2 r.station) = none) →
      Stops (rs.foldlM (stepD el rp num sort) st)) := by
  induction rs generalizing st with
  | nil =>
    refine ⟨fun _ => ⟨st, rfl, rfl⟩, fun h => absurd ⟨⟨List.Pairwise.nil, by simp⟩, by simp⟩ h⟩
  | cons s rs ih =>
    by_cases hc : find s.name (st.2 s.station) = none ∧ LimitsOn s ∧ EachOnce rp s
    · obtain ⟨b, e1, e2⟩ := stepD_same (num := num) hsort (hl s List.mem_cons_self) (hn s List.mem_cons_self)
        (by simpa using hid 0 s rfl) hc.1 hc.2.1 hc.2.2
      have ih := ih (st.1 ++ [b], nameLoop [s.inter num] st.2) (fun r hr => hl r (List.mem_cons_of_mem _ hr))
        (fun r hr => hn r (List.mem_cons_of_mem _ hr))
        (fun i r hr => by
          have := hid (i + 1) r (by simpa using hr)
          simp only [List.length_append, List.length_singleton]; omega)
      have hiff : (Accepted rp rs ∧ ∀ r ∈ rs, find r.name (nameLoop [s.inter num] st.2 r.station) = none) ↔
          (Accepted rp (s :: rs) ∧ ∀ r ∈ s :: rs, find r.name (st.2 r.station) = none) := by
        simp only [find_single]
        unfold Accepted NamesDiffer
        rw [List.pairwise_cons]
        constructor
        · rintro ⟨⟨g1, g2⟩, g3⟩
          refine ⟨⟨⟨fun r hr h1 h2 => (g3 r hr).1 ⟨h1, h2⟩, g1⟩, ?_⟩, ?_⟩
          · intro r hr
            rcases List.mem_cons.1 hr with rfl | hr
            · exact hc.2
            · exact g2 r hr
          · intro r hr
            rcases List.mem_cons.1 hr with rfl | hr
            · exact hc.1
            · exact (g3 r hr).2
        · rintro ⟨⟨⟨g0, g1⟩, g2⟩, g3⟩
          exact ⟨⟨g1, fun r hr => g2 r (List.mem_cons_of_mem _ hr)⟩, fun r hr => ⟨fun h => g0 r hr h.1 h.2,
            g3 r (List.mem_cons_of_mem _ hr)⟩⟩
      rw [List.foldlM_cons, List.foldlM_cons, e1, e2, ok_bind]
      exact ⟨fun h => ih.1 (hiff.2 h), fun h => ih.2 fun h' => h (hiff.1 h')⟩
    · refine ⟨fun h => absurd ⟨h.2 s List.mem_cons_self, h.1.2 s List.mem_cons_self⟩ hc, fun _ => ?_⟩
      obtain ⟨k, hk⟩ := stepD_stops (num := num) (sort := sort) (st := st) (hl s List.mem_cons_self) (hn s List.mem_cons_self) hc
      rw [List.foldlM_cons, hk, error_bind]
      exact ⟨k, rfl⟩

/-! ### the release build -/

theorem nameLoop_append (a b : List Inter) (t : Nat → List (Nat × Nat)) : nameLoop (a ++ b) t = nameLoop b (nameLoop a t) := by
  induction a generalizing t with
  | nil => rfl
  | cons x a ih => exact ih _

theorem build_from {el : Nat → Elem} {rp : Nat → Option Nat} {num : Node → Nat} {sort : List PNode → List Spl → List Spl}
    (rs : List Src) (st out : State) (h : rs.foldlM (step el rp num sort) st = some out) :
    out.2 = nameLoop (rs.map (Src.inter num)) st.2 ∧ ∃ bs, out.1 = st.1 ++ bs ∧
      bs.map some = rs.map fun s => (omittedNodes el rp s.route).bind fun om =>
        (assignNodes (pathOf num s.nodes) s.limits).map fun ls => ⟨omittedAt el om s.nodes, sort (pathOf num s.nodes) ls⟩ := by
  induction rs generalizing st with
  | nil => cases h; exact ⟨rfl, [], by simp, rfl⟩
  | cons s rs ih =>
    rw [List.foldlM_cons] at h
    unfold step at h
    cases ho : omittedNodes el rp s.route with
    | none => rw [ho] at h; cases h
    | some om =>
      cases ha : assignNodes (pathOf num s.nodes) s.limits with
      | none => rw [ho, ha] at h; cases h
      | some ls =>
        rw [ho, ha] at h
        obtain ⟨h1, bs, h2, h3⟩ := ih _ h
        refine ⟨by rw [h1]; rfl, ⟨omittedAt el om s.nodes, sort (pathOf num s.nodes) ls⟩ :: bs, by rw [h2]; simp, ?_⟩
        rw [List.map_cons, List.map_cons, h3, ho, Option.bind_some, ha]; rfl

/-! ### segments of a line -/

theorem getSegmentD_inside (l : List Segment) (km : Rat) (f b : Segment) (hf : l.head? = some f) (hb : l.getLast? = some b)
    (h1 : f.frm ≤ km) (h2 : km ≤ b.to) (s : Segment) (hs : getSegment l km = some s) :
    getSegmentD l km = if s.frm ≤ km ∧ km ≤ s.to then .ok s else .error (.assertion 31) := by
  have hne : l ≠ [] := by rintro rfl; cases hf
  unfold getSegmentD
  unfold getSegment at hs
  rw [hf, hb] at hs ⊢
  dsimp only at hs ⊢
  rw [if_neg (not_lt.2 h1), if_neg (not_lt.2 h2)] at hs
  rw [check_pos hne, ok_bind, if_neg (not_lt.2 h1), if_neg (not_lt.2 h2)]
  obtain ⟨i, hi, hs⟩ := Option.bind_eq_some_iff.1 hs
  rw [hi, lift, ok_bind, hs, lift, ok_bind]
  by_cases hc : s.frm ≤ km ∧ km ≤ s.to
  · rw [check_pos hc, if_pos hc]; rfl
  · rw [check_neg hc, if_neg hc]; rfl

end Soro.RouteDebug
