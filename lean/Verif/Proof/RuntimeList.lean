import Verif.Proof.RuntimeDrive
import Verif.Proof.RuntimeWrap
import Verif.Proof.IntervalAdjust

/-
The list of intervals of a train's path is one that can be driven through.
-/

namespace Soro.Runtime

open Soro.Physics Soro.Runtime.Spec

theorem getIntervalList_keys {fuel : Nat} {tp : Train} {initial : Rat} {nodes : List TNode} {l : List Interval}
    (h : getIntervalList fuel tp initial nodes = .done l) : l.map key = (skelRun nodes).list := by
  rw [adjustAll_key h, ← skel_rawIntervals initial]
  rfl

/-- the events of the path are in order -/
theorem eventsOf_sorted (d : Rat) (nodes : List TNode) (hf : Forward nodes) :
    (eventsOf d nodes).Pairwise (fun a b => a.dist ≤ b.dist) ∧ ∀ e ∈ eventsOf d nodes, d ≤ e.dist := by
  induction nodes generalizing d with
  | nil => exact ⟨List.Pairwise.nil, by simp [eventsOf]⟩
  | cons n l ih =>
    obtain ⟨h1, h2⟩ := ih (d + n.gap) (fun m hm => hf m (by simp [hm]))
    have h0 := hf n (by simp)
    unfold eventsOf
    refine ⟨?_, ?_⟩
    · rw [List.pairwise_append]
      refine ⟨?_, h1, ?_⟩
      · split
        · exact List.pairwise_singleton _ _
        · exact List.Pairwise.nil
      · intro a ha b hb
        split at ha
        · simp only [List.mem_singleton] at ha
          rw [ha]
          exact h2 b hb
        · simp at ha
    · intro e he
      rcases List.mem_append.mp he with he | he
      · split at he
        · simp only [List.mem_singleton] at he
          rw [he]
          simp only
          linarith
        · simp at he
      · linarith [h2 e he]

theorem sublist_flatMap {l : List Interval} {i : Interval} (hi : i ∈ l) : i.events.Sublist (l.flatMap Interval.events) := by
  induction l with
  | nil => simp at hi
  | cons j l ih =>
    rw [List.flatMap_cons]
    rcases List.mem_cons.mp hi with rfl | hi
    · exact List.sublist_append_left _ _
    · exact (ih hi).trans (List.sublist_append_right _ _)

theorem goodFrom_of {p : Interval} {l : List Interval} (h1 : (p :: l).Pairwise (fun a b => a.dist + 1 / 100 ≤ b.dist))
    (h2 : ∀ i ∈ l, ∀ e ∈ i.events, e.dist < i.dist + 1 / 100) (h3 : (p :: l).Pairwise (fun a b => ∀ e ∈ b.events, a.dist ≤ e.dist))
    (h4 : ∀ i ∈ l, i.events.Pairwise (fun a b => a.dist ≤ b.dist)) : GoodFrom p.dist l := by
  induction l generalizing p with
  | nil => trivial
  | cons i l ih =>
    rw [List.pairwise_cons] at h1 h3
    refine ⟨by linarith [h1.1 i (by simp)], ⟨h4 i (by simp), h3.1 i (by simp), h2 i (by simp)⟩, ?_⟩
    exact ih h1.2 (fun j hj => h2 j (by simp [hj])) h3.2 (fun j hj => h4 j (by simp [hj]))

theorem pairwise_key {l : List Interval} {m : List (Rat × Option Halt × List Event)} (h : l.map key = m)
    {R : (Rat × Option Halt × List Event) → (Rat × Option Halt × List Event) → Prop} (hm : m.Pairwise R) :
    l.Pairwise (fun a b => R (key a) (key b)) := by
  rw [← h, List.pairwise_map] at hm
  exact hm

theorem good_of_list {fuel : Nat} {tp : Train} {initial : Rat} {nodes : List TNode} {p : Interval} {l : List Interval}
    (hf : Forward nodes) (h : getIntervalList fuel tp initial nodes = .done (p :: l)) : GoodFrom p.dist l := by
  have hk := getIntervalList_keys h
  obtain ⟨h1, -, -, h2, h3⟩ := skelRun_order nodes hf
  refine goodFrom_of (pairwise_key hk h1) ?_ (pairwise_key hk h3) ?_
  · intro i hi e he
    exact h2 (key i) (by rw [← hk]; exact List.mem_map_of_mem (by simp [hi])) e he
  · intro i hi
    have h4 := skelRun_events nodes
    rw [← hk, List.flatMap_map] at h4
    have h5 := (eventsOf_sorted 0 nodes hf).1
    rw [← h4, List.pairwise_append] at h5
    exact h5.1.sublist (sublist_flatMap (List.mem_cons_of_mem _ hi))

theorem chainR_list {fuel : Nat} {tp : Train} {initial : Rat} {nodes : List TNode} {l : List Interval}
    (hs : SignalsApart nodes) (h : getIntervalList fuel tp initial nodes = .done l) : ChainR l :=
  adjustAll_inv ChainR (fun _ _ _ hm h1 => adjust_chain hm h1) h (rawIntervals_limits initial nodes hs).1

theorem drivableFrom_of {fuel : Nat} {tp : Train} {d top : Rat} (ha : tp.deceleration = some d) (hneg : d < 0) {p : Interval}
    {l : List Interval} (hc : ChainR (p :: l)) (hg : GoodFrom p.dist l) (hs : stableFrom fuel tp top p.dist l)
    (hr : ∀ i ∈ l, 0 ≤ i.right) : DrivableFrom d top p.dist p.right l := by
  induction l generalizing p with
  | nil => trivial
  | cons i l ih =>
    unfold ChainR at hc
    rw [List.isChain_cons_cons] at hc
    exact ⟨⟨hc.1, hg.1, hr i (by simp), adjustOne_none ha hneg hs.1⟩, hg.2.1,
      ih hc.2 hg.2.2 hs.2 (fun j hj => hr j (by simp [hj]))⟩

theorem stable_list {fuel : Nat} {tp : Train} {top initial : Rat} {nodes : List TNode} {p : Interval} {l : List Interval}
    (htop : tp.topSpeed = some top) (h : getIntervalList fuel tp initial nodes = .done (p :: l)) :
    stableFrom fuel tp top p.dist l := by
  obtain ⟨l', hl'⟩ := adjustAll_stable h
  unfold adjust at hl'
  cases l' with
  | nil => simp at hl'
  | cons q l' =>
    rw [htop] at hl'
    simp only at hl'
    obtain ⟨h1, hst⟩ := adjustFrom_false hl'
    simp only [List.cons.injEq] at h1
    rw [h1.1, h1.2]
    exact hst

/-! ### Where the events of the borders are -/

/-- the events with distance and halt of their interval -/
def flat (l : List (Rat × Option Halt × List Event)) : List (Rat × Option Halt × Event) :=
  l.flatMap (fun i => i.2.2.map (fun e => (i.1, i.2.1, e)))

theorem flat_append (l m : List (Rat × Option Halt × List Event)) : flat (l ++ m) = flat l ++ flat m := by
  simp [flat, List.flatMap_append]

theorem flat_length (l : List (Rat × Option Halt × List Event)) : (flat l).length = (l.flatMap (fun i => i.2.2)).length := by
  induction l with
  | nil => rfl
  | cons i l ih =>
    have : flat (i :: l) = i.2.2.map (fun e => (i.1, i.2.1, e)) ++ flat l := rfl
    rw [this, List.flatMap_cons]
    simp [ih]

theorem take_concat {pre : List TNode} {n : TNode} {k : Nat} (h : k ≤ pre.length) : (pre ++ [n]).take k = pre.take k :=
  List.take_append_of_le_length h

/-- every border has its interval, and its event is the last one of it -/
theorem skelRun_at (nodes : List TNode) (hb : BordersApart nodes) : ∀ (k : Nat) (n : TNode), nodes[k]? = some n → Border n →
    (∃ i ∈ (skelRun nodes).list, i.1 = pos nodes k) ∧
    (n.isEvent = true → (flat (skelRun nodes).list)[(eventsOf 0 (nodes.take k)).length]?
      = some (pos nodes k, n.stop, { node := n.id, dist := pos nodes k })) := by
  induction nodes using List.reverseRecOn with
  | nil => intro k n hk; simp at hk
  | append_singleton pre m ih =>
    intro k n hk hn
    have hold := ih (bordersApart_prefix hb)
    have hgrow : ∃ rest, (skelRun (pre ++ [m])).list = (skelRun pre).list ++ rest := by
      rw [skelRun_concat]
      unfold skelStep
      by_cases ho : m.omitted = true
      · simp only [ho, if_true]
        exact ⟨[], by simp⟩
      · have ho' : m.omitted = false := by simpa using ho
        simp only [ho', Bool.false_eq_true, if_false]
        by_cases hc : closes m = true
        · simp only [hc, if_true]
          rw [pushKey_new (pre := pre) (n := m) (fun i a ha hba => by
            have := hb i pre.length a m (List.getElem?_eq_some_iff.mp ha).1 (getElem?_prefix ha) (by simp) hba
              ((closes_iff m).mp ⟨ho', hc⟩)
            rwa [pos_prefix _ _ _ (List.getElem?_eq_some_iff.mp ha).1] at this)]
          exact ⟨_, rfl⟩
        · simp only [hc, Bool.false_eq_true, if_false]
          exact ⟨[], by simp⟩
    by_cases hlt : k < pre.length
    · rw [List.getElem?_append_left hlt] at hk
      obtain ⟨h1, h2⟩ := hold k n hk hn
      obtain ⟨rest, hrest⟩ := hgrow
      rw [pos_prefix _ _ _ hlt, take_concat hlt.le, hrest]
      refine ⟨?_, fun he => ?_⟩
      · obtain ⟨i, hi, hp⟩ := h1
        exact ⟨i, List.mem_append.mpr (Or.inl hi), hp⟩
      · have h3 := h2 he
        rw [flat_append, List.getElem?_append_left (List.getElem?_eq_some_iff.mp h3).1]
        exact h3
    · have hk' : k = pre.length := by
        have := (List.getElem?_eq_some_iff.mp hk).1
        simp only [List.length_append, List.length_singleton] at this
        omega
      subst hk'
      simp only [List.getElem?_concat_length, Option.some.injEq] at hk
      subst hk
      rw [take_concat (le_refl _), List.take_length]
      obtain ⟨ho', hc⟩ := (closes_iff m).mpr hn
      have hlist : (skelRun (pre ++ [m])).list = (skelRun pre).list ++ [((skelRun pre).dist + m.gap, m.stop,
          if m.isEvent then (skelRun pre).events ++ [{ node := m.id, dist := (skelRun pre).dist + m.gap }]
          else (skelRun pre).events)] := by
        rw [skelRun_concat]
        unfold skelStep
        simp only [ho', Bool.false_eq_true, if_false, hc, if_true]
        rw [pushKey_new (pre := pre) (n := m) (fun i a ha hba => by
            have := hb i pre.length a m (List.getElem?_eq_some_iff.mp ha).1 (getElem?_prefix ha) (by simp) hba hn
            rwa [pos_prefix _ _ _ (List.getElem?_eq_some_iff.mp ha).1] at this)]
      rw [hlist, pos_last, ← skelRun_dist]
      refine ⟨⟨_, List.mem_append.mpr (Or.inr (List.mem_singleton.mpr rfl)), rfl⟩, fun he => ?_⟩
      rw [flat_append]
      have hlen : (eventsOf 0 pre).length = (flat (skelRun pre).list).length + (skelRun pre).events.length := by
        rw [flat_length, ← skelRun_events pre, List.length_append]
      rw [hlen, List.getElem?_append_right (by omega), Nat.add_sub_cancel_left]
      simp [flat, he]

theorem allEvents_flat (l : List Interval) : (allEvents l).map (fun x => (x.1.dist, x.1.halt, x.2)) = flat (l.map key) := by
  induction l with
  | nil => rfl
  | cons i l ih =>
    have h1 : allEvents (i :: l) = i.events.map (fun e => (i, e)) ++ allEvents l := rfl
    have h2 : flat ((i :: l).map key) = i.events.map (fun e => (i.dist, i.halt, e)) ++ flat (l.map key) := rfl
    rw [h1, h2, List.map_append, ih, List.map_map]
    rfl

/-- a timestamp of an event of the first interval: the start -/
def AtStart (start : Nat) (e : Event) (s : Stamp) : Prop :=
  s.node = e.node ∧ s.arrival = start ∧ s.departure = start

theorem runIntervals_spec {fuel : Nat} {tp : Train} {d : Rat} {start : Nat} {p : Interval} {l : List Interval}
    {q : Rat × List Stamp} (ha : tp.deceleration = some d) (hneg : d < 0) (hg : GoodFrom p.dist l)
    (h : runIntervals fuel tp none start (p :: l) = .done q) :
    InOrder q.2 ∧ (∀ s ∈ q.2, start ≤ s.arrival ∧ s.departure ≤ start + secs q.1) ∧
    ∃ s1 s2, q.2 = s1 ++ s2 ∧ List.Forall₂ (AtStart start) p.events s1 ∧ List.Forall₂ Fitting (allEvents l) s2 := by
  unfold runIntervals at h
  obtain ⟨q', hq, rfl⟩ := Outcome.map_eq_done h
  obtain ⟨g1, g2, g3, g4⟩ := runFrom_spec ha hneg (le_refl _) hg hq
  have hs : ∀ s ∈ p.events.map (fun e => ({ arrival := start, departure := start, node := e.node } : Stamp)),
      s.arrival = start ∧ s.departure = start := by
    intro s hs
    obtain ⟨e, -, rfl⟩ := List.mem_map.mp hs
    exact ⟨rfl, rfl⟩
  have h0 : secs 0 = 0 := by decide
  refine ⟨⟨?_, ?_⟩, ?_, _, _, rfl, ?_, g4⟩
  · refine List.pairwise_append.mpr ⟨?_, g2.1, fun a ha' b hb => Or.inl ?_⟩
    · rw [List.pairwise_map]
      exact List.pairwise_of_forall (fun _ _ => Or.inl (le_refl _))
    · have := (hs a ha').2
      have := (g3 b hb).1
      omega
  · intro s hm
    rcases List.mem_append.mp hm with hm | hm
    · have := hs s hm
      omega
    · exact g2.2 s hm
  · intro s hm
    simp only
    rcases List.mem_append.mp hm with hm | hm
    · have := hs s hm
      omega
    · have := g3 s hm
      omega
  · rw [List.forall₂_map_right_iff, List.forall₂_same]
    exact fun _ _ => ⟨rfl, rfl, rfl⟩

theorem runIntervals_wrap {m fuel : Nat} {tp : Train} {d : Rat} {start : Nat} {p : Interval} {l : List Interval}
    {q : Rat × List Stamp} (ha : tp.deceleration = some d) (hneg : d < 0) (hg : GoodFrom p.dist l)
    (h : runIntervals fuel tp none start (p :: l) = .done q) (hm : start + secs q.1 < m) :
    runIntervals fuel tp (some m) start (p :: l) = .done q := by
  unfold runIntervals at h ⊢
  obtain ⟨q', hq, rfl⟩ := Outcome.map_eq_done h
  simp only
  rw [runFrom_wrap ha hneg (le_refl _) hg hq hm]
  rfl

end Soro.Runtime
