import Verif.Proof.Osm

/-! Properties C121 to C123: the export to OpenStreetMap data. -/

namespace Soro
open Osm

/-- two stations with three and two elements; 0 - 1 - 2, 1 - 1 is a loop, 3 - 4, and the tracks 2 - 3 and 0 - 4 lead to the other
station -/
def C121_infra : Infra where
  elements := 5
  stations := [(1, [3, 4]), (0, [0, 1, 2])]
  nbs := fun e => match e with
    | 0 => [some 1, none, some 4] | 1 => [some 0, some 2, some 1, some 2] | 2 => [some 1, some 3]
    | 3 => [some 2, some 4, none] | _ => [some 3, some 0]

theorem C121_infra_valid : C121_infra.Valid where
  some := by decide
  ids := by decide
  once := by decide
  range := by decide
  closed := by
    have h : ∀ e ∈ C121_infra.all, ∀ o ∈ C121_infra.nbs e, ∀ n, o = Option.some n → n ∈ C121_infra.all := by
      have h' : ∀ e ∈ C121_infra.all, ∀ o ∈ C121_infra.nbs e, o.all (fun n => decide (n ∈ C121_infra.all)) = true := by decide
      intro e he o ho n hn
      have := h' e he o ho
      rw [hn] at this
      simpa using this
    exact fun e he n hn => h e he _ hn n rfl

/-! ### C121: nodes and ids -/

/-- C121. With any number of threads, the document has exactly one node for every station and one for every element, whose
id is the id of the element, and apart from these only the points of interpolations. The ids of all nodes and ways are
different. -/
theorem C121_nodes (I : Infra) (hv : I.Valid) (threads : Nat) (ht : 0 < threads) :
    ∃ doc, exportToOsm threads I = some doc ∧
      (doc.nodes.map (·.1) ++ doc.ways.map (·.1)).Nodup ∧
      ∀ x, (x ∈ doc.nodes ∧ ∀ k i, x.2 ≠ .point k i) ↔
        (∃ s ∈ I.stations, x = (I.elements + s.1, .station s.1)) ∨ ∃ e ∈ I.all, x = (e, .element e) := by
  obtain ⟨i, base, doc, h, hb, hn, hw, _, _, _⟩ := export_spec hv threads ht
  refine ⟨doc, h, ?_, ?_⟩
  · rw [hn, hw, List.map_append, pointNodes_ids, List.append_assoc]
    have : List.range' base (i.interps.length * 50) ++ List.range' (base + i.interps.length * 50) doc.ways.length =
        List.range' base (i.interps.length * 50 + doc.ways.length) := by
      rw [← List.range'_append, Nat.one_mul]
    rw [this, List.nodup_append]
    refine ⟨?_, List.nodup_range', ?_⟩
    · exact ((sortNodes_perm _).map _).nodup_iff.2 (nodes_ids_nodup hv)
    · intro a ha b hb' hab
      obtain ⟨x, hx, rfl⟩ := List.mem_map.1 ha
      have := hb x ((sortNodes_perm _).mem_iff.1 hx)
      rw [List.mem_range'_1] at hb'
      omega
  · intro x
    rw [hn, List.mem_append, (sortNodes_perm _).mem_iff, mem_nodes]
    have hpt : x ∈ pointNodes base 50 i.interps.length → ∃ k j, x.2 = .point k j := by
      unfold pointNodes
      rw [List.mem_flatMap]
      rintro ⟨k, _, hk⟩
      obtain ⟨j, _, hj⟩ := List.mem_map.1 hk
      exact ⟨k, j, by rw [← hj]⟩
    constructor
    · rintro ⟨(h | h) | h, hk⟩
      · obtain ⟨s, hs, hx⟩ := h
        exact .inl ⟨s, hs, by rw [hx, Nat.add_comm]⟩
      · exact .inr h
      · obtain ⟨k, j, hkj⟩ := hpt h
        exact absurd hkj (hk k j)
    · rintro (⟨s, hs, hx⟩ | ⟨e, he, hx⟩)
      · exact ⟨.inl (.inl ⟨s, hs, by rw [hx, Nat.add_comm]⟩), by rw [hx]; intros; simp⟩
      · exact ⟨.inl (.inr ⟨e, he, hx⟩), by rw [hx]; intros; simp⟩

/-- C121. The document does not depend on the number of threads. -/
theorem C121_threads (I : Infra) (t1 t2 : Nat) (h1 : 0 < t1) (h2 : 0 < t2) :
    exportToOsm t1 I = exportToOsm t2 I := by
  unfold exportToOsm
  split
  · rfl
  · dsimp only
    rw [exportAll_eq t1 h1, exportAll_eq t2 h2]

example : C121_infra.Valid ∧ (0 < 3) ∧
    ((exportToOsm 3 C121_infra).map fun d => (d.nodes.take 8, d.nodes.length, d.ways.length)) =
      some ([(0, .element 0), (1, .element 1), (2, .element 2), (3, .element 3), (4, .element 4), (5, .station 0),
        (6, .station 1), (7, .point 0 0)], 107, 106) :=
  ⟨C121_infra_valid, by decide, by decide +kernel⟩

/-- C121 fails if the number of threads is not known: then `hardware_concurrency` yields 0, by which the number of nodes is
divided. -/
theorem C121_no_threads_negation (I : Infra) : exportToOsm 0 I = none := by
  unfold exportToOsm
  split
  · rfl
  · simp [exportAll]

/-! ### C122: ends of ways -/

/-- C122. Both ends of every way are nodes of the document. -/
theorem C122_ends (I : Infra) (hv : I.Valid) (threads : Nat) (doc : Doc) (h : exportToOsm threads I = some doc) :
    ∀ w ∈ doc.ways, w.2.1 ∈ doc.nodes.map (·.1) ∧ w.2.2 ∈ doc.nodes.map (·.1) := by
  have ht : 0 < threads := by
    rcases Nat.eq_zero_or_pos threads with h0 | h0
    · rw [h0, C121_no_threads_negation] at h; exact absurd h (by simp)
    · exact h0
  obtain ⟨i, base, doc', h', hb, hn, _, hw, hi, hj⟩ := export_spec hv threads ht
  rw [h, Option.some.injEq] at h'
  subst h'
  have hel : ∀ e, e ∈ I.all → e ∈ doc.nodes.map (·.1) := by
    intro e he
    rw [hn, List.map_append, List.mem_append]
    left
    exact List.mem_map.2 ⟨(e, .element e), (sortNodes_perm _).mem_iff.2 (mem_nodes.2 (.inr ⟨e, he, rfl⟩)), rfl⟩
  have hadj : ∀ a b, I.Adjacent a b → a ∈ I.all ∧ b ∈ I.all := by
    rintro a b (⟨h, h'⟩ | ⟨h, h'⟩)
    · exact ⟨h, hv.closed a h b h'⟩
    · exact ⟨hv.closed b h a h', h⟩
  intro w hwm
  have hm : w.2 ∈ doc.ways.map (·.2) := List.mem_map.2 ⟨w, hwm, rfl⟩
  rw [hw, List.mem_append] at hm
  rcases hm with hm | hm
  · have h1 : between i.ways w.2.1 w.2.2 = 1 := Nat.le_antisymm (hi _ _).2 (between_pos hm)
    have := hadj _ _ ((hi _ _).1.1 h1).1
    exact ⟨hel _ this.1, hel _ this.2⟩
  · obtain ⟨q, hq, hs⟩ := List.mem_flatMap.1 hm
    have hq' := List.mem_zipIdx' hq
    have h1 : between i.interps q.1.1 q.1.2 = 1 :=
      Nat.le_antisymm (hj _ _).2 (between_pos (by rw [show (q.1.1, q.1.2) = q.1 from rfl, hq'.2]; exact List.getElem_mem _))
    have hab := hadj _ _ ((hj _ _).1.1 h1).1
    have hpath : ∀ n ∈ q.1.1 :: List.range' (base + q.2 * 50) 50 ++ [q.1.2], n ∈ doc.nodes.map (·.1) := by
      intro n hnm
      rw [List.cons_append, List.mem_cons, List.mem_append, List.mem_singleton] at hnm
      rcases hnm with hnm | hnm | hnm
      · rw [hnm]; exact hel _ hab.1
      · rw [hn, List.map_append, List.mem_append, pointNodes_ids]
        right
        rw [List.mem_range'_1] at hnm ⊢
        have := hq'.1
        have : q.2 * 50 + 50 ≤ i.interps.length * 50 := by omega
        omega
      · rw [hnm]; exact hel _ hab.2
    have := mem_steps hs
    exact ⟨hpath _ this.1, hpath _ this.2⟩

example : C121_infra.Valid ∧ (exportToOsm 4 C121_infra).isSome = true := ⟨C121_infra_valid, by decide +kernel⟩

/-! ### C123: connections -/

/-- C123. Two elements of the same station that are next to each other are connected by exactly one way; the elements of
different stations by exactly one chain of ways over fifty points, which belong to no other chain; elements that are not
next to each other are not connected, and there are no other ways. -/
theorem C123_connected (I : Infra) (hv : I.Valid) (threads : Nat) (doc : Doc) (h : exportToOsm threads I = some doc) :
    ∃ (direct : List (Nat × Nat)) (chains : List (Nat × List Nat × Nat)),
      doc.ways.map (·.2) = direct ++ chains.flatMap (fun c => steps (c.1 :: c.2.1 ++ [c.2.2])) ∧
      (∀ a b, between direct a b ≤ 1 ∧ (between direct a b = 1 ↔ I.Adjacent a b ∧ I.SameStation a b)) ∧
      (∀ a b, between (chains.map fun c => (c.1, c.2.2)) a b ≤ 1 ∧
        (between (chains.map fun c => (c.1, c.2.2)) a b = 1 ↔ I.Adjacent a b ∧ ¬ I.SameStation a b)) ∧
      (chains.flatMap (·.2.1)).Nodup ∧
      ∀ c ∈ chains, c.2.1.length = 50 ∧ ∀ p ∈ c.2.1, ∃ k j, (p, Kind.point k j) ∈ doc.nodes := by
  have ht : 0 < threads := by
    rcases Nat.eq_zero_or_pos threads with h0 | h0
    · rw [h0, C121_no_threads_negation] at h; exact absurd h (by simp)
    · exact h0
  obtain ⟨i, base, doc', h', _, hn, _, hw, hi, hj⟩ := export_spec hv threads ht
  rw [h, Option.some.injEq] at h'
  subst h'
  refine ⟨i.ways, i.interps.zipIdx.map fun q => (q.1.1, List.range' (base + q.2 * 50) 50, q.1.2), ?_,
    fun a b => ⟨(hi a b).2, (hi a b).1⟩, ?_, ?_, ?_⟩
  · rw [hw, List.flatMap_map]
  · have : ((i.interps.zipIdx.map fun q => (q.1.1, List.range' (base + q.2 * 50) 50, q.1.2)).map
        fun c => (c.1, c.2.2)) = i.interps := by
      rw [List.map_map]
      exact List.zipIdx_map_fst 0 i.interps
    rw [this]
    exact fun a b => ⟨(hj a b).2, (hj a b).1⟩
  · have key : ∀ (l : List (Nat × Nat)) (k : Nat), ((l.zipIdx k).map fun q =>
        (q.1.1, List.range' (base + q.2 * 50) 50, q.1.2)).flatMap (·.2.1) = List.range' (base + k * 50) (l.length * 50) := by
      intro l
      induction l with
      | nil => intro k; simp
      | cons p ps ih =>
        intro k
        rw [List.zipIdx_cons, List.map_cons, List.flatMap_cons, ih, List.length_cons, Nat.add_mul ps.length, Nat.one_mul,
          Nat.add_comm (ps.length * 50), ← List.range'_append, Nat.one_mul, Nat.add_mul, Nat.one_mul, ← Nat.add_assoc]
    rw [key]
    exact List.nodup_range'
  · intro c hc
    obtain ⟨q, hq, rfl⟩ := List.mem_map.1 hc
    refine ⟨by simp, fun p hp => ?_⟩
    have hq' := List.mem_zipIdx' hq
    dsimp only at hp
    rw [List.mem_range'_1] at hp
    refine ⟨q.2, p - (base + q.2 * 50), ?_⟩
    rw [hn, List.mem_append]
    right
    unfold pointNodes
    rw [List.mem_flatMap]
    exact ⟨q.2, List.mem_range.2 hq'.1, List.mem_map.2 ⟨p - (base + q.2 * 50), List.mem_range.2 (by omega), by
      congr 1; omega⟩⟩

/-- C123. In particular, the number of ways between two elements is one if they are next to each other in a station, and
zero otherwise: for elements, ways and chains cannot be confused. -/
theorem C123_direct (I : Infra) (hv : I.Valid) (threads : Nat) (doc : Doc) (h : exportToOsm threads I = some doc) (a b : Nat)
    (ha : a ∈ I.all) (hb : b ∈ I.all) :
    between (doc.ways.map (·.2)) a b ≤ 1 ∧
      (between (doc.ways.map (·.2)) a b = 1 ↔ I.Adjacent a b ∧ I.SameStation a b) := by
  have ht : 0 < threads := by
    rcases Nat.eq_zero_or_pos threads with h0 | h0
    · rw [h0, C121_no_threads_negation] at h; exact absurd h (by simp)
    · exact h0
  obtain ⟨i, base, doc', h', hbase, _, _, hw, hi, _⟩ := export_spec hv threads ht
  rw [h, Option.some.injEq] at h'
  subst h'
  have hlt : ∀ e ∈ I.all, e < base := fun e he => hbase (e, .element e) (mem_nodes.2 (.inr ⟨e, he, rfl⟩))
  have hzero : between (i.interps.zipIdx.flatMap (fun q =>
        steps (q.1.1 :: List.range' (base + q.2 * 50) 50 ++ [q.1.2]))) a b = 0 := by
    refine Classical.byContradiction fun hne => ?_
    have key : ∀ x y, (x, y) ∈ i.interps.zipIdx.flatMap (fun q =>
        steps (q.1.1 :: List.range' (base + q.2 * 50) 50 ++ [q.1.2])) → base ≤ x ∨ base ≤ y := by
      intro x y hxy
      obtain ⟨q, _, hs⟩ := List.mem_flatMap.1 hxy
      have hst := steps_range (base + q.2 * 50) 49 q.1.2
      rw [List.range'_succ, List.cons_append] at hst
      rw [List.range'_succ, List.cons_append, List.cons_append, steps_cons, hst] at hs
      rcases List.mem_cons.1 hs with hs | hs
      · cases hs; right; omega
      · rcases List.mem_append.1 hs with hs | hs
        · obtain ⟨k, _, hk⟩ := List.mem_map.1 hs
          cases hk; left; omega
        · rw [List.mem_singleton] at hs
          cases hs; left; omega
    rcases between_mem hne with hm | hm
    · rcases key _ _ hm with hk | hk
      · have := hlt a ha; omega
      · have := hlt b hb; omega
    · rcases key _ _ hm with hk | hk
      · have := hlt b hb; omega
      · have := hlt a ha; omega
  have : between (doc.ways.map (·.2)) a b = between i.ways a b := by
    rw [hw]
    unfold between at hzero ⊢
    rw [List.countP_append, hzero, Nat.add_zero]
  rw [this]
  exact ⟨(hi a b).2, (hi a b).1⟩

example : C121_infra.Adjacent 0 4 ∧ C121_infra.Adjacent 1 1 ∧ C121_infra.SameStation 1 1 ∧ ¬ C121_infra.SameStation 0 4 := by
  refine ⟨.inl (by decide), .inl (by decide), ⟨(0, [0, 1, 2]), by decide, by decide, by decide⟩, ?_⟩
  rintro ⟨s, hs, h0, h4⟩
  have : ∀ s ∈ C121_infra.stations, ¬ (0 ∈ s.2 ∧ 4 ∈ s.2) := by decide
  exact this s hs ⟨h0, h4⟩

example : ((exportToOsm 2 C121_infra).map fun d => (d.ways.take 4, between (d.ways.map (·.2)) 1 2)) =
    some ([(107, 3, 4), (108, 0, 1), (109, 1, 2), (110, 1, 1)], 1) := by decide +kernel

end Soro
