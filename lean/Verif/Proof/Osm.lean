import Verif.Spec.Osm
import Mathlib.Data.List.Nodup
import Mathlib.Data.List.Perm.Basic

/-! Lemmas about the export to OpenStreetMap data. -/

namespace Soro.Osm

theorem put_self {β : Type} (m : Nat → β) (k : Nat) (v : β) : put m k v k = v := by simp [put]

theorem put_ne {β : Type} (m : Nat → β) {k j : Nat} (v : β) (h : j ≠ k) : put m k v j = m j := by simp [put, h]

/-! ### stations of elements -/

theorem mapStation_at (s : Nat) (es : List Nat) (m : Nat → Option Nat) (e : Nat) :
    mapStation s es m e = if e ∈ es then some s else m e := by
  induction es generalizing m with
  | nil => simp [mapStation]
  | cons a as ih =>
    rw [mapStation, ih]
    by_cases h : e ∈ as
    · simp [h]
    · by_cases h' : e = a
      · subst h'; simp [h, put_self]
      · simp [h, h', put_ne]

theorem mapStations_at (ss : List (Nat × List Nat)) (m : Nat → Option Nat) (hn : (ss.flatMap (·.2)).Nodup) :
    (∀ s ∈ ss, ∀ e ∈ s.2, mapStations ss m e = some s.1) ∧
      (∀ e, e ∉ ss.flatMap (·.2) → mapStations ss m e = m e) := by
  induction ss generalizing m with
  | nil => exact ⟨fun _ h => absurd h List.not_mem_nil, fun _ _ => rfl⟩
  | cons a as ih =>
    obtain ⟨s, es⟩ := a
    rw [List.flatMap_cons, List.nodup_append] at hn
    obtain ⟨h1, h2⟩ := ih (mapStation s es m) hn.2.1
    constructor
    · intro t ht e he
      rw [mapStations]
      rcases List.mem_cons.1 ht with h | h
      · rw [h] at he ⊢
        rw [h2 e (fun hc => hn.2.2 e he e hc rfl), mapStation_at, if_pos he]
      · exact h1 t h e he
    · intro e he
      rw [List.flatMap_cons, List.mem_append, not_or] at he
      rw [mapStations, h2 e he.2, mapStation_at, if_neg he.1]

theorem stationOf_eq {I : Infra} (hv : I.Valid) {s : Nat × List Nat} (hs : s ∈ I.stations) {e : Nat} (he : e ∈ s.2) :
    I.stationOf e = some s.1 := (mapStations_at I.stations _ hv.once).1 s hs e he

theorem mem_all {I : Infra} {e : Nat} : e ∈ I.all ↔ ∃ s ∈ I.stations, e ∈ s.2 := by
  unfold Infra.all; exact List.mem_flatMap

theorem stationOf_some {I : Infra} (hv : I.Valid) {e : Nat} (he : e ∈ I.all) : ∃ s, I.stationOf e = some s := by
  obtain ⟨s, hs, h⟩ := mem_all.1 he
  exact ⟨s.1, stationOf_eq hv hs h⟩

theorem same_iff {I : Infra} (hv : I.Valid) {a b : Nat} (ha : a ∈ I.all) (hb : b ∈ I.all) :
    I.stationOf a = I.stationOf b ↔ I.SameStation a b := by
  obtain ⟨s, hs, has⟩ := mem_all.1 ha
  obtain ⟨t, ht, hbt⟩ := mem_all.1 hb
  constructor
  · intro h
    rw [stationOf_eq hv hs has, stationOf_eq hv ht hbt] at h
    have : s = t := List.inj_on_of_nodup_map hv.ids hs ht (Option.some.inj h)
    subst this
    exact ⟨s, hs, has, hbt⟩
  · rintro ⟨u, hu, hau, hbu⟩
    rw [stationOf_eq hv hu hau, stationOf_eq hv hu hbu]

/-! ### ways -/

theorem between_append (l : List (Nat × Nat)) (p : Nat × Nat) (a b : Nat) :
    between (l ++ [p]) a b = between l a b + if p = (a, b) ∨ p = (b, a) then 1 else 0 := by
  unfold between
  rw [List.countP_append, List.countP_cons, List.countP_nil]
  simp

theorem between_comm (l : List (Nat × Nat)) (a b : Nat) : between l a b = between l b a := by
  unfold between
  congr 1
  funext p
  simp only [or_comm]

/-- what holds after the pairs in `D` have been looked at -/
structure Inv (I : Infra) (i : Info) (D : List (Nat × Nat)) : Prop where
  toWay : ∀ a b, b ∈ i.toWay a ↔ (a, b) ∈ D ∨ (b, a) ∈ D
  ways : ∀ a b, between i.ways a b = if b ∈ i.toWay a ∧ I.stationOf a = I.stationOf b then 1 else 0
  interps : ∀ a b, between i.interps a b = if b ∈ i.toWay a ∧ I.stationOf a ≠ I.stationOf b then 1 else 0

theorem Inv.symm {I : Infra} {i : Info} {D : List (Nat × Nat)} (h : Inv I i D) (a b : Nat) :
    b ∈ i.toWay a ↔ a ∈ i.toWay b := by rw [h.toWay, h.toWay, or_comm]

/-- the map after a pair was added -/
theorem toWay_add (m : Nat → List Nat) (e n a b : Nat) :
    b ∈ put (put m n (m n ++ [e])) e (put m n (m n ++ [e]) e ++ [n]) a ↔
      b ∈ m a ∨ (e, n) = (a, b) ∨ (e, n) = (b, a) := by
  by_cases h1 : a = e
  · subst h1
    rw [put_self]
    by_cases h2 : a = n
    · subst h2
      rw [put_self]; simp [eq_comm]
    · rw [put_ne _ _ h2, List.mem_append, List.mem_singleton]
      simp only [Prod.mk.injEq]
      constructor
      · rintro (h | h)
        · exact .inl h
        · exact .inr (.inl ⟨trivial, h.symm⟩)
      · rintro (h | ⟨_, h⟩ | ⟨h, h'⟩)
        · exact .inl h
        · exact .inr h.symm
        · exact absurd h'.symm h2
  · rw [put_ne _ _ h1]
    by_cases h2 : a = n
    · subst h2
      rw [put_self, List.mem_append, List.mem_singleton]
      simp only [Prod.mk.injEq]
      constructor
      · rintro (h | h)
        · exact .inl h
        · exact .inr (.inr ⟨h.symm, trivial⟩)
      · rintro (h | ⟨h, _⟩ | ⟨h, _⟩)
        · exact .inl h
        · exact absurd h.symm h1
        · exact .inr h.symm
    · rw [put_ne _ _ h2]
      simp only [Prod.mk.injEq]
      constructor
      · exact .inl
      · rintro (h | ⟨h, _⟩ | ⟨_, h⟩)
        · exact h
        · exact absurd h.symm h1
        · exact absurd h.symm h2

theorem Inv.skip {I : Infra} {i : Info} {D : List (Nat × Nat)} (h : Inv I i D) {e n : Nat} (hm : e ∈ i.toWay n) :
    Inv I i (D ++ [(e, n)]) := by
  refine ⟨fun a b => ?_, h.ways, h.interps⟩
  rw [h.toWay, List.mem_append, List.mem_append, List.mem_singleton, List.mem_singleton]
  constructor
  · rintro (h | h)
    · exact .inl (.inl h)
    · exact .inr (.inl h)
  · have hd := (h.toWay n e).1 hm
    rintro ((h | h) | (h | h))
    · exact .inl h
    · cases h; exact hd.symm
    · exact .inr h
    · cases h; exact hd

theorem count_add {I : Infra} {i : Info} {D : List (Nat × Nat)} (h : Inv I i D) {e n : Nat} (hm : e ∉ i.toWay n)
    (l : List (Nat × Nat)) (P : Nat → Nat → Prop) [∀ a b, Decidable (P a b)] (hP : ∀ a b, P a b ↔ P b a)
    (hl : ∀ a b, between l a b = if b ∈ i.toWay a ∧ P a b then 1 else 0) (m' : Nat → List Nat)
    (hm' : ∀ a b, b ∈ m' a ↔ b ∈ i.toWay a ∨ (e, n) = (a, b) ∨ (e, n) = (b, a)) (a b : Nat) :
    (P e n → between (l ++ [(e, n)]) a b = if b ∈ m' a ∧ P a b then 1 else 0) ∧
      (¬ P e n → between l a b = if b ∈ m' a ∧ P a b then 1 else 0) := by
  have key : (e, n) = (a, b) ∨ (e, n) = (b, a) → b ∉ i.toWay a ∧ (P a b ↔ P e n) := by
    rintro (hh | hh) <;> cases hh
    · exact ⟨fun hc => hm ((h.symm e n).1 hc), Iff.rfl⟩
    · exact ⟨hm, hP _ _⟩
  constructor
  · intro hp
    rw [between_append, hl]
    by_cases hc : (e, n) = (a, b) ∨ (e, n) = (b, a)
    · obtain ⟨h1, h2⟩ := key hc
      rw [if_neg (fun hh => h1 hh.1), if_pos hc, if_pos ⟨(hm' a b).2 (.inr hc), h2.2 hp⟩]
    · rw [if_neg hc]
      have : b ∈ m' a ↔ b ∈ i.toWay a := by rw [hm']; exact or_iff_left hc
      simp only [this, Nat.add_zero]
  · intro hp
    rw [hl]
    by_cases hc : (e, n) = (a, b) ∨ (e, n) = (b, a)
    · obtain ⟨h1, h2⟩ := key hc
      rw [if_neg (fun hh => h1 hh.1), if_neg (fun hh => hp (h2.1 hh.2))]
    · have : b ∈ m' a ↔ b ∈ i.toWay a := by rw [hm']; exact or_iff_left hc
      simp only [this]

theorem Inv.add_interp {I : Infra} {i : Info} {D : List (Nat × Nat)} (h : Inv I i D) {e n : Nat} (hm : e ∉ i.toWay n)
    (hs : I.stationOf e ≠ I.stationOf n) :
    Inv I ⟨i.ways, i.interps ++ [(e, n)],
      put (put i.toWay n (i.toWay n ++ [e])) e (put i.toWay n (i.toWay n ++ [e]) e ++ [n])⟩ (D ++ [(e, n)]) := by
  have hw := toWay_add i.toWay e n
  refine ⟨fun a b => ?_, fun a b => ?_, fun a b => ?_⟩
  · rw [hw, h.toWay, List.mem_append, List.mem_append, List.mem_singleton, List.mem_singleton, eq_comm (a := (e, n)),
      eq_comm (a := (e, n))]
    tauto
  · exact (count_add h hm i.ways (fun a b => I.stationOf a = I.stationOf b) (fun _ _ => eq_comm) h.ways _ hw a b).2 hs
  · exact (count_add h hm i.interps (fun a b => I.stationOf a ≠ I.stationOf b) (fun _ _ => ne_comm) h.interps _ hw a b).1 hs

theorem Inv.add_way {I : Infra} {i : Info} {D : List (Nat × Nat)} (h : Inv I i D) {e n : Nat} (hm : e ∉ i.toWay n)
    (hs : I.stationOf e = I.stationOf n) :
    Inv I ⟨i.ways ++ [(e, n)], i.interps,
      put (put i.toWay n (i.toWay n ++ [e])) e (put i.toWay n (i.toWay n ++ [e]) e ++ [n])⟩ (D ++ [(e, n)]) := by
  have hw := toWay_add i.toWay e n
  refine ⟨fun a b => ?_, fun a b => ?_, fun a b => ?_⟩
  · rw [hw, h.toWay, List.mem_append, List.mem_append, List.mem_singleton, List.mem_singleton, eq_comm (a := (e, n)),
      eq_comm (a := (e, n))]
    tauto
  · exact (count_add h hm i.ways (fun a b => I.stationOf a = I.stationOf b) (fun _ _ => eq_comm) h.ways _ hw a b).1 hs
  · exact (count_add h hm i.interps (fun a b => I.stationOf a ≠ I.stationOf b) (fun _ _ => ne_comm) h.interps _ hw a b).2
      (fun hc => hc hs)

/-- the pairs of an element and its neighbours -/
def pairs (e : Nat) (ns : List (Option Nat)) : List (Nat × Nat) := (ns.filterMap id).map fun n => (e, n)

theorem neighbourLoop_spec {I : Infra} (e s : Nat) (he : I.stationOf e = some s) (ns : List (Option Nat))
    (hns : ∀ n, some n ∈ ns → ∃ t, I.stationOf n = some t) (i : Info) (D : List (Nat × Nat)) (h : Inv I i D) :
    ∃ i', neighbourLoop I e s ns i = some i' ∧ Inv I i' (D ++ pairs e ns) := by
  induction ns generalizing i D with
  | nil => exact ⟨i, rfl, by simpa [pairs] using h⟩
  | cons o os ih =>
    have ih' := fun i D h => ih (fun n hn => hns n (List.mem_cons_of_mem _ hn)) i D h
    cases o with
    | none => exact ih' i D h
    | some n =>
      have hp : D ++ pairs e (some n :: os) = D ++ [(e, n)] ++ pairs e os := by simp [pairs]
      rw [hp, neighbourLoop]
      by_cases hc : e ∈ i.toWay n
      · rw [if_pos (by simpa using hc)]
        exact ih' i _ (h.skip hc)
      · rw [if_neg (by simpa using hc)]
        obtain ⟨t, ht⟩ := hns n List.mem_cons_self
        rw [ht]
        dsimp only
        by_cases hts : t ≠ s
        · rw [if_pos hts]
          exact ih' _ _ (h.add_interp hc (by rw [he, ht]; intro hh; exact hts (Option.some.inj hh).symm))
        · rw [if_neg hts]
          exact ih' _ _ (h.add_way hc (by rw [he, ht]; exact congrArg some (Classical.byContradiction fun hh => hts (Ne.symm hh))))

theorem elementLoop_spec {I : Infra} (hv : I.Valid) (es : List Nat) (hes : ∀ e ∈ es, e ∈ I.all)
    (ns : List (Nat × Kind)) (i : Info) (D : List (Nat × Nat)) (h : Inv I i D) :
    ∃ i', elementLoop I es (ns, i) = some (ns ++ es.map (fun e => (e, .element e)), i') ∧
      Inv I i' (D ++ es.flatMap fun e => pairs e (I.nbs e)) := by
  induction es generalizing ns i D with
  | nil => exact ⟨i, by simp [elementLoop], by simpa using h⟩
  | cons e es ih =>
    obtain ⟨s, hs⟩ := stationOf_some hv (hes e List.mem_cons_self)
    obtain ⟨i1, h1, hi1⟩ := neighbourLoop_spec e s hs (I.nbs e)
      (fun n hn => stationOf_some hv (hv.closed e (hes e List.mem_cons_self) n hn)) i D h
    obtain ⟨i2, h2, hi2⟩ := ih (fun a ha => hes a (List.mem_cons_of_mem _ ha)) (ns ++ [(e, .element e)]) i1 _ hi1
    refine ⟨i2, ?_, ?_⟩
    · rw [elementLoop]
      unfold createWays
      dsimp only
      rw [hs]
      dsimp only
      rw [h1]
      dsimp only
      rw [h2]
      simp
    · simpa [List.append_assoc] using hi2

/-- the nodes of the stations and elements, before sorting -/
def Infra.nodes (I : Infra) : List (Nat × List Nat) → List (Nat × Kind) :=
  fun ss => ss.flatMap fun s => (s.1 + I.elements, Kind.station s.1) :: s.2.map fun e => (e, .element e)

theorem stationLoop_spec {I : Infra} (hv : I.Valid) (ss : List (Nat × List Nat)) (hss : ∀ s ∈ ss, s ∈ I.stations)
    (ns : List (Nat × Kind)) (i : Info) (D : List (Nat × Nat)) (h : Inv I i D) :
    ∃ i', stationLoop I ss (ns, i) = some (ns ++ I.nodes ss, i') ∧
      Inv I i' (D ++ (ss.flatMap (·.2)).flatMap fun e => pairs e (I.nbs e)) := by
  induction ss generalizing ns i D with
  | nil => exact ⟨i, by simp [stationLoop, Infra.nodes], by simpa using h⟩
  | cons s ss ih =>
    obtain ⟨s, es⟩ := s
    obtain ⟨i1, h1, hi1⟩ := elementLoop_spec hv es
      (fun e he => mem_all.2 ⟨_, hss _ List.mem_cons_self, he⟩) (ns ++ [(s + I.elements, .station s)]) i D h
    obtain ⟨i2, h2, hi2⟩ := ih (fun a ha => hss a (List.mem_cons_of_mem _ ha)) _ i1 _ hi1
    refine ⟨i2, ?_, ?_⟩
    · rw [stationLoop]
      dsimp only
      rw [h1]
      dsimp only
      rw [h2]
      simp [Infra.nodes]
    · simpa [List.append_assoc] using hi2

theorem Inv.start (I : Infra) : Inv I ⟨[], [], fun _ => []⟩ [] := by
  refine ⟨fun a b => by simp, fun a b => by simp [between], fun a b => by simp [between]⟩

/-- what the loops over the stations, elements and neighbours yield -/
theorem collect_spec {I : Infra} (hv : I.Valid) :
    ∃ i, stationLoop I I.stations ([], ⟨[], [], fun _ => []⟩) = some (I.nodes I.stations, i) ∧
      (∀ a b, (between i.ways a b = 1 ↔ I.Adjacent a b ∧ I.SameStation a b) ∧ between i.ways a b ≤ 1) ∧
      (∀ a b, (between i.interps a b = 1 ↔ I.Adjacent a b ∧ ¬ I.SameStation a b) ∧ between i.interps a b ≤ 1) := by
  obtain ⟨i, h1, h2⟩ := stationLoop_spec hv I.stations (fun _ h => h) [] _ _ (Inv.start I)
  simp only [List.nil_append] at h1 h2
  have hadj : ∀ a b, b ∈ i.toWay a ↔ I.Adjacent a b := by
    intro a b
    rw [h2.toWay]
    have hmem : ∀ a b, (a, b) ∈ (I.stations.flatMap (·.2)).flatMap (fun e => pairs e (I.nbs e)) ↔
        a ∈ I.all ∧ some b ∈ I.nbs a := by
      intro a b
      rw [List.mem_flatMap]
      constructor
      · rintro ⟨e, he, hp⟩
        simp only [pairs, List.mem_map, List.mem_filterMap, id] at hp
        obtain ⟨n, ⟨o, ho, hon⟩, hh⟩ := hp
        cases hh
        subst hon
        exact ⟨he, ho⟩
      · rintro ⟨ha, hb⟩
        exact ⟨a, ha, by simp only [pairs, List.mem_map, List.mem_filterMap, id]; exact ⟨b, ⟨some b, hb, rfl⟩, rfl⟩⟩
    rw [hmem, hmem]
    rfl
  have hall : ∀ a b, I.Adjacent a b → a ∈ I.all ∧ b ∈ I.all := by
    rintro a b (⟨h, h'⟩ | ⟨h, h'⟩)
    · exact ⟨h, hv.closed a h b h'⟩
    · exact ⟨hv.closed b h a h', h⟩
  refine ⟨i, h1, fun a b => ?_, fun a b => ?_⟩
  · rw [h2.ways]
    constructor
    · by_cases hc : b ∈ i.toWay a ∧ I.stationOf a = I.stationOf b
      · rw [if_pos hc]
        have ha := (hadj a b).1 hc.1
        exact ⟨fun _ => ⟨ha, (same_iff hv (hall a b ha).1 (hall a b ha).2).1 hc.2⟩, fun _ => rfl⟩
      · rw [if_neg hc]
        refine ⟨fun h => absurd h (by decide), fun ⟨h, h'⟩ => absurd ⟨(hadj a b).2 h, ?_⟩ hc⟩
        exact (same_iff hv (hall a b h).1 (hall a b h).2).2 h'
    · split <;> decide
  · rw [h2.interps]
    constructor
    · by_cases hc : b ∈ i.toWay a ∧ I.stationOf a ≠ I.stationOf b
      · rw [if_pos hc]
        have ha := (hadj a b).1 hc.1
        exact ⟨fun _ => ⟨ha, fun hs => hc.2 ((same_iff hv (hall a b ha).1 (hall a b ha).2).2 hs)⟩, fun _ => rfl⟩
      · rw [if_neg hc]
        refine ⟨fun h => absurd h (by decide), fun ⟨h, h'⟩ => absurd ⟨(hadj a b).2 h, ?_⟩ hc⟩
        exact fun hs => h' ((same_iff hv (hall a b h).1 (hall a b h).2).1 hs)
    · split <;> decide

theorem between_pos {l : List (Nat × Nat)} {a b : Nat} (h : (a, b) ∈ l) : 1 ≤ between l a b :=
  List.countP_pos_iff.2 ⟨(a, b), h, by simp⟩

theorem between_mem {l : List (Nat × Nat)} {a b : Nat} (h : between l a b ≠ 0) : (a, b) ∈ l ∨ (b, a) ∈ l := by
  obtain ⟨p, hp, hh⟩ := List.countP_pos_iff.1 (Nat.pos_of_ne_zero h)
  rcases of_decide_eq_true hh with h | h
  · left; rwa [← h]
  · right; rwa [← h]

/-! ### sorting and exporting in threads -/

theorem insertNode_perm (a : Nat × Kind) (l : List (Nat × Kind)) : (insertNode a l).Perm (a :: l) := by
  induction l with
  | nil => exact List.Perm.refl _
  | cons b bs ih =>
    rw [insertNode]
    split
    · exact List.Perm.refl _
    · exact (ih.cons b).trans (List.Perm.swap a b bs)

theorem sortNodes_perm (l : List (Nat × Kind)) : (sortNodes l).Perm l := by
  induction l with
  | nil => exact List.Perm.refl _
  | cons a as ih => rw [sortNodes]; exact (insertNode_perm a _).trans (ih.cons a)

theorem insertNode_sorted (a : Nat × Kind) (l : List (Nat × Kind)) (h : l.Pairwise fun a b => a.1 ≤ b.1) :
    (insertNode a l).Pairwise fun a b => a.1 ≤ b.1 := by
  induction l with
  | nil => exact List.pairwise_singleton _ _
  | cons b bs ih =>
    rw [insertNode]
    rw [List.pairwise_cons] at h
    split
    · rename_i hab
      rw [List.pairwise_cons]
      refine ⟨fun c hc => ?_, List.pairwise_cons.2 h⟩
      rcases List.mem_cons.1 hc with hc | hc
      · rw [hc]; exact hab
      · exact Nat.le_trans hab (h.1 c hc)
    · rename_i hab
      rw [List.pairwise_cons]
      refine ⟨fun c hc => ?_, ih h.2⟩
      rcases List.mem_cons.1 ((insertNode_perm a bs).mem_iff.1 hc) with hc | hc
      · rw [hc]; omega
      · exact h.1 c hc

theorem sortNodes_sorted (l : List (Nat × Kind)) : (sortNodes l).Pairwise fun a b => a.1 ≤ b.1 := by
  induction l with
  | nil => exact List.Pairwise.nil
  | cons a as ih => rw [sortNodes]; exact insertNode_sorted a _ ih

theorem le_last {l : List (Nat × Kind)} (h : l.Pairwise fun a b => a.1 ≤ b.1) {z : Nat × Kind} (hz : l.getLast? = some z)
    {a : Nat × Kind} (ha : a ∈ l) : a.1 ≤ z.1 := by
  induction l with
  | nil => exact absurd ha List.not_mem_nil
  | cons b bs ih =>
    rw [List.pairwise_cons] at h
    cases bs with
    | nil =>
      simp at hz ha
      rw [ha, hz]
      exact Nat.le_refl _
    | cons c cs =>
      have hz' : (c :: cs).getLast? = some z := by rw [List.getLast?_cons_cons] at hz; exact hz
      rcases List.mem_cons.1 ha with ha | ha
      · rw [ha]; exact h.1 z (List.mem_of_getLast? hz')
      · exact ih h.2 hz' ha

theorem exportNodes_range (nodes : List (Nat × Kind)) (k lo : Nat) (h : lo + k ≤ nodes.length) :
    exportNodes nodes (List.range' lo k) = some ((nodes.drop lo).take k) := by
  induction k generalizing lo with
  | zero => simp [exportNodes]
  | succ k ih =>
    rw [List.range'_succ, exportNodes, ih (lo + 1) (by omega)]
    have hlt : lo < nodes.length := by omega
    rw [List.getElem?_eq_getElem hlt, List.drop_eq_getElem_cons hlt, List.take_succ_cons]

theorem exportThreads_range (nodes : List (Nat × Kind)) (unit k t : Nat) :
    exportThreads nodes unit (List.range' t k) = some ((nodes.drop (unit * t)).take (unit * k)) := by
  induction k generalizing t with
  | zero => simp [exportThreads]
  | succ k ih =>
    rw [List.range'_succ, exportThreads, ih (t + 1)]
    have hsplit : (nodes.drop (unit * t)).take (unit * (k + 1)) =
        (nodes.drop (unit * t)).take unit ++ (nodes.drop (unit * (t + 1))).take (unit * k) := by
      rw [show unit * (k + 1) = unit + unit * k by rw [Nat.mul_succ, Nat.add_comm], List.take_add, List.drop_drop,
        Nat.mul_succ]
    have hm : unit * (t + 1) = unit * t + unit := Nat.mul_succ _ _
    have hchunk : exportNodes nodes (List.range' (unit * t)
        ((if unit * (t + 1) > nodes.length then nodes.length else unit * (t + 1)) - unit * t)) =
        some ((nodes.drop (unit * t)).take unit) := by
      by_cases h1 : unit * (t + 1) > nodes.length
      · rw [if_pos h1]
        by_cases h2 : unit * t ≤ nodes.length
        · rw [exportNodes_range _ _ _ (by omega), List.take_of_length_le, List.take_of_length_le]
          · rw [List.length_drop]; omega
          · rw [List.length_drop]; exact Nat.le_refl _
        · rw [show nodes.length - unit * t = 0 by omega, List.drop_eq_nil_of_le (by omega)]
          simp [exportNodes]
      · rw [if_neg h1, exportNodes_range _ _ _ (by omega), hm, Nat.add_sub_cancel_left]
    rw [hchunk, hsplit]

theorem exportAll_eq (threads : Nat) (h : 0 < threads) (nodes : List (Nat × Kind)) :
    exportAll threads nodes = some nodes := by
  unfold exportAll
  rw [if_neg (by omega), List.range_eq_range', exportThreads_range, Nat.mul_zero, List.drop_zero, List.take_of_length_le]
  have h1 := Nat.div_add_mod nodes.length threads
  have h2 := Nat.mod_lt nodes.length h
  rw [Nat.add_mul, Nat.mul_comm]
  omega

/-! ### interpolations -/

theorem pointLoop_nodes (k points id : Nat) (is : List Nat) (st : List (Nat × Kind) × List (Nat × Nat)) :
    (pointLoop k points id is st).1 = st.1 ++ is.map fun i => (id + i, .point k i) := by
  induction is generalizing st with
  | nil => simp [pointLoop]
  | cons i is ih => rw [pointLoop, ih]; simp

theorem pointLoop_ways (k points id : Nat) (is : List Nat) (st : List (Nat × Kind) × List (Nat × Nat)) :
    (pointLoop k points id is st).2 = st.2 ++ (is.filter (· < points - 1)).map fun i => (id + i, id + i + 1) := by
  induction is generalizing st with
  | nil => simp [pointLoop]
  | cons i is ih =>
    rw [pointLoop, ih]
    by_cases h : i < points - 1
    · simp [h]
    · simp [h]

theorem steps_cons (a b : Nat) (l : List Nat) : steps (a :: b :: l) = (a, b) :: steps (b :: l) := by
  simp [steps]

theorem steps_range (id n b : Nat) :
    steps (List.range' id (n + 1) ++ [b]) = (List.range n).map (fun i => (id + i, id + i + 1)) ++ [(id + n, b)] := by
  induction n generalizing id with
  | zero => simp [steps, List.range'_succ]
  | succ n ih =>
    rw [List.range'_succ, List.range'_succ, List.cons_append, List.cons_append, steps_cons]
    have := ih (id + 1)
    rw [List.range'_succ, List.cons_append] at this
    rw [this, List.range_succ_eq_map, List.map_cons, List.map_map, List.cons_append]
    congr 1
    congr 1
    · apply List.map_congr_left
      intro i _
      simp only [Function.comp, Nat.succ_eq_add_one]
      congr 1 <;> omega
    · congr 2
      omega

theorem filter_range (n : Nat) : (List.range (n + 1)).filter (fun i => decide (i < n)) = List.range n := by
  rw [List.range_succ, List.filter_append, List.filter_eq_self.2]
  · simp
  · intro i hi; simpa using hi

theorem createInterpolation_eq (n k id : Nat) (p : Nat × Nat) (st : List (Nat × Kind) × List (Nat × Nat)) :
    createInterpolation (n + 1) k id p st =
      (st.1 ++ (List.range (n + 1)).map (fun i => (id + i, .point k i)),
        st.2 ++ steps (p.1 :: List.range' id (n + 1) ++ [p.2])) := by
  unfold createInterpolation
  refine Prod.ext ?_ ?_
  · dsimp only
    rw [pointLoop_nodes]
  · dsimp only
    rw [pointLoop_ways, Nat.add_sub_cancel, filter_range]
    have := steps_range id n p.2
    rw [List.range'_succ, List.cons_append] at this
    rw [List.range'_succ, List.cons_append, List.cons_append, steps_cons, this]
    simp

theorem interpolationLoop_eq (n : Nat) (ps : List (Nat × Nat)) (k id : Nat) (st : List (Nat × Kind) × List (Nat × Nat)) :
    interpolationLoop (n + 1) ps k id st =
      (id + ps.length * (n + 1),
        st.1 ++ (List.range ps.length).flatMap (fun j => (List.range (n + 1)).map fun i =>
          (id + j * (n + 1) + i, Kind.point (k + j) i)),
        st.2 ++ ps.zipIdx.flatMap fun q =>
          steps (q.1.1 :: List.range' (id + q.2 * (n + 1)) (n + 1) ++ [q.1.2])) := by
  induction ps generalizing k id st with
  | nil => simp [interpolationLoop]
  | cons p ps ih =>
    rw [interpolationLoop, ih, createInterpolation_eq]
    refine Prod.ext ?_ (Prod.ext ?_ ?_)
    · dsimp only
      rw [List.length_cons, Nat.add_mul, Nat.one_mul]; omega
    · dsimp only
      rw [List.length_cons, List.range_succ_eq_map (n := ps.length), List.flatMap_cons, List.append_assoc, List.flatMap_map]
      congr 1
      congr 1
      · simp
      · apply List.flatMap_congr
        intro j _
        apply List.map_congr_left
        intro i _
        simp only [Nat.succ_eq_add_one]
        rw [Nat.add_mul, Nat.one_mul]
        congr 1
        · omega
        · congr 1; omega
    · dsimp only
      rw [List.zipIdx_cons, List.flatMap_cons, List.append_assoc]
      congr 1
      congr 1
      · simp
      · rw [Nat.zero_add, List.zipIdx_eq_map_add (i := 1), List.flatMap_map]
        apply List.flatMap_congr
        intro q _
        dsimp only
        rw [Nat.add_mul, Nat.one_mul, Nat.add_assoc, Nat.add_comm (n + 1)]

theorem wayLoop_snd (ws : List (Nat × Nat)) (id : Nat) : (wayLoop ws id).map (·.2) = ws := by
  induction ws generalizing id with
  | nil => rfl
  | cons w ws ih => rw [wayLoop, List.map_cons, ih]

theorem wayLoop_fst (ws : List (Nat × Nat)) (id : Nat) : (wayLoop ws id).map (·.1) = List.range' id ws.length := by
  induction ws generalizing id with
  | nil => rfl
  | cons w ws ih => rw [wayLoop, List.map_cons, ih, List.length_cons, List.range'_succ]

end Soro.Osm

namespace Soro.Osm

/-! ### the document -/

theorem nodes_ids_perm (I : Infra) (ss : List (Nat × List Nat)) :
    ((I.nodes ss).map (·.1)).Perm (ss.map (·.1 + I.elements) ++ ss.flatMap (·.2)) := by
  induction ss with
  | nil => exact List.Perm.refl _
  | cons s ss ih =>
    have h1 : (I.nodes (s :: ss)).map (·.1) = (s.1 + I.elements) :: (s.2 ++ (I.nodes ss).map (·.1)) := by
      simp only [Infra.nodes, List.flatMap_cons, List.map_append, List.map_cons, List.map_map, List.cons_append]
      congr 2
      exact List.map_id _
    rw [h1, List.map_cons, List.flatMap_cons, List.cons_append]
    refine List.Perm.cons _ ?_
    refine (List.Perm.append_left s.2 ih).trans ?_
    rw [← List.append_assoc, ← List.append_assoc]
    exact List.Perm.append_right _ List.perm_append_comm

theorem nodes_ids_nodup {I : Infra} (hv : I.Valid) : ((I.nodes I.stations).map (·.1)).Nodup := by
  rw [(nodes_ids_perm I I.stations).nodup_iff, List.nodup_append]
  refine ⟨?_, hv.once, ?_⟩
  · have : I.stations.map (·.1 + I.elements) = (I.stations.map (·.1)).map (· + I.elements) := by simp
    rw [this]
    exact List.Nodup.map (fun a b h => by simpa using h) hv.ids
  · intro a ha b hb hab
    obtain ⟨s, _, hs⟩ := List.mem_map.1 ha
    have := hv.range b hb
    omega

theorem mem_nodes {I : Infra} {x : Nat × Kind} : x ∈ I.nodes I.stations ↔
    (∃ s ∈ I.stations, x = (s.1 + I.elements, .station s.1)) ∨ ∃ e ∈ I.all, x = (e, .element e) := by
  unfold Infra.nodes
  rw [List.mem_flatMap]
  constructor
  · rintro ⟨s, hs, h⟩
    rcases List.mem_cons.1 h with h | h
    · exact .inl ⟨s, hs, h⟩
    · obtain ⟨e, he, h⟩ := List.mem_map.1 h
      exact .inr ⟨e, mem_all.2 ⟨s, hs, he⟩, h.symm⟩
  · rintro (⟨s, hs, h⟩ | ⟨e, he, h⟩)
    · exact ⟨s, hs, List.mem_cons.2 (.inl h)⟩
    · obtain ⟨s, hs, hes⟩ := mem_all.1 he
      exact ⟨s, hs, List.mem_cons.2 (.inr (List.mem_map.2 ⟨e, hes, h.symm⟩))⟩

/-- the points of all interpolations -/
def pointNodes (base n m : Nat) : List (Nat × Kind) :=
  (List.range m).flatMap fun j => (List.range n).map fun i => (base + j * n + i, Kind.point j i)

theorem pointNodes_ids (base n m : Nat) : (pointNodes base n m).map (·.1) = List.range' base (m * n) := by
  induction m with
  | zero => simp [pointNodes]
  | succ m ih =>
    have : pointNodes base n (m + 1) = pointNodes base n m ++ (List.range n).map fun i => (base + m * n + i, Kind.point m i) := by
      simp [pointNodes, List.range_succ]
    rw [this, List.map_append, ih, Nat.add_mul, Nat.one_mul, ← List.range'_append, List.map_map, Nat.one_mul]
    congr 1
    rw [List.range'_eq_map_range]
    rfl

/-- all of the document -/
theorem export_spec {I : Infra} (hv : I.Valid) (threads : Nat) (ht : 0 < threads) :
    ∃ (i : Info) (base : Nat) (doc : Doc), exportToOsm threads I = some doc ∧
      (∀ x ∈ I.nodes I.stations, x.1 < base) ∧
      doc.nodes = sortNodes (I.nodes I.stations) ++ pointNodes base 50 i.interps.length ∧
      doc.ways.map (·.1) = List.range' (base + i.interps.length * 50) doc.ways.length ∧
      doc.ways.map (·.2) = i.ways ++ i.interps.zipIdx.flatMap (fun q =>
        steps (q.1.1 :: List.range' (base + q.2 * 50) 50 ++ [q.1.2])) ∧
      (∀ a b, (between i.ways a b = 1 ↔ I.Adjacent a b ∧ I.SameStation a b) ∧ between i.ways a b ≤ 1) ∧
      (∀ a b, (between i.interps a b = 1 ↔ I.Adjacent a b ∧ ¬ I.SameStation a b) ∧ between i.interps a b ≤ 1) := by
  obtain ⟨i, h1, h2, h3⟩ := collect_spec hv
  have hne : sortNodes (I.nodes I.stations) ≠ [] := by
    intro h
    have hl := (sortNodes_perm (I.nodes I.stations)).length_eq
    rw [h] at hl
    have hs := hv.some
    cases hss : I.stations with
    | nil => exact hs hss
    | cons s ss => rw [hss] at hl; simp [Infra.nodes] at hl
  obtain ⟨last, hlast⟩ : ∃ z, (sortNodes (I.nodes I.stations)).getLast? = some z :=
    ⟨_, List.getLast?_eq_some_getLast hne⟩
  have hcnt : (counters 101 1).length = 49 + 1 := by decide
  have hw : exportToOsm threads I = some ⟨sortNodes (I.nodes I.stations) ++ pointNodes (last.1 + 1) 50 i.interps.length,
      wayLoop (i.ways ++ i.interps.zipIdx.flatMap (fun q =>
        steps (q.1.1 :: List.range' (last.1 + 1 + q.2 * 50) 50 ++ [q.1.2]))) (last.1 + 1 + i.interps.length * 50)⟩ := by
    unfold exportToOsm
    rw [h1]
    dsimp only
    rw [exportAll_eq threads ht, hlast]
    dsimp only
    rw [hcnt, interpolationLoop_eq]
    simp only [pointNodes, Nat.zero_add]
  refine ⟨i, last.1 + 1, _, hw, ?_, rfl, ?_, ?_, h2, h3⟩
  · intro x hx
    have := le_last (sortNodes_sorted _) hlast ((sortNodes_perm _).mem_iff.2 hx)
    omega
  · have hl : ∀ (ws : List (Nat × Nat)) id, (wayLoop ws id).length = ws.length := by
      intro ws id
      have := congrArg List.length (wayLoop_snd ws id)
      simpa using this
    dsimp only
    rw [wayLoop_fst, hl]
  · exact wayLoop_snd _ _

theorem mem_steps {path : List Nat} {p : Nat × Nat} (h : p ∈ steps path) : p.1 ∈ path ∧ p.2 ∈ path := by
  obtain ⟨a, b⟩ := p
  have := List.of_mem_zip h
  exact ⟨this.1, List.mem_of_mem_tail this.2⟩

end Soro.Osm
