import Verif.Spec.ExclElements
import Verif.Model.ExclElements
import Verif.Proof.Algo

/-
The exclusion elements of a route.
-/

namespace Soro.Infra

open Soro.Infra.Spec

theorem isExclusion_iff (t : Ty) : t.isExclusion = true ↔ Conflicting t := by
  cases t <;> simp [Conflicting, Ty.isExclusion, Ty.isValidEnd]

theorem mem_collect (l : List Item) (x : Nat) : x ∈ collect l ↔ ∃ e ∈ l, Conflicting e.ty ∧ e.id = x := by
  simp only [collect, List.mem_map, List.mem_filter, and_assoc, isExclusion_iff]

/-! ### used sections -/

theorem foldlM_tracks (ids : Nat → List Nat) (l : List Item) (acc : List Nat) :
    l.foldlM (useSection ids) acc = (l.filter (fun e => e.ty.isTrack)).foldlM (useSection ids) acc := by
  induction l generalizing acc with
  | nil => rfl
  | cons e l ih =>
    by_cases h : e.ty.isTrack = true
    · rw [List.filter_cons_of_pos (by simpa using h), List.foldlM_cons, List.foldlM_cons]
      congr 1
      funext acc
      exact ih acc
    · rw [List.filter_cons_of_neg (by simpa using h), List.foldlM_cons]
      have : useSection ids acc e = some acc := by
        unfold useSection
        rw [if_pos (by simpa using h)]
      rw [this]
      exact ih acc

theorem foldlM_same (ids : Nat → List Nat) (s : Nat) (l : List Item) (acc : List Nat) (hl : ∀ e ∈ l, e.ty.isTrack = true ∧ ids e.id = [s])
    (ha : acc.getLast? = some s) : l.foldlM (useSection ids) acc = some acc := by
  induction l with
  | nil => rfl
  | cons e l ih =>
    obtain ⟨h1, h2⟩ := hl e (by simp)
    rw [List.foldlM_cons]
    have : useSection ids acc e = some acc := by
      unfold useSection
      rw [if_neg (by simp [h1]), h2]
      simp [ha]
    rw [this]
    exact ih (fun e he => hl e (by simp [he]))

theorem foldlM_leg (ids : Nat → List Nat) (s : Nat) (l : List Item) (acc : List Nat) (hne : l ≠ [])
    (hl : ∀ e ∈ l, e.ty.isTrack = true ∧ ids e.id = [s]) (ha : acc.getLast? ≠ some s) :
    l.foldlM (useSection ids) acc = some (acc ++ [s]) := by
  cases l with
  | nil => exact absurd rfl hne
  | cons e l =>
    obtain ⟨h1, h2⟩ := hl e (by simp)
    rw [List.foldlM_cons]
    have : useSection ids acc e = some (acc ++ [s]) := by
      unfold useSection
      rw [if_neg (by simp [h1]), h2]
      simp [ha]
    rw [this]
    exact foldlM_same ids s l _ (fun e he => hl e (by simp [he])) (by simp)

theorem foldlM_legs (ids : Nat → List Nat) (legs : List Leg) (acc : List Nat)
    (hids : ∀ g ∈ legs, ∀ e ∈ g.range, e.ty.isTrack = true → ids e.id = [g.sec])
    (hvis : ∀ g ∈ legs, ∃ e ∈ g.range, Facing g.up e = true)
    (hap : List.IsChain (fun g h : Leg => g.sec ≠ h.sec) legs) (hacc : ∀ g, legs.head? = some g → acc.getLast? ≠ some g.sec) :
    (legs.flatMap (fun g => g.range.filter (Facing g.up))).foldlM (useSection ids) acc = some (acc ++ legs.map Leg.sec) := by
  induction legs generalizing acc with
  | nil => simp
  | cons g legs ih =>
    rw [List.flatMap_cons, List.foldlM_append]
    have h1 := foldlM_leg ids g.sec (g.range.filter (Facing g.up)) acc (by
        obtain ⟨e, he, hf⟩ := hvis g (by simp)
        intro hn
        have : e ∈ g.range.filter (Facing g.up) := List.mem_filter.mpr ⟨he, hf⟩
        rw [hn] at this
        cases this) (by
        intro e he
        obtain ⟨h1, h2⟩ := List.mem_filter.mp he
        have ht : e.ty.isTrack = true := by
          simp only [Facing, Bool.and_eq_true] at h2
          exact h2.1
        exact ⟨ht, hids g (by simp) e h1 ht⟩) (hacc g rfl)
    rw [h1]
    simp only [Option.bind_eq_bind, Option.bind_some]
    rw [ih (acc ++ [g.sec]) (fun g hg => hids g (by simp [hg])) (fun g hg => hvis g (by simp [hg])) hap.tail (by
      intro h hh
      simp only [List.getLast?_concat, ne_eq, Option.some.injEq]
      cases legs with
      | nil => cases hh
      | cons h' legs =>
        simp only [List.head?_cons, Option.some.injEq] at hh
        subst hh
        rw [List.isChain_cons_cons] at hap
        exact hap.1)]
    simp

theorem usedSections_eq {sections : List Section} {ids : Nat → List Nat} {legs : List Leg} {route : List Item}
    (h : Drives sections ids legs route) (hvis : ∀ g ∈ legs, ∃ e ∈ g.range, Facing g.up e = true) :
    usedSections ids route = some (legs.map Leg.sec) := by
  unfold usedSections
  rw [foldlM_tracks, h.tracks, foldlM_legs ids legs [] h.ids hvis h.apart (by simp)]
  simp

/-! ### parts of orders -/

theorem idxOf_part (pre l post : List Item) (e : Item) (hn : (pre ++ l ++ post).Nodup) (hh : l.head? = some e) :
    (pre ++ l ++ post).idxOf e = pre.length := by
  cases l with
  | nil => cases hh
  | cons x l =>
    simp only [List.head?_cons, Option.some.injEq] at hh
    subst hh
    rw [List.append_assoc, List.idxOf_append_of_notMem]
    · simp
    · intro hm
      rw [List.append_assoc, List.nodup_append] at hn
      exact hn.2.2 x hm x (by simp) rfl

theorem idxOf_part_last (pre l post : List Item) (e : Item) (hn : (pre ++ l ++ post).Nodup) (hh : l.getLast? = some e) :
    (pre ++ l ++ post).idxOf e + 1 = pre.length + l.length := by
  obtain ⟨l', rfl⟩ : ∃ l', l = l' ++ [e] := List.getLast?_eq_some_iff.mp hh
  have h1 : pre ++ (l' ++ [e]) ++ post = (pre ++ l') ++ [e] ++ post := by simp
  rw [h1] at hn ⊢
  rw [idxOf_part (pre ++ l') [e] post e hn rfl]
  simp
  omega

theorem since_part {s : Section} {up : Bool} {pre l : List Item} {e : Item} (hn : (s.order up).Nodup) (h : s.order up = pre ++ l)
    (hh : l.head? = some e) : s.since e up = l := by
  unfold Section.since
  rw [h] at hn ⊢
  have := idxOf_part pre l [] e (by simpa using hn) hh
  rw [List.append_nil] at this
  rw [this]
  simp

theorem to_part {s : Section} {up : Bool} {l post : List Item} {e : Item} (hn : (s.order up).Nodup) (h : s.order up = l ++ post)
    (hh : l.getLast? = some e) : s.to e up = some l := by
  unfold Section.to
  rw [h] at hn ⊢
  have := idxOf_part_last [] l post e (by simpa using hn) hh
  simp only [List.nil_append, List.length_nil, Nat.zero_add] at this
  simp only
  have hl : 0 < l.length := by
    cases l with
    | nil => cases hh
    | cons => simp
  rw [if_pos (by rw [List.length_append]; omega), this]
  simp

theorem fromTo_part {s : Section} {up : Bool} {pre l post : List Item} {a b : Item} (hn : (s.order up).Nodup)
    (h : s.order up = pre ++ l ++ post) (ha : l.head? = some a) (hb : l.getLast? = some b) : s.fromTo a b up = some l := by
  unfold Section.fromTo
  rw [h] at hn ⊢
  have h1 := idxOf_part pre l post a hn ha
  have h2 := idxOf_part_last pre l post b hn hb
  have hl : 0 < l.length := by
    cases l with
    | nil => cases ha
    | cons => simp
  simp only
  rw [if_pos ⟨by simp only [List.length_append]; omega, by omega⟩, h1, h2, List.append_assoc,
    List.take_append, List.take_of_length_le (by omega), List.drop_append, List.drop_of_length_le (le_refl _)]
  simp

theorem mem_orders {s : Section} (hp : Proper s) (up : Bool) (e : Item) : e ∈ s.rising ↔ e ∈ s.order up := by
  cases up with
  | true => simp [Section.order]
  | false => simpa [Section.order] using hp.same e

/-- a part at the end of a section with a track element behind its first element, which is a section element -/
theorem whole_of_head {s : Section} (hp : Proper s) {up : Bool} {pre l : List Item} {e t : Item} (h : s.order up = pre ++ l)
    (hh : l.head? = some e) (he : e.ty.isTrack = false) (ht : t ∈ l) (htt : t.ty.isTrack = true) : s.order up = l := by
  obtain ⟨a, mid, z, h1, ha, hz, hm⟩ := hp.shape up
  cases pre with
  | nil => simpa using h
  | cons p pre =>
    exfalso
    rw [h1] at h
    simp only [List.cons_append, List.cons.injEq] at h
    obtain ⟨-, h⟩ := h
    cases l with
    | nil => cases hh
    | cons x l =>
      simp only [List.head?_cons, Option.some.injEq] at hh
      subst hh
      rcases List.append_eq_append_iff.mp h with ⟨w, h2, h3⟩ | ⟨w, h2, h3⟩
      · -- pre = mid ++ w, [z] = w ++ x :: l
        cases w with
        | nil =>
          simp only [List.nil_append, List.cons.injEq] at h3
          obtain ⟨rfl, rfl⟩ := h3
          simp only [List.mem_singleton] at ht
          subst ht
          rw [hz] at htt
          cases htt
        | cons w ws => simp at h3
      · cases w with
        | nil =>
          simp only [List.nil_append, List.cons.injEq] at h3
          obtain ⟨rfl, rfl⟩ := h3
          simp only [List.mem_singleton] at ht
          subst ht
          rw [hz] at htt
          cases htt
        | cons w ws =>
          simp only [List.cons_append, List.cons.injEq] at h3
          obtain ⟨rfl, -⟩ := h3
          have := hm x (by rw [h2]; simp)
          rw [he] at this
          cases this

theorem whole_of_last {s : Section} (hp : Proper s) {up : Bool} {l post : List Item} {e t : Item} (h : s.order up = l ++ post)
    (hh : l.getLast? = some e) (he : e.ty.isTrack = false) (ht : t ∈ l) (htt : t.ty.isTrack = true) : s.order up = l := by
  obtain ⟨a, mid, z, h1, ha, hz, hm⟩ := hp.shape up
  obtain ⟨l', rfl⟩ : ∃ l', l = l' ++ [e] := List.getLast?_eq_some_iff.mp hh
  rcases List.eq_nil_or_concat post with rfl | ⟨post', y, rfl⟩
  · simpa using h
  · exfalso
    rw [h1, List.concat_eq_append, ← List.append_assoc] at h
    obtain ⟨h2, -⟩ := List.append_inj' h rfl
    cases l' with
    | nil =>
      simp only [List.nil_append, List.mem_singleton] at ht
      subst ht
      rw [he] at htt
      cases htt
    | cons x l' =>
      simp only [List.cons_append, List.append_assoc, List.cons.injEq] at h2
      have := hm e (by rw [h2.2]; simp)
      rw [he] at this
      cases this

/-! ### the middle -/

theorem exclusionMiddle_spec {sections : List Section} (legs : List Leg)
    (h : ∀ g ∈ legs, ∃ s, sections[g.sec]? = some s ∧ Proper s ∧ s.order g.up = g.range) :
    ∃ r, exclusionMiddle sections (legs.map Leg.sec) = some r ∧
      ∀ x, x ∈ r ↔ ∃ g ∈ legs, ∃ e ∈ g.range, Conflicting e.ty ∧ e.id = x := by
  induction legs with
  | nil => exact ⟨[], rfl, by simp⟩
  | cons g legs ih =>
    obtain ⟨r, h1, h2⟩ := ih (fun g hg => h g (by simp [hg]))
    obtain ⟨s, hs, hp, ho⟩ := h g (by simp)
    refine ⟨collect s.rising ++ r, ?_, fun x => ?_⟩
    · rw [List.map_cons, exclusionMiddle, hs]
      simp [h1]
    · rw [List.mem_append, h2, mem_collect]
      simp only [mem_orders hp g.up, ho, List.mem_cons, exists_eq_or_imp]

end Soro.Infra
