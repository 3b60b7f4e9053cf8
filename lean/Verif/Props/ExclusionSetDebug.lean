import Verif.Proof.ExclusionSetDebug

/-! Property C172: the assertions of exclusion sets. -/

namespace Soro
open ES Dbg

/-- C172. The debug build makes an exclusion set from sorted ids that fit, exactly as the release build does, and is
stopped by an assertion for all other ids. -/
theorem C172_make (id : Nat) (ids : List Nat) (h32 : ∀ i ∈ ids, i < 2 ^ 32) :
    (ValidIds ids → SameAs (makeD id ids) (make id ids)) ∧ (¬ ValidIds ids → Stops (makeD id ids)) := by
  refine ⟨makeD_same id ids, fun hv => ?_⟩
  by_cases hs : ¬ ids.Pairwise (· ≤ ·)
  · refine ⟨414, ?_⟩
    unfold makeD
    rw [check_neg hs]; rfl
  replace hs := Classical.not_not.1 hs
  cases ids with
  | nil => exact absurd ⟨hs, by simp⟩ hv
  | cons i is =>
    have hlast := le_getLast_of_sorted (i :: is) hs i
    have hmem := getLastD_mem i is
    have hl := h32 _ hmem
    have hbig : 2 ^ 32 - 64 ≤ (i :: is).getLastD i := by
      refine Nat.le_of_not_lt fun hc => ?_
      exact hv ⟨hs, fun x hx => by have := hlast x hx; omega⟩
    have hfirst : ∀ x ∈ i :: is, i ≤ x := by
      intro x hx
      rcases List.mem_cons.1 hx with rfl | hx
      · exact Nat.le_refl _
      · exact (List.pairwise_cons.1 hs).1 x hx
    obtain ⟨v, hv1, -, -⟩ := setBits_spec (i / 64 * 64) (i :: is)
      (BV.empty.resize (((i :: is).getLastD i / 64 + 1) * 64 - 1 - i / 64 * 64 + 1)) (by
        intro x hx
        have := hlast x hx; have := hfirst x hx
        simp only [BV.resize]
        omega)
    have hm : make id (i :: is) = some ⟨id, i / 64 * 64, ((i :: is).getLastD i / 64 + 1) * 64 - 1, i,
        (i :: is).getLastD i, v⟩ := by
      simp only [make, hv1, Option.map_some]
    refine ⟨344, ?_⟩
    unfold makeD
    rw [check_pos hs, hm, lift, ok_bind, ok_bind]
    simp only [List.isEmpty_cons, Bool.false_eq_true, if_false]
    have hlt : ((i :: is).getLastD i / 64 + 1) * 64 - 1 = INVALID := by
      have : INVALID = 2 ^ 32 - 1 := rfl
      omega
    have hff : i / 64 * 64 ≠ INVALID := by
      have : INVALID = 2 ^ 32 - 1 := rfl
      omega
    have hne : (⟨id, i / 64 * 64, ((i :: is).getLastD i / 64 + 1) * 64 - 1, i, (i :: is).getLastD i, v⟩ : ES).isEmpty
        = false := by
      simp [isEmpty, hff]
    unfold okD
    rw [hne, check_neg (by simp only [hlt]; simp)]
    rfl

example : (∀ i ∈ [3, 3, 64, 200], i < 2 ^ 32) ∧ ValidIds [3, 3, 64, 200] ∧
    (∀ i ∈ [5, 4], i < 2 ^ 32) ∧ ¬ ValidIds [5, 4] ∧ (∀ i ∈ [4294967290], i < 2 ^ 32) ∧ ¬ ValidIds [4294967290] := by
  unfold ValidIds; decide

/-- C172. On all sets that any history of calls produces, union, difference, comparison and iteration of the debug build
throw nothing and return what the release build returns. -/
theorem C172_operations (a b : ES) (ha : a.Reachable) (hb : b.Reachable) (same : Bool) :
    SameAs (a.unionD b) (a.union b) ∧ SameAs (a.diffD b) (a.diff b) ∧
    SameAs (a.compareD b same) (a.compare b same) ∧ SameAs a.iterateD a.iterate ∧ a.okD = .ok true :=
  ⟨unionD_same ha.wf hb.wf, diffD_same ha.wf hb.wf, compareD_same ha.wf hb.wf same, iterateD_same ha.wf,
    okD_of_wf ha.wf⟩

/-- C172. Inserting an id is the same in both builds for every set with a member, and is stopped by an assertion for
every set without one. -/
theorem C172_set (a : ES) (ha : a.Reachable) (i : Nat) (hi : i < 2 ^ 32 - 64) :
    ((∃ x, a.idx x = true) → SameAs (a.setD i) (a.set i)) ∧ ((∀ x, a.idx x = false) → Stops (a.setD i)) := by
  constructor
  · rintro ⟨x, hx⟩
    have hne : a.isEmpty = false := by
      cases he : a.isEmpty
      · rfl
      · exact absurd hx ((ha.wf.empty_iff).1 he x)
    exact setD_same a i (ha.wf.ne hne) hi
  · intro hx
    have he : a.isEmpty = true := (ha.wf.empty_iff).2 (fun x => by simp [ES.Mem, hx])
    have hf := (isEmpty_iff ha.wf).1 he
    have hinv : INVALID = 2 ^ 32 - 1 := rfl
    rw [hf]
    generalize a.id = id
    refine ⟨344, ?_⟩
    unfold setD
    have hw : (fresh id).windowD i = .ok ((fresh id).lowerFirst (i / 64 * 64)) := by
      unfold windowD
      have h1 : i < (fresh id).first := by simp only [fresh]; omega
      rw [if_pos h1]
      unfold lowerFirstD
      rw [check_pos (by omega), check_pos (by omega)]; rfl
    rw [hw, ok_bind]
    have h2 : i - ((fresh id).lowerFirst (i / 64 * 64)).first < ((fresh id).lowerFirst (i / 64 * 64)).bits.size := by
      simp only [lowerFirst, fresh, BV.shl, BV.resize, BV.empty]; omega
    simp only [BV.set, if_pos h2, lift, ok_bind]
    unfold okD
    have h3 : ∀ v, v ≠ 0 → (v == 0) = false := fun v hv => by simpa using hv
    have hne : ∀ (s : ES), s.first ≠ INVALID → s.isEmpty = false := fun s hs => by simp [isEmpty, hs]
    rw [hne _ (by simp only [lowerFirst]; omega), check_neg (by simp [lowerFirst, fresh])]
    rfl

example : ∃ a : ES, ∃ b : ES, a.Reachable ∧ b.Reachable ∧ (∃ x, a.idx x = true) ∧ (∀ x, b.idx x = false) := by
  obtain ⟨a, h1, -, -, h4⟩ := make_spec 0 [3, 70] ⟨by decide, by decide⟩
  obtain ⟨b, g1, -, -, g4⟩ := make_spec 0 [] ⟨by decide, by decide⟩
  refine ⟨a, b, .make ⟨by decide, by decide⟩ h1, .make ⟨by decide, by decide⟩ g1, ⟨3, (h4 3).2 (by decide)⟩, fun x => ?_⟩
  have := g4 x
  simpa [ES.Mem] using this

end Soro
