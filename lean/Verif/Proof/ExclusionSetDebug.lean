import Verif.Proof.ExclusionSet
import Verif.Model.ExclusionSetDebug
import Verif.Proof.Debug

/-! The assertions of exclusion sets. -/

namespace Soro
namespace ES
open Dbg

theorem okD_of_wf {s : ES} (h : WF s) : s.okD = .ok true := by
  unfold okD
  rcases h with h | h
  · rw [h, fresh_empty]; rfl
  · have hf := h.hf; have hl := h.hl; have hfl := h.hfl; have hsz := h.hsz; have hlt := h.hlt
    rw [h.not_empty, h.getFirstSet_eq, h.getLastSet_eq, h.test_eq, h.test_eq, h.gf, h.gl]
    have hi : INVALID = 2 ^ 32 - 1 := rfl
    simp only [Bool.false_eq_true, if_false]
    rw [check_pos (by omega), check_pos (by omega), check_pos (by omega), check_pos (by omega),
      check_pos (by omega), check_pos (by simp), check_pos (by simp)]
    rfl

theorem makeD_same (id : Nat) (ids : List Nat) (h : ValidIds ids) : SameAs (makeD id ids) (make id ids) := by
  obtain ⟨s, h1, h2, _⟩ := make_spec id ids h
  refine ⟨s, h1, ?_⟩
  unfold makeD
  rw [check_pos h.1, h1, lift, ok_bind, ok_bind]
  by_cases he : ids.isEmpty = true
  · rw [if_pos he]; rfl
  · rw [if_neg he, okD_of_wf h2, ok_bind, check_pos rfl]; rfl

theorem setD_same (s : ES) (i : Nat) (h : NE s) (hi : i < 2 ^ 32 - 64) : SameAs (s.setD i) (s.set i) := by
  obtain ⟨s', h1, h2, _⟩ := set_spec s i h hi
  refine ⟨s', h1, ?_⟩
  have hf := h.hf; have hl := h.hl; have hlt := h.hlt; have hsz := h.hsz; have hfl := h.hfl
  unfold setD
  have hw : s.windowD i =
      .ok (if i < s.first then s.lowerFirst (i / 64 * 64)
        else if i > s.last then s.increaseLast ((i / 64 + 1) * 64 - 1) else s) := by
    unfold windowD
    split
    · unfold lowerFirstD; rw [check_pos (by omega), check_pos (by omega)]; rfl
    · split
      · unfold increaseLastD; rw [check_pos (by omega), check_pos (by omega)]; rfl
      · rfl
  rw [hw, ok_bind]
  unfold set at h1
  simp only [Option.map_eq_some_iff] at h1
  obtain ⟨bits, hb, hs⟩ := h1
  rw [hb, lift, ok_bind]
  simp only [hs]
  rw [okD_of_wf (Or.inr h2), ok_bind, check_pos rfl]; rfl

theorem diffD_same {a o : ES} (ha : WF a) (ho : WF o) : SameAs (a.diffD o) (a.diff o) := by
  obtain ⟨s, h1, h2, _⟩ := diff_spec ha ho
  refine ⟨s, h1, ?_⟩
  unfold diff at h1
  unfold diffD
  by_cases he : (a.isEmpty || o.isEmpty) = true
  · rw [if_pos he] at h1 ⊢; cases h1; rfl
  · rw [if_neg he] at h1 ⊢
    by_cases hd : ¬ (a.lastSet ≥ o.firstSet ∧ o.lastSet ≥ a.firstSet)
    · rw [if_pos hd] at h1 ⊢; cases h1; rfl
    · rw [if_neg hd] at h1 ⊢
      have an := ha.ne (by simpa using (by simpa using he : a.isEmpty = false ∧ o.isEmpty = false).1)
      have on := ho.ne (by simpa using (by simpa using he : a.isEmpty = false ∧ o.isEmpty = false).2)
      have af := an.hf; have of := on.hf
      simp only [Option.map_eq_some_iff] at h1
      obtain ⟨bits, hb, hs⟩ := h1
      simp only [hb]
      rw [check_pos (by split <;> omega), lift, ok_bind, ok_bind]
      generalize (if ({ a with bits } : ES).bits.test (({ a with bits } : ES).firstSet - ({ a with bits } : ES).first) = true
        then ({ a with bits } : ES) else { ({ a with bits } : ES) with firstSet := ({ a with bits } : ES).getFirstSet }) = s2
        at hs ⊢
      by_cases hc : s2.firstSet = INVALID
      · rw [if_pos hc] at hs ⊢; rw [hs]; rfl
      · rw [if_neg hc] at hs ⊢
        rw [hs, okD_of_wf h2, ok_bind, check_pos rfl]; rfl

theorem unionD_same {a o : ES} (ha : WF a) (ho : WF o) : SameAs (a.unionD o) (a.union o) := by
  obtain ⟨s, h1, h2, _⟩ := union_spec ha ho
  refine ⟨s, h1, ?_⟩
  unfold union at h1
  unfold unionD
  by_cases he : o.isEmpty = true
  · rw [if_pos he] at h1 ⊢; cases h1; rfl
  · rw [if_neg he] at h1 ⊢
    dsimp only at h1
    have on := ho.ne (by simpa using he)
    have of := on.hf; have ol := on.hl; have ofl := on.hfl
    have hn : NE (if a.isEmpty = true then o else a) := by
      split
      · exact on
      · rename_i h; exact ha.ne (by simpa using h)
    generalize (if a.isEmpty = true then o else a) = a1 at h1 hn ⊢
    have af := hn.hf; have al := hn.hl; have afl := hn.hfl
    have e2 : a1.lowerToD o = .ok (if a1.first > o.first then a1.lowerFirst o.first else a1) := by
      unfold lowerToD
      split
      · unfold lowerFirstD; rw [check_pos (by omega), check_pos (by omega)]; rfl
      · rfl
    have f2 : (if a1.first > o.first then a1.lowerFirst o.first else a1).first = min a1.first o.first := by
      split
      · simp only [lowerFirst]; omega
      · omega
    simp only [e2, ok_bind]
    generalize (if a1.first > o.first then a1.lowerFirst o.first else a1) = a2 at h1 f2 ⊢
    have e3 : a2.increaseToD o = .ok (if a2.last < o.last then a2.increaseLast o.last else a2) := by
      unfold increaseToD
      split
      · unfold increaseLastD; rw [check_pos (by omega), check_pos (by omega)]; rfl
      · rfl
    have f3 : (if a2.last < o.last then a2.increaseLast o.last else a2).first = a2.first := by
      split <;> rfl
    simp only [e3, ok_bind]
    generalize (if a2.last < o.last then a2.increaseLast o.last else a2) = a3 at h1 f3 ⊢
    rw [check_pos (by omega), ok_bind]
    simp only [Option.map_eq_some_iff] at h1
    obtain ⟨bits, hb, hs⟩ := h1
    rw [hb, lift, ok_bind]
    simp only [hs]
    rw [okD_of_wf h2, ok_bind, check_pos rfl]; rfl

theorem containsImplD_same {a b : ES} (ha : NE a) (hb : NE b) (h1 : a.firstSet ≤ b.firstSet)
    (h2 : a.lastSet ≥ b.lastSet) : SameAs (containsImplD a b) (containsImpl a b) := by
  have af := ha.hf; have al := ha.hl; have asz := ha.hsz; have afl := ha.hfl; have alt := ha.hlt
  have bf := hb.hf; have bl := hb.hl; have bsz := hb.hsz; have bfl := hb.hfl; have blt := hb.hlt
  have na := ha.nblocks; have nb := hb.nblocks
  unfold containsImplD
  rw [check_pos (by omega), check_pos (by omega), check_pos (by omega), check_pos (by omega),
    check_pos (by omega)]
  simp only [ok_bind]
  have hc : ∃ r, containsImpl a b = some r := by
    unfold containsImpl
    simp only
    rw [if_pos (by omega)]
    exact ⟨_, rfl⟩
  obtain ⟨r, hr⟩ := hc
  exact ⟨r, hr, by rw [hr]; rfl⟩

theorem containsImplSameSizeD_same {a b : ES} (ha : NE a) (hb : NE b) (h1 : a.first = b.first)
    (h2 : a.last = b.last) : containsImplSameSizeD a b = .ok (containsImplSameSize a b) := by
  have af := ha.hf; have al := ha.hl; have asz := ha.hsz; have afl := ha.hfl
  have bf := hb.hf; have bl := hb.hl; have bsz := hb.hsz; have bfl := hb.hfl
  have na := ha.nblocks; have nb := hb.nblocks
  unfold containsImplSameSizeD
  rw [check_pos ⟨h1, h2⟩, check_pos (by omega), check_pos (by omega), check_pos (by omega)]
  rfl

theorem compareD_same {a o : ES} (ha : WF a) (ho : WF o) (alias : Bool) :
    SameAs (a.compareD o alias) (a.compare o alias) := by
  unfold compareD compare
  by_cases c1 : (a.isEmpty && !o.isEmpty) = true
  · rw [if_pos c1, if_pos c1]; exact ⟨_, rfl, rfl⟩
  rw [if_neg c1, if_neg c1]
  by_cases c2 : o.isEmpty = true
  · rw [if_pos c2, if_pos c2]; exact ⟨_, rfl, rfl⟩
  rw [if_neg c2, if_neg c2]
  have on := ho.ne (by simpa using c2)
  have an := ha.ne (by simpa [c2] using c1)
  by_cases c3 : alias = true
  · rw [if_pos c3, if_pos c3]; exact ⟨_, rfl, rfl⟩
  rw [if_neg c3, if_neg c3]
  by_cases c4 : a.first = o.first ∧ a.last = o.last
  · rw [if_pos c4, if_pos c4]
    exact ⟨_, rfl, containsImplSameSizeD_same an on c4.1 c4.2⟩
  rw [if_neg c4, if_neg c4]
  by_cases c5 : a.firstSet ≤ o.firstSet ∧ a.lastSet ≥ o.lastSet
  · rw [if_pos c5, if_pos c5]
    obtain ⟨r, h1, h2⟩ := containsImplD_same an on c5.1 c5.2
    rw [h1, h2]; exact ⟨_, rfl, rfl⟩
  rw [if_neg c5, if_neg c5]
  by_cases c6 : a.firstSet ≥ o.firstSet ∧ a.lastSet ≤ o.lastSet
  · rw [if_pos c6, if_pos c6]
    obtain ⟨r, h1, h2⟩ := containsImplD_same on an c6.1 c6.2
    rw [h1, h2]; exact ⟨_, rfl, rfl⟩
  rw [if_neg c6, if_neg c6]
  exact ⟨_, rfl, rfl⟩

theorem iterateD_same {s : ES} (h : WF s) : SameAs s.iterateD s.iterate := by
  refine ⟨s.expandedSet, h.iterate_eq, ?_⟩
  have he := h.iterate_eq
  unfold iterate at he
  unfold iterateD iteratorD
  rw [check_pos (by
    rcases h with h | h
    · rw [h]; simp [fresh]
    · have hf := h.hf; have hl := h.hl; have hsz := h.hsz; have hfl := h.hfl
      omega), check_pos (Nat.le_refl _)]
  simp only [ok_bind, pure_bind', he]
  rfl

end ES
end Soro
