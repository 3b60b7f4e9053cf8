import Verif.Spec.Route

namespace Soro.Route
open Spec

/-! ### omitted flags -/

/-- `oi` points to the first omitted index that is not below `idx` -/
def OInv (r : SRoute) (idx oi : Nat) : Prop := ∀ k o, r.omitted[k]? = some o → (o < idx ↔ k < oi)

theorem sorted_get {l : List Nat} (h : l.Pairwise (· < ·)) {i j a b : Nat} (hi : l[i]? = some a) (hj : l[j]? = some b) :
    i < j → a < b := by
  intro hij
  obtain ⟨h1, rfl⟩ := List.getElem?_eq_some_iff.1 hi
  obtain ⟨h2, rfl⟩ := List.getElem?_eq_some_iff.1 hj
  exact List.pairwise_iff_getElem.1 h i j h1 h2 hij

theorem sorted_get_lt {l : List Nat} (h : l.Pairwise (· < ·)) {i j a b : Nat} (hi : l[i]? = some a) (hj : l[j]? = some b) :
    a < b ↔ i < j := by
  constructor
  · intro hab
    rcases Nat.lt_trichotomy i j with h1 | h1 | h1
    · exact h1
    · subst h1; rw [hi] at hj; cases hj; omega
    · have := sorted_get h hj hi h1; omega
  · exact sorted_get h hi hj

theorem OInv.hit {r : SRoute} (hs : r.omitted.Pairwise (· < ·)) {idx oi : Nat}
    (ho : r.omitted[oi]? = some idx) : OInv r (idx + 1) (oi + 1) := by
  intro k o hk
  have := sorted_get_lt hs ho hk
  omega

theorem OInv.miss {r : SRoute} (hs : r.omitted.Pairwise (· < ·)) {idx oi : Nat} (h : OInv r idx oi)
    (ho : r.omitted[oi]? ≠ some idx) : idx ∉ r.omitted ∧ OInv r (idx + 1) oi := by
  have hn : idx ∉ r.omitted := by
    intro hm
    obtain ⟨k, hk⟩ := List.mem_iff_getElem?.1 hm
    have h1 := h k idx hk
    have h2 : oi ≠ k := by rintro rfl; exact ho hk
    have h3 : oi < r.omitted.length := by
      have := (List.getElem?_eq_some_iff.1 hk).1
      omega
    have h4 := h oi _ (List.getElem?_eq_getElem h3)
    have h5 := sorted_get hs (List.getElem?_eq_getElem h3) hk (by omega)
    omega
  refine ⟨hn, fun k o hk => ?_⟩
  have h1 := h k o hk
  have h2 : o ≠ idx := by rintro rfl; exact hn (List.mem_of_getElem? hk)
  omega

theorem shown_of {r : SRoute} {i n : Nat} (h : r.nodes[i]? = some n) : shown r i = some (n, decide (i ∈ r.omitted)) := by
  simp [shown, h]

theorem yieldLoop_told (r : SRoute) (hs : r.omitted.Pairwise (· < ·)) (n idx oi spl : Nat) (extra : Option Nat)
    (hi : OInv r idx oi) (hlen : idx + n ≤ r.nodes.length) :
    ∃ l, yieldLoop r n idx oi spl extra = some l ∧ l.map told = (List.range' idx n).map (shown r) := by
  induction n generalizing idx oi spl extra with
  | zero => exact ⟨[], rfl, rfl⟩
  | succ n ih =>
    have hlt : idx < r.nodes.length := by omega
    have hg := List.getElem?_eq_getElem hlt
    simp only [yieldLoop, hg, List.range'_succ, List.map_cons, shown_of hg]
    by_cases ho : r.omitted[oi]? = some idx
    · obtain ⟨l, h1, h2⟩ := ih (idx + 1) (oi + 1) spl extra (OInv.hit hs ho) (by omega)
      rw [if_pos ho, h1]
      exact ⟨_, rfl, by simp [h2, told, List.mem_of_getElem? ho]⟩
    · rw [if_neg ho]
      obtain ⟨hn, hi'⟩ := hi.miss hs ho
      by_cases hsp : r.spls[spl]? = some r.nodes[idx]
      · obtain ⟨l, h1, h2⟩ := ih (idx + 1) oi (spl + 1) (some spl) hi' (by omega)
        rw [if_pos hsp, h1]
        exact ⟨_, rfl, by simp [h2, told, hn]⟩
      · obtain ⟨l, h1, h2⟩ := ih (idx + 1) oi spl extra hi' (by omega)
        rw [if_neg hsp, h1]
        exact ⟨_, rfl, by simp [h2, told, hn]⟩

theorem findIdx_OInv (r : SRoute) (hs : r.omitted.Pairwise (· < ·)) (a : Nat) :
    OInv r a (r.omitted.findIdx fun o => decide (a ≤ o)) := by
  intro k o hk
  obtain ⟨hlt, rfl⟩ := List.getElem?_eq_some_iff.1 hk
  constructor
  · intro ho
    rcases Nat.lt_or_ge k (r.omitted.findIdx fun o => decide (a ≤ o)) with h | h
    · exact h
    · exfalso
      have h1 : (r.omitted.findIdx fun o => decide (a ≤ o)) < r.omitted.length := by omega
      have h2 := List.findIdx_getElem (p := fun o => decide (a ≤ o)) (w := h1)
      simp only [decide_eq_true_eq] at h2
      rcases Nat.lt_or_eq_of_le h with h3 | h3
      · have := sorted_get hs (List.getElem?_eq_getElem h1) hk h3
        omega
      · simp only [h3] at h2
        omega
  · intro h
    have := List.not_of_lt_findIdx h
    simpa using this

theorem fastForward_OInv (r : SRoute) (hs : r.omitted.Pairwise (· < ·)) (a : Nat) : OInv r a (fastForward r a).1 := by
  unfold fastForward
  by_cases he : r.omitted = []
  · intro k o hk; simp [he] at hk
  · have he' : r.omitted.isEmpty = false := by simpa using he
    by_cases ha : a = 0
    · subst ha
      intro k o hk
      simp [he']
    · by_cases hsp : r.spls.isEmpty = true <;> simp only [ha, hsp, if_false, if_true, he', Bool.false_eq_true] <;>
        exact findIdx_OInv r hs a

theorem fromTo_told (r : SRoute) (hs : r.omitted.Pairwise (· < ·)) (a b : Nat) (hab : a ≤ b) (hb : b ≤ r.nodes.length) :
    ∃ l, r.fromTo a b = some l ∧ l.map told = (List.range' a (b - a)).map (shown r) := by
  unfold SRoute.fromTo
  by_cases ha : r.size ≤ a
  · rw [if_pos ha]
    unfold SRoute.size at ha
    have : b - a = 0 := by omega
    exact ⟨[], rfl, by simp [this]⟩
  · rw [if_neg ha]
    exact yieldLoop_told r hs _ _ _ _ _ (fastForward_OInv r hs a) (by omega)

theorem yieldLoop_none (r : SRoute) (n idx oi spl : Nat) (extra : Option Nat)
    (hlen : r.nodes.length < idx + n) (hidx : idx ≤ r.nodes.length) : yieldLoop r n idx oi spl extra = none := by
  induction n generalizing idx oi spl extra with
  | zero => omega
  | succ n ih =>
    rcases Nat.lt_or_ge idx r.nodes.length with h | h
    · have hi := fun o s e => ih (idx + 1) o s e (by omega) (by omega)
      simp [yieldLoop, List.getElem?_eq_getElem h, hi]
    · simp [yieldLoop, List.getElem?_eq_none h]

/-! ### extra speed limits -/

/-- `spl` counts the limits at indices below `idx` -/
def SInv (r : SRoute) (idx spl : Nat) : Prop := ∀ k p, LimitAt r k p → (p < idx ↔ k < spl)

/-- `e` is the last limit at an index in `[a, idx)` -/
def Latest (r : SRoute) (a idx : Nat) : Option Nat → Prop
  | none => ∀ k p, LimitAt r k p → ¬ (a ≤ p ∧ p < idx)
  | some k => ∃ p, LimitAt r k p ∧ a ≤ p ∧ p < idx ∧ ∀ k' p', LimitAt r k' p' → a ≤ p' → p' < idx → p' ≤ p

theorem LimitAt.unique {r : SRoute} (h : LimitsInOrder r) {k p p' : Nat} (h1 : LimitAt r k p) (h2 : LimitAt r k p') :
    p = p' := by
  obtain ⟨n, ha, hb⟩ := h1
  obtain ⟨m, hc, hd⟩ := h2
  rw [ha] at hc; cases hc
  obtain ⟨q, rfl⟩ := List.getElem?_eq_some_iff.1 hb
  obtain ⟨q', e⟩ := List.getElem?_eq_some_iff.1 hd
  exact ((List.getElem_inj h.nodup).1 e).symm

theorem LimitAt.unique_limit {r : SRoute} (h : LimitsInOrder r) {k k' p : Nat} (h1 : LimitAt r k p) (h2 : LimitAt r k' p) :
    k = k' := by
  rcases Nat.lt_trichotomy k k' with hh | hh | hh
  · have := h.incr _ _ _ _ h1 h2 hh; omega
  · exact hh
  · have := h.incr _ _ _ _ h2 h1 hh; omega

theorem SInv.hit {r : SRoute} (h : LimitsInOrder r) {idx spl : Nat} (hl : LimitAt r spl idx) : SInv r (idx + 1) (spl + 1) := by
  intro k p hk
  rcases Nat.lt_trichotomy k spl with hh | hh | hh
  · have := h.incr _ _ _ _ hk hl hh; omega
  · subst hh; have := LimitAt.unique h hl hk; omega
  · have := h.incr _ _ _ _ hl hk hh; omega

theorem SInv.miss {r : SRoute} (h : LimitsInOrder r) {idx spl : Nat} (hi : SInv r idx spl) (hl : ¬ LimitAt r spl idx) :
    (∀ k, ¬ LimitAt r k idx) ∧ SInv r (idx + 1) spl := by
  have hn : ∀ k, ¬ LimitAt r k idx := by
    intro k hk
    have h1 := hi k idx hk
    have h2 : spl ≠ k := by rintro rfl; exact hl hk
    obtain ⟨n, hn, _⟩ := id hk
    have h3 := (List.getElem?_eq_some_iff.1 hn).1
    obtain ⟨p, hp⟩ := h.exist spl (by omega)
    have h4 := hi spl p hp
    have h5 := h.incr spl p k idx hp hk (by omega)
    omega
  refine ⟨hn, fun k p hk => ?_⟩
  have h1 := hi k p hk
  have h2 : p ≠ idx := by rintro rfl; exact hn k hk
  omega

theorem Latest.step {r : SRoute} {a idx : Nat} {e : Option Nat} (h : Latest r a idx e) (hn : ∀ k, ¬ LimitAt r k idx) :
    Latest r a (idx + 1) e := by
  cases e with
  | none =>
    intro k p hk hp
    have : p ≠ idx := by rintro rfl; exact hn k hk
    exact h k p hk ⟨hp.1, by omega⟩
  | some k =>
    obtain ⟨p, h1, h2, h3, h4⟩ := h
    refine ⟨p, h1, h2, by omega, fun k' p' hk' ha hp' => ?_⟩
    have : p' ≠ idx := by rintro rfl; exact hn k' hk'
    exact h4 k' p' hk' ha (by omega)

theorem Latest.hit {r : SRoute} {a idx k : Nat} (ha : a ≤ idx) (hl : LimitAt r k idx) : Latest r a (idx + 1) (some k) :=
  ⟨idx, hl, ha, by omega, fun _ _ _ _ h => by omega⟩

theorem yieldLoop_extra (r : SRoute) (h : LimitsInOrder r) (hs : r.omitted.Pairwise (· < ·)) (a n idx oi spl : Nat)
    (extra : Option Nat) (hai : a ≤ idx) (ho : OInv r idx oi) (hi : SInv r idx spl) (hl : Latest r a idx extra) (l : List RNode)
    (hy : yieldLoop r n idx oi spl extra = some l) (j : Nat) (x : RNode) (hj : l[j]? = some x) :
    Latest r a (idx + j + 1) x.extra := by
  induction n generalizing idx oi spl extra l j with
  | zero => simp only [yieldLoop, Option.some.injEq] at hy; subst hy; simp at hj
  | succ n ih =>
    simp only [yieldLoop] at hy
    split at hy
    · simp at hy
    · rename_i nd hnd
      have key : ∀ oi' spl' extra' om', OInv r (idx + 1) oi' → SInv r (idx + 1) spl' → Latest r a (idx + 1) extra' →
          (yieldLoop r n (idx + 1) oi' spl' extra').map (⟨nd, extra', om'⟩ :: ·) = some l →
          Latest r a (idx + j + 1) x.extra := by
        intro oi' spl' extra' om' h1 h2 h3 h4
        obtain ⟨l', hl', rfl⟩ := Option.map_eq_some_iff.1 h4
        cases j with
        | zero => simp only [List.getElem?_cons_zero, Option.some.injEq] at hj; subst hj; exact h3
        | succ j =>
          have := ih (idx + 1) oi' spl' extra' (by omega) h1 h2 h3 l' hl' j (by simpa using hj)
          rw [show idx + (j + 1) + 1 = idx + 1 + j + 1 by omega]; exact this
      by_cases hom : r.omitted[oi]? = some idx
      · rw [if_pos hom] at hy
        have hn : ∀ k, ¬ LimitAt r k idx := fun k hk => h.present k idx hk (List.mem_of_getElem? hom)
        have hm := hi.miss h (hn spl)
        exact key _ _ _ _ (OInv.hit hs hom) hm.2 (hl.step hn) hy
      · rw [if_neg hom] at hy
        obtain ⟨-, ho'⟩ := ho.miss hs hom
        by_cases hsp : r.spls[spl]? = some nd
        · rw [if_pos hsp] at hy
          exact key _ _ _ _ ho' (SInv.hit h ⟨nd, hsp, hnd⟩) (Latest.hit hai ⟨nd, hsp, hnd⟩) hy
        · rw [if_neg hsp] at hy
          have hm := hi.miss h (fun hk => by
            obtain ⟨m, h1, h2⟩ := hk
            rw [hnd] at h2; cases h2; exact hsp h1)
          exact key _ _ _ _ ho' hm.2 (hl.step hm.1) hy

theorem ffSpl_SInv (r : SRoute) (h : LimitsInOrder r) (ns pre : List Nat) (k a : Nat) (hpre : r.nodes.take a = pre ++ ns)
    (hi : SInv r pre.length k) (ha : a ≤ r.nodes.length) : SInv r a (ffSpl r.spls ns k) := by
  induction ns generalizing pre k with
  | nil =>
    have : pre.length = a := by
      have := congrArg List.length hpre
      simp at this; omega
    rw [ffSpl, ← this]; exact hi
  | cons n ns ih =>
    have hlen := congrArg List.length hpre
    simp only [List.length_take, List.length_append, List.length_cons] at hlen
    have hn : r.nodes[pre.length]? = some n := by
      have : (r.nodes.take a)[pre.length]? = some n := by rw [hpre]; simp
      rw [List.getElem?_take] at this
      split at this
      · exact this
      · cases this
    have hi' : SInv r (pre ++ [n]).length (if r.spls[k]? = some n then k + 1 else k) := by
      rw [List.length_append, List.length_singleton]
      split
      · rename_i hk; exact SInv.hit h ⟨n, hk, hn⟩
      · rename_i hk
        exact (hi.miss h fun hl => by
          obtain ⟨m, h1, h2⟩ := hl
          rw [hn] at h2; cases h2; exact hk h1).2
    simp only [ffSpl]
    generalize (if r.spls[k]? = some n then k + 1 else k) = k' at hi' ⊢
    by_cases hk : k' = r.spls.length
    · rw [if_pos hk]
      intro q p hq
      obtain ⟨m, h1, _⟩ := id hq
      have h2 := (List.getElem?_eq_some_iff.1 h1).1
      have h3 := hi' q p hq
      simp only [List.length_append, List.length_singleton] at h3
      omega
    · rw [if_neg hk]
      exact ih (pre ++ [n]) k' (by rw [hpre]; simp) hi'

theorem fastForward_SInv (r : SRoute) (h : LimitsInOrder r) (a : Nat) (ha : a ≤ r.nodes.length) :
    SInv r a (fastForward r a).2 := by
  unfold fastForward
  by_cases he : r.spls = []
  · intro k p hk; obtain ⟨n, h1, _⟩ := hk; simp [he] at h1
  · have he' : r.spls.isEmpty = false := by simpa using he
    by_cases h0 : a = 0
    · subst h0
      intro k p hk
      simp [he']
    · simp only [h0, he', if_false, Bool.false_eq_true]
      exact ffSpl_SInv r h _ [] 0 a rfl (fun k p hk => by simp) ha

/-! ### annotations -/

theorem mem_omittedLoop (isTrack om : Nat → Bool) (i : Nat) (ns : List Nat) (k : Nat) :
    k ∈ omittedLoop isTrack om i ns ↔ ∃ j n, ns[j]? = some n ∧ k = i + j ∧ isTrack n = true ∧ om n = true := by
  induction ns generalizing i with
  | nil => simp [omittedLoop]
  | cons n ns ih =>
    have hsplit : (∃ j m, (n :: ns)[j]? = some m ∧ k = i + j ∧ isTrack m = true ∧ om m = true) ↔
        (k = i ∧ isTrack n = true ∧ om n = true) ∨ ∃ j m, ns[j]? = some m ∧ k = i + 1 + j ∧ isTrack m = true ∧ om m = true := by
      constructor
      · rintro ⟨j, m, h1, h2, h3⟩
        cases j with
        | zero => simp only [List.getElem?_cons_zero, Option.some.injEq] at h1; subst h1; exact .inl ⟨by omega, h3⟩
        | succ j => exact .inr ⟨j, m, by simpa using h1, by omega, h3⟩
      · rintro (⟨h1, h2⟩ | ⟨j, m, h1, h2, h3⟩)
        · exact ⟨0, n, rfl, by omega, h2⟩
        · exact ⟨j + 1, m, by simpa using h1, by omega, h3⟩
    rw [hsplit, omittedLoop]
    split
    · rename_i hc
      simp only [Bool.and_eq_true] at hc
      rw [List.mem_cons, ih]
      simp [hc]
    · rename_i hc
      simp only [Bool.and_eq_true] at hc
      rw [ih]
      simp [hc]

theorem omittedLoop_lt (isTrack om : Nat → Bool) (i : Nat) (ns : List Nat) :
    (omittedLoop isTrack om i ns).Pairwise (· < ·) := by
  induction ns generalizing i with
  | nil => exact List.Pairwise.nil
  | cons n ns ih =>
    rw [omittedLoop]
    split
    · refine List.pairwise_cons.2 ⟨fun k hk => ?_, ih _⟩
      obtain ⟨j, _, _, h, _⟩ := (mem_omittedLoop _ _ _ _ _).1 hk
      omega
    · exact ih _

end Soro.Route
