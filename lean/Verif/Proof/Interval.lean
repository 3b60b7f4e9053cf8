import Verif.Spec.Interval
import Verif.Proof.Physics

/-
The list of intervals before the limits are adjusted: what one node changes.
-/

namespace Soro.Runtime

open Soro.Runtime.Spec

theorem eqVal_iff (a b : Rat) : Units.eqVal a b = true ↔ |a - b| < 1 / 100 := by
  unfold Units.eqVal
  rw [decide_eq_true_eq]
  by_cases h : a - b < 0
  · rw [if_pos h, abs_of_neg h]
  · rw [if_neg h, abs_of_nonneg (not_lt.mp h)]

/-! ### Chained limits -/

/-- the same as a recursive predicate -/
def ChainR (l : List Interval) : Prop :=
  List.IsChain (fun a b : Interval => b.left = some a.right) l

theorem chained_iff (l : List Interval) : Chained l ↔ ChainR l := by
  unfold ChainR Chained
  rw [List.isChain_iff_getElem]
  constructor
  · intro h k hk
    exact h k _ _ (List.getElem?_eq_getElem _) (List.getElem?_eq_getElem _)
  · intro h k a b ha hb
    obtain ⟨h1, rfl⟩ := List.getElem?_eq_some_iff.mp ha
    obtain ⟨h2, rfl⟩ := List.getElem?_eq_some_iff.mp hb
    exact h k h2

theorem rewrite_cons (new rep : Rat) (next : Bool) (i : Interval) (l : List Interval) :
    rewriteLimits new rep next (i :: l) =
      if Units.eqVal i.right rep = true then
        ({ i with left := (if next = true then some new else i.left), right := new } :: (rewriteLimits new rep true l).1,
          (rewriteLimits new rep true l).2 + 1)
      else ({ i with left := (if next = true then some new else i.left) } :: l, 0) := rfl

theorem rewrite_length (new rep : Rat) (next : Bool) (l : List Interval) :
    (rewriteLimits new rep next l).1.length = l.length ∧ (rewriteLimits new rep next l).2 ≤ l.length := by
  induction l generalizing next with
  | nil => simp [rewriteLimits]
  | cons i l ih =>
    have := ih true
    rw [rewrite_cons]
    by_cases h : Units.eqVal i.right rep = true
    · rw [if_pos h]
      simp only [List.length_cons]
      omega
    · rw [if_neg h]
      simp

/-- what does not change -/
theorem rewrite_same (new rep : Rat) (next : Bool) (l : List Interval) :
    (rewriteLimits new rep next l).1.map (fun i => (i.dist, i.halt, i.events)) = l.map (fun i => (i.dist, i.halt, i.events)) := by
  induction l generalizing next with
  | nil => rfl
  | cons i l ih =>
    rw [rewrite_cons]
    by_cases h : Units.eqVal i.right rep = true
    · rw [if_pos h]
      simp only [List.map_cons, ih]
    · rw [if_neg h]
      rfl

theorem rewrite_head (new rep : Rat) (next : Bool) (i : Interval) (l : List Interval) :
    ∃ j m, (rewriteLimits new rep next (i :: l)).1 = j :: m ∧ j.left = if next = true then some new else i.left := by
  rw [rewrite_cons]
  by_cases h : Units.eqVal i.right rep = true
  · rw [if_pos h]
    exact ⟨_, _, rfl, rfl⟩
  · rw [if_neg h]
    exact ⟨_, _, rfl, rfl⟩

theorem rewrite_chain (new rep : Rat) (next : Bool) (l : List Interval) (h : ChainR l) :
    ChainR (rewriteLimits new rep next l).1 := by
  induction l generalizing next with
  | nil => exact List.isChain_nil
  | cons i l ih =>
    have hl : ChainR l := List.IsChain.tail h
    rw [rewrite_cons]
    by_cases hr : Units.eqVal i.right rep = true
    · rw [if_pos hr]
      have := ih true hl
      cases l with
      | nil => exact List.isChain_singleton _
      | cons k l =>
        obtain ⟨j, m, hj, hleft⟩ := rewrite_head new rep true k l
        rw [hj] at this ⊢
        refine List.isChain_cons_cons.mpr ⟨?_, this⟩
        simpa using hleft
    · rw [if_neg hr]
      unfold ChainR at h ⊢
      cases l with
      | nil => exact List.isChain_singleton _
      | cons k l =>
        rw [List.isChain_cons_cons] at h
        exact List.isChain_cons_cons.mpr h

/-- the right limit of the last interval -/
theorem rewrite_last (new rep : Rat) (next : Bool) (l : List Interval) (a : Interval) (h : l.getLast? = some a) :
    ∃ b, (rewriteLimits new rep next l).1.getLast? = some b ∧
      b.right = if (rewriteLimits new rep next l).2 = l.length then new else a.right := by
  induction l generalizing next with
  | nil => simp at h
  | cons i l ih =>
    rw [rewrite_cons]
    by_cases hr : Units.eqVal i.right rep = true
    · rw [if_pos hr]
      cases l with
      | nil => exact ⟨_, rfl, by simp [rewriteLimits]⟩
      | cons k l =>
        rw [List.getLast?_cons_cons] at h
        obtain ⟨b, hb, hbr⟩ := ih true h
        refine ⟨b, ?_, ?_⟩
        · obtain ⟨j, m, hj, -⟩ := rewrite_head new rep true k l
          simp only
          rw [hj] at hb ⊢
          rw [List.getLast?_cons_cons]
          exact hb
        · rw [hbr]
          simp
    · rw [if_neg hr]
      cases l with
      | nil =>
        simp at h
        subst h
        exact ⟨_, rfl, by simp⟩
      | cons k l => exact ⟨a, by simpa [List.getLast?_cons_cons] using h, by simp⟩

theorem chainR_append {l m : List Interval} (h : ChainR (l ++ m)) : ChainR l ∧ ChainR m := by
  unfold ChainR at h ⊢
  exact ⟨List.IsChain.left_of_append h, List.IsChain.right_of_append h⟩

theorem insert_spec (new : Rat) (list : List Interval) (k : Nat) (hk : k < list.length) (hc : ChainR list) (a : Interval)
    (ha : list.getLast? = some a) :
    ChainR (insertLastSignal new list k).1 ∧ (insertLastSignal new list k).1.length = list.length ∧
    ∃ b, (insertLastSignal new list k).1.getLast? = some b ∧
      b.right = if (insertLastSignal new list k).2 = list.length then new else a.right := by
  unfold insertLastSignal
  rw [List.getElem?_eq_getElem hk]
  simp only
  have hsplit : list.take k ++ list.drop k = list := List.take_append_drop k list
  obtain ⟨h1, h2⟩ := chainR_append (l := list.take k) (m := list.drop k) (by rw [hsplit]; exact hc)
  have hdrop : list.drop k ≠ [] := by
    intro h
    have := congrArg List.length h
    simp at this
    omega
  have hlast : (list.drop k).getLast? = some a := by
    rw [← hsplit, List.getLast?_append] at ha
    cases hd : (list.drop k).getLast? with
    | none => exact absurd (List.getLast?_eq_none_iff.mp hd) hdrop
    | some x =>
      rw [hd] at ha
      simpa using ha
  obtain ⟨b, hb, hbr⟩ := rewrite_last new (list[k]).right false _ a hlast
  have hlen := rewrite_length new (list[k]).right false (list.drop k)
  refine ⟨?_, ?_, b, ?_, ?_⟩
  · unfold ChainR
    rw [List.isChain_append]
    refine ⟨h1, rewrite_chain _ _ _ _ h2, ?_⟩
    intro x hx y hy
    obtain ⟨i, l, hil⟩ : ∃ i l, list.drop k = i :: l := by
      cases hd : list.drop k with
      | nil => exact absurd hd hdrop
      | cons i l => exact ⟨i, l, rfl⟩
    rw [hil] at hy
    obtain ⟨j, m, hj, hleft⟩ := rewrite_head new (list[k]).right false i l
    rw [hj] at hy
    simp only [List.head?_cons, Option.mem_def, Option.some.injEq] at hy
    subst hy
    simp only [Bool.false_eq_true, if_false] at hleft
    rw [hleft]
    have hc' := hc
    unfold ChainR at hc'
    rw [← hsplit, List.isChain_append] at hc'
    exact hc'.2.2 x hx i (by simp [hil])
  · simp only [List.length_append, List.length_take, hlen.1, List.length_drop]
    omega
  · rw [List.getLast?_append, hb]
    rfl
  · rw [hbr]
    simp only [List.length_drop]
    by_cases h : (rewriteLimits new list[k].right false (list.drop k)).2 = list.length - k
    · rw [if_pos h, if_pos (by omega)]
    · rw [if_neg h, if_neg (by omega)]

/-- what holds between two nodes as far as limits are concerned -/
def LimitInv (s : State) : Prop :=
  ChainR s.list ∧ ∀ a, s.list.getLast? = some a → a.right = s.cur ∧ s.prev = some s.cur

/-- the index of the last signal is one of the list -/
def IndexInv (s : State) : Prop :=
  s.lastMs < s.list.length ∨ s.list = []

theorem applyLastSignal_inv (s : State) (d : Duo) (h : LimitInv s) (hi : IndexInv s) :
    LimitInv (applyLastSignal s d) ∧ IndexInv (applyLastSignal s d) ∧ (applyLastSignal s d).list.length = s.list.length := by
  unfold applyLastSignal
  cases hd : d.lastSignal with
  | none => exact ⟨h, hi, rfl⟩
  | some v =>
    simp only
    rcases hi with hi | hi
    · have hne : s.list ≠ [] := by
        intro h0
        rw [h0] at hi
        simp at hi
      obtain ⟨a, ha⟩ : ∃ a, s.list.getLast? = some a := ⟨_, List.getLast?_eq_getLast_of_ne_nil hne⟩
      obtain ⟨h1, h2, b, hb, hbr⟩ := insert_spec v s.list s.lastMs hi h.1 a ha
      obtain ⟨h3, h4⟩ := h.2 a ha
      split
      · rename_i heq
        rw [h2] at heq
        rw [if_pos heq] at hbr
        refine ⟨⟨h1, ?_⟩, Or.inl (by simpa [h2] using hi), by simpa using h2⟩
        intro c hc
        simp only at hc
        rw [hb] at hc
        obtain rfl := Option.some.inj hc
        exact ⟨hbr, rfl⟩
      · rename_i heq
        rw [h2] at heq
        rw [if_neg heq] at hbr
        refine ⟨⟨h1, ?_⟩, Or.inl (by simpa [h2] using hi), by simpa using h2⟩
        intro c hc
        simp only at hc
        rw [hb] at hc
        obtain rfl := Option.some.inj hc
        exact ⟨by rw [hbr, h3], h4⟩
    · rw [hi]
      simp only [insertLastSignal, List.getElem?_nil, List.length_nil, if_true]
      exact ⟨⟨by simp [ChainR], by simp⟩, Or.inr rfl, trivial⟩

theorem getLast_pushInterval (l : List Interval) (i : Interval) :
    ∃ b, (pushInterval l i).getLast? = some b ∧ b.right = i.right := by
  unfold pushInterval
  cases l.getLast? with
  | none => exact ⟨i, rfl, rfl⟩
  | some b =>
    simp only
    split
    · exact ⟨_, List.getLast?_concat, rfl⟩
    · exact ⟨_, List.getLast?_concat, rfl⟩

theorem pushInterval_chain (l : List Interval) (i : Interval) (h : ChainR l)
    (hl : ∀ a, l.getLast? = some a → i.left = some a.right) : ChainR (pushInterval l i) := by
  unfold pushInterval
  cases hg : l.getLast? with
  | none => simp [ChainR]
  | some b =>
    simp only
    have hne : l ≠ [] := by
      intro h0
      simp [h0] at hg
    split
    · have hb : l.getLast hne = b := by
        rw [List.getLast?_eq_getLast_of_ne_nil hne] at hg
        exact Option.some.inj hg
      have hc : ChainR (l.dropLast ++ [b]) := by
        rw [← hb, List.dropLast_concat_getLast hne]
        exact h
      unfold ChainR at hc ⊢
      rw [List.isChain_append] at hc ⊢
      refine ⟨hc.1, List.isChain_singleton _, ?_⟩
      intro x hx y hy
      simp only [List.head?_cons, Option.mem_def, Option.some.injEq] at hy
      subst hy
      exact hc.2.2 x hx b (by simp)
    · unfold ChainR at h ⊢
      rw [List.isChain_append]
      refine ⟨h, List.isChain_singleton _, ?_⟩
      intro x hx y hy
      simp only [List.head?_cons, Option.mem_def, Option.some.injEq] at hy
      subst hy
      rw [hg] at hx
      simp only [Option.mem_def, Option.some.injEq] at hx
      subst hx
      exact hl _ hg

theorem nodeStep_limits (s : State) (n : TNode) (h : LimitInv s) (hi : IndexInv s) : LimitInv (nodeStep s n) := by
  unfold nodeStep
  simp only
  split
  · exact h
  · obtain ⟨h1, h2, -⟩ := applyLastSignal_inv { s with dist := s.dist + n.gap } (getSpeedLimit n) h hi
    revert h1 h2
    generalize applyLastSignal { s with dist := s.dist + n.gap } (getSpeedLimit n) = t
    intro h1 h2
    unfold closeInterval
    cases hd : (getSpeedLimit n).here with
    | none =>
      simp only [applyHere, hd, Option.isSome_none, Bool.or_false]
      split
      · refine ⟨pushInterval_chain _ _ h1.1 ?_, ?_⟩
        · intro a ha
          obtain ⟨h3, h4⟩ := h1.2 a ha
          simp only [noteNode]
          rw [h4, h3]
        · intro a ha
          obtain ⟨b, hb, hbr⟩ := getLast_pushInterval (noteNode t n).list
            { dist := (noteNode t n).dist, left := (noteNode t n).prev, right := (noteNode t n).cur, halt := n.stop,
              events := (noteNode t n).events }
          simp only at ha
          rw [hb] at ha
          obtain rfl := Option.some.inj ha
          exact ⟨hbr, rfl⟩
      · exact h1
    | some v =>
      simp only [applyHere, hd, Option.isSome_some, Bool.or_true, if_true]
      refine ⟨pushInterval_chain _ _ h1.1 ?_, ?_⟩
      · intro a ha
        obtain ⟨h3, h4⟩ := h1.2 a ha
        simp only [noteNode]
        rw [h3]
      · intro a ha
        simp only at ha
        obtain ⟨b, hb, hbr⟩ := getLast_pushInterval (noteNode { t with prev := some t.cur, cur := v } n).list
          { dist := (noteNode { t with prev := some t.cur, cur := v } n).dist
            left := (noteNode { t with prev := some t.cur, cur := v } n).prev
            right := (noteNode { t with prev := some t.cur, cur := v } n).cur
            halt := n.stop
            events := (noteNode { t with prev := some t.cur, cur := v } n).events }
        rw [hb] at ha
        obtain rfl := Option.some.inj ha
        exact ⟨hbr, rfl⟩

end Soro.Runtime
