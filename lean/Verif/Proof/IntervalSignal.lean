import Verif.Spec.IntervalSignal
import Verif.Proof.IntervalSkeleton

/-
Limits that hold from the last signal on.
-/

namespace Soro.Runtime

open Soro.Runtime.Spec

/-! ### The limit activated last -/

theorem bestAt_concat (initial : Rat) (l : List Setting) (s : Setting) (i : Nat) :
    bestAt initial (l ++ [s]) i = pick i (bestAt initial l i) s := by
  simp [bestAt, List.foldl_append]

theorem bestAt_mem (initial : Rat) (l : List Setting) (i : Nat) :
    bestAt initial l i = ⟨0, initial⟩ ∨ (bestAt initial l i ∈ l ∧ (bestAt initial l i).act ≤ i) := by
  induction l using List.reverseRecOn with
  | nil => exact Or.inl rfl
  | append_singleton l s ih =>
    rw [bestAt_concat]
    unfold pick
    split
    · rename_i h
      exact Or.inr ⟨by simp, h.1⟩
    · rcases ih with h | h
      · exact Or.inl h
      · exact Or.inr ⟨by simp [h.1], h.2⟩

theorem bestAt_le (initial : Rat) (l : List Setting) (i : Nat) : (bestAt initial l i).act ≤ i := by
  rcases bestAt_mem initial l i with h | h
  · rw [h]; exact Nat.zero_le _
  · exact h.2

theorem bestAt_ge (initial : Rat) (l : List Setting) (i : Nat) : ∀ s ∈ l, s.act ≤ i → s.act ≤ (bestAt initial l i).act := by
  induction l using List.reverseRecOn with
  | nil => simp
  | append_singleton l t ih =>
    intro s hs hi
    rw [bestAt_concat]
    unfold pick
    rcases List.mem_append.mp hs with hs | hs
    · have := ih s hs hi
      split
      · omega
      · exact this
    · simp only [List.mem_singleton] at hs
      subst hs
      split
      · exact Nat.le_refl _
      · omega

theorem bestAt_congr (initial : Rat) (l : List Setting) (i j : Nat) (h : ∀ s ∈ l, s.act ≤ i ↔ s.act ≤ j) :
    bestAt initial l i = bestAt initial l j := by
  induction l using List.reverseRecOn with
  | nil => rfl
  | append_singleton l t ih =>
    rw [bestAt_concat, bestAt_concat, ih (fun s hs => h s (by simp [hs]))]
    unfold pick
    simp only [h t (by simp)]

theorem bestAt_mono (initial : Rat) (l : List Setting) (i j : Nat) (h : i ≤ j) :
    (bestAt initial l i).act ≤ (bestAt initial l j).act := by
  rcases bestAt_mem initial l i with h' | h'
  · rw [h']; exact Nat.zero_le _
  · exact bestAt_ge initial l j _ h'.1 (by omega)

/-- nothing is activated between `a` and `i` -/
theorem bestAt_same (initial : Rat) (l : List Setting) (a i : Nat) (hai : a ≤ i) (h : (bestAt initial l i).act ≤ a) :
    bestAt initial l i = bestAt initial l a := by
  apply bestAt_congr
  intro s hs
  constructor
  · intro hi
    have := bestAt_ge initial l i s hs hi
    omega
  · intro ha; omega

/-! ### The limits of a path -/

theorem settings_concat (pre : List TNode) (n : TNode) : settings (pre ++ [n]) = settings pre ++ settingsAt pre n := by
  unfold settings
  rw [List.zipIdx_append, List.flatMap_append]
  congr 1
  · apply List.flatMap_congr
    intro p hp
    have hk : p.2 ≤ pre.length := by
      have := List.mem_zipIdx_iff_getElem?.mp hp
      have := (List.getElem?_eq_some_iff.mp this).1
      omega
    rw [List.take_append_of_le_length hk]
  · simp

theorem bordersIdx_concat (pre : List TNode) (n : TNode) :
    bordersIdx (pre ++ [n]) = bordersIdx pre ++ if isBorder n then [(n, pre.length)] else [] := by
  unfold bordersIdx
  rw [List.zipIdx_append, List.filter_append]
  simp only [List.zipIdx_cons, List.zipIdx_nil, Nat.zero_add, List.filter_cons, List.filter_nil]

theorem bordersIdx_mem {nodes : List TNode} {p : TNode × Nat} :
    p ∈ bordersIdx nodes ↔ nodes[p.2]? = some p.1 ∧ isBorder p.1 = true := by
  unfold bordersIdx
  rw [List.mem_filter, List.mem_zipIdx_iff_getElem?]

theorem bordersIdx_sorted (nodes : List TNode) : (bordersIdx nodes).Pairwise fun p q => p.2 < q.2 := by
  induction nodes using List.reverseRecOn with
  | nil => simp [bordersIdx]
  | append_singleton pre n ih =>
    rw [bordersIdx_concat, List.pairwise_append]
    refine ⟨ih, ?_, ?_⟩
    · split <;> simp
    · intro p hp q hq
      have h1 := (List.getElem?_eq_some_iff.mp (bordersIdx_mem.mp hp).1).1
      split at hq
      · simp only [List.mem_singleton] at hq
        subst hq
        exact h1
      · simp at hq

/-- index of the last main signal -/
def lastSignalIdx (pre : List TNode) : Option Nat := ((pre.zipIdx.filter fun p => isSignal p.1).getLast?).map (·.2)

theorem lastSignalIdx_concat (pre : List TNode) (n : TNode) :
    lastSignalIdx (pre ++ [n]) = if isSignal n then some pre.length else lastSignalIdx pre := by
  unfold lastSignalIdx
  rw [List.zipIdx_append, List.filter_append]
  simp only [List.zipIdx_cons, List.zipIdx_nil, Nat.zero_add, List.filter_cons, List.filter_nil]
  by_cases h : isSignal n = true
  · simp [h]
  · simp [h]

theorem activation_eq (pre : List TNode) : activation pre = (lastSignalIdx pre).getD (pre.findIdx isBorder) := by
  unfold activation lastSignalIdx
  cases ((pre.zipIdx.filter fun p => isSignal p.1).getLast?).map (·.2) <;> rfl

theorem isSignal_border {n : TNode} (h : isSignal n = true) : isBorder n = true := by
  simp only [isSignal, isBorder, Bool.and_eq_true, Bool.or_eq_true] at h ⊢
  exact ⟨h.1, Or.inl (Or.inl h.2)⟩

theorem lastSignalIdx_some {pre : List TNode} {m : Nat} (h : lastSignalIdx pre = some m) :
    ∃ n, pre[m]? = some n ∧ isSignal n = true := by
  unfold lastSignalIdx at h
  simp only [Option.map_eq_some_iff] at h
  obtain ⟨p, hp, rfl⟩ := h
  have := List.mem_of_getLast? hp
  rw [List.mem_filter, List.mem_zipIdx_iff_getElem?] at this
  exact ⟨p.1, this⟩

theorem findIdx_concat (pre : List TNode) (n : TNode) :
    (pre ++ [n]).findIdx isBorder =
      if pre.findIdx isBorder < pre.length then pre.findIdx isBorder else if isBorder n then pre.length else pre.length + 1 := by
  rw [List.findIdx_append]
  split
  · rfl
  · by_cases h : isBorder n = true
    · simp [List.findIdx_cons, h]
    · simp [List.findIdx_cons, h, Nat.add_comm]

theorem findIdx_lt {pre : List TNode} : pre.findIdx isBorder < pre.length ↔ bordersIdx pre ≠ [] := by
  rw [List.findIdx_lt_length]
  constructor
  · rintro ⟨n, hn, hb⟩ h
    obtain ⟨k, hk⟩ := List.getElem?_of_mem hn
    have : (n, k) ∈ bordersIdx pre := bordersIdx_mem.mpr ⟨hk, hb⟩
    rw [h] at this
    simp at this
  · intro h
    obtain ⟨p, hp⟩ := List.exists_mem_of_ne_nil _ h
    have := bordersIdx_mem.mp hp
    exact ⟨p.1, List.mem_of_getElem? this.1, this.2⟩

theorem activation_le (pre : List TNode) : activation pre ≤ pre.length := by
  rw [activation_eq]
  cases h : lastSignalIdx pre with
  | none => exact List.findIdx_le_length
  | some m =>
    obtain ⟨n, hn, _⟩ := lastSignalIdx_some h
    exact Nat.le_of_lt (List.getElem?_eq_some_iff.mp hn).1

theorem activation_concat (pre : List TNode) (n : TNode) :
    activation (pre ++ [n]) =
      if isSignal n then pre.length
      else if bordersIdx pre = [] then (if isBorder n then pre.length else pre.length + 1) else activation pre := by
  rw [activation_eq, activation_eq, lastSignalIdx_concat]
  by_cases hs : isSignal n = true
  · simp [hs]
  · simp only [hs, Bool.false_eq_true, if_false]
    by_cases hb : bordersIdx pre = []
    · have hno : lastSignalIdx pre = none := by
        cases h : lastSignalIdx pre with
        | none => rfl
        | some m =>
          obtain ⟨x, hx, hx'⟩ := lastSignalIdx_some h
          have : (x, m) ∈ bordersIdx pre := bordersIdx_mem.mpr ⟨hx, isSignal_border hx'⟩
          rw [hb] at this
          simp at this
      rw [hno, findIdx_concat, if_neg (fun h => findIdx_lt.mp h hb), if_pos hb]
      rfl
    · rw [if_neg hb, findIdx_concat, if_pos (findIdx_lt.mpr hb)]

theorem activation_empty {pre : List TNode} (h : bordersIdx pre = []) : activation pre = pre.length := by
  induction pre using List.reverseRecOn with
  | nil => rfl
  | append_singleton pre n _ =>
    rw [bordersIdx_concat, List.append_eq_nil_iff] at h
    have hb : ¬ isBorder n = true := by
      intro hb
      simp [hb] at h
    have hs : ¬ isSignal n = true := fun hs => hb (isSignal_border hs)
    rw [activation_concat, if_neg hs, if_pos h.1, if_neg hb]
    simp

theorem activation_mono (pre : List TNode) (n : TNode) : activation pre ≤ activation (pre ++ [n]) := by
  have := activation_le pre
  rw [activation_concat]
  split
  · exact this
  · split
    · split <;> omega
    · exact Nat.le_refl _

/-- a limit is activated no later than a limit for the last signal would be, or holds from its node on -/
theorem settings_cases (pre : List TNode) : ∀ s ∈ settings pre, s.act ≤ activation pre ∨
    ∃ n, pre[s.act]? = some n ∧ n.omitted = false ∧ broughtLimit n = some s.value := by
  induction pre using List.reverseRecOn with
  | nil => simp [settings]
  | append_singleton pre n ih =>
    intro s hs
    rw [settings_concat] at hs
    have hm := activation_mono pre n
    rcases List.mem_append.mp hs with hs | hs
    · rcases ih s hs with h | ⟨x, hx, h⟩
      · left; omega
      · exact Or.inr ⟨x, getElem?_prefix hx, h⟩
    · unfold settingsAt at hs
      by_cases ho : n.omitted = true
      · simp [ho] at hs
      · have ho' : n.omitted = false := by simpa using ho
        rw [if_neg ho] at hs
        simp only [List.mem_append, List.mem_map, Option.mem_toList] at hs
        rcases hs with ⟨v, _, rfl⟩ | ⟨v, hv, rfl⟩
        · left; exact hm
        · right
          exact ⟨n, by simp, ho', hv⟩

theorem settings_le (pre : List TNode) : ∀ s ∈ settings pre, s.act ≤ pre.length := by
  intro s hs
  rcases settings_cases pre s hs with h | ⟨n, hn, _⟩
  · have := activation_le pre; omega
  · exact Nat.le_of_lt (List.getElem?_eq_some_iff.mp hn).1

theorem announced_eq (n : TNode) : (getSpeedLimit n).lastSignal = announcedLimit n := by
  have hh : ∀ (l : Limit) (d : Duo), (d.handle l).lastSignal = match signalValue (some l) with
      | some v => some v
      | none => d.lastSignal := by
    intro l d
    unfold Duo.handle signalValue
    cases h1 : l.effective <;> cases h2 : l.here <;> simp [h1, h2]
  unfold getSpeedLimit announcedLimit
  cases hs : n.spl with
  | none =>
    cases he : n.extra with
    | none => rfl
    | some e =>
      simp only [hh]
      cases signalValue (some e) <;> rfl
  | some l =>
    cases he : n.extra with
    | none =>
      simp only [hh]
      cases h1 : signalValue (some l) <;> simp [signalValue]
    | some e =>
      simp only [hh]
      cases h1 : signalValue (some e) <;> simp only <;> cases signalValue (some l) <;> rfl

theorem border_closes (n : TNode) : isBorder n = (!n.omitted && closes n) := by
  unfold isBorder closes
  rw [closes_here]

/-! ### Rewriting the limits -/

theorem eqVal_self (a : Rat) : Units.eqVal a a = true := by
  rw [eqVal_iff]
  norm_num

theorem rewrite_rows (new rep : Rat) (next : Bool) (l : List Interval) (ps : List (TNode × Nat)) (d : Nat → Rat) (g : Nat → Rat)
    (c : Nat → Bool) (hl : l.map row = ps.map fun p => (d p.2, p.1.stop, g p.2)) (h1 : ∀ p ∈ ps, c p.2 = true → g p.2 = rep)
    (h2 : ∀ p ∈ ps, c p.2 = false → Units.eqVal (g p.2) rep = false) (h3 : ps.Pairwise fun p q => c q.2 = true → c p.2 = true) :
    (rewriteLimits new rep next l).1.map row = ps.map (fun p => (d p.2, p.1.stop, if c p.2 then new else g p.2)) ∧
    ((rewriteLimits new rep next l).2 = l.length ↔ ∀ p ∈ ps, c p.2 = true) := by
  induction l generalizing ps next with
  | nil =>
    cases ps with
    | nil => simp [rewriteLimits]
    | cons => simp at hl
  | cons i l ih =>
    cases ps with
    | nil => simp at hl
    | cons p ps =>
      simp only [List.map_cons, List.cons.injEq] at hl
      rw [List.pairwise_cons] at h3
      have hr : i.right = g p.2 := congrArg (fun x => x.2.2) hl.1
      have hlen := (rewrite_length new rep true l).2
      rw [rewrite_cons]
      cases hc : c p.2 with
      | true =>
        have hrep := h1 p List.mem_cons_self hc
        rw [if_pos (by rw [hr, hrep]; exact eqVal_self _)]
        obtain ⟨i1, i2⟩ := ih true ps hl.2 (fun q hq => h1 q (List.mem_cons_of_mem _ hq))
          (fun q hq => h2 q (List.mem_cons_of_mem _ hq)) h3.2
        refine ⟨?_, ?_⟩
        · simp only [List.map_cons, i1, hc, if_true, List.cons.injEq, and_true]
          have := hl.1
          simp only [row, Prod.mk.injEq] at this ⊢
          exact ⟨this.1, this.2.1, trivial⟩
        · simp only [List.length_cons, Nat.add_right_cancel_iff, List.mem_cons, forall_eq_or_imp, hc, true_and]
          exact i2
      | false =>
        rw [if_neg (by rw [hr, h2 p List.mem_cons_self hc]; simp)]
        have hlater : ∀ q ∈ ps, c q.2 = false := by
          intro q hq
          cases hcq : c q.2 with
          | false => rfl
          | true => have := h3.1 q hq hcq; simp [hc] at this
        refine ⟨?_, ?_⟩
        · simp only [List.map_cons, hc, Bool.false_eq_true, if_false, List.cons.injEq]
          refine ⟨hl.1, ?_⟩
          rw [hl.2]
          apply List.map_congr_left
          intro q hq
          rw [hlater q hq]
          simp
        · simp [hc]

/-! ### The invariant -/

structure SignalInv (initial : Rat) (pre : List TNode) (s : State) : Prop where
  rows : s.list.map row = limitsOf initial pre
  cur : s.cur = inForce initial pre pre.length
  index : (bordersIdx pre = [] ∧ s.lastMs = 0) ∨ ∃ n, (bordersIdx pre)[s.lastMs]? = some (n, activation pre)

/-- what a limit for the last signal does to the limits in force -/
theorem bestAt_announced (initial : Rat) (pre : List TNode) (v : Rat) (i : Nat) :
    (bestAt initial (settings pre ++ [⟨activation pre, v⟩]) i).value =
      if activation pre ≤ i ∧ (bestAt initial (settings pre) i).act ≤ activation pre then v else inForce initial pre i := by
  rw [bestAt_concat]
  unfold pick inForce
  split <;> simp_all

/-- the limits in force up to a limit for the last signal -/
theorem applyLastSignal_rows {initial : Rat} {pre : List TNode} {s : State} {n : TNode} (hi : SignalInv initial pre s)
    (hn : NoRepeat initial (pre ++ [n])) (ho : n.omitted = false) :
    let S := settings pre ++ (announcedLimit n).toList.map (fun v => ⟨activation pre, v⟩)
    (applyLastSignal s (getSpeedLimit n)).list.map row =
        (bordersIdx pre).map (fun p => (pos pre p.2, p.1.stop, (bestAt initial S p.2).value)) ∧
      (applyLastSignal s (getSpeedLimit n)).cur = (bestAt initial S pre.length).value ∧
      (applyLastSignal s (getSpeedLimit n)).lastMs = s.lastMs ∧ (applyLastSignal s (getSpeedLimit n)).dist = s.dist := by
  intro S
  unfold applyLastSignal
  rw [announced_eq]
  cases ha : announcedLimit n with
  | none =>
    have hS : S = settings pre := by simp [S, ha]
    simp only [hS]
    exact ⟨hi.rows, hi.cur, trivial, trivial⟩
  | some v =>
    have hS : S = settings pre ++ [⟨activation pre, v⟩] := by simp [S, ha]
    simp only [hS, bestAt_announced]
    set a := activation pre with hadef
    have hap := activation_le pre
    -- limits that hold from a node behind the point of activation on
    have here : ∀ i, a < (bestAt initial (settings pre) i).act →
        ∃ m, pre[(bestAt initial (settings pre) i).act]? = some m ∧ m.omitted = false ∧
          broughtLimit m = some (inForce initial pre i) := by
      intro i hlt
      rcases bestAt_mem initial (settings pre) i with h | h
      · rw [h] at hlt
        simp at hlt
      · rcases settings_cases pre _ h.1 with h' | h'
        · omega
        · exact h'
    rcases hi.index with ⟨hb, hms⟩ | ⟨x, hx⟩
    · have hl : s.list = [] := by
        have := hi.rows
        simp only [limitsOf, hb, List.map_nil, List.map_eq_nil_iff] at this
        exact this
      have hal : a = pre.length := activation_empty hb
      have hins : insertLastSignal v s.list s.lastMs = ([], 0) := by
        rw [hl]
        simp [insertLastSignal]
      rw [hins]
      simp only [List.length_nil, if_true, List.map_nil, hb, and_true, true_and]
      rw [if_pos ⟨hap, by rw [hal]; exact bestAt_le _ _ _⟩]
    · have hlen : s.list.length = (bordersIdx pre).length := by
        have := congrArg List.length hi.rows
        simpa [limitsOf] using this
      have hk : s.lastMs < s.list.length := by
        rw [hlen]
        exact (List.getElem?_eq_some_iff.mp hx).1
      have hkb := (List.getElem?_eq_some_iff.mp hx).1
      have hget : row (s.list[s.lastMs]) = (pos pre a, x.stop, inForce initial pre a) := by
        have h1 := congrArg (fun l : List (Rat × Option Halt × Rat) => l[s.lastMs]?) hi.rows
        simp only [limitsOf, List.getElem?_map, hx, List.getElem?_eq_getElem hk, Option.map_some, Option.some.injEq] at h1
        exact h1
      have hright : (s.list[s.lastMs]).right = inForce initial pre a := congrArg (fun y => y.2.2) hget
      have hsort := bordersIdx_sorted pre
      have hge : ∀ p ∈ (bordersIdx pre).drop s.lastMs, a ≤ p.2 := by
        intro p hp
        rw [List.drop_eq_getElem_cons hkb, (List.getElem?_eq_some_iff.mp hx).2, List.mem_cons] at hp
        rcases hp with rfl | hp
        · exact Nat.le_refl _
        · have h1 : ((bordersIdx pre).drop s.lastMs).Pairwise fun p q => p.2 < q.2 := hsort.drop
          rw [List.drop_eq_getElem_cons hkb, (List.getElem?_eq_some_iff.mp hx).2, List.pairwise_cons] at h1
          exact Nat.le_of_lt (h1.1 p hp)
      have hlt : ∀ p ∈ (bordersIdx pre).take s.lastMs, p.2 < a := by
        intro p hp
        have h1 := hsort
        rw [← List.take_append_drop s.lastMs (bordersIdx pre), List.pairwise_append] at h1
        refine h1.2.2 p hp (x, a) ?_
        rw [List.drop_eq_getElem_cons hkb, (List.getElem?_eq_some_iff.mp hx).2]
        exact List.mem_cons_self
      let c : Nat → Bool := fun i => decide ((bestAt initial (settings pre) i).act ≤ a)
      have hnr : ∀ i, i ≤ pre.length → c i = false → Units.eqVal (inForce initial pre i) (inForce initial pre a) = false := by
        intro i hip hc
        have hc' : a < (bestAt initial (settings pre) i).act := by simpa [c] using hc
        obtain ⟨m, hm, hmo, hmb⟩ := here i hc'
        have hj := (List.getElem?_eq_some_iff.mp hm).1
        have := hn _ pre.length m n v _ (by simp) ho ha (getElem?_prefix hm) hmo hmb
          (by rw [List.take_left]; exact hc') hj
        rw [List.take_left] at this
        rw [← Bool.not_eq_true, eqVal_iff]
        exact not_lt.mpr this
      have hsplit : (s.list.drop s.lastMs).map row =
          ((bordersIdx pre).drop s.lastMs).map fun p => (pos pre p.2, p.1.stop, inForce initial pre p.2) := by
        rw [List.map_drop, hi.rows, limitsOf, List.map_drop]
      obtain ⟨r1, r2⟩ := rewrite_rows v (s.list[s.lastMs]).right false (s.list.drop s.lastMs)
        ((bordersIdx pre).drop s.lastMs) (pos pre) (inForce initial pre) c hsplit
        (fun p hp hc => by
          rw [hright]
          unfold inForce
          rw [bestAt_same initial (settings pre) a p.2 (hge p hp) (by simpa [c] using hc)])
        (fun p hp hc => by
          rw [hright]
          exact hnr p.2 (Nat.le_of_lt (List.getElem?_eq_some_iff.mp (bordersIdx_mem.mp (List.mem_of_mem_drop hp)).1).1) hc)
        (by
          refine List.Pairwise.imp ?_ hsort.drop
          intro p q hpq hq
          have := bestAt_mono initial (settings pre) p.2 q.2 (Nat.le_of_lt hpq)
          simp only [c, decide_eq_true_eq] at hq ⊢
          omega)
      have hrows : (s.list.take s.lastMs ++ (rewriteLimits v (s.list[s.lastMs]).right false (s.list.drop s.lastMs)).1).map row =
          (bordersIdx pre).map fun p => (pos pre p.2, p.1.stop,
            if a ≤ p.2 ∧ (bestAt initial (settings pre) p.2).act ≤ a then v else inForce initial pre p.2) := by
        rw [List.map_append, r1, List.map_take, hi.rows, limitsOf, ← List.map_take]
        conv_rhs => rw [← List.take_append_drop s.lastMs (bordersIdx pre), List.map_append]
        congr 1
        · apply List.map_congr_left
          intro p hp
          rw [if_neg (fun h => absurd h.1 (Nat.not_le.mpr (hlt p hp)))]
        · apply List.map_congr_left
          intro p hp
          have := hge p hp
          simp only [c, decide_eq_true_eq, this, true_and]
      have hall : (∀ p ∈ (bordersIdx pre).drop s.lastMs, c p.2 = true) ↔ (bestAt initial (settings pre) pre.length).act ≤ a := by
        constructor
        · intro h
          by_contra hcon
          have hcon' : a < (bestAt initial (settings pre) pre.length).act := by omega
          obtain ⟨m, hm, hmo, hmb⟩ := here pre.length hcon'
          have hbm : isBorder m = true := by
            unfold isBorder
            rw [hmo, hmb]
            simp
          have hmem : (m, (bestAt initial (settings pre) pre.length).act) ∈ bordersIdx pre := bordersIdx_mem.mpr ⟨hm, hbm⟩
          rw [← List.take_append_drop s.lastMs (bordersIdx pre), List.mem_append] at hmem
          rcases hmem with hmem | hmem
          · have := hlt _ hmem
            simp only at this
            omega
          · have hc := h _ hmem
            simp only [c, decide_eq_true_eq] at hc
            rcases bestAt_mem initial (settings pre) pre.length with hb | hb
            · rw [hb] at hcon'
              simp at hcon'
            · have := bestAt_ge initial (settings pre) (bestAt initial (settings pre) pre.length).act _ hb.1 (Nat.le_refl _)
              omega
        · intro h p hp
          have h1 := (List.getElem?_eq_some_iff.mp (bordersIdx_mem.mp (List.mem_of_mem_drop hp)).1).1
          have := bestAt_mono initial (settings pre) p.2 pre.length (Nat.le_of_lt h1)
          simp only [c, decide_eq_true_eq]
          omega
      have hins : insertLastSignal v s.list s.lastMs =
          (s.list.take s.lastMs ++ (rewriteLimits v (s.list[s.lastMs]).right false (s.list.drop s.lastMs)).1,
            s.lastMs + (rewriteLimits v (s.list[s.lastMs]).right false (s.list.drop s.lastMs)).2) := by
        unfold insertLastSignal
        rw [List.getElem?_eq_getElem hk]
      have hlr := rewrite_length v (s.list[s.lastMs]).right false (s.list.drop s.lastMs)
      rw [hins]
      have hiff : (s.lastMs + (rewriteLimits v (s.list[s.lastMs]).right false (s.list.drop s.lastMs)).2 =
          (s.list.take s.lastMs ++ (rewriteLimits v (s.list[s.lastMs]).right false (s.list.drop s.lastMs)).1).length) ↔
          (bestAt initial (settings pre) pre.length).act ≤ a := by
        rw [← hall, ← r2]
        simp only [List.length_append, List.length_take, hlr.1, List.length_drop] at *
        omega
      simp only
      by_cases hend : (bestAt initial (settings pre) pre.length).act ≤ a
      · rw [if_pos (hiff.mpr hend), if_pos ⟨hap, hend⟩]
        exact ⟨hrows, rfl, rfl, rfl⟩
      · rw [if_neg (fun h => hend (hiff.mp h)), if_neg (fun h => hend h.2)]
        exact ⟨hrows, hi.cur, rfl, rfl⟩

theorem noRepeat_prefix {initial : Rat} {pre : List TNode} {n : TNode} (h : NoRepeat initial (pre ++ [n])) :
    NoRepeat initial pre := by
  intro j k m x v hh hk ho ha hj hmo hb hact hjk
  have hkl := (List.getElem?_eq_some_iff.mp hk).1
  have := h j k m x v hh (getElem?_prefix hk) ho ha (getElem?_prefix hj) hmo hb
  rw [List.take_append_of_le_length (Nat.le_of_lt hkl)] at this
  exact this hact hjk

theorem push_new {pre : List TNode} {n : TNode} (hb : BordersApart (pre ++ [n])) (hn : Border n) (l : List Interval)
    (hl : ∀ b ∈ l, ∃ p ∈ bordersIdx pre, b.dist = pos pre p.2) (i : Interval) (hi : i.dist = pos (pre ++ [n]) pre.length) :
    pushInterval l i = l ++ [i] := by
  unfold pushInterval
  cases h : l.getLast? with
  | none =>
    rw [List.getLast?_eq_none_iff] at h
    rw [h]
    rfl
  | some b =>
    simp only
    obtain ⟨p, hp, hd⟩ := hl b (List.mem_of_getLast? h)
    obtain ⟨h1, h2⟩ := bordersIdx_mem.mp hp
    rw [border_closes, Bool.and_eq_true, Bool.not_eq_true'] at h2
    have hk := (List.getElem?_eq_some_iff.mp h1).1
    have h3 := hb p.2 pre.length p.1 n hk (getElem?_prefix h1) (by simp) ((closes_iff p.1).mp h2) hn
    rw [pos_prefix _ _ _ hk, ← hd, ← hi] at h3
    have : ¬ Units.eqVal b.dist i.dist = true := by
      rw [eqVal_iff, not_lt, abs_of_nonpos (by linarith)]
      linarith
    rw [if_neg this]

theorem inForce_beyond (initial : Rat) (nodes : List TNode) (i : Nat) (h : nodes.length ≤ i) :
    inForce initial nodes i = inForce initial nodes nodes.length := by
  unfold inForce
  rw [bestAt_congr initial (settings nodes) i nodes.length]
  intro s hs
  have := settings_le nodes s hs
  constructor <;> intro <;> omega

theorem rawIntervals_signal (initial : Rat) (nodes : List TNode) (hb : BordersApart nodes) (hn : NoRepeat initial nodes) :
    SignalInv initial nodes (rawIntervals initial nodes) := by
  induction nodes using List.reverseRecOn with
  | nil => exact ⟨rfl, rfl, Or.inl ⟨rfl, rfl⟩⟩
  | append_singleton pre n ih =>
    have hi := ih (bordersApart_prefix hb) (noRepeat_prefix hn)
    have hdist : (rawIntervals initial pre).dist = (pre.map TNode.gap).sum := by
      rw [← skelRun_dist, ← skel_rawIntervals initial]
      rfl
    have hms := nodeStep_lastMs (rawIntervals initial pre) n
    have hlen : (rawIntervals initial pre).list.length = (bordersIdx pre).length := by
      have := congrArg List.length hi.rows
      simpa [limitsOf] using this
    -- the index of the last signal
    have hindex : (bordersIdx (pre ++ [n]) = [] ∧ (rawIntervals initial (pre ++ [n])).lastMs = 0) ∨
        ∃ x, (bordersIdx (pre ++ [n]))[(rawIntervals initial (pre ++ [n])).lastMs]? = some (x, activation (pre ++ [n])) := by
      rw [rawIntervals_concat, hms, activation_concat, bordersIdx_concat]
      have hsig : isSignal n = true ↔ n.omitted = false ∧ n.mainSignal = true := by simp [isSignal]
      by_cases hs : isSignal n = true
      · rw [if_pos hs, if_pos (hsig.mp hs), if_pos (isSignal_border hs), hlen]
        exact Or.inr ⟨n, by simp⟩
      · rw [if_neg hs, if_neg (fun h => hs (hsig.mpr h))]
        rcases hi.index with ⟨he, h0⟩ | ⟨x, hx⟩
        · rw [if_pos he, he, h0]
          by_cases hbn : isBorder n = true
          · exact Or.inr ⟨n, by simp [hbn]⟩
          · exact Or.inl (by simp [hbn])
        · have hne : bordersIdx pre ≠ [] := by
            intro h
            rw [h] at hx
            simp at hx
          rw [if_neg hne]
          refine Or.inr ⟨x, ?_⟩
          rw [List.getElem?_append_left (List.getElem?_eq_some_iff.mp hx).1]
          exact hx
    have hset : ∀ k, k < pre.length → ∀ S : List Setting, ∀ o : Option Rat,
        bestAt initial (S ++ o.toList.map fun v => ⟨pre.length, v⟩) k = bestAt initial S k := by
      intro k hk S o
      cases o with
      | none => simp
      | some v =>
        simp only [Option.toList_some, List.map_cons, List.map_nil]
        rw [bestAt_concat]
        unfold pick
        rw [if_neg]
        intro h
        have := h.1
        simp only at this
        omega
    have hpos : ∀ p ∈ bordersIdx pre, pos (pre ++ [n]) p.2 = pos pre p.2 := by
      intro p hp
      exact pos_prefix _ _ _ (List.getElem?_eq_some_iff.mp (bordersIdx_mem.mp hp).1).1
    by_cases ho : n.omitted = true
    · have hsame : settings (pre ++ [n]) = settings pre := by rw [settings_concat]; simp [settingsAt, ho]
      have hbn : isBorder n = false := by simp [isBorder, ho]
      refine ⟨?_, ?_, hindex⟩ <;> rw [rawIntervals_concat] <;> unfold nodeStep <;> simp only [ho, if_true]
      · rw [hi.rows]
        unfold limitsOf inForce
        rw [hsame, bordersIdx_concat, hbn]
        simp only [Bool.false_eq_true, if_false, List.append_nil]
        apply List.map_congr_left
        intro p hp
        rw [hpos p hp]
      · rw [hi.cur, ← inForce_beyond initial pre (pre ++ [n]).length (by simp)]
        unfold inForce
        rw [hsame]
    · have ho' : n.omitted = false := by simpa using ho
      have hi' : SignalInv initial pre { (rawIntervals initial pre) with dist := (rawIntervals initial pre).dist + n.gap } :=
        ⟨hi.rows, hi.cur, hi.index⟩
      obtain ⟨a1, a2, a3, a4⟩ := applyLastSignal_rows hi' hn ho'
      have hS : settings (pre ++ [n]) =
          (settings pre ++ (announcedLimit n).toList.map fun v => ⟨activation pre, v⟩) ++
            (broughtLimit n).toList.map fun v => ⟨pre.length, v⟩ := by
        rw [settings_concat, settingsAt, if_neg ho, List.append_assoc]
      -- all that counts of the state behind the limits
      have hcur : (applyHere (applyLastSignal { (rawIntervals initial pre) with dist := (rawIntervals initial pre).dist + n.gap }
            (getSpeedLimit n)) (getSpeedLimit n)).cur = inForce initial (pre ++ [n]) pre.length ∧
          (applyHere (applyLastSignal { (rawIntervals initial pre) with dist := (rawIntervals initial pre).dist + n.gap }
            (getSpeedLimit n)) (getSpeedLimit n)).list.map row =
              (bordersIdx pre).map (fun p => (pos (pre ++ [n]) p.2, p.1.stop, inForce initial (pre ++ [n]) p.2)) ∧
          (applyHere (applyLastSignal { (rawIntervals initial pre) with dist := (rawIntervals initial pre).dist + n.gap }
            (getSpeedLimit n)) (getSpeedLimit n)).dist = (rawIntervals initial pre).dist + n.gap := by
        have hrows : (bordersIdx pre).map (fun p => (pos pre p.2, p.1.stop, (bestAt initial
              (settings pre ++ (announcedLimit n).toList.map fun v => ⟨activation pre, v⟩) p.2).value)) =
            (bordersIdx pre).map (fun p => (pos (pre ++ [n]) p.2, p.1.stop, inForce initial (pre ++ [n]) p.2)) := by
          apply List.map_congr_left
          intro p hp
          unfold inForce
          rw [hS, hset p.2 (List.getElem?_eq_some_iff.mp (bordersIdx_mem.mp hp).1).1, hpos p hp]
        unfold applyHere
        rw [closes_here, ← hrows]
        unfold inForce
        rw [hS]
        cases hbr : broughtLimit n with
        | none =>
          simp only [Option.toList_none, List.map_nil, List.append_nil]
          exact ⟨a2, a1, a4⟩
        | some h =>
          simp only [Option.toList_some, List.map_cons, List.map_nil]
          refine ⟨?_, a1, a4⟩
          rw [bestAt_concat]
          unfold pick
          rw [if_pos ⟨Nat.le_refl _, bestAt_le _ _ _⟩]
      have hend : inForce initial (pre ++ [n]) (pre ++ [n]).length = inForce initial (pre ++ [n]) pre.length := by
        unfold inForce
        rw [bestAt_congr]
        intro s hs
        have : s.act ≤ pre.length := by
          rw [hS] at hs
          simp only [List.mem_append, List.mem_map, Option.mem_toList] at hs
          rcases hs with (hs | ⟨v, _, rfl⟩) | ⟨v, _, rfl⟩
          · exact settings_le pre s hs
          · exact activation_le pre
          · exact Nat.le_refl _
        simp only [List.length_append, List.length_singleton]
        constructor <;> intro <;> omega
      suffices h : (nodeStep (rawIntervals initial pre) n).list.map row = limitsOf initial (pre ++ [n]) ∧
          (nodeStep (rawIntervals initial pre) n).cur = inForce initial (pre ++ [n]) pre.length by
        refine ⟨?_, ?_, hindex⟩
        · rw [rawIntervals_concat]; exact h.1
        · rw [rawIntervals_concat, hend]; exact h.2
      unfold nodeStep
      simp only [ho', Bool.false_eq_true, if_false]
      revert hcur
      generalize applyHere (applyLastSignal { (rawIntervals initial pre) with dist := (rawIntervals initial pre).dist + n.gap }
            (getSpeedLimit n)) (getSpeedLimit n) = t
      rintro ⟨c1, c2, c3⟩
      have hlim : limitsOf initial (pre ++ [n]) =
          (bordersIdx pre).map (fun p => (pos (pre ++ [n]) p.2, p.1.stop, inForce initial (pre ++ [n]) p.2)) ++
            if isBorder n then [(pos (pre ++ [n]) pre.length, n.stop, inForce initial (pre ++ [n]) pre.length)] else [] := by
        unfold limitsOf
        rw [bordersIdx_concat, List.map_append]
        split <;> rfl
      rw [hlim]
      have hbc := border_closes n
      rw [ho'] at hbc
      unfold closeInterval
      by_cases hc : closes n = true
      · have hc' := hc
        unfold closes at hc'
        rw [hc] at hbc
        simp only [hc', if_true, hbc, Bool.not_false, Bool.and_self]
        refine ⟨?_, c1⟩
        simp only [noteNode]
        rw [push_new hb ((closes_iff n).mp ⟨ho', hc⟩) t.list]
        · rw [List.map_append, c2]
          simp only [List.map_cons, List.map_nil, row, c1, c3, pos_last, hdist]
        · intro b hbm
          have : row b ∈ t.list.map row := List.mem_map.mpr ⟨b, hbm, rfl⟩
          rw [c2] at this
          obtain ⟨p, hp, hp'⟩ := List.mem_map.mp this
          refine ⟨p, hp, ?_⟩
          rw [← hpos p hp]
          exact (congrArg (fun x => x.1) hp').symm
        · simp only [c3, pos_last, hdist]
      · have hc' := hc
        unfold closes at hc'
        have hbf : isBorder n = false := by
          rw [hbc]
          simpa using hc
        rw [if_neg hc', hbf]
        simp only [Bool.false_eq_true, if_false, List.append_nil, noteNode]
        exact ⟨c2, c1⟩

end Soro.Runtime
