import Verif.Spec.Layout
import Verif.Proof.Traversal
import Mathlib.Tactic.Linarith
import Mathlib.Tactic.Ring
import Mathlib.Tactic.Tauto
import Mathlib.Tactic.FieldSimp
import Mathlib.Tactic.Positivity
import Mathlib.Algebra.Order.Field.Rat
import Mathlib.Algebra.BigOperators.Group.List.Basic
import Mathlib.Algebra.Order.BigOperators.Group.List

namespace Soro.Layout
open Soro.Trav

theorem put_same {β : Type} (v : Nat → β) (i : Nat) (a : β) : put v i a i = a := by simp [put]

theorem put_other {β : Type} (v : Nat → β) {i j : Nat} (a : β) (h : j ≠ i) : put v i a j = v j := by simp [put, h]

theorem absR_eq (q : Rat) : absR q = |q| := by
  unfold absR
  split
  · rw [abs_of_neg (by assumption)]
  · rw [abs_of_nonneg (by linarith)]

/-! ### track elements -/

/-- the position the loop computes is the one on the line -/
theorem on_line (p q r : Rat) :
    p + (if decide (p < q) then absR (p - q) * r else -(absR (p - q) * r)) = p + (q - p) * r := by
  rw [absR_eq]
  by_cases h : p < q
  · rw [abs_of_neg (by linarith)]; simp [h]
  · rw [abs_of_nonneg (by linarith)]; simp [h]; ring

theorem on_line' (p q r : Rat) :
    p + (if decide (p > q) then -(absR (p - q) * r) else absR (p - q) * r) = p + (q - p) * r := by
  rw [absR_eq]
  by_cases h : p > q
  · rw [abs_of_nonneg (by linarith)]; simp [h]; ring
  · rw [abs_of_nonpos (by linarith)]; simp [h]

theorem spread_other (isTrack : Nat → Bool) (a : Nat) (up left : Bool) (xt yt n : Rat) (es : List Nat) (idx : Nat)
    (l : Nat → Pos) (j : Nat) (hj : isTrack j = false ∨ j ∉ es) :
    spread isTrack a up left xt yt n es idx l j = l j := by
  induction es generalizing idx l with
  | nil => rfl
  | cons e es ih =>
    have hj' : isTrack j = false ∨ j ∉ es := hj.imp id (fun h => by simp at h; exact h.2)
    unfold spread
    by_cases he : isTrack e = true
    · simp only [he, Bool.not_true, Bool.false_eq_true, if_false]
      have hne : j ≠ e := by
        rintro rfl
        rcases hj with h | h
        · rw [he] at h; cases h
        · simp at h
      rw [ih _ _ hj', put_other _ _ hne, put_other _ _ hne]
    · have he' : isTrack e = false := by simpa using he
      simp only [he', Bool.not_false, if_true]
      exact ih _ _ hj'

theorem spread_at (isTrack : Nat → Bool) (a : Nat) (ha : isTrack a = false) (up left : Bool) (xt yt n : Rat)
    (pre : List Nat) (e : Nat) (post : List Nat) (he : isTrack e = true) (hpost : e ∉ post) (idx : Nat) (l : Nat → Pos) :
    spread isTrack a up left xt yt n (pre ++ e :: post) idx l e =
      ⟨(l a).x + (if left then xt * (((idx + pre.countP isTrack : Nat) : Rat) / (n + 1))
          else -(xt * (((idx + pre.countP isTrack : Nat) : Rat) / (n + 1)))),
        (l a).y + (if up then -(yt * (((idx + pre.countP isTrack : Nat) : Rat) / (n + 1)))
          else yt * (((idx + pre.countP isTrack : Nat) : Rat) / (n + 1)))⟩ := by
  induction pre generalizing idx l with
  | nil =>
    have hae : a ≠ e := by rintro rfl; rw [ha] at he; cases he
    simp only [List.nil_append, spread, he, Bool.not_true, Bool.false_eq_true, if_false, List.countP_nil, Nat.add_zero]
    rw [spread_other _ _ _ _ _ _ _ _ _ _ _ (Or.inr hpost), put_same]
    simp only [put_same, put_other _ _ hae]
  | cons b pre ih =>
    rw [List.cons_append, spread]
    by_cases hb : isTrack b = true
    · have hab : a ≠ b := by rintro rfl; rw [ha] at hb; cases hb
      simp only [hb, Bool.not_true, Bool.false_eq_true, if_false]
      rw [ih]
      simp only [put_other _ _ hab, List.countP_cons_of_pos hb]
      rw [show idx + 1 + List.countP isTrack pre = idx + (List.countP isTrack pre + 1) by omega]
    · have hb' : isTrack b = false := by simpa using hb
      simp only [hb', Bool.not_false, if_true]
      rw [ih, List.countP_cons_of_neg (by simp [hb'])]

theorem spreadSection_other {isTrack : Nat → Bool} {l l' : Nat → Pos} {sec : List Nat}
    (h : spreadSection isTrack l sec = some l') (j : Nat) (hj : isTrack j = false ∨ j ∉ sec) : l' j = l j := by
  unfold spreadSection at h
  split at h
  · simp only [Option.some.injEq] at h
    rw [← h]
    exact spread_other _ _ _ _ _ _ _ _ _ _ _ hj
  · cases h

theorem spreadSection_at {isTrack : Nat → Bool} {l l' : Nat → Pos} {pre post : List Nat} {e a b : Nat}
    (h : spreadSection isTrack l (pre ++ e :: post) = some l') (ha : (pre ++ e :: post).head? = some a)
    (hb : (pre ++ e :: post).getLast? = some b) (hta : isTrack a = false) (he : isTrack e = true) (hpost : e ∉ post) :
    l' e = between (l a) (l b) ((pre.countP isTrack : Rat) / ((pre ++ e :: post).length + 1)) := by
  unfold spreadSection at h
  rw [ha, hb] at h
  simp only [Option.some.injEq] at h
  rw [← h, spread_at _ _ hta _ _ _ _ _ _ _ _ he hpost]
  unfold between
  rw [on_line, on_line']
  simp

theorem trackCoords_other {isTrack : Nat → Bool} (secs : List (List Nat)) (l l' : Nat → Pos)
    (h : trackCoords isTrack secs l = some l') (j : Nat) (hj : isTrack j = false ∨ j ∉ secs.flatten) : l' j = l j := by
  induction secs generalizing l with
  | nil => simp only [trackCoords, Option.some.injEq] at h; rw [h]
  | cons sec secs ih =>
    unfold trackCoords at h
    split at h
    · cases h
    · rename_i l1 h1
      rw [ih _ h (hj.imp id (fun h => by simp at h ⊢; exact h.2)),
        spreadSection_other h1 j (hj.imp id (fun h => by simp at h; exact h.1))]

theorem trackCoords_ok {isTrack : Nat → Bool} (secs : List (List Nat)) (hs : ∀ sec ∈ secs, sec ≠ []) (l : Nat → Pos) :
    ∃ l', trackCoords isTrack secs l = some l' := by
  induction secs generalizing l with
  | nil => exact ⟨l, rfl⟩
  | cons sec secs ih =>
    have hne : sec ≠ [] := hs sec (by simp)
    obtain ⟨l1, h1⟩ : ∃ l1, spreadSection isTrack l sec = some l1 := by
      unfold spreadSection
      rw [List.head?_eq_some_head hne, List.getLast?_eq_some_getLast hne]
      exact ⟨_, rfl⟩
    simp only [trackCoords, h1]
    exact ih (fun s hs' => hs s (by simp [hs'])) l1

theorem trackCoords_at {isTrack : Nat → Bool} (secs : List (List Nat)) (hs : Sections isTrack secs) (l l' : Nat → Pos)
    (h : trackCoords isTrack secs l = some l') (pre post : List Nat) (e a b : Nat) (hsec : pre ++ e :: post ∈ secs)
    (ha : (pre ++ e :: post).head? = some a) (hb : (pre ++ e :: post).getLast? = some b) (he : isTrack e = true) :
    l' e = between (l a) (l b) ((pre.countP isTrack : Rat) / ((pre ++ e :: post).length + 1)) := by
  induction secs generalizing l with
  | nil => cases hsec
  | cons sec secs ih =>
    obtain ⟨h1, h2⟩ := hs
    rw [List.flatten_cons, List.filter_append, List.nodup_append] at h2
    have hs' : Sections isTrack secs := ⟨fun s hs' => h1 s (by simp [hs']), h2.2.1⟩
    obtain ⟨a', b', e1, e2, ta, tb⟩ := h1 _ hsec
    rw [ha, Option.some.injEq] at e1
    rw [hb, Option.some.injEq] at e2
    subst e1 e2
    unfold trackCoords at h
    split at h
    · cases h
    · rename_i l1 hl1
      rcases List.mem_cons.1 hsec with rfl | hin
      · have hn : e ∉ secs.flatten := by
          intro hin
          exact h2.2.2 e (by simp [he]) e (List.mem_filter.2 ⟨hin, he⟩) rfl
        rw [trackCoords_other _ _ _ h e (Or.inr hn)]
        have hpost : e ∉ post := by
          intro hin
          have := h2.1
          rw [List.filter_append, List.nodup_append, List.filter_cons_of_pos he, List.nodup_cons] at this
          exact this.2.1.1 (List.mem_filter.2 ⟨hin, he⟩)
        exact spreadSection_at hl1 ha hb ta he hpost
      · rw [ih hs' _ h hin, spreadSection_other hl1 a (Or.inl ta), spreadSection_other hl1 b (Or.inl tb)]

/-! ### adjusting -/

theorem foldl_min_x (l : Nat → Pos) (els : List Nat) (m : Pos) :
    (els.foldl (fun m e => (⟨min m.x (l e).x, min m.y (l e).y⟩ : Pos)) m).x = (els.map fun e => (l e).x).foldl min m.x := by
  induction els generalizing m with
  | nil => rfl
  | cons e els ih => simp only [List.foldl_cons, List.map_cons]; rw [ih]

theorem foldl_min_y (l : Nat → Pos) (els : List Nat) (m : Pos) :
    (els.foldl (fun m e => (⟨min m.x (l e).x, min m.y (l e).y⟩ : Pos)) m).y = (els.map fun e => (l e).y).foldl min m.y := by
  induction els generalizing m with
  | nil => rfl
  | cons e els ih => simp only [List.foldl_cons, List.map_cons]; rw [ih]

theorem foldl_max_x (l : Nat → Pos) (els : List Nat) (m : Pos) :
    (els.foldl (fun m e => (⟨max m.x (l e).x, max m.y (l e).y⟩ : Pos)) m).x = (els.map fun e => (l e).x).foldl max m.x := by
  induction els generalizing m with
  | nil => rfl
  | cons e els ih => simp only [List.foldl_cons, List.map_cons]; rw [ih]

theorem foldl_max_y (l : Nat → Pos) (els : List Nat) (m : Pos) :
    (els.foldl (fun m e => (⟨max m.x (l e).x, max m.y (l e).y⟩ : Pos)) m).y = (els.map fun e => (l e).y).foldl max m.y := by
  induction els generalizing m with
  | nil => rfl
  | cons e els ih => simp only [List.foldl_cons, List.map_cons]; rw [ih]

theorem foldl_min_spec (xs : List Rat) (M : Rat) :
    xs.foldl min M ≤ M ∧ (∀ x ∈ xs, xs.foldl min M ≤ x) ∧ (xs.foldl min M = M ∨ xs.foldl min M ∈ xs) := by
  induction xs generalizing M with
  | nil => simp
  | cons x xs ih =>
    obtain ⟨h1, h2, h3⟩ := ih (min M x)
    simp only [List.foldl_cons]
    refine ⟨h1.trans (min_le_left _ _), ?_, ?_⟩
    · intro y hy
      rcases List.mem_cons.1 hy with rfl | hy
      · exact h1.trans (min_le_right _ _)
      · exact h2 y hy
    · rcases h3 with h3 | h3
      · rw [h3]
        rcases min_choice M x with h | h
        · exact Or.inl h
        · exact Or.inr (by rw [h]; simp)
      · exact Or.inr (List.mem_cons_of_mem _ h3)

theorem foldl_max_spec (xs : List Rat) (M : Rat) :
    M ≤ xs.foldl max M ∧ (∀ x ∈ xs, x ≤ xs.foldl max M) ∧ (xs.foldl max M = M ∨ xs.foldl max M ∈ xs) := by
  induction xs generalizing M with
  | nil => simp
  | cons x xs ih =>
    obtain ⟨h1, h2, h3⟩ := ih (max M x)
    simp only [List.foldl_cons]
    refine ⟨(le_max_left _ _).trans h1, ?_, ?_⟩
    · intro y hy
      rcases List.mem_cons.1 hy with rfl | hy
      · exact (le_max_right _ _).trans h1
      · exact h2 y hy
    · rcases h3 with h3 | h3
      · rw [h3]
        rcases max_choice M x with h | h
        · exact Or.inl h
        · exact Or.inr (by rw [h]; simp)
      · exact Or.inr (List.mem_cons_of_mem _ h3)

/-- the least coordinates of a station that has elements -/
theorem minCoords_spec (M : Rat) (l : Nat → Pos) (els : List Nat) (hne : els ≠ [])
    (hM : ∀ e ∈ els, (l e).x ≤ M ∧ (l e).y ≤ M) :
    (∀ e ∈ els, (minCoords M l els).x ≤ (l e).x ∧ (minCoords M l els).y ≤ (l e).y) ∧
      (∃ e ∈ els, (l e).x = (minCoords M l els).x) ∧ (∃ e ∈ els, (l e).y = (minCoords M l els).y) := by
  unfold minCoords
  rw [foldl_min_x, foldl_min_y]
  obtain ⟨x1, x2, x3⟩ := foldl_min_spec (els.map fun e => (l e).x) M
  obtain ⟨y1, y2, y3⟩ := foldl_min_spec (els.map fun e => (l e).y) M
  obtain ⟨e0, he0⟩ := List.exists_mem_of_ne_nil _ hne
  refine ⟨fun e he => ⟨x2 _ (List.mem_map.2 ⟨e, he, rfl⟩), y2 _ (List.mem_map.2 ⟨e, he, rfl⟩)⟩, ?_, ?_⟩
  · rcases x3 with h | h
    · refine ⟨e0, he0, ?_⟩
      have := x2 _ (List.mem_map.2 ⟨e0, he0, rfl⟩)
      simp only at this ⊢
      have := (hM e0 he0).1
      linarith
    · obtain ⟨e, he, h⟩ := List.mem_map.1 h
      exact ⟨e, he, h⟩
  · rcases y3 with h | h
    · refine ⟨e0, he0, ?_⟩
      have := y2 _ (List.mem_map.2 ⟨e0, he0, rfl⟩)
      simp only at this ⊢
      have := (hM e0 he0).2
      linarith
    · obtain ⟨e, he, h⟩ := List.mem_map.1 h
      exact ⟨e, he, h⟩

theorem shift_other (m : Pos) (els : List Nat) (l : Nat → Pos) (j : Nat) (hj : j ∉ els) : shift m els l j = l j := by
  induction els generalizing l with
  | nil => rfl
  | cons e els ih =>
    simp only [List.mem_cons, not_or] at hj
    rw [shift, ih _ hj.2, put_other _ _ hj.1]

theorem shift_at (m : Pos) (els : List Nat) (hn : els.Nodup) (l : Nat → Pos) (j : Nat) (hj : j ∈ els) :
    shift m els l j = ⟨(l j).x - m.x, (l j).y - m.y⟩ := by
  induction els generalizing l with
  | nil => cases hj
  | cons e els ih =>
    rw [List.nodup_cons] at hn
    rw [shift]
    by_cases h : j ∈ els
    · have hne : j ≠ e := by rintro rfl; exact hn.1 h
      rw [ih hn.2 _ h, put_other _ _ hne]
    · have hje : j = e := by simpa [h] using hj
      subst hje
      rw [shift_other _ _ _ _ h, put_same]

theorem adjust_other (M : Rat) (sts : List (List Nat)) (l : Nat → Pos) (j : Nat) (hj : j ∉ sts.flatten) :
    adjust M sts l j = l j := by
  induction sts generalizing l with
  | nil => rfl
  | cons els sts ih =>
    simp only [List.flatten_cons, List.mem_append, not_or] at hj
    rw [adjust, ih _ hj.2, shift_other _ _ _ _ hj.1]

theorem minCoords_congr (M : Rat) (l l' : Nat → Pos) (els : List Nat) (h : ∀ e ∈ els, l e = l' e) :
    minCoords M l els = minCoords M l' els := by
  unfold minCoords
  generalize (⟨M, M⟩ : Pos) = m
  induction els generalizing m with
  | nil => rfl
  | cons e els ih =>
    simp only [List.foldl_cons]
    rw [h e (by simp)]
    exact ih (fun e he => h e (by simp [he])) _

theorem adjust_at (M : Rat) (sts : List (List Nat)) (hn : sts.flatten.Nodup) (l : Nat → Pos) (els : List Nat)
    (hels : els ∈ sts) (j : Nat) (hj : j ∈ els) :
    adjust M sts l j = ⟨(l j).x - (minCoords M l els).x, (l j).y - (minCoords M l els).y⟩ := by
  induction sts generalizing l with
  | nil => cases hels
  | cons e0 sts ih =>
    rw [List.flatten_cons, List.nodup_append] at hn
    rw [adjust]
    rcases List.mem_cons.1 hels with rfl | hin
    · have hnj : j ∉ sts.flatten := fun h => hn.2.2 j hj j h rfl
      rw [adjust_other _ _ _ _ hnj, shift_at _ _ hn.1 _ _ hj]
    · have hdis : ∀ e ∈ els, e ∉ e0 := by
        intro e he h0
        exact hn.2.2 e h0 e (List.mem_flatten.2 ⟨els, hin, he⟩) rfl
      rw [ih hn.2.1 _ hin, shift_other _ _ _ _ (hdis j hj),
        minCoords_congr M _ l els (fun e he => shift_other _ _ _ _ (hdis e he))]

/-! ### the stations around a station -/

theorem mem_insert (N : Net) (a t : Nat) (bs : List Nat) : t ∈ N.insert a bs ↔ t = a ∨ t ∈ bs := by
  induction bs with
  | nil => simp [Net.insert]
  | cons b bs ih =>
    unfold Net.insert
    split
    · simp
    · rw [List.mem_cons, ih, List.mem_cons]; tauto

theorem mem_sort (N : Net) (t : Nat) (bs : List Nat) : t ∈ N.sort bs ↔ t ∈ bs := by
  induction bs with
  | nil => simp [Net.sort]
  | cons b bs ih => rw [Net.sort, mem_insert, ih, List.mem_cons]

theorem mem_neighbours (N : Net) (s t : Nat) : t ∈ N.neighbours s ↔ t ∈ N.borders s := by
  unfold Net.neighbours
  rw [List.mem_eraseDups, mem_sort]

theorem valid_iff (given : Nat → Gps) (s : Nat) : (given s).valid = true ↔ Known given s := by
  unfold Gps.valid Known
  rw [Bool.and_eq_true, decide_eq_true_iff, decide_eq_true_iff, absR_eq, absR_eq, abs_le, abs_le]
  constructor
  · rintro ⟨⟨a, b⟩, c, d⟩; exact ⟨c, d, a, b⟩
  · rintro ⟨a, b, c, d⟩; exact ⟨⟨c, d⟩, a, b⟩

theorem mem_out (N : Net) (given : Nat → Gps) (s t : Nat) :
    t ∈ N.out given s ↔ ¬ Known given s ∧ t ∈ N.borders s := by
  unfold Net.out
  by_cases h : (given s).valid = true
  · rw [if_pos h]; simp [(valid_iff given s).1 h]
  · rw [if_neg h, mem_neighbours]
    have : ¬ Known given s := fun h' => h ((valid_iff given s).2 h')
    simp [this]

theorem walk_iff (N : Net) (given : Nat → Gps) (s : Nat) (hs : ¬ Known given s) (d t : Nat) :
    Walk (N.out given) (d + 1) s t ↔ Via N.borders (Known given) s (d + 1) t := by
  induction d generalizing t with
  | zero =>
    rw [Walk.succ_iff]
    constructor
    · rintro ⟨u, h1, h2⟩
      rw [Walk.zero_iff] at h1; subst h1
      exact .one ((mem_out _ _ _ _).1 h2).2
    · intro h
      cases h with
      | one h => exact ⟨s, .nil s, (mem_out _ _ _ _).2 ⟨hs, h⟩⟩
      | more h _ _ => cases h
  | succ d ih =>
    rw [Walk.succ_iff]
    constructor
    · rintro ⟨u, h1, h2⟩
      obtain ⟨h3, h4⟩ := (mem_out _ _ _ _).1 h2
      exact .more ((ih u).1 h1) h3 h4
    · intro h
      cases h with
      | more h1 h2 h3 => exact ⟨_, (ih _).2 h1, (mem_out _ _ _ _).2 ⟨h2, h3⟩⟩

theorem via_pos {borders : Nat → List Nat} {known : Nat → Prop} {s d t : Nat} (h : Via borders known s d t) : 1 ≤ d := by
  cases h <;> omega

theorem shortest_iff (N : Net) (given : Nat → Gps) (s : Nat) (hs : ¬ Known given s) (d t : Nat) :
    Shortest (N.out given) d s t ↔
      Via N.borders (Known given) s d t ∧ ∀ d', Via N.borders (Known given) s d' t → d ≤ d' := by
  unfold Shortest
  constructor
  · rintro ⟨h1, h2, h3⟩
    obtain ⟨k, rfl⟩ : ∃ k, d = k + 1 := ⟨d - 1, by omega⟩
    refine ⟨(walk_iff N given s hs k t).1 h2, ?_⟩
    intro d' h'
    obtain ⟨k', rfl⟩ : ∃ k, d' = k + 1 := ⟨d' - 1, by have := via_pos h'; omega⟩
    exact h3 _ (by omega) ((walk_iff N given s hs k' t).2 h')
  · rintro ⟨h1, h2⟩
    have hp := via_pos h1
    obtain ⟨k, rfl⟩ : ∃ k, d = k + 1 := ⟨d - 1, by omega⟩
    refine ⟨hp, (walk_iff N given s hs k t).2 h1, ?_⟩
    intro m hm hw
    obtain ⟨k', rfl⟩ : ∃ k, m = k + 1 := ⟨m - 1, by omega⟩
    exact h2 _ ((walk_iff N given s hs k' t).1 hw)

/-- what `handle_node` does with a popped entry of the queue -/
def proc (given : Nat → Gps) (s : Nat) (st : List (Nat × Nat) × (Nat → Nat)) (cp : Nat × Nat) :
    List (Nat × Nat) × (Nat → Nat) :=
  if cp.1 ≠ s then (handleNode given s st cp.1 cp.2).1 else st

theorem handleNode_go (given : Nat → Gps) (s : Nat) (st : List (Nat × Nat) × (Nat → Nat)) (c p : Nat) :
    (handleNode given s st c p).2 = false := rfl

theorem run_edges (given : Nat → Gps) (s c : Nat) (bs : List Nat) (es : List (Ev Nat))
    (st : List (Nat × Nat) × (Nat → Nat)) :
    runEvents (handleNode given s) ignoreEdge (bs.map (Ev.edge c) ++ es) st =
      runEvents (handleNode given s) ignoreEdge es st := by
  induction bs with
  | nil => rfl
  | cons b bs ih =>
    simp only [List.map_cons, List.cons_append, runEvents, ignoreEdge, Bool.false_eq_true, if_false]
    exact ih

theorem run_evs (given : Nat → Gps) (s : Nat) (out : Nat → List Nat) (L : List (Nat × Nat))
    (st : List (Nat × Nat) × (Nat → Nat)) :
    runEvents (handleNode given s) ignoreEdge (L.flatMap (evs s out)) st = L.foldl (proc given s) st := by
  induction L generalizing st with
  | nil => rfl
  | cons x L ih =>
    rw [List.flatMap_cons, evs, List.append_assoc, List.foldl_cons, ← ih]
    by_cases h : x.1 = s
    · simp only [h, ne_eq, not_true_eq_false, if_false, List.nil_append, proc]
      exact run_edges _ _ _ _ _ _
    · simp only [h, ne_eq, not_false_eq_true, if_true, List.cons_append, List.nil_append, runEvents, handleNode_go,
        Bool.false_eq_true, if_false, proc]
      exact run_edges _ _ _ _ _ _

/-- the state of `get_neighbours_with_coords` after a part of the traversal -/
structure BInv (N : Net) (given : Nat → Gps) (s : Nat) (L1 : List (Nat × Nat))
    (st : List (Nat × Nat) × (Nat → Nat)) : Prop where
  zero : st.2 s = 0
  dist : ∀ c ∈ L1.map Prod.fst, c ≠ s → Shortest (N.out given) (st.2 c) s c
  list : st.1 = ((L1.map Prod.fst).filter fun c => decide (c ≠ s) && (given c).valid).map fun c => (c, st.2 c)

theorem binv (N : Net) (given : Nat → Gps) (s : Nat) (L : List (Nat × Nat)) (hnd : (L.map Prod.fst).Nodup)
    (hpar : ∀ L1 c p L2, L = L1 ++ (c, p) :: L2 → c ∈ N.out given p ∧ (p = s ∨ p ∈ L1.map Prod.fst))
    (hlvl : ∀ L1 c p L2, L = L1 ++ (c, p) :: L2 → LevelAt (N.out given) s (L1.map Prod.fst) c p)
    (L1 L2 : List (Nat × Nat)) (hL : L = L1 ++ L2) :
    BInv N given s L1 (L1.foldl (proc given s) ([], fun _ => 0)) := by
  induction L1 using List.reverseRecOn generalizing L2 with
  | nil => exact ⟨rfl, by simp, rfl⟩
  | append_singleton L1 x ih =>
    obtain ⟨c, p⟩ := x
    have hL' : L = L1 ++ (c, p) :: L2 := by rw [hL]; simp
    have hi := ih _ hL'
    rw [List.foldl_append, List.foldl_cons, List.foldl_nil]
    generalize L1.foldl (proc given s) ([], fun _ => 0) = st at hi ⊢
    obtain ⟨i1, i2, i3⟩ := hi
    by_cases hc : c = s
    · subst hc
      simp only [proc, ne_eq, not_true_eq_false, if_false]
      refine ⟨i1, ?_, ?_⟩
      · intro c' hc' hne
        simp only [List.map_append, List.map_cons, List.map_nil, List.mem_append, List.mem_singleton, hne, or_false] at hc'
        exact i2 c' hc' hne
      · rw [i3]; simp
    · have hnew : c ∉ L1.map Prod.fst := by
        rw [hL', List.map_append, List.nodup_append] at hnd
        intro h
        exact hnd.2.2 c h c (by simp) rfl
      -- the distance of the parent
      have hpd : Shortest (N.out given) (st.2 p + 1) s c := by
        obtain ⟨k, ⟨hk, hor⟩, _⟩ := hlvl _ _ _ _ hL'
        obtain ⟨hcp, _⟩ := hpar _ _ _ _ hL'
        rcases hor with ⟨rfl, hp⟩ | ⟨h2, hpm, hps⟩
        · simp only at hp; subst hp; rw [i1]; exact hk
        · simp only at hpm hps
          by_cases hpeq : p = s
          · subst hpeq
            have := hk.2.2 1 (Nat.le_refl _) (.snoc (.nil _) hcp)
            omega
          · have := Shortest.eq hps (i2 p hpm hpeq)
            rw [← this, show k - 1 + 1 = k by omega]
            exact hk
      have hd2 : (proc given s st (c, p)).2 = put st.2 c (st.2 p + 1) := by
        simp only [proc, ne_eq, hc, not_false_eq_true, if_true, handleNode, if_false]
        split <;> rfl
      have hd1 : (proc given s st (c, p)).1 = if (given c).valid then st.1 ++ [(c, st.2 p + 1)] else st.1 := by
        simp only [proc, ne_eq, hc, not_false_eq_true, if_true, handleNode, if_false]
        split
        · simp [put_same]
        · rfl
      refine ⟨?_, ?_, ?_⟩
      · rw [hd2, put_other _ _ (fun h => hc h.symm)]; exact i1
      · intro c' hc' hne
        simp only [List.map_append, List.map_cons, List.map_nil, List.mem_append, List.mem_singleton] at hc'
        rw [hd2]
        rcases hc' with h | h
        · have : c' ≠ c := by rintro rfl; exact hnew h
          rw [put_other _ _ this]
          exact i2 c' h hne
        · subst h; rw [put_same]; exact hpd
      · rw [hd1, hd2]
        have hmap : ∀ M : List Nat, (∀ y ∈ M, y ∈ L1.map Prod.fst) →
            M.map (fun c' => (c', put st.2 c (st.2 p + 1) c')) = M.map (fun c' => (c', st.2 c')) := by
          intro M hM
          apply List.map_congr_left
          intro y hy
          have : y ≠ c := by rintro rfl; exact hnew (hM y hy)
          rw [put_other _ _ this]
        rw [List.map_append, List.filter_append, List.map_append,
          hmap _ (fun y hy => (List.mem_filter.1 hy).1), ← i3]
        by_cases hv : (given c).valid = true
        · simp [hv, hc, put_same]
        · simp [hv]

/-- `get_neighbours_with_coords` finds exactly the stations with coordinates around the station -/
theorem neighboursWithCoords_spec (N : Net) (hN : N.Closed) (given : Nat → Gps) (s : Nat) (hs : s < N.count)
    (hk : ¬ Known given s) : ∃ nds, neighboursWithCoords N given s = some nds ∧ Around N given s nds := by
  have hU : FiniteFrom (N.out given) s (List.range N.count) := by
    refine ⟨by simpa using hs, ?_⟩
    intro x hx y hy
    rw [List.mem_range] at hx ⊢
    exact hN x hx y ((mem_out _ _ _ _).1 hy).2
  obtain ⟨L, h1, h2, h3, h4, h5⟩ := traverse_events .bfs hU
  have ht := h5 _ (N.count + 2) (by simp) (handleNode given s) ignoreEdge ([], fun _ => 0)
  rw [run_evs, List.foldl_cons] at ht
  have hfirst : proc given s ([], fun _ => 0) (s, s) = ([], fun _ => 0) := by simp [proc]
  rw [hfirst] at ht
  have hi := binv N given s L h1 h3 (h4 rfl) L [] (by simp)
  generalize L.foldl (proc given s) ([], fun _ => 0) = st at ht hi
  obtain ⟨_, i2, i3⟩ := hi
  refine ⟨st.1, by unfold neighboursWithCoords; rw [ht]; rfl, ?_, ?_⟩
  · rw [i3, List.map_map]
    have : (Prod.fst ∘ fun c => (c, st.2 c)) = id := rfl
    rw [this, List.map_id]
    exact h1.filter _
  · intro t d
    rw [i3, List.mem_map]
    simp only [List.mem_filter, Bool.and_eq_true, decide_eq_true_eq, Prod.mk.injEq]
    constructor
    · rintro ⟨c, ⟨hc, hne, hv⟩, rfl, rfl⟩
      have := (shortest_iff N given s hk _ _).1 (i2 c hc hne)
      exact ⟨hne, (valid_iff _ _).1 hv, this.1, this.2⟩
    · rintro ⟨hne, hkn, hvia, hmin⟩
      have hsh := (shortest_iff N given s hk d t).2 ⟨hvia, hmin⟩
      have hm : t ∈ L.map Prod.fst := by
        rw [h2]
        obtain ⟨h6, h7, _⟩ := hsh
        exact ⟨d - 1, by rw [show d - 1 + 1 = d by omega]; exact h7⟩
      exact ⟨t, ⟨hm, hne, (valid_iff _ _).2 hkn⟩, rfl, Shortest.eq (i2 t hm hne) hsh⟩

/-! ### the weighted mean -/

theorem weightedSums_eq (N : Net) (given : Nat → Gps) (s m : Nat) (nds : List (Nat × Nat)) (g : Gps) (t : Rat) :
    weightedSums N given s m nds g t =
      (⟨g.lon + (nds.map fun nd => (given nd.1).lon * (weight N s m nd : Rat)).sum,
        g.lat + (nds.map fun nd => (given nd.1).lat * (weight N s m nd : Rat)).sum⟩,
        t + (nds.map fun nd => (weight N s m nd : Rat)).sum) := by
  induction nds generalizing g t with
  | nil => simp [weightedSums]
  | cons nd nds ih =>
    simp only [weightedSums, List.map_cons, List.sum_cons]
    rw [ih]
    simp only [add_assoc]

theorem foldl_maxDist (nds : List (Nat × Nat)) (m : Nat) :
    m ≤ nds.foldl (fun m nd => max m nd.2) m ∧ (∀ nd ∈ nds, nd.2 ≤ nds.foldl (fun m nd => max m nd.2) m) ∧
      (nds.foldl (fun m nd => max m nd.2) m = m ∨ ∃ nd ∈ nds, nd.2 = nds.foldl (fun m nd => max m nd.2) m) := by
  induction nds generalizing m with
  | nil => simp
  | cons x nds ih =>
    obtain ⟨h1, h2, h3⟩ := ih (max m x.2)
    simp only [List.foldl_cons]
    refine ⟨(le_max_left _ _).trans h1, ?_, ?_⟩
    · intro y hy
      rcases List.mem_cons.1 hy with rfl | hy
      · exact (le_max_right _ _).trans h1
      · exact h2 y hy
    · rcases h3 with h3 | ⟨nd, hnd, h3⟩
      · rcases max_choice m x.2 with h | h
        · exact Or.inl (by rw [h3, h])
        · exact Or.inr ⟨x, by simp, by rw [h3, h]⟩
      · exact Or.inr ⟨nd, by simp [hnd], h3⟩

theorem weight_share (N : Net) (s D : Nat) (nd : Nat × Nat) (h : nd.2 ≤ D) :
    (weight N s (D + 1) nd : Rat) = share D nd.2 ((N.borders s).count nd.1) := by
  unfold weight share
  have : ((D + 1 - nd.2 : Nat) : Rat) = (D + 1 : Rat) - nd.2 := by
    rw [Nat.cast_sub (by omega)]; push_cast; ring
  by_cases hc : nd.2 = 1 ∧ (N.borders s).count nd.1 > 4
  · rw [if_pos hc, if_pos hc]; push_cast; rw [this]
  · rw [if_neg hc, if_neg hc, this, mul_one]

theorem share_pos (D d b : Nat) (h : d ≤ D) : 0 < share D d b := by
  unfold share
  have : (d : Rat) ≤ D := by exact_mod_cast h
  split <;> nlinarith

theorem interpolate_mean (N : Net) (given : Nat → Gps) (s : Nat) (nds : List (Nat × Nat))
    (h : neighboursWithCoords N given s = some nds) (h2 : 2 ≤ nds.length) :
    ∃ g, interpolate N given s = some g ∧ Mean N given s nds g := by
  unfold interpolate
  rw [h]
  simp only [show ¬ nds.length < 2 by omega, if_false]
  refine ⟨_, rfl, ?_⟩
  obtain ⟨_, m2, m3⟩ := foldl_maxDist nds 0
  generalize hD : nds.foldl (fun m nd => max m nd.2) 0 = D at m2 m3
  have hne : nds ≠ [] := by rintro rfl; simp at h2
  obtain ⟨x0, hx0⟩ := List.exists_mem_of_ne_nil _ hne
  have m3' : ∃ nd ∈ nds, nd.2 = D := by
    rcases m3 with h | h
    · exact ⟨x0, hx0, by have := m2 x0 hx0; omega⟩
    · exact h
  rw [weightedSums_eq]
  have e1 : nds.map (fun nd => (weight N s (D + 1) nd : Rat)) =
      nds.map fun nd => share D nd.2 ((N.borders s).count nd.1) :=
    List.map_congr_left fun nd hnd => weight_share N s D nd (m2 nd hnd)
  have e2 : nds.map (fun nd => (given nd.1).lon * (weight N s (D + 1) nd : Rat)) =
      nds.map fun nd => (given nd.1).lon * share D nd.2 ((N.borders s).count nd.1) :=
    List.map_congr_left fun nd hnd => by rw [weight_share N s D nd (m2 nd hnd)]
  have e3 : nds.map (fun nd => (given nd.1).lat * (weight N s (D + 1) nd : Rat)) =
      nds.map fun nd => (given nd.1).lat * share D nd.2 ((N.borders s).count nd.1) :=
    List.map_congr_left fun nd hnd => by rw [weight_share N s D nd (m2 nd hnd)]
  rw [e1, e2, e3]
  have hpos : 0 < (nds.map fun nd => share D nd.2 ((N.borders s).count nd.1)).sum := by
    apply List.sum_pos
    · intro x hx
      obtain ⟨nd, hnd, rfl⟩ := List.mem_map.1 hx
      exact share_pos _ _ _ (m2 nd hnd)
    · simpa using hne
  refine ⟨D, m2, m3', hpos, ?_, ?_⟩
  · simp only [zero_add]; field_simp
  · simp only [zero_add]; field_simp

theorem sum_between (nds : List (Nat × Nat)) (f w : Nat × Nat → Rat) (a b : Rat) (hw : ∀ nd ∈ nds, 0 ≤ w nd)
    (hf : ∀ nd ∈ nds, a ≤ f nd ∧ f nd ≤ b) :
    a * (nds.map w).sum ≤ (nds.map fun nd => f nd * w nd).sum ∧
      (nds.map fun nd => f nd * w nd).sum ≤ b * (nds.map w).sum := by
  induction nds with
  | nil => simp
  | cons x nds ih =>
    obtain ⟨h1, h2⟩ := ih (fun nd h => hw nd (by simp [h])) (fun nd h => hf nd (by simp [h]))
    simp only [List.map_cons, List.sum_cons]
    have hx := hf x (by simp)
    have hwx := hw x (by simp)
    constructor <;> nlinarith

/-- a weighted mean is between its values -/
theorem Mean.between {N : Net} {given : Nat → Gps} {s : Nat} {nds : List (Nat × Nat)} {g : Gps}
    (h : Mean N given s nds g) :
    (∀ a b, (∀ nd ∈ nds, a ≤ (given nd.1).lon ∧ (given nd.1).lon ≤ b) → a ≤ g.lon ∧ g.lon ≤ b) ∧
      (∀ a b, (∀ nd ∈ nds, a ≤ (given nd.1).lat ∧ (given nd.1).lat ≤ b) → a ≤ g.lat ∧ g.lat ≤ b) := by
  obtain ⟨D, m2, _, hpos, h1, h2⟩ := h
  have hw : ∀ nd ∈ nds, (0 : Rat) ≤ share D nd.2 ((N.borders s).count nd.1) :=
    fun nd hnd => (share_pos _ _ _ (m2 nd hnd)).le
  constructor
  · intro a b hab
    obtain ⟨k1, k2⟩ := sum_between nds (fun nd => (given nd.1).lon) _ a b hw hab
    simp only at h1 k1 k2
    rw [← h1] at k1 k2
    exact ⟨le_of_mul_le_mul_right k1 hpos, le_of_mul_le_mul_right k2 hpos⟩
  · intro a b hab
    obtain ⟨k1, k2⟩ := sum_between nds (fun nd => (given nd.1).lat) _ a b hw hab
    simp only at h2 k1 k2
    rw [← h2] at k1 k2
    exact ⟨le_of_mul_le_mul_right k1 hpos, le_of_mul_le_mul_right k2 hpos⟩

theorem Mean.valid {N : Net} {given : Nat → Gps} {s : Nat} {nds : List (Nat × Nat)} {g : Gps}
    (h : Mean N given s nds g) (ha : Around N given s nds) : g.valid = true := by
  have hk : ∀ nd ∈ nds, Known given nd.1 := fun nd hnd => ((ha.all nd.1 nd.2).1 hnd).2.1
  have h1 := h.between.1 (-360) 360 (fun nd hnd => ⟨(hk nd hnd).1, (hk nd hnd).2.1⟩)
  have h2 := h.between.2 (-360) 360 (fun nd hnd => ⟨(hk nd hnd).2.2.1, (hk nd hnd).2.2.2⟩)
  exact (valid_iff (fun _ => g) 0).2 ⟨h1.1, h1.2, h2.1, h2.2⟩

/-! ### all stations -/

/-- a station after the passes -/
def Passed (N : Net) (given c : Nat → Gps) (s : Nat) : Prop :=
  if (given s).valid then c s = given s else interpolate N given s = some (c s)

theorem interpolate_total (N : Net) (hN : N.Closed) (given : Nat → Gps) (s : Nat) (hs : s < N.count)
    (hk : (given s).valid = false) : ∃ nds, neighboursWithCoords N given s = some nds ∧ Around N given s nds ∧
      ∃ g, interpolate N given s = some g ∧
        (if 2 ≤ nds.length then Mean N given s nds g ∧ g.valid = true else g = .invalid) := by
  have hk' : ¬ Known given s := fun h => by rw [(valid_iff _ _).2 h] at hk; cases hk
  obtain ⟨nds, h1, h2⟩ := neighboursWithCoords_spec N hN given s hs hk'
  refine ⟨nds, h1, h2, ?_⟩
  by_cases hl : 2 ≤ nds.length
  · obtain ⟨g, hg, hm⟩ := interpolate_mean N given s nds h1 hl
    exact ⟨g, hg, by rw [if_pos hl]; exact ⟨hm, hm.valid h2⟩⟩
  · refine ⟨.invalid, ?_, by rw [if_neg hl]⟩
    unfold interpolate
    rw [h1]
    simp [show nds.length < 2 by omega]

/-- the state of a pass: every station still has what was given, or what it is interpolated to -/
def PInv (N : Net) (given c : Nat → Gps) : Prop :=
  ∀ s, s < N.count → c s = given s ∨ ((given s).valid = false ∧ interpolate N given s = some (c s))

theorem pass_spec (N : Net) (hN : N.Closed) (given : Nat → Gps) (ss : List Nat) (hss : ∀ s ∈ ss, s < N.count)
    (hnd : ss.Nodup) (c : Nat → Gps) (hc : PInv N given c) (w : Bool) :
    ∃ c' w', pass N given ss c w = some (c', w') ∧ PInv N given c' ∧ (∀ s, s ∉ ss → c' s = c s) ∧
      (∀ s ∈ ss, Passed N given c' s) ∧
      (w' = true → w = true ∨ ∃ s ∈ ss, (c s).valid = false ∧ (c' s).valid = true) := by
  induction ss generalizing c w with
  | nil => exact ⟨c, w, rfl, hc, fun _ _ => rfl, by simp, fun h => Or.inl h⟩
  | cons s ss ih =>
    rw [List.nodup_cons] at hnd
    have hs := hss s (by simp)
    unfold pass
    by_cases hv : (c s).valid = true
    · rw [if_pos hv]
      obtain ⟨c', w', h1, h2, h3, h4, h5⟩ := ih (fun s h => hss s (by simp [h])) hnd.2 c hc w
      refine ⟨c', w', h1, h2, ?_, ?_, ?_⟩
      · intro s' hs'
        simp only [List.mem_cons, not_or] at hs'
        exact h3 s' hs'.2
      · intro s' hs'
        rcases List.mem_cons.1 hs' with rfl | hs'
        · unfold Passed
          rw [h3 _ hnd.1]
          rcases hc s' hs with he | ⟨h6, h7⟩
          · rw [he] at hv; rw [if_pos hv]; exact he
          · rw [h6]; simpa using h7
        · exact h4 s' hs'
      · intro hw
        rcases h5 hw with h | ⟨s', hs', h⟩
        · exact Or.inl h
        · exact Or.inr ⟨s', by simp [hs'], h⟩
    · rw [if_neg hv]
      have hv' : (c s).valid = false := by simpa using hv
      have hgv : (given s).valid = false := by
        rcases hc s hs with he | ⟨h6, _⟩
        · rw [← he]; exact hv'
        · exact h6
      obtain ⟨nds, _, _, g, hg, _⟩ := interpolate_total N hN given s hs hgv
      rw [hg]
      have hc' : PInv N given (put c s g) := by
        intro s' hs'
        by_cases he : s' = s
        · subst he; right; rw [put_same]; exact ⟨hgv, hg⟩
        · rw [put_other _ _ he]; exact hc s' hs'
      obtain ⟨c', w', h1, h2, h3, h4, h5⟩ := ih (fun s h => hss s (by simp [h])) hnd.2 _ hc' g.valid
      refine ⟨c', w', h1, h2, ?_, ?_, ?_⟩
      · intro s' hs'
        simp only [List.mem_cons, not_or] at hs'
        rw [h3 s' hs'.2, put_other _ _ hs'.1]
      · intro s' hs'
        rcases List.mem_cons.1 hs' with rfl | hs'
        · unfold Passed
          rw [h3 _ hnd.1, hgv, put_same]
          simpa using hg
        · exact h4 s' hs'
      · intro hw
        right
        rcases h5 hw with h | ⟨s', hs', h6, h7⟩
        · exact ⟨s, by simp, hv', by rw [h3 _ hnd.1, put_same]; exact h⟩
        · have hne : s' ≠ s := by rintro rfl; exact hnd.1 hs'
          rw [put_other _ _ hne] at h6
          exact ⟨s', by simp [hs'], h6, h7⟩

theorem passes_spec (N : Net) (hN : N.Closed) (given : Nat → Gps) (fuel : Nat) (hf : 2 ≤ fuel) :
    ∃ c, passes N given fuel given = some c ∧ (∀ s, s < N.count → Passed N given c s) ∧
      (∀ s, N.count ≤ s → c s = given s) := by
  have hr : ∀ s ∈ List.range N.count, s < N.count := fun s h => List.mem_range.1 h
  obtain ⟨c, w, h1, h2, h3, h4, _⟩ := pass_spec N hN given (List.range N.count) hr List.nodup_range given
    (fun _ _ => Or.inl rfl) false
  obtain ⟨f, rfl⟩ : ∃ f, fuel = f + 2 := ⟨fuel - 2, by omega⟩
  have h4' : ∀ s, s < N.count → Passed N given c s := fun s hs => h4 s (List.mem_range.2 hs)
  rw [passes, h1]
  cases w with
  | false => exact ⟨c, rfl, h4', fun s hs => h3 s (by simpa using hs)⟩
  | true =>
    -- the second pass finds nothing new
    obtain ⟨c', w', g1, g2, g3, g4, g5⟩ := pass_spec N hN given (List.range N.count) hr List.nodup_range c h2 false
    have hw : w' = false := by
      cases hw' : w' with
      | false => rfl
      | true =>
        exfalso
        rcases g5 hw' with h | ⟨s, hs, h6, h7⟩
        · cases h
        · have ha := h4 s hs
          have hb := g4 s hs
          unfold Passed at ha hb
          by_cases hg : (given s).valid = true
          · rw [if_pos hg] at ha; rw [ha, hg] at h6; cases h6
          · rw [if_neg hg] at ha hb
            rw [ha, Option.some.injEq] at hb
            rw [hb, h7] at h6; cases h6
    subst hw
    simp only [passes, g1]
    refine ⟨c', rfl, fun s hs => g4 s (List.mem_range.2 hs), ?_⟩
    intro s hs
    rw [g3 s (by simpa using hs), h3 s (by simpa using hs)]

/-- a station in the end -/
def Placed (N : Net) (given : Nat → Gps) (s : Nat) (g : Gps) : Prop :=
  if (given s).valid then g = given s
  else ∃ nds, Around N given s nds ∧
    match nds with
    | [] => g = ⟨8, 47⟩
    | [(t, d)] => g = ⟨(given t).lon - d * (1 / 10), (given t).lat⟩
    | nds => Mean N given s nds g

theorem fill_cons (N : Net) (given : Nat → Gps) (s : Nat) (ss : List Nat) (c : Nat → Gps) :
    fill N given (s :: ss) c =
      if (c s).valid then fill N given ss c
      else
        match neighboursWithCoords N given s with
        | none => none
        | some [] => fill N given ss (put c s ⟨8, 47⟩)
        | some [(n, depth)] => fill N given ss (put c s ⟨(given n).lon - depth * (1 / 10), (given n).lat⟩)
        | some (_ :: _ :: _) => fill N given ss c := by
  rw [fill]
  split
  · rfl
  · cases neighboursWithCoords N given s with
    | none => rfl
    | some nds =>
      match nds with
      | [] => rfl
      | [(_, _)] => rfl
      | _ :: _ :: _ => rfl

theorem fill_spec (N : Net) (hN : N.Closed) (given : Nat → Gps) (ss : List Nat) (hss : ∀ s ∈ ss, s < N.count)
    (hnd : ss.Nodup) (c : Nat → Gps) (hc : ∀ s ∈ ss, Passed N given c s) :
    ∃ c', fill N given ss c = some c' ∧ (∀ s, s ∉ ss → c' s = c s) ∧ (∀ s ∈ ss, Placed N given s (c' s)) := by
  induction ss generalizing c with
  | nil => exact ⟨c, rfl, fun _ _ => rfl, by simp⟩
  | cons s ss ih =>
    rw [List.nodup_cons] at hnd
    have hs := hss s (by simp)
    have hp := hc s (by simp)
    -- the station itself
    have hstep : ∃ g, fill N given (s :: ss) c = fill N given ss (put c s g) ∧ Placed N given s g := by
      rw [fill_cons]
      unfold Placed
      unfold Passed at hp
      by_cases hg : (given s).valid = true
      · rw [if_pos hg] at hp
        refine ⟨given s, ?_, by rw [if_pos hg]⟩
        have : put c s (given s) = c := by
          funext j; unfold put; split
          · rename_i h; rw [h, hp]
          · rfl
        rw [this, hp, if_pos hg]
      · rw [if_neg hg] at hp
        simp only [if_neg hg]
        obtain ⟨nds, h1, h2, g, h3, h4⟩ := interpolate_total N hN given s hs (by simpa using hg)
        rw [hp, Option.some.injEq] at h3
        by_cases hl : 2 ≤ nds.length
        · rw [if_pos hl] at h4
          refine ⟨c s, ?_, nds, h2, ?_⟩
          · have : put c s (c s) = c := by
              funext j; unfold put; split
              · rename_i h; rw [h]
              · rfl
            rw [this, h3, if_pos h4.2]
          · rw [h3]
            match nds, hl with
            | _ :: _ :: _, _ => exact h4.1
        · rw [if_neg hl] at h4
          have hinv : (c s).valid = false := by rw [h3, h4]; decide +kernel
          rw [hinv, h1]
          simp only [Bool.false_eq_true, if_false]
          match nds, hl, h2 with
          | [], _, h2 => exact ⟨_, rfl, [], h2, rfl⟩
          | [(t, d)], _, h2 => exact ⟨_, rfl, [(t, d)], h2, rfl⟩
          | _ :: _ :: _, hl, _ => exact absurd (by simp) hl
    obtain ⟨g, he, hpl⟩ := hstep
    rw [he]
    have hc' : ∀ s' ∈ ss, Passed N given (put c s g) s' := by
      intro s' hs'
      have hne : s' ≠ s := by rintro rfl; exact hnd.1 hs'
      have := hc s' (by simp [hs'])
      unfold Passed at this ⊢
      rw [put_other _ _ hne]
      exact this
    obtain ⟨c', h1, h2, h3⟩ := ih (fun s h => hss s (by simp [h])) hnd.2 _ hc'
    refine ⟨c', h1, ?_, ?_⟩
    · intro s' hs'
      simp only [List.mem_cons, not_or] at hs'
      rw [h2 s' hs'.2, put_other _ _ hs'.1]
    · intro s' hs'
      rcases List.mem_cons.1 hs' with rfl | hs'
      · rw [h2 _ hnd.1, put_same]; exact hpl
      · exact h3 s' hs'

theorem interpolateAll_spec (N : Net) (hN : N.Closed) (given : Nat → Gps) (fuel : Nat) (hf : 2 ≤ fuel) :
    ∃ c, interpolateAll N fuel given = some c ∧ ∀ s, s < N.count → Placed N given s (c s) := by
  obtain ⟨c, h1, h2, _⟩ := passes_spec N hN given fuel hf
  obtain ⟨c', h3, _, h4⟩ := fill_spec N hN given (List.range N.count) (fun s h => List.mem_range.1 h) List.nodup_range c
    (fun s hs => h2 s (List.mem_range.1 hs))
  refine ⟨c', ?_, fun s hs => h4 s (List.mem_range.2 hs)⟩
  unfold interpolateAll
  rw [h1]
  exact h3

/-! ### bounding boxes -/

theorem grow_fold (ps : List Gps) (b : Box) :
    ps.foldl Box.grow b = ⟨⟨(ps.map Gps.lon).foldl min b.sw.lon, (ps.map Gps.lat).foldl min b.sw.lat⟩,
      ⟨(ps.map Gps.lon).foldl max b.ne.lon, (ps.map Gps.lat).foldl max b.ne.lat⟩⟩ := by
  induction ps generalizing b with
  | nil => rfl
  | cons p ps ih => simp only [List.foldl_cons, List.map_cons]; rw [ih]; rfl

end Soro.Layout
