import Verif.Model.Traversal
import Verif.Spec.Graph

/-! Proofs about traversals: the order in which nodes are popped determines everything the callbacks see. -/

namespace Soro

variable {α : Type} {σ : Type}

theorem Walk.trans {out : α → List α} {n m : Nat} {a b c : α} (h1 : Walk out n a b) (h2 : Walk out m b c) :
    Walk out (n + m) a c := by
  induction h2 with
  | nil => exact h1
  | snoc _ hc ih => exact .snoc (ih h1) hc

theorem Walk.cons {out : α → List α} {n : Nat} {a b c : α} (h1 : b ∈ out a) (h2 : Walk out n b c) :
    Walk out (n + 1) a c := by
  have := Walk.trans (Walk.snoc (Walk.nil a) h1) h2
  rwa [show 0 + 1 + n = n + 1 by omega] at this

theorem Walk.zero_iff {out : α → List α} {a b : α} : Walk out 0 a b ↔ a = b := by
  constructor
  · intro h; cases h; rfl
  · rintro rfl; exact .nil _

theorem Walk.succ_iff {out : α → List α} {n : Nat} {a c : α} :
    Walk out (n + 1) a c ↔ ∃ b, Walk out n a b ∧ c ∈ out b := by
  constructor
  · intro h; cases h with
    | snoc h1 h2 => exact ⟨_, h1, h2⟩
  · rintro ⟨b, h1, h2⟩; exact .snoc h1 h2

theorem Walk.head {out : α → List α} {n : Nat} {a c : α} (h : Walk out (n + 1) a c) :
    ∃ b, b ∈ out a ∧ Walk out n b c := by
  induction n generalizing c with
  | zero =>
    obtain ⟨b, h1, h2⟩ := Walk.succ_iff.1 h
    rw [Walk.zero_iff] at h1
    subst h1
    exact ⟨c, h2, .nil _⟩
  | succ n ih =>
    obtain ⟨b, h1, h2⟩ := Walk.succ_iff.1 h
    obtain ⟨d, h3, h4⟩ := ih h1
    exact ⟨d, h3, .snoc h4 h2⟩

theorem Walk.split {out : α → List α} {i j : Nat} {a c : α} (h : Walk out (i + j) a c) :
    ∃ b, Walk out i a b ∧ Walk out j b c := by
  induction j generalizing c with
  | zero => exact ⟨c, h, .nil _⟩
  | succ j ih =>
    obtain ⟨b, h1, h2⟩ := Walk.succ_iff.1 (show Walk out (i + j + 1) a c from h)
    obtain ⟨d, h3, h4⟩ := ih h1
    exact ⟨d, h3, .snoc h4 h2⟩

theorem ReachPlus.single {out : α → List α} {a b : α} (h : b ∈ out a) : ReachPlus out a b :=
  ⟨0, .snoc (.nil a) h⟩

theorem ReachPlus.trans {out : α → List α} {a b c : α} (h1 : ReachPlus out a b) (h2 : ReachPlus out b c) :
    ReachPlus out a c := by
  obtain ⟨n, h1⟩ := h1; obtain ⟨m, h2⟩ := h2
  have := Walk.trans h1 h2
  exact ⟨n + 1 + m, by rwa [show n + 1 + m + 1 = n + 1 + (m + 1) by omega]⟩

theorem ReachPlus.snoc {out : α → List α} {a b c : α} (h1 : ReachPlus out a b) (h2 : c ∈ out b) : ReachPlus out a c :=
  h1.trans (.single h2)

theorem Reach.iff {out : α → List α} {a b : α} : Reach out a b ↔ a = b ∨ ReachPlus out a b := by
  constructor
  · rintro ⟨n, h⟩
    cases n with
    | zero => exact Or.inl (Walk.zero_iff.1 h)
    | succ n => exact Or.inr ⟨n, h⟩
  · rintro (rfl | ⟨n, h⟩)
    · exact ⟨0, .nil _⟩
    · exact ⟨_, h⟩

theorem Reach.refl {out : α → List α} (a : α) : Reach out a a := ⟨0, .nil a⟩

theorem Reach.trans {out : α → List α} {a b c : α} (h1 : Reach out a b) (h2 : Reach out b c) : Reach out a c := by
  obtain ⟨n, h1⟩ := h1; obtain ⟨m, h2⟩ := h2
  exact ⟨_, h1.trans h2⟩

theorem ReachPlus.reach {out : α → List α} {a b : α} (h : ReachPlus out a b) : Reach out a b := by
  obtain ⟨n, h⟩ := h; exact ⟨_, h⟩

/-- a set that contains the successors of `start` and is closed contains everything reachable -/
theorem ReachPlus.closed {out : α → List α} {a b : α} (h : ReachPlus out a b) (P : α → Prop)
    (h0 : ∀ y ∈ out a, P y) (h1 : ∀ x, P x → ∀ y ∈ out x, P y) : P b := by
  obtain ⟨n, h⟩ := h
  induction n generalizing b with
  | zero =>
    obtain ⟨c, h2, h3⟩ := Walk.succ_iff.1 h
    rw [Walk.zero_iff] at h2; subst h2
    exact h0 _ h3
  | succ n ih =>
    obtain ⟨c, h2, h3⟩ := Walk.succ_iff.1 h
    exact h1 c (ih h2) _ h3

namespace Trav

variable [DecidableEq α]

/-- the neighbours of `c` pushed one after the other -/
def visitAll (k : Kind) (c : α) (bs : List α) (t : TState α) : TState α := bs.foldl (visit k c) t

/-- the elements popped from the todo container, in order -/
def pops (k : Kind) (out : α → List α) : Nat → TState α → Option (List (α × α))
  | 0, _ => none
  | fuel + 1, t =>
    match t.q with
    | [] => some []
    | (c, p) :: q => (pops k out fuel (visitAll k c (out c) { t with q := q })).map ((c, p) :: ·)

/-- the callback calls caused by a popped element -/
def evs (start : α) (out : α → List α) (cp : α × α) : List (Ev α) :=
  (if cp.1 ≠ start then [Ev.node cp.1 cp.2] else []) ++ (out cp.1).map (Ev.edge cp.1)


theorem scan_eq (k : Kind) (wn we : σ → α → α → σ × Bool) (c : α) (bs : List α) (t : TState α) (s : σ)
    (rest : List (Ev α)) :
    (scan k we c bs t s).1 = false → (scan k we c bs t s).2.1 = visitAll k c bs t ∧
      runEvents wn we (bs.map (Ev.edge c) ++ rest) s = runEvents wn we rest (scan k we c bs t s).2.2 := by
  induction bs generalizing t s with
  | nil => intro _; exact ⟨rfl, rfl⟩
  | cons b bs ih =>
    intro h
    simp only [scan] at h ⊢
    by_cases hs : (we s c b).2 = true
    · rw [if_pos hs] at h; cases h
    · rw [if_neg hs] at h ⊢
      obtain ⟨h1, h2⟩ := ih (visit k c t b) (we s c b).1 h
      refine ⟨h1, ?_⟩
      simp only [List.map_cons, List.cons_append, runEvents, if_neg hs]
      exact h2

theorem scan_stop (k : Kind) (wn we : σ → α → α → σ × Bool) (c : α) (bs : List α) (t : TState α) (s : σ)
    (rest : List (Ev α)) :
    (scan k we c bs t s).1 = true →
      runEvents wn we (bs.map (Ev.edge c) ++ rest) s = (scan k we c bs t s).2.2 := by
  induction bs generalizing t s with
  | nil => intro h; cases h
  | cons b bs ih =>
    intro h
    simp only [scan] at h ⊢
    simp only [List.map_cons, List.cons_append, runEvents]
    by_cases hs : (we s c b).2 = true
    · rw [if_pos hs, if_pos hs]
    · rw [if_neg hs] at h
      rw [if_neg hs, if_neg hs]
      exact ih (visit k c t b) (we s c b).1 h

/-- the traversal runs the callbacks on the events of the popped elements -/
theorem loop_eq (k : Kind) (start : α) (out : α → List α) (wn we : σ → α → α → σ × Bool) (fuel : Nat)
    (t : TState α) (s : σ) (L : List (α × α)) (h : pops k out fuel t = some L) :
    loop k start out wn we fuel t s = some (runEvents wn we (L.flatMap (evs start out)) s) := by
  induction fuel generalizing t s L with
  | zero => cases h
  | succ fuel ih =>
    simp only [pops, loop] at h ⊢
    cases hq : t.q with
    | nil => rw [hq] at h; cases h; rfl
    | cons cp q =>
      obtain ⟨c, p⟩ := cp
      rw [hq] at h
      simp only [Option.map_eq_some_iff] at h
      obtain ⟨L', hL', rfl⟩ := h
      simp only [List.flatMap_cons, evs, List.append_assoc]
      by_cases hc : c ≠ start
      · simp only [if_pos hc, List.cons_append, List.nil_append, runEvents]
        by_cases hn : (wn s c p).2 = true
        · simp only [if_pos hn]
        · simp only [if_neg hn]
          have e1 := scan_eq k wn we c (out c) { t with q := q } (wn s c p).1 (L'.flatMap (evs start out))
          have e2 := scan_stop k wn we c (out c) { t with q := q } (wn s c p).1 (L'.flatMap (evs start out))
          rcases hsc : scan k we c (out c) { t with q := q } (wn s c p).1 with ⟨b, t', s'⟩
          rw [hsc] at e1 e2
          cases b
          · obtain ⟨e3, e4⟩ := e1 rfl
            dsimp only at e3 e4 ⊢
            rw [e4]
            exact ih t' s' L' (by rw [e3]; exact hL')
          · rw [e2 rfl]
      · simp only [if_neg hc, List.nil_append, Bool.false_eq_true, if_false]
        have e1 := scan_eq k wn we c (out c) { t with q := q } s (L'.flatMap (evs start out))
        have e2 := scan_stop k wn we c (out c) { t with q := q } s (L'.flatMap (evs start out))
        rcases hsc : scan k we c (out c) { t with q := q } s with ⟨b, t', s'⟩
        rw [hsc] at e1 e2
        cases b
        · obtain ⟨e3, e4⟩ := e1 rfl
          dsimp only at e3 e4 ⊢
          rw [e4]
          exact ih t' s' L' (by rw [e3]; exact hL')
        · rw [e2 rfl]

/-! ### what `visitAll` does -/

theorem mem_push (k : Kind) {β : Type} (q : List β) (x y : β) : y ∈ push k q x ↔ y = x ∨ y ∈ q := by
  cases k <;> simp [push, or_comm]

theorem visit_seen (k : Kind) (c b : α) (t : TState α) (x : α) : x ∈ (visit k c t b).seen ↔ x = b ∨ x ∈ t.seen := by
  unfold visit
  split
  · constructor
    · exact Or.inr
    · rintro (rfl | h) <;> assumption
  · simp

theorem visitAll_seen (k : Kind) (c : α) (bs : List α) (t : TState α) (x : α) :
    x ∈ (visitAll k c bs t).seen ↔ x ∈ bs ∨ x ∈ t.seen := by
  induction bs generalizing t with
  | nil => simp [visitAll]
  | cons b bs ih =>
    have := ih (visit k c t b)
    simp only [visitAll, List.foldl_cons] at this ⊢
    rw [this, visit_seen, List.mem_cons]
    constructor
    · rintro (h | h | h)
      · exact Or.inl (Or.inr h)
      · exact Or.inl (Or.inl h)
      · exact Or.inr h
    · rintro ((h | h) | h)
      · exact Or.inr (Or.inl h)
      · exact Or.inl h
      · exact Or.inr (Or.inr h)

/-- queue content after `visitAll`: the old entries and one entry `(b, c)` per new neighbour -/
theorem visitAll_q (k : Kind) (c : α) (bs : List α) (t : TState α) (x : α × α) :
    x ∈ (visitAll k c bs t).q ↔ x ∈ t.q ∨ (x.2 = c ∧ x.1 ∈ bs ∧ x.1 ∉ t.seen) := by
  induction bs generalizing t with
  | nil => simp [visitAll]
  | cons b bs ih =>
    have := ih (visit k c t b)
    simp only [visitAll, List.foldl_cons] at this ⊢
    rw [this, visit_seen]
    by_cases hb : b ∈ t.seen
    · have : visit k c t b = t := by simp [visit, hb]
      rw [this]
      constructor
      · rintro (h | ⟨h1, h2, h3⟩)
        · exact Or.inl h
        · exact Or.inr ⟨h1, by simp [h2], fun h => h3 (Or.inr h)⟩
      · rintro (h | ⟨h1, h2, h3⟩)
        · exact Or.inl h
        · refine Or.inr ⟨h1, ?_, ?_⟩
          · rcases List.mem_cons.1 h2 with h | h
            · rw [h] at h3; exact absurd hb h3
            · exact h
          · rintro (h | h)
            · rw [h] at h3; exact absurd hb h3
            · exact h3 h
    · have : (visit k c t b).q = push k t.q (b, c) := by simp [visit, hb]
      rw [this, mem_push]
      constructor
      · rintro ((h | h) | ⟨h1, h2, h3⟩)
        · subst h; exact Or.inr ⟨rfl, by simp, hb⟩
        · exact Or.inl h
        · exact Or.inr ⟨h1, by simp [h2], fun h => h3 (Or.inr h)⟩
      · rintro (h | ⟨h1, h2, h3⟩)
        · exact Or.inl (Or.inr h)
        · by_cases hx : x.1 = b
          · left; left
            rw [← h1, ← hx]
          · right
            refine ⟨h1, ?_, ?_⟩
            · rcases List.mem_cons.1 h2 with h | h
              · exact absurd h hx
              · exact h
            · rintro (h | h)
              · exact hx h
              · exact h3 h

theorem visitAll_nodup (k : Kind) (c : α) (bs : List α) (t : TState α)
    (h1 : (t.q.map Prod.fst).Nodup) (h2 : ∀ x ∈ t.q, x.1 ∈ t.seen) :
    ((visitAll k c bs t).q.map Prod.fst).Nodup ∧ ∀ x ∈ (visitAll k c bs t).q, x.1 ∈ (visitAll k c bs t).seen := by
  induction bs generalizing t with
  | nil => exact ⟨h1, h2⟩
  | cons b bs ih =>
    simp only [visitAll, List.foldl_cons]
    apply ih (visit k c t b)
    · unfold visit
      split
      · exact h1
      · rename_i hb
        have hb' : b ∉ t.q.map Prod.fst := by
          intro h
          obtain ⟨x, hx, rfl⟩ := List.mem_map.1 h
          exact hb (h2 x hx)
        cases k
        · simp only [push, List.map_append, List.map_cons, List.map_nil]
          rw [List.nodup_append]
          refine ⟨h1, by simp, ?_⟩
          intro a ha b' hb'' 
          simp only [List.mem_singleton] at hb''
          rintro rfl
          subst hb''
          exact hb' ha
        · simp only [push, List.map_cons, List.nodup_cons]
          exact ⟨hb', h1⟩
    · intro x hx
      unfold visit at hx ⊢
      split at hx
      · rename_i hb; rw [if_pos hb]; exact h2 x hx
      · rename_i hb
        rw [if_neg hb]
        rw [mem_push] at hx
        rcases hx with rfl | hx
        · simp
        · simp [h2 x hx]

/-- number of elements of `U` not yet seen -/
def unseen (U : List α) (t : TState α) : Nat := U.countP (fun x => decide (x ∉ t.seen))

theorem visit_measure (k : Kind) (c b : α) (t : TState α) (U : List α) (hb : b ∈ U) :
    unseen U (visit k c t b) + (visit k c t b).q.length ≤ unseen U t + t.q.length := by
  unfold visit
  split
  · exact Nat.le_refl _
  · rename_i hs
    have hl : (push k t.q (b, c)).length = t.q.length + 1 := by cases k <;> simp [push]
    simp only [hl]
    have : unseen U { q := push k t.q (b, c), seen := b :: t.seen } + 1 ≤ unseen U t := by
      unfold unseen
      clear hl
      simp only
      induction U with
      | nil => cases hb
      | cons u U ih =>
        simp only [List.countP_cons]
        by_cases hub : u = b
        · subst hub
          have hle : U.countP (fun x => decide (x ∉ u :: t.seen)) ≤ U.countP (fun x => decide (x ∉ t.seen)) := by
            apply List.countP_mono_left
            intro x _ hx
            simp only [List.mem_cons, not_or, decide_eq_true_eq] at hx ⊢
            exact hx.2
          have e1 : decide (u ∉ u :: t.seen) = false := by simp
          have e2 : decide (u ∉ t.seen) = true := by simp [hs]
          rw [e1, e2]
          simp only [Bool.false_eq_true, if_false, if_true]
          omega
        · have hb' : b ∈ U := by
            rcases List.mem_cons.1 hb with h | h
            · exact absurd h.symm hub
            · exact h
          have := ih hb'
          have e : decide (u ∉ b :: t.seen) = decide (u ∉ t.seen) := by simp [hub]
          rw [e]
          omega
    omega

theorem visitAll_measure (k : Kind) (c : α) (bs : List α) (t : TState α) (U : List α) (hb : ∀ b ∈ bs, b ∈ U) :
    unseen U (visitAll k c bs t) + (visitAll k c bs t).q.length ≤ unseen U t + t.q.length := by
  induction bs generalizing t with
  | nil => exact Nat.le_refl _
  | cons b bs ih =>
    simp only [visitAll, List.foldl_cons]
    have h1 := ih (visit k c t b) (fun x hx => hb x (by simp [hx]))
    have h2 := visit_measure k c b t U (hb b (by simp))
    simp only [visitAll] at h1
    omega

/-! ### the popped elements -/

/-- invariant of the main loop after the start node was processed; `D`: the nodes popped so far (without the initial
entry) -/
structure Inv (out : α → List α) (start : α) (U : List α) (D : List α) (t : TState α) : Prop where
  nodup : (D ++ t.q.map Prod.fst).Nodup
  seen : ∀ x, x ∈ t.seen ↔ x ∈ D ∨ x ∈ t.q.map Prod.fst
  closed : ∀ d, d = start ∨ d ∈ D → ∀ y ∈ out d, y ∈ t.seen
  reach : ∀ x ∈ t.seen, ReachPlus out start x
  parent : ∀ x ∈ t.q, x.1 ∈ out x.2 ∧ (x.2 = start ∨ x.2 ∈ D)
  inU : ∀ x ∈ t.seen, x ∈ U

theorem Inv.step {out : α → List α} {start : α} {U D : List α} {k : Kind} {c p : α} {q : List (α × α)}
    {seen : List α} (hU : ∀ x ∈ U, ∀ y ∈ out x, y ∈ U)
    (h : Inv out start U D { q := (c, p) :: q, seen := seen }) :
    Inv out start U (D ++ [c]) (visitAll k c (out c) { q := q, seen := seen }) := by
  have hc : c ∈ seen := (h.seen c).2 (Or.inr (by simp))
  have hnd := h.nodup
  simp only [List.map_cons] at hnd
  have hq0 : (q.map Prod.fst).Nodup := by
    have := (List.nodup_append.1 hnd).2.1
    exact (List.nodup_cons.1 this).2
  have hqs : ∀ x ∈ q, x.1 ∈ seen := by
    intro x hx
    exact (h.seen x.1).2 (Or.inr (by simp only [List.map_cons, List.mem_cons]; right; exact List.mem_map_of_mem hx))
  obtain ⟨n1, n2⟩ := visitAll_nodup k c (out c) { q := q, seen := seen } hq0 hqs
  have mq := visitAll_q k c (out c) { q := q, seen := seen }
  have ms := visitAll_seen k c (out c) { q := q, seen := seen }
  simp only at mq ms
  constructor
  · rw [List.nodup_append]
    refine ⟨?_, n1, ?_⟩
    · have : (D ++ [c]).Nodup := by
        have h1 := List.nodup_append.1 hnd
        rw [List.nodup_append]
        refine ⟨h1.1, by simp, ?_⟩
        intro a ha b hb
        exact h1.2.2 a ha b (by simp at hb; simp [hb])
      exact this
    · intro a ha b hb
      obtain ⟨x, hx, rfl⟩ := List.mem_map.1 hb
      rintro rfl
      rw [mq] at hx
      have haseen : x.1 ∈ seen := by
        rcases List.mem_append.1 ha with ha | ha
        · exact (h.seen _).2 (Or.inl ha)
        · simp only [List.mem_singleton] at ha; rw [ha]; exact hc
      rcases hx with hx | ⟨_, _, hx⟩
      · have h1 := List.nodup_append.1 hnd
        have hxq : x.1 ∈ q.map Prod.fst := List.mem_map_of_mem hx
        rcases List.mem_append.1 ha with ha | ha
        · exact h1.2.2 _ ha _ (List.mem_cons_of_mem _ hxq) rfl
        · simp only [List.mem_singleton] at ha
          have := (List.nodup_cons.1 h1.2.1).1
          rw [ha] at hxq
          exact this hxq
      · exact hx haseen
  · intro x
    rw [ms]
    simp only [List.mem_append, List.mem_singleton, List.mem_map]
    constructor
    · rintro (hx | hx)
      · by_cases hs : x ∈ seen
        · rcases (h.seen x).1 hs with h1 | h1
          · exact Or.inl (Or.inl h1)
          · simp only [List.map_cons, List.mem_cons, List.mem_map] at h1
            rcases h1 with rfl | ⟨y, hy, rfl⟩
            · exact Or.inl (Or.inr rfl)
            · exact Or.inr ⟨y, (mq y).2 (Or.inl hy), rfl⟩
        · exact Or.inr ⟨(x, c), (mq _).2 (Or.inr ⟨rfl, hx, hs⟩), rfl⟩
      · rcases (h.seen x).1 hx with h1 | h1
        · exact Or.inl (Or.inl h1)
        · simp only [List.map_cons, List.mem_cons, List.mem_map] at h1
          rcases h1 with rfl | ⟨y, hy, rfl⟩
          · exact Or.inl (Or.inr rfl)
          · exact Or.inr ⟨y, (mq y).2 (Or.inl hy), rfl⟩
    · rintro ((hx | rfl) | ⟨y, hy, rfl⟩)
      · exact Or.inr ((h.seen x).2 (Or.inl hx))
      · exact Or.inr hc
      · rw [mq] at hy
        rcases hy with hy | ⟨_, hy, _⟩
        · exact Or.inr (hqs y hy)
        · exact Or.inl hy
  · intro d hd y hy
    rw [ms]
    simp only [List.mem_append, List.mem_singleton] at hd
    rcases hd with rfl | hd | rfl
    · exact Or.inr (h.closed _ (Or.inl rfl) y hy)
    · exact Or.inr (h.closed _ (Or.inr hd) y hy)
    · exact Or.inl hy
  · intro x hx
    rw [ms] at hx
    rcases hx with hx | hx
    · exact (h.reach c hc).snoc hx
    · exact h.reach x hx
  · intro x hx
    rw [mq] at hx
    simp only [List.mem_append, List.mem_singleton]
    rcases hx with hx | ⟨h1, h2, _⟩
    · obtain ⟨h3, h4⟩ := h.parent x (by simp [hx])
      refine ⟨h3, ?_⟩
      rcases h4 with h4 | h4
      · exact Or.inl h4
      · exact Or.inr (Or.inl h4)
    · rw [h1]; exact ⟨h2, Or.inr (Or.inr rfl)⟩
  · intro x hx
    rw [ms] at hx
    rcases hx with hx | hx
    · exact hU c (h.inU c hc) x hx
    · exact h.inU x hx

theorem pops_inv (k : Kind) {out : α → List α} {start : α} {U : List α} (hU : ∀ x ∈ U, ∀ y ∈ out x, y ∈ U)
    (fuel : Nat) (D : List α) (t : TState α) (h : Inv out start U D t) (hf : unseen U t + t.q.length < fuel) :
    ∃ L, pops k out fuel t = some L ∧ (D ++ L.map Prod.fst).Nodup ∧
      (∀ x ∈ t.seen, x ∈ D ++ L.map Prod.fst) ∧
      (∀ x ∈ D ++ L.map Prod.fst, ReachPlus out start x) ∧
      (∀ d, d = start ∨ d ∈ D ++ L.map Prod.fst → ∀ y ∈ out d, y ∈ D ++ L.map Prod.fst) ∧
      (∀ L1 c p L2, L = L1 ++ (c, p) :: L2 → c ∈ out p ∧ (p = start ∨ p ∈ D ++ L1.map Prod.fst)) := by
  induction fuel generalizing D t with
  | zero => omega
  | succ fuel ih =>
    obtain ⟨q, seen⟩ := t
    cases q with
    | nil =>
      have hs : ∀ x, x ∈ seen ↔ x ∈ D := fun x => by have := h.seen x; simpa using this
      refine ⟨[], rfl, by simpa using h.nodup, ?_, ?_, ?_, ?_⟩
      · intro x hx; simpa using (hs x).1 hx
      · intro x hx; exact h.reach x ((hs x).2 (by simpa using hx))
      · intro d hd y hy
        have := h.closed d (by simpa using hd) y hy
        simpa using (hs y).1 this
      · intro L1 c p L2 hL
        simp at hL
    | cons cp q =>
      obtain ⟨c, p⟩ := cp
      have hi := h.step (k := k) hU
      have hm := visitAll_measure k c (out c) { q := q, seen := seen } U
        (hU c (h.inU c ((h.seen c).2 (Or.inr (by simp)))))
      have hun : unseen U { q := q, seen := seen } = unseen U { q := (c, p) :: q, seen := seen } := rfl
      simp only [List.length_cons] at hf
      obtain ⟨L, h1, h2, h3, h4, h5, h6⟩ := ih (D ++ [c]) _ hi (by simp only at hm; omega)
      have e : D ++ [c] ++ L.map Prod.fst = D ++ ((c, p) :: L).map Prod.fst := by simp
      rw [e] at h2 h3 h4 h5
      refine ⟨(c, p) :: L, by simp [pops, h1], h2, ?_, h4, h5, ?_⟩
      · intro x hx
        exact h3 x ((visitAll_seen k c (out c) _ x).2 (Or.inr hx))
      · intro L1 c' p' L2 hL
        cases L1 with
        | nil =>
          simp only [List.nil_append, List.cons.injEq, Prod.mk.injEq] at hL
          obtain ⟨⟨rfl, rfl⟩, _⟩ := hL
          have := h.parent (c, p) (by simp)
          simpa using this
        | cons x L1 =>
          simp only [List.cons_append, List.cons.injEq] at hL
          obtain ⟨rfl, hL⟩ := hL
          have := h6 L1 c' p' L2 hL
          simpa using this

/-- the initial entry is popped first; afterwards the invariant holds -/
theorem Inv.init (k : Kind) {out : α → List α} {start : α} {U : List α} (hU : FiniteFrom out start U) :
    Inv out start U [] (visitAll k start (out start) { q := [], seen := [] }) := by
  have mq := visitAll_q k start (out start) (t := { q := [], seen := [] })
  have ms := visitAll_seen k start (out start) (t := { q := [], seen := [] })
  obtain ⟨n1, n2⟩ := visitAll_nodup k start (out start) { q := [], seen := [] } (by simp) (by simp)
  simp only [List.not_mem_nil, not_false_eq_true, and_true, false_or, or_false] at mq ms
  constructor
  · simpa using n1
  · intro x
    rw [ms]
    constructor
    · intro hx; right; exact List.mem_map.2 ⟨(x, start), (mq _).2 ⟨rfl, hx⟩, rfl⟩
    · rintro (hx | hx)
      · cases hx
      · obtain ⟨y, hy, rfl⟩ := List.mem_map.1 hx
        exact ((mq y).1 hy).2
  · rintro d (rfl | hd) y hy
    · exact (ms y).2 hy
    · cases hd
  · intro x hx; exact .single ((ms x).1 hx)
  · intro x hx
    obtain ⟨h1, h2⟩ := (mq x).1 hx
    rw [h1]; exact ⟨h2, Or.inl rfl⟩
  · intro x hx; exact hU.2 start hU.1 x ((ms x).1 hx)

theorem pops_init (k : Kind) {out : α → List α} {start : α} {U : List α} (hU : FiniteFrom out start U)
    (fuel : Nat) (hf : U.length + 2 ≤ fuel) :
    ∃ L, pops k out fuel { q := [(start, start)], seen := [] } = some ((start, start) :: L) ∧
      (L.map Prod.fst).Nodup ∧
      (∀ x, x ∈ L.map Prod.fst ↔ ReachPlus out start x) ∧
      (∀ L1 c p L2, L = L1 ++ (c, p) :: L2 → c ∈ out p ∧ (p = start ∨ p ∈ L1.map Prod.fst)) := by
  obtain ⟨fuel, rfl⟩ : ∃ f, fuel = f + 1 := ⟨fuel - 1, by omega⟩
  have hi := Inv.init k hU
  have hm := visitAll_measure k start (out start) { q := [], seen := [] } U (hU.2 start hU.1)
  have hu : unseen U { q := [], seen := [] } ≤ U.length := List.countP_le_length
  obtain ⟨L, h1, h2, h3, h4, h5, h6⟩ := pops_inv k hU.2 fuel [] _ hi
    (by simp only [List.length_nil] at hm; omega)
  simp only [List.nil_append] at h2 h3 h4 h5 h6
  refine ⟨L, by simp only [pops, h1, Option.map_some], h2, fun x => ⟨h4 x, fun hx => ?_⟩, h6⟩
  exact hx.closed (fun y => y ∈ L.map Prod.fst) (fun y hy => h5 start (Or.inl rfl) y hy)
    (fun z hz y hy => h5 z (Or.inr hz) y hy)

/-! ### breadth first search: levels -/

theorem visitAll_bfs (c : α) (bs : List α) (t : TState α) :
    ∃ new, (visitAll .bfs c bs t).q = t.q ++ new ∧ ∀ x ∈ new, x.2 = c ∧ x.1 ∈ bs ∧ x.1 ∉ t.seen := by
  induction bs generalizing t with
  | nil => exact ⟨[], by simp [visitAll], by simp⟩
  | cons b bs ih =>
    obtain ⟨new, h1, h2⟩ := ih (visit .bfs c t b)
    simp only [visitAll, List.foldl_cons] at h1 ⊢
    rw [h1]
    by_cases hb : b ∈ t.seen
    · have e : visit .bfs c t b = t := by simp [visit, hb]
      rw [e] at h2 ⊢
      refine ⟨new, rfl, fun x hx => ?_⟩
      obtain ⟨h3, h4, h5⟩ := h2 x hx
      exact ⟨h3, by simp [h4], h5⟩
    · have e : visit .bfs c t b = { q := t.q ++ [(b, c)], seen := b :: t.seen } := by simp [visit, hb, push]
      rw [e] at h2 ⊢
      refine ⟨(b, c) :: new, by simp, fun x hx => ?_⟩
      rcases List.mem_cons.1 hx with rfl | hx
      · exact ⟨rfl, by simp, hb⟩
      · obtain ⟨h3, h4, h5⟩ := h2 x hx
        simp only [List.mem_cons, not_or] at h5
        exact ⟨h3, by simp [h4], h5.2⟩

/-- the entry `(c, p)` belongs to level `m` -/
def Lvl (out : α → List α) (start : α) (D : List α) (m : Nat) (x : α × α) : Prop :=
  Shortest out m start x.1 ∧ ((m = 1 ∧ x.2 = start) ∨ (2 ≤ m ∧ x.2 ∈ D ∧ Shortest out (m - 1) start x.2))

/-- invariant of breadth first search: the queue is level `k` followed by level `k + 1` -/
structure LInv (out : α → List α) (start : α) (D : List α) (t : TState α) (k : Nat) (A B : List (α × α)) : Prop where
  hk : 1 ≤ k
  hq : t.q = A ++ B
  hA : ∀ x ∈ A, Lvl out start D k x
  hB : ∀ x ∈ B, Lvl out start D (k + 1) x
  hD : ∀ d ∈ D, ∃ m, m ≤ k ∧ Shortest out m start d
  i2 : ∀ x n, 1 ≤ n → n ≤ k → Walk out n start x → x ∈ t.seen
  i3 : ∀ x, Walk out (k + 1) start x → x ∈ t.seen ∨ ∃ y ∈ A, x ∈ out y.1

theorem Shortest.eq {out : α → List α} {n m : Nat} {a b : α} (h1 : Shortest out n a b) (h2 : Shortest out m a b) :
    n = m := Nat.le_antisymm (h1.2.2 m h2.1 h2.2.1) (h2.2.2 n h1.1 h1.2.1)

/-- an empty level: go on with the next one -/
theorem LInv.shift {out : α → List α} {start : α} {U D : List α} {t : TState α} {k : Nat} {B : List (α × α)}
    (hi : Inv out start U D t) (h : LInv out start D t k [] B) : LInv out start D t (k + 1) B [] := by
  have i2 : ∀ x n, 1 ≤ n → n ≤ k + 1 → Walk out n start x → x ∈ t.seen := by
    intro x n h1 h2 hw
    by_cases hn : n = k + 1
    · subst hn
      rcases h.i3 x hw with h3 | ⟨y, hy, _⟩
      · exact h3
      · cases hy
    · exact h.i2 x n h1 (by omega) hw
  refine ⟨by have := h.hk; omega, by simpa using h.hq, h.hB, by simp, ?_, i2, ?_⟩
  · intro d hd
    obtain ⟨m, h1, h2⟩ := h.hD d hd
    exact ⟨m, by omega, h2⟩
  · intro x hw
    obtain ⟨y, hy, hx⟩ := Walk.succ_iff.1 hw
    have hys := i2 y (k + 1) (by omega) (Nat.le_refl _) hy
    rcases (hi.seen y).1 hys with hyD | hyq
    · exact Or.inl (hi.closed y (Or.inr hyD) x hx)
    · obtain ⟨z, hz, rfl⟩ := List.mem_map.1 hyq
      rw [h.hq] at hz
      exact Or.inr ⟨z, by simpa using hz, hx⟩

theorem LInv.step {out : α → List α} {start : α} {U D : List α} {c p : α} {A B : List (α × α)} {q : List (α × α)}
    {seen : List α} {k : Nat} (hi : Inv out start U D { q := (c, p) :: q, seen := seen })
    (h : LInv out start D { q := (c, p) :: q, seen := seen } k ((c, p) :: A) B) :
    (∃ B', LInv out start (D ++ [c]) (visitAll .bfs c (out c) { q := q, seen := seen }) k A B') ∧
    Lvl out start D k (c, p) ∧ ∀ x n, 1 ≤ n → n < k → Walk out n start x → x ∈ D := by
  have hc := h.hA (c, p) (by simp)
  obtain ⟨new, hq, hnew⟩ := visitAll_bfs c (out c) { q := q, seen := seen }
  have ms := visitAll_seen .bfs c (out c) { q := q, seen := seen }
  have hqAB : q = A ++ B := by have := h.hq; simpa using this
  have mono : ∀ m x, Lvl out start D m x → Lvl out start (D ++ [c]) m x := by
    rintro m x ⟨h1, h2⟩
    refine ⟨h1, ?_⟩
    rcases h2 with h2 | ⟨h2, h3, h4⟩
    · exact Or.inl h2
    · exact Or.inr ⟨h2, by simp [h3], h4⟩
  refine ⟨⟨B ++ new, ?_⟩, hc, ?_⟩
  · refine ⟨h.hk, ?_, ?_, ?_, ?_, ?_, ?_⟩
    · rw [hq, hqAB]; simp
    · intro x hx; exact mono _ _ (h.hA x (by simp [hx]))
    · intro x hx
      rcases List.mem_append.1 hx with hx | hx
      · exact mono _ _ (h.hB x hx)
      · obtain ⟨h1, h2, h3⟩ := hnew x hx
        have hw : Walk out (k + 1) start x.1 := .snoc hc.1.2.1 h2
        refine ⟨⟨by omega, hw, ?_⟩, ?_⟩
        · intro m hm1 hm
          apply Classical.byContradiction
          intro hlt
          exact h3 (h.i2 x.1 m hm1 (by omega) hm)
        · right
          refine ⟨by have := h.hk; omega, by rw [h1]; simp, ?_⟩
          rw [h1]
          have := hc.1
          simpa using this
    · intro d hd
      rcases List.mem_append.1 hd with hd | hd
      · exact h.hD d hd
      · simp only [List.mem_singleton] at hd
        subst hd
        exact ⟨k, Nat.le_refl _, hc.1⟩
    · intro x n h1 h2 hw
      rw [ms]
      exact Or.inr (h.i2 x n h1 h2 hw)
    · intro x hw
      rw [ms]
      rcases h.i3 x hw with h1 | ⟨y, hy, hx⟩
      · exact Or.inl (Or.inr h1)
      · rcases List.mem_cons.1 hy with rfl | hy
        · exact Or.inl (Or.inl hx)
        · exact Or.inr ⟨y, hy, hx⟩
  · intro x n h1 h2 hw
    rcases (hi.seen x).1 (h.i2 x n h1 (by omega) hw) with hx | hx
    · exact hx
    · exfalso
      obtain ⟨y, hy, rfl⟩ := List.mem_map.1 hx
      rw [h.hq] at hy
      rcases List.mem_append.1 hy with hy | hy
      · have := (h.hA y hy).1.2.2 n h1 hw; omega
      · have := (h.hB y hy).1.2.2 n h1 hw; omega

/-- what breadth first search guarantees about the position of an entry in the pop order -/
def LevelAt (out : α → List α) (start : α) (before : List α) (c p : α) : Prop :=
  ∃ k, Lvl out start before k (c, p) ∧ ∀ x n, 1 ≤ n → n < k → Walk out n start x → x ∈ before

theorem bfs_pops_levels {out : α → List α} {start : α} {U : List α} (hU : ∀ x ∈ U, ∀ y ∈ out x, y ∈ U)
    (fuel : Nat) (D : List α) (t : TState α) (hi : Inv out start U D t) (k : Nat) (A B : List (α × α))
    (h : LInv out start D t k A B) (L : List (α × α)) (hL : pops .bfs out fuel t = some L) :
    ∀ L1 c p L2, L = L1 ++ (c, p) :: L2 → LevelAt out start (D ++ L1.map Prod.fst) c p := by
  induction fuel generalizing D t k A B L with
  | zero => cases hL
  | succ fuel ih =>
    obtain ⟨q, seen⟩ := t
    cases q with
    | nil =>
      simp only [pops, Option.some.injEq] at hL
      subst hL
      intro L1 c p L2 h; simp at h
    | cons cp q =>
      obtain ⟨c, p⟩ := cp
      obtain ⟨k, A, B, h⟩ : ∃ k A B, LInv out start D { q := (c, p) :: q, seen := seen } k ((c, p) :: A) B := by
        cases A with
        | nil =>
          have h' := h.shift hi
          have hB : B = (c, p) :: q := by have := h.hq; simpa using this.symm
          rw [hB] at h'
          exact ⟨k + 1, q, [], h'⟩
        | cons a A =>
          have : (c, p) = a := by have := h.hq; simp at this; exact this.1
          subst this
          exact ⟨k, A, B, h⟩
      obtain ⟨⟨B', h1⟩, h2, h3⟩ := h.step hi
      simp only [pops, Option.map_eq_some_iff] at hL
      obtain ⟨L', hL', rfl⟩ := hL
      have hrec := ih (D ++ [c]) _ (hi.step (k := .bfs) hU) k A B' h1 L' hL'
      intro L1 c' p' L2 hsplit
      cases L1 with
      | nil =>
        simp only [List.nil_append, List.cons.injEq, Prod.mk.injEq] at hsplit
        obtain ⟨⟨rfl, rfl⟩, _⟩ := hsplit
        simp only [List.map_nil, List.append_nil]
        exact ⟨k, h2, h3⟩
      | cons x L1 =>
        simp only [List.cons_append, List.cons.injEq] at hsplit
        obtain ⟨rfl, hsplit⟩ := hsplit
        have := hrec L1 c' p' L2 hsplit
        simpa using this

theorem bfs_pops_init {out : α → List α} {start : α} {U : List α} (hU : FiniteFrom out start U)
    (fuel : Nat) (L : List (α × α))
    (hL : pops .bfs out fuel { q := [(start, start)], seen := [] } = some ((start, start) :: L)) :
    ∀ L1 c p L2, L = L1 ++ (c, p) :: L2 → LevelAt out start (L1.map Prod.fst) c p := by
  cases fuel with
  | zero => cases hL
  | succ fuel =>
    simp only [pops, Option.map_eq_some_iff] at hL
    obtain ⟨L', hL', he⟩ := hL
    simp only [List.cons.injEq, true_and] at he
    subst he
    have hi := Inv.init .bfs hU
    have mq := visitAll_q .bfs start (out start) (t := { q := [], seen := [] })
    have ms := visitAll_seen .bfs start (out start) (t := { q := [], seen := [] })
    simp only [List.not_mem_nil, not_false_eq_true, and_true, false_or, or_false] at mq ms
    have hl : LInv out start [] (visitAll .bfs start (out start) { q := [], seen := [] }) 1
        (visitAll .bfs start (out start) { q := [], seen := [] }).q [] := by
      refine ⟨Nat.le_refl _, by simp, ?_, by simp, by simp, ?_, ?_⟩
      · intro x hx
        obtain ⟨h1, h2⟩ := (mq x).1 hx
        exact ⟨⟨Nat.le_refl _, .snoc (.nil _) h2, fun m hm _ => hm⟩, Or.inl ⟨rfl, h1⟩⟩
      · intro x n h1 h2 hw
        have : n = 1 := by omega
        subst this
        obtain ⟨y, hy, hx⟩ := Walk.succ_iff.1 hw
        rw [Walk.zero_iff] at hy; subst hy
        exact (ms x).2 hx
      · intro x hw
        obtain ⟨y, hy, hx⟩ := Walk.succ_iff.1 hw
        obtain ⟨z, hz, hy⟩ := Walk.succ_iff.1 hy
        rw [Walk.zero_iff] at hz; subst hz
        exact Or.inr ⟨(y, start), (mq _).2 ⟨rfl, hy⟩, hx⟩
    have := bfs_pops_levels hU.2 fuel [] _ hi 1 _ _ hl L' hL'
    simpa using this

/-! ### the events -/

theorem pops_mono (k : Kind) (out : α → List α) (fuel : Nat) (t : TState α) (L : List (α × α))
    (h : pops k out fuel t = some L) (fuel' : Nat) (hle : fuel ≤ fuel') : pops k out fuel' t = some L := by
  induction fuel generalizing t L fuel' with
  | zero => cases h
  | succ fuel ih =>
    obtain ⟨f, rfl⟩ : ∃ f, fuel' = f + 1 := ⟨fuel' - 1, by omega⟩
    simp only [pops] at h ⊢
    split at h
    · exact h
    · rename_i c p q hq
      rw [Option.map_eq_some_iff] at h ⊢
      obtain ⟨L', h1, h2⟩ := h
      exact ⟨L', ih _ _ h1 f (by omega), h2⟩

theorem nodesOf_append (es fs : List (Ev α)) : nodesOf (es ++ fs) = nodesOf es ++ nodesOf fs := by
  simp [nodesOf]

theorem nodesOf_edges (c : α) (bs : List α) : nodesOf (bs.map (Ev.edge c)) = [] := by
  induction bs with
  | nil => rfl
  | cons b bs ih => simp only [List.map_cons, nodesOf, List.filterMap_cons] at ih ⊢; exact ih

theorem nodesOf_evs (start : α) (out : α → List α) (L : List (α × α)) :
    nodesOf (L.flatMap (evs start out)) = (L.map Prod.fst).filter (· ≠ start) := by
  induction L with
  | nil => rfl
  | cons x L ih =>
    rw [List.flatMap_cons, nodesOf_append, ih, evs, nodesOf_append, nodesOf_edges]
    by_cases h : x.1 = start <;> simp [h, nodesOf]

theorem mem_evs_node (start : α) (out : α → List α) (L : List (α × α)) (c p : α) :
    Ev.node c p ∈ L.flatMap (evs start out) ↔ (c, p) ∈ L ∧ c ≠ start := by
  simp only [List.mem_flatMap, evs, List.mem_append, List.mem_map]
  constructor
  · rintro ⟨x, hx, h | ⟨b, _, h⟩⟩
    · split at h
      · rename_i hc
        simp only [List.mem_singleton, Ev.node.injEq] at h
        obtain ⟨rfl, rfl⟩ := h
        exact ⟨hx, hc⟩
      · cases h
    · cases h
  · rintro ⟨h1, h2⟩
    exact ⟨_, h1, Or.inl (by simp [h2])⟩

theorem count_edge_map (a b : α) (c : α) (bs : List α) :
    (bs.map (Ev.edge c)).count (Ev.edge a b) = if c = a then bs.count b else 0 := by
  induction bs with
  | nil => simp
  | cons x bs ih =>
    rw [List.map_cons, List.count_cons, ih, List.count_cons]
    by_cases h : c = a
    · subst h
      by_cases hx : x = b
      · subst hx; simp
      · have : (Ev.edge c x == Ev.edge c b) = false := by
          rw [beq_eq_false_iff_ne]; intro h; cases h; exact hx rfl
        simp [this, hx]
    · have : (Ev.edge c x == Ev.edge a b) = false := by
        rw [beq_eq_false_iff_ne]; intro h'; cases h'; exact h rfl
      simp [this, h]

theorem count_evs_edge (start : α) (out : α → List α) (L : List (α × α)) (a b : α) :
    (L.flatMap (evs start out)).count (Ev.edge a b) = (L.map Prod.fst).count a * (out a).count b := by
  induction L with
  | nil => simp
  | cons x L ih =>
    rw [List.flatMap_cons, List.count_append, ih, List.map_cons, List.count_cons, evs, List.count_append, count_edge_map]
    have : List.count (Ev.edge a b) (if x.1 ≠ start then [Ev.node x.1 x.2] else []) = 0 := by
      apply List.count_eq_zero_of_not_mem
      split <;> simp
    rw [this]
    by_cases h : x.1 = a
    · subst h; simp [Nat.add_mul, Nat.add_comm]
    · simp [h]

/-- Everything the callbacks see: the events of the popped elements. -/
theorem traverse_events (k : Kind) {out : α → List α} {start : α} {U : List α} (hU : FiniteFrom out start U) :
    ∃ L : List (α × α),
      (L.map Prod.fst).Nodup ∧ (∀ x, x ∈ L.map Prod.fst ↔ ReachPlus out start x) ∧
      (∀ L1 c p L2, L = L1 ++ (c, p) :: L2 → c ∈ out p ∧ (p = start ∨ p ∈ L1.map Prod.fst)) ∧
      (k = .bfs → ∀ L1 c p L2, L = L1 ++ (c, p) :: L2 → LevelAt out start (L1.map Prod.fst) c p) ∧
      (∀ (σ : Type) (fuel : Nat) (_ : U.length + 2 ≤ fuel) (wn we : σ → α → α → σ × Bool) (s : σ),
        traverse k fuel start out wn we s = some (runEvents wn we (((start, start) :: L).flatMap (evs start out)) s)) := by
  obtain ⟨L, h1, h2, h3, h4⟩ := pops_init k hU (U.length + 2) (Nat.le_refl _)
  refine ⟨L, h2, h3, h4, ?_, ?_⟩
  · rintro rfl
    exact bfs_pops_init hU _ L h1
  · intro σ fuel hf wn we s
    exact loop_eq k start out wn we fuel _ s _ (pops_mono _ _ _ _ _ h1 _ hf)

end Trav
end Soro
