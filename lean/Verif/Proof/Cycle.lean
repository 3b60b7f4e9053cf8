import Verif.Proof.OrderingAlgo

/-! Proofs about `get_cycle.cc`. -/

namespace Soro

variable {α : Type}

theorem Follows.walk {out : α → List α} {a : α} {l : List α} (h : Follows out a l) {b : α} (hb : (a :: l).getLast? = some b) :
    Walk out l.length a b := by
  induction l generalizing a with
  | nil => simp only [List.getLast?_singleton, Option.some.injEq] at hb; subst hb; exact .nil _
  | cons c l ih =>
    have := ih h.2 (by rwa [List.getLast?_cons_cons] at hb)
    exact Walk.cons h.1 this

theorem Follows.append {out : α → List α} {a b : α} {l m : List α} (h : Follows out a l)
    (hb : (a :: l).getLast? = some b) (hm : Follows out b m) : Follows out a (l ++ m) := by
  induction l generalizing a with
  | nil => simp only [List.getLast?_singleton, Option.some.injEq] at hb; subst hb; exact hm
  | cons c l ih => exact ⟨h.1, ih h.2 (by rwa [List.getLast?_cons_cons] at hb)⟩

theorem Walk.follows {out : α → List α} {n : Nat} {a b : α} (h : Walk out n a b) :
    ∃ l, Follows out a l ∧ l.length = n ∧ (a :: l).getLast? = some b := by
  induction h with
  | nil a => exact ⟨[], trivial, rfl, rfl⟩
  | @snoc n a b c _ hc ih =>
    obtain ⟨l, h1, h2, h3⟩ := ih
    refine ⟨l ++ [c], h1.append h3 ⟨hc, trivial⟩, by simp [h2], ?_⟩
    rw [← List.cons_append, List.getLast?_append]; rfl

theorem ClosedWalk.walk {out : α → List α} {s : α} {c : List α} (h : ClosedWalk out s c) :
    1 ≤ c.length ∧ Walk out c.length s s := by
  obtain ⟨h1, h2⟩ := h
  cases c with
  | nil => cases h2
  | cons x l =>
    exact ⟨by simp, h1.walk (by rw [List.getLast?_cons_cons]; exact h2)⟩

theorem closedWalk_iff {out : α → List α} {s : α} : (∃ c, ClosedWalk out s c) ↔ ReachPlus out s s := by
  constructor
  · rintro ⟨c, h⟩
    obtain ⟨h1, h2⟩ := h.walk
    exact ⟨c.length - 1, by rwa [Nat.sub_add_cancel h1]⟩
  · rintro ⟨n, h⟩
    obtain ⟨l, h1, h2, h3⟩ := h.follows
    cases l with
    | nil => cases h2
    | cons x l => exact ⟨_, h1, by rwa [List.getLast?_cons_cons] at h3⟩

namespace OGraph
open Trav

theorem run_edges_skip (s c : Nat) (bs : List Nat) (hs : s ∉ bs) (rest : List (Ev Nat)) (st : CycState) :
    runEvents cycNode (cycEdge s) (bs.map (Ev.edge c) ++ rest) st = runEvents cycNode (cycEdge s) rest st := by
  induction bs with
  | nil => rfl
  | cons b bs ih =>
    simp only [List.mem_cons, not_or] at hs
    have hb : ¬ b = s := fun h => hs.1 h.symm
    simp only [List.map_cons, List.cons_append, runEvents, cycEdge, hb, if_false]
    exact ih hs.2

theorem run_edges_hit (s c : Nat) (bs : List Nat) (hs : s ∈ bs) (rest : List (Ev Nat)) (st : CycState) :
    runEvents cycNode (cycEdge s) (bs.map (Ev.edge c) ++ rest) st = { st with prev := upd st.prev s (some c) } := by
  induction bs with
  | nil => cases hs
  | cons b bs ih =>
    by_cases hb : b = s
    · subst hb; simp [List.map_cons, runEvents, cycEdge]
    · have : s ∈ bs := by
        rcases List.mem_cons.1 hs with h | h
        · exact absurd h.symm hb
        · exact h
      simp only [List.map_cons, List.cons_append, runEvents, cycEdge, hb, if_false]
      exact ih this

/-- running through pops without an edge to the start -/
theorem run_pops (s : Nat) (out : Nat → List Nat) (Q : List (Nat × Nat)) (hnd : (Q.map Prod.fst).Nodup)
    (hne : ∀ x ∈ Q, x.1 ≠ s ∧ s ∉ out x.1) (st : CycState) (hst : ∀ x ∈ Q, st.depth x.1 = none)
    (rest : List (Ev Nat)) :
    ∃ st', runEvents cycNode (cycEdge s) (Q.flatMap (evs s out) ++ rest) st = runEvents cycNode (cycEdge s) rest st' ∧
      (∀ x ∈ Q, st'.prev x.1 = some x.2) ∧ (∀ y, y ∉ Q.map Prod.fst → st'.prev y = st.prev y ∧ st'.depth y = st.depth y) := by
  induction Q generalizing st with
  | nil => exact ⟨st, rfl, by simp, fun _ _ => ⟨rfl, rfl⟩⟩
  | cons x Q ih =>
    obtain ⟨c, p⟩ := x
    obtain ⟨h1, h2⟩ := hne (c, p) (by simp)
    dsimp only at h1 h2
    simp only [List.map_cons, List.nodup_cons] at hnd
    have hd := hst (c, p) (by simp)
    dsimp only at hd
    have hstep : runEvents cycNode (cycEdge s) ((((c, p) :: Q).flatMap (evs s out)) ++ rest) st =
        runEvents cycNode (cycEdge s) (Q.flatMap (evs s out) ++ rest)
          { depth := upd st.depth c (some ((st.depth p).getD 0 + 1)), prev := upd st.prev c (some p) } := by
      rw [List.flatMap_cons, evs]
      dsimp only
      rw [if_pos h1]
      simp only [List.singleton_append, List.cons_append, List.append_assoc, runEvents, cycNode, hd, if_true,
        Bool.false_eq_true, if_false]
      exact run_edges_skip s c (out c) h2 _ _
    obtain ⟨st', h3, h4, h5⟩ := ih hnd.2 (fun x hx => hne x (by simp [hx]))
      { depth := upd st.depth c (some ((st.depth p).getD 0 + 1)), prev := upd st.prev c (some p) } (by
        intro x hx
        have hxc : x.1 ≠ c := by
          rintro h; exact hnd.1 (List.mem_map.2 ⟨x, hx, h⟩)
        simp only [upd, hxc, if_false]
        exact hst x (by simp [hx]))
    refine ⟨st', by rw [hstep, h3], ?_, ?_⟩
    · intro x hx
      rcases List.mem_cons.1 hx with rfl | hx
      · rw [(h5 c hnd.1).1]; simp [upd]
      · exact h4 x hx
    · intro y hy
      simp only [List.map_cons, List.mem_cons, not_or] at hy
      obtain ⟨h6, h7⟩ := h5 y hy.2
      rw [h6, h7]
      simp [upd, hy.1]

/-- following the parents in a list of pops back to the start -/
theorem back_spec {out : Nat → List Nat} {s : Nat} (prev : Nat → Option Nat) (Q : List (Nat × Nat))
    (hprev : ∀ x ∈ Q, prev x.1 = some x.2) (hs : ∀ x ∈ Q, x.1 ≠ s)
    (hpar : ∀ L1 c p L2, Q = L1 ++ (c, p) :: L2 → c ∈ out p ∧ (p = s ∨ p ∈ L1.map Prod.fst))
    (hlev : ∀ L1 c p L2, Q = L1 ++ (c, p) :: L2 → LevelAt out s (L1.map Prod.fst) c p) :
    ∀ L1 c p L2, Q = L1 ++ (c, p) :: L2 → ∀ fuel, L1.length + 2 ≤ fuel →
      ∃ l, back prev s fuel c = some l ∧ Shortest out l.length s c ∧ Follows out s l.reverse ∧
        (s :: l.reverse).getLast? = some c := by
  intro L1
  induction hn : L1.length using Nat.strongRecOn generalizing L1 with
  | ind n ih =>
    intro c p L2 hQ fuel hf
    have hmem : (c, p) ∈ Q := by rw [hQ]; simp
    obtain ⟨f, rfl⟩ : ∃ f, fuel = f + 1 := ⟨fuel - 1, by omega⟩
    obtain ⟨hcp, hp⟩ := hpar L1 c p L2 hQ
    obtain ⟨k, ⟨hsh, hk⟩, hbefore⟩ := hlev L1 c p L2 hQ
    dsimp only at hsh hk
    have hcs := hs _ hmem
    dsimp only at hcs
    have hpv := hprev _ hmem
    dsimp only at hpv
    rw [back, if_neg hcs]
    simp only [hpv]
    by_cases hps : p = s
    · subst hps
      obtain ⟨f', rfl⟩ : ∃ f', f = f' + 1 := ⟨f - 1, by omega⟩
      refine ⟨[c], by simp [back], ?_, ⟨hcp, trivial⟩, rfl⟩
      refine ⟨by simp, .snoc (.nil _) hcp, fun m hm _ => by simpa using hm⟩
    · rcases hp with hp | hp
      · exact absurd hp hps
      · obtain ⟨⟨p', q⟩, hm1, heq⟩ := List.mem_map.1 hp
        dsimp only at heq
        subst heq
        obtain ⟨A, B, hAB⟩ := List.append_of_mem hm1
        have hlen : A.length < n := by rw [← hn, hAB]; simp
        obtain ⟨l, h1, h2, h3, h4⟩ := ih A.length hlen A rfl p' q (B ++ (c, p') :: L2) (by
          rw [hQ, hAB]; simp) f (by omega)
        refine ⟨c :: l, by rw [h1]; rfl, ?_, ?_, ?_⟩
        · have hk' : k - 1 = l.length ∧ 2 ≤ k := by
            rcases hk with ⟨_, h⟩ | ⟨h, _, h'⟩
            · exact absurd h hps
            · exact ⟨Shortest.eq h' h2, h⟩
          rw [List.length_cons, show l.length + 1 = k by omega]
          exact hsh
        · rw [List.reverse_cons]
          exact h3.append h4 ⟨hcp, trivial⟩
        · rw [List.reverse_cons, ← List.cons_append, List.getLast?_append]; rfl

theorem nodup_length_le (l : List Nat) (n : Nat) (h : l.Nodup) (hl : ∀ x ∈ l, x < n) : l.length ≤ n := by
  induction n generalizing l with
  | zero =>
    cases l with
    | nil => simp
    | cons x l => have := hl x (by simp); omega
  | succ n ih =>
    have h1 := ih (l.filter (fun x => x != n)) (h.filter _) (by
      intro x hx
      simp only [List.mem_filter, bne_iff_ne] at hx
      have := hl x hx.1; omega)
    have h2 := List.length_eq_countP_add_countP (fun x => x == n) (l := l)
    have h3 : l.countP (fun x => x == n) ≤ 1 := by
      have := h.count (a := n)
      rw [List.count_eq_countP] at this
      rw [this]; split <;> omega
    have h4 : (l.filter (fun x => x != n)).length = l.countP (fun x => decide ¬(x == n) = true) := by
      rw [← List.countP_eq_length_filter]
      apply List.countP_congr
      intro x _; simp
    omega

/-- all pops with no edge to the start, or the first with one -/
theorem split_first (P : List (Nat × Nat)) (q : Nat × Nat → Prop) [DecidablePred q] :
    (∀ x ∈ P, ¬ q x) ∨ ∃ P1 x P2, P = P1 ++ x :: P2 ∧ q x ∧ ∀ y ∈ P1, ¬ q y := by
  induction P with
  | nil => exact Or.inl (by simp)
  | cons x P ih =>
    by_cases hx : q x
    · exact Or.inr ⟨[], x, P, rfl, hx, by simp⟩
    · rcases ih with ih | ⟨P1, y, P2, h1, h2, h3⟩
      · left
        intro y hy
        rcases List.mem_cons.1 hy with rfl | hy
        · exact hx
        · exact ih y hy
      · refine Or.inr ⟨x :: P1, y, P2, by rw [h1]; rfl, h2, fun z hz => ?_⟩
        rcases List.mem_cons.1 hz with rfl | hz
        · exact hx
        · exact h3 z hz

theorem shortestCycleFrom_spec {g : OGraph} (hv : g.Valid) {s : Nat} (hs : s < g.length) :
    ∃ r, shortestCycleFrom g s = some r ∧ (r = none → ¬ ReachPlus g.out s s) ∧
      ∀ c, r = some c → ClosedWalk g.out s c ∧ ∀ d, ClosedWalk g.out s d → c.length ≤ d.length := by
  obtain ⟨L, h1, h2, h3, h4, h5⟩ := traverse_graph hv .bfs hs
  have h4 := h4 rfl
  have hLlen : L.length ≤ g.length := by
    have := nodup_length_le (L.map Prod.fst) g.length h1 (by
      intro x hx
      have hfin := hv.finite hs
      have := ((h2 x).1 hx).closed (fun y => y < g.length)
        (fun y hy => List.mem_range.1 (hfin.2 s hfin.1 y hy))
        (fun y hy z hz => List.mem_range.1 (hfin.2 y (List.mem_range.2 hy) z hz))
      exact this)
    simpa using this
  -- the pops before an edge to the start is seen do not contain the start
  have hnos : ∀ L1 c p L2, L = L1 ++ (c, p) :: L2 → s ∉ g.out s → (∀ x ∈ L1, s ∉ g.out x.1) → c ≠ s := by
    rintro L1 c p L2 hL hss hL1 rfl
    obtain ⟨h6, h7⟩ := h3 L1 c p L2 hL
    rcases h7 with h7 | h7
    · rw [h7] at h6; exact hss h6
    · obtain ⟨x, hx, rfl⟩ := List.mem_map.1 h7
      exact hL1 x hx h6
  unfold shortestCycleFrom
  rw [h5]
  simp only [List.flatMap_cons]
  have hevs0 : evs s g.out (s, s) = (g.out s).map (Ev.edge s) := by simp [evs]
  rw [hevs0]
  by_cases hss : s ∈ g.out s
  · -- an edge from the start to itself
    rw [run_edges_hit s s _ hss]
    have : upd (fun _ => none) s (some s) s = some s := by simp [upd]
    simp only [this]
    refine ⟨some [s], by simp [back], by simp, ?_⟩
    intro c hc
    simp only [Option.some.injEq] at hc
    subst hc
    exact ⟨⟨⟨hss, trivial⟩, rfl⟩, fun d hd => hd.walk.1⟩
  · rw [run_edges_skip s s _ hss]
    rcases split_first L (fun x => s ∈ g.out x.1) with hno | ⟨P1, ⟨c, p⟩, P2, hL, hc, hP1⟩
    · -- no edge to the start at all
      have hne : ∀ x ∈ L, x.1 ≠ s := by
        intro x hx
        obtain ⟨L1, L2, hsp⟩ := List.append_of_mem hx
        exact hnos L1 x.1 x.2 L2 hsp hss (fun y hy => hno y (by rw [hsp]; simp [hy]))
      obtain ⟨st', h6, _, h8⟩ := run_pops s g.out L h1 (fun x hx => ⟨hne x hx, hno x hx⟩)
        { depth := upd (fun _ => none) s (some 0), prev := fun _ => none } (fun x hx => by simp [upd, hne x hx]) []
      rw [List.append_nil] at h6
      rw [h6]
      have hps : st'.prev s = none := by
        have := (h8 s (by
          intro h
          obtain ⟨x, hx, he⟩ := List.mem_map.1 h
          exact hne x hx he)).1
        exact this
      have : (runEvents cycNode (cycEdge s) [] st').prev s = none := hps
      simp only [this]
      refine ⟨none, rfl, fun _ => ?_, by simp⟩
      rintro ⟨n, hn⟩
      obtain ⟨y, hy, hys⟩ := Walk.succ_iff.1 hn
      cases n with
      | zero => rw [Walk.zero_iff] at hy; subst hy; exact hss hys
      | succ n =>
        obtain ⟨x, hx, rfl⟩ := List.mem_map.1 ((h2 y).2 ⟨n, hy⟩)
        exact hno x hx hys
    · dsimp only at hc
      have hQ : ∀ x ∈ P1 ++ [(c, p)], x.1 ≠ s := by
        intro x hx
        rcases List.mem_append.1 hx with hx | hx
        · obtain ⟨A, B, hsp⟩ := List.append_of_mem hx
          exact hnos A x.1 x.2 (B ++ (c, p) :: P2) (by rw [hL, hsp]; simp) hss (fun y hy => hP1 y (by rw [hsp]; simp [hy]))
        · rw [List.mem_singleton] at hx
          subst hx
          exact hnos P1 c p P2 hL hss hP1
      have hcs : c ≠ s := hQ (c, p) (by simp)
      have hnd1 : (P1.map Prod.fst).Nodup ∧ c ∉ P1.map Prod.fst := by
        rw [hL, List.map_append, List.nodup_append] at h1
        refine ⟨h1.1, fun h => ?_⟩
        exact h1.2.2 c h c (by simp) rfl
      -- run up to (c, p)
      rw [hL, List.flatMap_append, List.flatMap_cons]
      obtain ⟨st', h6, h7, h8⟩ := run_pops s g.out P1 hnd1.1 (fun x hx => ⟨hQ x (by simp [hx]), hP1 x hx⟩)
        { depth := upd (fun _ => none) s (some 0), prev := fun _ => none }
        (fun x hx => by simp [upd, hQ x (by simp [hx])]) (evs s g.out (c, p) ++ List.flatMap (evs s g.out) P2)
      rw [h6]
      obtain ⟨h8p, h8d⟩ := h8 c hnd1.2
      have hd : st'.depth c = none := by rw [h8d]; simp [upd, hcs]
      have hrun : runEvents cycNode (cycEdge s) (evs s g.out (c, p) ++ List.flatMap (evs s g.out) P2) st' =
          { depth := upd st'.depth c (some ((st'.depth p).getD 0 + 1)),
            prev := upd (upd st'.prev c (some p)) s (some c) } := by
        rw [evs]
        dsimp only
        rw [if_pos hcs]
        simp only [List.singleton_append, List.cons_append, runEvents, cycNode, hd, if_true, Bool.false_eq_true, if_false]
        exact run_edges_hit s c _ hc _ _
      rw [hrun]
      have hprevs : upd (upd st'.prev c (some p)) s (some c) s = some c := by simp [upd]
      simp only [hprevs]
      have hpar : ∀ L1 c' p' L2, P1 ++ [(c, p)] = L1 ++ (c', p') :: L2 → L = L1 ++ (c', p') :: (L2 ++ P2) := by
        intro L1 c' p' L2 h
        have : L = (P1 ++ [(c, p)]) ++ P2 := by rw [hL]; simp
        rw [this, h]; simp
      obtain ⟨l, hb, hsh, hfo, hla⟩ := back_spec (out := g.out) (s := s) (upd (upd st'.prev c (some p)) s (some c))
        (P1 ++ [(c, p)]) (by
          intro x hx
          have hxs := hQ x hx
          rcases List.mem_append.1 hx with hx | hx
          · have hxc : x.1 ≠ c := by
              rintro h; exact hnd1.2 (List.mem_map.2 ⟨x, hx, h⟩)
            simp only [upd, hxs, hxc, if_false]
            exact h7 x hx
          · rw [List.mem_singleton] at hx
            subst hx
            simp [upd, hcs]) hQ
        (fun L1 c' p' L2 h => h3 L1 c' p' _ (hpar L1 c' p' L2 h))
        (fun L1 c' p' L2 h => h4 L1 c' p' _ (hpar L1 c' p' L2 h)) P1 c p [] rfl (g.length + 3) (by
          have : P1.length ≤ L.length := by rw [hL]; simp
          omega)
      rw [hb]
      refine ⟨some (s :: l).reverse, rfl, by simp, ?_⟩
      intro d hd
      simp only [Option.some.injEq] at hd
      subst hd
      rw [List.reverse_cons]
      refine ⟨⟨hfo.append hla ⟨hc, trivial⟩, by rw [List.getLast?_append]; rfl⟩, ?_⟩
      intro d hd
      obtain ⟨hd1, hd2⟩ := hd.walk
      obtain ⟨m, hm⟩ : ∃ m, d.length = m + 1 := ⟨d.length - 1, by omega⟩
      rw [hm] at hd2
      obtain ⟨y, hy, hys⟩ := Walk.succ_iff.1 hd2
      simp only [List.length_append, List.length_reverse, List.length_singleton, hm]
      cases m with
      | zero => rw [Walk.zero_iff] at hy; subst hy; exact absurd hys hss
      | succ m =>
        obtain ⟨k, ⟨hsh', _⟩, hbef⟩ := h4 P1 c p P2 hL
        have hk : k = l.length := Shortest.eq hsh' hsh
        apply Classical.byContradiction
        intro hlt
        obtain ⟨x, hx, rfl⟩ := List.mem_map.1 (hbef y (m + 1) (by omega) (by omega) hy)
        exact hP1 x hx hys

theorem getCycles_spec {g : OGraph} (hv : g.Valid) (ns : List ONode) (hns : ∀ n ∈ ns, n ∈ g) :
    ∃ cs, getCycles g ns = some cs ∧
      (∀ c ∈ cs, ∃ n ∈ ns, ClosedWalk g.out n.id c) ∧
      ∀ n ∈ ns, ∀ d, ClosedWalk g.out n.id d → ∃ c ∈ cs, ClosedWalk g.out n.id c ∧ c.length ≤ d.length := by
  induction ns with
  | nil => exact ⟨[], rfl, by simp, by simp⟩
  | cons n ns ih =>
    obtain ⟨cs, h1, h2, h3⟩ := ih (fun m hm => hns m (by simp [hm]))
    obtain ⟨r, h4, h5, h6⟩ := shortestCycleFrom_spec hv (hv.id_lt (hns n (by simp))).1
    cases r with
    | none =>
      refine ⟨cs, by simp [getCycles, h4, h1], ?_, ?_⟩
      · intro c hc
        obtain ⟨m, hm, h⟩ := h2 c hc
        exact ⟨m, by simp [hm], h⟩
      · intro m hm d hd
        rcases List.mem_cons.1 hm with rfl | hm
        · exact absurd (closedWalk_iff.1 ⟨d, hd⟩) (h5 rfl)
        · exact h3 m hm d hd
    | some c0 =>
      obtain ⟨h7, h8⟩ := h6 c0 rfl
      refine ⟨c0 :: cs, by simp [getCycles, h4, h1], ?_, ?_⟩
      · intro c hc
        rcases List.mem_cons.1 hc with rfl | hc
        · exact ⟨n, by simp, h7⟩
        · obtain ⟨m, hm, h⟩ := h2 c hc
          exact ⟨m, by simp [hm], h⟩
      · intro m hm d hd
        rcases List.mem_cons.1 hm with rfl | hm
        · exact ⟨c0, by simp, h7, h8 d hd⟩
        · obtain ⟨c, hc, h9⟩ := h3 m hm d hd
          exact ⟨c, by simp [hc], h9⟩

theorem minBySize_spec (cs : List (List Nat)) :
    (minBySize cs = none ↔ cs = []) ∧ ∀ c, minBySize cs = some c → c ∈ cs ∧ ∀ d ∈ cs, c.length ≤ d.length := by
  induction cs with
  | nil => simp [minBySize]
  | cons x cs ih =>
    unfold minBySize
    cases hm : minBySize cs with
    | none =>
      have : cs = [] := ih.1.1 hm
      subst this
      simp
    | some d =>
      obtain ⟨h1, h2⟩ := ih.2 d hm
      dsimp only
      refine ⟨by split <;> simp, fun c hc => ?_⟩
      split at hc
      · cases hc
        refine ⟨by simp [h1], fun e he => ?_⟩
        rcases List.mem_cons.1 he with rfl | he
        · omega
        · exact h2 e he
      · cases hc
        refine ⟨by simp, fun e he => ?_⟩
        rcases List.mem_cons.1 he with rfl | he
        · omega
        · have := h2 e he; omega

end OGraph
end Soro
