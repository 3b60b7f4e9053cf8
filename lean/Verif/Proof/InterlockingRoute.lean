import Verif.Proof.StationRoute

namespace Soro.Route
open Spec

/-- the generator finishes and tells the given nodes and flags -/
def Tells (o : Option (List RNode)) (ps : List (Option (Nat × Bool))) : Prop := ∃ l, o = some l ∧ l.map told = ps

theorem Tells.app {a b : Option (List RNode)} {p q : List (Option (Nat × Bool))} (ha : Tells a p) (hb : Tells b q) :
    Tells (Route.app a b) (p ++ q) := by
  obtain ⟨l, rfl, rfl⟩ := ha
  obtain ⟨m, rfl, rfl⟩ := hb
  exact ⟨l ++ m, rfl, by simp⟩

/-- omitted indices of all station routes are increasing -/
def Sorted (infra : List SRoute) : Prop := ∀ r ∈ infra, r.omitted.Pairwise (· < ·)

/-- the number of nodes of station route `s` -/
def len (infra : List SRoute) (s : Nat) : Nat := ((infra[s]?).map (·.nodes.length)).getD 0

theorem len_of {infra : List SRoute} {s : Nat} {r : SRoute} (h : infra[s]? = some r) : len infra s = r.nodes.length := by
  simp [len, h]

theorem fromTo_Tells {infra : List SRoute} (hs : Sorted infra) {s : Nat} {r : SRoute} (hr : infra[s]? = some r) {a b : Nat}
    (hab : a ≤ b) (hb : b ≤ r.nodes.length) : Tells (r.fromTo a b) ((span s a b).map (shownAt infra)) := by
  obtain ⟨l, h1, h2⟩ := fromTo_told r (hs r (List.mem_of_getElem? hr)) a b hab hb
  refine ⟨l, h1, ?_⟩
  rw [h2, span, List.map_map]
  exact List.map_congr_left fun i _ => by simp [shownAt, hr]

theorem iterAll_Tells {infra : List SRoute} (hs : Sorted infra) (ss : List Nat) (hk : ∀ s ∈ ss, s < infra.length) :
    Tells (iterAll infra ss) ((ss.flatMap fun s => span s 0 (len infra s)).map (shownAt infra)) := by
  induction ss with
  | nil => exact ⟨[], rfl, rfl⟩
  | cons s ss ih =>
    have hr := List.getElem?_eq_getElem (hk s (by simp))
    rw [iterAll, List.flatMap_cons, List.map_append, hr]
    refine Tells.app ?_ (ih fun s hs => hk s (by simp [hs]))
    rw [len_of hr]
    exact fromTo_Tells hs hr (Nat.zero_le _) (Nat.le_refl _)

/-- positions from index `a` of `f` over all of `A` to index `b` of `l` -/
def seg (infra : List SRoute) (f a : Nat) (A : List Nat) (l b : Nat) : List (Nat × Nat) :=
  span f a (len infra f) ++ ((A.flatMap fun s => span s 0 (len infra s)) ++ span l 0 b)

theorem detail_Tells {infra : List SRoute} (hs : Sorted infra) (ir : IR) (P A Q : List Nat) (f l a b i j : Nat)
    (hsrs : ir.srs = P ++ f :: (A ++ l :: Q)) (hk : ∀ s ∈ ir.srs, s < infra.length)
    (hi : i = P.length) (hj : j = P.length + 1 + A.length)
    (ha : a ≤ len infra f) (hb : b ≤ len infra l) :
    Tells (ir.detailFromTo infra i a j b) ((seg infra f a A l b).map (shownAt infra)) := by
  have hf := List.getElem?_eq_getElem (hk f (by simp [hsrs]))
  have hl := List.getElem?_eq_getElem (hk l (by simp [hsrs]))
  rw [len_of hf] at ha
  rw [len_of hl] at hb
  have hgi : ir.srs[i]? = some f := by rw [hsrs, hi]; simp
  have hgj : ir.srs[j]? = some l := by
    rw [hsrs, hj, List.getElem?_append_right (by omega), show P.length + 1 + A.length - P.length = A.length + 1 by omega]
    simp
  have hmid : (ir.srs.take j).drop (i + 1) = A := by
    rw [hsrs, hj, hi, List.drop_take, show P.length + 1 + A.length - (P.length + 1) = A.length by omega,
      show P ++ f :: (A ++ l :: Q) = (P ++ [f]) ++ (A ++ l :: Q) by simp]
    rw [List.drop_append_of_le_length (by simp)]
    rw [List.drop_eq_nil_of_le (by simp)]
    simp
  unfold IR.detailFromTo
  rw [if_neg (by omega), hgi, hgj, hmid]
  simp only [Option.bind_some, hf, hl, seg, List.map_append]
  refine Tells.app ?_ (Tells.app (iterAll_Tells hs A fun s h => hk s (by simp [hsrs, h])) ?_)
  · rw [len_of hf]; exact fromTo_Tells hs hf ha (Nat.le_refl _)
  · exact fromTo_Tells hs hl (Nat.zero_le _) hb

theorem span_append (s : Nat) {a b c : Nat} (h1 : a ≤ b) (h2 : b ≤ c) : span s a b ++ span s b c = span s a c := by
  unfold span
  rw [← List.map_append]
  congr 1
  have h := List.range'_append (s := a) (m := b - a) (n := c - b) (step := 1)
  rw [show a + 1 * (b - a) = b by omega, show b - a + (c - b) = c - a by omega] at h
  exact h

theorem mem_span (s a b : Nat) (p : Nat × Nat) : p ∈ span s a b ↔ p.1 = s ∧ a ≤ p.2 ∧ p.2 < b := by
  obtain ⟨x, y⟩ := p
  simp only [span, List.mem_map, List.mem_range'_1, Prod.mk.injEq]
  constructor
  · rintro ⟨i, h, rfl, rfl⟩; exact ⟨rfl, by omega, by omega⟩
  · rintro ⟨rfl, h1, h2⟩; exact ⟨y, by omega, rfl, rfl⟩

theorem length_span (s a b : Nat) : (span s a b).length = b - a := by simp [span]

theorem positions_tail (infra : List SRoute) (start stop : Nat) (A : List Nat) (l k : Nat) (hk : 1 ≤ k) (n : Nat)
    (hn : n = k + A.length + 1) :
    ((A ++ [l]).zipIdx k).flatMap (fun x => span x.1 (if x.2 = 0 then start else 0)
        (if x.2 + 1 = n then stop else ((infra[x.1]?).map (·.nodes.length)).getD 0)) =
      (A.flatMap fun s => span s 0 (len infra s)) ++ span l 0 stop := by
  induction A generalizing k with
  | nil => simp at hn; subst hn; simp [show k ≠ 0 by omega]
  | cons s A ih =>
    simp only [List.length_cons] at hn
    rw [List.cons_append, List.zipIdx_cons, List.flatMap_cons, ih (k + 1) (by omega) (by omega)]
    simp only [show k ≠ 0 by omega, if_false, show k + 1 ≠ n by omega, List.flatMap_cons, List.append_assoc]
    rfl

theorem positions_single (infra : List SRoute) (ir : IR) (s : Nat) (h : ir.srs = [s]) :
    positions infra ir = span s ir.start ir.stop := by
  simp [positions, h]

theorem positions_multi (infra : List SRoute) (ir : IR) (f l : Nat) (A : List Nat) (h : ir.srs = f :: (A ++ [l])) :
    positions infra ir = seg infra f ir.start A l ir.stop := by
  unfold positions
  rw [h, List.zipIdx_cons, List.flatMap_cons]
  rw [show (f :: (A ++ [l])).length = (0 + 1) + A.length + 1 by simp; omega]
  rw [positions_tail infra ir.start ir.stop A l (0 + 1) (by omega) _ rfl]
  simp only [seg, if_true, len]
  rw [if_neg (by omega)]

theorem srs_cases (srs : List Nat) (h : srs ≠ []) : (∃ s, srs = [s]) ∨ ∃ f A l, srs = f :: (A ++ [l]) := by
  match srs with
  | [] => exact absurd rfl h
  | [s] => exact .inl ⟨s, rfl⟩
  | f :: x :: rest =>
    refine .inr ⟨f, (x :: rest).dropLast, (x :: rest).getLast (by simp), ?_⟩
    rw [List.dropLast_concat_getLast]

theorem two_cases (f : Nat) (A : List Nat) (l : Nat) : ∃ x rest, f :: (A ++ [l]) = f :: x :: rest := by
  cases A with
  | nil => exact ⟨l, [], rfl⟩
  | cons a A => exact ⟨a, A ++ [l], rfl⟩

theorem getLast_multi {srs : List Nat} {f l : Nat} {A : List Nat} (h : srs = f :: (A ++ [l])) : srs.getLast? = some l := by
  rw [h, show f :: (A ++ [l]) = (f :: A) ++ [l] by simp, List.getLast?_append]; rfl

theorem iterate_multi (ir : IR) (infra : List SRoute) (f l : Nat) (A : List Nat) (h : ir.srs = f :: (A ++ [l])) :
    ir.iterate infra = ir.detailFromTo infra 0 ir.start (A.length + 1) ir.stop := by
  unfold IR.iterate
  obtain ⟨x, rest, hx⟩ := two_cases f A l
  have hlen : (f :: x :: rest).length - 1 = A.length + 1 := by rw [← hx]; simp
  rw [h, hx]
  simp only [hlen]

theorem iterate_Tells {infra : List SRoute} (hs : Sorted infra) (ir : IR) (hv : Valid infra ir) :
    Tells (ir.iterate infra) ((positions infra ir).map (shownAt infra)) := by
  rcases srs_cases ir.srs hv.nonempty with ⟨s, h⟩ | ⟨f, A, l, h⟩
  · have hr := List.getElem?_eq_getElem (hv.known s (by simp [h]))
    rw [positions_single infra ir s h]
    unfold IR.iterate
    rw [h]
    simp only [hr, Option.bind_some]
    exact fromTo_Tells hs hr (hv.single (by simp [h])) (hv.stop s _ (by simp [h]) hr)
  · rw [positions_multi infra ir f l A h, iterate_multi ir infra f l A h]
    have hf := List.getElem?_eq_getElem (hv.known f (by simp [h]))
    have hl := List.getElem?_eq_getElem (hv.known l (by simp [h]))
    refine detail_Tells hs ir [] A [] f l _ _ _ _ (by simpa using h) hv.known (by simp) (by simp; omega) ?_ ?_
    · rw [len_of hf]; exact hv.start f _ (by simp [h]) hf
    · rw [len_of hl]; exact hv.stop l _ (getLast_multi h) hl

/-! ### size -/

theorem mapM_sizes {infra : List SRoute} (ss : List Nat) (hk : ∀ s ∈ ss, s < infra.length) :
    (ss.mapM fun s => infra[s]?.map SRoute.size) = some (ss.map (len infra)) := by
  induction ss with
  | nil => rfl
  | cons s ss ih =>
    have hr := List.getElem?_eq_getElem (hk s (by simp))
    rw [List.mapM_cons, ih fun x hx => hk x (by simp [hx])]
    simp [hr, len, SRoute.size]

theorem length_flat (infra : List SRoute) (A : List Nat) :
    (A.flatMap fun s => span s 0 (len infra s)).length = (A.map (len infra)).sum := by
  induction A with
  | nil => rfl
  | cons a A ih => simp [List.flatMap_cons, ih, length_span]

theorem size_eq {infra : List SRoute} (ir : IR) (hv : Valid infra ir) (h16 : (positions infra ir).length < 65536) :
    ir.size infra = some (positions infra ir).length := by
  rcases srs_cases ir.srs hv.nonempty with ⟨s, h⟩ | ⟨f, A, l, h⟩
  · rw [positions_single infra ir s h, length_span] at h16 ⊢
    have := hv.single (by simp [h])
    unfold IR.size
    rw [h]
    simp only [Option.some.injEq]
    omega
  · rw [positions_multi infra ir f l A h] at h16 ⊢
    have hf := List.getElem?_eq_getElem (hv.known f (by simp [h]))
    have hl := List.getElem?_eq_getElem (hv.known l (by simp [h]))
    have h1 : ir.start ≤ len infra f := by rw [len_of hf]; exact hv.start f _ (by simp [h]) hf
    have h2 : ir.stop ≤ len infra l := by rw [len_of hl]; exact hv.stop l _ (getLast_multi h) hl
    simp only [seg, List.length_append, length_span, length_flat] at h16 ⊢
    have hm := mapM_sizes (infra := infra) ir.srs hv.known
    unfold IR.size
    obtain ⟨x, rest, hx⟩ := two_cases f A l
    rw [h] at hm ⊢
    rw [hx] at hm ⊢
    simp only [hm, Option.bind_some]
    rw [← hx]
    simp only [List.map_cons, List.map_append, List.map_nil, List.sum_cons, List.sum_append, List.sum_nil]
    rw [show len infra f :: (List.map (len infra) A ++ [len infra l]) = (len infra f :: List.map (len infra) A) ++ [len infra l] by simp,
      List.getLast?_append]
    simp only [List.getLast?_singleton, Option.some_or, Option.map_some, Option.some.injEq]
    omega

/-! ### contains -/

theorem contains_iff {infra : List SRoute} (ir : IR) (hv : Valid infra ir) (sr idx : Nat) (r : SRoute)
    (hr : infra[sr]? = some r) (hidx : idx < r.nodes.length) :
    ∃ b, ir.contains sr idx = some b ∧ (b = true ↔ (sr, idx) ∈ positions infra ir) := by
  have hlen := len_of hr
  rcases srs_cases ir.srs hv.nonempty with ⟨s, h⟩ | ⟨f, A, l, h⟩
  · rw [positions_single infra ir s h, mem_span]
    unfold IR.contains
    rw [h]
    refine ⟨_, rfl, ?_⟩
    simp only [Bool.and_eq_true, decide_eq_true_eq, and_assoc]
    constructor <;> rintro ⟨rfl, h1⟩ <;> exact ⟨rfl, h1⟩
  · rw [positions_multi infra ir f l A h]
    unfold IR.contains
    obtain ⟨x, rest, hx⟩ := two_cases f A l
    have hx' : x :: rest = A ++ [l] := by injection hx with _ h2; exact h2.symm
    rw [h, hx]
    refine ⟨_, rfl, ?_⟩
    rw [hx']
    simp only [List.getLast?_append, List.getLast?_singleton, Option.some_or, Option.some.injEq, List.dropLast_concat,
      seg, List.mem_append, mem_span, List.mem_flatMap]
    have e3 : (∃ a ∈ A, sr = a ∧ 0 ≤ idx ∧ idx < len infra a) ↔ sr ∈ A := by
      constructor
      · rintro ⟨a, ha, rfl, _⟩; exact ha
      · intro ha; exact ⟨sr, ha, rfl, Nat.zero_le _, by omega⟩
    rw [e3]
    by_cases c1 : f = sr ∧ ir.start ≤ idx
    · simp only [c1.1, decide_true, Bool.true_and, decide_eq_true c1.2, if_true, true_iff]
      exact .inl ⟨trivial, c1.2, by omega⟩
    · have c1' : (decide (f = sr) && decide (ir.start ≤ idx)) = false := by
        rw [Bool.and_eq_false_iff]
        by_cases e : f = sr
        · exact .inr (decide_eq_false fun h => c1 ⟨e, h⟩)
        · exact .inl (decide_eq_false e)
      simp only [c1', Bool.false_eq_true, if_false]
      by_cases c2 : l = sr ∧ idx < ir.stop
      · simp only [c2.1, decide_true, Bool.true_and, decide_eq_true c2.2, if_true, true_iff]
        exact .inr (.inr ⟨trivial, Nat.zero_le _, c2.2⟩)
      · have c2' : (decide (l = sr) && decide (idx < ir.stop)) = false := by
          rw [Bool.and_eq_false_iff]
          by_cases e : l = sr
          · exact .inr (decide_eq_false fun h => c2 ⟨e, h⟩)
          · exact .inl (decide_eq_false e)
        simp only [c2', Bool.false_eq_true, if_false, List.any_eq_true, decide_eq_true_eq]
        constructor
        · rintro ⟨a, ha, rfl⟩; exact .inr (.inl ha)
        · rintro (⟨e, h1, _⟩ | h1 | ⟨e, _, h1⟩)
          · exact absurd ⟨e.symm, h1⟩ c1
          · exact ⟨sr, h1, rfl⟩
          · exact absurd ⟨e.symm, h1⟩ c2

/-! ### sub paths -/

theorem mapM_mid {infra : List SRoute} (ss : List Nat) (hk : ∀ s ∈ ss, s < infra.length) :
    (ss.mapM fun m => infra[m]?.map fun r => (⟨m, 0, r.size⟩ : SubPath)) = some (ss.map fun m => ⟨m, 0, len infra m⟩) := by
  induction ss with
  | nil => rfl
  | cons s ss ih =>
    have hr := List.getElem?_eq_getElem (hk s (by simp))
    rw [List.mapM_cons, ih fun x hx => hk x (by simp [hx])]
    simp [hr, len, SRoute.size]

theorem subPaths_spec {infra : List SRoute} (ir : IR) (hv : Valid infra ir) :
    ∃ sps, ir.subPaths infra = some sps ∧ positions infra ir = sps.flatMap fun p => span p.sr p.frm p.to := by
  rcases srs_cases ir.srs hv.nonempty with ⟨s, h⟩ | ⟨f, A, l, h⟩
  · have hk := hv.known s (by simp [h])
    rw [positions_single infra ir s h]
    unfold IR.subPaths
    rw [h]
    exact ⟨_, if_pos hk, by simp⟩
  · rw [positions_multi infra ir f l A h]
    have hf := List.getElem?_eq_getElem (hv.known f (by simp [h]))
    have hl := List.getElem?_eq_getElem (hv.known l (by simp [h]))
    unfold IR.subPaths
    obtain ⟨x, rest, hx⟩ := two_cases f A l
    have hx' : x :: rest = A ++ [l] := by injection hx with _ h2; exact h2.symm
    rw [h, hx]
    simp only [hf, Option.bind_some]
    rw [hx', List.dropLast_concat, mapM_mid A fun s hs => hv.known s (by simp [h, hs])]
    simp only [Option.bind_some, List.getLast?_append, List.getLast?_singleton, Option.some_or, hl, Option.map_some]
    refine ⟨_, rfl, ?_⟩
    simp [seg, List.flatMap_append, List.flatMap_map, len_of hf, SRoute.size]

/-! ### splitting -/

theorem findIdx_here (P Q : List Nat) (s : Nat) (h : s ∉ P) :
    (P ++ s :: Q).findIdx (fun x => decide (x = s)) = P.length := by
  induction P with
  | nil => simp [List.findIdx_cons]
  | cons p P ih =>
    have hp : p ≠ s := by rintro rfl; exact h (by simp)
    rw [List.cons_append, List.findIdx_cons, ih fun h' => h (by simp [h'])]
    simp [hp]

theorem fromTo_multi (ir : IR) (infra : List SRoute) (f l : Nat) (A : List Nat) (h : ir.srs = f :: (A ++ [l]))
    (fs a ts b : Nat) : ir.fromTo infra fs a ts b =
      match ir.srs[ir.srs.findIdx (fun x => decide (x = fs))]?, ir.srs[ir.srs.findIdx (fun x => decide (x = ts))]? with
      | some x, some y => if x = y then infra[x]?.bind fun r => r.fromTo a b
          else ir.detailFromTo infra (ir.srs.findIdx (fun x => decide (x = fs))) a (ir.srs.findIdx (fun x => decide (x = ts))) b
      | _, _ => none := by
  obtain ⟨x, rest, hx⟩ := two_cases f A l
  unfold IR.fromTo
  rw [h, hx]
  rfl

theorem fromTo_same (ir : IR) (infra : List SRoute) (f l : Nat) (A : List Nat) (h : ir.srs = f :: (A ++ [l]))
    (s a b : Nat) (hs : s ∈ ir.srs) : ir.fromTo infra s a s b = infra[s]?.bind fun r => r.fromTo a b := by
  rw [fromTo_multi ir infra f l A h]
  have h1 : ir.srs.findIdx (fun x => decide (x = s)) < ir.srs.length := by
    apply List.findIdx_lt_length_of_exists
    exact ⟨s, hs, by simp⟩
  have h2 := List.findIdx_getElem (p := fun x => decide (x = s)) (w := h1)
  simp only [decide_eq_true_eq] at h2
  rw [List.getElem?_eq_getElem h1, h2]
  simp

theorem fromTo_differ (ir : IR) (infra : List SRoute) (f l : Nat) (A : List Nat) (h : ir.srs = f :: (A ++ [l]))
    (P M Q : List Nat) (s t a b : Nat) (h' : ir.srs = P ++ s :: (M ++ t :: Q)) (hnd : ir.srs.Nodup) :
    ir.fromTo infra s a t b = ir.detailFromTo infra P.length a (P.length + 1 + M.length) b := by
  rw [fromTo_multi ir infra f l A h]
  rw [h'] at hnd
  have hsP : s ∉ P := by
    intro hm
    exact (List.nodup_append.1 hnd).2.2 s hm s (by simp) rfl
  have htP : t ∉ P ++ s :: M := by
    rw [show P ++ s :: (M ++ t :: Q) = (P ++ s :: M) ++ t :: Q by simp] at hnd
    intro hm
    exact (List.nodup_append.1 hnd).2.2 t hm t (by simp) rfl
  have hst : s ≠ t := by rintro rfl; exact htP (by simp)
  have e1 : ir.srs.findIdx (fun x => decide (x = s)) = P.length := by rw [h']; exact findIdx_here P _ s hsP
  have e2 : ir.srs.findIdx (fun x => decide (x = t)) = P.length + 1 + M.length := by
    rw [h', show P ++ s :: (M ++ t :: Q) = (P ++ s :: M) ++ t :: Q by simp, findIdx_here _ Q t htP]
    simp; omega
  have g1 : ir.srs[P.length]? = some s := by rw [h']; simp
  have g2 : ir.srs[P.length + 1 + M.length]? = some t := by
    rw [h', List.getElem?_append_right (by omega), show P.length + 1 + M.length - P.length = M.length + 1 by omega]
    simp
  rw [e1, e2, g1, g2]
  simp only [hst, if_false]

/-- splitting the iteration at index `idx` of the station route at position `m` -/
theorem split_Tells {infra : List SRoute} (hs : Sorted infra) (ir : IR) (hv : Valid infra ir) (hnd : ir.srs.Nodup)
    (m sr idx : Nat) (hm : ir.srs[m]? = some sr) (hlo : (if m = 0 then ir.start else 0) ≤ idx)
    (hhi : idx ≤ if m + 1 = ir.srs.length then ir.stop else len infra sr) :
    ∃ p q, Tells (ir.to infra sr idx) p ∧ Tells (ir.from_ infra sr idx) q ∧
      p ++ q = (positions infra ir).map (shownAt infra) := by
  have hsr : sr ∈ ir.srs := List.mem_of_getElem? hm
  have hr := List.getElem?_eq_getElem (hv.known sr hsr)
  rcases srs_cases ir.srs hv.nonempty with ⟨s, h⟩ | ⟨f, A, l, h⟩
  · have hm0 : m = 0 := by
      have := (List.getElem?_eq_some_iff.1 hm).1
      rw [h] at this; simp at this; exact this
    subst hm0
    rw [h] at hm; simp at hm; subst hm
    simp [h] at hlo hhi
    have hstop := hv.stop s _ (by simp [h]) hr
    rw [positions_single infra ir s h]
    refine ⟨(span s ir.start idx).map (shownAt infra), (span s idx ir.stop).map (shownAt infra), ?_, ?_, ?_⟩
    · unfold IR.to IR.fromTo
      simp only [h, List.head?_cons, Option.bind_some, hr]
      exact fromTo_Tells hs hr hlo (by omega)
    · unfold IR.from_ IR.fromTo
      simp only [h, List.getLast?_singleton, Option.bind_some, hr]
      exact fromTo_Tells hs hr hhi hstop
    · rw [← List.map_append, span_append s hlo hhi]
  · have hf := List.getElem?_eq_getElem (hv.known f (by simp [h]))
    have hl := List.getElem?_eq_getElem (hv.known l (by simp [h]))
    have h1 : ir.start ≤ len infra f := by rw [len_of hf]; exact hv.start f _ (by simp [h]) hf
    have h2 : ir.stop ≤ len infra l := by rw [len_of hl]; exact hv.stop l _ (getLast_multi h) hl
    rw [positions_multi infra ir f l A h]
    have hto : ir.to infra sr idx = ir.fromTo infra f ir.start sr idx := by unfold IR.to; rw [h]; rfl
    have hfrom : ir.from_ infra sr idx = ir.fromTo infra sr idx l ir.stop := by
      unfold IR.from_
      rw [h, show f :: (A ++ [l]) = (f :: A) ++ [l] by simp, List.getLast?_append]; rfl
    rw [hto, hfrom]
    have hlen : ir.srs.length = A.length + 2 := by rw [h]; simp
    by_cases c0 : m = 0
    · subst c0
      rw [h] at hm; simp at hm; subst hm
      simp [hlen] at hlo hhi
      refine ⟨(span f ir.start idx).map (shownAt infra), (seg infra f idx A l ir.stop).map (shownAt infra), ?_, ?_, ?_⟩
      · rw [fromTo_same ir infra f l A h f _ _ hsr, hf]
        exact fromTo_Tells hs hf hlo (by rw [← len_of hf]; exact hhi)
      · rw [fromTo_differ ir infra f l A h [] A [] f l _ _ (by simpa using h) hnd]
        exact detail_Tells hs ir [] A [] f l _ _ _ _ (by simpa using h) hv.known (by simp) (by simp) hhi h2
      · rw [← List.map_append, seg, ← List.append_assoc, span_append f hlo hhi]; rfl
    · by_cases c1 : m + 1 = ir.srs.length
      · have hml : m = A.length + 1 := by omega
        subst hml
        rw [h] at hm; simp at hm; subst hm
        rw [if_neg (by omega)] at hlo
        rw [if_pos c1] at hhi
        refine ⟨(seg infra f ir.start A l idx).map (shownAt infra), (span l idx ir.stop).map (shownAt infra), ?_, ?_, ?_⟩
        · rw [fromTo_differ ir infra f l A h [] A [] f l _ _ (by simpa using h) hnd]
          exact detail_Tells hs ir [] A [] f l _ _ _ _ (by simpa using h) hv.known (by simp) (by simp) h1 (by omega)
        · rw [fromTo_same ir infra f l A h l _ _ hsr, hl]
          exact fromTo_Tells hs hl hhi (by rw [← len_of hl]; exact h2)
        · rw [← List.map_append, seg, List.append_assoc, List.append_assoc, span_append l hlo hhi]; rfl
      · rw [if_neg c0] at hlo
        rw [if_neg c1] at hhi
        have hmA : m - 1 < A.length := by
          have := (List.getElem?_eq_some_iff.1 hm).1
          omega
        have hsrA : A[m - 1]? = some sr := by
          rw [h, show m = (m - 1) + 1 by omega, List.getElem?_cons_succ, List.getElem?_append_left hmA] at hm
          exact hm
        have hA : A = A.take (m - 1) ++ sr :: A.drop (m - 1 + 1) := by
          have h3 : A.drop (m - 1) = sr :: A.drop (m - 1 + 1) := by
            rw [List.drop_eq_getElem_cons hmA]
            rw [List.getElem?_eq_getElem hmA] at hsrA
            injection hsrA with h4; rw [h4]
          rw [← h3, List.take_append_drop]
        generalize A.take (m - 1) = P at hA
        generalize A.drop (m - 1 + 1) = Q at hA
        have d1 : ir.srs = [] ++ f :: (P ++ sr :: (Q ++ [l])) := by rw [h, hA]; simp
        have d2 : ir.srs = (f :: P) ++ sr :: (Q ++ l :: []) := by rw [h, hA]; simp
        refine ⟨(seg infra f ir.start P sr idx).map (shownAt infra), (seg infra sr idx Q l ir.stop).map (shownAt infra), ?_, ?_, ?_⟩
        · rw [fromTo_differ ir infra f l A h [] P (Q ++ [l]) f sr _ _ d1 hnd]
          exact detail_Tells hs ir [] P (Q ++ [l]) f sr _ _ _ _ d1 hv.known rfl rfl h1 hhi
        · rw [fromTo_differ ir infra f l A h (f :: P) Q [] sr l _ _ d2 hnd]
          exact detail_Tells hs ir (f :: P) Q [] sr l _ _ _ _ d2 hv.known rfl rfl hhi h2
        · rw [← List.map_append]
          congr 1
          have := span_append sr (Nat.zero_le idx) hhi
          rw [hA]
          simp only [seg, List.flatMap_append, List.flatMap_cons, ← this, List.append_assoc]

end Soro.Route
