import Verif.Proof.Interlocking

namespace Soro.Interlocking
open Route Route.Spec Spec

theorem len_info {infra : List SRoute} {infos : List Info} {g : SRG} (hw : WellFormed infra infos g) {s : Nat} {i : Info}
    (h : infos[s]? = some i) : len infra s = i.size := by
  have := congrArg (fun l => l[s]?) hw.sizes
  simp only [List.getElem?_map, h, Option.map_some] at this
  rw [len, ← this]
  rfl

theorem size_info {infra : List SRoute} {infos : List Info} {g : SRG} (hw : WellFormed infra infos g) {s : Nat} {i : Info}
    (h : infos[s]? = some i) : infra[s]?.map (·.nodes.length) = some i.size := by
  have := congrArg (fun l => l[s]?) hw.sizes
  simp only [List.getElem?_map, h, Option.map_some] at this
  rw [this]

theorem signal_iff {infos : List Info} {s k : Nat} {i : Info} (h : infos[s]? = some i) : Signal infos s k ↔ k ∈ i.signals := by
  constructor
  · rintro ⟨x, h1, h2⟩; rw [h] at h1; cases h1; exact h2
  · intro h2; exact ⟨i, h, h2⟩

theorem succ_known {infra : List SRoute} {infos : List Info} {g : SRG} (hw : WellFormed infra infos g) (r s : Nat)
    (h : s ∈ g.succ r) : s < infos.length := by
  unfold SRG.succ at h
  cases hr : g.succs[r]? with
  | none => simp [hr] at h
  | some l => rw [hr] at h; exact hw.known l (List.mem_of_getElem? hr) s h

theorem tail_dropLast {α : Type} (x y : α) (M : List α) : (x :: (M ++ [y])).tail.dropLast = M := by simp

theorem span_cons (s a b : Nat) (h : a < b) : span s a b = (s, a) :: span s (a + 1) b := by
  unfold span
  rw [show b - a = (b - (a + 1)) + 1 by omega, List.range'_succ]
  simp

theorem span_snoc (s a e : Nat) (h : a ≤ e) : span s a (e + 1) = span s a e ++ [(s, e)] := by
  have h1 := span_append s h (Nat.le_succ e)
  rw [← h1, span_cons s e (e + 1) (by omega)]
  simp [span]

theorem interior_multi (infra : List SRoute) (ir : IR) (f l e : Nat) (A : List Nat) (h : ir.srs = f :: (A ++ [l]))
    (hs : ir.start < len infra f) (he : ir.stop = e + 1) :
    (positions infra ir).tail.dropLast =
      span f (ir.start + 1) (len infra f) ++ ((A.flatMap fun s => span s 0 (len infra s)) ++ span l 0 e) := by
  rw [positions_multi infra ir f l A h, seg, he, span_snoc l 0 e (Nat.zero_le _), span_cons f _ _ hs]
  rw [show (f, ir.start) :: span f (ir.start + 1) (len infra f) ++ (List.flatMap (fun s => span s 0 (len infra s)) A ++ (span l 0 e ++ [(l, e)])) =
    (f, ir.start) :: ((span f (ir.start + 1) (len infra f) ++ ((A.flatMap fun s => span s 0 (len infra s)) ++ span l 0 e)) ++ [(l, e)]) by simp]
  exact tail_dropLast _ _ _

theorem interior_single (infra : List SRoute) (ir : IR) (s e : Nat) (h : ir.srs = [s]) (he : ir.stop = e + 1)
    (hs : ir.start < e + 1) : (positions infra ir).tail.dropLast = span s (ir.start + 1) e := by
  rw [positions_single infra ir s h, he]
  rcases Nat.lt_or_ge ir.start e with h1 | h1
  · rw [span_cons s _ _ (by omega), span_snoc s _ e (by omega)]
    exact tail_dropLast _ _ _
  · have : ir.start = e := by omega
    rw [this, span_cons s e (e + 1) (by omega)]
    simp [span]

theorem EC_spec (infos : List Info) (g : SRG) (r : Nat) (rest : List Nat) (stop : Nat) :
    EC infos g r rest stop ↔ Follows g.succ r rest ∧ (∀ s ∈ r :: rest, ∃ i, infos[s]? = some i ∧ i.etcs = false) ∧
      (∀ s ∈ (r :: rest).dropLast, ∃ i, infos[s]? = some i ∧ canEnd g s i = false) ∧
      ∃ l i, (r :: rest).getLast? = some l ∧ infos[l]? = some i ∧ canEnd g l i = true ∧ stop = endOf i := by
  induction rest generalizing r with
  | nil =>
    simp only [EC, Follows, true_and, List.mem_singleton, forall_eq, List.dropLast_singleton, List.not_mem_nil,
      false_implies, implies_true, List.getLast?_singleton, Option.some.injEq]
    constructor
    · rintro ⟨i, h1, h2, h3, h4⟩; exact ⟨⟨i, h1, h2⟩, r, i, rfl, h1, h3, h4⟩
    · rintro ⟨⟨i, h1, h2⟩, l, j, rfl, h3, h4, h5⟩
      rw [h1] at h3; cases h3
      exact ⟨i, h1, h2, h4, h5⟩
  | cons n rest ih =>
    rw [EC, ih, Follows]
    rw [List.dropLast_cons₂, List.getLast?_cons_cons]
    constructor
    · rintro ⟨⟨i, h1, h2, h3⟩, h4, h5, h6, h7, h8⟩
      refine ⟨⟨h4, h5⟩, ?_, ?_, h8⟩
      · intro s hs
        rcases List.mem_cons.1 hs with rfl | hs
        · exact ⟨i, h1, h2⟩
        · exact h6 s hs
      · intro s hs
        rcases List.mem_cons.1 hs with rfl | hs
        · exact ⟨i, h1, h3⟩
        · exact h7 s hs
    · rintro ⟨⟨h4, h5⟩, h6, h7, h8⟩
      obtain ⟨i, h1, h2⟩ := h6 r (by simp)
      obtain ⟨j, h3, h9⟩ := h7 r (by simp)
      rw [h1] at h3; cases h3
      exact ⟨⟨i, h1, h2, h9⟩, h4, h5, fun s hs => h6 s (by simp [List.mem_cons.1 hs]), fun s hs => h7 s (List.mem_cons_of_mem _ hs), h8⟩

theorem canEnd_false {g : SRG} {s : Nat} {i : Info} : canEnd g s i = false ↔ i.signals = [] ∧ g.succ s ≠ [] := by
  simp [canEnd]

theorem canEnd_true {g : SRG} {s : Nat} {i : Info} : canEnd g s i = true ↔ i.signals ≠ [] ∨ g.succ s = [] := by
  simp [canEnd]

theorem canStart_true {g : SRG} {s : Nat} {i : Info} : canStart g s i = true ↔ i.signals ≠ [] ∨ g.pred s = [] := by
  simp [canStart]

/-- the last element of an increasing list is its maximum -/
theorem le_last {l : List Nat} (h : l.Pairwise (· < ·)) {x m : Nat} (hm : l.getLast? = some m) (hx : x ∈ l) : x ≤ m := by
  obtain ⟨i, hi⟩ := List.mem_iff_getElem?.1 hx
  rw [List.getLast?_eq_getElem?] at hm
  have h1 := (List.getElem?_eq_some_iff.1 hi).1
  rcases Nat.lt_or_ge i (l.length - 1) with h2 | h2
  · exact Nat.le_of_lt (sorted_get h hi hm h2)
  · rw [show l.length - 1 = i by omega, hi] at hm; cases hm; exact Nat.le_refl _

/-- the first element of an increasing list is its minimum -/
theorem head_le {l : List Nat} (h : l.Pairwise (· < ·)) {x m : Nat} (hm : l.head? = some m) (hx : x ∈ l) : m ≤ x := by
  cases l with
  | nil => cases hx
  | cons a l =>
    simp at hm; subst hm
    rcases List.mem_cons.1 hx with rfl | hx
    · exact Nat.le_refl _
    · exact Nat.le_of_lt ((List.pairwise_cons.1 h).1 x hx)

theorem split_last (n : Nat) (rest : List Nat) : ∃ A l, n :: rest = A ++ [l] ∧ A = (n :: rest).dropLast ∧ (n :: rest).getLast? = some l :=
  ⟨(n :: rest).dropLast, (n :: rest).getLast (by simp), (List.dropLast_concat_getLast _).symm, rfl, List.getLast?_eq_some_getLast _⟩

theorem Gen.signalRoute {infra : List SRoute} {infos : List Info} {g : SRG} (hw : WellFormed infra infos g) {ir : IR}
    (h : Gen infos g ir) : SignalRoute infra infos g ir := by
  cases h with
  | chain r n i rest stop h1 h2 h3 h4 h5 =>
    obtain ⟨hf, -, hmid, l, j, hl, hj, hce, hstop⟩ := (EC_spec _ _ _ _ _).1 h5
    obtain ⟨A, l', hA, hAd, hl'⟩ := split_last n rest
    rw [hl] at hl'; cases hl'
    have hmi := List.mem_of_getElem? h1
    have hmj := List.mem_of_getElem? hj
    have hsorti := hw.sorted i hmi
    have hsortj := hw.sorted j hmj
    have hstart : (i.signals.getLast?).getD 0 < i.size := by
      cases hs : i.signals.getLast? with
      | none => exact hw.nonempty i hmi
      | some s => exact hw.inside i hmi s (List.mem_of_getLast? hs)
    have hend : ∃ e, stop = e + 1 ∧ ((e ∈ j.signals ∧ ∀ k ∈ j.signals, e ≤ k) ∨ (stop = j.size ∧ g.succ l = [] ∧ j.signals = [])) := by
      rw [hstop]
      unfold endOf
      cases hs : j.signals with
      | nil =>
        have := hw.nonempty j hmj
        refine ⟨j.size - 1, by simp only; omega, .inr ⟨rfl, ?_, rfl⟩⟩
        rcases canEnd_true.1 hce with h | h
        · exact absurd hs h
        · exact h
      | cons s ss =>
        refine ⟨s, rfl, .inl ⟨by simp, fun k hk => head_le hsortj (by rw [hs]; rfl) (by rw [hs]; exact hk)⟩⟩
    obtain ⟨e, he, hend⟩ := hend
    refine ⟨⟨r, n :: rest, rfl, (List.getElem?_eq_some_iff.1 h1).1, h4, hf⟩, ?_, ?_, by simp, ?_⟩
    · intro f hf'
      cases hf'
      rw [signal_iff h1]
      simp only
      cases hs : i.signals.getLast? with
      | none =>
        rw [List.getLast?_eq_none_iff] at hs
        rcases canStart_true.1 h2 with h | h
        · exact absurd hs h
        · exact .inr ⟨rfl, h⟩
      | some s => exact .inl (List.mem_of_getLast? hs)
    · intro l' hl''
      rw [show r :: n :: rest = [r] ++ (n :: rest) by simp, List.getLast?_append, hl] at hl''
      cases hl''
      refine ⟨e, he, ?_⟩
      rw [signal_iff hj, size_info hw hj]
      rcases hend with h | h
      · exact .inl h.1
      · exact .inr ⟨by rw [← h.1], h.2.1⟩
    · rw [interior_multi infra _ r l e A (by rw [hA]) (by rw [len_info hw h1]; exact hstart) he]
      intro p hp
      rw [List.mem_append, List.mem_append, mem_span, mem_span, List.mem_flatMap] at hp
      rcases hp with ⟨hp1, hp2, -⟩ | ⟨s, hs, hp⟩ | ⟨hp1, -, hp2⟩
      · rw [hp1, signal_iff h1]
        intro hm
        simp only at hp2
        cases hs : i.signals.getLast? with
        | none => rw [List.getLast?_eq_none_iff] at hs; rw [hs] at hm; cases hm
        | some s =>
          rw [hs] at hp2
          have := le_last hsorti hs hm
          simp at hp2
          omega
      · rw [mem_span] at hp
        rw [hAd] at hs
        obtain ⟨x, hx1, hx2⟩ := hmid s hs
        rw [hp.1, signal_iff hx1, (canEnd_false.1 hx2).1]
        simp
      · rw [hp1, signal_iff hj]
        intro hm
        rcases hend with h | h
        · have := h.2 _ hm; omega
        · rw [h.2.2] at hm; cases hm
  | internal r i k a b h1 h2 h3 =>
    have hmi := List.mem_of_getElem? h1
    have hsort := hw.sorted i hmi
    have hab : a < b := sorted_get hsort h2 h3 (by omega)
    refine ⟨⟨r, [], rfl, (List.getElem?_eq_some_iff.1 h1).1, trivial⟩, ?_, ?_, fun _ => by simp only; omega, ?_⟩
    · intro f hf; cases hf; exact .inl ((signal_iff h1).2 (List.mem_of_getElem? h2))
    · intro l hl; cases hl; exact ⟨b, rfl, .inl ((signal_iff h1).2 (List.mem_of_getElem? h3))⟩
    · rw [interior_single infra _ r b rfl rfl (by simp only; omega)]
      intro p hp
      rw [mem_span] at hp
      rw [hp.1, signal_iff h1]
      intro hm
      obtain ⟨q, hq⟩ := List.mem_iff_getElem?.1 hm
      have e1 := sorted_get_lt hsort h2 hq
      have e2 := sorted_get_lt hsort hq h3
      simp only at hp
      omega
  | leading r i s h1 h2 h3 =>
    have hmi := List.mem_of_getElem? h1
    have hsort := hw.sorted i hmi
    refine ⟨⟨r, [], rfl, (List.getElem?_eq_some_iff.1 h1).1, trivial⟩, ?_, ?_, fun _ => by simp only; omega, ?_⟩
    · intro f hf; cases hf; exact .inr ⟨rfl, h3⟩
    · intro l hl; cases hl; exact ⟨s, rfl, .inl ((signal_iff h1).2 (List.mem_of_head? h2))⟩
    · rw [interior_single infra _ r s rfl rfl (by simp only; omega)]
      intro p hp
      rw [mem_span] at hp
      rw [hp.1, signal_iff h1]
      intro hm
      have := head_le hsort h2 hm
      omega
  | trailing r i s h1 h2 h3 =>
    have hmi := List.mem_of_getElem? h1
    have hsort := hw.sorted i hmi
    have hin := hw.inside i hmi s (List.mem_of_getLast? h2)
    refine ⟨⟨r, [], rfl, (List.getElem?_eq_some_iff.1 h1).1, trivial⟩, ?_, ?_, fun _ => by simp only; omega, ?_⟩
    · intro f hf; cases hf; exact .inl ((signal_iff h1).2 (List.mem_of_getLast? h2))
    · intro l hl; cases hl
      exact ⟨i.size - 1, by simp only; omega, .inr ⟨size_info hw h1, h3⟩⟩
    · rw [interior_single infra _ r (i.size - 1) rfl (by simp only; omega) (by simp only; omega)]
      intro p hp
      rw [mem_span] at hp
      rw [hp.1, signal_iff h1]
      intro hm
      have := le_last hsort h2 hm
      simp only at hp
      omega

/-- position of an element of an increasing list whose successor in the list is `b` -/
theorem consecutive {l : List Nat} (h : l.Pairwise (· < ·)) {a b : Nat} (ha : a ∈ l) (hb : b ∈ l) (hab : a < b)
    (hno : ∀ x ∈ l, ¬ (a < x ∧ x < b)) : ∃ k : Nat, l[k]? = some a ∧ l[k + 1]? = some b := by
  obtain ⟨i, hi⟩ := List.mem_iff_getElem?.1 ha
  obtain ⟨j, hj⟩ := List.mem_iff_getElem?.1 hb
  have hij := (sorted_get_lt h hi hj).1 hab
  refine ⟨i, hi, ?_⟩
  have hlt : i + 1 < l.length := by
    have := (List.getElem?_eq_some_iff.1 hj).1
    omega
  have hg := List.getElem?_eq_getElem hlt
  have h1 := sorted_get h hi hg (by omega)
  have h2 := hno _ (List.mem_of_getElem? hg)
  rcases Nat.lt_or_eq_of_le (show i + 1 ≤ j by omega) with h3 | h3
  · have := sorted_get h hg hj h3; omega
  · rw [h3, hj]

theorem signalRoute_gen {infra : List SRoute} {infos : List Info} {g : SRG} (hw : WellFormed infra infos g) {ir : IR}
    (h : SignalRoute infra infos g ir) (hne : NoEtcs infos ir)
    (hdeg : ¬ (ir.srs.length = 1 ∧ ir.stop = ir.start + 1))
    (hiso : ∀ s i, ir.srs = [s] → infos[s]? = some i → i.signals ≠ []) : Gen infos g ir := by
  obtain ⟨f, rest, hsrs, hflt, hfol⟩ := h.chain
  obtain ⟨i, hi⟩ : ∃ i, infos[f]? = some i := ⟨_, List.getElem?_eq_getElem hflt⟩
  have hmi := List.mem_of_getElem? hi
  have hsort := hw.sorted i hmi
  have hstart := h.start f (by rw [hsrs]; rfl)
  rw [signal_iff hi] at hstart
  have hstlt : ir.start < i.size := by
    rcases hstart with h1 | h1
    · exact hw.inside i hmi _ h1
    · rw [h1.1]; exact hw.nonempty i hmi
  cases rest with
  | nil =>
    obtain ⟨e, he, hend⟩ := h.stop f (by rw [hsrs]; rfl)
    rw [signal_iff hi, size_info hw hi] at hend
    have hfw := h.forward (by rw [hsrs]; rfl)
    have hlt : ir.start < e := by
      rcases Nat.lt_or_ge ir.start e with h1 | h1
      · exact h1
      · exact absurd ⟨by rw [hsrs]; rfl, by omega⟩ hdeg
    have hclear := h.clear
    rw [interior_single infra ir f e hsrs he (by omega)] at hclear
    have hno : ∀ x ∈ i.signals, ¬ (ir.start < x ∧ x < e) := by
      intro x hx hxx
      exact hclear (f, x) ((mem_span _ _ _ _).2 ⟨rfl, by simp only; omega, by simp only; omega⟩) ((signal_iff hi).2 hx)
    have hir : ∀ st, ir.start = st → ir = ⟨st, e + 1, [f]⟩ := by
      rintro st rfl
      obtain ⟨a, b, c⟩ := ir
      simp only at he hsrs ⊢
      rw [he, hsrs]
    by_cases hse : ir.start ∈ i.signals
    · by_cases hee : e ∈ i.signals
      · obtain ⟨k, hk1, hk2⟩ := consecutive hsort hse hee hlt hno
        rw [hir _ rfl]
        exact .internal f i k _ _ hi hk1 hk2
      · obtain ⟨h1, h2⟩ : some i.size = some ir.stop ∧ g.succ f = [] := by
          rcases hend with h | h
          · exact absurd h hee
          · exact h
        have h1 : i.size = ir.stop := by simpa using h1
        have hlast : i.signals.getLast? = some ir.start := by
          obtain ⟨m, hm⟩ : ∃ m, i.signals.getLast? = some m := ⟨_, List.getLast?_eq_some_getLast (List.ne_nil_of_mem hse)⟩
          have h3 := le_last hsort hm hse
          have h4 := List.mem_of_getLast? hm
          have h5 := hno m h4
          have h6 := hw.inside i hmi m h4
          have h7 : m ≠ e := by rintro rfl; exact hee h4
          rw [hm]
          congr 1
          omega
        rw [hir _ rfl, ← he, ← h1]
        exact .trailing f i _ hi hlast h2
    · obtain ⟨h0, hp⟩ : ir.start = 0 ∧ g.pred f = [] := by
        rcases hstart with h | h
        · exact absurd h hse
        · exact h
      have hsne := hiso f i hsrs hi
      obtain ⟨m, hm⟩ : ∃ m, i.signals.head? = some m := ⟨_, List.head?_eq_some_head hsne⟩
      have hmm := List.mem_of_head? hm
      have h4 := hno m hmm
      have h5 : m ≠ 0 := by rintro rfl; exact hse (h0 ▸ hmm)
      have h6 := hw.inside i hmi m hmm
      have hme : m = e := by
        rcases hend with h | h
        · have := head_le hsort hm h; omega
        · have : i.size = e + 1 := by rw [← he]; simpa using h.1
          omega
      subst hme
      rw [hir 0 h0]
      exact .leading f i m hi hm hp
  | cons n rest =>
    obtain ⟨A, l, hA, hAd, hl⟩ := split_last n rest
    have hsrs' : ir.srs = f :: (A ++ [l]) := by rw [hsrs, hA]
    obtain ⟨e, he, hend⟩ := h.stop l (getLast_multi hsrs')
    have hall : ∀ s ∈ n :: rest, s < infos.length := by
      intro s hs
      obtain ⟨k, w⟩ := walk_of_follows f _ hfol s hs
      cases w with
      | snoc _ hm => exact succ_known hw _ _ hm
    have hlm : l ∈ n :: rest := by rw [hA]; simp
    obtain ⟨j, hj⟩ : ∃ j, infos[l]? = some j := ⟨_, List.getElem?_eq_getElem (hall l hlm)⟩
    have hmj := List.mem_of_getElem? hj
    rw [signal_iff hj, size_info hw hj] at hend
    have hclear := h.clear
    rw [interior_multi infra ir f l e A hsrs' (by rw [len_info hw hi]; exact hstlt) he] at hclear
    have c1 : ∀ x ∈ i.signals, x ≤ ir.start := by
      intro x hx
      rcases Nat.lt_or_ge ir.start x with h1 | h1
      · exfalso
        refine hclear (f, x) ?_ ((signal_iff hi).2 hx)
        rw [List.mem_append, mem_span]
        exact .inl ⟨rfl, by simp only; omega, by rw [len_info hw hi]; exact hw.inside i hmi x hx⟩
      · exact h1
    have c2 : ∀ s ∈ A, ∃ x, infos[s]? = some x ∧ x.signals = [] := by
      intro s hs
      obtain ⟨x, hx⟩ : ∃ x, infos[s]? = some x := ⟨_, List.getElem?_eq_getElem (hall s (by rw [hA]; simp [hs]))⟩
      refine ⟨x, hx, ?_⟩
      cases hsig : x.signals with
      | nil => rfl
      | cons y ys =>
        exfalso
        refine hclear (s, y) ?_ ((signal_iff hx).2 (by rw [hsig]; simp))
        rw [List.mem_append, List.mem_append, List.mem_flatMap]
        refine .inr (.inl ⟨s, hs, (mem_span _ _ _ _).2 ⟨rfl, Nat.zero_le _, ?_⟩⟩)
        rw [len_info hw hx]
        exact hw.inside x (List.mem_of_getElem? hx) y (by rw [hsig]; simp)
    have c3 : ∀ x ∈ j.signals, e ≤ x := by
      intro x hx
      rcases Nat.lt_or_ge x e with h1 | h1
      · exfalso
        refine hclear (l, x) ?_ ((signal_iff hj).2 hx)
        rw [List.mem_append, List.mem_append]
        exact .inr (.inr ((mem_span _ _ _ _).2 ⟨rfl, Nat.zero_le _, h1⟩))
      · exact h1
    have hst : (i.signals.getLast?).getD 0 = ir.start := by
      cases hs : i.signals.getLast? with
      | none =>
        rw [List.getLast?_eq_none_iff] at hs
        rcases hstart with h1 | h1
        · rw [hs] at h1; cases h1
        · exact h1.1.symm
      | some m =>
        have h1 := c1 m (List.mem_of_getLast? hs)
        rcases hstart with h2 | h2
        · have := le_last hsort hs h2
          simp only [Option.getD_some]; omega
        · simp only [Option.getD_some]; omega
    have hcs : canStart g f i = true := by
      rw [canStart_true]
      rcases hstart with h1 | h1
      · exact .inl (List.ne_nil_of_mem h1)
      · exact .inr h1.2
    have hEC : EC infos g n rest ir.stop := by
      rw [EC_spec]
      refine ⟨hfol.2, ?_, ?_, l, j, hl, hj, ?_, ?_⟩
      · intro s hs
        obtain ⟨x, hx⟩ : ∃ x, infos[s]? = some x := ⟨_, List.getElem?_eq_getElem (hall s hs)⟩
        exact ⟨x, hx, hne s (by rw [hsrs]; exact List.mem_cons_of_mem _ hs) x hx⟩
      · intro s hs
        rw [← hAd] at hs
        obtain ⟨x, hx, hsig⟩ := c2 s hs
        refine ⟨x, hx, canEnd_false.2 ⟨hsig, ?_⟩⟩
        exact follows_succ_ne n rest hfol.2 s (by rw [← hAd]; exact hs)
      · rw [canEnd_true]
        rcases hend with h1 | h1
        · exact .inl (List.ne_nil_of_mem h1)
        · exact .inr h1.2
      · unfold endOf
        cases hsig : j.signals with
        | nil =>
          rcases hend with h1 | h1
          · rw [hsig] at h1; cases h1
          · simpa using h1.1.symm
        | cons y ys =>
          have hy : y ∈ j.signals := by rw [hsig]; simp
          have h1 := c3 y hy
          have h2 := hw.inside j hmj y hy
          rcases hend with h3 | h3
          · have := head_le (hw.sorted j hmj) (by rw [hsig]; rfl) h3
            simp only
            omega
          · have : j.size = e + 1 := by rw [← he]; simpa using h3.1
            simp only
            omega
    have hir : ir = ⟨(i.signals.getLast?).getD 0, ir.stop, f :: n :: rest⟩ := by
      rw [hst, ← hsrs]
    rw [hir]
    exact .chain f n i rest _ hi hcs (hne f (by rw [hsrs]; simp) i hi) hfol.1 hEC
where
  follows_succ_ne {g : SRG} (n : Nat) (rest : List Nat) (h : Follows g.succ n rest) (s : Nat) (hs : s ∈ (n :: rest).dropLast) :
      g.succ s ≠ [] := by
    induction rest generalizing n with
    | nil => simp at hs
    | cons m rest ih =>
      rw [List.dropLast_cons₂] at hs
      rcases List.mem_cons.1 hs with rfl | hs
      · exact List.ne_nil_of_mem h.1
      · exact ih m h.2 hs

/-! ### no duplicates -/

theorem flatten_nodup {α β γ : Type} (f : α → Option (List β)) (key : β → γ) (of : α → γ → Prop) (l : List α) (r : List (List β))
    (h : l.mapM f = some r) (hn : ∀ a ∈ l, ∀ b, f a = some b → b.Nodup) (hk : ∀ a ∈ l, ∀ b, f a = some b → ∀ x ∈ b, of a (key x))
    (hd : l.Pairwise fun a a' => ∀ c, of a c → ¬ of a' c) : r.flatten.Nodup := by
  induction l generalizing r with
  | nil => cases h; simp
  | cons a l ih =>
    obtain ⟨y, r', h1, h2, rfl⟩ := mapM_cons_some f a l r h
    rw [List.flatten_cons, List.nodup_append]
    rw [List.pairwise_cons] at hd
    refine ⟨hn a (by simp) y h1, ih r' h2 (fun x hx => hn x (by simp [hx])) (fun x hx => hk x (by simp [hx])) hd.2, ?_⟩
    rintro x hx z hz rfl
    obtain ⟨a', ha', b, hb, hx'⟩ := (mapM_flatten_mem f l r' h2 x).1 hz
    exact hd.1 a' ha' (key x) (hk a (by simp) y h1 x hx) (hk a' (by simp [ha']) b hb x hx')

theorem fill_nodup (infos : List Info) (g : SRG) (hg : ∀ r, (g.succ r).Nodup) (fuel r : Nat) (ir : IR) (res : List IR)
    (h : fill infos g fuel r ir = some res) : res.Nodup := by
  induction fuel generalizing r ir res with
  | zero => simp [fill] at h
  | succ fuel ih =>
    rw [fill] at h
    split at h
    · simp at h
    · split at h
      · cases h; simp
      · split at h
        · cases h; simp
        · obtain ⟨rs, h1, rfl⟩ := Option.map_eq_some_iff.1 h
          refine flatten_nodup _ (fun x : IR => x.srs[ir.srs.length + 1]?) (fun n c => c = some n) _ _ h1
            (fun n _ b hb => ih n _ b hb) ?_ ?_
          · intro n _ b hb x hx
            obtain ⟨-, rest, h2, -⟩ := (fill_mem infos g _ _ _ _ hb x).1 hx
            rw [h2]
            simp
          · exact (hg r).imp fun hne c h1 h2 => hne (by rw [h1] at h2; cases h2; rfl)

theorem internal_nodup (r : Nat) (l : List Nat) (h : l.Pairwise (· < ·)) : (internal r l).Nodup := by
  induction l with
  | nil => simp [internal]
  | cons a l ih =>
    cases l with
    | nil => simp [internal]
    | cons b l =>
      rw [internal, List.nodup_cons]
      refine ⟨?_, ih (List.pairwise_cons.1 h).2⟩
      intro hm
      obtain ⟨i, c, d, h1, -, h3⟩ := (mem_internal _ _ _).1 hm
      simp only [IR.mk.injEq] at h3
      have := (List.pairwise_cons.1 h).1 c (List.mem_of_getElem? h1)
      omega

end Soro.Interlocking
