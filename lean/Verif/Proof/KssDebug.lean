import Verif.Model.KssDebug
import Verif.Spec.KssDebug
import Verif.Proof.CalendarDebug
import Verif.Props.Kss
import Mathlib.Data.Set.Card
import Mathlib.Data.Int.Interval
import Mathlib.Tactic.Tauto

/-! Proofs about `parse_services` in a debug build. -/

namespace Soro.Kss
open Dbg Bitfield

theorem noday : NODAY = maxDay := rfl

/-- the days of a calendar -/
def days (b : Bitfield) : Set Int := {d | RunsOn b d}

theorem days_image {b : Bitfield} (hb : b.WF) :
    days b = (fun i : Nat => b.first + (i : Int)) '' {i | i ∈ (List.range BITSIZE).filter b.test} := by
  ext d
  simp only [days, Set.mem_setOf_eq, Set.mem_image, List.mem_filter, List.mem_range, RunsOn]
  rw [at?_eq_true]
  constructor
  · rintro ⟨h1, h2, h3⟩
    refine ⟨dist b.first d, ⟨?_, h3⟩, ?_⟩
    · have := hb.fits
      simp only [dist, BITSIZE] at *
      omega
    · simp only [dist]; omega
  · rintro ⟨i, ⟨h1, h2⟩, rfl⟩
    have hr : ¬ b.last - b.first < i := fun hc => by rw [hb.zero i hc] at h2; cases h2
    refine ⟨by omega, by omega, ?_⟩
    rwa [show dist b.first (b.first + i) = i by simp only [dist]; omega]

theorem days_finite {b : Bitfield} (hb : b.WF) : (days b).Finite := by
  rw [days_image hb]
  exact (List.finite_toSet _).image _

theorem count_days {b : Bitfield} (hb : b.WF) : (days b).ncard = count b := by
  have hinj : Function.Injective fun i : Nat => b.first + (i : Int) := by
    intro i j h
    have h : b.first + (i : Int) = b.first + (j : Int) := h
    omega
  rw [days_image hb, Set.ncard_image_of_injective _ hinj]
  have h : {i | i ∈ (List.range BITSIZE).filter b.test} = (((List.range BITSIZE).filter b.test).toFinset : Set Nat) := by
    ext i; simp
  rw [h, Set.ncard_coe_finset, List.toFinset_card_of_nodup (List.nodup_range.filter _)]
  rfl

/-- what one service does to the number of days -/
theorem ncard_update (A A' T F : Set Int) (hA : A.Finite) (hT : T.Finite) (hF : F.Finite) (hdis : Disjoint T F)
    (h : ∀ d, d ∈ A' ↔ d ∈ T ∨ (d ∈ A ∧ d ∉ T ∧ d ∉ F)) :
    (A'.ncard : Int) = A.ncard + T.ncard - F.ncard - ((T ∩ A).ncard - (F \ A).ncard) := by
  have e : A' = (T ∪ A) \ F := by
    ext d
    have : d ∈ T → d ∉ F := fun h1 h2 => Set.disjoint_left.1 hdis h1 h2
    simp only [h, Set.mem_diff, Set.mem_union]
    tauto
  have h1 := Set.ncard_union_add_ncard_inter T A hT hA
  have h2 := Set.ncard_inter_add_ncard_diff_eq_ncard (T ∪ A) F (hT.union hA)
  have h3 := Set.ncard_inter_add_ncard_diff_eq_ncard F A hF
  have h4 : (T ∪ A) ∩ F = F ∩ A := by
    ext d
    have : d ∈ T → d ∉ F := fun h1 h2 => Set.disjoint_left.1 hdis h1 h2
    simp only [Set.mem_inter_iff, Set.mem_union]
    tauto
  rw [h4, ← e] at h2
  omega

/-- days a service names -/
def named (v : Bool) (s : Service) : Set Int := {d | Says d v s}

/-- what the code adds to its count -/
def counted : Service → Int
  | .mask _ _ m => m.count '1'
  | .special _ .incl => 1
  | .special _ .excl => -1
  | .special _ .other => 0

theorem ncard_ones (f : Int) (m : List Char) :
    {d : Int | f ≤ d ∧ m[(d - f).toNat]? = some '1'}.Finite ∧ {d : Int | f ≤ d ∧ m[(d - f).toNat]? = some '1'}.ncard = m.count '1' := by
  induction m generalizing f with
  | nil => simp
  | cons c m ih =>
    obtain ⟨i1, i2⟩ := ih (f + 1)
    have hsplit : {d : Int | f ≤ d ∧ (c :: m)[(d - f).toNat]? = some '1'} =
        {d : Int | d = f ∧ c = '1'} ∪ {d : Int | f + 1 ≤ d ∧ m[(d - (f + 1)).toNat]? = some '1'} := by
      ext d
      simp only [Set.mem_setOf_eq, Set.mem_union]
      by_cases hd : d = f
      · subst hd
        simp
      · by_cases hle : f ≤ d
        · rw [show (d - f).toNat = (d - (f + 1)).toNat + 1 by omega, List.getElem?_cons_succ]
          simp only [hd, hle, false_and, true_and, false_or, show f + 1 ≤ d by omega]
        · simp only [hd, hle, false_and, false_or, show ¬ f + 1 ≤ d by omega]
    have hfin : {d : Int | d = f ∧ c = '1'}.Finite := (Set.finite_singleton f).subset fun d h => h.1
    refine ⟨by rw [hsplit]; exact hfin.union i1, ?_⟩
    rw [hsplit, Set.ncard_union_eq _ hfin i1, i2, List.count_cons]
    · by_cases hc : c = '1'
      · subst hc; simp [Nat.add_comm]
      · simp [hc]
    · rw [Set.disjoint_left]
      rintro d ⟨rfl, -⟩ ⟨h, -⟩
      omega

theorem named_true_mask (f l : Int) (m : List Char) :
    named true (.mask f l m) = {d : Int | f ≤ d ∧ m[(d - f).toNat]? = some '1'} := by
  ext d; simp [named, Says, SpecialOn, RegularOn]

theorem named_false_mask (f l : Int) (m : List Char) : named false (.mask f l m) = ∅ := by
  ext d; simp [named, Says, SpecialOn]

theorem named_special (d : Int) (k : Kind) (v : Bool) :
    named v (.special d k) = {e | e = d ∧ ((k = .incl ∧ v = true) ∨ (k = .excl ∧ v = false))} := by
  ext e; cases k <;> simp [named, Says, SpecialOn, RegularOn, eq_comm]

theorem named_finite (v : Bool) (s : Service) : (named v s).Finite := by
  cases s with
  | mask f l m =>
    cases v
    · rw [named_false_mask]; exact Set.finite_empty
    · rw [named_true_mask]; exact (ncard_ones f m).1
  | special d k => rw [named_special]; exact (Set.finite_singleton d).subset fun e h => h.1

theorem counted_eq (s : Service) : counted s = (named true s).ncard - (named false s).ncard := by
  cases s with
  | mask f l m => rw [named_false_mask, named_true_mask, (ncard_ones f m).2]; simp [counted]
  | special d k => cases k <;> simp [named_special, counted]

theorem named_disjoint (s : Service) : Disjoint (named true s) (named false s) := by
  rw [Set.disjoint_left]
  intro d h1 h2
  exact says_both d s h2 h1

/-- a service in the debug build, on a calendar that has been made -/
theorem stepD_same (lo hi : Int) (a : Acc) (s : Service) (hw : hi - lo < 512) (hm : hi < maxDay) (hb : a.bf.WF)
    (h1 : lo ≤ a.bf.first) (h2 : a.bf.last ≤ hi) (hs : s.Fits lo hi)
    (ht : a.total < 2 ^ 64) :
    ∃ b', step a.bf s = some b' ∧ ∃ t, stepD a s = .ok ⟨b', t⟩ ∧ (t : Int) = (a.total + counted s) % 2 ^ 64 := by
  have hle := hb.le
  have hok : ok a.bf = true := ok_of_lt _ (by omega) (by omega)
  have hd : a.bf.Dated := ⟨by rw [noday]; omega, by rw [noday]; omega⟩
  cases s with
  | mask f l m =>
    obtain ⟨bf, hbf, hwf, e1, e2, -⟩ := make_fits lo hi f l m hw hs
    obtain ⟨g1, g2, g3, g4, g5⟩ := hs
    obtain ⟨bf', q1, q2⟩ := makeD_same f l m (by rw [noday]; omega) (by rw [noday]; omega) g3 g4 (by omega)
    obtain rfl : bf = bf' := by rw [hbf] at q1; exact Option.some.inj q1
    have hu := unionD_ok hb hd hwf ⟨by rw [noday]; omega, by rw [noday]; omega⟩ (by omega)
    refine ⟨a.bf.union bf, by simp [step, hbf, hok], (a.total + m.count '1') % 2 ^ 64, ?_, ?_⟩
    · simp only [stepD, maskD]
      rw [check_pos g3, ok_bind, check_pos (by simp only [dist]; omega), ok_bind, q2, ok_bind]
      simp only [joinD, hok, if_true]
      rw [hu, ok_bind]; rfl
    · simp only [counted]; omega
  | special d k =>
    obtain ⟨g1, g2⟩ := hs
    cases k with
    | incl =>
      obtain ⟨b', q1, q2⟩ := setD_same hb hd d true (by rw [noday]; omega) (by omega)
      refine ⟨b', q1, (a.total + 1) % 2 ^ 64, ?_, by simp only [counted]; omega⟩
      simp only [stepD, specialD]
      rw [check_pos hok, ok_bind, q2, ok_bind]; rfl
    | excl =>
      obtain ⟨b', q1, q2⟩ := setD_same hb hd d false (by rw [noday]; omega) (by omega)
      refine ⟨b', q1, (a.total + (2 ^ 64 - 1)) % 2 ^ 64, ?_, by simp only [counted]; omega⟩
      simp only [stepD, specialD]
      rw [check_pos hok, ok_bind, q2, ok_bind]; rfl
    | other =>
      refine ⟨a.bf, rfl, a.total, ?_, by simp only [counted]; omega⟩
      simp only [stepD, specialD]
      rw [check_pos hok]; rfl

theorem running_snoc (pre : List Service) (s : Service) (d : Int) :
    Running (pre ++ [s]) d ↔ Says d true s ∨ (Running pre d ∧ ∀ w, ¬ Says d w s) := by
  simp only [Running]
  rw [last_append_right, last_cons]
  simp [not_last_nil]

theorem count_step {b b' : Bitfield} (hb : b.WF) (hb' : b'.WF) (pre : List Service) (s : Service)
    (hr : ∀ d, RunsOn b d ↔ Running pre d)
    (h : ∀ d, RunsOn b' d ↔ Says d true s ∨ (RunsOn b d ∧ ∀ w, ¬ Says d w s)) :
    (count b' : Int) = count b + counted s - needless pre s := by
  have := ncard_update (days b) (days b') (named true s) (named false s) (days_finite hb) (named_finite _ _)
    (named_finite _ _) (named_disjoint s) (by
      intro d
      simp only [days, named, Set.mem_setOf_eq, h]
      constructor
      · rintro (h | ⟨h1, h2⟩)
        · exact .inl h
        · exact .inr ⟨h1, h2 true, h2 false⟩
      · rintro (h | ⟨h1, h2, h3⟩)
        · exact .inl h
        · exact .inr ⟨h1, fun w => by cases w <;> assumption⟩)
  rw [count_days hb, count_days hb'] at this
  have e1 : named true s ∩ days b = {d | Says d true s ∧ Running pre d} := by
    ext d; simp [named, days, hr]
  have e2 : named false s \ days b = {d | Says d false s ∧ ¬ Running pre d} := by
    ext d; simp [named, days, hr]
  rw [e1, e2] at this
  rw [counted_eq, needless, this]
  omega

/-- the services after the first -/
theorem loopD_same (lo hi : Int) (hw : hi - lo < 512) (hm : hi < maxDay) (k : Int) (ss : List Service) :
    ∀ (pre : List Service) (a : Acc), a.bf.WF → lo ≤ a.bf.first → a.bf.last ≤ hi → (∀ s ∈ ss, s.Fits lo hi) →
    (∀ d, RunsOn a.bf d ↔ Running pre d) → (a.total : Int) = (count a.bf + k) % 2 ^ 64 →
    ∃ b' t, services a.bf ss = some b' ∧ loopD a ss = .ok ⟨b', t⟩ ∧ lo ≤ b'.first ∧ b'.last ≤ hi ∧ b'.WF ∧
      (t : Int) = (count b' + (k + surplus pre ss)) % 2 ^ 64 := by
  induction ss generalizing k with
  | nil =>
    intro pre a hb h1 h2 _ _ ht
    exact ⟨a.bf, a.total, rfl, rfl, h1, h2, hb, by simpa [surplus] using ht⟩
  | cons s ss ih =>
    intro pre a hb h1 h2 hf hr ht
    obtain ⟨b1, e1, hb1, q1, q2, q3⟩ := step_wf lo hi a.bf s hw hm hb h1 h2 (hf s (by simp))
    obtain ⟨b1', e2, t, e3, e4⟩ := stepD_same lo hi a s hw hm hb h1 h2 (hf s (by simp)) (by omega)
    obtain rfl : b1 = b1' := by rw [e1] at e2; exact Option.some.inj e2
    have hc := count_step hb hb1 pre s hr q3
    obtain ⟨b', t', r1, r2, r3, r4, r5, r6⟩ := ih (k + needless pre s) (pre ++ [s]) ⟨b1, t⟩ hb1 q1 q2
      (fun t ht => hf t (by simp [ht])) (fun d => by rw [running_snoc, q3, hr]) (by
        simp only
        rw [e4, hc]
        omega)
    refine ⟨b', t', by simp [services, e1, r1], ?_, r3, r4, r5, ?_⟩
    · simp only [loopD]
      rw [e3, ok_bind, r2]
    · rw [r6, surplus]
      congr 1
      omega

theorem needless_bound (lo hi : Int) (hw : hi - lo < 512) (pre : List Service) (s : Service) (hs : s.Fits lo hi) :
    -512 ≤ needless pre s ∧ needless pre s ≤ 512 := by
  have h1 : ∀ v, (named v s).ncard ≤ 512 := by
    intro v
    have hsub : named v s ⊆ (Finset.Icc lo hi : Finset Int) := by
      intro d hd
      rw [Finset.coe_Icc, Set.mem_Icc]
      cases s with
      | mask f l m =>
        obtain ⟨g1, g2, g3, g4, -⟩ := hs
        cases v
        · rw [named_false_mask] at hd; exact absurd hd (by simp)
        · rw [named_true_mask] at hd
          obtain ⟨q1, q2⟩ := hd
          obtain ⟨q3, -⟩ := List.getElem?_eq_some_iff.1 q2
          omega
      | special e k =>
        rw [named_special] at hd
        obtain ⟨g1, g2⟩ := hs
        have := hd.1
        omega
    have := Set.ncard_le_ncard hsub (Finset.finite_toSet _)
    rw [Set.ncard_coe_finset, Int.card_Icc] at this
    omega
  have h2 : Set.ncard {d | Says d true s ∧ Running pre d} ≤ (named true s).ncard :=
    Set.ncard_le_ncard (fun d h => h.1) (named_finite _ _)
  have h3 : Set.ncard {d | Says d false s ∧ ¬ Running pre d} ≤ (named false s).ncard :=
    Set.ncard_le_ncard (fun d h => h.1) (named_finite _ _)
  have := h1 true; have := h1 false
  unfold needless
  omega

theorem surplus_bound (lo hi : Int) (hw : hi - lo < 512) (ss : List Service) : ∀ pre, (∀ s ∈ ss, s.Fits lo hi) →
    -(512 * (ss.length : Int)) ≤ surplus pre ss ∧ surplus pre ss ≤ 512 * ss.length := by
  induction ss with
  | nil => intro pre _; simp [surplus]
  | cons s ss ih =>
    intro pre hf
    have h1 := needless_bound lo hi hw pre s (hf s (by simp))
    have h2 := ih (pre ++ [s]) (fun t ht => hf t (by simp [ht]))
    simp only [surplus, List.length_cons]
    omega

theorem needless_first (f l : Int) (m : List Char) : needless [] (.mask f l m) = 0 := by
  have e1 : {d | Says d true (.mask f l m) ∧ Running [] d} = ∅ := by
    ext d; simp [Running, not_last_nil]
  have e2 : {d | Says d false (.mask f l m) ∧ ¬ Running [] d} = ∅ := by
    ext d; simp [Says, SpecialOn]
  rw [needless, e1, e2]; simp

theorem count_le (b : Bitfield) : count b ≤ 512 := by
  unfold count
  refine (List.length_filter_le _ _).trans ?_
  simp [BITSIZE]

theorem parseServicesD_mask (lo hi : Int) (hw : hi - lo < 512) (hm : hi < maxDay) (f l : Int) (m : List Char)
    (ss : List Service) (hf : ∀ s ∈ .mask f l m :: ss, s.Fits lo hi) (hlen : ss.length < 2 ^ 54) :
    (surplus [] (.mask f l m :: ss) = 0 → SameAs (parseServicesD (.mask f l m :: ss)) (parseServices (.mask f l m :: ss))) ∧
    (surplus [] (.mask f l m :: ss) ≠ 0 → Stops (parseServicesD (.mask f l m :: ss))) := by
  obtain ⟨bf, hbf, hwf, e1, e2, hr⟩ := make_fits lo hi f l m hw (hf _ (by simp))
  obtain ⟨g1, g2, g3, g4, g5⟩ := hf (.mask f l m) (by simp)
  obtain ⟨bf', q1, q2⟩ := makeD_same f l m (by rw [noday]; omega) (by rw [noday]; omega) g3 g4 (by omega)
  obtain rfl : bf = bf' := by rw [hbf] at q1; exact Option.some.inj q1
  have hokf : ok fresh = false := by decide
  have hstep : step fresh (.mask f l m) = some bf := by simp [step, hbf, hokf]
  have hstepD : stepD ⟨fresh, 0⟩ (.mask f l m) = .ok ⟨bf, (0 + m.count '1') % 2 ^ 64⟩ := by
    simp only [stepD, maskD]
    rw [check_pos g3, ok_bind, check_pos (by simp only [dist]; omega), ok_bind, q2, ok_bind]
    simp only [joinD, hokf]
    rfl
  have hrun : ∀ d, RunsOn bf d ↔ Running [.mask f l m] d := by
    intro d
    rw [hr, ← List.nil_append [Service.mask f l m], running_snoc]
    simp [Running, not_last_nil, Says, SpecialOn]
  have hcount : count bf = m.count '1' := by
    rw [← count_days hwf, ← (ncard_ones f m).2]
    congr 1
    ext d
    simp [days, hr, RegularOn]
  obtain ⟨b', t, r1, r2, r3, r4, r5, r6⟩ := loopD_same lo hi hw hm 0 ss [.mask f l m]
    ⟨bf, (0 + m.count '1') % 2 ^ 64⟩ hwf (by simp only; omega) (by simp only; omega) (fun s hs => hf s (by simp [hs]))
    hrun (by simp only; omega)
  have hsur : surplus [] (.mask f l m :: ss) = surplus [.mask f l m] ss := by
    simp [surplus, needless_first]
  have hbd := surplus_bound lo hi hw ss [.mask f l m] (fun s hs => hf s (by simp [hs]))
  have hcl := count_le b'
  have hrel : parseServices (.mask f l m :: ss) = some b' := by
    simp only [parseServices, services, hstep, Option.bind_some]
    exact r1
  have hdbg : parseServicesD (.mask f l m :: ss) = finishD ⟨b', t⟩ := by
    unfold parseServicesD
    rw [check_pos hokf, ok_bind]
    simp only [loopD]
    rw [hstepD, ok_bind, r2, ok_bind]
  have hok' : ok b' = true := ok_of_lt _ (by have := r5.le; omega) (by omega)
  rw [hsur, hrel, hdbg]
  unfold finishD
  constructor
  · intro h0
    refine ⟨b', rfl, ?_⟩
    rw [check_pos hok', ok_bind, check_pos (by simp only; omega)]; rfl
  · intro h0
    refine ⟨136, ?_⟩
    rw [check_pos hok', ok_bind, check_neg (by simp only; omega)]; rfl

end Soro.Kss
