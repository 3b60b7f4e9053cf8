import Verif.Spec.Generator
import Mathlib.Logic.Function.Iterate

/-
Properties C58, C79, C80: generators.
-/

namespace Soro.Gen
open Spec
variable {α : Type}

/-- remaining sequence of a coroutine waiting for a nested one with remaining sequence `R` -/
def seqY (R S : List α × Bool) : List α × Bool := if R.2 then (R.1, true) else (R.1 ++ S.1, S.2)

/-- a suspended, running coroutine -/
def Live (s : St α) (r p : Nat) : Prop := (s.prom p).alive = true ∧ (s.prom p).done = false ∧ (s.prom p).exc = false ∧ s.root p = r ∧ p < s.next

/-- `p` is suspended in the leaf `l` with remaining sequence `R` -/
inductive Susp (s : St α) (r : Nat) : Nat → Nat → List α × Bool → Prop
  | leaf (p : Nat) : Live s r p → (s.prom p).await = none → Susp s r p p (actual (s.prom p).code)
  | node (p q l : Nat) (R : List α × Bool) : Live s r p → (s.prom p).await = some q → s.pol q = p → p < q → r < q → Susp s r q l R →
      Susp s r p l (seqY R (actual (s.prom p).code))

/-- the ancestors of `p` wait for it; `K` turns its remaining sequence into that of the root -/
inductive Up (s : St α) (r : Nat) : Nat → (List α × Bool → List α × Bool) → Prop
  | root : Up s r r id
  | step (p q : Nat) (K : List α × Bool → List α × Bool) : Live s r p → (s.prom p).await = some q → s.pol q = p → p < q → r < q → Up s r p K →
      Up s r q (fun R => K (seqY R (actual (s.prom p).code)))

theorem Up.congr {s s' : St α} {r p : Nat} {K} (h : Up s r p K) (h1 : ∀ i, i < p → s'.prom i = s.prom i)
    (h2 : ∀ i, i < p → s'.root i = s.root i) (h3 : ∀ i, i ≤ p → i ≠ r → s'.pol i = s.pol i) (h4 : s.next ≤ s'.next) : Up s' r p K := by
  induction h with
  | root => exact .root
  | step p q K hl ha hp hpq hr _ ih =>
    have e := h1 p hpq
    have := Up.step (s := s') (r := r) p q K ?_ (by rw [e]; exact ha) (by rw [h3 q (Nat.le_refl _) (by omega)]; exact hp) hpq hr
      (ih (fun i hi => h1 i (by omega)) (fun i hi => h2 i (by omega)) (fun i hi => h3 i (by omega)))
    · rw [e] at this; exact this
    · obtain ⟨a, b, c, d, e'⟩ := hl
      exact ⟨by rw [e]; exact a, by rw [e]; exact b, by rw [e]; exact c, by rw [h2 p hpq]; exact d, by omega⟩

theorem Susp.congr {s s' : St α} {r p l : Nat} {R} (h : Susp s r p l R) (h1 : ∀ i, p ≤ i → s'.prom i = s.prom i)
    (h2 : ∀ i, p ≤ i → s'.root i = s.root i) (h3 : ∀ i, p ≤ i → i ≠ r → s'.pol i = s.pol i) (h4 : s.next ≤ s'.next) :
    Susp s' r p l R := by
  induction h with
  | leaf p hl ha =>
    have e := h1 p (Nat.le_refl _)
    have := Susp.leaf (s := s') (r := r) p ?_ (by rw [e]; exact ha)
    · rw [e] at this; exact this
    · obtain ⟨a, b, c, d, e'⟩ := hl
      exact ⟨by rw [e]; exact a, by rw [e]; exact b, by rw [e]; exact c, by rw [h2 p (Nat.le_refl _)]; exact d, by omega⟩
  | node p q l R hl ha hp hpq hr _ ih =>
    have e := h1 p (Nat.le_refl _)
    have := Susp.node (s := s') (r := r) p q l R ?_ (by rw [e]; exact ha) (by rw [h3 q (by omega) (by omega)]; exact hp) hpq hr
      (ih (fun i hi => h1 i (by omega)) (fun i hi => h2 i (by omega)) (fun i hi => h3 i (by omega)))
    · rw [e] at this; exact this
    · obtain ⟨a, b, c, d, e'⟩ := hl
      exact ⟨by rw [e]; exact a, by rw [e]; exact b, by rw [e]; exact c, by rw [h2 p (Nat.le_refl _)]; exact d, by omega⟩

theorem Susp.up {s : St α} {r p l : Nat} {R} (h : Susp s r p l R) {K} (hK : Up s r p K) :
    ∃ K', Up s r l K' ∧ Live s r l ∧ (s.prom l).await = none ∧ K' (actual (s.prom l).code) = K R := by
  induction h generalizing K with
  | leaf p hl ha => exact ⟨K, hK, hl, ha, rfl⟩
  | node p q l R hl ha hp hpq hr _ ih => exact ih (.step p q K hl ha hp hpq hr hK)

theorem Susp.head {s : St α} {r p l : Nat} {R} (h : Susp s r p l R) : Live s r p := by
  cases h <;> assumption

/-- what `run` does to memory: only `p`, the leaf pointer of the root and new promises change -/
structure Frame (s s' : St α) (r p : Nat) : Prop where
  prom : ∀ i, i < s.next → i ≠ p → s'.prom i = s.prom i
  root : ∀ i, i < s.next → s'.root i = s.root i
  pol : ∀ i, i < s.next → i ≠ r → s'.pol i = s.pol i
  next : s.next ≤ s'.next

theorem Frame.trans {s s' s'' : St α} {r p : Nat} (h : Frame s s' r p) (h' : Frame s' s'' r p) : Frame s s'' r p where
  prom i hi hp := by rw [h'.prom i (by have := h.next; omega) hp, h.prom i hi hp]
  root i hi := by rw [h'.root i (by have := h.next; omega), h.root i hi]
  pol i hi hr := by rw [h'.pol i (by have := h.next; omega) hr, h.pol i hi hr]
  next := Nat.le_trans h.next h'.next

/-- result of executing a body with sequence `R` in coroutine `p` -/
def RunRes (s' : St α) (r p : Nat) (R : List α × Bool) : Prop :=
  (∃ e, R = ([], e) ∧ (s'.prom p).done = true ∧ (s'.prom p).exc = e ∧ (s'.prom p).alive = true ∧ s'.pol r = p) ∨
  (∃ v vs e l, R = (v :: vs, e) ∧ Susp s' r p l (vs, e) ∧ s'.pol r = l ∧ (s'.prom l).value = some v ∧ l < s'.next)

theorem run_spec (g : Body α) (p r : Nat) (s : St α) (hl : Live s r p) (ha : (s.prom p).await = none) (hr : r ≤ p)
    (hra : (s.prom r).alive = true) (hpol : s.pol r = p) :
    ∃ s', run g p s = some s' ∧ Frame s s' r p ∧ RunRes s' r p (actual g) ∧ (s'.prom p).alive = true := by
  induction g generalizing p s with
  | ret =>
    obtain ⟨a, b, c, d, e⟩ := hl
    refine ⟨_, rfl, ⟨?_, ?_, ?_, ?_⟩, .inl ⟨false, rfl, ?_, ?_, ?_, ?_⟩, ?_⟩ <;> simp_all [St.setProm, upd]
  | throw =>
    obtain ⟨a, b, c, d, e⟩ := hl
    refine ⟨_, rfl, ⟨?_, ?_, ?_, ?_⟩, .inl ⟨true, rfl, ?_, ?_, ?_, ?_⟩, ?_⟩ <;> simp_all [St.setProm, upd]
  | yield v k =>
    obtain ⟨a, b, c, d, e⟩ := hl
    refine ⟨_, rfl, ⟨?_, ?_, ?_, ?_⟩, .inr ⟨v, (actual k).1, (actual k).2, p, rfl, ?_, ?_, ?_, ?_⟩, ?_⟩
    case refine_5 =>
      have := Susp.leaf (s := s.setProm p { s.prom p with code := k, value := some v }) (r := r) p
        ⟨by simp [St.setProm, upd, a], by simp [St.setProm, upd, b], by simp [St.setProm, upd, c], by simp [St.setProm, d],
          by simpa [St.setProm] using e⟩ (by simp [St.setProm, upd, ha])
      simpa [St.setProm, upd] using this
    all_goals simp_all [St.setProm, upd]
  | null k ih => exact ih p s hl ha hr hra hpol
  | nested c k ihc ihk =>
    obtain ⟨hal, hnd, hne, hroot, hlt⟩ := id hl
    rw [run]
    -- the memory after linking the child
    generalize hs1 : (((s.create c).setPol ((s.create c).root p) s.next).setRoot s.next
      (((s.create c).setPol ((s.create c).root p) s.next).root p)).setPol s.next p = s1
    have hrc : (s.create c).root p = r := by simp [St.create, upd, hroot]; omega
    have hpr : ((s.create c).prom r) = s.prom r := by simp [St.create, upd]; omega
    have f1 : s1.next = s.next + 1 := by rw [← hs1]; rfl
    have f2 : ∀ i, i < s.next → s1.prom i = s.prom i := by
      intro i hi; rw [← hs1]; simp [St.create, St.setPol, St.setRoot, upd]; omega
    have f3 : ∀ i, i < s.next → s1.root i = s.root i := by
      intro i hi; rw [← hs1]
      have : i ≠ s.next := by omega
      simp [St.create, St.setPol, St.setRoot, upd, this]
    have f4 : ∀ i, i < s.next → i ≠ r → s1.pol i = s.pol i := by
      intro i hi hir; rw [← hs1]
      have : i ≠ s.next := by omega
      simp only [St.setPol, St.setRoot, upd, this, if_false, hrc, hir]
      simp [St.create, upd, this]
    have f5 : s1.prom s.next = ⟨c, false, false, none, none, true⟩ := by
      rw [← hs1]; simp [St.create, St.setPol, St.setRoot, upd]
    have f6 : s1.root s.next = r := by
      rw [← hs1]; simp only [St.setPol, St.setRoot, upd, if_true]; exact hrc
    have f7 : s1.pol s.next = p := by rw [← hs1]; simp [St.setPol, upd]
    have f8 : s1.pol r = s.next := by
      have : r ≠ s.next := by omega
      rw [← hs1]; simp only [St.setPol, St.setRoot, upd, this, if_false, hrc, if_true]
    have hq : Live s1 r s.next := ⟨by rw [f5], by rw [f5], by rw [f5], f6, by omega⟩
    obtain ⟨s2, e2, fr2, res2, al2⟩ := ihc s.next s1 hq (by rw [f5]) (by omega) (by rw [f2 r (by omega)]; exact hra) f8
    have h1 : (!((s.create c).prom ((s.create c).root p)).alive) = false := by rw [hrc, hpr, hra]; rfl
    have hp2 : s2.prom p = s.prom p := by rw [fr2.prom p (by omega) (by omega), f2 p hlt]
    have hroot2 : s2.root p = r := by rw [fr2.root p (by omega), f3 p hlt, hroot]
    have hr2 : s2.prom r = s.prom r := by rw [fr2.prom r (by omega) (by omega), f2 r (by omega)]
    dsimp only
    rw [h1, if_neg (by decide), hs1, e2]
    dsimp only
    rw [al2, if_neg (by decide)]
    rcases res2 with ⟨e, hR, hd, he, -, hpol2⟩ | ⟨v, vs, e, l, hR, hS, hpl, hv, hll⟩
    · -- the child has finished at once
      rw [hd, if_neg (by decide), hroot2, hr2, hra, if_neg (by decide)]
      generalize hs3 : (s2.setPol r p).destroy s.next = s3
      have g1 : ∀ i, i ≠ s.next → s3.prom i = s2.prom i := by
        intro i hi; rw [← hs3]; simp [St.destroy, St.setProm, St.setPol, upd, hi]
      have g2 : s3.root = s2.root := by rw [← hs3]; rfl
      have g3 : s3.pol = upd s2.pol r p := by rw [← hs3]; rfl
      have g4 : s3.next = s2.next := by rw [← hs3]; rfl
      have g5 : s3.prom p = s.prom p := by rw [g1 p (by omega), hp2]
      have hn2 := fr2.next
      obtain ⟨s4, e4, fr4, res4, al4⟩ := ihk p s3 ⟨by rw [g5]; exact hal, by rw [g5]; exact hnd, by rw [g5]; exact hne,
        by rw [g2]; exact hroot2, by omega⟩ (by rw [g5]; exact ha) hr (by rw [g1 r (by omega), hr2]; exact hra) (by rw [g3]; simp [upd])
      refine ⟨s4, e4, Frame.trans ⟨?_, ?_, ?_, ?_⟩ fr4, ?_, al4⟩
      · intro i hi hip; rw [g1 i (by omega), fr2.prom i (by omega) (by omega), f2 i hi]
      · intro i hi; rw [g2, fr2.root i (by omega), f3 i hi]
      · intro i hi hir; rw [g3]; simp only [upd, hir, if_false]; rw [fr2.pol i (by omega) hir, f4 i hi hir]
      · omega
      · have : actual (.nested c k) = actual k := by
          simp [actual, hR]
        rw [this]; exact res4
    · -- the child has yielded
      have hd : (s2.prom s.next).done = false := hS.head.2.1
      have hn2 := fr2.next
      have hS' : Susp s2 r s.next l (vs, e) := hS
      rw [hd]
      refine ⟨_, rfl, ⟨?_, ?_, ?_, ?_⟩, .inr ⟨v, (seqY (vs, e) (actual k)).1, (seqY (vs, e) (actual k)).2, l, ?_, ?_, ?_, ?_, ?_⟩, ?_⟩
      · intro i hi hip
        simp only [St.setProm, upd, hip, if_false]
        rw [fr2.prom i (by omega) (by omega), f2 i hi]
      · intro i hi; simp only [St.setProm]; rw [fr2.root i (by omega), f3 i hi]
      · intro i hi hir; simp only [St.setProm]; rw [fr2.pol i (by omega) hir, f4 i hi hir]
      · simp only [St.setProm]; omega
      · rw [actual, hR, seqY]
        cases e <;> simp
      · have := Susp.node (s := s2.setProm p { s2.prom p with code := k, await := some s.next }) (r := r) p s.next l (vs, e)
          ⟨by simp [St.setProm, upd, hp2, hal], by simp [St.setProm, upd, hp2, hnd], by simp [St.setProm, upd, hp2, hne],
            by simp [St.setProm, hroot2], by simp [St.setProm]; omega⟩
          (by simp [St.setProm, upd])
          (by simp only [St.setProm]; rw [fr2.pol s.next (by omega) (by omega), f7]) (by omega) (by omega)
          (hS'.congr (fun i hi => by have : i ≠ p := by omega
                                     simp [St.setProm, upd, this]) (fun i _ => rfl) (fun i _ _ => rfl) (Nat.le_refl _))
        simpa [St.setProm, upd] using this
      · exact hpl
      · have : l ≠ p := by
          have : ∀ (a b : Nat) R, Susp s2 r a b R → a ≤ b := by
            intro a b R h
            induction h with
            | leaf => exact Nat.le_refl _
            | node p q l R _ _ _ h _ _ ih => omega
          have := this _ _ _ hS'
          omega
        simp only [St.setProm, upd, this, if_false]
        exact hv
      · exact hll
      · simp [St.setProm, upd, hp2, hal]

/-- between two steps: the leaf is suspended and the sequence still to come is `R` -/
def Inv (s : St α) (r : Nat) (R : List α × Bool) : Prop :=
  ∃ l K, Up s r l K ∧ Live s r l ∧ (s.prom l).await = none ∧ s.pol r = l ∧ r ≤ l ∧ (s.prom r).alive = true ∧
    K (actual (s.prom l).code) = R

/-- after a step of an iteration over a sequence `R` -/
def StepRes (s' : St α) (r : Nat) (R : List α × Bool) : Prop :=
  (∃ e, R = ([], e) ∧ (s'.prom r).done = true ∧ (s'.prom r).exc = e) ∨
  (∃ v vs e, R = (v :: vs, e) ∧ Inv s' r (vs, e) ∧ (s'.prom (s'.pol r)).value = some v ∧ (s'.prom r).done = false)

theorem Up.le {s : St α} {r p : Nat} {K} (h : Up s r p K) : r ≤ p := by
  cases h with
  | root => exact Nat.le_refl _
  | step => omega

theorem Up.rootLive {s : St α} {r p : Nat} {K} (h : Up s r p K) : p = r ∨ Live s r r := by
  induction h with
  | root => exact .inl rfl
  | step p q K hl _ _ _ _ _ ih =>
    rcases ih with rfl | h
    · exact .inr hl
    · exact .inr h

theorem Susp.le {s : St α} {r p l : Nat} {R} (h : Susp s r p l R) : p ≤ l := by
  induction h with
  | leaf => exact Nat.le_refl _
  | node _ _ _ _ _ _ _ _ _ _ ih => omega

/-- a suspension result below waiting ancestors is a result of the whole step -/
theorem stepRes_of_susp {s : St α} {r p l : Nat} {vs : List α} {v : α} {e : Bool} {K} (hK : Up s r p K) (hS : Susp s r p l (vs, e))
    (hpl : s.pol r = l) (hv : (s.prom l).value = some v) (hra : (s.prom r).alive = true)
    (hKv : K (v :: vs, e) = (v :: (K (vs, e)).1, (K (vs, e)).2)) : StepRes s r (K (v :: vs, e)) := by
  obtain ⟨K', h1, h2, h3, h4⟩ := hS.up hK
  refine .inr ⟨v, (K (vs, e)).1, (K (vs, e)).2, hKv, ⟨l, K', h1, h2, h3, hpl, h1.le, hra, h4⟩, by rw [hpl]; exact hv, ?_⟩
  rcases h1.rootLive with rfl | h
  · exact h2.2.1
  · exact h.2.1

/-- ancestors pass values on unchanged -/
theorem Up.cons {s : St α} {r p : Nat} {K} (h : Up s r p K) (v : α) (vs : List α) (e : Bool) :
    K (v :: vs, e) = (v :: (K (vs, e)).1, (K (vs, e)).2) := by
  induction h generalizing vs e with
  | root => rfl
  | step p q K _ _ _ _ _ _ ih =>
    show K (seqY _ _) = _
    cases e
    · exact ih _ _
    · exact ih _ _

theorem loop_spec (n : Nat) (s : St α) (r l : Nat) (K) (e : Bool) (hn : l < n) (hK : Up s r l K) (hpl : s.pol r = l)
    (hd : (s.prom l).done = true) (he : (s.prom l).exc = e) (hal : (s.prom l).alive = true) (hln : l < s.next)
    (hra : (s.prom r).alive = true) : ∃ s', pullLoop n r s = some s' ∧ StepRes s' r (K ([], e)) := by
  induction n generalizing s l K e with
  | zero => omega
  | succ n ih =>
    rw [pullLoop]
    simp only [hpl, hal, Bool.not_true, Bool.false_eq_true, if_false, hd, and_true]
    cases hK with
    | root =>
      rw [if_neg (by simp)]
      exact ⟨s, rfl, .inl ⟨e, rfl, hd, he⟩⟩
    | step p _ K hlive haw hpol hpq hrq hUp =>
      rw [if_pos (by omega)]
      obtain ⟨pa, pd, pe, pr, pn⟩ := id hlive
      have hrp := hUp.le
      -- the leaf pointer moves to the parent, which is resumed
      rw [hpol]
      have e1 : (s.setPol r p).pol r = p := by simp [St.setPol, upd]
      rw [e1, resume]
      have e2 : (s.setPol r p).prom = s.prom := rfl
      simp only [e2, pa, pd, haw, hal, Bool.not_true, Bool.or_false, Bool.false_eq_true, if_false, he]
      have hne : p ≠ l := by omega
      have hrl : r ≠ l := by omega
      have pd' : (((s.setPol r p).destroy l).prom p) = s.prom p := by simp [St.destroy, St.setProm, St.setPol, upd, hne]
      cases e with
      | true =>
        simp only [if_true, pd']
        generalize hs2 : ((s.setPol r p).destroy l).setProm p { s.prom p with await := none, code := .ret, done := true, exc := true } = s2
        have g1 : ∀ i, i ≠ p → i ≠ l → s2.prom i = s.prom i := by
          intro i h1 h2; rw [← hs2]; simp [St.destroy, St.setProm, St.setPol, upd, h1, h2]
        have g2 : s2.prom p = { s.prom p with await := none, code := .ret, done := true, exc := true } := by
          rw [← hs2]; simp [St.setProm, upd]
        have g3 : s2.pol = upd s.pol r p := by rw [← hs2]; rfl
        have g4 : s2.root = s.root := by rw [← hs2]; rfl
        have g5 : s2.next = s.next := by rw [← hs2]; rfl
        have := ih s2 p K true (by omega)
          (hUp.congr (fun i hi => g1 i (by omega) (by omega)) (fun i _ => by rw [g4]) (fun i _ hi => by rw [g3]; simp [upd, hi])
            (by omega)) (by rw [g3]; simp [upd]) (by rw [g2]) (by rw [g2]) (by rw [g2]; exact pa) (by omega)
          (by by_cases h : r = p
              · rw [h, g2]; exact pa
              · rw [g1 r h hrl]; exact hra)
        exact this
      | false =>
        simp only [if_false, pd', Bool.false_eq_true]
        generalize hs2 : ((s.setPol r p).destroy l).setProm p { s.prom p with await := none } = s2
        have g1 : ∀ i, i ≠ p → i ≠ l → s2.prom i = s.prom i := by
          intro i h1 h2; rw [← hs2]; simp [St.destroy, St.setProm, St.setPol, upd, h1, h2]
        have g2 : s2.prom p = { s.prom p with await := none } := by rw [← hs2]; simp [St.setProm, upd]
        have g3 : s2.pol = upd s.pol r p := by rw [← hs2]; rfl
        have g4 : s2.root = s.root := by rw [← hs2]; rfl
        have g5 : s2.next = s.next := by rw [← hs2]; rfl
        have hra2 : (s2.prom r).alive = true := by
          by_cases h : r = p
          · rw [h, g2]; exact pa
          · rw [g1 r h hrl]; exact hra
        have hUp2 : Up s2 r p K :=
          hUp.congr (fun i hi => g1 i (by omega) (by omega)) (fun i _ => by rw [g4]) (fun i _ hi => by rw [g3]; simp [upd, hi]) (by omega)
        obtain ⟨s3, e3, fr3, res3, al3⟩ := run_spec (s.prom p).code p r s2
          ⟨by rw [g2]; exact pa, by rw [g2]; exact pd, by rw [g2]; exact pe, by rw [g4]; exact pr, by omega⟩ (by rw [g2]) hrp hra2
          (by rw [g3]; simp [upd])
        rw [e3]
        have hp2 : p < s2.next := by omega
        have hn3 := fr3.next
        have hUp3 : Up s3 r p K := hUp2.congr (fun i hi => fr3.prom i (by omega) (by omega)) (fun i hi => fr3.root i (by omega))
          (fun i hi hr => fr3.pol i (by omega) hr) hn3
        have hra3 : (s3.prom r).alive = true := by
          by_cases h : r = p
          · rw [h]; exact al3
          · rw [fr3.prom r (by omega) h]; exact hra2
        have hK0 : K (seqY ([], false) (actual (s.prom p).code)) = K (actual (s.prom p).code) := by
          simp [seqY]
        rw [hK0]
        rcases res3 with ⟨e', hR, hd', he', ha', hpol'⟩ | ⟨v, vs, e', l', hR, hS, hpl', hv, hll⟩
        · rw [hR]
          exact ih s3 p K e' (by omega) hUp3 hpol' hd' he' ha' (by omega) hra3
        · rw [hR]
          have hres := stepRes_of_susp hUp3 hS hpl' hv hra3 (hUp3.cons v vs e')
          obtain ⟨K', h1, h2, h3, h4⟩ := hS.up hUp3
          refine ⟨s3, ?_, hres⟩
          show pullLoop n r s3 = some s3
          cases n with
          | zero => omega
          | succ n =>
            rw [pullLoop]
            simp only [hpl', h2.1, h2.2.1, Bool.not_true, Bool.false_eq_true, if_false, and_false]

theorem pull_spec (s : St α) (r : Nat) (R : List α × Bool) (h : Inv s r R) : ∃ s', pull r s = some s' ∧ StepRes s' r R := by
  obtain ⟨l, K, hUp, hlive, haw, hpl, hrl, hra, hK⟩ := h
  obtain ⟨la, ld, le', lr, ln⟩ := id hlive
  obtain ⟨s2, e2, fr, res, al⟩ := run_spec (s.prom l).code l r s hlive haw hrl hra hpl
  have hn := fr.next
  have hUp2 : Up s2 r l K := hUp.congr (fun i hi => fr.prom i (by omega) (by omega)) (fun i hi => fr.root i (by omega))
    (fun i hi hr => fr.pol i (by omega) hr) hn
  have hra2 : (s2.prom r).alive = true := by
    by_cases h : r = l
    · rw [h]; exact al
    · rw [fr.prom r (by omega) h]; exact hra
  have hres : resume (s.pol r) s = some s2 := by
    rw [hpl, resume]
    simp only [la, ld, haw, Bool.not_true, Bool.or_false, Bool.false_eq_true, if_false]
    exact e2
  rw [pull, hres]
  dsimp only
  rcases res with ⟨e', hR, hd', he', ha', hpol'⟩ | ⟨v, vs, e', l', hR, hS, hpl', hv, hll⟩
  · rw [hR] at hK
    rw [← hK]
    exact loop_spec _ s2 r l K e' (by omega) hUp2 hpol' hd' he' ha' (by omega) hra2
  · rw [hR] at hK
    rw [← hK]
    have hres := stepRes_of_susp hUp2 hS hpl' hv hra2 (hUp2.cons v vs e')
    obtain ⟨K', h1, h2, h3, h4⟩ := hS.up hUp2
    refine ⟨s2, ?_, hres⟩
    rw [pullLoop]
    simp only [hpl', h2.1, h2.2.1, Bool.not_true, Bool.false_eq_true, if_false, and_false]

theorem consume_spec (vs : List α) (e : Bool) (s : St α) (r fuel : Nat) (h : Inv s r (vs, e)) (hf : vs.length < fuel) :
    consume fuel r s = some (vs, e) := by
  induction fuel generalizing vs s with
  | zero => omega
  | succ fuel ih =>
    obtain ⟨s', h1, h2⟩ := pull_spec s r _ h
    rw [consume, step, h1]
    rcases h2 with ⟨e', hR, hd, he⟩ | ⟨v, vs', e', hR, hI, hv, hd⟩
    · cases hR
      simp only [hd, if_true]
      cases e <;> simp [he]
    · cases hR
      have hal : (s'.prom (s'.pol r)).alive = true := by
        obtain ⟨l, K, _, hl, _, hp, _⟩ := hI
        rw [hp]; exact hl.1
      simp only [hd, if_false, hal, Bool.not_true, hv, Bool.false_eq_true]
      rw [ih vs' s' hI (by simpa using hf)]
      rfl

theorem inv_start (g : Body α) : Inv (start g) 0 (actual g) := by
  refine ⟨0, id, .root, ⟨?_, ?_, ?_, ?_, ?_⟩, ?_, ?_, ?_, ?_, ?_⟩ <;> simp [start, St.create, upd]

/-- C58/C79, exact behaviour: the loop over a generator ends, never touches a destroyed or finished coroutine, and sees the
sequence `actual`. -/
theorem C79_actual_partial (g : Body α) (fuel : Nat) (hf : (actual g).1.length < fuel) : consume fuel 0 (start g) = some (actual g) :=
  consume_spec _ _ _ _ _ (inv_start g) hf

theorem actual_noThrow (g : Body α) (h : NoThrow g) : actual g = (flatten g, false) := by
  induction g with
  | ret => rfl
  | throw => cases h
  | yield v k ih => simp [actual, flatten, ih h]
  | nested c k ihc ihk => simp [actual, flatten, ihc h.1, ihk h.2]
  | null k ih => simp [actual, flatten, ih h]

/-- C58: consuming a recursive generator yields the nested sequences flattened in order. -/
theorem C58_flattened (g : Body α) (h : NoThrow g) (fuel : Nat) (hf : (flatten g).length < fuel) :
    consume fuel 0 (start g) = some (flatten g, false) := by
  rw [← actual_noThrow g h]
  exact C79_actual_partial g fuel (by rw [actual_noThrow g h]; exact hf)

theorem actual_ideal (g : Body α) (h : LateThrow g) : actual g = ideal g := by
  induction g with
  | ret => rfl
  | throw => rfl
  | yield v k ih => simp [actual, ideal, ih h]
  | nested c k ihc ihk =>
    obtain ⟨h1, h2, h3⟩ := h
    rw [actual, ideal, ihc h1, ihk h3]
    by_cases he : (ideal c).2 = true
    · simp [he, h2 he]
    · simp [he]
  | null k ih => simp [actual, ideal, ih h]

/-- C79 (partial): an exception reaches the consumer after the values before it, provided no nested generator throws before its
first value. -/
theorem C79_late_throw_partial (g : Body α) (h : LateThrow g) (fuel : Nat) (hf : (ideal g).1.length < fuel) :
    consume fuel 0 (start g) = some (ideal g) := by
  rw [← actual_ideal g h]
  exact C79_actual_partial g fuel (by rw [actual_ideal g h]; exact hf)

/-- C79 is false: if a nested generator throws before its first value, the exception disappears and iteration goes on. -/
theorem C79_negation (k : Body α) (h : NoThrow k) (fuel : Nat) (hf : (flatten k).length < fuel) :
    consume fuel 0 (start (.nested .throw k)) = some (flatten k, false) ∧ (ideal (.nested .throw k)).2 = true := by
  refine ⟨?_, rfl⟩
  have : actual (.nested .throw k) = (flatten k, false) := by simp [actual, actual_noThrow k h]
  rw [← this]
  exact C79_actual_partial _ fuel (by rw [this]; exact hf)

/-- C79 is false for plain generators: an exception looks like the end of the sequence. -/
theorem C79_plain_negation : ∃ b : Plain Nat, throws b = true ∧ b.call.consume 10 = some [1, 2] ∧
    b.call.consume 10 = (Plain.yield 1 (.yield 2 .ret)).call.consume 10 :=
  ⟨.yield 1 (.yield 2 .throw), rfl, by decide, by decide⟩

/-- C80: a loop over a plain generator sees the values in order; `begin` does not change the generator, so a second loop goes on
where the first has stopped: after `n` steps it sees the values but the first `n`. -/
theorem C80_plain (b : Plain α) (n fuel : Nat) (hn : n ≤ (values b).length) (hf : (values b).length - n < fuel) :
    ((fun s : PlainSt α => s.next)^[n] b.call).consume fuel = some ((values b).drop n) := by
  have base : ∀ (b : Plain α) (o : Option α) (fuel : Nat), (values b).length < fuel → (b.exec o).consume fuel = some (values b) := by
    intro b
    induction b with
    | ret => intro o fuel hf; cases fuel <;> simp_all [Plain.exec, PlainSt.consume, PlainSt.current, values]
    | throw => intro o fuel hf; cases fuel <;> simp_all [Plain.exec, PlainSt.consume, PlainSt.current, values]
    | yield v k ih =>
      intro o fuel hf
      cases fuel with
      | zero => simp at hf
      | succ fuel =>
        show (PlainSt.consume fuel (k.exec (some v))).map (v :: ·) = _
        rw [ih (some v) fuel (by simpa [values] using hf)]
        rfl
  have gen : ∀ (n : Nat) (b : Plain α) (o : Option α), n ≤ (values b).length → (values b).length - n < fuel →
      ((fun s : PlainSt α => s.next)^[n] (b.exec o)).consume fuel = some ((values b).drop n) := by
    intro n
    induction n with
    | zero => intro b o _ hf; simpa using base b o fuel (by simpa using hf)
    | succ n ih =>
      intro b o hn hf
      cases b with
      | ret => simp [values] at hn
      | throw => simp [values] at hn
      | yield v k =>
        simp only [values, List.length_cons] at hn hf
        rw [Function.iterate_succ_apply]
        exact ih k (some v) (by omega) (by omega)
  exact gen n b none hn hf

/-! a tree with nested and empty generators -/
def sample : Body Nat := .yield 1 (.nested (.nested (.yield 2 (.null .ret)) (.nested .ret (.yield 3 .ret))) (.yield 4 .ret))

example : NoThrow sample ∧ flatten sample = [1, 2, 3, 4] := ⟨by simp [sample, NoThrow], rfl⟩
example : (consume 10 0 (start sample)) = some ([1, 2, 3, 4], false) := by decide
example : LateThrow (.nested (.yield 1 .throw) (.yield 2 .ret) : Body Nat) ∧
    consume 10 0 (start (.nested (.yield 1 .throw) (.yield 2 .ret) : Body Nat)) = some ([1], true) := by
  refine ⟨by simp [LateThrow, ideal], by decide⟩

end Soro.Gen
