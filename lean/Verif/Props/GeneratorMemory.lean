import Verif.Props.Generator

/-! Property C188: nested generators are destroyed when they are finished. -/

namespace Soro.Gen
variable {α : Type}

/-- the promises on the way from `r` to `l`, each of which awaits the next one; the last one first -/
inductive Way (s : St α) (r : Nat) : Nat → List Nat → Prop
  | root : Way s r r [r]
  | step (p q : Nat) (c : List Nat) : Way s r p c → (s.prom p).await = some q → (s.prom p).done = false → s.pol q = p → p < q →
      Way s r q (q :: c)

theorem Way.le {s : St α} {r l : Nat} {c : List Nat} (h : Way s r l c) : ∀ i ∈ c, r ≤ i ∧ i ≤ l := by
  induction h with
  | root => simp
  | step p q c _ _ _ _ hlt ih =>
    intro i hi
    rcases List.mem_cons.1 hi with rfl | hi
    · have := ih p (by rename_i h _ _ _ ; cases h <;> simp)
      omega
    · have := ih i hi
      omega

theorem Way.mem {s : St α} {r l : Nat} {c : List Nat} (h : Way s r l c) : l ∈ c := by cases h <;> simp

theorem Way.single {s : St α} {r l : Nat} (h : Way s r l [r]) : l = r := by
  generalize hc : [r] = c at h
  cases h with
  | root => rfl
  | step p q c h1 _ _ _ _ =>
    rw [List.cons.injEq] at hc
    exact hc.1.symm

theorem Way.congr {s s' : St α} {r l : Nat} {c : List Nat} (h : Way s r l c) (hp : ∀ i, i < l → r ≤ i → s'.prom i = s.prom i)
    (hq : ∀ i, i ≤ l → r < i → s'.pol i = s.pol i) : Way s' r l c := by
  induction h with
  | root => exact .root
  | step p q c h1 ha hd hpol hlt ih =>
    have hr := (h1.le p h1.mem).1
    refine .step p q c (ih (fun i hi => hp i (by omega)) fun i hi => hq i (by omega)) ?_ ?_ ?_ hlt
    · rw [hp p hlt hr]; exact ha
    · rw [hp p hlt hr]; exact hd
    · rw [hq q (Nat.le_refl _) (by omega)]; exact hpol

theorem Way.append {s : St α} {r p l : Nat} {c d : List Nat} (h : Way s r p c) (h' : Way s p l (d ++ [p])) : Way s r l (d ++ c) := by
  generalize hd : d ++ [p] = e at h'
  induction h' generalizing d with
  | root =>
    cases d with
    | nil => exact h
    | cons a d => simp at hd
  | step p' q e h1 ha hd' hpol hlt ih =>
    cases d with
    | nil =>
      have := h1.mem
      simp at hd
      obtain ⟨rfl, rfl⟩ := hd
      cases this
    | cons a d =>
      rw [List.cons_append, List.cons.injEq] at hd
      obtain ⟨rfl, hd⟩ := hd
      exact .step _ _ _ (ih hd) ha hd' hpol hlt

/-- what executing a body does: new promises are alive only if they are on the way to the one that is suspended -/
structure Ran (s s' : St α) (r p : Nat) (l : Nat) (d : List Nat) : Prop where
  next : s.next ≤ s'.next
  prom : ∀ i, i < s.next → i ≠ p → s'.prom i = s.prom i
  root : ∀ i, i < s.next → s'.root i = s.root i
  pol : ∀ i, i < s.next → i ≠ r → s'.pol i = s.pol i
  leaf : s'.pol r = l
  way : Way s' p l (d ++ [p])
  fresh : ∀ i ∈ d, s.next ≤ i ∧ i < s'.next ∧ s'.root i = r
  alive : ∀ i, s.next ≤ i → ((s'.prom i).alive = true ↔ i ∈ d)
  own : (s'.prom p).alive = (s.prom p).alive
  idle : (s'.prom l).await = none
  ended : (s'.prom p).done = true → d = []
  going : d ≠ [] → (s'.prom l).done = false

theorem run_ran (g : Body α) (p r : Nat) (s s' : St α) (h : run g p s = some s') (hlt : p < s.next) (hr : r ≤ p)
    (ha : (s.prom p).await = none) (hd : (s.prom p).done = false) (hroot : s.root p = r) (hpol : s.pol r = p)
    (hnew : ∀ i, s.next ≤ i → (s.prom i).alive = false) : ∃ l d, Ran s s' r p l d := by
  induction g generalizing p s s' with
  | ret =>
    cases h
    refine ⟨p, [], Nat.le_refl _, ?_, fun _ _ => rfl, fun _ _ _ => rfl, hpol, .root, by simp, ?_, ?_, ?_, fun _ => rfl, by simp⟩
    · intro i _ hi; simp [St.setProm, upd, hi]
    · intro i hi
      have : i ≠ p := by omega
      simp [St.setProm, upd, this, hnew i hi]
    · simp [St.setProm, upd]
    · simp [St.setProm, upd, ha]
  | throw =>
    cases h
    refine ⟨p, [], Nat.le_refl _, ?_, fun _ _ => rfl, fun _ _ _ => rfl, hpol, .root, by simp, ?_, ?_, ?_, fun _ => rfl, by simp⟩
    · intro i _ hi; simp [St.setProm, upd, hi]
    · intro i hi
      have : i ≠ p := by omega
      simp [St.setProm, upd, this, hnew i hi]
    · simp [St.setProm, upd]
    · simp [St.setProm, upd, ha]
  | yield v k =>
    cases h
    refine ⟨p, [], Nat.le_refl _, ?_, fun _ _ => rfl, fun _ _ _ => rfl, hpol, .root, by simp, ?_, ?_, ?_, fun _ => rfl, by simp⟩
    · intro i _ hi; simp [St.setProm, upd, hi]
    · intro i hi
      have : i ≠ p := by omega
      simp [St.setProm, upd, this, hnew i hi]
    · simp [St.setProm, upd]
    · simp [St.setProm, upd, ha]
  | null k ih => exact ih p s s' h hlt hr ha hd hroot hpol hnew
  | nested c k ihc ihk =>
    rw [run] at h
    dsimp only at h
    split at h
    · cases h
    generalize hs1 : (((s.create c).setPol ((s.create c).root p) s.next).setRoot s.next
      (((s.create c).setPol ((s.create c).root p) s.next).root p)).setPol s.next p = s1 at h
    have hrc : (s.create c).root p = r := by simp [St.create, upd, hroot]; omega
    have f1 : s1.next = s.next + 1 := by rw [← hs1]; rfl
    have f2 : ∀ i, i ≠ s.next → s1.prom i = s.prom i := by
      intro i hi; rw [← hs1]; simp [St.create, St.setPol, St.setRoot, upd, hi]
    have f3 : ∀ i, i < s.next → s1.root i = s.root i := by
      intro i hi; rw [← hs1]
      have : i ≠ s.next := by omega
      simp [St.create, St.setPol, St.setRoot, upd, this]
    have f4 : ∀ i, i < s.next → i ≠ r → s1.pol i = s.pol i := by
      intro i hi hir; rw [← hs1]
      have : i ≠ s.next := by omega
      simp only [St.setPol, St.setRoot, upd, this, if_false, hrc, hir]
      simp [St.create, upd, this]
    have f5 : s1.prom s.next = ⟨c, false, false, none, none, true⟩ := by
      rw [← hs1]; simp [St.create, St.setPol, St.setRoot, upd]
    have f6 : s1.root s.next = r := by
      rw [← hs1]; simp only [St.setPol, St.setRoot, upd, if_true]; exact hrc
    have f7 : s1.pol s.next = p := by rw [← hs1]; simp [St.setPol, upd]
    have f8 : s1.pol r = s.next := by
      have : r ≠ s.next := by omega
      rw [← hs1]; simp only [St.setPol, St.setRoot, upd, this, if_false, hrc, if_true]
    cases h2 : run c s.next s1 with
    | none => rw [h2] at h; cases h
    | some s2 =>
      rw [h2] at h
      dsimp only at h
      obtain ⟨l, d, R⟩ := ihc s.next s1 s2 h2 (by omega) (by omega) (by rw [f5]) (by rw [f5]) f6 f8 fun i hi => by
        rw [f2 i (by omega)]
        exact hnew i (by omega)
      have hn2 := R.next
      have hp2 : s2.prom p = s.prom p := by rw [R.prom p (by omega) (by omega), f2 p (by omega)]
      split at h
      · cases h
      split at h
      · rename_i hdone
        cases h
        have hd2 : (s2.prom s.next).done = false := by simpa using hdone
        have hlel := (R.way.le s.next (by simp)).2
        have g1 : ∀ i, i ≠ p → (s2.setProm p { s2.prom p with code := k, await := some s.next }).prom i = s2.prom i := by
          intro i hi; simp [St.setProm, upd, hi]
        have g2 : (s2.setProm p { s2.prom p with code := k, await := some s.next }).prom p =
            { s2.prom p with code := k, await := some s.next } := by simp [St.setProm, upd]
        refine ⟨l, d ++ [s.next], ?_⟩
        refine ⟨by show s.next ≤ s2.next; omega, ?_, ?_, ?_, R.leaf, ?_, ?_, ?_, ?_, ?_, ?_, ?_⟩
        · intro i hi hip
          rw [g1 i hip, R.prom i (by omega) (by omega), f2 i (by omega)]
        · intro i hi
          exact (R.root i (by omega)).trans (f3 i hi)
        · intro i hi hir
          exact (R.pol i (by omega) hir).trans (f4 i hi hir)
        · have hw : Way (s2.setProm p { s2.prom p with code := k, await := some s.next }) s.next l (d ++ [s.next]) :=
            R.way.congr (fun i _ hi => g1 i (by omega)) fun i _ _ => rfl
          have h0 : Way (s2.setProm p { s2.prom p with code := k, await := some s.next }) p s.next [s.next, p] := by
            refine .step p s.next [p] .root (by rw [g2]) (by rw [g2]; show (s2.prom p).done = false; rw [hp2]; exact hd) ?_ hlt
            show s2.pol s.next = p
            rw [R.pol s.next (by omega) (by omega), f7]
          have := h0.append hw
          rw [List.append_assoc]
          exact this
        · intro i hi
          show _ ∧ i < s2.next ∧ s2.root i = r
          rcases List.mem_append.1 hi with hi | hi
          · have := R.fresh i hi
            exact ⟨by omega, this.2⟩
          · simp at hi
            subst hi
            exact ⟨by omega, by omega, by rw [R.root s.next (by omega), f6]⟩
        · intro i hi
          rw [g1 i (by omega)]
          by_cases hq : i = s.next
          · subst hq
            rw [R.own, f5]
            simp
          · rw [R.alive i (by omega)]
            simp [hq]
        · rw [g2]
          show (s2.prom p).alive = _
          rw [hp2]
        · rw [g1 l (by omega)]
          exact R.idle
        · intro hx
          rw [g2] at hx
          have : (s2.prom p).done = true := hx
          rw [hp2, hd] at this
          cases this
        · intro _
          rw [g1 l (by omega)]
          by_cases hdd : d = []
          · subst hdd
            have : l = s.next := R.way.single
            rw [this]; exact hd2
          · exact R.going hdd
      · rename_i hdone
        have hd2 : (s2.prom s.next).done = true := by simpa using hdone
        have hdn : d = [] := R.ended hd2
        subst hdn
        split at h
        · cases h
        have hroot2 : s2.root p = r := by rw [R.root p (by omega), f3 p hlt, hroot]
        generalize hs3 : (s2.setPol (s2.root p) p).destroy s.next = s3 at h
        have g1 : ∀ i, i ≠ s.next → s3.prom i = s2.prom i := by
          intro i hi; rw [← hs3]; simp [St.destroy, St.setProm, St.setPol, upd, hi]
        have g2 : (s3.prom s.next).alive = false := by rw [← hs3]; simp [St.destroy, St.setProm, upd]
        have g3 : s3.next = s2.next := by rw [← hs3]; rfl
        have g4 : s3.root = s2.root := by rw [← hs3]; rfl
        have g5 : s3.pol = upd s2.pol r p := by rw [← hs3, hroot2]; rfl
        have hp3 : s3.prom p = s.prom p := by rw [g1 p (by omega), hp2]
        have dead : ∀ i, s.next ≤ i → (s3.prom i).alive = false := by
          intro i hi
          by_cases hq : i = s.next
          · rw [hq]; exact g2
          · rw [g1 i hq]
            have := R.alive i (by omega)
            simpa using this
        obtain ⟨l', d', R'⟩ := ihk p s3 s' h (by omega) hr (by rw [hp3]; exact ha) (by rw [hp3]; exact hd) (by rw [g4]; exact hroot2)
          (by rw [g5]; simp [upd]) fun i hi => dead i (by omega)
        have hn3 := R'.next
        refine ⟨l', d', by omega, ?_, ?_, ?_, R'.leaf, R'.way, ?_, ?_, ?_, R'.idle, R'.ended, R'.going⟩
        · intro i hi hip
          rw [R'.prom i (by omega) hip, g1 i (by omega), R.prom i (by omega) (by omega), f2 i (by omega)]
        · intro i hi
          rw [R'.root i (by omega), g4, R.root i (by omega), f3 i hi]
        · intro i hi hir
          rw [R'.pol i (by omega) hir, g5]
          simp only [upd, hir, if_false]
          rw [R.pol i (by omega) hir, f4 i hi hir]
        · intro i hi
          have := R'.fresh i hi
          exact ⟨by omega, this.2⟩
        · intro i hi
          by_cases hlt' : i < s3.next
          · rw [R'.prom i hlt' (by omega)]
            constructor
            · intro hx
              rw [dead i hi] at hx
              cases hx
            · intro hx
              have := R'.fresh i hx
              omega
          · exact R'.alive i (by omega)
        · rw [R'.own, hp3]

/-- memory between two steps: the promises that are alive are those on the way from the outermost generator to the one that was
suspended last -/
structure Mem (s : St α) (r l : Nat) (c : List Nat) : Prop where
  leaf : s.pol r = l
  way : Way s r l c
  alive : ∀ i, (s.prom i).alive = true ↔ i ∈ c
  idle : (s.prom l).await = none
  range : ∀ i ∈ c, i < s.next ∧ s.root i = r

theorem Mem.run {s s' : St α} {r p : Nat} {c : List Nat} {g : Body α} (m : Mem s r p c) (hd : (s.prom p).done = false)
    (h : run g p s = some s') : ∃ l' c', Mem s' r l' c' ∧ ((s'.prom p).done = true → l' = p) ∧ (l' ≠ p → (s'.prom l').done = false) := by
  have hp := m.range p m.way.mem
  have hr := (m.way.le p m.way.mem).1
  obtain ⟨l, d, R⟩ := run_ran g p r s s' h hp.1 hr m.idle hd hp.2 m.leaf fun i hi => by
    cases hx : (s.prom i).alive with
    | false => rfl
    | true => have := (m.range i ((m.alive i).1 hx)).1; omega
  have hw : Way s' r p c := m.way.congr (fun i hi _ => R.prom i (by omega) (by omega)) fun i hi hri => R.pol i (by omega) (by omega)
  have hn := R.next
  refine ⟨l, d ++ c, ⟨R.leaf, hw.append R.way, ?_, R.idle, ?_⟩, ?_, ?_⟩
  · intro i
    rw [List.mem_append]
    by_cases hi : i < s.next
    · have hid : i ∉ d := fun hx => by have := R.fresh i hx; omega
      by_cases hip : i = p
      · subst hip
        rw [R.own, m.alive]
        simp [hid]
      · rw [R.prom i hi hip, m.alive]
        simp [hid]
    · rw [R.alive i (by omega)]
      have : i ∉ c := fun hx => hi (m.range i hx).1
      simp [this]
  · intro i hi
    rcases List.mem_append.1 hi with hi | hi
    · exact (R.fresh i hi).2
    · have := m.range i hi
      exact ⟨by omega, by rw [R.root i this.1]; exact this.2⟩
  · intro hx
    have := R.ended hx
    subst this
    exact R.way.single
  · intro hx
    refine R.going ?_
    rintro rfl
    exact hx R.way.single

theorem Mem.loop (n : Nat) (s s' : St α) (r l : Nat) (c : List Nat) (m : Mem s r l c) (h : pullLoop n r s = some s') :
    ∃ l' c', Mem s' r l' c' := by
  induction n generalizing s l c with
  | zero => cases h
  | succ n ih =>
    rw [pullLoop] at h
    simp only [m.leaf] at h
    split at h
    · cases h
    split at h
    · rename_i hl
      obtain ⟨hne, hdl⟩ := hl
      cases m with
      | mk leaf way alive idle range =>
      cases way with
      | root => exact absurd rfl hne
      | step p _ c hw haw hdp hpol hlt =>
        rw [hpol] at h
        have e1 : (s.setPol r p).pol r = p := by simp [St.setPol, upd]
        rw [e1, resume] at h
        have e2 : (s.setPol r p).prom = s.prom := rfl
        have hrp := (hw.le p hw.mem).1
        have hpl : p ≠ l := by omega
        have pd' : (((s.setPol r p).destroy l).prom p) = s.prom p := by simp [St.destroy, St.setProm, St.setPol, upd, hpl]
        have hcl : l ∉ c := fun hx => by have := (hw.le l hx).2; omega
        -- the memory after destroying the finished generator
        have key : ∀ x : Prom α, x.alive = (s.prom p).alive → x.await = none →
            Mem (((s.setPol r p).destroy l).setProm p x) r p c := by
          intro x hx1 hx2
          have g1 : ∀ i, i ≠ p → i ≠ l → (((s.setPol r p).destroy l).setProm p x).prom i = s.prom i := by
            intro i h1 h2; simp [St.destroy, St.setProm, St.setPol, upd, h1, h2]
          have g2 : (((s.setPol r p).destroy l).setProm p x).prom p = x := by simp [St.setProm, upd]
          have g3 : ((((s.setPol r p).destroy l).setProm p x).prom l).alive = false := by
            simp [St.destroy, St.setProm, St.setPol, upd, hpl.symm]
          refine ⟨by simp [St.destroy, St.setProm, St.setPol, upd], ?_, ?_, by rw [g2]; exact hx2, ?_⟩
          · refine hw.congr (fun i hi _ => g1 i (by omega) (by omega)) fun i _ hi => ?_
            have : i ≠ r := by omega
            simp [St.destroy, St.setProm, St.setPol, upd, this]
          · intro i
            by_cases hip : i = p
            · subst hip
              rw [g2, hx1, alive]
              simp [hpl]
            · by_cases hil : i = l
              · subst hil
                rw [g3]
                simp [hcl]
              · rw [g1 i hip hil, alive]
                simp [hil]
          · intro i hi
            exact range i (List.mem_cons_of_mem _ hi)
        split at h
        · cases h
        · rename_i heq
          split at heq
          · cases heq
          rw [e2, haw] at heq
          dsimp only at heq
          split at heq
          · cases heq
          split at heq
          · cases heq
            rw [pd'] at h
            exact ih _ _ _ (key { s.prom p with await := none, code := .ret, done := true, exc := true } rfl rfl) h
          · rw [pd'] at heq
            have m2 := key { s.prom p with await := none } rfl rfl
            obtain ⟨l', c', m3, _⟩ := m2.run (by simp [St.setProm, upd, hdp]) heq
            exact ih _ _ _ m3 h
    · cases h
      exact ⟨l, c, m⟩

theorem Mem.pull {s s' : St α} {r l : Nat} {c : List Nat} (m : Mem s r l c) (h : pull r s = some s') : ∃ l' c', Mem s' r l' c' := by
  rw [Gen.pull, m.leaf, resume] at h
  split at h
  · cases h
  · rename_i s1 h1
    split at h1
    · cases h1
    · rename_i hx
      rw [m.idle] at h1
      dsimp only at h1
      obtain ⟨l', c', m', _⟩ := m.run (by simp at hx; exact hx.2) h1
      exact m'.loop _ _ _ _ _ _ h

theorem Way.rootDone {s : St α} {r l : Nat} {c : List Nat} (h : Way s r l c) (hd : (s.prom r).done = true) : l = r := by
  induction h with
  | root => rfl
  | step p q c _ _ hf _ _ ih =>
    rw [ih] at hf
    rw [hd] at hf
    cases hf

theorem Way.back {s : St α} {r l : Nat} {c : List Nat} (h : Way s r l c) (hl : l = r) : c = [r] := by
  cases h with
  | root => rfl
  | step p q c h1 _ _ _ hlt =>
    have := (h1.le p h1.mem).1
    omega

theorem mem_start (g : Body α) : Mem (start g) 0 0 [0] := by
  refine ⟨rfl, .root, ?_, rfl, by simp [start, St.create, upd]⟩
  intro i
  by_cases h : i = 0 <;> simp [start, St.create, upd, h]

/-- what the consumer has seen so far, and the memory then -/
inductive Seen (g : Body α) : List α → St α → Prop
  | start : Seen g [] (start g)
  | value (vs : List α) (v : α) (s s' : St α) : Seen g vs s → step 0 s = some (.value v, s') → Seen g (vs ++ [v]) s'

theorem Seen.mem {g : Body α} {vs : List α} {s : St α} (h : Seen g vs s) : ∃ l c, Mem s 0 l c := by
  induction h with
  | start => exact ⟨_, _, mem_start g⟩
  | value vs v s s' _ hs ih =>
    obtain ⟨l, c, m⟩ := ih
    rw [Gen.step] at hs
    split at hs
    · cases hs
    · rename_i s1 h1
      have := m.pull h1
      split at hs
      · split at hs <;> cases hs
      · split at hs
        · cases hs
        · split at hs
          · cases hs
          · cases hs
            exact this

/-- C188: when the loop over a generator ends, also by an exception, all nested generators are destroyed; only the outermost one
is left, which belongs to the loop. -/
theorem C188_ended (g : Body α) (vs : List α) (s s' : St α) (e : Event α) (hs : Seen g vs s) (h : step 0 s = some (e, s'))
    (he : e = .ended ∨ e = .threw) : ∀ i, (s'.prom i).alive = true ↔ i = 0 := by
  obtain ⟨l, c, m⟩ := hs.mem
  rw [Gen.step] at h
  split at h
  · cases h
  · rename_i s1 h1
    obtain ⟨l', c', m'⟩ := m.pull h1
    split at h
    · rename_i hd
      cases h
      have hl := m'.way.rootDone hd
      subst hl
      have hc := m'.way.back rfl
      subst hc
      intro i
      rw [m'.alive]
      simp
    · split at h
      · cases h
      · split at h
        · cases h
        · cases h
          rcases he with he | he <;> cases he

/-- C188: at every value the generators that are alive are exactly those that wait for each other on the way from the outermost one
to the one that the value came from; so there are as many as generators are nested, however many values came before. -/
theorem C188_alive (g : Body α) (vs : List α) (s : St α) (hs : Seen g vs s) :
    ∃ c : List Nat, c.Nodup ∧ (∀ i, (s.prom i).alive = true ↔ i ∈ c) ∧ c.getLast? = some 0 ∧ c.head? = some (s.pol 0) ∧
      (s.prom (s.pol 0)).await = none ∧ ∀ (k a b : Nat), c[k]? = some b → c[k + 1]? = some a → (s.prom a).await = some b := by
  obtain ⟨l, c, m⟩ := hs.mem
  refine ⟨c, ?_, m.alive, ?_, ?_, by rw [m.leaf]; exact m.idle, ?_⟩
  · have := m.way
    clear m
    induction this with
    | root => simp
    | step p q c h _ _ _ hlt ih =>
      rw [List.nodup_cons]
      exact ⟨fun hx => by have := (h.le q hx).2; omega, ih⟩
  · have := m.way
    clear m
    induction this with
    | root => rfl
    | step p q c h _ _ _ hlt ih =>
      cases c with
      | nil => cases ih
      | cons a c => rw [List.getLast?_cons_cons]; exact ih
  · rw [m.leaf]
    have := m.way
    cases this <;> rfl
  · have := m.way
    clear m
    induction this with
    | root =>
      intro k a b _ h
      simp at h
    | step p q c h ha _ _ hlt ih =>
      intro k a b h1 h2
      cases k with
      | zero =>
        simp at h1 h2
        subst h1
        cases h with
        | root => simp at h2; subst h2; exact ha
        | step _ _ _ _ _ _ _ _ => simp at h2; subst h2; exact ha
      | succ k => exact ih k a b (by simpa using h1) (by simpa using h2)

/-- a generator with two nested ones, the second of which contains another one -/
def exBody : Body Nat := .nested (.yield 1 .ret) (.nested (.nested (.yield 2 .ret) (.yield 3 .ret)) .ret)

/-- the promises that are alive after the first steps -/
def aliveAfter : Nat → St Nat → List (List Nat)
  | 0, _ => []
  | n + 1, s =>
    match step 0 s with
    | some (.value _, s') => (List.range 10).filter (fun i => (s'.prom i).alive) :: aliveAfter n s'
    | some (_, s') => [(List.range 10).filter fun i => (s'.prom i).alive]
    | none => []

example : aliveAfter 9 (start exBody) = [[0, 1], [0, 2, 3], [0, 2], [0]] := by decide +kernel
example : ∃ s v, Seen exBody [v] s := by
  rcases h : step 0 (start exBody) with _ | ⟨_ | _ | _, s⟩
  · exact absurd h (by decide +kernel)
  · exact ⟨s, _, .value [] _ _ _ .start h⟩
  all_goals
    have : (step 0 (start exBody)).any (fun x => match x.1 with | .value _ => true | _ => false) = true := by decide +kernel
    rw [h] at this
    cases this

end Soro.Gen
