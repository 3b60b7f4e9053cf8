import Verif.Spec.Serializable

/-! Infrastructures and timetables that are moved, saved and loaded: C157. -/

namespace Soro.Serializable
open Spec

variable {V : Type}

theorem set_eq {A : Type} (f : Nat → A) (k : Nat) (x : A) : set f k x k = x := by simp [set]
theorem set_ne {A : Type} (f : Nat → A) {k i : Nat} (x : A) (h : i ≠ k) : set f k x i = f i := by simp [set, h]

/-- an object shows a value of this kind -/
def Holds (s : State V) (a : Nat) : Kind × V → Prop
  | (.made, v) => s.objs a = some ⟨.own v, .own a⟩
  | (.wrapped, v) => ∃ m e, s.objs a = some ⟨m, .ext e⟩ ∧ s.ext e = some v
  | (.loaded, v) => ∃ k i, s.objs a = some ⟨.map k, .map k⟩ ∧ s.mapped k = some i ∧ s.content i = some v

structure Inv (s : State V) (t : Ideal V) : Prop where
  holds : ∀ a x, t.shows a = some x → Holds s a x
  owner : ∀ a b k p q, s.objs a = some ⟨.map k, p⟩ → s.objs b = some ⟨.map k, q⟩ → a = b
  number : ∀ a k p, s.objs a = some ⟨.map k, p⟩ → k < s.next
  mapNumber : ∀ k i, s.mapped k = some i → k < s.next ∧ i < s.next
  dirNumber : ∀ p i, s.dir p = some i → i < s.next
  dirInj : ∀ p q i, s.dir p = some i → s.dir q = some i → p = q
  files : ∀ p, t.files p = (s.dir p).bind s.content
  ext : t.ext = s.ext
  full : ∀ p i, s.dir p = some i → (s.content i).isSome = true

theorem inv_init : Inv (State.init : State V) Ideal.init where
  holds := fun a x h => by cases h
  owner := fun a b k p q h => by cases h
  number := fun a k p h => by cases h
  mapNumber := fun k i h => by cases h
  dirNumber := fun p i h => by cases h
  dirInj := fun p q i h => by cases h
  files := fun p => rfl
  ext := rfl
  full := fun p i h => by cases h

theorem holds_some {s : State V} {a : Nat} {x : Kind × V} (h : Holds s a x) : ∃ o, s.objs a = some o := by
  obtain ⟨k, v⟩ := x
  cases k with
  | made => exact ⟨_, h⟩
  | wrapped => obtain ⟨_, _, h, _⟩ := h; exact ⟨_, h⟩
  | loaded => obtain ⟨_, _, h, _⟩ := h; exact ⟨_, h⟩

theorem holds_congr {s s' : State V} {a : Nat} {x : Kind × V} (h : Holds s a x) (h1 : s'.objs a = s.objs a)
    (h2 : ∀ k p i, s.objs a = some ⟨.map k, p⟩ → s.mapped k = some i → s'.mapped k = some i ∧ s'.content i = s.content i)
    (h3 : ∀ m e, s.objs a = some ⟨m, .ext e⟩ → s'.ext e = s.ext e) : Holds s' a x := by
  obtain ⟨k, v⟩ := x
  cases k with
  | made => show s'.objs a = _; rw [h1]; exact h
  | wrapped =>
    obtain ⟨m, e, h4, h5⟩ := h
    exact ⟨m, e, by rw [h1]; exact h4, by rw [h3 m e h4]; exact h5⟩
  | loaded =>
    obtain ⟨k, i, h3, h4, h5⟩ := h
    obtain ⟨h6, h7⟩ := h2 k _ i h3 h4
    exact ⟨k, i, by rw [h1]; exact h3, h6, by rw [h7]; exact h5⟩

theorem holds_deref {s : State V} {a : Nat} {k : Kind} {v : V} (h : Holds s a (k, v)) : deref s a = some v := by
  cases k with
  | made => simp only [Holds] at h; simp [deref, h]
  | wrapped => obtain ⟨m, e, h1, h2⟩ := h; simp [deref, h1, h2]
  | loaded => obtain ⟨k, i, h1, h2, h3⟩ := h; simp [deref, h1, h2, h3]

/-- after `release` of the memory of `a` -/
theorem inv_release {s : State V} {t : Ideal V} (h : Inv s t) {a : Nat} {o : Obj V} (ho : s.objs a = some o)
    (t' : Ideal V) (hs : ∀ b x, t'.shows b = some x → b ≠ a ∧ t.shows b = some x) (hf : t'.files = t.files)
    (he : t'.ext = t.ext) : Inv { release s o.mem with objs := set s.objs a none } t' := by
  have hobjs : ∀ b o', set s.objs a none b = some o' → b ≠ a ∧ s.objs b = some o' := by
    intro b o' hb
    by_cases e : b = a
    · subst e; rw [set_eq] at hb; cases hb
    · rw [set_ne _ _ e] at hb; exact ⟨e, hb⟩
  have hm : ∀ k i, (release s o.mem).mapped k = some i → s.mapped k = some i := by
    intro k i hk
    cases hmem : o.mem with
    | own v => rw [hmem] at hk; exact hk
    | gone => rw [hmem] at hk; exact hk
    | map k' =>
      rw [hmem] at hk
      by_cases e : k = k'
      · subst e; rw [release] at hk; dsimp only at hk; rw [set_eq] at hk; cases hk
      · rw [release] at hk; dsimp only at hk; rw [set_ne _ _ e] at hk; exact hk
  have hk : ∀ b k p i, b ≠ a → s.objs b = some ⟨.map k, p⟩ → s.mapped k = some i → (release s o.mem).mapped k = some i := by
    intro b k p i hb h1 h2
    cases hmem : o.mem with
    | own v => exact h2
    | gone => exact h2
    | map k' =>
      have : k ≠ k' := by
        rintro rfl
        refine hb (h.owner b a k p o.access h1 ?_)
        rw [ho, ← hmem]
      rw [release]; dsimp only; rw [set_ne _ _ this]; exact h2
  have hd : (release s o.mem).dir = s.dir := by cases o.mem <;> rfl
  have hc : (release s o.mem).content = s.content := by cases o.mem <;> rfl
  have hx : (release s o.mem).ext = s.ext := by cases o.mem <;> rfl
  have hn : (release s o.mem).next = s.next := by cases o.mem <;> rfl
  constructor
  · intro b x hb
    obtain ⟨h1, h2⟩ := hs b x hb
    refine holds_congr (h.holds b x h2) (set_ne _ _ h1) (fun k p i h3 h4 => ⟨hk b k p i h1 h3 h4, ?_⟩) fun _ _ _ => ?_
    · dsimp only; rw [hc]
    · dsimp only; rw [hx]
  · intro b c k p q h1 h2
    exact h.owner b c k p q (hobjs _ _ h1).2 (hobjs _ _ h2).2
  · intro b k p h1
    dsimp only; rw [hn]
    exact h.number b k p (hobjs _ _ h1).2
  · intro k i h1
    dsimp only; rw [hn]
    exact h.mapNumber k i (hm k i h1)
  · intro p i h1
    dsimp only at h1 ⊢; rw [hn]; rw [hd] at h1
    exact h.dirNumber p i h1
  · intro p q i h1 h2
    dsimp only at h1 h2; rw [hd] at h1 h2
    exact h.dirInj p q i h1 h2
  · intro p
    dsimp only; rw [hf, hd, hc]; exact h.files p
  · dsimp only; rw [he, hx]; exact h.ext
  · intro p i h1
    dsimp only at h1 ⊢; rw [hd] at h1; rw [hc]
    exact h.full p i h1

/-- moving to an address without object -/
theorem inv_move {s : State V} {t : Ideal V} (h : Inv s t) (husk : V → V) {a b : Nat} {o : Obj V} (ha : s.objs a = none)
    (ho : s.objs b = some o) (hw : ∀ v, t.shows b ≠ some (.wrapped, v)) (t' : Ideal V)
    (hs : ∀ c x, t'.shows c = some x → (c = a ∧ t.shows b = some x) ∨ (c ≠ a ∧ c ≠ b ∧ t.shows c = some x))
    (hf : t'.files = t.files) (he : t'.ext = t.ext) : Inv (moveInto husk s a b o) t' := by
  have hab : a ≠ b := by rintro rfl; rw [ha] at ho; cases ho
  have hobjs : ∀ c k p, (moveInto husk s a b o).objs c = some ⟨.map k, p⟩ →
      (c = a ∧ o.mem = .map k) ∨ (c ≠ a ∧ c ≠ b ∧ s.objs c = some ⟨.map k, p⟩) := by
    intro c k p hc
    by_cases e : c = a
    · subst e
      rw [moveInto] at hc; dsimp only at hc; rw [set_eq, Option.some.injEq, Obj.mk.injEq] at hc
      exact .inl ⟨rfl, hc.1⟩
    · rw [moveInto] at hc; dsimp only at hc; rw [set_ne _ _ e] at hc
      by_cases e' : c = b
      · subst e'
        rw [set_eq, Option.some.injEq, Obj.mk.injEq] at hc
        cases hm : o.mem <;> rw [hm] at hc <;> cases hc.1
      · rw [set_ne _ _ e'] at hc
        exact .inr ⟨e, e', hc⟩
  have hbk : ∀ k, o.mem = .map k → s.objs b = some ⟨.map k, o.access⟩ := fun k e => by rw [ho, ← e]
  constructor
  · intro c x hc
    rcases hs c x hc with ⟨rfl, h1⟩ | ⟨h1, h2, h3⟩
    · have h4 := h.holds b x h1
      obtain ⟨kd, v⟩ := x
      cases kd with
      | made =>
        have h5 : s.objs b = some ⟨.own v, .own b⟩ := h4
        rw [ho, Option.some.injEq] at h5
        subst h5
        show (moveInto husk s c b _).objs c = _
        rw [moveInto]; exact set_eq _ _ _
      | wrapped => exact absurd h1 (hw v)
      | loaded =>
        obtain ⟨k, i, h5, h6, h7⟩ := h4
        rw [ho, Option.some.injEq] at h5
        subst h5
        exact ⟨k, i, set_eq _ _ _, h6, h7⟩
    · refine holds_congr (h.holds c x h3) ?_ (fun k p i _ h4 => ⟨h4, rfl⟩) fun _ _ _ => rfl
      rw [moveInto]; dsimp only; rw [set_ne _ _ h1, set_ne _ _ h2]
  · intro c d k p q h1 h2
    rcases hobjs c k p h1 with ⟨rfl, h3⟩ | ⟨h3, h4, h5⟩
    · rcases hobjs d k q h2 with ⟨rfl, _⟩ | ⟨_, h7, h8⟩
      · rfl
      · exact absurd (h.owner d b k q _ h8 (hbk k h3)) h7
    · rcases hobjs d k q h2 with ⟨rfl, h6⟩ | ⟨_, _, h8⟩
      · exact absurd (h.owner c b k p _ h5 (hbk k h6)) h4
      · exact h.owner c d k p q h5 h8
  · intro c k p h1
    rcases hobjs c k p h1 with ⟨_, h3⟩ | ⟨_, _, h5⟩
    · exact h.number b k _ (hbk k h3)
    · exact h.number c k p h5
  · exact h.mapNumber
  · exact h.dirNumber
  · exact h.dirInj
  · intro p; rw [hf]; exact h.files p
  · rw [he]; exact h.ext
  · exact h.full

theorem inv_step {s s' : State V} {t : Ideal V} (h : Inv s t) (dflt : V) (husk : V → V) {op : Op V} (hc : Careful s t op)
    (hs : step dflt husk s op = some s') : Inv s' (t.step op) := by
  cases op with
  | make a v =>
    simp only [step] at hs
    split at hs
    · cases hs
    next hno =>
    have hno : s.objs a = none := by simpa using hno
    cases hs
    have hobjs : ∀ b k p, set s.objs a (some ⟨.own v, .own a⟩) b = some ⟨.map k, p⟩ → s.objs b = some ⟨.map k, p⟩ := by
      intro b k p hb
      by_cases e : b = a
      · subst e; rw [set_eq] at hb; cases hb
      · rw [set_ne _ _ e] at hb; exact hb
    refine ⟨?_, fun b c k p q h1 h2 => h.owner b c k p q (hobjs _ _ _ h1) (hobjs _ _ _ h2),
      fun b k p h1 => h.number b k p (hobjs _ _ _ h1), h.mapNumber, h.dirNumber, h.dirInj, h.files, h.ext, h.full⟩
    intro b x hb
    simp only [Ideal.step] at hb
    by_cases e : b = a
    · subst e
      rw [if_pos rfl, Option.some.injEq] at hb
      subst hb
      exact set_eq _ _ _
    · rw [if_neg e] at hb
      exact holds_congr (h.holds b x hb) (set_ne _ _ e) (fun k p i _ h4 => ⟨h4, rfl⟩) fun _ _ _ => rfl
  | wrap a d =>
    simp only [step] at hs
    split at hs
    · cases hs
    next hno =>
    have hno : s.objs a = none := by simpa using hno
    cases hs
    have hobjs : ∀ b k p, set s.objs a (some ⟨.own dflt, .ext d⟩) b = some ⟨.map k, p⟩ → s.objs b = some ⟨.map k, p⟩ := by
      intro b k p hb
      by_cases e : b = a
      · subst e; rw [set_eq] at hb; cases hb
      · rw [set_ne _ _ e] at hb; exact hb
    refine ⟨?_, fun b c k p q h1 h2 => h.owner b c k p q (hobjs _ _ _ h1) (hobjs _ _ _ h2),
      fun b k p h1 => h.number b k p (hobjs _ _ _ h1), h.mapNumber, h.dirNumber, h.dirInj, h.files, h.ext, h.full⟩
    intro b x hb
    simp only [Ideal.step] at hb
    by_cases e : b = a
    · subst e
      rw [if_pos rfl, Option.map_eq_some_iff] at hb
      obtain ⟨v, hv, rfl⟩ := hb
      exact ⟨_, d, set_eq _ _ _, by rw [h.ext] at hv; exact hv⟩
    · rw [if_neg e] at hb
      exact holds_congr (h.holds b x hb) (set_ne _ _ e) (fun k p i _ h4 => ⟨h4, rfl⟩) fun _ _ _ => rfl
  | load a p =>
    simp only [step] at hs
    split at hs
    · cases hs
    next hno =>
    have hno : s.objs a = none := by simpa using hno
    cases hd : s.dir p with
    | none =>
      rw [hd] at hs
      cases hs
      refine ⟨?_, h.owner, h.number, h.mapNumber, h.dirNumber, h.dirInj, h.files, h.ext, h.full⟩
      intro b x hb
      simp only [Ideal.step, h.files, hd] at hb
      by_cases e : b = a
      · rw [if_pos e] at hb; cases hb
      · rw [if_neg e] at hb; exact h.holds b x hb
    | some i =>
      rw [hd] at hs
      cases hs
      have hobjs : ∀ b k q, set s.objs a (some ⟨.map s.next, .map s.next⟩) b = some ⟨.map k, q⟩ →
          (b = a ∧ k = s.next) ∨ (b ≠ a ∧ k < s.next ∧ s.objs b = some ⟨.map k, q⟩) := by
        intro b k q hb
        by_cases e : b = a
        · subst e; rw [set_eq] at hb; cases hb; exact .inl ⟨rfl, rfl⟩
        · rw [set_ne _ _ e] at hb; exact .inr ⟨e, h.number _ _ _ hb, hb⟩
      constructor
      · intro b x hb
        simp only [Ideal.step, h.files, hd] at hb
        by_cases e : b = a
        · rw [if_pos e, Option.bind_some, Option.map_eq_some_iff] at hb
          obtain ⟨v, hv, rfl⟩ := hb
          subst e
          exact ⟨s.next, i, set_eq _ _ _, set_eq _ _ _, hv⟩
        · rw [if_neg e] at hb
          refine holds_congr (h.holds b x hb) (set_ne _ _ e) (fun k q j h3 h4 => ⟨?_, rfl⟩) fun _ _ _ => rfl
          have := h.number b k q h3
          dsimp only; rw [set_ne _ _ (by omega)]; exact h4
      · intro b c k q r h1 h2
        rcases hobjs b k q h1 with ⟨rfl, h3⟩ | ⟨h3, h4, h5⟩
        · rcases hobjs c k r h2 with ⟨rfl, _⟩ | ⟨_, h7, _⟩
          · rfl
          · omega
        · rcases hobjs c k r h2 with ⟨rfl, _⟩ | ⟨_, h7, h8⟩
          · omega
          · exact h.owner b c k q r h5 h8
      · intro b k q h1
        dsimp only
        rcases hobjs b k q h1 with ⟨_, h3⟩ | ⟨_, h4, _⟩ <;> omega
      · intro k j h1
        dsimp only at h1 ⊢
        by_cases e : k = s.next
        · subst e
          rw [set_eq] at h1
          cases h1
          have := h.dirNumber p i hd
          omega
        · rw [set_ne _ _ e] at h1
          have := h.mapNumber k j h1
          omega
      · intro q j h1
        have := h.dirNumber q j h1
        dsimp only; omega
      · exact h.dirInj
      · exact h.files
      · exact h.ext
      · exact h.full
  | moveNew a b =>
    simp only [step] at hs
    split at hs
    · cases hs
    next hno =>
    have hno : s.objs a = none := by simpa using hno
    rw [Option.map_eq_some_iff] at hs
    obtain ⟨o, ho, rfl⟩ := hs
    refine inv_move h husk hno ho hc _ ?_ rfl rfl
    intro c x hx
    simp only [Ideal.step] at hx
    by_cases e : c = a
    · rw [if_pos e] at hx; exact .inl ⟨e, hx⟩
    · rw [if_neg e] at hx
      by_cases e' : c = b
      · rw [if_pos e'] at hx; cases hx
      · rw [if_neg e'] at hx; exact .inr ⟨e, e', hx⟩
  | moveTo a b =>
    simp only [step] at hs
    split at hs
    · cases hs
    next hab =>
    cases ha : s.objs a with
    | none => rw [ha] at hs; cases hs
    | some u =>
      cases hb : s.objs b with
      | none => rw [ha, hb] at hs; cases hs
      | some o =>
        rw [ha, hb] at hs
        cases hs
        have h1 := inv_release h ha ⟨fun i => if i = a then none else t.shows i, t.files, t.ext⟩ (by
          intro c x hx
          dsimp only at hx
          by_cases e : c = a
          · rw [if_pos e] at hx; cases hx
          · rw [if_neg e] at hx; exact ⟨e, hx⟩) rfl rfl
        have h2 := inv_move h1 husk (a := a) (b := b) (o := o) (set_eq _ _ _) (by
          dsimp only; rw [set_ne _ _ (Ne.symm hab)]; exact hb) (by
          dsimp only; rw [if_neg (Ne.symm hab)]; exact hc) (t.step (.moveTo a b)) (by
          intro c x hx
          simp only [Ideal.step] at hx
          by_cases e : c = a
          · rw [if_pos e] at hx
            refine .inl ⟨e, ?_⟩
            dsimp only; rw [if_neg (Ne.symm hab)]; exact hx
          · rw [if_neg e] at hx
            by_cases e' : c = b
            · rw [if_pos e'] at hx; cases hx
            · rw [if_neg e'] at hx
              refine .inr ⟨e, e', ?_⟩
              dsimp only; rw [if_neg e]; exact hx) rfl rfl
        have heq : moveInto husk { release s u.mem with objs := set s.objs a none } a b o =
            moveInto husk (release s u.mem) a b o := by
          have hobj : (release s u.mem).objs = s.objs := by cases u.mem <;> rfl
          unfold moveInto
          dsimp only
          rw [hobj]
          congr 1
          funext c
          by_cases e : c = a
          · subst e; rw [set_eq, set_eq]
          · rw [set_ne _ _ e, set_ne _ _ e]
            by_cases e' : c = b
            · subst e'; rw [set_eq, set_eq]
            · rw [set_ne _ _ e', set_ne _ _ e', set_ne _ _ e]
        rw [heq] at h2
        exact h2
  | destroy a =>
    simp only [step, Option.map_eq_some_iff] at hs
    obtain ⟨o, ho, rfl⟩ := hs
    refine inv_release h ho _ ?_ rfl rfl
    intro b x hb
    simp only [Ideal.step] at hb
    by_cases e : b = a
    · rw [if_pos e] at hb; cases hb
    · rw [if_neg e] at hb; exact ⟨e, hb⟩
  | save a p =>
    obtain ⟨hshow, hwrap, hfree⟩ := hc
    cases hx : t.shows a with
    | none => exact absurd hx hshow
    | some x =>
      have hh := h.holds a x hx
      obtain ⟨kd, v⟩ := x
      cases kd with
      | wrapped => exact absurd hx (hwrap v)
      | loaded =>
        obtain ⟨k, i, h1, h2, h3⟩ := hh
        simp only [step, h1] at hs
        cases hs
        simp only [Ideal.step, hx]
        exact h
      | made =>
        have h1 : s.objs a = some ⟨.own v, .own a⟩ := hh
        simp only [step, h1] at hs
        simp only [Ideal.step, hx]
        cases hd : s.dir p with
        | some i =>
          rw [hd] at hs
          cases hs
          refine ⟨?_, h.owner, h.number, h.mapNumber, h.dirNumber, h.dirInj, ?_, h.ext, ?_⟩
          · intro b x hb
            refine holds_congr (h.holds b x hb) rfl (fun k q j _ h4 => ⟨h4, ?_⟩) fun _ _ _ => rfl
            dsimp only; rw [set_ne]
            rintro rfl
            exact hfree j hd k h4
          · intro q
            dsimp only
            by_cases e : q = p
            · subst e
              rw [if_pos rfl, hd, Option.bind_some, set_eq]
            · rw [if_neg e, h.files]
              cases hq : s.dir q with
              | none => rfl
              | some j =>
                rw [Option.bind_some, Option.bind_some, set_ne]
                rintro rfl
                exact e (h.dirInj q p j hq hd)
          · intro q j hq
            dsimp only
            by_cases e : j = i
            · subst e; rw [set_eq]; rfl
            · rw [set_ne _ _ e]; exact h.full q j hq
        | none =>
          rw [hd] at hs
          cases hs
          have hdir : ∀ q j, set s.dir p (some s.next) q = some j → (q = p ∧ j = s.next) ∨ (q ≠ p ∧ j < s.next ∧ s.dir q = some j) := by
            intro q j hq
            by_cases e : q = p
            · subst e; rw [set_eq] at hq; cases hq; exact .inl ⟨rfl, rfl⟩
            · rw [set_ne _ _ e] at hq; exact .inr ⟨e, h.dirNumber _ _ hq, hq⟩
          refine ⟨?_, h.owner, ?_, ?_, ?_, ?_, ?_, h.ext, ?_⟩
          · intro b x hb
            refine holds_congr (h.holds b x hb) rfl (fun k q j _ h4 => ⟨h4, ?_⟩) fun _ _ _ => rfl
            have := (h.mapNumber k j h4).2
            dsimp only; rw [set_ne _ _ (by omega)]
          · intro b k q hb
            have := h.number b k q hb
            dsimp only; omega
          · intro k j hk
            have := h.mapNumber k j hk
            dsimp only; omega
          · intro q j hq
            dsimp only
            rcases hdir q j hq with ⟨_, h3⟩ | ⟨_, h3, _⟩ <;> omega
          · intro q r j hq hr
            rcases hdir q j hq with ⟨rfl, h3⟩ | ⟨_, h3, h4⟩
            · rcases hdir r j hr with ⟨rfl, _⟩ | ⟨_, h5, _⟩
              · rfl
              · omega
            · rcases hdir r j hr with ⟨rfl, _⟩ | ⟨_, h5, h6⟩
              · omega
              · exact h.dirInj q r j h4 h6
          · intro q
            dsimp only
            by_cases e : q = p
            · subst e
              rw [if_pos rfl, set_eq, Option.bind_some, set_eq]
            · rw [if_neg e, set_ne _ _ e, h.files]
              cases hq : s.dir q with
              | none => rfl
              | some j =>
                have := h.dirNumber q j hq
                rw [Option.bind_some, Option.bind_some, set_ne _ _ (by omega)]
          · intro q j hq
            dsimp only
            rcases hdir q j hq with ⟨_, h3⟩ | ⟨_, h3, h4⟩
            · rw [h3, set_eq]; rfl
            · rw [set_ne _ _ (by omega)]; exact h.full q j h4
  | remove p =>
    simp only [step] at hs
    cases hs
    have hdir : ∀ q j, set s.dir p none q = some j → s.dir q = some j := by
      intro q j hq
      by_cases e : q = p
      · subst e; rw [set_eq] at hq; cases hq
      · rw [set_ne _ _ e] at hq; exact hq
    refine ⟨fun b x hb => holds_congr (h.holds b x hb) rfl (fun k q j _ h4 => ⟨h4, rfl⟩) fun _ _ _ => rfl, h.owner, h.number, h.mapNumber,
      fun q j hq => h.dirNumber q j (hdir q j hq), fun q r j hq hr => h.dirInj q r j (hdir q j hq) (hdir r j hr), ?_, h.ext,
      fun q j hq => h.full q j (hdir q j hq)⟩
    intro q
    simp only [Ideal.step]
    by_cases e : q = p
    · subst e; rw [if_pos rfl, set_eq]; rfl
    · rw [if_neg e, set_ne _ _ e]; exact h.files q
  | outside e v =>
    simp only [step] at hs
    cases hs
    refine ⟨fun b x hb => holds_congr (h.holds b x hb) rfl (fun k q j _ h4 => ⟨h4, rfl⟩) fun m d hd => ?_, h.owner, h.number,
      h.mapNumber, h.dirNumber, h.dirInj, h.files, ?_, h.full⟩
    · have : d ≠ e := by rintro rfl; exact hc ⟨b, _, hd, rfl⟩
      exact set_ne _ _ this
    · funext i
      simp only [Ideal.step, set, h.ext]

theorem inv_run (dflt : V) (husk : V → V) (ops : List (Op V)) {s s' : State V} {t : Ideal V} (h : Inv s t)
    (hc : CarefulRun dflt husk s t ops) (hr : run dflt husk s ops = some s') : Inv s' (ops.foldl Ideal.step t) := by
  induction ops generalizing s t with
  | nil => simp only [run, Option.some.injEq] at hr; subst hr; exact h
  | cons op ops ih =>
    simp only [run] at hr
    cases hst : step dflt husk s op with
    | none => rw [hst] at hr; cases hr
    | some s1 =>
      rw [hst] at hr
      exact ih (inv_step h dflt husk hc.1 hst) (hc.2 s1 hst) hr

/-- After every program that neither moves nor saves wrapping objects and overwrites no file that is in use: every object that was not moved away shows its
value, wherever it was moved and whatever was destroyed, and every file holds what was saved last. -/
theorem C157_shows_partial (dflt : V) (husk : V → V) (ops : List (Op V)) (s : State V) (hr : run dflt husk .init ops = some s)
    (hc : CarefulRun dflt husk .init .init ops) :
    (∀ a k v, (ops.foldl Ideal.step .init).shows a = some (k, v) → deref s a = some v) ∧
      ∀ p, (ops.foldl Ideal.step .init).files p = (s.dir p).bind s.content := by
  have h := inv_run dflt husk ops inv_init hc hr
  exact ⟨fun a k v ha => holds_deref (h.holds a _ ha), h.files⟩

/-- a program that saves, loads, moves a loaded object into another, removes the file, destroys the sources, saves again and wraps -/
def exOps : List (Op Nat) :=
  [.outside 9 (some 8), .make 0 5, .save 0 7, .load 1 7, .moveNew 2 1, .destroy 1, .make 3 6, .remove 7, .moveTo 3 2, .destroy 2, .save 0 7, .moveNew 4 0,
   .wrap 5 9]

theorem careful_of (dflt : V) (husk : V → V) (op : Op V) (ops : List (Op V)) (s : State V) (t : Ideal V) (s' : State V)
    (h1 : Careful s t op) (h2 : step dflt husk s op = some s') (h3 : CarefulRun dflt husk s' (t.step op) ops) :
    CarefulRun dflt husk s t (op :: ops) :=
  ⟨h1, fun s'' h => by rw [h2, Option.some.injEq] at h; subst h; exact h3⟩

example : (run 0 (fun _ => 0) .init exOps).isSome = true ∧ CarefulRun 0 (fun _ => 0) .init .init exOps ∧
    (exOps.foldl Ideal.step .init).shows 3 = some (.loaded, 5) ∧ (exOps.foldl Ideal.step .init).shows 4 = some (.made, 5) ∧
    (exOps.foldl Ideal.step .init).shows 5 = some (.wrapped, 8) := by
  refine ⟨by decide, ?_, by decide, by decide, by decide⟩
  have hf : ∀ (s : State Nat) (t : Ideal Nat) (a p v : Nat), t.shows a = some (.made, v) → s.dir p = none → Careful s t (.save a p) :=
    fun s t a p v h1 h2 => ⟨by rw [h1]; simp, by rw [h1]; simp, fun i h => by rw [h2] at h; cases h⟩
  have hm : ∀ (s : State Nat) (t : Ideal Nat) (a b v : Nat) (k : Kind), t.shows b = some (k, v) → k ≠ .wrapped →
      Careful s t (.moveNew a b) ∧ Careful s t (.moveTo a b) := by
    intro s t a b v k h1 h2
    have : ∀ w, t.shows b ≠ some (.wrapped, w) := by
      intro w h3
      rw [h1] at h3
      cases h3
      exact h2 rfl
    exact ⟨this, this⟩
  refine careful_of _ _ _ _ _ _ _ (by rintro ⟨a, o, h1, _⟩; cases h1) rfl ?_
  refine careful_of _ _ _ _ _ _ _ trivial rfl ?_
  refine careful_of _ _ _ _ _ _ _ (hf _ _ _ _ 5 rfl rfl) rfl ?_
  refine careful_of _ _ _ _ _ _ _ trivial rfl ?_
  refine careful_of _ _ _ _ _ _ _ (hm _ _ _ _ 5 .loaded rfl (by decide)).1 rfl ?_
  refine careful_of _ _ _ _ _ _ _ trivial rfl ?_
  refine careful_of _ _ _ _ _ _ _ trivial rfl ?_
  refine careful_of _ _ _ _ _ _ _ trivial rfl ?_
  refine careful_of _ _ _ _ _ _ _ (hm _ _ _ _ 5 .loaded rfl (by decide)).2 rfl ?_
  refine careful_of _ _ _ _ _ _ _ trivial rfl ?_
  refine careful_of _ _ _ _ _ _ _ (hf _ _ _ _ 5 rfl rfl) rfl ?_
  refine careful_of _ _ _ _ _ _ _ (hm _ _ _ _ 5 .made rfl (by decide)).1 rfl ?_
  exact careful_of _ _ _ _ _ _ _ trivial rfl trivial

/-- Moving a wrapped infrastructure loses it: whatever is wrapped, the target shows the empty infrastructure. -/
theorem C157_wrapped_negation (dflt v : V) (husk : V → V) (hv : v ≠ dflt) :
    ∃ (ops : List (Op V)) (s : State V) (a : Nat), run dflt husk .init ops = some s ∧
      (ops.foldl Ideal.step .init).shows a = some (.wrapped, v) ∧ deref s a = some dflt ∧ deref s a ≠ some v := by
  refine ⟨[.outside 0 (some v), .wrap 1 0, .moveNew 2 1], _, 2, rfl, rfl, rfl, ?_⟩
  intro h
  exact hv (Option.some.inj h).symm

/-- in every state: what a wrapped object shows and what the target of a move shows afterwards -/
theorem C157_wrapped_move (dflt : V) (husk : V → V) (s s' : State V) (a b e : Nat)
    (hb : s.objs b = some ⟨.own dflt, .ext e⟩) (hs : step dflt husk s (.moveNew a b) = some s') :
    deref s b = s.ext e ∧ deref s' a = some dflt := by
  refine ⟨by simp [deref, hb], ?_⟩
  simp only [step] at hs
  split at hs
  · cases hs
  · rw [hb, Option.map_some, Option.some.injEq] at hs
    subst hs
    simp [deref, moveInto, set]

/-- Saving a wrapped infrastructure writes the empty infrastructure. -/
theorem C157_wrapped_save_negation (dflt v : V) (husk : V → V) (hv : v ≠ dflt) :
    ∃ (ops : List (Op V)) (s : State V) (p : Nat), run dflt husk .init ops = some s ∧
      (ops.foldl Ideal.step .init).files p = some v ∧ (s.dir p).bind s.content = some dflt ∧ (s.dir p).bind s.content ≠ some v := by
  refine ⟨[.outside 0 (some v), .wrap 1 0, .save 1 7], _, 7, rfl, rfl, rfl, ?_⟩
  intro h
  exact hv (Option.some.inj h).symm

/-- Saving to a file that is in use changes the objects loaded from it. -/
theorem C157_overwrite_negation (dflt v w : V) (husk : V → V) (hv : v ≠ w) :
    ∃ (ops : List (Op V)) (s : State V) (a : Nat), run dflt husk .init ops = some s ∧
      (ops.foldl Ideal.step .init).shows a = some (.loaded, v) ∧ deref s a = some w ∧ deref s a ≠ some v := by
  refine ⟨[.make 0 v, .save 0 7, .load 1 7, .make 2 w, .save 2 7], _, 1, rfl, rfl, rfl, ?_⟩
  intro h
  exact hv (Option.some.inj h).symm

/-- An object that was loaded and moved away keeps a pointer into the mapping of the other: when that is destroyed, it dangles. -/
theorem C157_moved_away_negation (dflt v : V) (husk : V → V) :
    ∃ (ops : List (Op V)) (s : State V) (a : Nat), run dflt husk .init ops = some s ∧ (s.objs a).isSome = true ∧ deref s a = none :=
  ⟨[.make 0 v, .save 0 7, .load 1 7, .moveNew 2 1, .destroy 2], _, 1, rfl, rfl, rfl⟩

example : (5 : Nat) ≠ 0 ∧ (5 : Nat) ≠ 6 := by decide

/-- Objects that were constructed and moved away do not dangle: they show what is left of their value. -/
theorem C157_moved_made (dflt : V) (husk : V → V) (s s' : State V) (a b : Nat) (v : V) (hb : s.objs b = some ⟨.own v, .own b⟩)
    (hs : step dflt husk s (.moveNew a b) = some s') : deref s' a = some v ∧ deref s' b = some (husk v) := by
  simp only [step] at hs
  split at hs
  · cases hs
  next hno =>
  have hab : b ≠ a := by rintro rfl; rw [hb] at hno; exact hno rfl
  rw [hb, Option.map_some, Option.some.injEq] at hs
  subst hs
  simp [deref, moveInto, set, hab, left]

example : ∃ s s' : State Nat, s.objs 0 = some ⟨.own 5, .own 0⟩ ∧ step 0 (fun _ => 0) s (.moveNew 1 0) = some s' :=
  ⟨{ State.init with objs := set (fun _ => none) 0 (some ⟨.own 5, .own 0⟩) }, _, rfl, rfl⟩

example : ∃ s s' : State Nat, s.objs 1 = some ⟨.own 0, .ext 3⟩ ∧ step 0 (fun _ => 0) s (.moveNew 2 1) = some s' :=
  ⟨{ State.init with objs := set (fun _ => none) 1 (some ⟨.own 0, .ext 3⟩) }, _, rfl, rfl⟩

end Soro.Serializable
