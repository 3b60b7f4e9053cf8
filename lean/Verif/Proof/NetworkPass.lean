import Verif.Proof.NetworkLinks

/-! Running through a network, see `Model/Network.lean`. -/

namespace Soro.Infra

theorem flatMap_uniq {α β : Type} (f : α → List β) : ∀ {l : List α}, (l.flatMap f).Nodup → ∀ {a b : α} {x : β}, a ∈ l → b ∈ l → x ∈ f a →
    x ∈ f b → a = b
  | [], _, _, _, _, ha, _, _, _ => by simp at ha
  | c :: l, h, a, b, x, ha, hb, hxa, hxb => by
    rw [List.flatMap_cons, List.nodup_append] at h
    rcases List.mem_cons.1 ha with rfl | ha' <;> rcases List.mem_cons.1 hb with rfl | hb'
    · rfl
    · exact absurd rfl (h.2.2 x hxa x (List.mem_flatMap.2 ⟨b, hb', hxb⟩))
    · exact absurd rfl (h.2.2 x hxb x (List.mem_flatMap.2 ⟨a, ha', hxa⟩))
    · exact flatMap_uniq f h.2.1 ha' hb' hxa hxb

/-- what is known of the finished graph `g`; `part`: the partner of a border -/
structure Ctx (g0 : Graph) (out : List SecOut) (part : Nat → Option Nat) (g : Graph) : Prop where
  n : g0.n ≤ g.n
  ty : ∀ i, i < g0.n → (g.el i).ty = (g0.el i).ty ∧ (g.el i).arcL = (g0.el i).arcL ∧ (g.el i).arcR = (g0.el i).arcR
  sec : ∀ i, i < g0.n → (g0.el i).ty.points ≠ []
  elem : ∀ o ∈ out, ∀ b, o.x.elem b < g0.n
  att : ∀ o ∈ out, ∀ b, Attached (g.el (o.x.elem b)) o b
  ne : ∀ o ∈ out, ∀ b, o.towards b ≠ []
  ids : ∀ o ∈ out, ∀ b, ∀ i ∈ o.towards b, g0.n ≤ i ∧ i < g.n ∧ (g.el i).ty.isTrack = true ∧
    ((g.el i).ty.isDirected = true → (g.el i).rising = !b)
  link : ∀ o ∈ out, ∀ b, Linked g.el (!b) (o.towards b) (o.x.elem b)
  nodup : ∀ o ∈ out, ∀ b, (o.towards b).Nodup
  kinds : ∀ o ∈ out, o.up.map (fun i => (g.el i).ty) = kinds true o.x.up ∧ o.down.map (fun i => (g.el i).ty) = kinds false o.x.down
  shared : ∀ o ∈ out, ∀ (j j' : Nat) nd, (o.x.up.filter (·.kept true))[j]? = some nd → (o.x.down.filter (·.kept false))[j']? = some nd →
    nd.ty.isDirected = false → o.up[j]? = o.down[j']?
  undBoth : ∀ o ∈ out, ∀ i, (g.el i).ty.isDirected = false → (i ∈ o.up ↔ i ∈ o.down)
  disj : ∀ o ∈ out, ∀ o' ∈ out, ∀ b b' i, i ∈ o.towards b → i ∈ o'.towards b' → o = o'
  all : ∀ i, g0.n ≤ i → i < g.n → ∃ o ∈ out, ∃ b, i ∈ o.towards b
  org : ∀ i, i < g0.n → (g.el i).ty ≠ .border → ∀ k t, (g.el i).nb k = some t → ∃ o ∈ out, ∃ b, o.x.elem b = i ∧ (∃ b', t ∈ o.towards b') ∧
    ∃ k0, slotOf (g.el i).ty (o.x.pt b) b = some k0 ∧ (k = k0 ∨ k = k0 + 1)
  end' : ∀ o ∈ out, ∀ b b', o.x.elem b = o.x.elem b' → b = b'
  uniq : ∀ o ∈ out, ∀ o' ∈ out, ∀ b b', o.x.elem b = o'.x.elem b' → o.x.pt b = o'.x.pt b' → o = o' ∧ b = b'
  comp : ∀ i, i < g0.n → ∀ p ∈ (g0.el i).ty.points, ∃ o ∈ out, ∃ b, o.x.elem b = i ∧ o.x.pt b = p
  oth : ∀ o ∈ out, ∀ b, (g.el (o.x.elem b)).ty = .border → (g.el (o.x.elem b)).nb (if b then 2 else 0) = part (o.x.elem b) ∧
    (g.el (o.x.elem b)).nb (if b then 3 else 1) = part (o.x.elem b)
  part : ∀ i j, part i = some j → i < g0.n ∧ j < g0.n ∧ (g0.el i).ty = .border ∧ (g0.el j).ty = .border
  back : ∀ o ∈ out, ∀ b, Backed g.el (!b) (o.towards b) (o.x.elem (!b))

theorem border_pt {p : Pt} (h : p ∈ Ty.border.points) : p = .only := by simpa [Ty.points] using h

theorem Ctx.border {g0 : Graph} {out : List SecOut} {part : Nat → Option Nat} {g : Graph} (h : Ctx g0 out part g) {i j : Nat} {low : Bool}
    (hi : i < g0.n) (hj : j < g0.n) (hti : (g0.el i).ty = .border) (htj : (g0.el j).ty = .border)
    (hx : ∃ o ∈ out, o.x.elem low = i) : Ctx g0 out (set part i (some j)) (connectBorder g i low j) := by
  have hty : (g.el i).ty = .border := by rw [(h.ty i hi).1, hti]
  have hel : ∀ a, (connectBorder g i low j).el a = if a = i then
      ((g.el i).setSlot (if low then 2 else 0) (some j)).setSlot (if low then 3 else 1) (some j) else g.el a := fun a => rfl
  have hne : ∀ a, a ≠ i → (connectBorder g i low j).el a = g.el a := fun a ha => by rw [hel, if_neg ha]
  have htr : ∀ a, g0.n ≤ a → (connectBorder g i low j).el a = g.el a := fun a ha => hne a (by omega)
  have hT : ∀ a, ((connectBorder g i low j).el a).ty = (g.el a).ty ∧ ((connectBorder g i low j).el a).arcL = (g.el a).arcL ∧
      ((connectBorder g i low j).el a).arcR = (g.el a).arcR ∧ ((connectBorder g i low j).el a).rising = (g.el a).rising := by
    intro a
    rw [hel]
    split
    · rename_i e; subst e; exact ⟨rfl, rfl, rfl, rfl⟩
    · exact ⟨rfl, rfl, rfl, rfl⟩
  obtain ⟨o0, ho0, hb0⟩ := hx
  -- the section of the border
  have hone : ∀ o ∈ out, ∀ b, o.x.elem b = i → o = o0 ∧ b = low := by
    intro o ho b hb
    refine h.uniq o ho o0 ho0 b low (by rw [hb, hb0]) ?_
    have q1 := (h.att o ho b).pt
    have q2 := (h.att o0 ho0 low).pt
    rw [hb, hty] at q1
    rw [hb0, hty] at q2
    rw [border_pt q1, border_pt q2]
  constructor
  · exact h.n
  · intro a ha
    have := h.ty a ha
    exact ⟨by rw [(hT a).1, this.1], by rw [(hT a).2.1, this.2.1], by rw [(hT a).2.2.1, this.2.2]⟩
  · exact h.sec
  · exact h.elem
  · intro o ho b
    have ha := h.att o ho b
    by_cases hb : o.x.elem b = i
    · obtain ⟨rfl, rfl⟩ := hone o ho b hb
      rw [hel, if_pos hb]
      rw [hb] at ha
      obtain ⟨k, h1, h2, h3⟩ := ha.slot
      have hp := ha.pt
      rw [hty] at hp h1
      rw [border_pt hp] at h1
      have hk : k = if b then 0 else 2 := by simpa [slotOf] using h1.symm
      constructor
      · exact ha.pt
      · refine ⟨k, by simp [hty, border_pt hp, h1], ?_, ?_⟩
        · rw [← h2]; subst hk; cases b <;> simp [Elem.setSlot_nb]
        · rw [← h3]; subst hk; cases b <;> simp [Elem.setSlot_nb]
      · exact ha.flag
      · exact ha.line
    · rw [hne _ hb]; exact ha
  · exact h.ne
  · intro o ho b a ha
    rw [htr a (h.ids o ho b a ha).1]
    exact h.ids o ho b a ha
  · intro o ho b k a ha
    rw [htr a (h.ids o ho b a (List.mem_of_getElem? ha)).1]
    exact h.link o ho b k a ha
  · exact h.nodup
  · intro o ho
    constructor
    · rw [← (h.kinds o ho).1]; apply List.map_congr_left; intro a _; exact (hT a).1
    · rw [← (h.kinds o ho).2]; apply List.map_congr_left; intro a _; exact (hT a).1
  · exact h.shared
  · intro o ho a ha
    rw [(hT a).1] at ha
    exact h.undBoth o ho a ha
  · exact h.disj
  · exact h.all
  · intro a ha hb k t ht
    rw [(hT a).1] at hb ⊢
    have hai : a ≠ i := by rintro rfl; exact hb hty
    rw [hne a hai] at ht
    exact h.org a ha hb k t ht
  · exact h.end'
  · exact h.uniq
  · exact h.comp
  · intro o ho b hb
    by_cases hbi : o.x.elem b = i
    · obtain ⟨rfl, rfl⟩ := hone o ho b hbi
      rw [hel, if_pos hbi, hbi, set_same]
      cases b <;> simp [Elem.setSlot_nb]
    · rw [hne _ hbi] at hb ⊢
      rw [set_ne _ _ hbi]
      exact h.oth o ho b hb
  · intro a c hac
    by_cases hai : a = i
    · subst hai
      rw [set_same] at hac
      obtain rfl := Option.some.inj hac
      exact ⟨hi, hj, hti, htj⟩
    · rw [set_ne _ _ hai] at hac
      exact h.part a c hac
  · intro o ho b k a ha
    rw [htr a (h.ids o ho b a (List.mem_of_getElem? ha)).1]
    exact h.back o ho b k a ha

/-- the partner of a border -/
def partners (bs : List (Nat × Bool × Nat)) (p : Nat → Option Nat) : Nat → Option Nat := bs.foldl (fun p t => set p t.1 (some t.2.2)) p

theorem Ctx.borders {g0 : Graph} {out : List SecOut} : ∀ (bs : List (Nat × Bool × Nat)) (part : Nat → Option Nat) (g : Graph), Ctx g0 out part g →
    (∀ t ∈ bs, t.1 < g0.n ∧ t.2.2 < g0.n ∧ (g0.el t.1).ty = .border ∧ (g0.el t.2.2).ty = .border ∧ ∃ o ∈ out, o.x.elem t.2.1 = t.1) →
    Ctx g0 out (partners bs part) (connectBorders bs g)
  | [], _, _, h, _ => h
  | t :: bs, part, g, h, hb => by
    obtain ⟨a1, a2, a3, a4, a5⟩ := hb t (by simp)
    exact Ctx.borders bs _ _ (h.border a1 a2 a3 a4 a5) fun t ht => hb t (by simp [ht])

theorem partners_eq (bs : List (Nat × Bool × Nat)) (p : Nat → Option Nat) (i j : Nat) (h1 : ∃ l, (i, l, j) ∈ bs)
    (h2 : ∀ t ∈ bs, t.1 = i → t.2.2 = j) : partners bs p i = some j := by
  have keep : ∀ (bs : List (Nat × Bool × Nat)) (p : Nat → Option Nat), p i = some j → (∀ t ∈ bs, t.1 = i → t.2.2 = j) → partners bs p i = some j := by
    intro bs
    induction bs with
    | nil => intro p h _; exact h
    | cons t bs ih =>
      intro p h h2
      apply ih
      · dsimp only
        by_cases ht : t.1 = i
        · rw [ht, set_same, h2 t (by simp) ht]
        · rw [set_ne _ _ (Ne.symm ht), h]
      · intro t ht; exact h2 t (by simp [ht])
  induction bs generalizing p with
  | nil => obtain ⟨_, h⟩ := h1; simp at h
  | cons t bs ih =>
    obtain ⟨l, hl⟩ := h1
    rcases List.mem_cons.1 hl with rfl | hl
    · exact keep bs _ (by simp) fun t ht => h2 t (by simp [ht])
    · exact ih _ ⟨l, hl⟩ fun t ht => h2 t (by simp [ht])

theorem partners_none (bs : List (Nat × Bool × Nat)) (p : Nat → Option Nat) (i : Nat) (h : ∀ t ∈ bs, t.1 ≠ i) : partners bs p i = p i := by
  induction bs generalizing p with
  | nil => rfl
  | cons t bs ih =>
    show partners bs _ i = _
    rw [ih _ fun t ht => h t (by simp [ht])]
    dsimp only
    rw [set_ne _ _ (Ne.symm (h t (by simp)))]

theorem netCtx {g0 : Graph} {xs : List SecIn} {bs : List (Nat × Bool × Nat)} (v : ValidNet g0 xs bs) :
    Ctx g0 (parseAll xs g0).2 (partners bs fun _ => none) (netGraph g0 xs bs) := by
  have hx := parseAll_x xs g0
  have hN : NetInv g0 (parseAll xs g0).2 (parseAll xs g0).1 := by
    have := NetInv.run xs [] g0 (NetInv.init fun i hi => (v.fresh i hi).1) v.secs (by simpa using v.once)
    simpa using this
  have hmem : ∀ o ∈ (parseAll xs g0).2, o.x ∈ xs := by
    intro o ho; rw [← hx]; exact List.mem_map_of_mem ho
  have hends : ((parseAll xs g0).2.flatMap fun o => o.x.ends).Nodup := by
    have := v.once
    rw [← hx, List.flatMap_map] at this
    exact this
  have hend : ∀ o ∈ (parseAll xs g0).2, ∀ b b', o.x.elem b = o.x.elem b' → b = b' := by
    intro o ho b b' h
    have := (v.secs _ (hmem o ho)).ne
    cases b <;> cases b' <;> simp [SecIn.elem] at h ⊢
    · exact this h.symm
    · exact this h
  have huniq : ∀ o ∈ (parseAll xs g0).2, ∀ o' ∈ (parseAll xs g0).2, ∀ b b', o.x.elem b = o'.x.elem b' → o.x.pt b = o'.x.pt b' → o = o' ∧ b = b' := by
    intro o ho o' ho' b b' h1 h2
    have : o = o' := by
      refine flatMap_uniq _ hends (x := (o.x.elem b, o.x.pt b)) ho ho' (SecIn.mem_ends _ _) ?_
      rw [h1, h2]; exact SecIn.mem_ends _ _
    subst this
    exact ⟨rfl, hend o ho b b' h1⟩
  have hC : Ctx g0 (parseAll xs g0).2 (fun _ => none) (parseAll xs g0).1 := by
    refine ⟨hN.n, hN.ty, fun i hi => (v.fresh i hi).2, hN.elem, hN.att, hN.ne, hN.ids, hN.link, hN.nodup, hN.kinds, hN.shared, hN.undBoth,
      hN.disj, hN.all, fun i hi _ => hN.org i hi, hend, huniq, ?_, ?_, by simp, hN.back⟩
    · intro i hi p hp
      have := v.complete i hi p hp
      rw [← hx, List.flatMap_map] at this
      obtain ⟨o, ho, hm⟩ := List.mem_flatMap.1 this
      simp only [SecIn.ends, List.mem_cons, Prod.mk.injEq, List.not_mem_nil, or_false] at hm
      rcases hm with ⟨rfl, rfl⟩ | ⟨rfl, rfl⟩
      · exact ⟨o, ho, true, rfl, rfl⟩
      · exact ⟨o, ho, false, rfl, rfl⟩
    · intro o ho b hty
      have key : ∀ k, (k = (if b then 2 else 0) ∨ k = (if b then 3 else 1)) → ((parseAll xs g0).1.el (o.x.elem b)).nb k = none := by
        intro k hk
        cases hnb : ((parseAll xs g0).1.el (o.x.elem b)).nb k with
        | none => rfl
        | some t =>
          exfalso
          obtain ⟨o', ho', b', h1, _, k0, h3, h4⟩ := hN.org _ (hN.elem o ho b) k t hnb
          have q1 := (hN.att o ho b).pt
          have q2 := (hN.att o' ho' b').pt
          rw [h1, hty] at q2
          rw [hty] at q1 h3
          obtain ⟨rfl, rfl⟩ := huniq o ho o' ho' b b' h1.symm (by rw [border_pt q1, border_pt q2])
          rw [border_pt q1] at h3
          cases b <;> simp [slotOf] at h3 hk <;> omega
      exact ⟨key _ (Or.inl rfl), key _ (Or.inr rfl)⟩
  refine Ctx.borders bs _ _ hC ?_
  intro t ht
  obtain ⟨a1, a2, a3, a4, x, hxm, a5⟩ := v.borders t ht
  refine ⟨a1, a2, a3, a4, ?_⟩
  rw [← hx] at hxm
  obtain ⟨o, ho, rfl⟩ := List.mem_map.1 hxm
  exact ⟨o, ho, a5⟩

end Soro.Infra
