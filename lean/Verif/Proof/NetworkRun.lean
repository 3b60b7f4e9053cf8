import Verif.Proof.NetworkPass

/-! Running through sections and section elements, see `Model/Network.lean`. -/

namespace Soro.Infra

theorem getNode_track {el : Nat → Elem} {i : Nat} (h : (el i).ty.isTrack = true) (up : Bool) (m : Nat) :
    getNode el i up m = some (trackNode el i up) := by
  obtain ⟨h1, h2, h3, h4, h5⟩ := Ty.dir_kinds h
  unfold getNode trackNode
  cases hd : (el i).ty.isDirected with
  | true => simp [h1, h2, hd]
  | false => simp [h1, h2, hd, Ty.dir_of_ne_und h hd, tb]

theorem entry_track {el : Nat → Elem} {i : Nat} (h : (el i).ty.isTrack = true) {up : Bool} (hr : (el i).ty.isDirected = true → (el i).rising = up)
    {t : Nat} (ht : (el i).ahead up = some t) : (false, trackNode el i up, getNode el t up i) ∈ entries el i := by
  obtain ⟨h1, h2, h3, h4, h5⟩ := Ty.dir_kinds h
  unfold entries trackNode
  unfold Elem.ahead at ht
  cases hd : (el i).ty.isDirected with
  | true =>
    rw [hd] at ht
    simp only [if_true] at ht
    simp [h1, h2, h5, hd, Ty.not_und hd, hr hd, ht]
  | false =>
    rw [hd] at ht
    have hu := Ty.dir_of_ne_und h hd
    cases up with
    | true =>
      simp at ht
      simp [h1, h2, h5, hu, ht, tb, away]
    | false =>
      simp at ht
      simp [h1, h2, h5, hu, ht, tb, away]

theorem entry_track_branch {el : Nat → Elem} {i : Nat} (h : (el i).ty.isTrack = true) {e : Bool × Node × Option Node}
    (he : e ∈ entries el i) : e.1 = false := by
  obtain ⟨h1, h2, h3, h4, h5⟩ := Ty.dir_kinds h
  unfold entries at he
  cases hd : (el i).ty.isDirected with
  | true => simp [h1, h2, h5, Ty.not_und hd, hd] at he; rw [he]
  | false =>
    have hu := Ty.dir_of_ne_und h hd
    simp [h1, h2, h5, hu] at he
    rcases he with ⟨_, he⟩ | ⟨_, he⟩ <;> rw [he]

theorem slotOf_even {ty : Ty} {p : Pt} {b : Bool} {k : Nat} (h : slotOf ty p b = some k) : k % 2 = 0 := by
  unfold slotOf at h
  split at h <;> simp at h <;> subst h <;> (try split) <;> rfl

section
variable {g0 : Graph} {out : List SecOut} {part : Nat → Option Nat} {g : Graph}

/-- the first node behind a point -/
theorem Ctx.away (h : Ctx g0 out part g) {o : SecOut} (ho : o ∈ out) {b : Bool} {k : Nat}
    (hk : slotOf (g.el (o.x.elem b)).ty (o.x.pt b) b = some k) :
    away g.el (o.x.elem b) k (!b) = (o.nodes g.el (!b)).head? ∧ (o.nodes g.el (!b)).head? ≠ none := by
  obtain ⟨k', h1, h2, _⟩ := (h.att o ho b).slot
  rw [hk] at h1
  obtain rfl := Option.some.inj h1
  obtain ⟨d, hd, hh⟩ := head?_mem (h.ne o ho (!b))
  have htr := (h.ids o ho (!b) d hd).2.2.1
  have hn : (o.nodes g.el (!b)).head? = some (trackNode g.el d b) := by
    unfold SecOut.nodes
    rw [List.head?_map, hh]; simp
  rw [hn]
  refine ⟨?_, by simp⟩
  unfold Soro.Infra.away
  have : (g.el (o.x.elem b)).nb (k + if (!b) = true then 1 else 0) = some d := by
    rw [← hh, ← SecOut.dep, ← h2]
    cases b <;> rfl
  rw [this]
  simp only [Option.bind_some, Bool.not_not]
  exact getNode_track htr b _

/-- which point a train comes from -/
theorem Ctx.at (h : Ctx g0 out part g) {o : SecOut} (ho : o ∈ out) {b : Bool} {k : Nat} (hnb : (g.el (o.x.elem b)).ty ≠ .border)
    (hk : slotOf (g.el (o.x.elem b)).ty (o.x.pt b) b = some k) {a : Nat} (ha : o.arr b = some a) {k' : Nat} (hk' : k' % 2 = 0) :
    (decide ((g.el (o.x.elem b)).nb k' = some a) || decide ((g.el (o.x.elem b)).nb (k' + 1) = some a)) = decide (k' = k) := by
  obtain ⟨k2, h1, _, h3⟩ := (h.att o ho b).slot
  rw [hk] at h1
  obtain rfl := Option.some.inj h1
  rw [ha] at h3
  have ham : a ∈ o.towards b := List.mem_of_getLast? ha
  rw [Bool.eq_iff_iff]
  simp only [Bool.or_eq_true, decide_eq_true_eq]
  constructor
  · intro hh
    have hkey : ∀ j, (g.el (o.x.elem b)).nb j = some a → j = k ∨ j = k + 1 := by
      intro j hj
      obtain ⟨o', ho', b', q1, ⟨b'', q2⟩, k0, q3, q4⟩ := h.org _ (h.elem o ho b) hnb j a hj
      obtain rfl := h.disj o ho o' ho' b b'' a ham q2
      obtain rfl := h.end' o ho b' b q1
      rw [hk] at q3
      obtain rfl := Option.some.inj q3
      exact q4
    have he := slotOf_even hk
    rcases hh with hh | hh
    · have := hkey _ hh; omega
    · have := hkey _ hh; omega
  · rintro rfl
    cases b with
    | true => right; exact h3
    | false => left; exact h3

theorem Ctx.get_away (h : Ctx g0 out part g) {L : Links} (hL : connectAll g.el g.n = some L) {o : SecOut} (ho : o ∈ out) {b br : Bool} {k : Nat}
    {node : Node} (hk : slotOf (g.el (o.x.elem b)).ty (o.x.pt b) b = some k)
    (he : (br, node, Soro.Infra.away g.el (o.x.elem b) k (!b)) ∈ entries g.el (o.x.elem b)) : L.get br node = (o.nodes g.el (!b)).head? := by
  have := h.elem o ho b
  have := h.n
  rw [link_of_entry hL (by omega) he, (h.away ho hk).1]

/-- the section at a point -/
theorem Ctx.point (h : Ctx g0 out part g) {i : Nat} (hi : i < g0.n) {p : Pt} (hp : p ∈ (g.el i).ty.points) :
    ∃ o ∈ out, ∃ b, o.x.elem b = i ∧ o.x.pt b = p ∧ ((g.el i).ty = .kmJump ∧ p = .fin ∨ (g.el i).pflag p = !b) ∧ (g.el i).line p = o.x.line := by
  rw [(h.ty i hi).1] at hp
  obtain ⟨o, ho, b, rfl, rfl⟩ := h.comp i hi p hp
  have := h.att o ho b
  exact ⟨o, ho, b, rfl, rfl, this.flag, this.line⟩

/-- the node of element `i` a train reaches at point `p` -/
def arrive (i : Nat) (e : Elem) (p : Pt) (b : Bool) : Node :=
  match e.ty, p with
  | .lineSwitch, .fin => tb i (!e.rising)
  | .simpleSwitch, .stem | .simpleSwitch, .branch =>
    if e.rising = !b ∧ e.line p = e.line .start then tb i e.rising else tb i (!e.rising)
  | .cross, .startLeft => lr i e.rising
  | .cross, .endLeft => if e.rising = !b ∧ e.line p = e.line .startLeft then lr i e.rising else lr i (!e.rising)
  | .cross, .startRight => tb i (e.flag .startRight)
  | .cross, .endRight =>
    if e.flag .startRight = !b ∧ e.line p = e.line .startRight then tb i (e.flag .startRight) else tb i (!e.flag .startRight)
  | _, _ => tb i (!b)

theorem arrive_id (i : Nat) (e : Elem) (p : Pt) (b : Bool) : (arrive i e p b).1 = i := by
  unfold arrive
  repeat' split
  all_goals rfl

theorem Ctx.arrive (h : Ctx g0 out part g) {o : SecOut} (ho : o ∈ out) {b : Bool} {a : Nat} (ha : o.arr b = some a) :
    getNode g.el (o.x.elem b) (!b) a = some (arrive (o.x.elem b) (g.el (o.x.elem b)) (o.x.pt b) b) := by
  have hat := h.att o ho b
  obtain ⟨k, hk, _, _⟩ := hat.slot
  have hp := hat.pt
  have hf := hat.flag
  have hl := hat.line
  have hA := fun (hnb : (g.el (o.x.elem b)).ty ≠ .border) (k' : Nat) (hk' : k' % 2 = 0) => h.at ho hnb hk ha hk'
  generalize o.x.pt b = p at *
  generalize o.x.elem b = i at *
  unfold getNode Soro.Infra.arrive
  generalize hty : (g.el i).ty = ty at *
  cases ty with
  | bumper => simp [hty, Ty.isEnd, Ty.id]
  | trackEnd => simp [hty, Ty.isEnd, Ty.id]
  | kmJump => simp [hty, Ty.isEnd, Ty.isSimple, Ty.id]
  | border => simp [hty, Ty.isEnd, Ty.isSimple, Ty.id]
  | lineSwitch =>
    have h2 := hA (by simp) 2 rfl
    cases p <;> first | (exfalso; revert hp; decide) | skip
    · simp [slotOf] at hk; subst hk
      simp [hty, Ty.isEnd, Ty.isSimple, Ty.id, h2]
    · simp [slotOf] at hk; subst hk
      simp [hty, Ty.isEnd, Ty.isSimple, Ty.id, h2]
      cases (g.el i).rising <;> cases (g.el i).flag .fin <;> rfl
  | simpleSwitch =>
    have h2 := hA (by simp) 2 rfl
    have h4 := hA (by simp) 4 rfl
    cases p <;> first | (exfalso; revert hp; decide) | skip
    · simp [slotOf] at hk; subst hk
      simp [hty, Ty.isEnd, Ty.isSimple, Ty.isDirected, Ty.isUndirected, Ty.id, h2, h4]
    · simp [slotOf] at hk; subst hk
      simp [Elem.pflag] at hf
      simp only [hty, Ty.isEnd, Ty.isSimple, Ty.isDirected, Ty.isUndirected, Ty.id, h2, h4, Elem.joinsLines, Elem.misalignedJoin, hf]
      by_cases hq : (g.el i).line .stem = (g.el i).line .start
      · have hq' := hq.symm
        cases (g.el i).rising <;> cases b <;> cases (g.el i).flag .branch <;> simp [hq, tb]
      · have hq' : (g.el i).line .start ≠ (g.el i).line .stem := Ne.symm hq
        cases (g.el i).rising <;> cases b <;> cases (g.el i).flag .branch <;> simp [hq, hq', tb]
    · simp [slotOf] at hk; subst hk
      simp [Elem.pflag] at hf
      simp only [hty, Ty.isEnd, Ty.isSimple, Ty.isDirected, Ty.isUndirected, Ty.id, h2, h4, Elem.joinsLines, Elem.misalignedJoin, hf]
      by_cases hq : (g.el i).line .branch = (g.el i).line .start
      · have hq' := hq.symm
        cases (g.el i).rising <;> cases b <;> cases (g.el i).flag .stem <;> simp [hq, tb]
      · have hq' : (g.el i).line .start ≠ (g.el i).line .branch := Ne.symm hq
        cases (g.el i).rising <;> cases b <;> cases (g.el i).flag .stem <;> simp [hq, hq', tb]
  | cross =>
    have h0 := hA (by simp) 0 rfl
    have h2 := hA (by simp) 2 rfl
    have h4 := hA (by simp) 4 rfl
    have h6 := hA (by simp) 6 rfl
    cases p <;> first | (exfalso; revert hp; decide) | skip
    · simp [slotOf] at hk; subst hk
      simp [Elem.pflag] at hf
      simp [hty, Ty.isEnd, Ty.isSimple, Ty.isDirected, Ty.isUndirected, Ty.id, h0, hf]
    · simp [slotOf] at hk; subst hk
      simp [Elem.pflag] at hf
      simp only [hty, Ty.isEnd, Ty.isSimple, Ty.isDirected, Ty.isUndirected, Ty.id, h0, h2, Elem.joinsLines, Elem.misalignedJoin, hf]
      by_cases hq : (g.el i).line .endLeft = (g.el i).line .startLeft
      · cases (g.el i).rising <;> cases b <;> simp [hq, lr]
      · have hq' : (g.el i).line .startLeft ≠ (g.el i).line .endLeft := Ne.symm hq
        cases (g.el i).rising <;> cases b <;> cases (g.el i).flag .startRight <;> cases (g.el i).flag .endRight <;> simp [hq, hq', lr]
    · simp [slotOf] at hk; subst hk
      simp [Elem.pflag] at hf
      simp [hty, Ty.isEnd, Ty.isSimple, Ty.isDirected, Ty.isUndirected, Ty.id, h0, h2, h4, hf]
    · simp [slotOf] at hk; subst hk
      simp [Elem.pflag] at hf
      simp only [hty, Ty.isEnd, Ty.isSimple, Ty.isDirected, Ty.isUndirected, Ty.id, h0, h2, h4, h6, Elem.joinsLines, Elem.misalignedJoin, hf]
      by_cases hq : (g.el i).line .endRight = (g.el i).line .startRight
      · cases (g.el i).flag .startRight <;> cases b <;> simp [hq, tb]
      · have hq' : (g.el i).line .startRight ≠ (g.el i).line .endRight := Ne.symm hq
        cases (g.el i).rising <;> cases b <;> cases (g.el i).flag .startRight <;> cases (g.el i).flag .endLeft <;> simp [hq, hq', tb]
  | _ => exfalso; revert hp; simp [Ty.points]

/-- the node ahead of a track element -/
theorem Ctx.ahead (h : Ctx g0 out part g) {o : SecOut} (ho : o ∈ out) {b : Bool} {j a : Nat} (ha : (o.towards b)[j]? = some a) :
    ∃ t, (g.el a).ahead (!b) = some t ∧ getNode g.el t (!b) a =
      match (o.towards b)[j + 1]? with
      | some c => some (trackNode g.el c (!b))
      | none => some (Soro.Infra.arrive (o.x.elem b) (g.el (o.x.elem b)) (o.x.pt b) b) := by
  refine ⟨_, h.link o ho b j a ha, ?_⟩
  cases hc : (o.towards b)[j + 1]? with
  | some c => exact getNode_track (h.ids o ho b c (List.mem_of_getElem? hc)).2.2.1 _ _
  | none =>
    refine h.arrive ho ?_
    unfold SecOut.arr
    rw [List.getLast?_eq_getElem?]
    have h1 := (List.getElem?_eq_some_iff.1 ha).1
    have h2 := List.getElem?_eq_none_iff.1 hc
    rw [show (o.towards b).length - 1 = j by omega, ha]

/-- no null pointer is used -/
theorem Ctx.total (h : Ctx g0 out part g) : ∃ L, connectAll g.el g.n = some L := by
  apply connectAll_some
  intro i hi e he
  by_cases hs : i < g0.n
  · have hsec := h.sec i hs
    rw [← (h.ty i hs).1] at hsec
    have aw : ∀ p ∈ (g.el i).ty.points, ((g.el i).ty = .kmJump → p ≠ .fin) → ∀ k, (∀ b, slotOf (g.el i).ty p b = some k) →
        Soro.Infra.away g.el i k ((g.el i).pflag p) ≠ none := by
      intro p hp hkm k hk
      obtain ⟨o, ho, b, rfl, rfl, hf, _⟩ := h.point hs hp
      rcases hf with hf | hf
      · exact absurd hf.2 (hkm hf.1)
      · rw [hf, (h.away ho (hk b)).1]; exact (h.away ho (hk b)).2
    have hgn : ∀ k j, (g.el i).nb k = some j → k = 0 ∨ k = 3 → (g.el i).ty = .kmJump ∨ (g.el i).ty = .border → ∀ up, getNode g.el j up i ≠ none := by
      intro k j hj hk03 hty up
      by_cases hb : (g.el i).ty = .border
      · -- a border or a track element
        have hp : Pt.only ∈ (g.el i).ty.points := by rw [hb]; simp [Ty.points]
        obtain ⟨o, ho, b, rfl, hpt, _, _⟩ := h.point hs hp
        obtain ⟨k', q1, q2, q3⟩ := (h.att o ho b).slot
        rw [hb, hpt] at q1
        obtain ⟨r1, r2⟩ := h.oth o ho b hb
        have hpart : part (o.x.elem b) = some j → getNode g.el j up (o.x.elem b) ≠ none := by
          intro hpj
          obtain ⟨_, p2, _, p4⟩ := h.part _ _ hpj
          unfold getNode
          have hj := (h.ty j p2).1.trans p4
          simp [hj, Ty.isEnd, Ty.isSimple, Ty.id]
        have hdep : o.dep b = some j → getNode g.el j up (o.x.elem b) ≠ none := by
          intro hd
          rw [getNode_track (h.ids o ho (!b) j (List.mem_of_head? hd)).2.2.1]; simp
        cases b with
        | true =>
          simp [slotOf] at q1; subst q1
          rcases hk03 with rfl | rfl
          · exact hdep (by rw [← q2]; exact hj)
          · exact hpart (by rw [← r2]; exact hj)
        | false =>
          simp [slotOf] at q1; subst q1
          rcases hk03 with rfl | rfl
          · exact hpart (by rw [← r1]; exact hj)
          · exact hdep (by rw [← q2]; exact hj)
      · obtain ⟨o, ho, b, _, ⟨b', q⟩, _⟩ := h.org i hs hb k j hj
        rw [getNode_track (h.ids o ho b' j q).2.2.1]; simp
    have hsim : (g.el i).ty = .kmJump ∨ (g.el i).ty = .border → ∀ e ∈ (if (g.el i).nb 0 ≠ none then [(false, tb i true, Soro.Infra.away g.el i 0 false)] else []) ++
      (if (g.el i).nb 3 ≠ none then [(false, tb i false, Soro.Infra.away g.el i 2 true)] else []), e.2.2 ≠ none := by
      intro hty e he
      rw [List.mem_append] at he
      rcases he with he | he
      · split at he
        · obtain rfl := List.mem_singleton.1 he
          rename_i h0
          obtain ⟨j, hj⟩ := Option.ne_none_iff_exists'.1 h0
          unfold Soro.Infra.away
          simp only [Bool.false_eq_true, if_false, Nat.add_zero, hj, Option.bind_some]
          exact hgn 0 j hj (Or.inl rfl) hty _
        · simp at he
      · split at he
        · obtain rfl := List.mem_singleton.1 he
          rename_i h0
          obtain ⟨j, hj⟩ := Option.ne_none_iff_exists'.1 h0
          unfold Soro.Infra.away
          simp only [if_true, hj, Option.bind_some]
          exact hgn 3 j hj (Or.inr rfl) hty _
        · simp at he
    unfold entries at he
    generalize hty : (g.el i).ty = ty at *
    cases ty with
    | bumper =>
      simp [hty, Ty.isEnd, Ty.id] at he; subst he
      exact aw .only (by simp [Ty.points]) (by simp) 0 (fun _ => rfl)
    | trackEnd =>
      simp [hty, Ty.isEnd, Ty.id] at he; subst he
      exact aw .only (by simp [Ty.points]) (by simp) 0 (fun _ => rfl)
    | kmJump => exact hsim (Or.inl rfl) e (by simpa [hty, Ty.isEnd, Ty.isSimple, Ty.id] using he)
    | border => exact hsim (Or.inr rfl) e (by simpa [hty, Ty.isEnd, Ty.isSimple, Ty.id] using he)
    | lineSwitch =>
      simp [hty, Ty.isEnd, Ty.id] at he
      rcases he with rfl | rfl
      · exact aw .fin (by simp [Ty.points]) (by simp) 2 (fun _ => rfl)
      · exact aw .start (by simp [Ty.points]) (by simp) 0 (fun _ => rfl)
    | simpleSwitch =>
      simp [hty, Ty.isEnd, Ty.isSimple, Ty.isUndirected, Ty.isDirected, Ty.id] at he
      rcases he with rfl | rfl | rfl
      · exact aw .start (by simp [Ty.points]) (by simp) 0 (fun _ => rfl)
      · exact aw .stem (by simp [Ty.points]) (by simp) 2 (fun _ => rfl)
      · exact aw .branch (by simp [Ty.points]) (by simp) 4 (fun _ => rfl)
    | cross =>
      have a1 := aw .startLeft (by simp [Ty.points]) (by simp) 0 (fun _ => rfl)
      have a2 := aw .endLeft (by simp [Ty.points]) (by simp) 2 (fun _ => rfl)
      have a3 := aw .startRight (by simp [Ty.points]) (by simp) 4 (fun _ => rfl)
      have a4 := aw .endRight (by simp [Ty.points]) (by simp) 6 (fun _ => rfl)
      simp [hty, Ty.isEnd, Ty.isSimple, Ty.isUndirected, Ty.isDirected, Ty.id] at he
      rcases he with rfl | rfl | rfl | rfl | he | he
      · exact a1
      · exact a2
      · exact a3
      · exact a4
      · rcases he with ⟨_, rfl | rfl⟩
        · exact a4
        · exact a1
      · rcases he with ⟨_, rfl | rfl⟩
        · exact a2
        · exact a3
    | _ => exact absurd rfl hsec
  · obtain ⟨o, ho, b, hb⟩ := h.all i (by omega) hi
    obtain ⟨_, _, htr, hr⟩ := h.ids o ho b i hb
    have key : ∀ b, i ∈ o.towards b → ∃ t, (g.el i).ahead (!b) = some t ∧ getNode g.el t (!b) i ≠ none := by
      intro b hb
      obtain ⟨j, hj⟩ := List.mem_iff_getElem?.1 hb
      obtain ⟨t, h1, h2⟩ := h.ahead ho hj
      refine ⟨t, h1, ?_⟩
      rw [h2]; split <;> simp
    obtain ⟨h1, h2, h3, h4, h5⟩ := Ty.dir_kinds htr
    unfold entries at he
    cases hd : (g.el i).ty.isDirected with
    | true =>
      obtain ⟨t, k1, k2⟩ := key b hb
      unfold Elem.ahead at k1
      rw [hd] at k1
      simp only [if_true] at k1
      simp [h1, h2, h5, Ty.not_und hd, hd, k1, hr hd] at he
      subst he
      exact k2
    | false =>
      have hu := Ty.dir_of_ne_und htr hd
      have hboth : i ∈ o.towards true ∧ i ∈ o.towards false := by
        have := h.undBoth o ho i hd
        cases b with
        | true => exact ⟨hb, this.2 hb⟩
        | false => exact ⟨this.1 hb, hb⟩
      obtain ⟨t, k1, k2⟩ := key true hboth.1
      obtain ⟨t', k1', k2'⟩ := key false hboth.2
      unfold Elem.ahead at k1 k1'
      rw [hd] at k1 k1'
      simp at k1 k1'
      simp [h1, h2, h5, hu, k1, k1', Soro.Infra.away] at he
      rcases he with rfl | rfl
      · exact k2'
      · exact k2

/-- running over a section -/
theorem Ctx.chain (h : Ctx g0 out part g) {L : Links} (hL : connectAll g.el g.n = some L) {o : SecOut} (ho : o ∈ out) {b : Bool} {j : Nat} {n : Node}
    (hn : (o.nodes g.el b)[j]? = some n) :
    L.next n = some (((o.nodes g.el b)[j + 1]?).getD (Soro.Infra.arrive (o.x.elem b) (g.el (o.x.elem b)) (o.x.pt b) b)) ∧ L.branch n = none := by
  unfold SecOut.nodes at hn
  rw [List.getElem?_map, Option.map_eq_some_iff] at hn
  obtain ⟨a, ha, rfl⟩ := hn
  have ham := List.mem_of_getElem? ha
  obtain ⟨_, hi, htr, hr⟩ := h.ids o ho b a ham
  obtain ⟨t, h1, h2⟩ := h.ahead ho ha
  constructor
  · have := link_of_entry hL hi (entry_track htr hr h1)
    unfold Links.get at this
    simp only [Bool.false_eq_true, if_false] at this
    rw [this, h2]
    unfold SecOut.nodes
    rw [List.getElem?_map]
    cases (o.towards b)[j + 1]? <;> rfl
  · have : L.get true (trackNode g.el a (!b)) = none := by
      apply link_none hL
      intro t ht
      have hid : (trackNode g.el a (!b)).1 = a := by unfold trackNode; split <;> rfl
      rw [hid] at ht
      have := entry_track_branch htr ht
      simp at this
    exact this

/-- the node for trains coming in at a point -/
def enter (i : Nat) (e : Elem) (p : Pt) : Node :=
  match e.ty, p with
  | .lineSwitch, .fin | .simpleSwitch, .stem | .simpleSwitch, .branch => tb i (!e.rising)
  | .cross, .startLeft => lr i e.rising
  | .cross, .endLeft => lr i (!e.rising)
  | .cross, .startRight => tb i (e.flag .startRight)
  | .cross, .endRight => tb i (!e.flag .startRight)
  | _, _ => tb i e.rising

/-- the exit without or with changing the track -/
def exit (e : Elem) (p : Pt) (br : Bool) : Option Pt := if br then (exits e.ty e.arcL e.arcR p).2 else (exits e.ty e.arcL e.arcR p).1

theorem tb_inj {i : Nat} {a b : Bool} : tb i a = tb i b ↔ a = b := by cases a <;> cases b <;> simp [tb]
theorem lr_inj {i : Nat} {a b : Bool} : lr i a = lr i b ↔ a = b := by cases a <;> cases b <;> simp [lr]
theorem tb_lr {i : Nat} {a b : Bool} : tb i a ≠ lr i b := by cases a <;> cases b <;> simp [tb, lr]
theorem lr_tb {i : Nat} {a b : Bool} : lr i a ≠ tb i b := by cases a <;> cases b <;> simp [tb, lr]

/-- the way out of the node for trains coming in at a point -/
theorem Ctx.leave (h : Ctx g0 out part g) {L : Links} (hL : connectAll g.el g.n = some L) {i : Nat} (hi : i < g0.n)
    (hb : (g.el i).ty ≠ .border) (hk : (g.el i).ty ≠ .kmJump) {p : Pt} (hp : p ∈ (g.el i).ty.points) (br : Bool) :
    match exit (g.el i) p br with
    | some q => ∃ o ∈ out, ∃ b, o.x.elem b = i ∧ o.x.pt b = q ∧ L.get br (enter i (g.el i) p) = (o.nodes g.el (!b)).head?
    | none => L.get br (enter i (g.el i) p) = none := by
  have out' : ∀ q ∈ (g.el i).ty.points, ∀ k, (∀ b, slotOf (g.el i).ty q b = some k) → ∀ node,
      (br, node, Soro.Infra.away g.el i k ((g.el i).pflag q)) ∈ entries g.el i →
      ∃ o ∈ out, ∃ b, o.x.elem b = i ∧ o.x.pt b = q ∧ L.get br node = (o.nodes g.el (!b)).head? := by
    intro q hq k hkq node he
    obtain ⟨o, ho, b, rfl, rfl, hf, _⟩ := h.point hi hq
    rcases hf with hf | hf
    · exact absurd hf.1 hk
    · rw [hf] at he
      exact ⟨o, ho, b, rfl, rfl, h.get_away hL ho (hkq b) he⟩
  have non : ∀ node : Node, node.1 = i → (∀ t, (br, node, t) ∉ entries g.el i) → L.get br node = none := by
    rintro node rfl ht
    exact link_none hL ht
  have hsec := h.sec i hi
  rw [← (h.ty i hi).1] at hsec
  unfold enter
  cases hty : (g.el i).ty with
  | bumper =>
    rw [hty] at hp
    cases p <;> first | (exfalso; revert hp; decide) | skip
    have : exit (g.el i) .only br = none := by cases br <;> simp [exit, exits, hty]
    simp only [this]
    apply non _ rfl
    intro t ht
    unfold entries at ht
    simp [hty, Ty.isEnd, Ty.id, tb_inj] at ht
  | trackEnd =>
    rw [hty] at hp
    cases p <;> first | (exfalso; revert hp; decide) | skip
    have : exit (g.el i) .only br = none := by cases br <;> simp [exit, exits, hty]
    simp only [this]
    apply non _ rfl
    intro t ht
    unfold entries at ht
    simp [hty, Ty.isEnd, Ty.id, tb_inj] at ht
  | kmJump => exact absurd hty hk
  | border => exact absurd hty hb
  | lineSwitch =>
    rw [hty] at hp
    cases p <;> first | (exfalso; revert hp; decide) | skip
    · cases br with
      | false =>
        have : exit (g.el i) .start false = some .fin := by simp [exit, exits, hty]
        simp only [this]
        exact out' .fin (by simp [hty, Ty.points]) 2 (fun _ => by rw [hty]; rfl) _ (by unfold entries; simp [hty, Ty.isEnd, Ty.id, Elem.pflag])
      | true =>
        have : exit (g.el i) .start true = none := by simp [exit, exits, hty]
        simp only [this]
        apply non _ rfl
        intro t ht
        unfold entries at ht
        simp [hty, Ty.isEnd, Ty.id] at ht
    · cases br with
      | false =>
        have : exit (g.el i) .fin false = some .start := by simp [exit, exits, hty]
        simp only [this]
        exact out' .start (by simp [hty, Ty.points]) 0 (fun _ => by rw [hty]; rfl) _ (by unfold entries; simp [hty, Ty.isEnd, Ty.id, Elem.pflag])
      | true =>
        have : exit (g.el i) .fin true = none := by simp [exit, exits, hty]
        simp only [this]
        apply non _ rfl
        intro t ht
        unfold entries at ht
        simp [hty, Ty.isEnd, Ty.id] at ht
  | simpleSwitch =>
    have he : entries g.el i = [(false, tb i (!(g.el i).rising), Soro.Infra.away g.el i 0 ((g.el i).pflag .start)),
        (false, tb i (g.el i).rising, Soro.Infra.away g.el i 2 ((g.el i).pflag .stem)),
        (true, tb i (g.el i).rising, Soro.Infra.away g.el i 4 ((g.el i).pflag .branch))] := by
      unfold entries
      simp [hty, Ty.isEnd, Ty.isSimple, Ty.isUndirected, Ty.isDirected, Ty.id, Elem.pflag]
    rw [hty] at hp
    rw [he] at out' non
    have o1 := out' .start (by simp [hty, Ty.points]) 0 (fun _ => by rw [hty]; rfl)
    have o2 := out' .stem (by simp [hty, Ty.points]) 2 (fun _ => by rw [hty]; rfl)
    have o3 := out' .branch (by simp [hty, Ty.points]) 4 (fun _ => by rw [hty]; rfl)
    cases br <;> cases p <;> first | (exfalso; revert hp; decide) | skip
    all_goals simp only [exit, exits, hty, if_true, Bool.false_eq_true, if_false]
    · exact o2 _ (by simp)
    · exact o1 _ (by simp)
    · exact o1 _ (by simp)
    · exact o3 _ (by simp)
    · exact non _ rfl (by simp [tb_inj])
    · exact non _ rfl (by simp [tb_inj])
  | cross =>
    have he : entries g.el i = [(false, lr i (!(g.el i).rising), Soro.Infra.away g.el i 0 ((g.el i).pflag .startLeft)),
        (false, lr i (g.el i).rising, Soro.Infra.away g.el i 2 ((g.el i).pflag .endLeft)),
        (false, tb i (!(g.el i).flag .startRight), Soro.Infra.away g.el i 4 ((g.el i).pflag .startRight)),
        (false, tb i ((g.el i).flag .startRight), Soro.Infra.away g.el i 6 ((g.el i).pflag .endRight))] ++
      (if (g.el i).arcL then [(true, lr i (g.el i).rising, Soro.Infra.away g.el i 6 ((g.el i).pflag .endRight)),
        (true, tb i (!(g.el i).flag .startRight), Soro.Infra.away g.el i 0 ((g.el i).pflag .startLeft))] else []) ++
      (if (g.el i).arcR then [(true, tb i ((g.el i).flag .startRight), Soro.Infra.away g.el i 2 ((g.el i).pflag .endLeft)),
        (true, lr i (!(g.el i).rising), Soro.Infra.away g.el i 4 ((g.el i).pflag .startRight))] else []) := by
      unfold entries
      simp [hty, Ty.isEnd, Ty.isSimple, Ty.isUndirected, Ty.isDirected, Ty.id, Elem.pflag]
    rw [hty] at hp
    rw [he] at out' non
    have o1 := out' .startLeft (by simp [hty, Ty.points]) 0 (fun _ => by rw [hty]; rfl)
    have o2 := out' .endLeft (by simp [hty, Ty.points]) 2 (fun _ => by rw [hty]; rfl)
    have o3 := out' .startRight (by simp [hty, Ty.points]) 4 (fun _ => by rw [hty]; rfl)
    have o4 := out' .endRight (by simp [hty, Ty.points]) 6 (fun _ => by rw [hty]; rfl)
    cases br <;> cases p <;> first | (exfalso; revert hp; decide) | skip
    all_goals simp only [exit, exits, hty, if_true, Bool.false_eq_true, if_false]
    · exact o2 _ (by simp)
    · exact o1 _ (by simp)
    · exact o4 _ (by simp)
    · exact o3 _ (by simp)
    · cases ha : (g.el i).arcL
      · exact non _ rfl (by cases hb : (g.el i).arcR <;> simp [ha, tb_inj, lr_inj, lr_tb])
      · exact o4 _ (by simp [ha])
    · cases ha : (g.el i).arcR
      · exact non _ rfl (by cases hb : (g.el i).arcL <;> simp [ha, tb_inj, lr_inj, lr_tb])
      · exact o3 _ (by simp [ha])
    · cases ha : (g.el i).arcR
      · exact non _ rfl (by cases hb : (g.el i).arcL <;> simp [ha, tb_inj, lr_inj, tb_lr])
      · exact o2 _ (by simp [ha])
    · cases ha : (g.el i).arcL
      · exact non _ rfl (by cases hb : (g.el i).arcR <;> simp [ha, tb_inj, lr_inj, tb_lr])
      · exact o1 _ (by simp [ha])
  | _ => rw [hty] at hsec; exact absurd rfl hsec

/-- the first point of a pair with the point `p` -/
def mainPoint : Pt → Pt
  | .stem | .branch => .start
  | .endLeft => .startLeft
  | .endRight => .startRight
  | .fin => .start
  | p => p

/-- a train reaches the node for its point, unless it came over the second point of a pair of points whose sections run against each
other on the same line: then it reaches the node for the first point -/
theorem Ctx.arrive_enter (h : Ctx g0 out part g) {o : SecOut} (ho : o ∈ out) (b : Bool) {o' : SecOut} (ho' : o' ∈ out) (b' : Bool)
    (hb : (g.el (o.x.elem b)).ty ≠ .border) (hk : (g.el (o.x.elem b)).ty ≠ .kmJump)
    (he : o'.x.elem b' = o.x.elem b) (hp' : o'.x.pt b' = mainPoint (o.x.pt b)) :
    Soro.Infra.arrive (o.x.elem b) (g.el (o.x.elem b)) (o.x.pt b) b = enter (o.x.elem b) (g.el (o.x.elem b))
      (if (g.el (o.x.elem b)).ty ≠ .lineSwitch ∧ o.x.pt b ≠ o'.x.pt b' ∧ b = b' ∧ o.x.line = o'.x.line then o'.x.pt b' else o.x.pt b) := by
  have hat := h.att o ho b
  have hat' := h.att o' ho' b'
  rw [he] at hat'
  have hp := hat.pt
  have hf := hat.flag
  have hl := hat.line
  have hf' := hat'.flag
  have hl' := hat'.line
  rw [hp'] at hf' hl' ⊢
  rw [← hl, ← hl']
  clear hat hat' hl hl'
  generalize o.x.pt b = p at *
  generalize o.x.elem b = i at *
  unfold Soro.Infra.arrive enter
  cases hty : (g.el i).ty <;> rw [hty] at hp hf hf' <;> cases p <;> first | (exfalso; revert hp; decide) | skip
  all_goals simp [Elem.pflag, mainPoint, hty] at hf hf' hb hk ⊢
  all_goals (try (rw [hf]; done))
  all_goals
    rw [hf']
    split
    · rename_i hc
      rw [if_pos (by have := hc.1; constructor; (first | exact this.symm | (cases b <;> cases b' <;> simp_all)); exact hc.2)]
    · rename_i hc
      rw [if_neg (by rintro ⟨q1, q2⟩; exact hc ⟨by rw [q1], q2⟩)]

theorem entries_simple {el : Nat → Elem} {i : Nat} (h : (el i).ty = .kmJump ∨ (el i).ty = .border) : entries el i =
    (if (el i).nb 0 ≠ none then [(false, tb i true, away el i 0 false)] else []) ++
      (if (el i).nb 3 ≠ none then [(false, tb i false, away el i 2 true)] else []) := by
  unfold entries
  rcases h with h | h <;> simp [h, Ty.isEnd, Ty.isSimple, Ty.isUndirected, Ty.id]

/-- the way out of a kilometrage jump or border in rising (`up`) or falling direction -/
theorem simple_next {el : Nat → Elem} {i n : Nat} {L : Links} (hL : connectAll el n = some L) (hi : i < n)
    (h : (el i).ty = .kmJump ∨ (el i).ty = .border) (up : Bool) :
    L.next (tb i up) = ((el i).nb (if up then 0 else 3)).bind (fun j => getNode el j up i) ∧ L.branch (tb i up) = none := by
  have he := entries_simple h
  constructor
  · cases hn : (el i).nb (if up then 0 else 3) with
    | some j =>
      have : L.get false (tb i up) = getNode el j up i := by
        refine link_of_entry hL hi ?_
        rw [he]
        cases up with
        | true => simp at hn; simp [hn, away]
        | false => simp at hn; simp [hn, away]
      exact this
    | none =>
      have : L.get false (tb i up) = none := by
        refine link_none hL ?_
        intro t ht
        rw [tb_id, he] at ht
        cases up with
        | true => simp at hn; simp [hn, tb_inj] at ht
        | false => simp at hn; simp [hn, tb_inj] at ht
      exact this
  · have : L.get true (tb i up) = none := by
      refine link_none hL ?_
      intro t ht
      rw [tb_id, he] at ht
      simp at ht
    exact this

/-- leaving an element over a point in slot `k` -/
theorem Ctx.dep_node (h : Ctx g0 out part g) {o : SecOut} (ho : o ∈ out) (b : Bool) (m : Nat) :
    (o.dep b).bind (fun j => getNode g.el j b m) = (o.nodes g.el (!b)).head? := by
  obtain ⟨d, hd, hh⟩ := head?_mem (h.ne o ho (!b))
  have htr := (h.ids o ho (!b) d hd).2.2.1
  unfold SecOut.dep SecOut.nodes
  rw [hh, List.head?_map, hh]
  simp [getNode_track htr]

theorem Ctx.arr_node (h : Ctx g0 out part g) {o : SecOut} (ho : o ∈ out) (b : Bool) (m : Nat) :
    (o.arr b).bind (fun j => getNode g.el j (!b) m) = (o.nodes g.el b).getLast? := by
  obtain ⟨d, hd, hh⟩ := getLast?_mem (h.ne o ho b)
  have htr := (h.ids o ho b d hd).2.2.1
  unfold SecOut.arr SecOut.nodes
  rw [hh, List.getLast?_map, hh]
  simp [getNode_track htr]

theorem arrive_simple {i : Nat} {e : Elem} (h : e.ty = .kmJump ∨ e.ty = .border) (p : Pt) (b : Bool) : Soro.Infra.arrive i e p b = tb i (!b) := by
  unfold Soro.Infra.arrive
  rcases h with h | h <;> rw [h]

/-- leaving a kilometrage jump over the point `pt b` in direction `b`: into the section, if the start point is a section start and the
end point a section end; otherwise to the last node of the section -/
theorem Ctx.km (h : Ctx g0 out part g) {L : Links} (hL : connectAll g.el g.n = some L) {o : SecOut} (ho : o ∈ out) (b : Bool)
    (hk : (g.el (o.x.elem b)).ty = .kmJump) :
    if o.x.pt b = (if b then .start else .fin) then L.next (tb (o.x.elem b) b) = (o.nodes g.el (!b)).head?
    else L.next (tb (o.x.elem b) (!b)) = (o.nodes g.el b).getLast? := by
  have hat := h.att o ho b
  have hp := hat.pt
  obtain ⟨k, h1, h2, h3⟩ := hat.slot
  have hi : o.x.elem b < g.n := Nat.lt_of_lt_of_le (h.elem o ho b) h.n
  have n1 := (simple_next hL hi (Or.inl hk) b).1
  have n2 := (simple_next hL hi (Or.inl hk) (!b)).1
  have d1 := h.dep_node ho b (o.x.elem b)
  have d2 := h.arr_node ho b (o.x.elem b)
  rw [hk] at hp h1
  generalize hq : o.x.pt b = p at *
  cases b <;> cases p <;> first | (exfalso; revert hp; decide) | skip
  all_goals
    simp [slotOf] at h1
    subst h1
    simp at h2 h3 n1 n2 d1 d2
    simp [*]

/-- from border to border -/
theorem Ctx.border_next (h : Ctx g0 out part g) {L : Links} (hL : connectAll g.el g.n = some L) {o : SecOut} (ho : o ∈ out) (b : Bool)
    (hb : (g.el (o.x.elem b)).ty = .border) :
    L.next (tb (o.x.elem b) (!b)) = (part (o.x.elem b)).map (fun j => tb j (!b)) ∧
    L.next (tb (o.x.elem b) b) = (o.nodes g.el (!b)).head? := by
  have hat := h.att o ho b
  have hp := hat.pt
  obtain ⟨k, h1, h2, h3⟩ := hat.slot
  have hi : o.x.elem b < g.n := Nat.lt_of_lt_of_le (h.elem o ho b) h.n
  have n1 := (simple_next hL hi (Or.inr hb) b).1
  have n2 := (simple_next hL hi (Or.inr hb) (!b)).1
  have d1 := h.dep_node ho b (o.x.elem b)
  obtain ⟨r1, r2⟩ := h.oth o ho b hb
  rw [hb] at hp h1
  rw [border_pt hp] at h1
  constructor
  · have : (part (o.x.elem b)).bind (fun j => getNode g.el j (!b) (o.x.elem b)) = (part (o.x.elem b)).map (fun j => tb j (!b)) := by
      cases hpj : part (o.x.elem b) with
      | none => rfl
      | some j =>
        obtain ⟨_, p2, _, p4⟩ := h.part _ _ hpj
        have hj := (h.ty j p2).1.trans p4
        simp [getNode, hj, Ty.isEnd, Ty.isSimple, Ty.id]
    rw [n2, ← this]
    congr 1
    cases b with
    | true => exact r2
    | false => exact r1
  · rw [n1, ← d1]
    congr 1
    cases b with
    | true => simp [slotOf] at h1; subst h1; exact h2
    | false => simp [slotOf] at h1; subst h1; exact h2

end

end Soro.Infra
