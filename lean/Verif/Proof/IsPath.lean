import Verif.Proof.ReverseAhead
import Verif.Model.IsPath
import Verif.Spec.IsPath

/-! Neighbours of elements, see `Model/IsPath.lean`. -/

namespace Soro.Infra

/-- `j` is a neighbour of `i` -/
def Nb (el : Nat → Elem) (i j : Nat) : Prop := some j ∈ neighbourSlots el i

theorem nb_iff {el : Nat → Elem} {i j : Nat} : Nb el i j ↔ ∃ k, k < (el i).ty.width ∧ (el i).nb k = some j := by
  simp [Nb, neighbourSlots]

theorem anyNeighbour_true {y : Nat} : ∀ {l : List (Option Nat)}, (∀ a ∈ l, a ≠ none) → some y ∈ l → anyNeighbour y l = some true
  | [], _, h => by simp at h
  | none :: l, h, _ => absurd rfl (h none (by simp))
  | some a :: l, h, hy => by
    unfold anyNeighbour
    split
    · rfl
    · rename_i hne
      refine anyNeighbour_true (fun b hb => h b (by simp [hb])) ?_
      rcases List.mem_cons.1 hy with e | e
      · exact absurd (Option.some.inj e).symm hne
      · exact e

theorem anyNeighbour_mem {y : Nat} : ∀ {l : List (Option Nat)}, anyNeighbour y l = some true → some y ∈ l
  | [], h => by simp [anyNeighbour] at h
  | none :: l, h => by simp [anyNeighbour] at h
  | some a :: l, h => by
    unfold anyNeighbour at h
    split at h
    · rename_i e; simp [e]
    · exact List.mem_cons_of_mem _ (anyNeighbour_mem h)

/-- nothing, or a node of element `i` -/
def NodeOf (i : Nat) (o : Option Node) : Prop := ∀ v, o = some v → v.1 = i

theorem NodeOf.ite {i : Nat} {c : Prop} [Decidable c] {a b : Option Node} (ha : NodeOf i a) (hb : NodeOf i b) : NodeOf i (if c then a else b) := by
  by_cases h : c
  · rw [if_pos h]; exact ha
  · rw [if_neg h]; exact hb

theorem NodeOf.some {i : Nat} {v : Node} (h : v.1 = i) : NodeOf i (some v) := fun w e => by rw [← Option.some.inj e]; exact h

theorem NodeOf.none {i : Nat} : NodeOf i none := fun _ e => by cases e

theorem getNode_id {el : Nat → Elem} {i : Nat} {up : Bool} {m : Nat} {v : Node} (h : getNode el i up m = some v) : v.1 = i := by
  refine (?_ : NodeOf i (getNode el i up m)) v h
  unfold getNode
  dsimp only
  repeat' apply NodeOf.ite
  all_goals first
    | exact NodeOf.none
    | (apply NodeOf.some; first | rfl | (split <;> rfl))

theorem away_nb {el : Nat → Elem} {i slot : Nat} {r : Bool} {v : Node} (h : away el i slot r = some v) :
    (el i).nb (slot + if r then 1 else 0) = some v.1 := by
  unfold away at h
  cases hn : (el i).nb (slot + if r then 1 else 0) with
  | none => rw [hn] at h; cases h
  | some j => rw [hn, Option.bind_some] at h; rw [getNode_id h]

/-- the entries of an element lead to its neighbours -/
theorem entry_nb {el : Nat → Elem} {i : Nat} {br : Bool} {u v : Node} (h : (br, u, some v) ∈ entries el i) : Nb el i v.1 := by
  have key : ∀ slot r, some v = away el i slot r → slot + 1 < (el i).ty.width → Nb el i v.1 := by
    intro slot r e hw
    refine nb_iff.2 ⟨_, ?_, away_nb e.symm⟩
    split <;> omega
  unfold entries at h
  dsimp only at h
  split at h
  · rename_i c
    simp at h
    exact key _ _ h.2.2 (by simp [Ty.width, c])
  rename_i c1
  split at h
  · rename_i c
    have w : (el i).ty.width = 4 := by rw [c]; rfl
    simp at h
    rcases h with h | h
    · exact key _ _ h.2.2 (by omega)
    · exact key _ _ h.2.2 (by omega)
  split at h
  · rename_i c
    have w : (el i).ty.width = 4 := by
      revert c c1; cases (el i).ty <;> decide
    rw [List.mem_append] at h
    rcases h with h | h <;> split at h
    · simp at h; exact key _ _ h.2.2 (by omega)
    · cases h
    · simp at h; exact key _ _ h.2.2 (by omega)
    · cases h
  split at h
  · rename_i c
    have w : (el i).ty.width = 2 := by
      revert c c1; cases (el i).ty <;> decide
    simp at h
    have e := h.2.2
    cases hn : (el i).nb 1 with
    | none => rw [hn] at e; cases e
    | some j =>
      rw [hn, Option.bind_some] at e
      exact nb_iff.2 ⟨1, by omega, by rw [hn, getNode_id e.symm]⟩
  split at h
  · rename_i c
    have w : (el i).ty.width = 6 := by rw [c]; rfl
    simp at h
    rcases h with h | h | h <;> exact key _ _ h.2.2 (by omega)
  split at h
  · rename_i c
    have w : (el i).ty.width = 8 := by rw [c]; rfl
    simp only [List.mem_append] at h
    rcases h with (h | h) | h
    · simp at h
      rcases h with h | h | h | h <;> exact key _ _ h.2.2 (by omega)
    · split at h
      · simp at h
        rcases h with h | h <;> exact key _ _ h.2.2 (by omega)
      · cases h
    · split at h
      · simp at h
        rcases h with h | h <;> exact key _ _ h.2.2 (by omega)
      · cases h
  · cases h

section
variable {g0 : Graph} {out : List SecOut} {part : Nat → Option Nat} {g : Graph}

/-- the links of an element lead to its neighbours -/
theorem link_nb {el : Nat → Elem} {n : Nat} {L : Links} (h : connectAll el n = some L) {br : Bool} {u v : Node} (e : L.get br u = some v) :
    u.1 < n ∧ Nb el u.1 v.1 := ⟨(entry_of_link h e).1, entry_nb (entry_of_link h e).2⟩

theorem slotOf_lt {ty : Ty} {p : Pt} {b : Bool} {k : Nat} (h : slotOf ty p b = some k) : k + 1 < ty.width := by
  cases ty <;> cases p <;> simp [slotOf] at h <;> subst h <;> cases b <;> decide

/-- both neighbours at the end of a section -/
theorem Ctx.end_nb (h : Ctx g0 out part g) {o : SecOut} (ho : o ∈ out) (b : Bool) {a : Nat} (ha : o.arr b = some a ∨ o.dep b = some a) :
    Nb g.el (o.x.elem b) a := by
  obtain ⟨k, h1, h2, h3⟩ := (h.att o ho b).slot
  have := slotOf_lt h1
  rcases ha with ha | ha
  · exact nb_iff.2 ⟨_, by split <;> omega, h3.trans ha⟩
  · exact nb_iff.2 ⟨_, by split <;> omega, h2.trans ha⟩

theorem ahead_nb {el : Nat → Elem} {a c : Nat} {dir : Bool} (ht : (el a).ty.isTrack = true) (e : (el a).ahead dir = some c) : Nb el a c := by
  unfold Elem.ahead at e
  split at e
  · rename_i hd
    have w : (el a).ty.width = 2 := by revert hd; cases (el a).ty <;> decide
    exact nb_iff.2 ⟨1, by omega, e⟩
  · rename_i hd
    have w : (el a).ty.width = 4 := by revert hd ht; cases (el a).ty <;> decide
    split at e
    · exact nb_iff.2 ⟨0, by omega, e⟩
    · exact nb_iff.2 ⟨3, by omega, e⟩

theorem behind_nb {el : Nat → Elem} {a c : Nat} {dir : Bool} (ht : (el a).ty.isTrack = true) (e : (el a).behind dir = some c) : Nb el a c := by
  unfold Elem.behind at e
  split at e
  · rename_i hd
    have w : (el a).ty.width = 2 := by revert hd; cases (el a).ty <;> decide
    exact nb_iff.2 ⟨0, by omega, e⟩
  · rename_i hd
    have w : (el a).ty.width = 4 := by revert hd ht; cases (el a).ty <;> decide
    split at e
    · exact nb_iff.2 ⟨2, by omega, e⟩
    · exact nb_iff.2 ⟨1, by omega, e⟩

/-- consecutive elements of a section are neighbours of each other -/
theorem Ctx.whole_nb (h : Ctx g0 out part g) {o : SecOut} (ho : o ∈ out) (b : Bool) {j x y : Nat}
    (hx : (o.whole b)[j]? = some x) (hy : (o.whole b)[j + 1]? = some y) : Nb g.el x y ∧ Nb g.el y x := by
  unfold SecOut.whole at hx hy
  rw [List.getElem?_cons_succ] at hy
  constructor
  · cases j with
    | zero =>
      obtain rfl : o.x.elem (!b) = x := by simpa using hx
      refine h.end_nb ho (!b) (Or.inr ?_)
      unfold SecOut.dep
      rw [Bool.not_not]
      have hne := h.ne o ho b
      cases hl : o.towards b with
      | nil => exact absurd hl hne
      | cons c l => rw [hl] at hy; simpa using hy
    | succ j =>
      rw [List.getElem?_cons_succ] at hx
      have hjl : j < (o.towards b).length := by
        have := (List.getElem?_eq_some_iff.1 hy).1
        simp at this; omega
      rw [List.getElem?_append_left hjl] at hx
      have ha := h.link o ho b j x hx
      refine ahead_nb (h.ids o ho b x (List.mem_of_getElem? hx)).2.2.1 (dir := !b) ?_
      rw [ha]
      rw [List.getElem?_append] at hy
      split at hy
      · rw [hy]; rfl
      · rename_i hn
        obtain ⟨_, rfl⟩ := snoc_at hn hy
        rw [List.getElem?_eq_none_iff.2 (by omega)]; rfl
  · rw [List.getElem?_append] at hy
    split at hy
    · rename_i hj
      have hb := h.back o ho b j y hy
      refine behind_nb (h.ids o ho b y (List.mem_of_getElem? hy)).2.2.1 (dir := !b) ?_
      rw [hb, ← hx, ← List.cons_append, List.getElem?_append_left (by simp; omega)]
    · rename_i hn
      obtain ⟨hj, rfl⟩ := snoc_at hn hy
      refine h.end_nb ho b (Or.inl ?_)
      unfold SecOut.arr
      rw [← hx, hj, ← List.cons_append, List.getElem?_append_left (by simp), cons_at_length]
      have hne := h.ne o ho b
      rw [List.getLast?_eq_some_getLast hne]; rfl

theorem Ctx.adj_nb (h : Ctx g0 out part g) {i j : Nat} (e : Adjacent out i j) : Nb g.el i j ∧ Nb g.el j i := by
  obtain ⟨o, ho, b, t, ⟨e1, e2⟩ | ⟨e1, e2⟩⟩ := e
  · exact h.whole_nb ho b e1 e2
  · exact (h.whole_nb ho b e1 e2).symm

theorem whole_head {o : SecOut} (ho : o ∈ out) (b : Bool) {a : Nat} (ha : o.dep b = some a) : Adjacent out (o.x.elem b) a := by
  refine ⟨o, ho, !b, 0, Or.inl ⟨by simp [SecOut.whole], ?_⟩⟩
  unfold SecOut.dep at ha
  unfold SecOut.whole
  cases hl : o.towards (!b) with
  | nil => rw [hl] at ha; cases ha
  | cons c l => rw [hl] at ha; simpa using ha

theorem whole_last {o : SecOut} (ho : o ∈ out) (b : Bool) {a : Nat} (ha : o.arr b = some a) : Adjacent out (o.x.elem b) a := by
  refine ⟨o, ho, b, (o.towards b).length, Or.inr ⟨?_, ?_⟩⟩
  · unfold SecOut.whole
    rw [← List.cons_append, List.getElem?_append_left (by simp), cons_at_length]
    unfold SecOut.arr at ha
    rw [ha]; rfl
  · simp [SecOut.whole]

/-- the neighbours of a border -/
theorem Ctx.border_slots (h : Ctx g0 out part g) {o : SecOut} (ho : o ∈ out) {b : Bool} (hb : (g.el (o.x.elem b)).ty = .border) :
    neighbourSlots g.el (o.x.elem b) = if b then [o.dep b, o.arr b, part (o.x.elem b), part (o.x.elem b)]
      else [part (o.x.elem b), part (o.x.elem b), o.arr b, o.dep b] := by
  obtain ⟨k, h1, h2, h3⟩ := (h.att o ho b).slot
  have hp := (h.att o ho b).pt
  obtain ⟨h4, h5⟩ := h.oth o ho b hb
  rw [hb] at h1 hp
  rw [border_pt hp] at h1
  have w : (g.el (o.x.elem b)).ty.width = 4 := by rw [hb]; rfl
  unfold neighbourSlots
  rw [w]
  cases b <;> simp [slotOf] at h1 h2 h3 h4 h5 <;> subst h1 <;> simp [List.range_succ, h2, h3, h4, h5]

theorem Ctx.dep_some (h : Ctx g0 out part g) {o : SecOut} (ho : o ∈ out) (b : Bool) : ∃ a, o.dep b = some a := by
  obtain ⟨a, _, e⟩ := head?_mem (h.ne o ho (!b)); exact ⟨a, e⟩

theorem Ctx.arr_some (h : Ctx g0 out part g) {o : SecOut} (ho : o ∈ out) (b : Bool) : ∃ a, o.arr b = some a := by
  obtain ⟨a, _, e⟩ := getLast?_mem (h.ne o ho b); exact ⟨a, e⟩

/-- the slot of some point of a section element -/
theorem slot_point {ty : Ty} {k : Nat} (h : ty.points ≠ []) (hb : ty ≠ .border) (hk : k < ty.width) :
    ∃ p ∈ ty.points, ∀ b, ∃ k0, slotOf ty p b = some k0 ∧ (k = k0 ∨ k = k0 + 1) := by
  cases ty <;> simp [Ty.points] at h hb ⊢ <;>
    simp [Ty.width, Ty.isEnd, Ty.isSimple, Ty.isUndirected, Ty.isDirected, Ty.id] at hk <;> simp [slotOf] <;> omega

/-- what stands at the slots of section elements other than borders -/
theorem Ctx.slot_at (h : Ctx g0 out part g) {i k : Nat} (hi : i < g0.n) (hb : (g.el i).ty ≠ .border) (hk : k < (g.el i).ty.width) :
    ∃ o ∈ out, ∃ b, o.x.elem b = i ∧ ((g.el i).nb k = o.dep b ∨ (g.el i).nb k = o.arr b) := by
  have hs := h.sec _ hi
  rw [← (h.ty _ hi).1] at hs
  obtain ⟨p, hp, hq⟩ := slot_point hs hb hk
  rw [(h.ty _ hi).1] at hp
  obtain ⟨o, ho, b, e1, e2⟩ := h.comp i hi p hp
  refine ⟨o, ho, b, e1, ?_⟩
  obtain ⟨k0, h1, h2, h3⟩ := (h.att o ho b).slot
  obtain ⟨k1, q1, q2⟩ := hq b
  rw [e1, e2, q1] at h1
  obtain rfl := Option.some.inj h1
  rw [e1] at h2 h3
  cases b <;> simp at h2 h3 <;> rcases q2 with rfl | rfl <;> first | exact Or.inl h2 | exact Or.inr h3

/-- the neighbours of section elements, over sections -/
theorem Ctx.section_nb (h : Ctx g0 out part g) {i j : Nat} (hi : i < g0.n) (e : Nb g.el i j) :
    Adjacent out i j ∨ (g.el i).ty = .border ∧ part i = some j := by
  obtain ⟨k, hk, hn⟩ := nb_iff.1 e
  by_cases hb : (g.el i).ty = .border
  · obtain ⟨o, ho, b, e1, _⟩ := h.comp i hi .only (by rw [← (h.ty _ hi).1, hb]; simp [Ty.points])
    have hbs := h.border_slots ho (by rw [e1]; exact hb)
    rw [e1] at hbs
    unfold Nb at e
    rw [hbs] at e
    have : o.dep b = some j ∨ o.arr b = some j ∨ part i = some j := by
      cases b <;> simp only [Bool.false_eq_true, if_false, if_true, List.mem_cons, List.not_mem_nil, or_false] at e <;>
        rcases e with e | e | e | e <;> simp [e]
    rcases this with q | q | q
    · left; rw [← e1]; exact whole_head ho b q
    · left; rw [← e1]; exact whole_last ho b q
    · exact Or.inr ⟨hb, q⟩
  · obtain ⟨o, ho, b, e1, q⟩ := h.slot_at hi hb hk
    left
    rw [hn] at q
    rw [← e1]
    rcases q with q | q
    · exact whole_head ho b q.symm
    · exact whole_last ho b q.symm

/-- the slots of a track element -/
theorem Ctx.track_slot (h : Ctx g0 out part g) {i : Nat} (h1 : g0.n ≤ i) (h2 : i < g.n) {k : Nat} (hk : k < (g.el i).ty.width) :
    ∃ j, (g.el i).nb k = some j ∧ Adjacent out i j := by
  obtain ⟨o, ho, b, hm⟩ := h.all i h1 h2
  have ht := (h.ids o ho b i hm).2.2.1
  -- both neighbours in a direction
  have key : ∀ b, i ∈ o.towards b → (∃ j, (g.el i).ahead (!b) = some j ∧ Adjacent out i j) ∧ ∃ j, (g.el i).behind (!b) = some j ∧ Adjacent out i j := by
    intro b hm
    obtain ⟨t, hti⟩ := List.getElem?_of_mem hm
    have htl := (List.getElem?_eq_some_iff.1 hti).1
    have hw : (o.whole b)[t + 1]? = some i := by
      unfold SecOut.whole
      rw [List.getElem?_cons_succ, List.getElem?_append_left htl, hti]
    constructor
    · refine ⟨_, h.link o ho b t i hti, ?_⟩
      refine ⟨o, ho, b, t + 1, Or.inl ⟨hw, ?_⟩⟩
      unfold SecOut.whole
      rw [List.getElem?_cons_succ, List.getElem?_append]
      split
      · rename_i hlt; rw [List.getElem?_eq_getElem hlt]; rfl
      · rename_i hge
        have e2 : t + 1 = (o.towards b).length := by omega
        rw [e2]; simp
    · have hb := h.back o ho b t i hti
      rw [List.getElem?_eq_getElem (by simp; omega)] at hb
      refine ⟨_, hb, ?_⟩
      refine ⟨o, ho, b, t, Or.inr ⟨?_, hw⟩⟩
      unfold SecOut.whole
      rw [← List.cons_append, List.getElem?_append_left (by simp; omega), List.getElem?_eq_getElem (by simp; omega)]
  cases hd : (g.el i).ty.isDirected with
  | true =>
    have w : (g.el i).ty.width = 2 := by revert hd; cases (g.el i).ty <;> decide
    obtain ⟨a1, a2⟩ := key b hm
    unfold Elem.ahead at a1
    unfold Elem.behind at a2
    simp only [hd, if_true] at a1 a2
    have : k = 0 ∨ k = 1 := by omega
    rcases this with rfl | rfl
    · exact a2
    · exact a1
  | false =>
    have w : (g.el i).ty.width = 4 := by revert hd ht; cases (g.el i).ty <;> decide
    have hboth : i ∈ o.towards false ∧ i ∈ o.towards true := by
      have := h.undBoth o ho i hd
      cases b with
      | true => exact ⟨this.2 hm, hm⟩
      | false => exact ⟨hm, this.1 hm⟩
    obtain ⟨a1, a2⟩ := key false hboth.1
    obtain ⟨a3, a4⟩ := key true hboth.2
    unfold Elem.ahead at a1 a3
    unfold Elem.behind at a2 a4
    simp [hd] at a1 a2 a3 a4
    have : k = 0 ∨ k = 1 ∨ k = 2 ∨ k = 3 := by omega
    rcases this with rfl | rfl | rfl | rfl
    · exact a1
    · exact a4
    · exact a2
    · exact a3

/-- only borders may lack neighbours -/
theorem Ctx.slots_full (h : Ctx g0 out part g) {i : Nat} (hi : i < g.n) (hb : (g.el i).ty = .border → part i ≠ none) :
    ∀ a ∈ neighbourSlots g.el i, a ≠ none := by
  intro a ha
  by_cases h1 : g0.n ≤ i
  · simp only [neighbourSlots, List.mem_map, List.mem_range] at ha
    obtain ⟨k, hk, rfl⟩ := ha
    obtain ⟨j, e, _⟩ := h.track_slot h1 hi hk
    simp [e]
  · have h1 : i < g0.n := by omega
    by_cases hbo : (g.el i).ty = .border
    · obtain ⟨o, ho, b, e1, _⟩ := h.comp i h1 .only (by rw [← (h.ty _ h1).1, hbo]; simp [Ty.points])
      have hbs := h.border_slots ho (by rw [e1]; exact hbo)
      rw [e1] at hbs
      rw [hbs] at ha
      obtain ⟨x, hx⟩ := h.dep_some ho b
      obtain ⟨y, hy⟩ := h.arr_some ho b
      have hp := hb hbo
      rw [hx, hy] at ha
      cases b <;> simp at ha <;> rcases ha with rfl | rfl | rfl | rfl <;> first | exact hp | simp
    · simp only [neighbourSlots, List.mem_map, List.mem_range] at ha
      obtain ⟨k, hk, rfl⟩ := ha
      obtain ⟨o, ho, b, e1, q⟩ := h.slot_at h1 hbo hk
      obtain ⟨x, hx⟩ := h.dep_some ho b
      obtain ⟨y, hy⟩ := h.arr_some ho b
      rcases q with q | q <;> rw [q] <;> simp [hx, hy]

/-- neighbours are mutual, if partners are -/
theorem Ctx.mutual (h : Ctx g0 out part g) (hp : ∀ i j, part i = some j → part j = some i) {i j : Nat} (hi : i < g.n) (e : Nb g.el i j) :
    Nb g.el j i := by
  by_cases h1 : g0.n ≤ i
  · obtain ⟨k, hk, hn⟩ := nb_iff.1 e
    obtain ⟨j', e', q⟩ := h.track_slot h1 hi hk
    rw [hn] at e'
    rw [Option.some.inj e']; exact (h.adj_nb q).2
  · rcases h.section_nb (by omega) e with q | ⟨_, q⟩
    · exact (h.adj_nb q).2
    · obtain ⟨_, hj, _, hjb⟩ := h.part i j q
      obtain ⟨o, ho, b, e1, _⟩ := h.comp j hj .only (by rw [hjb]; simp [Ty.points])
      have hbs := h.border_slots ho (by rw [e1, (h.ty _ hj).1, hjb])
      rw [e1] at hbs
      unfold Nb
      rw [hbs, hp i j q]
      cases b <;> simp

/-- neighbours follow each other in a section or are partners -/
theorem Ctx.nb_adj (h : Ctx g0 out part g) {i j : Nat} (hi : i < g.n) : Nb g.el i j ↔ Adjacent out i j ∨ part i = some j := by
  constructor
  · intro e
    by_cases h1 : g0.n ≤ i
    · obtain ⟨k, hk, hn⟩ := nb_iff.1 e
      obtain ⟨j', e', q⟩ := h.track_slot h1 hi hk
      rw [hn] at e'
      rw [Option.some.inj e']; exact Or.inl q
    · exact (h.section_nb (by omega) e).imp_right (·.2)
  · rintro (e | q)
    · exact (h.adj_nb e).1
    · obtain ⟨h0, _, hib, _⟩ := h.part i j q
      obtain ⟨o, ho, b, e1, _⟩ := h.comp i h0 .only (by rw [hib]; simp [Ty.points])
      have hbs := h.border_slots ho (by rw [e1, (h.ty _ h0).1, hib])
      rw [e1] at hbs
      unfold Nb
      rw [hbs, q]
      cases b <;> simp

end

end Soro.Infra
