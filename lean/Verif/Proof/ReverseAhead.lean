import Verif.Props.Network
import Verif.Spec.ReverseAhead

/-! Predecessors of nodes, see `Model/ReverseAhead.lean`. -/

namespace Soro.Infra

section
variable {g0 : Graph} {out : List SecOut} {part : Nat → Option Nat} {g : Graph}

/-- a link comes from an entry -/
theorem entry_of_link {el : Nat → Elem} {n : Nat} {L : Links} (h : connectAll el n = some L) {br : Bool} {u v : Node}
    (e : L.get br u = some v) : u.1 < n ∧ (br, u, some v) ∈ entries el u.1 := by
  have hi : u.1 < n := by
    rcases Nat.lt_or_ge u.1 n with h' | h'
    · exact h'
    · rw [(connectAll_get h).2 br u h'] at e; cases e
  refine ⟨hi, ?_⟩
  have : ∃ t, (br, u, t) ∈ entries el u.1 := by
    apply Classical.byContradiction
    intro hn
    rw [link_none h (fun t ht => hn ⟨t, ht⟩)] at e
    cases e
  obtain ⟨t, ht⟩ := this
  have := link_of_entry h hi ht
  rw [e] at this
  rw [this]; exact ht

theorem trackNode_id (el : Nat → Elem) (i : Nat) (up : Bool) : (trackNode el i up).1 = i := by
  unfold trackNode; split <;> rfl

theorem entries_track_node {el : Nat → Elem} {i : Nat} (h : (el i).ty.isTrack = true) {e : Bool × Node × Option Node}
    (he : e ∈ entries el i) : (el i).ty.isDirected = true ∧ e.2.1 = (i, 0) ∨ (el i).ty.isDirected = false ∧ ∃ up, e.2.1 = tb i up := by
  obtain ⟨h1, h2, h3, h4, h5⟩ := Ty.dir_kinds h
  unfold entries at he
  cases hd : (el i).ty.isDirected with
  | true => simp [h1, h2, h5, Ty.not_und hd, hd] at he; rw [he]; simp
  | false =>
    have hu := Ty.dir_of_ne_und h hd
    simp [h1, h2, h5, hu] at he
    right
    rcases he with ⟨_, he⟩ | ⟨_, he⟩ <;> rw [he] <;> simp

/-- the links of track elements are those of the sections -/
theorem Ctx.track_edge (h : Ctx g0 out part g) {L : Links} (hL : connectAll g.el g.n = some L) {br : Bool} {u v : Node}
    (e : L.get br u = some v) (hu : g0.n ≤ u.1) : br = false ∧ ∃ o ∈ out, ∃ b, ∃ j : Nat, (o.nodes g.el b)[j]? = some u ∧
      v = ((o.nodes g.el b)[j + 1]?).getD (Soro.Infra.arrive (o.x.elem b) (g.el (o.x.elem b)) (o.x.pt b) b) := by
  obtain ⟨hi, he⟩ := entry_of_link hL e
  obtain ⟨o, ho, b, hb⟩ := h.all _ hu hi
  have htr := (h.ids o ho b _ hb).2.2.1
  have hbr := entry_track_branch htr he
  simp only at hbr
  refine ⟨hbr, o, ho, ?_⟩
  have : ∃ b, u.1 ∈ o.towards b ∧ u = trackNode g.el u.1 (!b) := by
    rcases entries_track_node htr he with ⟨h1, h2⟩ | ⟨h1, up, h2⟩
    · exact ⟨b, hb, by unfold trackNode; rw [if_pos h1]; exact h2⟩
    · refine ⟨!up, ?_, ?_⟩
      · have := h.undBoth o ho u.1 h1
        cases b <;> cases up <;> simp [SecOut.towards] at hb ⊢ <;> first | exact hb | exact this.1 hb | exact this.2 hb
      · unfold trackNode; rw [if_neg (by simp [h1])]; simpa [tb] using h2
  obtain ⟨b, hb, hub⟩ := this
  obtain ⟨j, hj⟩ := List.getElem?_of_mem hb
  have hn : (o.nodes g.el b)[j]? = some u := by
    unfold SecOut.nodes
    rw [List.getElem?_map, hj, Option.map_some, ← hub]
  refine ⟨b, j, hn, ?_⟩
  have := (h.chain hL ho hn).1
  subst hbr
  unfold Links.get at e
  simp only [Bool.false_eq_true, if_false] at e
  rw [e] at this
  exact Option.some.inj this

/-- a node of a section belongs to one place of one section and direction -/
theorem Ctx.place (h : Ctx g0 out part g) {o o' : SecOut} (ho : o ∈ out) (ho' : o' ∈ out) {b b' : Bool} {j j' : Nat} {n : Node}
    (h1 : (o.nodes g.el b)[j]? = some n) (h2 : (o'.nodes g.el b')[j']? = some n) : o = o' ∧ b = b' ∧ j = j' := by
  unfold SecOut.nodes at h1 h2
  rw [List.getElem?_map, Option.map_eq_some_iff] at h1 h2
  obtain ⟨a, ha, rfl⟩ := h1
  obtain ⟨a', ha', e⟩ := h2
  have hid : a' = a := by
    have := congrArg Prod.fst e
    rwa [trackNode_id, trackNode_id] at this
  subst hid
  have m := List.mem_of_getElem? ha
  have m' := List.mem_of_getElem? ha'
  obtain rfl := h.disj o ho o' ho' b b' _ m m'
  have hb : b = b' := by
    cases hd : (g.el a').ty.isDirected with
    | true =>
      have r1 := (h.ids o ho b _ m).2.2.2 hd
      have r2 := (h.ids o ho b' _ m').2.2.2 hd
      rw [r1] at r2
      cases b <;> cases b' <;> simp_all
    | false =>
      unfold trackNode at e
      rw [hd] at e
      cases b <;> cases b' <;> simp_all
  subst hb
  refine ⟨rfl, rfl, ?_⟩
  have hnd := h.nodup o ho b
  have hlt : j < (o.towards b).length := by
    rcases Nat.lt_or_ge j (o.towards b).length with hh | hh
    · exact hh
    · rw [List.getElem?_eq_none_iff.2 hh] at ha; cases ha
  exact (List.getElem?_inj hlt hnd).mp (by rw [ha, ha'])

/-- the node at which trains leave an element over a point -/
def leaveNode (i : Nat) (e : Elem) (q : Pt) : Node :=
  match e.ty, q with
  | .simpleSwitch, .stem | .simpleSwitch, .branch | .lineSwitch, .fin => tb i e.rising
  | .cross, .startLeft => lr i (!e.rising)
  | .cross, .endLeft => lr i e.rising
  | .cross, .startRight => tb i (!e.flag .startRight)
  | .cross, .endRight => tb i (e.flag .startRight)
  | _, _ => tb i (!e.rising)

/-- entries of section elements lead out at a point -/
theorem entry_point {el : Nat → Elem} {i : Nat} (hs : (el i).ty.points ≠ []) (hb : (el i).ty ≠ .border) (hk : (el i).ty ≠ .kmJump)
    {e : Bool × Node × Option Node} (he : e ∈ entries el i) : ∃ q ∈ (el i).ty.points, ∃ k, (∀ b, slotOf (el i).ty q b = some k) ∧
      e.2.2 = away el i k ((el i).pflag q) ∧
      (((el i).ty = .simpleSwitch ∧ q = .branch) ∧ e.1 = true ∧ e.2.1 = leaveNode i (el i) q ∨
       ¬ ((el i).ty = .simpleSwitch ∧ q = .branch) ∧ (e.1 = false → e.2.1 = leaveNode i (el i) q)) := by
  unfold entries at he
  unfold leaveNode
  dsimp only at he
  cases hty : (el i).ty <;> rw [hty] at hs hb hk he <;>
    first | (exact absurd rfl hs) | (exact absurd rfl hb) | (exact absurd rfl hk) | skip
  case bumper =>
    simp [Ty.isEnd, Ty.id] at he
    subst he
    exact ⟨.only, by simp [Ty.points], 0, fun _ => rfl, rfl, by simp⟩
  case trackEnd =>
    simp [Ty.isEnd, Ty.id] at he
    subst he
    exact ⟨.only, by simp [Ty.points], 0, fun _ => rfl, rfl, by simp⟩
  case lineSwitch =>
    simp [Ty.isEnd, Ty.isSimple, Ty.id] at he
    rcases he with rfl | rfl
    · exact ⟨.fin, by simp [Ty.points], 2, fun _ => rfl, rfl, by simp⟩
    · exact ⟨.start, by simp [Ty.points], 0, fun _ => rfl, rfl, by simp⟩
  case simpleSwitch =>
    simp [Ty.isEnd, Ty.isSimple, Ty.isUndirected, Ty.isDirected, Ty.id] at he
    rcases he with rfl | rfl | rfl
    · exact ⟨.start, by simp [Ty.points], 0, fun _ => rfl, rfl, by simp⟩
    · exact ⟨.stem, by simp [Ty.points], 2, fun _ => rfl, rfl, by simp⟩
    · exact ⟨.branch, by simp [Ty.points], 4, fun _ => rfl, rfl, by simp⟩
  case cross =>
    simp [Ty.isEnd, Ty.isSimple, Ty.isUndirected, Ty.isDirected, Ty.id] at he
    rcases he with rfl | rfl | rfl | rfl | ⟨_, rfl | rfl⟩ | ⟨_, rfl | rfl⟩
    · exact ⟨.startLeft, by simp [Ty.points], 0, fun _ => rfl, rfl, by simp⟩
    · exact ⟨.endLeft, by simp [Ty.points], 2, fun _ => rfl, rfl, by simp⟩
    · exact ⟨.startRight, by simp [Ty.points], 4, fun _ => rfl, rfl, by simp⟩
    · exact ⟨.endRight, by simp [Ty.points], 6, fun _ => rfl, rfl, by simp⟩
    · exact ⟨.endRight, by simp [Ty.points], 6, fun _ => rfl, rfl, by simp⟩
    · exact ⟨.startLeft, by simp [Ty.points], 0, fun _ => rfl, rfl, by simp⟩
    · exact ⟨.endLeft, by simp [Ty.points], 2, fun _ => rfl, rfl, by simp⟩
    · exact ⟨.startRight, by simp [Ty.points], 4, fun _ => rfl, rfl, by simp⟩

/-- every point has an entry -/
theorem entry_leave {el : Nat → Elem} {i : Nat} (hb : (el i).ty ≠ .border) (hk : (el i).ty ≠ .kmJump)
    {q : Pt} (hq : q ∈ (el i).ty.points) : ∃ k, (∀ b, slotOf (el i).ty q b = some k) ∧
      (decide ((el i).ty = .simpleSwitch ∧ q = .branch), leaveNode i (el i) q, away el i k ((el i).pflag q)) ∈ entries el i := by
  unfold entries leaveNode
  dsimp only
  cases hty : (el i).ty <;> rw [hty] at hb hk hq <;> cases q <;>
    first | (exact absurd rfl hb) | (exact absurd rfl hk) | (exfalso; revert hq; decide) | skip
  all_goals
    refine ⟨_, fun _ => rfl, ?_⟩
    simp [Ty.isEnd, Ty.isSimple, Ty.isUndirected, Ty.isDirected, Ty.id, Elem.pflag]

/-- trains leave an element over a point at one node -/
theorem Ctx.leave_link (h : Ctx g0 out part g) {L : Links} (hL : connectAll g.el g.n = some L) {o : SecOut} (ho : o ∈ out) (c : Bool)
    (hb : (g.el (o.x.elem c)).ty ≠ .border) (hk : (g.el (o.x.elem c)).ty ≠ .kmJump) :
    L.get (decide ((g.el (o.x.elem c)).ty = .simpleSwitch ∧ o.x.pt c = .branch)) (leaveNode (o.x.elem c) (g.el (o.x.elem c)) (o.x.pt c)) =
      (o.nodes g.el (!c)).head? := by
  have hat := h.att o ho c
  obtain ⟨k, h1, h2⟩ := entry_leave hb hk hat.pt
  rcases hat.flag with hf | hf
  · exact absurd hf.1 hk
  · rw [hf] at h2
    exact h.get_away hL ho (h1 c) h2

/-- the links of section elements other than borders and kilometrage jumps lead to the sections -/
theorem Ctx.section_edge (h : Ctx g0 out part g) {L : Links} (hL : connectAll g.el g.n = some L) {br : Bool} {u v : Node}
    (e : L.get br u = some v) (hu : u.1 < g0.n) (hb : (g.el u.1).ty ≠ .border) (hk : (g.el u.1).ty ≠ .kmJump) :
    ∃ o ∈ out, ∃ c, o.x.elem c = u.1 ∧ (o.nodes g.el (!c)).head? = some v ∧
      (((g.el u.1).ty = .simpleSwitch ∧ o.x.pt c = .branch) ∧ br = true ∧ u = leaveNode u.1 (g.el u.1) (o.x.pt c) ∨
       ¬ ((g.el u.1).ty = .simpleSwitch ∧ o.x.pt c = .branch) ∧ (br = false → u = leaveNode u.1 (g.el u.1) (o.x.pt c))) := by
  obtain ⟨hi, he⟩ := entry_of_link hL e
  have hs := h.sec _ hu
  rw [← (h.ty _ hu).1] at hs
  obtain ⟨q, hq, k, h1, h2, h3⟩ := entry_point hs hb hk he
  obtain ⟨o, ho, c, e1, e2, hf, _⟩ := h.point hu hq
  refine ⟨o, ho, c, e1, ?_, by rw [e2]; exact h3⟩
  rcases hf with hf | hf
  · exact absurd hf.1 hk
  · rw [hf] at h2
    simp only at h2
    have := (h.away ho (b := c) (by rw [e1, e2]; exact h1 c)).1
    rw [e1, ← h2] at this
    exact this.symm

/-- the links of kilometrage jumps lead to track elements -/
theorem Ctx.km_edge (h : Ctx g0 out part g) {L : Links} (hL : connectAll g.el g.n = some L) {br : Bool} {u v : Node}
    (e : L.get br u = some v) (hu : u.1 < g0.n) (hk : (g.el u.1).ty = .kmJump) :
    br = false ∧ (g0.n ≤ v.1 ∧ (g.el v.1).ty.isTrack = true) ∧ ∃ up, u = tb u.1 up := by
  obtain ⟨hi, he⟩ := entry_of_link hL e
  rw [entries_simple (Or.inl hk)] at he
  have hb : (g.el u.1).ty ≠ .border := by rw [hk]; decide
  have key : ∀ k r, some v = Soro.Infra.away g.el u.1 k r → g0.n ≤ v.1 ∧ (g.el v.1).ty.isTrack = true := by
    intro k r hv
    unfold Soro.Infra.away at hv
    cases hn : (g.el u.1).nb (k + if r then 1 else 0) with
    | none => rw [hn] at hv; simp at hv
    | some t =>
      obtain ⟨o, ho, b, _, ⟨b', hm⟩, _⟩ := h.org _ hu hb _ _ hn
      have := h.ids o ho b' t hm
      rw [hn, Option.bind_some, getNode_track this.2.2.1] at hv
      rw [Option.some.inj hv, trackNode_id]
      exact ⟨this.1, this.2.2.1⟩
  rcases List.mem_append.1 he with he | he
  · split at he
    · simp at he
      exact ⟨he.1, key _ _ he.2.2, _, he.2.1⟩
    · cases he
  · split at he
    · simp at he
      exact ⟨he.1, key _ _ he.2.2, _, he.2.1⟩
    · cases he

/-- the links of borders lead to borders and to the section -/
theorem Ctx.border_edge (h : Ctx g0 out part g) {L : Links} (hL : connectAll g.el g.n = some L) {br : Bool} {u v : Node}
    (e : L.get br u = some v) (hu : u.1 < g0.n) (hb : (g.el u.1).ty = .border) :
    br = false ∧ ∃ o ∈ out, ∃ c, o.x.elem c = u.1 ∧ (u = tb u.1 c ∧ (o.nodes g.el (!c)).head? = some v ∨
      u = tb u.1 (!c) ∧ ∃ j, part u.1 = some j ∧ v = tb j (!c)) := by
  obtain ⟨hi, he⟩ := entry_of_link hL e
  rw [entries_simple (Or.inr hb)] at he
  have h1 : br = false ∧ ∃ up, u = tb u.1 up := by
    rcases List.mem_append.1 he with he | he
    · split at he
      · simp at he; exact ⟨he.1, _, he.2.1⟩
      · cases he
    · split at he
      · simp at he; exact ⟨he.1, _, he.2.1⟩
      · cases he
  obtain ⟨rfl, up, hup⟩ := h1
  refine ⟨rfl, ?_⟩
  obtain ⟨o, ho, c, e1, _⟩ := h.comp u.1 hu .only (by rw [← (h.ty _ hu).1, hb]; simp [Ty.points])
  refine ⟨o, ho, c, e1, ?_⟩
  obtain ⟨b1, b2⟩ := h.border_next hL ho c (by rw [e1]; exact hb)
  rw [e1] at b1 b2
  unfold Links.get at e
  simp only [Bool.false_eq_true, if_false] at e
  by_cases hc : up = c
  · subst hc
    left
    rw [← hup, e] at b2
    exact ⟨hup, b2.symm⟩
  · have hc : up = !c := by cases up <;> cases c <;> first | rfl | exact absurd rfl hc
    subst hc
    right
    refine ⟨hup, ?_⟩
    rw [← hup, e] at b1
    cases hp : part u.1 with
    | none => rw [hp] at b1; cases b1
    | some j =>
      rw [hp] at b1
      exact ⟨j, rfl, Option.some.inj b1⟩

/-! ### reverse edges -/

theorem mem_reverse {L : Links} {nodes : List Node} (hn : AllNodes L nodes) {u v : Node} : u ∈ reverseEdges L nodes v ↔ L.Pred u v := by
  rw [← List.count_pos_iff, C43_reverse L nodes hn.once]
  constructor
  · intro h
    unfold Links.Pred
    split at h
    · by_cases h1 : L.next u = some v
      · exact Or.inl h1
      · by_cases h2 : L.branch u = some v
        · exact Or.inr h2
        · simp [h1, h2] at h
    · omega
  · intro h
    rw [if_pos (hn.all u v h)]
    rcases h with h | h
    · rw [if_pos h]; omega
    · rw [if_pos h]; omega

theorem Links.Pred.get {L : Links} {u v : Node} (h : L.Pred u v) : ∃ br, L.get br u = some v := by
  rcases h with h | h
  · exact ⟨false, h⟩
  · exact ⟨true, h⟩

/-- a node that leads to `v` in one way only is listed once -/
theorem reverse_two {L : Links} {nodes : List Node} (hn : AllNodes L nodes) {v a b : Node} {t : List Node}
    (hr : reverseEdges L nodes v = a :: b :: t) (hab : a = b) : L.next a = some v ∧ L.branch a = some v := by
  subst hab
  have hc := C43_reverse L nodes hn.once a v
  rw [hr] at hc
  simp only [List.count_cons_self] at hc
  split at hc
  · by_cases h1 : L.next a = some v
    · by_cases h2 : L.branch a = some v
      · exact ⟨h1, h2⟩
      · simp [h1, h2] at hc
    · by_cases h2 : L.branch a = some v
      · simp [h1, h2] at hc
      · simp [h1, h2] at hc
  · omega

theorem Ctx.node_track (h : Ctx g0 out part g) {o : SecOut} (ho : o ∈ out) {b : Bool} {n : Node} (hn : n ∈ o.nodes g.el b) :
    (g.el n.1).ty.isTrack = true ∧ g0.n ≤ n.1 := by
  unfold SecOut.nodes at hn
  obtain ⟨a, ha, rfl⟩ := List.mem_map.1 hn
  rw [trackNode_id]
  have := h.ids o ho b a ha
  exact ⟨this.2.2.1, this.1⟩

/-- the predecessors of a section element other than a border are the last nodes of its sections -/
theorem Ctx.pred_section (h : Ctx g0 out part g) {L : Links} (hL : connectAll g.el g.n = some L) {br : Bool} {u v : Node}
    (e : L.get br u = some v) (hv : (g.el v.1).ty.isTrack = false) (hb : (g.el v.1).ty ≠ .border) :
    br = false ∧ ∃ o ∈ out, ∃ b, o.x.elem b = v.1 ∧ (o.nodes g.el b).getLast? = some u ∧
      v = Soro.Infra.arrive (o.x.elem b) (g.el (o.x.elem b)) (o.x.pt b) b := by
  have no : ∀ o ∈ out, ∀ b, v ∈ o.nodes g.el b → False := by
    intro o ho b hm
    rw [(h.node_track ho hm).1] at hv; cases hv
  rcases Nat.lt_or_ge u.1 g0.n with hu | hu
  · by_cases hub : (g.el u.1).ty = .border
    · obtain ⟨_, o, ho, c, e1, ⟨_, e2⟩ | ⟨_, j, hj, e2⟩⟩ := h.border_edge hL e hu hub
      · exact absurd (List.mem_of_head? e2) (no o ho _)
      · obtain ⟨_, p2, _, p4⟩ := h.part _ _ hj
        rw [e2, tb_id, (h.ty _ p2).1, p4] at hb
        exact absurd rfl hb
    · by_cases huk : (g.el u.1).ty = .kmJump
      · rw [(h.km_edge hL e hu huk).2.1.2] at hv; cases hv
      · obtain ⟨o, ho, c, _, e2, _⟩ := h.section_edge hL e hu hub huk
        exact absurd (List.mem_of_head? e2) (no o ho _)
  · obtain ⟨hbr, o, ho, b, j, h1, h2⟩ := h.track_edge hL e hu
    refine ⟨hbr, o, ho, b, ?_⟩
    cases hj : (o.nodes g.el b)[j + 1]? with
    | some m =>
      rw [hj] at h2
      exact absurd (List.mem_of_getElem? (hj.trans (by rw [h2]; rfl))) (no o ho b)
    | none =>
      rw [hj] at h2
      simp only [Option.getD_none] at h2
      refine ⟨by rw [h2, arrive_id], ?_, h2⟩
      rw [List.getLast?_eq_getElem?]
      have l1 := List.getElem?_eq_none_iff.1 hj
      have l2 : j < (o.nodes g.el b).length := by
        rcases Nat.lt_or_ge j (o.nodes g.el b).length with hh | hh
        · exact hh
        · rw [List.getElem?_eq_none_iff.2 hh] at h1; cases h1
      rw [show (o.nodes g.el b).length - 1 = j by omega]
      exact h1

/-- the last node of a section is at the branch of a switch if the section is -/
theorem Ctx.at_branch (h : Ctx g0 out part g) {o : SecOut} (ho : o ∈ out) {b : Bool} {n r : Node} (hn : n.1 = o.x.elem b)
    (ht : (g.el n.1).ty = .simpleSwitch) (hr : (o.nodes g.el b).getLast? = some r) :
    atBranch g.el n r = decide (o.x.pt b = .branch) := by
  rw [hn] at ht
  unfold SecOut.nodes at hr
  rw [List.getLast?_map, Option.map_eq_some_iff] at hr
  obtain ⟨a, ha, rfl⟩ := hr
  obtain ⟨k, hk, _, _⟩ := (h.att o ho b).slot
  have := h.at ho (b := b) (by rw [ht]; decide) hk ha (k' := 4) rfl
  unfold atBranch
  rw [hn, trackNode_id, this]
  have hp := (h.att o ho b).pt
  rw [ht] at hk hp
  revert hp hk
  cases o.x.pt b <;> simp [slotOf, Ty.points] <;> rintro rfl <;> decide

theorem Ctx.head_uniq (h : Ctx g0 out part g) {o o' : SecOut} (ho : o ∈ out) (ho' : o' ∈ out) {c c' : Bool} {n : Node}
    (h1 : (o.nodes g.el (!c)).head? = some n) (h2 : (o'.nodes g.el (!c')).head? = some n) : o = o' ∧ c = c' := by
  rw [List.head?_eq_getElem?] at h1 h2
  obtain ⟨e1, e2, _⟩ := h.place ho ho' h1 h2
  exact ⟨e1, by cases c <;> cases c' <;> simp_all⟩

/-- `reverse_ahead` finds a node -/
theorem Ctx.reverse_total (h : Ctx g0 out part g) {L : Links} (hL : connectAll g.el g.n = some L) {nodes : List Node}
    (hn : AllNodes L nodes) (n : Node) : reverseAhead g.el L (reverseEdges L nodes) n ≠ .fail := by
  have hmem : ∀ {u}, u ∈ reverseEdges L nodes n ↔ L.Pred u n := mem_reverse hn
  unfold reverseAhead
  cases hr : reverseEdges L nodes n with
  | nil => simp
  | cons a l =>
    cases l with
    | nil => simp
    | cons b t =>
      have ha : L.Pred a n := hmem.1 (by rw [hr]; simp)
      have hb : L.Pred b n := hmem.1 (by rw [hr]; simp)
      simp only
      unfold elementReverseAhead
      split
      · rename_i hsw
        have htr : (g.el n.1).ty.isTrack = false := by rw [hsw]; rfl
        have hnb : (g.el n.1).ty ≠ .border := by rw [hsw]; decide
        have nobr : ∀ u, L.branch u ≠ some n := by
          intro u hu
          have := (h.pred_section hL (br := true) (u := u) hu htr hnb).1
          cases this
        have hab : a ≠ b := fun e => nobr a (reverse_two hn hr e).2
        have ha : L.next a = some n := ha.resolve_right (nobr a)
        have hb : L.next b = some n := hb.resolve_right (nobr b)
        obtain ⟨_, o, ho, c, o1, o2, o3⟩ := h.pred_section hL (br := false) (u := a) ha htr hnb
        obtain ⟨_, o', ho', c', o1', o2', o3'⟩ := h.pred_section hL (br := false) (u := b) hb htr hnb
        have b1 := h.at_branch ho o1.symm hsw o2
        have b2 := h.at_branch ho' o1'.symm hsw o2'
        unfold switchReverseAhead
        split
        · simp
        · rename_i hf
          rw [List.find?_eq_none] at hf
          have f1 := hf a (by simp)
          have f2 := hf b (by simp)
          simp [ha, b1] at f1
          simp [hb, b2] at f2
          obtain ⟨rfl, rfl⟩ := h.uniq o ho o' ho' c c' (by rw [o1, o1']) (by rw [f1, f2])
          rw [o2] at o2'
          exact absurd (Option.some.inj o2') hab
      · unfold defaultReverseAhead
        split
        · simp
        · rename_i hf
          rw [List.find?_eq_none] at hf
          have nn : ∀ u, L.next u ≠ some n := by
            intro u hu
            have := hf u (by rw [← hr]; exact hmem.2 (Or.inl hu))
            simp [hu] at this
          have key : ∀ u, L.branch u = some n → ∃ o ∈ out, ∃ c, o.x.elem c = u.1 ∧ (o.nodes g.el (!c)).head? = some n ∧
              u = leaveNode u.1 (g.el u.1) (o.x.pt c) := by
            intro u hu
            rcases Nat.lt_or_ge u.1 g0.n with hu0 | hu0
            · by_cases hub : (g.el u.1).ty = .border
              · have := (h.border_edge hL (br := true) hu hu0 hub).1
                cases this
              · by_cases huk : (g.el u.1).ty = .kmJump
                · have := (h.km_edge hL (br := true) hu hu0 huk).1
                  cases this
                · obtain ⟨o, ho, c, e1, e2, ⟨_, _, e3⟩ | ⟨e3, _⟩⟩ := h.section_edge hL (br := true) hu hu0 hub huk
                  · exact ⟨o, ho, c, e1, e2, e3⟩
                  · have := h.leave_link hL ho c (by rw [e1]; exact hub) (by rw [e1]; exact huk)
                    rw [e1, decide_eq_false e3, e2] at this
                    exact absurd this (nn _)
            · have := (h.track_edge hL (br := true) hu hu0).1
              cases this
          obtain ⟨o, ho, c, e1, e2, e3⟩ := key a (ha.resolve_left (nn a))
          obtain ⟨o', ho', c', e1', e2', e3'⟩ := key b (hb.resolve_left (nn b))
          obtain ⟨rfl, rfl⟩ := h.head_uniq ho ho' e2 e2'
          rw [← e1] at e3
          rw [← e1'] at e3'
          exact absurd (reverse_two hn hr (by rw [e3, e3'])).1 (nn a)

/-! ### the way straight back -/

/-- a node with one way to it -/
theorem single_pred {el : Nat → Elem} {L : Links} {nodes : List Node} (hn : AllNodes L nodes) {v p : Node}
    (h1 : ∀ br u, L.get br u = some v → br = false ∧ u = p) (h2 : L.next p = some v) :
    reverseAhead el L (reverseEdges L nodes) v = .node p := by
  have hmem : ∀ {u}, u ∈ reverseEdges L nodes v ↔ L.Pred u v := mem_reverse hn
  have hp := hmem.2 (Or.inl h2)
  have eq : ∀ u ∈ reverseEdges L nodes v, u = p := fun u hu => by
    obtain ⟨br, e⟩ := (hmem.1 hu).get
    exact (h1 br u e).2
  unfold reverseAhead
  cases hr : reverseEdges L nodes v with
  | nil => rw [hr] at hp; cases hp
  | cons a l =>
    rw [hr] at eq
    cases l with
    | nil => simp only; rw [eq a (by simp)]
    | cons b t =>
      have := (reverse_two hn hr ((eq a (by simp)).trans (eq b (by simp)).symm)).2
      have := (h1 true a this).1
      cases this

/-- kilometrage jumps: the section at their start starts there -/
def KmOk (out : List SecOut) (g : Graph) : Prop :=
  ∀ o ∈ out, ∀ c, (g.el (o.x.elem c)).ty = .kmJump → o.x.pt c = if c then .start else .fin

/-- the node of an element at which trains leave it into the section `o` at its end `c` -/
def SecOut.leave (o : SecOut) (g : Graph) (c : Bool) : Node :=
  if (g.el (o.x.elem c)).ty = .border ∨ (g.el (o.x.elem c)).ty = .kmJump then tb (o.x.elem c) c
  else leaveNode (o.x.elem c) (g.el (o.x.elem c)) (o.x.pt c)

theorem leaveNode_id (i : Nat) (e : Elem) (q : Pt) : (leaveNode i e q).1 = i := by
  unfold leaveNode; split <;> rfl

theorem SecOut.leave_id (o : SecOut) (g : Graph) (c : Bool) : (o.leave g c).1 = o.x.elem c := by
  unfold SecOut.leave
  split
  · rfl
  · exact leaveNode_id _ _ _

/-- the links of a kilometrage jump lead to the sections -/
theorem Ctx.km_leave (h : Ctx g0 out part g) (hkm : KmOk out g) {L : Links} (hL : connectAll g.el g.n = some L) {br : Bool} {u v : Node}
    (e : L.get br u = some v) (hu : u.1 < g0.n) (hk : (g.el u.1).ty = .kmJump) :
    br = false ∧ ∃ o ∈ out, ∃ c, o.x.elem c = u.1 ∧ u = tb u.1 c ∧ (o.nodes g.el (!c)).head? = some v := by
  obtain ⟨rfl, _, up, hup⟩ := h.km_edge hL e hu hk
  refine ⟨rfl, ?_⟩
  have hp : ∀ p ∈ Ty.kmJump.points, ∃ o ∈ out, ∃ c, o.x.elem c = u.1 ∧ o.x.pt c = p := fun p hp =>
    h.comp u.1 hu p (by rw [← (h.ty _ hu).1, hk]; exact hp)
  obtain ⟨o, ho, c, e1, e2⟩ := hp (if up then .start else .fin) (by cases up <;> simp [Ty.points])
  have hk' : (g.el (o.x.elem c)).ty = .kmJump := by rw [e1]; exact hk
  have hc : c = up := by
    have := hkm o ho c hk'
    rw [e2] at this
    cases c <;> cases up <;> first | rfl | simp at this
  subst hc
  have := h.km hL ho c hk'
  rw [if_pos (hkm o ho c hk'), e1, ← hup] at this
  exact ⟨o, ho, c, e1, hup, this.symm.trans e⟩

/-- what leads to the first node of a section -/
theorem Ctx.head_pred (h : Ctx g0 out part g) (hkm : KmOk out g) {L : Links} (hL : connectAll g.el g.n = some L) {o : SecOut} (ho : o ∈ out)
    {c : Bool} {v : Node} (hv : (o.nodes g.el (!c)).head? = some v) {br : Bool} {u : Node} (e : L.get br u = some v) :
    u.1 = o.x.elem c ∧ (((g.el (o.x.elem c)).ty = .simpleSwitch ∧ o.x.pt c = .branch) ∧ br = true ∧ u = o.leave g c ∨
       ¬ ((g.el (o.x.elem c)).ty = .simpleSwitch ∧ o.x.pt c = .branch) ∧ (br = false → u = o.leave g c)) := by
  have hvt := h.node_track ho (List.mem_of_head? hv)
  unfold SecOut.leave
  rcases Nat.lt_or_ge u.1 g0.n with hu | hu
  · by_cases hub : (g.el u.1).ty = .border
    · obtain ⟨_, o', ho', c', e1, ⟨e2, e3⟩ | ⟨_, j, hj, e2⟩⟩ := h.border_edge hL e hu hub
      · obtain ⟨rfl, rfl⟩ := h.head_uniq ho ho' hv e3
        rw [e1, hub]
        exact ⟨rfl, Or.inr ⟨by simp, fun _ => by simpa using e2⟩⟩
      · have := (h.part _ _ hj).2.1
        rw [e2, tb_id] at hvt
        omega
    · by_cases huk : (g.el u.1).ty = .kmJump
      · obtain ⟨_, o', ho', c', e1, e2, e3⟩ := h.km_leave hkm hL e hu huk
        obtain ⟨rfl, rfl⟩ := h.head_uniq ho ho' hv e3
        rw [e1, huk]
        exact ⟨rfl, Or.inr ⟨by simp, fun _ => by simpa using e2⟩⟩
      · obtain ⟨o', ho', c', e1, e2, e3⟩ := h.section_edge hL e hu hub huk
        obtain ⟨rfl, rfl⟩ := h.head_uniq ho ho' hv e2
        rw [e1, if_neg (by simp [hub, huk])]
        exact ⟨rfl, e3⟩
  · obtain ⟨_, o', ho', b, j, h1, h2⟩ := h.track_edge hL e hu
    cases hj : (o'.nodes g.el b)[j + 1]? with
    | some m =>
      rw [hj] at h2
      rw [List.head?_eq_getElem?] at hv
      have := (h.place ho ho' hv (hj.trans (by rw [h2]; rfl))).2.2
      omega
    | none =>
      rw [hj] at h2
      simp only [Option.getD_none] at h2
      have := h.elem o' ho' b
      rw [h2, arrive_id] at hvt
      omega

/-- leaving an element into a section -/
theorem Ctx.leave_get (h : Ctx g0 out part g) (hkm : KmOk out g) {L : Links} (hL : connectAll g.el g.n = some L) {o : SecOut} (ho : o ∈ out)
    (c : Bool) : L.get (decide ((g.el (o.x.elem c)).ty = .simpleSwitch ∧ o.x.pt c = .branch)) (o.leave g c) = (o.nodes g.el (!c)).head? := by
  unfold SecOut.leave
  by_cases hub : (g.el (o.x.elem c)).ty = .border
  · have := (h.border_next hL ho c hub).2
    rw [hub]
    simpa [Links.get] using this
  · by_cases huk : (g.el (o.x.elem c)).ty = .kmJump
    · have := h.km hL ho c huk
      rw [if_pos (hkm o ho c huk)] at this
      rw [huk]
      simpa [Links.get] using this
    · rw [if_neg (by simp [hub, huk])]
      exact h.leave_link hL ho c hub huk

/-- back from the first node of a section -/
theorem Ctx.reverse_leave (h : Ctx g0 out part g) (hkm : KmOk out g) {L : Links} (hL : connectAll g.el g.n = some L) {nodes : List Node}
    (hn : AllNodes L nodes) {o : SecOut} (ho : o ∈ out) {c : Bool} {v : Node} (hv : (o.nodes g.el (!c)).head? = some v) :
    reverseAhead g.el L (reverseEdges L nodes) v = .node (o.leave g c) := by
  have hmem : ∀ {u}, u ∈ reverseEdges L nodes v ↔ L.Pred u v := mem_reverse hn
  have hl := h.leave_get hkm hL ho c
  rw [hv] at hl
  have hpred : L.Pred (o.leave g c) v := by
    revert hl
    cases decide ((g.el (o.x.elem c)).ty = .simpleSwitch ∧ o.x.pt c = .branch)
    · exact Or.inl
    · exact Or.inr
  have hp := hmem.2 hpred
  have hvt := h.node_track ho (List.mem_of_head? hv)
  unfold reverseAhead
  cases hr : reverseEdges L nodes v with
  | nil => rw [hr] at hp; cases hp
  | cons a l =>
    cases l with
    | nil => rw [hr] at hp; simp at hp; simp only; rw [hp]
    | cons b t =>
      simp only
      unfold elementReverseAhead
      rw [if_neg (by intro hs; rw [hs] at hvt; simp [Ty.isTrack, Ty.id] at hvt)]
      by_cases hsw : (g.el (o.x.elem c)).ty = .simpleSwitch ∧ o.x.pt c = .branch
      · have nn : ∀ br u, L.get br u = some v → br = true ∧ u = o.leave g c := by
          intro br u e
          rcases (h.head_pred hkm hL ho hv e).2 with ⟨_, e2⟩ | ⟨e2, _⟩
          · exact e2
          · exact absurd hsw e2
        have ha : L.Pred a v := hmem.1 (by rw [hr]; simp)
        have hb : L.Pred b v := hmem.1 (by rw [hr]; simp)
        obtain ⟨x, hx⟩ := ha.get
        obtain ⟨y, hy⟩ := hb.get
        have := (reverse_two hn hr ((nn x a hx).2.trans (nn y b hy).2.symm)).1
        have := (nn false a this).1
        cases this
      · rw [decide_eq_false hsw] at hl
        unfold defaultReverseAhead
        split
        · rename_i r hf
          have := List.find?_some hf
          simp only [decide_eq_true_eq] at this
          rcases (h.head_pred hkm hL ho hv (br := false) this).2 with ⟨e2, _⟩ | ⟨_, e2⟩
          · exact absurd e2 hsw
          · rw [e2 rfl]
        · rename_i hf
          rw [List.find?_eq_none] at hf
          have := hf (o.leave g c) (by rw [← hr]; exact hp)
          simp only [decide_eq_true_eq] at this
          exact absurd hl this

/-- what leads to an inner node of a section -/
theorem Ctx.inner_pred (h : Ctx g0 out part g) (hkm : KmOk out g) {L : Links} (hL : connectAll g.el g.n = some L)
    {o : SecOut} (ho : o ∈ out) {b : Bool} {j : Nat} {v p : Node} (hv : (o.nodes g.el b)[j + 1]? = some v)
    (hp : (o.nodes g.el b)[j]? = some p) {br : Bool} {u : Node} (e : L.get br u = some v) : br = false ∧ u = p := by
  have hvt := h.node_track ho (List.mem_of_getElem? hv)
  have nohead : ∀ o' ∈ out, ∀ c, (o'.nodes g.el c).head? = some v → False := by
    intro o' ho' c hc
    rw [List.head?_eq_getElem?] at hc
    have := (h.place ho ho' hv hc).2.2
    omega
  rcases Nat.lt_or_ge u.1 g0.n with hu | hu
  · exfalso
    by_cases hub : (g.el u.1).ty = .border
    · obtain ⟨_, o', ho', c', e1, ⟨e2, e3⟩ | ⟨_, j, hj, e2⟩⟩ := h.border_edge hL e hu hub
      · exact nohead _ ho' _ e3
      · have := (h.part _ _ hj).2.1
        rw [e2, tb_id] at hvt
        omega
    · by_cases huk : (g.el u.1).ty = .kmJump
      · obtain ⟨_, o', ho', c', e1, e2, e3⟩ := h.km_leave hkm hL e hu huk
        exact nohead _ ho' _ e3
      · obtain ⟨o', ho', c', e1, e2, e3⟩ := h.section_edge hL e hu hub huk
        exact nohead _ ho' _ e2
  · obtain ⟨e0, o', ho', b', j', h1, h2⟩ := h.track_edge hL e hu
    refine ⟨e0, ?_⟩
    cases hj : (o'.nodes g.el b')[j' + 1]? with
    | some m =>
      rw [hj] at h2
      obtain ⟨rfl, rfl, hjj⟩ := h.place ho ho' hv (hj.trans (by rw [h2]; rfl))
      obtain rfl : j = j' := by omega
      rw [hp] at h1
      exact (Option.some.inj h1).symm
    | none =>
      rw [hj] at h2
      simp only [Option.getD_none] at h2
      have := h.elem o' ho' b'
      rw [h2, arrive_id] at hvt
      omega

/-- back inside a section -/
theorem Ctx.reverse_inner (h : Ctx g0 out part g) (hkm : KmOk out g) {L : Links} (hL : connectAll g.el g.n = some L) {nodes : List Node}
    (hn : AllNodes L nodes) {o : SecOut} (ho : o ∈ out) {b : Bool} {j : Nat} {v p : Node} (hv : (o.nodes g.el b)[j + 1]? = some v)
    (hp : (o.nodes g.el b)[j]? = some p) : reverseAhead g.el L (reverseEdges L nodes) v = .node p := by
  refine single_pred hn (fun br u e => h.inner_pred hkm hL ho hv hp e) ?_
  have := (h.chain hL ho hp).1
  rw [hv] at this
  exact this

/-- trains reach the node for their point -/
def ArriveOk (out : List SecOut) (g : Graph) : Prop :=
  ∀ o ∈ out, ∀ b, (g.el (o.x.elem b)).ty ≠ .border → (g.el (o.x.elem b)).ty ≠ .kmJump →
    arrive (o.x.elem b) (g.el (o.x.elem b)) (o.x.pt b) b = enter (o.x.elem b) (g.el (o.x.elem b)) (o.x.pt b)

theorem enter_inj {i : Nat} {e : Elem} {p q : Pt} (hk : e.ty ≠ .kmJump) (hp : p ∈ e.ty.points) (hq : q ∈ e.ty.points)
    (h : enter i e p = enter i e q) : p = q ∨ e.ty = .simpleSwitch ∧ p ≠ .start ∧ q ≠ .start := by
  unfold enter at h
  cases hty : e.ty <;> rw [hty] at hp hq hk h <;> cases p <;> first | (exfalso; revert hp; decide) | skip
  all_goals
    cases q <;> first | (exact Or.inl rfl) | (exfalso; revert hq; decide) | (exact absurd rfl hk) | (exfalso; simp [tb_inj, lr_inj, tb_lr, lr_tb] at h; done) | simp

/-- back from an element into the section: the only way -/
theorem Ctx.reverse_arrive (h : Ctx g0 out part g) (hkm : KmOk out g) (har : ArriveOk out g) {L : Links} (hL : connectAll g.el g.n = some L)
    {nodes : List Node} (hn : AllNodes L nodes) {o : SecOut} (ho : o ∈ out) (b : Bool) {u : Node}
    (hu : (o.nodes g.el b).getLast? = some u) (hb : (g.el (o.x.elem b)).ty ≠ .border)
    (hsw : (g.el (o.x.elem b)).ty = .simpleSwitch → o.x.pt b = .start) :
    reverseAhead g.el L (reverseEdges L nodes) (Soro.Infra.arrive (o.x.elem b) (g.el (o.x.elem b)) (o.x.pt b) b) = .node u := by
  have hat := h.att o ho b
  have hlast := last_next h hL ho b
  rw [hu] at hlast
  refine single_pred hn ?_ hlast
  intro br w e
  obtain ⟨e0, o', ho', b', e1, e2, e3⟩ := h.pred_section hL e (by rw [arrive_id]; exact points_section hat.pt) (by rw [arrive_id]; exact hb)
  refine ⟨e0, ?_⟩
  rw [arrive_id] at e1
  have hat' := h.att o' ho' b'
  have hpt : o.x.pt b = o'.x.pt b' := by
    by_cases hk : (g.el (o.x.elem b)).ty = .kmJump
    · have hk' : (g.el (o'.x.elem b')).ty = .kmJump := by rw [e1]; exact hk
      rw [arrive_simple (Or.inl hk), arrive_simple (Or.inl hk'), e1, tb_inj] at e3
      rw [hkm o ho b hk, hkm o' ho' b' hk']
      have : b = b' := by cases b <;> cases b' <;> simp_all
      rw [this]
    · rw [har o ho b hb hk, har o' ho' b' (by rw [e1]; exact hb) (by rw [e1]; exact hk), e1] at e3
      have hp' := hat'.pt
      rw [e1] at hp'
      rcases enter_inj hk hat.pt hp' e3 with hh | ⟨hh, hh2, _⟩
      · exact hh
      · exact absurd (hsw hh) hh2
  obtain ⟨rfl, rfl⟩ := h.uniq o ho o' ho' b b' e1.symm hpt
  rw [hu] at e2
  exact (Option.some.inj e2).symm

/-- back from a switch to its stem -/
theorem Ctx.reverse_switch (h : Ctx g0 out part g) (har : ArriveOk out g) {L : Links} (hL : connectAll g.el g.n = some L)
    {nodes : List Node} (hn : AllNodes L nodes) {o s : SecOut} (ho : o ∈ out) (hs : s ∈ out) (b c : Bool) {u : Node}
    (hsw : (g.el (o.x.elem b)).ty = .simpleSwitch) (hp : o.x.pt b ≠ .start) (he : s.x.elem c = o.x.elem b) (hq : s.x.pt c = .stem)
    (hu : (s.nodes g.el c).getLast? = some u) :
    reverseAhead g.el L (reverseEdges L nodes) (Soro.Infra.arrive (o.x.elem b) (g.el (o.x.elem b)) (o.x.pt b) b) = .node u := by
  have hmem : ∀ {u v}, u ∈ reverseEdges L nodes v ↔ L.Pred u v := mem_reverse hn
  have hb : (g.el (o.x.elem b)).ty ≠ .border := by rw [hsw]; decide
  have hk : (g.el (o.x.elem b)).ty ≠ .kmJump := by rw [hsw]; decide
  have hat := h.att o ho b
  have hlast := last_next h hL hs c
  rw [hu] at hlast
  have heq : Soro.Infra.arrive (s.x.elem c) (g.el (s.x.elem c)) (s.x.pt c) c = Soro.Infra.arrive (o.x.elem b) (g.el (o.x.elem b)) (o.x.pt b) b := by
    rw [har o ho b hb hk, har s hs c (by rw [he]; exact hb) (by rw [he]; exact hk), he, hq]
    have := hat.pt
    unfold enter
    rw [hsw] at this ⊢
    revert this hp
    cases o.x.pt b <;> simp [Ty.points]
  rw [heq] at hlast
  simp only [Option.bind_some] at hlast
  generalize hv : Soro.Infra.arrive (o.x.elem b) (g.el (o.x.elem b)) (o.x.pt b) b = v at *
  have hvi : v.1 = o.x.elem b := by rw [← hv, arrive_id]
  have htr : (g.el v.1).ty.isTrack = false := by rw [hvi, hsw]; rfl
  have hmu : u ∈ reverseEdges L nodes v := hmem.2 (Or.inl hlast)
  unfold reverseAhead
  cases hr : reverseEdges L nodes v with
  | nil => rw [hr] at hmu; cases hmu
  | cons x l =>
    cases l with
    | nil => rw [hr] at hmu; simp at hmu; simp only; rw [hmu]
    | cons y t =>
      simp only
      unfold elementReverseAhead
      rw [if_pos (by rw [hvi]; exact hsw)]
      unfold switchReverseAhead
      split
      · rename_i r hf
        have h1 := List.find?_some hf
        have h2 := List.mem_of_find?_eq_some hf
        rw [← hr, hmem] at h2
        obtain ⟨br, e⟩ := h2.get
        obtain ⟨e0, o', ho', b', e1, e2, e3⟩ := h.pred_section hL e htr (by rw [hvi]; exact hb)
        rw [h.at_branch ho' e1.symm (by rw [hvi]; exact hsw) e2] at h1
        simp at h1
        have hst : o'.x.pt b' = .stem := by
          rw [hvi] at e1
          have hp' := (h.att o' ho' b').pt
          rw [har o' ho' b' (by rw [e1]; exact hb) (by rw [e1]; exact hk)] at e3
          rw [har s hs c (by rw [he]; exact hb) (by rw [he]; exact hk)] at heq
          rw [e1] at e3 hp'
          rw [he] at heq
          rw [← heq] at e3
          have hps := (h.att s hs c).pt
          rw [he] at hps
          rcases enter_inj hk hps hp' e3 with hh | ⟨_, _, hh⟩
          · rw [← hh, hq]
          · rw [hsw] at hp'
            revert hp' hh
            have := h1.1
            revert this
            cases o'.x.pt b' <;> simp [Ty.points]
        obtain ⟨rfl, rfl⟩ := h.uniq o' ho' s hs b' c (by rw [e1, he, hvi]) (by rw [hst, hq])
        rw [hu] at e2
        rw [Option.some.inj e2]
      · rename_i hf
        rw [List.find?_eq_none] at hf
        have := hf u (by rw [← hr]; exact hmu)
        rw [h.at_branch hs (by rw [hvi, he]) (by rw [hvi]; exact hsw) hu, hq] at this
        simp [hlast] at this

/-- borders: partners are a low and a high one -/
def BorderOk (out : List SecOut) (part : Nat → Option Nat) : Prop :=
  ∀ o ∈ out, ∀ o' ∈ out, ∀ b b', part (o.x.elem b) = some (o'.x.elem b') → b' = !b

/-- what leads to a border -/
theorem Ctx.pred_border (h : Ctx g0 out part g) {L : Links} (hL : connectAll g.el g.n = some L) {o : SecOut} (ho : o ∈ out)
    {b up br : Bool} {u : Node} (hb : (g.el (o.x.elem b)).ty = .border) (e : L.get br u = some (tb (o.x.elem b) up)) :
    br = false ∧ (up = !b ∧ (o.nodes g.el b).getLast? = some u ∨
      ∃ o' ∈ out, ∃ c, part (o'.x.elem c) = some (o.x.elem b) ∧ (g.el (o'.x.elem c)).ty = .border ∧ up = !c ∧ u = tb (o'.x.elem c) (!c)) := by
  have hi := h.elem o ho b
  have hvt : (g.el (tb (o.x.elem b) up).1).ty.isTrack = false := by rw [tb_id, hb]; rfl
  have no : ∀ o' ∈ out, ∀ b', tb (o.x.elem b) up ∈ o'.nodes g.el b' → False := by
    intro o' ho' b' hm
    rw [(h.node_track ho' hm).1] at hvt; cases hvt
  rcases Nat.lt_or_ge u.1 g0.n with hu | hu
  · by_cases hub : (g.el u.1).ty = .border
    · obtain ⟨e0, o', ho', c, e1, ⟨_, e2⟩ | ⟨e3, j, hj, e2⟩⟩ := h.border_edge hL e hu hub
      · exact absurd (List.mem_of_head? e2) (no o' ho' _)
      · refine ⟨e0, Or.inr ⟨o', ho', c, ?_, by rw [e1]; exact hub, ?_, by rw [e1]; exact e3⟩⟩
        · have := congrArg Prod.fst e2
          rw [tb_id, tb_id] at this
          rw [e1, hj, this]
        · have := congrArg Prod.fst e2
          rw [tb_id, tb_id] at this
          rw [← this, tb_inj] at e2
          exact e2
    · by_cases huk : (g.el u.1).ty = .kmJump
      · rw [(h.km_edge hL e hu huk).2.1.2] at hvt; cases hvt
      · obtain ⟨o', ho', c, _, e2, _⟩ := h.section_edge hL e hu hub huk
        exact absurd (List.mem_of_head? e2) (no o' ho' _)
  · obtain ⟨hbr, o', ho', b', j, h1, h2⟩ := h.track_edge hL e hu
    refine ⟨hbr, Or.inl ?_⟩
    cases hj : (o'.nodes g.el b')[j + 1]? with
    | some m =>
      rw [hj] at h2
      exact absurd (List.mem_of_getElem? (hj.trans (by rw [h2]; rfl))) (no o' ho' b')
    | none =>
      rw [hj] at h2
      simp only [Option.getD_none] at h2
      have e1 : o'.x.elem b' = o.x.elem b := by
        have := congrArg Prod.fst h2
        rw [tb_id, arrive_id] at this
        exact this.symm
      have hp := (h.att o ho b).pt
      have hp' := (h.att o' ho' b').pt
      rw [e1, hb] at hp'
      rw [hb] at hp
      obtain ⟨rfl, rfl⟩ := h.uniq o' ho' o ho b' b e1 (by rw [border_pt hp, border_pt hp'])
      rw [arrive_simple (Or.inr hb), tb_inj] at h2
      refine ⟨h2, ?_⟩
      rw [List.getLast?_eq_getElem?]
      have l1 := List.getElem?_eq_none_iff.1 hj
      have l2 : j < (o'.nodes g.el b').length := by
        rcases Nat.lt_or_ge j (o'.nodes g.el b').length with hh | hh
        · exact hh
        · rw [List.getElem?_eq_none_iff.2 hh] at h1; cases h1
      rw [show (o'.nodes g.el b').length - 1 = j by omega]
      exact h1

/-- back from a border into its section -/
theorem Ctx.reverse_border (h : Ctx g0 out part g) (hbo : BorderOk out part) {L : Links} (hL : connectAll g.el g.n = some L)
    {nodes : List Node} (hn : AllNodes L nodes) {o : SecOut} (ho : o ∈ out) (b : Bool) {u : Node}
    (hu : (o.nodes g.el b).getLast? = some u) (hb : (g.el (o.x.elem b)).ty = .border) :
    reverseAhead g.el L (reverseEdges L nodes) (tb (o.x.elem b) (!b)) = .node u := by
  have hlast := last_next h hL ho b
  rw [hu, arrive_simple (Or.inr hb)] at hlast
  refine single_pred hn ?_ hlast
  intro br w e
  obtain ⟨e0, ⟨_, e2⟩ | ⟨o', ho', c, e1, _, e3, _⟩⟩ := h.pred_border hL ho hb e
  · rw [hu] at e2
    exact ⟨e0, (Option.some.inj e2).symm⟩
  · have := hbo o' ho' o ho c b e1
    rw [this] at e3
    cases c <;> cases e3

/-- back from a border to its partner -/
theorem Ctx.reverse_partner (h : Ctx g0 out part g) {L : Links} (hL : connectAll g.el g.n = some L)
    {nodes : List Node} (hn : AllNodes L nodes) {o o' : SecOut} (ho : o ∈ out) (ho' : o' ∈ out) (b : Bool)
    (hb : (g.el (o.x.elem b)).ty = .border) (hp : part (o'.x.elem (!b)) = some (o.x.elem b))
    (hu : ∀ i, part i = some (o.x.elem b) → i = o'.x.elem (!b)) :
    reverseAhead g.el L (reverseEdges L nodes) (tb (o.x.elem b) b) = .node (tb (o'.x.elem (!b)) b) := by
  have hb' : (g.el (o'.x.elem (!b))).ty = .border := by
    obtain ⟨p1, _, p3, _⟩ := h.part _ _ hp
    rw [(h.ty _ p1).1, p3]
  have hnext := (h.border_next hL ho' (!b) hb').1
  rw [hp, Bool.not_not] at hnext
  refine single_pred hn ?_ hnext
  intro br w e
  obtain ⟨e0, ⟨e2, _⟩ | ⟨o2, ho2, c, e1, _, e3, e4⟩⟩ := h.pred_border hL ho hb e
  · cases b <;> cases e2
  · refine ⟨e0, ?_⟩
    rw [e4, hu _ e1, e3]

/-- the way back ends at a border that is nobody's partner -/
theorem Ctx.reverse_end (h : Ctx g0 out part g) {L : Links} (hL : connectAll g.el g.n = some L)
    {nodes : List Node} (hn : AllNodes L nodes) {o : SecOut} (ho : o ∈ out) (b : Bool)
    (hb : (g.el (o.x.elem b)).ty = .border) (hu : ∀ i, part i ≠ some (o.x.elem b)) :
    reverseAhead g.el L (reverseEdges L nodes) (tb (o.x.elem b) b) = .null := by
  have hmem : ∀ {u v}, u ∈ reverseEdges L nodes v ↔ L.Pred u v := mem_reverse hn
  have : reverseEdges L nodes (tb (o.x.elem b) b) = [] := by
    rw [List.eq_nil_iff_forall_not_mem]
    intro u hm
    obtain ⟨br, e⟩ := (hmem.1 hm).get
    obtain ⟨e0, ⟨e2, _⟩ | ⟨o2, ho2, c, e1, _⟩⟩ := h.pred_border hL ho hb e
    · cases b <;> cases e2
    · exact hu _ e1
  unfold reverseAhead
  rw [this]

end

end Soro.Infra
