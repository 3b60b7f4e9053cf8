import Verif.Proof.ReverseAhead

/-! C105: going straight back in the network, see `Model/ReverseAhead.lean` and `Spec/ReverseAhead.lean`. -/

namespace Soro.Infra

/-- the network with its nodes -/
structure Net (g0 : Graph) (xs : List SecIn) (bs : List (Nat × Bool × Nat)) (L : Links) (nodes : List Node) : Prop where
  valid : ValidNet g0 xs bs
  links : connectAll (netGraph g0 xs bs).el (netGraph g0 xs bs).n = some L
  all : AllNodes L nodes

section
variable {g0 : Graph} {xs : List SecIn} {bs : List (Nat × Bool × Nat)} {L : Links} {nodes : List Node}

/-- **C105** In a network `reverse_ahead` never throws. -/
theorem C105_total (N : Net g0 xs bs L nodes) (n : Node) :
    reverseAhead (netGraph g0 xs bs).el L (reverseEdges L nodes) n ≠ .fail :=
  (netCtx N.valid).reverse_total N.links N.all n

/-- **C105** In a network `reverse_ahead` yields a node that leads to the given one, and a null pointer only if there is none. -/
theorem C105_pred (N : Net g0 xs bs L nodes) (n : Node) :
    (∀ r, reverseAhead (netGraph g0 xs bs).el L (reverseEdges L nodes) n = .node r → L.Pred r n) ∧
    (reverseAhead (netGraph g0 xs bs).el L (reverseEdges L nodes) n = .null ↔ ∀ u, ¬ L.Pred u n) := by
  have hmem : ∀ {u v}, u ∈ reverseEdges L nodes v ↔ L.Pred u v := mem_reverse N.all
  have key : ∀ r, reverseAhead (netGraph g0 xs bs).el L (reverseEdges L nodes) n = .node r → r ∈ reverseEdges L nodes n := by
    intro r h
    unfold reverseAhead at h
    cases hr : reverseEdges L nodes n with
    | nil => rw [hr] at h; cases h
    | cons a l =>
      rw [hr] at h
      cases l with
      | nil => injection h with h; simp [h]
      | cons b t =>
        simp only at h
        unfold elementReverseAhead switchReverseAhead defaultReverseAhead at h
        split at h
        · split at h
          · rename_i hf
            injection h with h
            rw [← h]; exact List.mem_of_find?_eq_some hf
          · split at h
            · rename_i hab
              split at h
              · injection h with h
                rw [hab, ← h]; simp
              · cases h
            · cases h
        · split at h
          · rename_i hf
            injection h with h
            rw [← h]; exact List.mem_of_find?_eq_some hf
          · cases h
  refine ⟨fun r h => hmem.1 (key r h), ?_, ?_⟩
  · intro h u hu
    have hm := hmem.2 hu
    unfold reverseAhead at h
    cases hr : reverseEdges L nodes n with
    | nil => rw [hr] at hm; cases hm
    | cons a l =>
      rw [hr] at h
      cases l with
      | nil => cases h
      | cons b t =>
        simp only at h
        unfold elementReverseAhead switchReverseAhead defaultReverseAhead at h
        repeat' split at h
        all_goals cases h
  · intro h
    have : reverseEdges L nodes n = [] := by
      rw [List.eq_nil_iff_forall_not_mem]
      exact fun u hu => h u (hmem.1 hu)
    unfold reverseAhead
    rw [this]

theorem parse_mem {o : SecOut} (ho : o ∈ (parseAll xs g0).2) : o.x ∈ xs := by
  have := parseAll_x xs g0
  rw [← this]
  exact List.mem_map_of_mem ho

theorem kmOk (v : ValidNet g0 xs bs) (w : WellLaid g0 xs bs) : KmOk (parseAll xs g0).2 (netGraph g0 xs bs) := by
  have h := netCtx v
  intro o ho c hk
  have hi := h.elem o ho c
  have hp := (h.att o ho c).pt
  have ht := (h.ty _ hi).1
  have hor := w.oriented _ hi
  rw [← ht, hk] at hor
  rw [hk] at hp
  have hq : ∀ q ∈ Ty.kmJump.points, ∃ o' ∈ (parseAll xs g0).2, ∃ c', o'.x.elem c' = o.x.elem c ∧ o'.x.pt c' = q := fun q hq =>
    h.comp _ hi q (by rw [← ht, hk]; exact hq)
  simp only [Ty.points, List.mem_cons, List.not_mem_nil, or_false] at hp
  rcases hp with hp | hp
  · obtain ⟨o', ho', c', e1, e2⟩ := hq .fin (by simp [Ty.points])
    have := hor (.start, .fin) (by simp [Ty.pairs]) o.x (parse_mem ho) o'.x (parse_mem ho') c c' rfl e1 hp e2
    simp [Joined] at this
    rw [hp, this.1]; rfl
  · obtain ⟨o', ho', c', e1, e2⟩ := hq .start (by simp [Ty.points])
    have := hor (.start, .fin) (by simp [Ty.pairs]) o'.x (parse_mem ho') o.x (parse_mem ho) c' c e1 rfl e2 hp
    simp [Joined] at this
    rw [hp, this.2]; rfl

theorem arriveOk (v : ValidNet g0 xs bs) (w : WellLaid g0 xs bs) : ArriveOk (parseAll xs g0).2 (netGraph g0 xs bs) := by
  have h := netCtx v
  intro o ho b hnb hk
  have hi := h.elem o ho b
  have hp := (h.att o ho b).pt
  have ht := (h.ty _ hi).1
  have hor := w.oriented _ hi
  rw [← ht] at hor
  obtain ⟨o', ho', b', q1, q2⟩ := main_section h ho b
  have ha := h.arrive_enter ho b ho' b' hnb hk q1 q2
  rw [if_neg] at ha
  · exact ha
  · rintro ⟨r1, r2, r3, r4⟩
    rw [q2] at r2
    have hpair : (mainPoint (o.x.pt b), o.x.pt b) ∈ ((netGraph g0 xs bs).el (o.x.elem b)).ty.pairs := by
      revert hp r2 r1
      cases ((netGraph g0 xs bs).el (o.x.elem b)).ty <;> cases o.x.pt b <;> decide
    have := hor _ hpair o'.x (parse_mem ho') o.x (parse_mem ho) b' b q1 rfl q2 rfl
    unfold Joined at this
    rw [if_neg hk, if_neg r1] at this
    rcases this with this | this
    · exact this r3.symm
    · exact this r4.symm

theorem partners_mem : ∀ (bs : List (Nat × Bool × Nat)) (p : Nat → Option Nat) (i j : Nat), partners bs p i = some j →
    (∃ l, (i, l, j) ∈ bs) ∨ p i = some j
  | [], _, _, _, h => Or.inr h
  | t :: bs, p, i, j, h => by
    have h : partners bs (set p t.1 (some t.2.2)) i = some j := h
    rcases partners_mem bs _ i j h with ⟨l, hl⟩ | h'
    · exact Or.inl ⟨l, List.mem_cons_of_mem _ hl⟩
    · unfold set at h'
      split at h'
      · rename_i e
        subst e
        have := Option.some.inj h'
        exact Or.inl ⟨t.2.1, by rw [← this]; simp⟩
      · exact Or.inr h'

theorem borderOk (v : ValidNet g0 xs bs) (w : WellLaid g0 xs bs) : BorderOk (parseAll xs g0).2 (partners bs fun _ => none) := by
  intro o ho o' ho' b b' hp
  rcases partners_mem _ _ _ _ hp with ⟨l, hl⟩ | h
  · exact w.pair _ hl _ (parse_mem ho) _ (parse_mem ho') b b' rfl rfl
  · cases h

/-- **C105** (partial: for networks that are `WellLaid`, see `C105_jump_negation`) Inside a section `reverse_ahead` goes back node by node. -/
theorem C105_section_partial (N : Net g0 xs bs L nodes) (w : WellLaid g0 xs bs) {o : SecOut} (ho : o ∈ (parseAll xs g0).2) (b : Bool)
    (j : Nat) {v p : Node} (hv : (o.nodes (netGraph g0 xs bs).el b)[j + 1]? = some v) (hp : (o.nodes (netGraph g0 xs bs).el b)[j]? = some p) :
    reverseAhead (netGraph g0 xs bs).el L (reverseEdges L nodes) v = .node p :=
  (netCtx N.valid).reverse_inner (kmOk N.valid w) N.links N.all ho hv hp

/-- a train running straight on leaves at the node it reached -/
theorem straight_node {i : Nat} {e : Elem} {p q : Pt} (hk : e.ty ≠ .kmJump) (hs : Straight e.ty p q) : enter i e p = leaveNode i e q := by
  unfold Straight exits at hs
  unfold enter leaveNode
  cases hty : e.ty <;> rw [hty] at hs hk <;> cases p <;> simp at hs <;> first | (exact absurd rfl hk) | skip
  all_goals (try (subst hs; rfl))
  rcases hs with rfl | rfl <;> rfl

/-- **C105** (partial: for networks that are `WellLaid`) A train that leaves a section at an element other than a border reaches a node of
the element. From there `reverse_ahead` goes back to the last node of the section, at a switch that was reached over the branch to the
last node of the section at the stem. It goes back to this node from the first node of the section the train gets to running straight
on, and from the first node of the section at the branch of a switch. -/
theorem C105_straight_partial (N : Net g0 xs bs L nodes) (w : WellLaid g0 xs bs) {o : SecOut} (ho : o ∈ (parseAll xs g0).2) (b : Bool)
    (hb : (g0.el (o.x.elem b)).ty ≠ .border) :
    ∃ n, (o.nodes (netGraph g0 xs bs).el b).getLast?.bind L.next = some n ∧ n.1 = o.x.elem b ∧
      (∀ s ∈ (parseAll xs g0).2, ∀ c, s.x.elem c = o.x.elem b → s.x.pt c = (if o.x.pt b = .branch then .stem else o.x.pt b) →
        ∃ u, (s.nodes (netGraph g0 xs bs).el c).getLast? = some u ∧
          reverseAhead (netGraph g0 xs bs).el L (reverseEdges L nodes) n = .node u) ∧
      (∀ s ∈ (parseAll xs g0).2, ∀ c, s.x.elem c = o.x.elem b → Straight (g0.el (o.x.elem b)).ty (o.x.pt b) (s.x.pt c) →
        ∃ v, (s.nodes (netGraph g0 xs bs).el (!c)).head? = some v ∧
          reverseAhead (netGraph g0 xs bs).el L (reverseEdges L nodes) v = .node n) := by
  have h := netCtx N.valid
  have hi := h.elem o ho b
  have ht := (h.ty _ hi).1
  rw [← ht] at hb ⊢
  have hkm := kmOk N.valid w
  have har := arriveOk N.valid w
  refine ⟨_, last_next h N.links ho b, arrive_id _ _ _ _, ?_, ?_⟩
  · intro s hs c he hq
    have hne : s.nodes (netGraph g0 xs bs).el c ≠ [] := by unfold SecOut.nodes; simpa using h.ne s hs c
    obtain ⟨u, hu⟩ : ∃ u, (s.nodes (netGraph g0 xs bs).el c).getLast? = some u := ⟨_, List.getLast?_eq_getLast_of_ne_nil hne⟩
    refine ⟨u, hu, ?_⟩
    by_cases hsw : ((netGraph g0 xs bs).el (o.x.elem b)).ty = .simpleSwitch
    · have hp := (h.att o ho b).pt
      rw [hsw] at hp
      by_cases hst : o.x.pt b = .start
      · rw [hst, if_neg (by decide)] at hq
        obtain ⟨rfl, rfl⟩ := h.uniq s hs o ho c b he (by rw [hq, hst])
        exact h.reverse_arrive hkm har N.links N.all hs c hu hb fun _ => hst
      · refine h.reverse_switch har N.links N.all ho hs b c hsw hst he ?_ hu
        rw [hq]
        revert hp hst
        cases o.x.pt b <;> simp [Ty.points]
    · have hnb : o.x.pt b ≠ .branch := by
        have hp := (h.att o ho b).pt
        intro e
        rw [e] at hp
        revert hp hsw
        cases ((netGraph g0 xs bs).el (o.x.elem b)).ty <;> simp [Ty.points]
      rw [if_neg hnb] at hq
      obtain ⟨rfl, rfl⟩ := h.uniq s hs o ho c b he hq
      exact h.reverse_arrive hkm har N.links N.all hs c hu hb fun e => absurd e hsw
  · intro s hs c he hst
    obtain ⟨d, hd, hh⟩ := head?_mem (h.ne s hs (!c))
    have hn : (s.nodes (netGraph g0 xs bs).el (!c)).head? = some (trackNode (netGraph g0 xs bs).el d c) := by
      unfold SecOut.nodes; rw [List.head?_map, hh]; simp
    refine ⟨_, hn, ?_⟩
    rw [h.reverse_leave hkm N.links N.all hs hn]
    congr 1
    unfold SecOut.leave
    by_cases hk : ((netGraph g0 xs bs).el (o.x.elem b)).ty = .kmJump
    · rw [he, arrive_simple (Or.inl hk), if_pos (Or.inr hk), tb_inj]
      have k1 := hkm o ho b hk
      have k2 := hkm s hs c (by rw [he]; exact hk)
      rw [hk, k1, k2] at hst
      unfold Straight exits at hst
      cases b <;> cases c <;> simp at hst ⊢
    · rw [he, if_neg (by simp [hb, hk]), har o ho b hb hk]
      exact (straight_node hk hst).symm

/-- **C105** (partial: for networks that are `WellLaid`) From the first node of a section at a border `reverse_ahead` goes over the border
to its partner and to the last node of the section there. The way back ends at a border that is nobody's partner. -/
theorem C105_border_partial (N : Net g0 xs bs L nodes) (w : WellLaid g0 xs bs) {o : SecOut} (ho : o ∈ (parseAll xs g0).2) (b : Bool)
    (hb : (g0.el (o.x.elem b)).ty = .border) :
    ∃ v n, (o.nodes (netGraph g0 xs bs).el (!b)).head? = some v ∧ n.1 = o.x.elem b ∧
      reverseAhead (netGraph g0 xs bs).el L (reverseEdges L nodes) v = .node n ∧
      (∀ o' ∈ (parseAll xs g0).2, ∀ c, (∃ l, (o'.x.elem c, l, o.x.elem b) ∈ bs) → ∃ m u, m.1 = o'.x.elem c ∧
        reverseAhead (netGraph g0 xs bs).el L (reverseEdges L nodes) n = .node m ∧
        (o'.nodes (netGraph g0 xs bs).el c).getLast? = some u ∧
        reverseAhead (netGraph g0 xs bs).el L (reverseEdges L nodes) m = .node u) ∧
      ((∀ t ∈ bs, t.2.2 ≠ o.x.elem b) → reverseAhead (netGraph g0 xs bs).el L (reverseEdges L nodes) n = .null) := by
  have h := netCtx N.valid
  have hi := h.elem o ho b
  have ht := (h.ty _ hi).1
  have hb' : ((netGraph g0 xs bs).el (o.x.elem b)).ty = .border := ht.trans hb
  have hkm := kmOk N.valid w
  obtain ⟨d, hd, hh⟩ := head?_mem (h.ne o ho (!b))
  have hn : (o.nodes (netGraph g0 xs bs).el (!b)).head? = some (trackNode (netGraph g0 xs bs).el d b) := by
    unfold SecOut.nodes; rw [List.head?_map, hh]; simp
  refine ⟨_, tb (o.x.elem b) b, hn, rfl, ?_, ?_, ?_⟩
  · rw [h.reverse_leave hkm N.links N.all ho hn]
    unfold SecOut.leave
    rw [if_pos (Or.inl hb')]
  · rintro o' ho' c ⟨l, hl⟩
    obtain rfl : c = !b := by
      have := w.pair _ hl _ (parse_mem ho') _ (parse_mem ho) c b rfl rfl
      rw [this]; simp
    have hpart : partners bs (fun _ => none) (o'.x.elem (!b)) = some (o.x.elem b) :=
      partners_eq bs _ _ _ ⟨l, hl⟩ fun t ht e => (w.one t ht _ hl).1 e
    have hbo : ((netGraph g0 xs bs).el (o'.x.elem (!b))).ty = .border := by
      obtain ⟨p1, _, p3, _⟩ := h.part _ _ hpart
      rw [(h.ty _ p1).1, p3]
    have hne : o'.nodes (netGraph g0 xs bs).el (!b) ≠ [] := by unfold SecOut.nodes; simpa using h.ne o' ho' (!b)
    obtain ⟨u, hu⟩ : ∃ u, (o'.nodes (netGraph g0 xs bs).el (!b)).getLast? = some u := ⟨_, List.getLast?_eq_getLast_of_ne_nil hne⟩
    refine ⟨_, u, rfl, h.reverse_partner N.links N.all ho ho' b hb' hpart ?_, hu, ?_⟩
    · intro i hp
      rcases partners_mem _ _ _ _ hp with ⟨l', hl'⟩ | hc
      · exact (w.one _ hl' _ hl).2 rfl
      · cases hc
    · have := h.reverse_border (borderOk N.valid w) N.links N.all ho' (!b) hu hbo
      rwa [Bool.not_not] at this
  · intro hno
    refine h.reverse_end N.links N.all ho b hb' ?_
    intro i hp
    rcases partners_mem _ _ _ _ hp with ⟨l', hl'⟩ | hc
    · exact hno _ hl' rfl
    · cases hc

/-- **C105** (partial: for networks that are `WellLaid`) From the first node of a section at a bumper or end of track `reverse_ahead` goes to
the bumper, where the way back ends. -/
theorem C105_end_partial (N : Net g0 xs bs L nodes) (w : WellLaid g0 xs bs) {o : SecOut} (ho : o ∈ (parseAll xs g0).2) (b : Bool)
    (hb : (g0.el (o.x.elem b)).ty = .bumper ∨ (g0.el (o.x.elem b)).ty = .trackEnd) :
    ∃ v n, (o.nodes (netGraph g0 xs bs).el (!b)).head? = some v ∧ n.1 = o.x.elem b ∧
      reverseAhead (netGraph g0 xs bs).el L (reverseEdges L nodes) v = .node n ∧
      reverseAhead (netGraph g0 xs bs).el L (reverseEdges L nodes) n = .null := by
  have h := netCtx N.valid
  have hi := h.elem o ho b
  rw [← (h.ty _ hi).1] at hb
  obtain ⟨d, hd, hh⟩ := head?_mem (h.ne o ho (!b))
  have hn : (o.nodes (netGraph g0 xs bs).el (!b)).head? = some (trackNode (netGraph g0 xs bs).el d b) := by
    unfold SecOut.nodes; rw [List.head?_map, hh]; simp
  refine ⟨_, _, hn, SecOut.leave_id o _ b, h.reverse_leave (kmOk N.valid w) N.links N.all ho hn, ?_⟩
  rw [(C105_pred N _).2]
  intro u hu
  obtain ⟨br, e⟩ := hu.get
  have hnb : ((netGraph g0 xs bs).el (o.x.elem b)).ty ≠ .border := by rcases hb with hb | hb <;> rw [hb] <;> decide
  obtain ⟨_, o', ho', b', e1, _, e3⟩ := h.pred_section N.links e
    (by rw [SecOut.leave_id]; rcases hb with hb | hb <;> rw [hb] <;> rfl) (by rw [SecOut.leave_id]; exact hnb)
  rw [SecOut.leave_id] at e1
  have hp := (h.att o ho b).pt
  have hp' := (h.att o' ho' b').pt
  rw [e1] at hp'
  have hpt : o'.x.pt b' = o.x.pt b := by
    rcases hb with hb | hb <;> rw [hb] at hp hp' <;> simp [Ty.points] at hp hp' <;> rw [hp, hp']
  obtain ⟨rfl, rfl⟩ := h.uniq o' ho' o ho b' b e1 hpt
  have hf := (h.att o' ho' b').flag
  rcases hb with hb | hb <;> rw [hb] at hp <;> simp [Ty.points] at hp <;>
    simp [SecOut.leave, leaveNode, Soro.Infra.arrive, hb, hp, tb_inj, Elem.pflag] at e3 hf <;> rw [hf] at e3 <;> revert e3 <;> cases b' <;> simp
end

/-! ### examples and failures -/

/-- the nodes of the first `n` elements in their order -/
def someNodes (n : Nat) : List Node := (List.range n).flatMap fun i => [(i, 0), (i, 1), (i, 2), (i, 3)]

theorem mem_someNodes {n : Nat} {u : Node} : u ∈ someNodes n ↔ u.1 < n ∧ u.2 < 4 := by
  unfold someNodes
  simp only [List.mem_flatMap, List.mem_range, List.mem_cons, List.not_mem_nil, or_false]
  constructor
  · rintro ⟨i, hi, rfl | rfl | rfl | rfl⟩ <;> exact ⟨hi, by simp⟩
  · rintro ⟨h1, h2⟩
    obtain ⟨a, b⟩ := u
    refine ⟨a, h1, ?_⟩
    simp only at h2
    rcases b with _ | _ | _ | _ | b <;> simp
    omega

theorem someNodes_nodup (n : Nat) : (someNodes n).Nodup := by
  induction n with
  | zero => simp [someNodes]
  | succ n ih =>
    have : someNodes (n + 1) = someNodes n ++ [(n, 0), (n, 1), (n, 2), (n, 3)] := by
      unfold someNodes
      rw [List.range_succ, List.flatMap_append]
      rfl
    rw [this, List.nodup_append]
    refine ⟨ih, by simp, ?_⟩
    intro a ha b hb
    have h1 := (mem_someNodes.1 ha).1
    rintro rfl
    simp at hb
    rcases hb with rfl | rfl | rfl | rfl <;> simp at h1

theorem entries_pos {el : Nat → Elem} {i : Nat} {e : Bool × Node × Option Node} (he : e ∈ entries el i) : e.2.1.2 < 4 := by
  have t : ∀ b, (tb i b).2 < 4 := by intro b; cases b <;> simp [tb]
  have l : ∀ b, (lr i b).2 < 4 := by intro b; cases b <;> simp [lr]
  revert e
  unfold entries
  dsimp only
  repeat' split
  all_goals simp [t, l]

/-- every network has its nodes -/
theorem someNet {g0 : Graph} {xs : List SecIn} {bs : List (Nat × Bool × Nat)} (v : ValidNet g0 xs bs) :
    ∃ L, Net g0 xs bs L (someNodes (netGraph g0 xs bs).n) := by
  obtain ⟨L, hL⟩ := C81_total v
  refine ⟨L, v, hL, someNodes_nodup _, ?_⟩
  intro u w h
  obtain ⟨br, e⟩ := h.get
  obtain ⟨h1, h2⟩ := entry_of_link hL e
  exact mem_someNodes.2 ⟨h1, entries_pos h2⟩

/-- the network of `Props/Network.lean` meets the hypotheses -/
theorem exWellLaid : WellLaid (exGraph exTys) exSecs exBorders where
  oriented := exOriented
  pair := by decide
  one := by decide
example : ∃ L, Net (exGraph exTys) exSecs exBorders L (someNodes (netGraph (exGraph exTys) exSecs exBorders).n) := someNet exNet

/-- the way back in a network -/
def backIn (g0 : Graph) (xs : List SecIn) (bs : List (Nat × Bool × Nat)) (k : Nat) (n : Node) : Option Rev :=
  (connectAll (netGraph g0 xs bs).el (netGraph g0 xs bs).n).map fun L =>
    goBack (netGraph g0 xs bs).el L (reverseEdges L (someNodes (netGraph g0 xs bs).n)) k n

/-- back from the section at the start of the switch 1, that was reached over stem or branch, to the section at the stem -/
example : ((parseAll exSecs (exGraph exTys)).2.map fun o => o.down) =
    [[11, 12, 9], [14], [17, 18, 15], [21, 22, 19], [25, 26, 23], [29, 30, 27], [33, 34, 31], [37, 38, 35]] ∧
    (List.range 5).map (fun k => backIn (exGraph exTys) exSecs exBorders k (12, 0)) =
      [some (.node (12, 0)), some (.node (11, 1)), some (.node (1, 1)), some (.node (14, 0)), some (.node (2, 3))] := by
  decide +kernel

/-- **C105** fails without `WellLaid`: before a kilometrage jump whose start is the end of a section, `reverse_ahead` of the last node of the
section yields the jump. -/
theorem C105_jump_negation : ¬ ∀ (g0 : Graph) (xs : List SecIn) (bs : List (Nat × Bool × Nat)) (L : Links) (nodes : List Node),
    Net g0 xs bs L nodes → ∀ o ∈ (parseAll xs g0).2, ∀ b, ∀ (j : Nat) v p, (o.nodes (netGraph g0 xs bs).el b)[j + 1]? = some v →
      (o.nodes (netGraph g0 xs bs).el b)[j]? = some p → reverseAhead (netGraph g0 xs bs).el L (reverseEdges L nodes) v = .node p := by
  intro hall
  obtain ⟨L, N⟩ := someNet badJumpNet
  have key : ∃ o, (parseAll badJump (exGraph [.bumper, .kmJump, .bumper])).2.head? = some o ∧
      (o.nodes (netGraph (exGraph [.bumper, .kmJump, .bumper]) badJump []).el false)[2]? = some (5, 0) ∧
      (o.nodes (netGraph (exGraph [.bumper, .kmJump, .bumper]) badJump []).el false)[1]? = some (4, 0) := ⟨_, rfl, by decide +kernel, by decide +kernel⟩
  obtain ⟨o, ho, h2, h1⟩ := key
  have := hall _ _ _ _ _ N o (List.mem_of_head? ho) false 1 _ _ h2 h1
  have comp : (connectAll (netGraph (exGraph [.bumper, .kmJump, .bumper]) badJump []).el (netGraph (exGraph [.bumper, .kmJump, .bumper]) badJump []).n).map
      (fun L => reverseAhead (netGraph (exGraph [.bumper, .kmJump, .bumper]) badJump []).el L
        (reverseEdges L (someNodes (netGraph (exGraph [.bumper, .kmJump, .bumper]) badJump []).n)) (5, 0)) = some (.node (1, 0)) := by decide +kernel
  rw [N.links, Option.map_some, this] at comp
  cases comp

/-- a ring of two line switches -/
def ring : List SecIn := [⟨0, .fin, 1, .start, 0, [], []⟩, ⟨1, .fin, 0, .start, 1, [], []⟩]
theorem ringNet : ValidNet (exGraph [.lineSwitch, .lineSwitch]) ring [] := by
  apply exValid <;> decide
theorem ringLaid : WellLaid (exGraph [.lineSwitch, .lineSwitch]) ring [] where
  oriented := by decide
  pair := by decide
  one := by decide

/-- **C105** The way back need not end, even if the network is `WellLaid`: in a ring without speed limit that affects the train, the search
for the limit at the start of a train (src/runtime/interval.cc:32-42) does not terminate. -/
theorem C105_ring_negation : ¬ ∀ (g0 : Graph) (xs : List SecIn) (bs : List (Nat × Bool × Nat)) (L : Links) (nodes : List Node),
    Net g0 xs bs L nodes → WellLaid g0 xs bs → ∀ n, ∃ k, goBack (netGraph g0 xs bs).el L (reverseEdges L nodes) k n = .null := by
  intro hall
  obtain ⟨L, N⟩ := someNet ringNet
  have comp : (connectAll (netGraph (exGraph [.lineSwitch, .lineSwitch]) ring []).el (netGraph (exGraph [.lineSwitch, .lineSwitch]) ring []).n).map
      (fun L => ([(0, 0), (4, 0), (1, 0), (2, 0)] : List Node).map fun n => reverseAhead (netGraph (exGraph [.lineSwitch, .lineSwitch]) ring []).el L
        (reverseEdges L (someNodes (netGraph (exGraph [.lineSwitch, .lineSwitch]) ring []).n)) n) =
      some [.node (4, 0), .node (1, 0), .node (2, 0), .node (0, 0)] := by decide +kernel
  rw [N.links, Option.map_some] at comp
  simp only [List.map_cons, List.map_nil, Option.some.injEq, List.cons.injEq, and_true] at comp
  obtain ⟨c1, c2, c3, c4⟩ := comp
  have key : ∀ (k : Nat) (n : Node), n ∈ ([(0, 0), (4, 0), (1, 0), (2, 0)] : List Node) →
      goBack (netGraph (exGraph [.lineSwitch, .lineSwitch]) ring []).el L
        (reverseEdges L (someNodes (netGraph (exGraph [.lineSwitch, .lineSwitch]) ring []).n)) k n ≠ .null := by
    intro k
    induction k with
    | zero => intro n _; simp [goBack]
    | succ k ih =>
      intro n hn
      unfold goBack
      simp only [List.mem_cons, List.not_mem_nil, or_false] at hn
      rcases hn with rfl | rfl | rfl | rfl
      · rw [c1]; exact ih _ (by simp)
      · rw [c2]; exact ih _ (by simp)
      · rw [c3]; exact ih _ (by simp)
      · rw [c4]; exact ih _ (by simp)
  obtain ⟨k, hk⟩ := hall _ _ _ _ _ N ringLaid (0, 0)
  exact key k _ (by simp) hk

/-- **C105** The way back in such a ring: a train that starts at a node comes back to it after four steps, over three other nodes, again and
again. -/
theorem C105_round_negation : ∃ (g0 : Graph) (xs : List SecIn) (bs : List (Nat × Bool × Nat)) (L : Links) (nodes : List Node) (a b c d : Node),
    Net g0 xs bs L nodes ∧ WellLaid g0 xs bs ∧ [a, b, c, d].Nodup ∧ ∀ k,
      goBack (netGraph g0 xs bs).el L (reverseEdges L nodes) (4 * k) a = .node a ∧
      goBack (netGraph g0 xs bs).el L (reverseEdges L nodes) (4 * k + 1) a = .node b ∧
      goBack (netGraph g0 xs bs).el L (reverseEdges L nodes) (4 * k + 2) a = .node c ∧
      goBack (netGraph g0 xs bs).el L (reverseEdges L nodes) (4 * k + 3) a = .node d := by
  obtain ⟨L, N⟩ := someNet ringNet
  have comp : (connectAll (netGraph (exGraph [.lineSwitch, .lineSwitch]) ring []).el (netGraph (exGraph [.lineSwitch, .lineSwitch]) ring []).n).map
      (fun L => ([(0, 0), (4, 0), (1, 0), (2, 0)] : List Node).map fun n => reverseAhead (netGraph (exGraph [.lineSwitch, .lineSwitch]) ring []).el L
        (reverseEdges L (someNodes (netGraph (exGraph [.lineSwitch, .lineSwitch]) ring []).n)) n) =
      some [.node (4, 0), .node (1, 0), .node (2, 0), .node (0, 0)] := by decide +kernel
  rw [N.links, Option.map_some] at comp
  simp only [List.map_cons, List.map_nil, Option.some.injEq, List.cons.injEq, and_true] at comp
  obtain ⟨c1, c2, c3, c4⟩ := comp
  refine ⟨_, _, _, L, _, (0, 0), (4, 0), (1, 0), (2, 0), N, ringLaid, by decide, fun k => ?_⟩
  have key : ∀ j, goBack (netGraph (exGraph [.lineSwitch, .lineSwitch]) ring []).el L
      (reverseEdges L (someNodes (netGraph (exGraph [.lineSwitch, .lineSwitch]) ring []).n)) (4 * k + j) (0, 0) =
      goBack (netGraph (exGraph [.lineSwitch, .lineSwitch]) ring []).el L
      (reverseEdges L (someNodes (netGraph (exGraph [.lineSwitch, .lineSwitch]) ring []).n)) j (0, 0) := by
    induction k with
    | zero => intro j; rw [Nat.mul_zero, Nat.zero_add]
    | succ k ih =>
      intro j
      rw [show 4 * (k + 1) + j = 4 * k + j + 1 + 1 + 1 + 1 by omega]
      simp only [goBack, c1, c2, c3, c4]
      exact ih j
  refine ⟨key 0, (key 1).trans ?_, (key 2).trans ?_, (key 3).trans ?_⟩
  · simp only [goBack, c1]
  · simp only [goBack, c1, c2]
  · simp only [goBack, c1, c2, c3]

end Soro.Infra
