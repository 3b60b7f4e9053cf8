import Verif.Proof.NetworkRun
import Mathlib.Data.List.Nodup

/-! The node graph of a network, see `Model/Network.lean` and `Spec/Network.lean`. -/

namespace Soro.Infra

/-! ### C43: reverse edges -/

theorem addReverse_count (rev : Node → List Node) (n u v : Node) (t : Option Node) :
    (addReverse rev n t v).count u = (rev v).count u + if n = u ∧ t = some v then 1 else 0 := by
  cases t with
  | none => simp [addReverse]
  | some t =>
    unfold addReverse set
    by_cases hv : v = t
    · subst hv
      by_cases hn : n = u <;> simp [hn]
    · simp [hv, Ne.symm hv]

/-- **C43** `u` is listed as reverse edge of `v` exactly as often as `v` is next or branch node of `u` -/
theorem C43_reverse (l : Links) (nodes : List Node) (h : nodes.Nodup) (u v : Node) : (reverseEdges l nodes v).count u =
    if u ∈ nodes then (if l.next u = some v then 1 else 0) + (if l.branch u = some v then 1 else 0) else 0 := by
  unfold reverseEdges
  have gen : ∀ (nodes : List Node) (rev : Node → List Node), nodes.Nodup →
      ((nodes.foldl (fun rev n => addReverse (addReverse rev n (l.next n)) n (l.branch n)) rev) v).count u = (rev v).count u +
      if u ∈ nodes then (if l.next u = some v then 1 else 0) + (if l.branch u = some v then 1 else 0) else 0 := by
    intro nodes
    induction nodes with
    | nil => intro rev _; simp
    | cons n nodes ih =>
      intro rev hn
      rw [List.nodup_cons] at hn
      rw [List.foldl_cons, ih _ hn.2, addReverse_count, addReverse_count]
      by_cases he : n = u
      · subst he; simp [hn.1]; omega
      · by_cases hm : u ∈ nodes <;> simp [he, hm, Ne.symm he]
  rw [gen nodes _ h]
  simp

example : (reverseEdges ⟨fun n => if n = (0, 0) then some (1, 0) else none, fun n => if n = (0, 0) ∨ n = (2, 0) then some (1, 0) else none⟩
    [(0, 0), (1, 0), (2, 0)] (1, 0)) = [(0, 0), (0, 0), (2, 0)] := by decide

/-! ### Networks for examples -/

instance (ty x b y c) : Decidable (Joined ty x b y c) := by unfold Joined; infer_instance
set_option synthInstance.maxSize 2048 in
instance (xs i ty) : Decidable (Oriented xs i ty) := by unfold Oriented; infer_instance

/-- elements of the given types -/
def exGraph (tys : List Ty) : Graph := ⟨fun i => ⟨tys.getD i .invalid, false, fun _ => none, fun _ => false, fun _ => 0, true, false⟩, tys.length⟩

theorem exValid (tys : List Ty) (xs : List SecIn) (bs : List (Nat × Bool × Nat))
    (h1 : ∀ i, i < tys.length → (tys.getD i .invalid).points ≠ [])
    (h2 : ∀ x ∈ xs, (∀ b, x.elem b < tys.length) ∧ (∀ b, x.pt b ∈ (tys.getD (x.elem b) .invalid).points) ∧ x.start ≠ x.fin ∧
      (∀ m ∈ x.up, m.ty.isTrack = true) ∧ (x.up.map (·.xid)).Nodup ∧ x.down.Perm x.up)
    (h3 : (xs.flatMap (·.ends)).Nodup)
    (h4 : ∀ i, i < tys.length → ∀ p ∈ (tys.getD i .invalid).points, (i, p) ∈ xs.flatMap (·.ends))
    (h5 : ∀ t ∈ bs, t.1 < tys.length ∧ t.2.2 < tys.length ∧ tys.getD t.1 .invalid = .border ∧ tys.getD t.2.2 .invalid = .border ∧
      ∃ x ∈ xs, x.elem t.2.1 = t.1) : ValidNet (exGraph tys) xs bs :=
  ⟨fun i hi => ⟨fun _ => rfl, h1 i hi⟩,
    fun x hx => ⟨(h2 x hx).1, (h2 x hx).2.1, (h2 x hx).2.2.1, (h2 x hx).2.2.2.1, (h2 x hx).2.2.2.2.1, (h2 x hx).2.2.2.2.2⟩, h3, h4, h5⟩

/-- bumper 0, switch 1, cross 2, line switch 3, kilometrage jump 4, borders 5 and 6, end of track 7, bumper 8 -/
def exTys : List Ty := [.bumper, .simpleSwitch, .cross, .lineSwitch, .kmJump, .border, .border, .trackEnd, .bumper]
def exUp : List TNode := [⟨.tunnel, true, 0⟩, ⟨.mainSignal, true, 1⟩, ⟨.mainSignal, false, 2⟩, ⟨.slope, true, 3⟩]
def exDown : List TNode := [⟨.slope, true, 3⟩, ⟨.mainSignal, false, 2⟩, ⟨.mainSignal, true, 1⟩, ⟨.tunnel, true, 0⟩]
def exSecs : List SecIn := [⟨0, .only, 1, .start, 0, exUp, exDown⟩, ⟨1, .stem, 2, .startLeft, 0, [], []⟩, ⟨1, .branch, 2, .startRight, 0, exUp, exDown⟩,
  ⟨2, .endLeft, 3, .start, 0, exUp, exDown⟩, ⟨2, .endRight, 5, .only, 0, exUp, exDown⟩, ⟨6, .only, 7, .only, 0, exUp, exDown⟩,
  ⟨4, .start, 3, .fin, 1, exUp, exDown⟩, ⟨8, .only, 4, .fin, 1, exUp, exDown⟩]
def exBorders : List (Nat × Bool × Nat) := [(5, false, 6), (6, true, 5)]

theorem exNet : ValidNet (exGraph exTys) exSecs exBorders := by
  apply exValid <;> decide

theorem exOriented : ∀ i, i < 9 → Oriented exSecs i ((exGraph exTys).el i).ty := by
  decide

/-- switch 1: its start and its stem are ends of sections of the same line -/
def badSwitch : List SecIn := [⟨0, .only, 1, .start, 0, exUp, exDown⟩, ⟨2, .only, 1, .stem, 0, exUp, exDown⟩, ⟨1, .branch, 3, .only, 0, exUp, exDown⟩]
theorem badSwitchNet : ValidNet (exGraph [.bumper, .simpleSwitch, .bumper, .bumper]) badSwitch [] := by
  apply exValid <;> decide

/-- kilometrage jump 1: the section at its start ends there -/
def badJump : List SecIn := [⟨0, .only, 1, .start, 0, exUp, exDown⟩, ⟨1, .fin, 2, .only, 0, exUp, exDown⟩]
theorem badJumpNet : ValidNet (exGraph [.bumper, .kmJump, .bumper]) badJump [] := by
  apply exValid <;> decide

/-! ### C81: the nodes of a section -/

/-- **C81** Connecting the nodes of a network uses no null pointer -/
theorem C81_total {g0 : Graph} {xs : List SecIn} {bs : List (Nat × Bool × Nat)} (v : ValidNet g0 xs bs) :
    ∃ L, connectAll (netGraph g0 xs bs).el (netGraph g0 xs bs).n = some L := (netCtx v).total

example : ∃ L, connectAll (netGraph (exGraph exTys) exSecs exBorders).el (netGraph (exGraph exTys) exSecs exBorders).n = some L := C81_total exNet

/-- **C81** Every section is kept. Its nodes towards either end are linked one after the other without branches, and the last one leads to
the section element at that end. -/
theorem C81_chain {g0 : Graph} {xs : List SecIn} {bs : List (Nat × Bool × Nat)} (v : ValidNet g0 xs bs) {L : Links}
    (hL : connectAll (netGraph g0 xs bs).el (netGraph g0 xs bs).n = some L) :
    (parseAll xs g0).2.map (·.x) = xs ∧ ∀ o ∈ (parseAll xs g0).2, ∀ b,
      o.nodes (netGraph g0 xs bs).el b ≠ [] ∧ (o.nodes (netGraph g0 xs bs).el b).Nodup ∧
      ∀ (j : Nat) n, (o.nodes (netGraph g0 xs bs).el b)[j]? = some n → L.branch n = none ∧
        (∀ m, (o.nodes (netGraph g0 xs bs).el b)[j + 1]? = some m → L.next n = some m) ∧
        ((o.nodes (netGraph g0 xs bs).el b)[j + 1]? = none → ∃ m, L.next n = some m ∧ m.1 = o.x.elem b) := by
  have h := netCtx v
  refine ⟨parseAll_x xs g0, fun o ho b => ⟨?_, ?_, ?_⟩⟩
  · have := h.ne o ho b
    unfold SecOut.nodes
    simpa using this
  · unfold SecOut.nodes
    rw [List.nodup_map_iff_inj_on]
    · intro a _ c _ hac
      unfold trackNode at hac
      repeat' split at hac
      all_goals exact (Prod.mk.inj hac).1
    · exact h.nodup o ho b
  · intro j n hn
    obtain ⟨h1, h2⟩ := h.chain hL ho hn
    refine ⟨h2, ?_, ?_⟩
    · intro m hm; rw [h1, hm]; rfl
    · intro hm; rw [h1, hm]; exact ⟨_, rfl, arrive_id _ _ _ _⟩

example : (parseAll exSecs (exGraph exTys)).2.map (fun o => (o.nodes (netGraph (exGraph exTys) exSecs exBorders).el true).length) =
    [3, 1, 3, 3, 3, 3, 3, 3] := by decide +kernel

/-- **C81** The elements of a section are of the types of the elements of the input a train in that direction meets: all but the directed
ones for the other direction. Undirected elements are the same for both directions. No two sections share an element. -/
theorem C81_elements {g0 : Graph} {xs : List SecIn} {bs : List (Nat × Bool × Nat)} (v : ValidNet g0 xs bs) :
    ∀ o ∈ (parseAll xs g0).2,
      o.up.map (fun i => ((netGraph g0 xs bs).el i).ty) = kinds true o.x.up ∧
      o.down.map (fun i => ((netGraph g0 xs bs).el i).ty) = kinds false o.x.down ∧
      (∀ (j j' : Nat) nd, (o.x.up.filter (·.kept true))[j]? = some nd → (o.x.down.filter (·.kept false))[j']? = some nd →
        nd.ty.isDirected = false → o.up[j]? = o.down[j']?) ∧
      ∀ o' ∈ (parseAll xs g0).2, ∀ b b' i, i ∈ o.towards b → i ∈ o'.towards b' → o = o' := by
  intro o ho
  have h := netCtx v
  exact ⟨(h.kinds o ho).1, (h.kinds o ho).2, h.shared o ho, fun o' ho' b b' i => h.disj o ho o' ho' b b' i⟩

example : (parseAll exSecs (exGraph exTys)).2.map (fun o => (o.up, o.down)) =
    [([9, 10, 11], [11, 12, 9]), ([13], [14]), ([15, 16, 17], [17, 18, 15]), ([19, 20, 21], [21, 22, 19]), ([23, 24, 25], [25, 26, 23]),
      ([27, 28, 29], [29, 30, 27]), ([31, 32, 33], [33, 34, 31]), ([35, 36, 37], [37, 38, 35])] := by decide +kernel

/-! ### C82: passing section elements -/

theorem last_next {g0 g : Graph} {out : List SecOut} {part : Nat → Option Nat} (h : Ctx g0 out part g) {L : Links}
    (hL : connectAll g.el g.n = some L) {o : SecOut} (ho : o ∈ out) (b : Bool) :
    (o.nodes g.el b).getLast?.bind L.next = some (arrive (o.x.elem b) (g.el (o.x.elem b)) (o.x.pt b) b) := by
  have hne : o.nodes g.el b ≠ [] := by unfold SecOut.nodes; simpa using h.ne o ho b
  have hpos := List.length_pos_iff.2 hne
  rw [List.getLast?_eq_getElem?]
  obtain ⟨n, hn⟩ : ∃ n, (o.nodes g.el b)[(o.nodes g.el b).length - 1]? = some n := ⟨_, List.getElem?_eq_getElem (by omega)⟩
  rw [hn]
  have := (h.chain hL ho hn).1
  rw [List.getElem?_eq_none_iff.2 (by omega)] at this
  exact this

theorem leads_enter {g0 g : Graph} {out : List SecOut} {part : Nat → Option Nat} (h : Ctx g0 out part g) {L : Links}
    (hL : connectAll g.el g.n = some L) {i : Nat} (hi : i < g0.n) (hb : (g.el i).ty ≠ .border) (hk : (g.el i).ty ≠ .kmJump) {p : Pt}
    (hp : p ∈ (g.el i).ty.points) :
    Leads out g.el i L.next (enter i (g.el i) p) (exits (g.el i).ty (g.el i).arcL (g.el i).arcR p).1 ∧
    Leads out g.el i L.branch (enter i (g.el i) p) (exits (g.el i).ty (g.el i).arcL (g.el i).arcR p).2 := by
  have key : ∀ br, Leads out g.el i (L.get br) (enter i (g.el i) p) (exit (g.el i) p br) := by
    intro br
    have := h.leave hL hi hb hk hp br
    unfold Leads
    split
    · rename_i q hq
      rw [hq] at this
      obtain ⟨o, ho, c, h1, h2, h3⟩ := this
      obtain ⟨d, hd, hh⟩ := head?_mem (h.ne o ho (!c))
      have hn : (o.nodes g.el (!c)).head? = some (trackNode g.el d c) := by
        unfold SecOut.nodes; rw [List.head?_map, hh]; simp
      exact ⟨o, ho, c, h1, h2, _, hn, by rw [h3, hn]⟩
    · rename_i hq
      rw [hq] at this
      exact this
  exact ⟨key false, key true⟩

/-- the section with the first point of the pair -/
theorem main_section {g0 g : Graph} {out : List SecOut} {part : Nat → Option Nat} (h : Ctx g0 out part g) {o : SecOut} (ho : o ∈ out) (b : Bool) :
    ∃ o' ∈ out, ∃ b', o'.x.elem b' = o.x.elem b ∧ o'.x.pt b' = mainPoint (o.x.pt b) := by
  have hp := (h.att o ho b).pt
  have hi := h.elem o ho b
  have : mainPoint (o.x.pt b) ∈ (g0.el (o.x.elem b)).ty.points := by
    rw [(h.ty _ hi).1] at hp
    revert hp
    cases (g0.el (o.x.elem b)).ty <;> cases o.x.pt b <;> decide
  exact h.comp _ hi _ this

/-- **C82** (partial, see `C82_turn` and `C82_km`) A train that leaves a section at an element passes the element to the sections of the
input: without and with changing the track it gets to the first node of the section at the point of `exits`, and stops where there is
none. Partial: the sections at the element have to be joined as `Oriented` says. -/
theorem C82_pass_partial {g0 : Graph} {xs : List SecIn} {bs : List (Nat × Bool × Nat)} (v : ValidNet g0 xs bs) {L : Links}
    (hL : connectAll (netGraph g0 xs bs).el (netGraph g0 xs bs).n = some L) {o : SecOut} (ho : o ∈ (parseAll xs g0).2) (b : Bool)
    (hnb : (g0.el (o.x.elem b)).ty ≠ .border) (hor : Oriented xs (o.x.elem b) (g0.el (o.x.elem b)).ty) :
    ∃ n, (o.nodes (netGraph g0 xs bs).el b).getLast?.bind L.next = some n ∧ n.1 = o.x.elem b ∧
      Leads (parseAll xs g0).2 (netGraph g0 xs bs).el (o.x.elem b) L.next n
        (exits (g0.el (o.x.elem b)).ty (g0.el (o.x.elem b)).arcL (g0.el (o.x.elem b)).arcR (o.x.pt b)).1 ∧
      Leads (parseAll xs g0).2 (netGraph g0 xs bs).el (o.x.elem b) L.branch n
        (exits (g0.el (o.x.elem b)).ty (g0.el (o.x.elem b)).arcL (g0.el (o.x.elem b)).arcR (o.x.pt b)).2 := by
  have h := netCtx v
  have hi := h.elem o ho b
  have hin := Nat.lt_of_lt_of_le hi h.n
  have hx : ∀ o ∈ (parseAll xs g0).2, o.x ∈ xs := by
    intro o ho
    have := parseAll_x xs g0
    rw [← this]
    exact List.mem_map_of_mem ho
  refine ⟨_, last_next h hL ho b, arrive_id _ _ _ _, ?_⟩
  obtain ⟨t1, t2, t3⟩ := h.ty _ hi
  rw [← t1] at hnb hor
  rw [← t1, ← t2, ← t3]
  have hp := (h.att o ho b).pt
  by_cases hk : ((netGraph g0 xs bs).el (o.x.elem b)).ty = .kmJump
  · -- kilometrage jump
    rw [arrive_simple (Or.inl hk)]
    have hbr := (simple_next hL hin (Or.inl hk) (!b)).2
    have other : ∃ q, exits ((netGraph g0 xs bs).el (o.x.elem b)).ty ((netGraph g0 xs bs).el (o.x.elem b)).arcL
        ((netGraph g0 xs bs).el (o.x.elem b)).arcR (o.x.pt b) = (some q, none) ∧ q ∈ (g0.el (o.x.elem b)).ty.points ∧
        ((o.x.pt b = .start ∧ q = .fin) ∨ (o.x.pt b = .fin ∧ q = .start)) := by
      rw [← t1]
      rw [hk] at hp ⊢
      revert hp
      cases o.x.pt b <;> simp [Ty.points, exits]
    obtain ⟨q, e1, e2, e3⟩ := other
    rw [e1]
    refine ⟨?_, hbr⟩
    obtain ⟨o', ho', c, f1, f2⟩ := h.comp _ hi q e2
    refine ⟨o', ho', c, f1, f2, ?_⟩
    have hk' : ((netGraph g0 xs bs).el (o'.x.elem c)).ty = .kmJump := by rw [f1]; exact hk
    have km := h.km hL ho' c hk'
    have hj : b = !c ∧ o'.x.pt c = (if c then .start else .fin) := by
      rw [hk] at hor
      rcases e3 with ⟨g1, g2⟩ | ⟨g1, g2⟩
      · have := hor (.start, .fin) (by simp [Ty.pairs]) o.x (hx o ho) o'.x (hx o' ho') b c rfl f1 g1 (by rw [f2, g2])
        simp [Joined] at this
        exact ⟨by rw [this.1, this.2]; rfl, by rw [f2, g2, this.2]; rfl⟩
      · have := hor (.start, .fin) (by simp [Ty.pairs]) o'.x (hx o' ho') o.x (hx o ho) c b f1 rfl (by rw [f2, g2]) g1
        simp [Joined] at this
        exact ⟨by rw [this.1, this.2]; rfl, by rw [f2, g2, this.1]; rfl⟩
    rw [if_pos hj.2, f1] at km
    have hc : (!b) = c := by rw [hj.1]; simp
    rw [hc, km]
    obtain ⟨d, hd, hh⟩ := head?_mem (h.ne o' ho' (!c))
    have hn : (o'.nodes (netGraph g0 xs bs).el (!c)).head? = some (trackNode (netGraph g0 xs bs).el d c) := by
      unfold SecOut.nodes; rw [List.head?_map, hh]; simp
    exact ⟨_, hn, hn⟩
  · obtain ⟨o', ho', b', q1, q2⟩ := main_section h ho b
    have ha := h.arrive_enter ho b ho' b' hnb hk q1 q2
    rw [if_neg] at ha
    · rw [ha]
      exact leads_enter h hL hi hnb hk hp
    · rintro ⟨r1, r2, r3, r4⟩
      rw [q2] at r2
      have hpair : (mainPoint (o.x.pt b), o.x.pt b) ∈ ((netGraph g0 xs bs).el (o.x.elem b)).ty.pairs := by
        revert hp r2 r1
        cases ((netGraph g0 xs bs).el (o.x.elem b)).ty <;> cases o.x.pt b <;> decide
      have := hor _ hpair o'.x (hx o' ho') o.x (hx o ho) b' b q1 rfl q2 rfl
      unfold Joined at this
      rw [if_neg hk, if_neg r1] at this
      rcases this with this | this
      · exact this r3.symm
      · exact this r4.symm

/-- all section elements but the borders of the network -/
example : ∀ o ∈ (parseAll exSecs (exGraph exTys)).2, ∀ b, Oriented exSecs (o.x.elem b) ((exGraph exTys).el (o.x.elem b)).ty :=
  fun o ho b => exOriented _ ((netCtx exNet).elem o ho b)

/-- **C82** exactly: if the sections of a pair of points of a switch or cross meet with the same end and belong to the same line, then a train
coming in over the second point passes the element like one that came in over the first point -/
theorem C82_turn {g0 : Graph} {xs : List SecIn} {bs : List (Nat × Bool × Nat)} (v : ValidNet g0 xs bs) {L : Links}
    (hL : connectAll (netGraph g0 xs bs).el (netGraph g0 xs bs).n = some L) {o o' : SecOut} (ho : o ∈ (parseAll xs g0).2)
    (ho' : o' ∈ (parseAll xs g0).2) (b : Bool) (he : o'.x.elem b = o.x.elem b)
    (hty : (g0.el (o.x.elem b)).ty = .simpleSwitch ∨ (g0.el (o.x.elem b)).ty = .cross)
    (hp : (o'.x.pt b, o.x.pt b) ∈ (g0.el (o.x.elem b)).ty.pairs) (hl : o.x.line = o'.x.line) :
    ∃ n, (o.nodes (netGraph g0 xs bs).el b).getLast?.bind L.next = some n ∧ n.1 = o.x.elem b ∧
      Leads (parseAll xs g0).2 (netGraph g0 xs bs).el (o.x.elem b) L.next n
        (exits (g0.el (o.x.elem b)).ty (g0.el (o.x.elem b)).arcL (g0.el (o.x.elem b)).arcR (o'.x.pt b)).1 ∧
      Leads (parseAll xs g0).2 (netGraph g0 xs bs).el (o.x.elem b) L.branch n
        (exits (g0.el (o.x.elem b)).ty (g0.el (o.x.elem b)).arcL (g0.el (o.x.elem b)).arcR (o'.x.pt b)).2 := by
  have h := netCtx v
  have hi := h.elem o ho b
  refine ⟨_, last_next h hL ho b, arrive_id _ _ _ _, ?_⟩
  obtain ⟨t1, t2, t3⟩ := h.ty _ hi
  rw [← t1] at hty hp
  rw [← t1, ← t2, ← t3]
  have hnb : ((netGraph g0 xs bs).el (o.x.elem b)).ty ≠ .border := by rcases hty with hty | hty <;> rw [hty] <;> decide
  have hk : ((netGraph g0 xs bs).el (o.x.elem b)).ty ≠ .kmJump := by rcases hty with hty | hty <;> rw [hty] <;> decide
  have hls : ((netGraph g0 xs bs).el (o.x.elem b)).ty ≠ .lineSwitch := by rcases hty with hty | hty <;> rw [hty] <;> decide
  have hm : o'.x.pt b = mainPoint (o.x.pt b) ∧ o.x.pt b ≠ o'.x.pt b := by
    revert hp
    generalize o.x.pt b = p
    generalize o'.x.pt b = p'
    rcases hty with hty | hty <;> rw [hty] <;> cases p <;> cases p' <;> decide
  have ha := h.arrive_enter ho b ho' b hnb hk he hm.1
  rw [if_pos ⟨hls, hm.2, rfl, hl⟩] at ha
  rw [ha]
  refine leads_enter h hL hi hnb hk ?_
  have := (h.att o' ho' b).pt
  rw [he] at this
  exact this

/-- a path leads to one point only -/
theorem leads_uniq {g0 : Graph} {xs : List SecIn} {bs : List (Nat × Bool × Nat)} (v : ValidNet g0 xs bs) {i : Nat} {f : Node → Option Node}
    {n : Node} {p q : Pt} (h1 : Leads (parseAll xs g0).2 (netGraph g0 xs bs).el i f n (some p))
    (h2 : Leads (parseAll xs g0).2 (netGraph g0 xs bs).el i f n (some q)) : p = q := by
  have h := netCtx v
  obtain ⟨o, ho, c, e1, e2, m, m1, m2⟩ := h1
  obtain ⟨o', ho', c', e1', e2', m', m1', m2'⟩ := h2
  rw [m2] at m2'
  obtain rfl := Option.some.inj m2'
  have key : ∀ (o : SecOut) (b : Bool), (o.nodes (netGraph g0 xs bs).el b).head? = some m → m.1 ∈ o.towards b := by
    intro o b hm
    have := List.mem_of_head? hm
    unfold SecOut.nodes at this
    obtain ⟨a, ha, rfl⟩ := List.mem_map.1 this
    have : (trackNode (netGraph g0 xs bs).el a (!b)).1 = a := by unfold trackNode; split <;> rfl
    rwa [this]
  obtain rfl := h.disj o ho o' ho' _ _ _ (key o _ m1) (key o' _ m1')
  obtain rfl := h.end' o ho c c' (by rw [e1, e1'])
  rw [← e2, ← e2']

/-- **C82** fails: at a switch whose start and stem are ends of sections of the same line, a train from the stem gets back to the stem
instead of the start -/
theorem C82_negation : ¬ ∀ (g0 : Graph) (xs : List SecIn) (bs : List (Nat × Bool × Nat)) (L : Links), ValidNet g0 xs bs →
    connectAll (netGraph g0 xs bs).el (netGraph g0 xs bs).n = some L → ∀ o ∈ (parseAll xs g0).2, ∀ b, (g0.el (o.x.elem b)).ty ≠ .border →
    ∃ n, (o.nodes (netGraph g0 xs bs).el b).getLast?.bind L.next = some n ∧
      Leads (parseAll xs g0).2 (netGraph g0 xs bs).el (o.x.elem b) L.next n
        (exits (g0.el (o.x.elem b)).ty (g0.el (o.x.elem b)).arcL (g0.el (o.x.elem b)).arcR (o.x.pt b)).1 := by
  intro H
  obtain ⟨L, hL⟩ := C81_total badSwitchNet
  have hx := parseAll_x badSwitch (exGraph [.bumper, .simpleSwitch, .bumper, .bumper])
  have sec : ∀ x ∈ badSwitch, ∃ o ∈ (parseAll badSwitch (exGraph [.bumper, .simpleSwitch, .bumper, .bumper])).2, o.x = x := by
    intro x h
    rw [← hx] at h
    obtain ⟨o, ho, e⟩ := List.mem_map.1 h
    exact ⟨o, ho, e⟩
  obtain ⟨o, ho, e⟩ := sec ⟨2, .only, 1, .stem, 0, exUp, exDown⟩ (by simp [badSwitch])
  obtain ⟨o', ho', e'⟩ := sec ⟨0, .only, 1, .start, 0, exUp, exDown⟩ (by simp [badSwitch])
  obtain ⟨n, h1, h2⟩ := H _ _ _ L badSwitchNet hL o ho false (by rw [e]; decide)
  obtain ⟨n', h1', _, h2', _⟩ := C82_turn badSwitchNet hL ho ho' false (by rw [e, e']; rfl) (by rw [e]; exact Or.inl rfl)
    (by rw [e, e']; decide) (by rw [e, e'])
  rw [h1] at h1'
  obtain rfl := Option.some.inj h1'
  rw [e] at h2 h2'
  rw [e'] at h2'
  have := leads_uniq badSwitchNet h2 h2'
  exact absurd this (by decide)

/-- **C82** exactly: a train coming in over the start point of a kilometrage jump from a section that ends there, or over the end point from a
section that starts there, gets back to the node it came from -/
theorem C82_km {g0 : Graph} {xs : List SecIn} {bs : List (Nat × Bool × Nat)} (v : ValidNet g0 xs bs) {L : Links}
    (hL : connectAll (netGraph g0 xs bs).el (netGraph g0 xs bs).n = some L) {o : SecOut} (ho : o ∈ (parseAll xs g0).2) (b : Bool)
    (hk : (g0.el (o.x.elem b)).ty = .kmJump) (hp : o.x.pt b ≠ if b then .start else .fin) :
    ∃ n m, (o.nodes (netGraph g0 xs bs).el b).getLast? = some m ∧ L.next m = some n ∧ n.1 = o.x.elem b ∧ L.next n = some m := by
  have h := netCtx v
  have hi := h.elem o ho b
  have hk' := (h.ty _ hi).1.trans hk
  have h1 := last_next h hL ho b
  have h2 := h.km hL ho b hk'
  rw [if_neg hp] at h2
  rw [arrive_simple (Or.inl hk')] at h1
  cases hm : (o.nodes (netGraph g0 xs bs).el b).getLast? with
  | none => rw [hm] at h1; simp at h1
  | some m =>
    rw [hm] at h1 h2
    exact ⟨_, m, rfl, h1, rfl, h2⟩


/-- the section at the start of the kilometrage jump -/
example : ∃ o ∈ (parseAll badJump (exGraph [.bumper, .kmJump, .bumper])).2, ((exGraph [.bumper, .kmJump, .bumper]).el (o.x.elem false)).ty = .kmJump ∧
    o.x.pt false ≠ (if false then .start else .fin) := by
  have hx := parseAll_x badJump (exGraph [.bumper, .kmJump, .bumper])
  have h : (⟨0, .only, 1, .start, 0, exUp, exDown⟩ : SecIn) ∈ badJump := by simp [badJump]
  rw [← hx] at h
  obtain ⟨o, ho, e⟩ := List.mem_map.1 h
  exact ⟨o, ho, by rw [e]; rfl, by rw [e]; decide⟩

/-! ### C83: borders of stations -/

/-- **C83** (partial, see `C83_loop`) A train that leaves its section at a border with a partner gets over the two borders to the first node of
the section at the partner. Partial: one of the two borders has to be low, the other one high. -/
theorem C83_border_partial {g0 : Graph} {xs : List SecIn} {bs : List (Nat × Bool × Nat)} (v : ValidNet g0 xs bs) {L : Links}
    (hL : connectAll (netGraph g0 xs bs).el (netGraph g0 xs bs).n = some L) {o o' : SecOut} (ho : o ∈ (parseAll xs g0).2)
    (ho' : o' ∈ (parseAll xs g0).2) (b : Bool) (hp : ∃ l, (o.x.elem b, l, o'.x.elem (!b)) ∈ bs)
    (hu : ∀ t ∈ bs, t.1 = o.x.elem b → t.2.2 = o'.x.elem (!b)) :
    ∃ n m k, (o.nodes (netGraph g0 xs bs).el b).getLast?.bind L.next = some n ∧ n.1 = o.x.elem b ∧ L.next n = some m ∧
      m.1 = o'.x.elem (!b) ∧ L.next m = some k ∧ (o'.nodes (netGraph g0 xs bs).el b).head? = some k := by
  have h := netCtx v
  have hpart := partners_eq bs (fun _ => none) _ _ hp hu
  obtain ⟨_, hj, p3, p4⟩ := h.part _ _ hpart
  have hi := h.elem o ho b
  have hb := (h.ty _ hi).1.trans p3
  have hb' := (h.ty _ hj).1.trans p4
  have h1 := last_next h hL ho b
  rw [arrive_simple (Or.inr hb)] at h1
  have h2 := (h.border_next hL ho b hb).1
  rw [hpart] at h2
  have h3 := (h.border_next hL ho' (!b) hb').2
  rw [Bool.not_not] at h3
  obtain ⟨d, hd, hh⟩ := head?_mem (h.ne o' ho' b)
  have hn : (o'.nodes (netGraph g0 xs bs).el b).head? = some (trackNode (netGraph g0 xs bs).el d (!b)) := by
    unfold SecOut.nodes; rw [List.head?_map, hh]; simp
  exact ⟨_, _, _, h1, rfl, h2, rfl, by rw [h3, hn], hn⟩

/-- **C83** A train stops at a border without partner -/
theorem C83_stop {g0 : Graph} {xs : List SecIn} {bs : List (Nat × Bool × Nat)} (v : ValidNet g0 xs bs) {L : Links}
    (hL : connectAll (netGraph g0 xs bs).el (netGraph g0 xs bs).n = some L) {o : SecOut} (ho : o ∈ (parseAll xs g0).2) (b : Bool)
    (hb : (g0.el (o.x.elem b)).ty = .border) (hu : ∀ t ∈ bs, t.1 ≠ o.x.elem b) :
    ∃ n, (o.nodes (netGraph g0 xs bs).el b).getLast?.bind L.next = some n ∧ n.1 = o.x.elem b ∧ L.next n = none ∧ L.branch n = none := by
  have h := netCtx v
  have hpart := partners_none bs (fun _ => none) _ hu
  have hi := h.elem o ho b
  have hb := (h.ty _ hi).1.trans hb
  have h1 := last_next h hL ho b
  rw [arrive_simple (Or.inr hb)] at h1
  have h2 := (h.border_next hL ho b hb).1
  rw [hpart] at h2
  exact ⟨_, h1, rfl, h2, (simple_next hL (Nat.lt_of_lt_of_le hi h.n) (Or.inr hb) _).2⟩

/-- **C83** exactly: between two low or two high borders that are partners of each other a train runs in a circle of two nodes -/
theorem C83_loop {g0 : Graph} {xs : List SecIn} {bs : List (Nat × Bool × Nat)} (v : ValidNet g0 xs bs) {L : Links}
    (hL : connectAll (netGraph g0 xs bs).el (netGraph g0 xs bs).n = some L) {o o' : SecOut} (ho : o ∈ (parseAll xs g0).2)
    (ho' : o' ∈ (parseAll xs g0).2) (b : Bool) (hp : ∃ l, (o.x.elem b, l, o'.x.elem b) ∈ bs) (hp' : ∃ l, (o'.x.elem b, l, o.x.elem b) ∈ bs)
    (hu : ∀ t ∈ bs, t.1 = o.x.elem b → t.2.2 = o'.x.elem b) (hu' : ∀ t ∈ bs, t.1 = o'.x.elem b → t.2.2 = o.x.elem b) :
    ∃ n m, (o.nodes (netGraph g0 xs bs).el b).getLast?.bind L.next = some n ∧ n.1 = o.x.elem b ∧ L.next n = some m ∧
      m.1 = o'.x.elem b ∧ L.next m = some n ∧ L.branch n = none ∧ L.branch m = none := by
  have h := netCtx v
  have hpart := partners_eq bs (fun _ => none) _ _ hp hu
  have hpart' := partners_eq bs (fun _ => none) _ _ hp' hu'
  obtain ⟨hi, hj, p3, p4⟩ := h.part _ _ hpart
  have hb := (h.ty _ hi).1.trans p3
  have hb' := (h.ty _ hj).1.trans p4
  have h1 := last_next h hL ho b
  rw [arrive_simple (Or.inr hb)] at h1
  have h2 := (h.border_next hL ho b hb).1
  have h3 := (h.border_next hL ho' b hb').1
  rw [hpart] at h2
  rw [hpart'] at h3
  exact ⟨_, _, h1, rfl, h2, rfl, h3, (simple_next hL (Nat.lt_of_lt_of_le hi h.n) (Or.inr hb) _).2,
    (simple_next hL (Nat.lt_of_lt_of_le hj h.n) (Or.inr hb') _).2⟩

/-- two stations, each with a bumper and a border at the end of its section; the borders are connected -/
def twoEnds : List SecIn := [⟨0, .only, 1, .only, 0, exUp, exDown⟩, ⟨2, .only, 3, .only, 0, exUp, exDown⟩]
theorem twoEndsNet : ValidNet (exGraph [.bumper, .border, .bumper, .border]) twoEnds [(1, false, 3), (3, false, 1)] := by
  apply exValid <;> decide

/-- **C83** fails for two connected borders that both are the ends of their sections: a train that leaves a section there never gets to
the section of the other station. -/
theorem C83_ends_negation : ¬ ∀ (g0 : Graph) (xs : List SecIn) (bs : List (Nat × Bool × Nat)) (L : Links), ValidNet g0 xs bs →
    connectAll (netGraph g0 xs bs).el (netGraph g0 xs bs).n = some L → ∀ o ∈ (parseAll xs g0).2, ∀ o' ∈ (parseAll xs g0).2, ∀ b c,
      (∃ l, (o.x.elem b, l, o'.x.elem c) ∈ bs) → (∀ t ∈ bs, t.1 = o.x.elem b → t.2.2 = o'.x.elem c) →
        ∃ n m k, (o.nodes (netGraph g0 xs bs).el b).getLast?.bind L.next = some n ∧ n.1 = o.x.elem b ∧ L.next n = some m ∧
          m.1 = o'.x.elem c ∧ L.next m = some k ∧ (o'.nodes (netGraph g0 xs bs).el (!c)).head? = some k := by
  intro hall
  obtain ⟨L, hL⟩ := C81_total twoEndsNet
  have key : ∃ o o' : SecOut, (parseAll twoEnds (exGraph [.bumper, .border, .bumper, .border])).2 = [o, o'] ∧
      o.x = ⟨0, .only, 1, .only, 0, exUp, exDown⟩ ∧ o'.x = ⟨2, .only, 3, .only, 0, exUp, exDown⟩ ∧
      (o'.nodes (netGraph (exGraph [.bumper, .border, .bumper, .border]) twoEnds [(1, false, 3), (3, false, 1)]).el true).head?.map (·.1) ≠ some 1 :=
    ⟨_, _, rfl, rfl, rfl, by decide +kernel⟩
  obtain ⟨o, o', h1, h2, h3, h4⟩ := key
  have ho : o ∈ (parseAll twoEnds (exGraph [.bumper, .border, .bumper, .border])).2 := by rw [h1]; simp
  have ho' : o' ∈ (parseAll twoEnds (exGraph [.bumper, .border, .bumper, .border])).2 := by rw [h1]; simp
  have e1 : o.x.elem false = 1 := by rw [h2]; rfl
  have e3 : o'.x.elem false = 3 := by rw [h3]; rfl
  obtain ⟨n, m, k, a1, _, a3, _, a5, a6⟩ := hall _ _ _ L twoEndsNet hL o ho o' ho' false false (by rw [e1, e3]; exact ⟨false, by decide⟩)
    (by rw [e1, e3]; decide)
  obtain ⟨n', m', b1, b2, b3, _, b5, _⟩ := C83_loop twoEndsNet hL ho ho' false (by rw [e1, e3]; exact ⟨false, by decide⟩)
    (by rw [e1, e3]; exact ⟨false, by decide⟩) (by rw [e1, e3]; decide) (by rw [e1, e3]; decide)
  rw [a1] at b1
  obtain rfl := Option.some.inj b1
  rw [a3] at b3
  obtain rfl := Option.some.inj b3
  rw [a5] at b5
  obtain rfl := Option.some.inj b5
  apply h4
  rw [show (!false) = true from rfl] at a6
  rw [a6, Option.map_some, b2, e1]

/-- borders 5 and 6 of the network -/
example : (∃ l, (5, l, 6) ∈ exBorders) ∧ (∀ t ∈ exBorders, t.1 = 5 → t.2.2 = 6) ∧
    (⟨2, .endRight, 5, .only, 0, exUp, exDown⟩ : SecIn) ∈ exSecs ∧ (⟨6, .only, 7, .only, 0, exUp, exDown⟩ : SecIn) ∈ exSecs := by
  refine ⟨⟨false, by decide⟩, by decide, by simp [exSecs], by simp [exSecs]⟩

/-- two high borders; without partners trains stop there -/
def badBorders : List SecIn := [⟨0, .only, 1, .only, 0, exUp, exDown⟩, ⟨3, .only, 2, .only, 0, exUp, exDown⟩]
theorem badBordersNet : ValidNet (exGraph [.bumper, .border, .border, .bumper]) badBorders [(1, false, 2), (2, false, 1)] := by
  apply exValid <;> decide
example : ValidNet (exGraph [.bumper, .border, .border, .bumper]) badBorders [] := by
  apply exValid <;> decide

end Soro.Infra
