import Verif.Spec.WebClient

/-! Properties C189 and C190: the selections of the web client and the ordering graph it shows. -/

namespace Soro.WebClient
open OrderingJson

variable {ν : Type} {srv : Server ν}

theorem run_append (srv : Server ν) (a b : List (Event ν)) (s : State ν) : run srv (a ++ b) s = run srv b (run srv a s) := by
  simp [run]

theorem run_cons (srv : Server ν) (e : Event ν) (b : List (Event ν)) (s : State ν) : run srv (e :: b) s = run srv b (s.step srv e) := rfl

theorem receive_same (srv : Server ν) (s : Side ν) (q : Req ν) :
    (s.receive srv q).infra = s.infra ∧ (s.receive srv q).tt = s.tt ∧ (s.receive srv q).ids = s.ids ∧
      (s.receive srv q).asked = s.asked := by
  cases q with
  | timetables i => simp only [Side.receive]; cases srv.timetables i <;> simp
  | interval i t => simp only [Side.receive]; cases srv.interval i t <;> simp

theorem answer_side (srv : Server ν) (s : State ν) (q : Req ν) : (s.answer srv q).side = s.side.receive srv q := by
  cases q with
  | timetables i => rfl
  | interval i t =>
    simp only [State.answer]
    cases h : srv.interval i t with
    | none => simp [Side.receive, h]
    | some r => simp

/-- the sidebar after one event -/
theorem step_side (srv : Server ν) (s : State ν) (e : Event ν) :
    (s.step srv e).side = match e with
      | .act (.infra i) => s.side.loadInfrastructure i
      | .act (.timetable t) => s.side.loadTimetable t
      | .act (.range r) => { s.side with range := some r }
      | .act (.ids l) => { s.side with ids := l }
      | .side k => match s.side.asked[k]? with
        | none => s.side
        | some q => ({ s.side with asked := s.side.asked.eraseIdx k } : Side ν).receive srv q
      | .view _ | .mount => s.side := by
  cases e with
  | act a => cases a <;> rfl
  | side k =>
    simp only [State.step]
    cases s.side.asked[k]? with
    | none => rfl
    | some q => rw [answer_side]
  | view k =>
    simp only [State.step]
    cases s.view.asked[k]? <;> rfl
  | mount => rfl

theorem infra_step (s : State ν) (e : Event ν) (he : ∀ j, e ≠ .act (.infra j)) : (s.step srv e).side.infra = s.side.infra := by
  rw [step_side]
  cases e with
  | act a =>
    cases a with
    | infra i => exact absurd rfl (he i)
    | timetable t =>
      simp only [Side.loadTimetable]
      split
      · rfl
      · split <;> simp_all
    | range r => rfl
    | ids l => rfl
  | side k =>
    simp only
    cases s.side.asked[k]? with
    | none => rfl
    | some q => exact (receive_same srv _ q).1
  | view k => rfl
  | mount => rfl

theorem tt_step (s : State ν) (e : Event ν) (he : ∀ j, e ≠ .act (.infra j)) (ht : ∀ u, e ≠ .act (.timetable u)) :
    (s.step srv e).side.tt = s.side.tt := by
  rw [step_side]
  cases e with
  | act a =>
    cases a with
    | infra i => exact absurd rfl (he i)
    | timetable t => exact absurd rfl (ht t)
    | range r => rfl
    | ids l => rfl
  | side k =>
    simp only
    cases s.side.asked[k]? with
    | none => rfl
    | some q => exact (receive_same srv _ q).2.1
  | view k => rfl
  | mount => rfl

theorem infra_run (evs : List (Event ν)) (s : State ν) (he : ∀ j, .act (.infra j) ∉ evs) :
    (run srv evs s).side.infra = s.side.infra := by
  induction evs generalizing s with
  | nil => rfl
  | cons e evs ih =>
    rw [run_cons, ih _ fun j hj => he j (List.mem_cons_of_mem _ hj)]
    exact infra_step s e fun j h => he j (h ▸ List.mem_cons_self ..)

theorem tt_run (evs : List (Event ν)) (s : State ν) (he : ∀ j, .act (.infra j) ∉ evs) (ht : ∀ u, .act (.timetable u) ∉ evs) :
    (run srv evs s).side.tt = s.side.tt := by
  induction evs generalizing s with
  | nil => rfl
  | cons e evs ih =>
    rw [run_cons, ih _ (fun j hj => he j (List.mem_cons_of_mem _ hj)) (fun j hj => ht j (List.mem_cons_of_mem _ hj))]
    exact tt_step s e (fun j h => he j (h ▸ List.mem_cons_self ..)) (fun j h => ht j (h ▸ List.mem_cons_self ..))

/-- C189, the choices: the infrastructure is the one chosen last, the timetable the one chosen last since then, and there is none
until one is chosen, whatever is answered when. -/
theorem C189_chosen (evs : List (Event ν)) :
    (∀ i, LastInfra evs i → (run srv evs .init).side.infra = i ∧
      ((∀ pre post, evs = pre ++ .act (.infra i) :: post → (∀ j, .act (.infra j) ∉ post) → ∀ u, .act (.timetable u) ∉ post) →
        (run srv evs .init).side.tt = none)) ∧
    (∀ t, LastTimetable evs t → (run srv evs .init).side.infra ≠ none → (run srv evs .init).side.tt = t) := by
  constructor
  · rintro i ⟨pre, post, rfl, h⟩
    constructor
    · rw [run_append, run_cons, infra_run _ _ h, step_side]
      cases i <;> rfl
    · intro hn
      rw [run_append, run_cons, tt_run _ _ h (hn pre post rfl h), step_side]
      cases i <;> rfl
  · rintro t ⟨pre, post, rfl, h1, h2⟩ hi
    rw [run_append, run_cons, infra_run _ _ h1, infra_step _ _ (fun j => by simp)] at hi
    rw [run_append, run_cons, tt_run _ _ h1 h2, step_side]
    simp only [Side.loadTimetable]
    cases hs : (run srv pre .init).side.infra with
    | none => exact absurd hs hi
    | some i => cases t <;> rfl

/-- an answer to the timetables of `i` is on its way as the last of its kind, or has come -/
def NamesDue (i : ν) (l : List ν) (s : Side ν) : Prop :=
  (∃ A B, s.asked = A ++ .timetables i :: B ∧ ∀ j, .timetables j ∉ B) ∨ (s.names = l ∧ ∀ j, .timetables j ∉ s.asked)

/-- an answer to the interval of `t` is on its way as the last of its kind, or has come -/
def RangeDue (i t : ν) (r : Nat × Nat) (s : Side ν) : Prop :=
  (∃ A B, s.asked = A ++ .interval i t :: B ∧ ∀ j u, .interval j u ∉ B) ∨ (s.range = some r ∧ ∀ j u, .interval j u ∉ s.asked)

theorem names_step {i : ν} {l : List ν} (hl : srv.timetables i = some l) (s : State ν) (e : Event ν) (he : ∀ j, e ≠ .act (.infra j))
    (ho : ∀ k, e = .side k → k = 0) (h : NamesDue i l s.side) : NamesDue i l (s.step srv e).side := by
  rw [step_side]
  cases e with
  | act a =>
    cases a with
    | infra i => exact absurd rfl (he i)
    | timetable t =>
      simp only [Side.loadTimetable]
      cases s.side.infra with
      | none => exact h
      | some i' =>
        cases t with
        | none => exact h
        | some t =>
          rcases h with ⟨A, B, h1, h2⟩ | ⟨h1, h2⟩
          · exact .inl ⟨A, B ++ [.interval i' t], by simp [h1], fun j hj => by simp [h2] at hj⟩
          · exact .inr ⟨h1, fun j hj => by simp [h2] at hj⟩
    | range r => exact h
    | ids l => exact h
  | side k =>
    obtain rfl := ho k rfl
    simp only
    cases ha : s.side.asked with
    | nil =>
      simp only [List.getElem?_nil]
      exact h
    | cons q qs =>
      simp only [List.getElem?_cons_zero, List.eraseIdx_cons_zero]
      rcases h with ⟨A, B, h1, h2⟩ | ⟨h1, h2⟩
      · rw [ha] at h1
        cases A with
        | nil =>
          obtain ⟨rfl, rfl⟩ := List.cons.inj h1
          exact .inr ⟨by simp [Side.receive, hl], by rw [(receive_same srv _ _).2.2.2]; exact h2⟩
        | cons a A =>
          obtain ⟨rfl, h1'⟩ := List.cons.inj h1
          exact .inl ⟨A, B, by rw [(receive_same srv _ _).2.2.2]; exact h1', h2⟩
      · rw [ha] at h2
        refine .inr ⟨?_, fun j hj => h2 j ?_⟩
        · cases q with
          | timetables j => exact absurd (List.mem_cons_self ..) (h2 j)
          | interval j u =>
            simp only [Side.receive]
            cases srv.interval j u <;> exact h1
        · rw [(receive_same srv _ _).2.2.2] at hj
          exact List.mem_cons_of_mem _ hj
  | view k => exact h
  | mount => exact h

theorem range_step {i t : ν} {r : Nat × Nat} (hl : srv.interval i t = some r) (s : State ν) (e : Event ν)
    (he : ∀ j, e ≠ .act (.infra j)) (ht : ∀ u, e ≠ .act (.timetable u)) (hr : ∀ u, e ≠ .act (.range u))
    (ho : ∀ k, e = .side k → k = 0) (h : RangeDue i t r s.side) : RangeDue i t r (s.step srv e).side := by
  rw [step_side]
  cases e with
  | act a =>
    cases a with
    | infra i => exact absurd rfl (he i)
    | timetable t => exact absurd rfl (ht t)
    | range r => exact absurd rfl (hr r)
    | ids l => exact h
  | side k =>
    obtain rfl := ho k rfl
    simp only
    cases ha : s.side.asked with
    | nil =>
      simp only [List.getElem?_nil]
      exact h
    | cons q qs =>
      simp only [List.getElem?_cons_zero, List.eraseIdx_cons_zero]
      rcases h with ⟨A, B, h1, h2⟩ | ⟨h1, h2⟩
      · rw [ha] at h1
        cases A with
        | nil =>
          obtain ⟨rfl, rfl⟩ := List.cons.inj h1
          exact .inr ⟨by simp [Side.receive, hl], by rw [(receive_same srv _ _).2.2.2]; exact h2⟩
        | cons a A =>
          obtain ⟨rfl, h1'⟩ := List.cons.inj h1
          exact .inl ⟨A, B, by rw [(receive_same srv _ _).2.2.2]; exact h1', h2⟩
      · rw [ha] at h2
        refine .inr ⟨?_, fun j u hj => h2 j u ?_⟩
        · cases q with
          | interval j u => exact absurd (List.mem_cons_self ..) (h2 j u)
          | timetables j =>
            simp only [Side.receive]
            cases srv.timetables j <;> exact h1
        · rw [(receive_same srv _ _).2.2.2] at hj
          exact List.mem_cons_of_mem _ hj
  | view k => exact h
  | mount => exact h

/-- C189 if the answers come in the order of the requests and the server knows what is chosen: when everything is answered, the
timetables are those of the infrastructure chosen last, and the interval is that of the timetable chosen last if the user has not
chosen an interval since. -/
theorem C189_in_order_partial (evs : List (Event ν)) (ho : InOrder evs) (hs : (run srv evs .init).side.asked = []) :
    (∀ i l, LastInfra evs (some i) → srv.timetables i = some l → (run srv evs .init).side.names = l) ∧
    (∀ i t r, LastTimetable evs (some t) → NoRangeSince evs → (run srv evs .init).side.infra = some i →
      srv.interval i t = some r → (run srv evs .init).side.range = some r) := by
  constructor
  · rintro i l ⟨pre, post, rfl, h⟩ hl
    have key : ∀ (post : List (Event ν)) (s : State ν), (∀ j, .act (.infra j) ∉ post) → (∀ k, .side k ∈ post → k = 0) →
        NamesDue i l s.side → NamesDue i l (run srv post s).side := by
      intro post
      induction post with
      | nil => exact fun _ _ _ h => h
      | cons e post ih =>
        intro s h1 h2 h3
        exact ih _ (fun j hj => h1 j (List.mem_cons_of_mem _ hj)) (fun k hk => h2 k (List.mem_cons_of_mem _ hk))
          (names_step hl s e (fun j hj => h1 j (hj ▸ List.mem_cons_self ..)) (fun k hk => h2 k (hk ▸ List.mem_cons_self ..)) h3)
    have h1 : NamesDue i l ((run srv pre .init).step srv (.act (.infra (some i)))).side := by
      rw [step_side]
      exact .inl ⟨_, [], rfl, by simp⟩
    have h2 := key post _ h (fun k hk => ho k (by simp [hk])) h1
    rw [← run_cons, ← run_append] at h2
    rcases h2 with ⟨A, B, h3, _⟩ | ⟨h3, _⟩
    · simp [hs] at h3
    · exact h3
  · rintro i t r ⟨pre, post, rfl, h1, h2⟩ ⟨pre', post', t', h4, h5⟩ hi hl
    -- the last choice of a timetable is in both splits the same or before
    have hr : ∀ u, .act (.range u) ∉ post := by
      intro u hu
      rw [List.append_eq_append_iff] at h4
      rcases h4 with ⟨as, h6, h7⟩ | ⟨bs, h6, h7⟩
      · cases as with
        | nil =>
          obtain ⟨-, rfl⟩ := List.cons.inj h7
          exact h5 u hu
        | cons a as =>
          obtain ⟨-, rfl⟩ := List.cons.inj h7
          exact h2 t' (by simp)
      · cases bs with
        | nil =>
          obtain ⟨-, rfl⟩ := List.cons.inj h7
          exact h5 u hu
        | cons a as =>
          obtain ⟨-, rfl⟩ := List.cons.inj h7
          exact h5 u (by simp [hu])
    have key : ∀ (post : List (Event ν)) (s : State ν), (∀ j, .act (.infra j) ∉ post) → (∀ u, .act (.timetable u) ∉ post) →
        (∀ u, .act (.range u) ∉ post) → (∀ k, .side k ∈ post → k = 0) → RangeDue i t r s.side →
        RangeDue i t r (run srv post s).side := by
      intro post
      induction post with
      | nil => exact fun _ _ _ _ _ h => h
      | cons e post ih =>
        intro s h1 h2 h3 h4 h5
        exact ih _ (fun j hj => h1 j (List.mem_cons_of_mem _ hj)) (fun j hj => h2 j (List.mem_cons_of_mem _ hj))
          (fun j hj => h3 j (List.mem_cons_of_mem _ hj)) (fun k hk => h4 k (List.mem_cons_of_mem _ hk))
          (range_step hl s e (fun j hj => h1 j (hj ▸ List.mem_cons_self ..)) (fun j hj => h2 j (hj ▸ List.mem_cons_self ..))
            (fun j hj => h3 j (hj ▸ List.mem_cons_self ..)) (fun k hk => h4 k (hk ▸ List.mem_cons_self ..)) h5)
    rw [run_append, run_cons, infra_run _ _ h1, infra_step _ _ (fun j => by simp)] at hi
    have h6 : RangeDue i t r ((run srv pre .init).step srv (.act (.timetable (some t)))).side := by
      rw [step_side]
      simp only [Side.loadTimetable, hi]
      exact .inl ⟨_, [], rfl, by simp⟩
    have h7 := key post _ h1 h2 hr (fun k hk => ho k (by simp [hk])) h6
    rw [← run_cons, ← run_append] at h7
    rcases h7 with ⟨A, B, h3, _⟩ | ⟨h3, _⟩
    · simp [hs] at h3
    · exact h3

/-- the claim of C189 about the interval -/
def C189_full (srv : Server Nat) (evs : List (Event Nat)) : Prop :=
  (run srv evs .init).side.asked = [] → NoRangeSince evs → ∀ i t, (run srv evs .init).side.infra = some i →
    (run srv evs .init).side.tt = some t → (run srv evs .init).side.range = srv.interval i t

section
attribute [local simp] run State.step State.act State.answer Side.loadInfrastructure Side.loadTimetable Side.receive Side.init State.init
  View.create

/-- C189 is false if an answer is overtaken: the user chooses one timetable after the other, the answers come in the other order,
and the interval of the first one stays beside the second one, if the two differ. -/
theorem C189_overtaken_negation (srv : Server Nat) (i t u : Nat) (r q : Nat × Nat) (hr : srv.interval i t = some r)
    (hq : srv.interval i u = some q) (hd : r ≠ q) :
    ¬ C189_full srv [.act (.infra (some i)), .side 0, .act (.timetable (some t)), .act (.timetable (some u)), .side 1, .side 0] := by
  intro h
  have h1 := h (by cases ht : srv.timetables i <;> simp [ht, hr, hq])
    ⟨[.act (.infra (some i)), .side 0, .act (.timetable (some t))], [.side 1, .side 0], some u, rfl, by simp⟩ i u
    (by cases ht : srv.timetables i <;> simp [ht, hr, hq]) (by cases ht : srv.timetables i <;> simp [ht, hr, hq])
  rw [hq] at h1
  have h2 : (run srv [.act (.infra (some i)), .side 0, .act (.timetable (some t)), .act (.timetable (some u)), .side 1, .side 0]
      .init).side.range = some r := by cases ht : srv.timetables i <;> simp [ht, hr, hq]
  rw [h2] at h1
  exact hd (Option.some.inj h1)

/-- C189 is false if the server cannot read the timetable chosen: the interval of the one chosen before stays. -/
theorem C189_failed_negation (srv : Server Nat) (i t u : Nat) (r : Nat × Nat) (hr : srv.interval i t = some r)
    (hq : srv.interval i u = none) :
    ¬ C189_full srv [.act (.infra (some i)), .side 0, .act (.timetable (some t)), .side 0, .act (.timetable (some u)), .side 0] := by
  intro h
  have h1 := h (by cases ht : srv.timetables i <;> simp [ht, hr, hq])
    ⟨[.act (.infra (some i)), .side 0, .act (.timetable (some t)), .side 0], [.side 0], some u, rfl, by simp⟩ i u
    (by cases ht : srv.timetables i <;> simp [ht, hr, hq]) (by cases ht : srv.timetables i <;> simp [ht, hr, hq])
  rw [hq] at h1
  have h2 : (run srv [.act (.infra (some i)), .side 0, .act (.timetable (some t)), .side 0, .act (.timetable (some u)), .side 0]
      .init).side.range = some r := by cases ht : srv.timetables i <;> simp [ht, hr, hq]
  rw [h2] at h1
  cases h1

/-- C189 is false after a change of the infrastructure: no timetable is chosen, but the interval of the one of the old
infrastructure stays, when everything is answered in order. -/
theorem C189_other_infra_negation (srv : Server Nat) (i j t : Nat) (r : Nat × Nat) (hr : srv.interval i t = some r) :
    let s := (run srv [.act (.infra (some i)), .side 0, .act (.timetable (some t)), .side 0, .act (.infra (some j)), .side 0]
      .init).side
    s.asked = [] ∧ s.infra = some j ∧ s.tt = none ∧ s.range = some r := by
  cases ht : srv.timetables i <;> cases hj : srv.timetables j <;> simp [ht, hj, hr]

/-- C189 is false for the choice of the user: an interval chosen before the answer to the choice of the timetable is replaced by the
answer. -/
theorem C189_late_negation (srv : Server Nat) (i t : Nat) (r q : Nat × Nat) (hr : srv.interval i t = some r) :
    (run srv [.act (.infra (some i)), .side 0, .act (.timetable (some t)), .act (.range q), .side 0] .init).side.range = some r := by
  cases ht : srv.timetables i <;> simp [ht, hr]

end

/-- a server with two timetables -/
def exServer : Server Nat where
  timetables i := if i = 7 then some [1, 2] else none
  interval i t := if i = 7 then (if t = 1 then some (100, 200) else if t = 2 then some (150, 300) else none) else none
  ordering _ t r _ := some ⟨[⟨0, t, 0, 0, r.1⟩, ⟨1, t, 1, 0, r.2⟩], [(0, 1)], 1, 2⟩

example : exServer.interval 7 1 = some (100, 200) ∧ exServer.interval 7 2 = some (150, 300) ∧ exServer.interval 7 3 = none ∧
    ((100, 200) : Nat × Nat) ≠ (150, 300) := by decide
example : let evs : List (Event Nat) := [.act (.infra (some 7)), .side 0, .act (.timetable (some 1)), .act (.timetable (some 2)), .side 0,
      .side 0]
    InOrder evs ∧ (run exServer evs .init).side.asked = [] ∧ LastInfra evs (some 7) ∧ LastTimetable evs (some 2) ∧
      NoRangeSince evs ∧ (run exServer evs .init).side.range = some (150, 300) :=
  ⟨by intro k; simp, rfl, ⟨[], _, rfl, by simp⟩, ⟨[.act (.infra (some 7)), .side 0, .act (.timetable (some 1))], _, rfl, by simp, by simp⟩,
    ⟨[.act (.infra (some 7)), .side 0, .act (.timetable (some 1))], _, _, rfl, by simp⟩, rfl⟩

/-! ### C190 -/

theorem addNodes_nodup (g ns : List JNode) (h : ((g ++ ns).map JNode.key).Nodup) : addNodes g ns = (g ++ ns, true) := by
  induction ns generalizing g with
  | nil => simp [addNodes]
  | cons n ns ih =>
    have hn : n.key ∉ g.map JNode.key := by
      rw [List.map_append, List.nodup_append] at h
      exact fun hm => h.2.2 _ hm _ (by simp) rfl
    rw [addNodes, if_neg hn, ih _ (by simpa using h)]
    simp

theorem import_empty (d : Doc) (h : (d.nodes.map JNode.key).Nodup) : Graph.empty.import d = ⟨d.nodes, d.edges⟩ := by
  simp [Graph.import, Graph.empty, addNodes_nodup [] d.nodes (by simpa using h)]

/-- the states of a client that waits for its answers -/
def Calm (srv : Server ν) (s : State ν) : Prop :=
  (s.side.infra = none → s.side.tt = none) ∧
  ((∃ i, s.side.asked = [.timetables i] ∧ s.side.tt = none ∧ s.view.asked = []) ∨
    (∃ i t, s.side.asked = [.interval i t] ∧ s.side.infra = some i ∧ s.side.tt = some t ∧ s.view.asked = []) ∨
    (∃ i t r, s.side.asked = [] ∧ s.side.infra = some i ∧ s.side.tt = some t ∧ s.side.range = some r ∧
      s.view = ⟨.empty, [⟨i, t, r, s.side.ids⟩]⟩) ∨
    (s.side.asked = [] ∧ s.view.asked = [] ∧ ∀ i t r, s.side.infra = some i → s.side.tt = some t → s.side.range = some r →
      s.view.graph = graphOf (srv.ordering i t r s.side.ids)))

/-- asking for the graph when nothing is open -/
theorem calm_create (side : Side ν) (v : View ν) (h1 : side.asked = []) (h2 : v.asked = [])
    (h3 : side.infra = none → side.tt = none) : Calm srv ⟨side, v.create side⟩ := by
  refine ⟨h3, ?_⟩
  simp only [View.create]
  cases hi : side.infra with
  | none => exact .inr (.inr (.inr ⟨h1, h2, fun i t r h => by simp [hi] at h⟩))
  | some i =>
    cases ht : side.tt with
    | none => exact .inr (.inr (.inr ⟨h1, h2, fun i t r _ h => by simp [ht] at h⟩))
    | some t =>
      cases hr : side.range with
      | none => exact .inr (.inr (.inr ⟨h1, h2, fun i t r _ _ h => by simp [hr] at h⟩))
      | some r => refine .inr (.inr (.inl ⟨i, t, r, h1, ?_, ?_, ?_, by simp [h2]⟩)) <;> first | rfl | assumption

theorem calm_step (hd : ∀ i t r l d, srv.ordering i t r l = some d → (d.nodes.map JNode.key).Nodup) (s : State ν) (e : Event ν)
    (hw : match e with
      | .act _ | .mount => s.side.asked = [] ∧ s.view.asked = []
      | .side _ => ∀ i t, .interval i t ∈ s.side.asked → (srv.interval i t).isSome
      | .view _ => True) (h : Calm srv s) : Calm srv (s.step srv e) := by
  obtain ⟨h0, h⟩ := h
  cases e with
  | act a =>
    obtain ⟨w1, w2⟩ := hw
    cases a with
    | infra i =>
      cases i with
      | none => exact ⟨fun _ => rfl, .inr (.inr (.inr ⟨w1, w2, fun _ _ _ h => nomatch h⟩))⟩
      | some i => exact ⟨fun _ => rfl, .inl ⟨i, by simp [State.step, State.act, Side.loadInfrastructure, w1], rfl, w2⟩⟩
    | timetable t =>
      cases hi : s.side.infra with
      | none =>
        have : s.step srv (.act (.timetable t)) = s := by simp [State.step, State.act, Side.loadTimetable, hi]
        rw [this]
        exact ⟨h0, h⟩
      | some i =>
        cases t with
        | none =>
          refine ⟨fun _ => by simp [State.step, State.act, Side.loadTimetable, hi], .inr (.inr (.inr ⟨?_, w2, fun _ _ _ _ ht => ?_⟩))⟩
          · simp [State.step, State.act, Side.loadTimetable, hi, w1]
          · simp [State.step, State.act, Side.loadTimetable, hi] at ht
        | some t =>
          refine ⟨fun hn => ?_, .inr (.inl ⟨i, t, ?_, ?_, ?_, w2⟩)⟩
          all_goals simp_all [State.step, State.act, Side.loadTimetable]
    | range r => exact calm_create { s.side with range := some r } s.view w1 w2 h0
    | ids l => exact calm_create { s.side with ids := l } s.view w1 w2 h0
  | mount => exact calm_create s.side ⟨.empty, []⟩ hw.1 rfl h0
  | side k =>
    rcases h with ⟨i, h1, h2, h3⟩ | ⟨i, t, h1, h2, h3, h4⟩ | h | h
    · cases k with
      | zero =>
        have e1 : (s.step srv (.side 0)).view = s.view := by simp [State.step, h1, State.answer]
        have e2 := step_side srv s (.side 0)
        simp only [h1, List.getElem?_cons_zero, List.eraseIdx_cons_zero] at e2
        have e3 := receive_same srv { s.side with asked := [] } (.timetables i)
        rw [← e2] at e3
        refine ⟨fun _ => by rw [e3.2.1, h2], .inr (.inr (.inr ⟨e3.2.2.2, by rw [e1, h3], fun _ _ _ _ ht => ?_⟩))⟩
        rw [e3.2.1] at ht
        simp [h2] at ht
      | succ k =>
        have : s.step srv (.side (k + 1)) = s := by simp [State.step, h1]
        rw [this]
        exact ⟨h0, .inl ⟨i, h1, h2, h3⟩⟩
    · cases k with
      | zero =>
        have hs := hw i t (by simp [h1])
        obtain ⟨r, hr⟩ := Option.isSome_iff_exists.1 hs
        have : s.step srv (.side 0) = ⟨{ s.side with asked := [], range := some r },
            s.view.create { s.side with asked := [], range := some r }⟩ := by
          simp [State.step, h1, State.answer, Side.receive, hr]
        rw [this]
        exact calm_create _ _ rfl h4 h0
      | succ k =>
        have : s.step srv (.side (k + 1)) = s := by simp [State.step, h1]
        rw [this]
        exact ⟨h0, .inr (.inl ⟨i, t, h1, h2, h3, h4⟩)⟩
    · obtain ⟨i, t, r, h1, h2⟩ := h
      have : s.step srv (.side k) = s := by simp [State.step, h1]
      rw [this]
      exact ⟨h0, .inr (.inr (.inl ⟨i, t, r, h1, h2⟩))⟩
    · have : s.step srv (.side k) = s := by simp [State.step, h.1]
      rw [this]
      exact ⟨h0, .inr (.inr (.inr h))⟩
  | view k =>
    have same : s.view.asked[k]? = none → Calm srv (s.step srv (.view k)) := by
      intro hk
      have : s.step srv (.view k) = s := by simp [State.step, hk]
      rw [this]
      exact ⟨h0, h⟩
    rcases h with ⟨i, _, _, h3⟩ | ⟨i, t, _, _, _, h4⟩ | h | h
    · exact same (by simp [h3])
    · exact same (by simp [h4])
    · obtain ⟨i, t, r, h1, h2, h3, h4, h5⟩ := h
      cases k with
      | zero =>
        refine ⟨fun hn => by simp_all [State.step], .inr (.inr (.inr ?_))⟩
        have e : s.step srv (.view 0) = ⟨s.side, (⟨.empty, []⟩ : View ν).receive srv ⟨i, t, r, s.side.ids⟩⟩ := by
          simp [State.step, h5]
        rw [e]
        refine ⟨h1, ?_, ?_⟩
        · simp only [View.receive]
          split <;> rfl
        · intro i' t' r' hi ht hr
          rw [h2] at hi
          rw [h3] at ht
          rw [h4] at hr
          cases hi
          cases ht
          cases hr
          simp only [View.receive]
          cases hq : srv.ordering i t r s.side.ids with
          | none => rfl
          | some d => exact import_empty d (hd _ _ _ _ _ hq)
      | succ k => exact same (by simp [h5])
    · exact same (by simp [h.2.1])

/-- C190 for users who wait for every answer before they do the next thing: when everything is answered, the graph is the one that
the server gives for the chosen infrastructure, timetable, interval and train ids, empty if the server gives none. -/
theorem C190_waiting_partial (hd : ∀ i t r l d, srv.ordering i t r l = some d → (d.nodes.map JNode.key).Nodup)
    (evs : List (Event ν)) (hp : Patient srv .init evs) (hs : Settled (run srv evs .init)) (i t : ν) (r : Nat × Nat)
    (hi : (run srv evs .init).side.infra = some i) (ht : (run srv evs .init).side.tt = some t)
    (hr : (run srv evs .init).side.range = some r) :
    (run srv evs .init).view.graph = graphOf (srv.ordering i t r (run srv evs .init).side.ids) := by
  have key : ∀ (evs : List (Event ν)) (s : State ν), Patient srv s evs → Calm srv s → Calm srv (run srv evs s) := by
    intro evs
    induction evs with
    | nil => exact fun _ _ h => h
    | cons e evs ih => exact fun s h1 h2 => ih _ h1.2 (calm_step hd s e h1.1 h2)
  have h0 : Calm srv (.init : State ν) :=
    ⟨fun _ => rfl, .inr (.inr (.inr ⟨rfl, rfl, fun _ _ _ h => nomatch h⟩))⟩
  rcases (key evs _ hp h0).2 with ⟨_, h, _⟩ | ⟨_, _, h, _⟩ | ⟨_, _, _, _, _, _, _, h⟩ | ⟨_, _, h⟩
  · rw [hs.1] at h
    cases h
  · rw [hs.1] at h
    cases h
  · have := hs.2
    rw [h] at this
    cases this
  · exact h i t r hi ht hr

section
attribute [local simp] run State.step State.act State.answer Side.loadInfrastructure Side.loadTimetable Side.receive Side.init State.init
  View.create View.receive

/-- C190 is false if the user does not wait: the interval is changed before the graph has come, the answers come in the order of the
requests, and the graph of the old interval stays. The answer for the new interval is refused because its first node is there. -/
theorem C190_overlap_negation (srv : Server Nat) (i t : Nat) (r q : Nat × Nat) (d d' : Doc) (n : JNode) (ns : List JNode)
    (hr : srv.interval i t = some r) (h1 : srv.ordering i t r [] = some d) (h2 : srv.ordering i t q [] = some d')
    (hd : (d.nodes.map JNode.key).Nodup) (hn : d'.nodes = n :: ns) (hk : n.key ∈ d.nodes.map JNode.key) :
    let s := run srv [.mount, .act (.infra (some i)), .side 0, .act (.timetable (some t)), .side 0, .act (.range q), .view 0, .view 0]
      .init
    Settled s ∧ s.side.infra = some i ∧ s.side.tt = some t ∧ s.side.range = some q ∧ s.side.ids = [] ∧
      s.view.graph = graphOf (some d) := by
  have e1 := import_empty d hd
  have e2 : (⟨d.nodes, d.edges⟩ : Graph).import d' = ⟨d.nodes, d.edges⟩ := by
    simp only [Graph.import, hn]
    rw [addNodes, if_pos hk]
    rfl
  cases ht : srv.timetables i <;> simp [ht, hr, h1, h2, e1, e2, Settled, graphOf]

/-- C190 is false if the server cannot read the timetable chosen: the graph of the one chosen before stays. -/
theorem C190_failed_negation (srv : Server Nat) (i t u : Nat) (r : Nat × Nat) (d : Doc) (hr : srv.interval i t = some r)
    (hu : srv.interval i u = none) (h1 : srv.ordering i t r [] = some d) (hd : (d.nodes.map JNode.key).Nodup) :
    let s := run srv [.mount, .act (.infra (some i)), .side 0, .act (.timetable (some t)), .side 0, .view 0,
      .act (.timetable (some u)), .side 0] .init
    Settled s ∧ s.side.tt = some u ∧ s.view.graph = graphOf (some d) := by
  have e1 := import_empty d hd
  cases ht : srv.timetables i <;> simp [ht, hr, hu, h1, e1, Settled, graphOf]

end

example : let evs : List (Event Nat) := [.mount, .act (.infra (some 7)), .side 0, .act (.timetable (some 1)), .side 0, .view 0,
      .act (.ids [4]), .view 0]
    Patient exServer .init evs ∧ Settled (run exServer evs .init) ∧ (run exServer evs .init).side.range = some (100, 200) ∧
      (run exServer evs .init).view.graph.nodes.length = 2 := by
  refine ⟨?_, ⟨rfl, rfl⟩, rfl, rfl⟩
  refine ⟨⟨rfl, rfl⟩, ⟨rfl, rfl⟩, fun i t h => ?_, ⟨rfl, rfl⟩, fun i t h => ?_, trivial, ⟨rfl, rfl⟩, trivial, trivial⟩
  · cases h with
    | tail _ h => cases h
  · cases h with
    | head => rfl
    | tail _ h => cases h
example : ∀ i t r l d, exServer.ordering i t r l = some d → (d.nodes.map JNode.key).Nodup := by
  intro i t r l d h
  cases h
  simp
example : exServer.ordering 7 1 (100, 200) [] ≠ exServer.ordering 7 1 (150, 300) [] := by decide

end Soro.WebClient
