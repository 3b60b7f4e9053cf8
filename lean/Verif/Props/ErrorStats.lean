import Verif.Proof.ErrorStats

/-! C170: the error report of the timetable parser. -/

namespace Soro.ErrorStats
open Soro.Kss

/-- three documents: a released train, one that is not released, one with an error; one with an error; two not released -/
def exF (a : Nat) : Res Nat := if a % 2 = 0 then .ok (a / 2) else if a % 3 = 0 then .err .ctc else .err (.transform .noIr)

def exFiles : List (List (Bool × List Nat)) :=
  [[(true, [2, 4]), (false, [6]), (true, [8, 3, 1])], [(true, [9])], [(false, [3]), (false, [])]]

def exRead : List (List Nat × List KErr) := [([1, 2], [.workedOnTrain, .ctc]), ([], [.ctc]), ([], [.workedOnTrain, .workedOnTrain])]

theorem exRead_ok : each (parseFile exF) exFiles = .ok exRead := by decide

/-- a schedule in which the work items take turns -/
def exSchedule : List Nat := [0, 0, 0, 0, 1, 1, 1, 1, 2, 2, 2, 2, 0, 0, 0, 0, 2, 2, 2, 2]

theorem exRun : ∃ s, run (init (counted exRead)) exSchedule = some s ∧ s.Finished := by
  refine ⟨_, rfl, ?_⟩
  intro t ht
  have : t ∈ [(⟨[], .out⟩ : Thread), ⟨[], .out⟩, ⟨[], .out⟩] := ht
  simpa using this

/-- C170. In whatever order the work items run, when all are done every error has been counted exactly once for every
`train` element skipped for it. -/
theorem C170_counts {α β : Type} (f : α → Res β) (files : List (List (Bool × List α))) (rs : List (List β × List KErr))
    (h : each (parseFile f) files = .ok rs) (is : List Nat) (s : St) (hr : run (init (counted rs)) is = some s)
    (hd : s.Finished) (e : KErr) : s.errors (code e) = skipped f files.flatten e := by
  have hi := (run_inv (init_inv _) hr).1.sum (code e)
  rw [finished_pending hd, Nat.add_zero] at hi
  rw [hi, counted_count, (files_count f files rs h).1]

/-- C170. Nothing else is counted. -/
theorem C170_no_other {β : Type} (rs : List (List β × List KErr)) (is : List Nat) (s : St)
    (hr : run (init (counted rs)) is = some s) (c : Code) (hc : ∀ e, code e ≠ c) : s.errors c = 0 := by
  have hi := (run_inv (init_inv _) hr).1.sum c
  have : (counted rs).flatten.count c = 0 := by
    rw [List.count_eq_zero]
    simp only [counted, List.mem_flatten, List.mem_map, not_exists, not_and]
    rintro l ⟨r, _, rfl⟩ hm
    simp only [List.mem_map] at hm
    obtain ⟨e, _, he⟩ := hm
    exact hc e he
  rw [this] at hi
  omega

example (e : KErr) : ∃ s, run (init (counted exRead)) exSchedule = some s ∧ s.errors (code e) = skipped exF exFiles.flatten e := by
  obtain ⟨s, h, hd⟩ := exRun
  exact ⟨s, h, C170_counts exF exFiles exRead exRead_ok _ s h hd e⟩

example : skipped exF exFiles.flatten .workedOnTrain = 3 ∧ skipped exF exFiles.flatten .ctc = 2 ∧
    skipped exF exFiles.flatten (.transform .noIr) = 0 := by decide

/-- C170. Every `train` element is read or counted, and the trains logged as parsed are the construction trains of the
elements that are read. -/
theorem C170_total {α β : Type} (f : α → Res β) (files : List (List (Bool × List α))) (rs : List (List β × List KErr))
    (h : each (parseFile f) files = .ok rs) (is : List Nat) (s : St) (hr : run (init (counted rs)) is = some s)
    (hd : s.Finished) :
    (allErrs.map fun e => s.errors (code e)).sum + (kept f files.flatten).length = files.flatten.length ∧
    ∃ r, parseTimetable f files = .ok r ∧ r.length = ((kept f files.flatten).map fun x => x.2.length).sum := by
  obtain ⟨h1, h2, h3⟩ := files_count f files rs h
  constructor
  · have key : (allErrs.map fun e => s.errors (code e)).sum = (rs.map (·.2)).flatten.length := by
      rw [← sum_counts]
      congr 1
      apply List.map_congr_left
      intro e _
      rw [C170_counts f files rs h is s hr hd e, h1]
    omega
  · unfold parseTimetable
    rw [h]
    exact ⟨_, rfl, by simp only [List.length_map, List.length_zipIdx]; exact h2⟩

example : (kept exF exFiles.flatten).length = 1 ∧ exFiles.flatten.length = 6 ∧
    ((kept exF exFiles.flatten).map fun x => x.2.length).sum = 2 := by decide

/-- C170. The counting ends whatever the schedule: no schedule is longer than four steps for every error to count, and
whenever no work item can make a step all are done (no deadlock). -/
theorem C170_terminates (todo : List (List Code)) (is : List Nat) (s : St) (hr : run (init todo) is = some s) :
    is.length ≤ 4 * todo.flatten.length ∧ (s.Stuck ↔ s.Finished) ∧
      (s.Finished ↔ is.length = 4 * todo.flatten.length) := by
  obtain ⟨hi, hm, hl⟩ := run_inv (init_inv todo) hr
  have h0 := measure_init todo
  have hg := measure_ge hi
  have hlen : (init todo).threads.length = todo.length := by simp [init]
  rw [hlen] at hl
  rw [h0] at hm
  rw [hl] at hg
  refine ⟨by omega, ⟨stuck_finished hi, finished_stuck⟩, ?_⟩
  constructor
  · intro hf
    have := finished_measure hf
    rw [hl] at this
    omega
  · intro hlen
    apply stuck_finished hi
    intro i
    cases hs : step s i with
    | none => rfl
    | some s' =>
      have h1 := step_measure hs
      have h2 := measure_ge (step_inv hi hs)
      rw [h1.2, hl] at h2
      omega

example : exSchedule.length = 4 * (counted exRead).flatten.length := by decide

/-- C170. Only one work item is between lock and unlock. -/
theorem C170_exclusive (todo : List (List Code)) (is : List Nat) (s : St) (hr : run (init todo) is = some s)
    (i j : Nat) (a b : Thread) (ha : s.threads[i]? = some a) (hb : s.threads[j]? = some b) (hpa : a.pc ≠ .out)
    (hpb : b.pc ≠ .out) : i = j := by
  have hi := (run_inv (init_inv todo) hr).1
  have h1 := hi.owns i a ha hpa
  have h2 := hi.owns j b hb hpb
  rw [h1] at h2
  simpa using h2

example : ((run (init (counted exRead)) [1, 1, 1, 1, 0, 0]).map fun s => s.threads.map (·.pc)) =
    some [.loaded 0, .out, .out] := by decide

/-- C170. The report has, for an error, the line with its message and the number of elements skipped for it exactly if
there are some; no other error has that message. -/
theorem C170_report {α β : Type} (f : α → Res β) (files : List (List (Bool × List α))) (rs : List (List β × List KErr))
    (h : each (parseFile f) files = .ok rs) (is : List Nat) (s : St) (hr : run (init (counted rs)) is = some s)
    (hd : s.Finished) (order : List Code) (ho : ∀ c, 0 < s.errors c → c ∈ order) (e : KErr) (n : Nat) :
    (message (code e), n) ∈ report order s.errors ↔ n = skipped f files.flatten e ∧ 0 < n := by
  have hc := C170_counts f files rs h is s hr hd
  unfold report
  simp only [List.mem_map, List.mem_filter, decide_eq_true_eq, Prod.mk.injEq]
  constructor
  · rintro ⟨c, ⟨_, hpos⟩, hm, rfl⟩
    have : ∃ e', code e' = c := Classical.byContradiction fun hn => by
      have := C170_no_other rs is s hr c (fun e' he => hn ⟨e', he⟩)
      omega
    obtain ⟨e', rfl⟩ := this
    have := message_inj _ _ hm
    subst this
    exact ⟨hc _, hpos⟩
  · rintro ⟨rfl, hpos⟩
    rw [← hc e] at hpos
    exact ⟨code e, ⟨ho _ hpos, hpos⟩, rfl, hc e⟩

example : ∃ s, run (init (counted exRead)) exSchedule = some s ∧
    report (allErrs.map code) s.errors = [("worked on train skipped", 3), ("CTC is not supported", 2)] :=
  ⟨_, rfl, by decide +kernel⟩

/-- C170. An empty report is printed exactly if no element was skipped. -/
theorem C170_silent {α β : Type} (f : α → Res β) (files : List (List (Bool × List α))) (rs : List (List β × List KErr))
    (h : each (parseFile f) files = .ok rs) (is : List Nat) (s : St) (hr : run (init (counted rs)) is = some s)
    (hd : s.Finished) (order : List Code) (ho : ∀ c, 0 < s.errors c → c ∈ order) :
    report order s.errors = [] ↔ kept f files.flatten = files.flatten := by
  have ht := (C170_total f files rs h is s hr hd).1
  have hc := C170_counts f files rs h is s hr hd
  have hr' := C170_report f files rs h is s hr hd order ho
  constructor
  · intro he
    have hz : ∀ e, s.errors (code e) = 0 := by
      intro e
      by_contra hne
      have := (hr' e (s.errors (code e))).2 ⟨hc e, by omega⟩
      rw [he] at this
      simp at this
    have : (allErrs.map fun e => s.errors (code e)).sum = 0 := by
      simp only [hz, List.map_const', List.sum_replicate_nat, Nat.mul_zero]
    rw [this, Nat.zero_add] at ht
    exact List.filter_eq_self.2 (List.length_filter_eq_length_iff.1 ht)
  · intro hk
    rw [hk] at ht
    have hsum : (allErrs.map fun e => s.errors (code e)).sum = 0 := by omega
    have hz : ∀ e, s.errors (code e) = 0 := by
      intro e
      have := List.sum_eq_zero_iff_forall_eq_nat.1 hsum (s.errors (code e)) (List.mem_map.2 ⟨e, mem_allErrs e, rfl⟩)
      exact this
    unfold report
    rw [List.map_eq_nil_iff, List.filter_eq_nil_iff]
    intro c _
    simp only [decide_eq_true_eq, Nat.not_lt, Nat.le_zero]
    by_cases hh : ∃ e, code e = c
    · obtain ⟨e, rfl⟩ := hh
      exact hz e
    · exact C170_no_other rs is s hr c (fun e he => hh ⟨e, he⟩)

example : kept exF [[(true, [2, 4])], [(true, [6])]].flatten = [[(true, [2, 4])], [(true, [6])]].flatten := by decide

/-- C170. The codes and messages tell the errors apart, and none of the messages is the fallback. -/
theorem C170_messages (a b : KErr) :
    (code a = code b ↔ a = b) ∧ (message (code a) = message (code b) ↔ a = b) ∧ message (code a) ≠ "not reachable" ∧
      (code a).value ≠ 0 := by
  refine ⟨⟨code_inj a b, congrArg _⟩, ⟨message_inj a b, fun h => by rw [h]⟩, message_ne a, ?_⟩
  have : ∀ a ∈ allErrs, (code a).value ≠ 0 := by decide
  exact this a (mem_allErrs a)

end Soro.ErrorStats
