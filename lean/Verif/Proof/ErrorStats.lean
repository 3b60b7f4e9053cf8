import Verif.Spec.ErrorStats
import Verif.Proof.KssTrain

namespace Soro.ErrorStats
open Soro.Kss

/-! ### The threads -/

/-- how often `c` is yet to be counted -/
def pending (ts : List Thread) (c : Code) : Nat := (ts.map fun t => t.todo.count c).sum

/-- the steps yet to be made, up to two for every work item -/
def PC.weight : PC → Nat
  | .out => 2
  | .locked => 1
  | .loaded _ => 0
  | .stored => 3

def measure (ts : List Thread) : Nat := (ts.map fun t => 4 * t.todo.length + t.pc.weight).sum

theorem sum_set {α : Type} (g : α → Nat) (l : List α) (i : Nat) (x y : α) (h : l[i]? = some x) :
    ((l.set i y).map g).sum + g x = (l.map g).sum + g y := by
  induction l generalizing i with
  | nil => simp at h
  | cons a l ih =>
    cases i with
    | zero =>
      simp only [List.getElem?_cons_zero, Option.some.injEq] at h
      subst h
      simp only [List.set_cons_zero, List.map_cons, List.sum_cons]
      omega
    | succ i =>
      have := ih i (by simpa using h)
      simp only [List.set_cons_succ, List.map_cons, List.sum_cons]
      omega

/-- The invariant of the counting. -/
structure Inv (total : Code → Nat) (s : St) : Prop where
  sum : ∀ c, s.errors c + pending s.threads c = total c
  owns : ∀ (i : Nat) (t : Thread), s.threads[i]? = some t → t.pc ≠ .out → s.owner = some i
  held : ∀ i : Nat, s.owner = some i → ∃ t, s.threads[i]? = some t ∧ t.pc ≠ .out
  fresh : ∀ (i : Nat) (e : Code) (es : List Code) (v : Nat), s.threads[i]? = some ⟨e :: es, .loaded v⟩ → v = s.errors e
  busy : ∀ (i : Nat) (t : Thread), s.threads[i]? = some t → t.todo = [] → t.pc = .out ∨ t.pc = .stored

theorem set_get {l : List Thread} {i : Nat} {x y t : Thread} {j : Nat} (h : l[i]? = some x)
    (hj : (l.set i y)[j]? = some t) : (j = i ∧ t = y) ∨ (j ≠ i ∧ l[j]? = some t) := by
  by_cases he : i = j
  · subst he
    have hl : i < l.length := (List.getElem?_eq_some_iff.1 h).1
    rw [List.getElem?_set_self hl] at hj
    exact .inl ⟨rfl, (Option.some.injEq _ _ ▸ hj).symm⟩
  · rw [List.getElem?_set_ne he] at hj
    exact .inr ⟨fun h => he h.symm, hj⟩

theorem get_set {l : List Thread} {i : Nat} {x : Thread} (y : Thread) (h : l[i]? = some x) : (l.set i y)[i]? = some y :=
  List.getElem?_set_self (List.getElem?_eq_some_iff.1 h).1

theorem step_inv {total : Code → Nat} {s s' : St} {i : Nat} (hi : Inv total s) (h : step s i = some s') : Inv total s' := by
  unfold step at h
  cases ht : s.threads[i]? with
  | none => simp [ht] at h
  | some t =>
    obtain ⟨todo, pc⟩ := t
    rw [ht] at h
    have sums : ∀ (t' : Thread) (c : Code),
        pending (s.threads.set i t') c + todo.count c = pending s.threads c + t'.todo.count c :=
      fun t' c => sum_set (fun t : Thread => t.todo.count c) s.threads i ⟨todo, pc⟩ t' ht
    cases pc with
    | out =>
      cases todo with
      | nil => simp at h
      | cons e es =>
        simp only at h
        split at h
        · rename_i ho
          simp only [Option.some.injEq] at h
          subst h
          refine ⟨?_, ?_, ?_, ?_, ?_⟩
          · intro c
            have := sums ⟨e :: es, .locked⟩ c
            have := hi.sum c
            simp only at *
            omega
          · intro j t hj hp
            rcases set_get ht hj with ⟨rfl, rfl⟩ | ⟨hne, hj⟩
            · rfl
            · have := hi.owns j t hj hp
              simp [ho] at this
          · intro j hj
            simp only [Option.some.injEq] at hj
            subst hj
            exact ⟨_, get_set _ ht, by simp⟩
          · intro j e' es' v hj
            rcases set_get ht hj with ⟨rfl, h2⟩ | ⟨hne, hj⟩
            · simp at h2
            · exact hi.fresh j e' es' v hj
          · intro j t hj hn
            rcases set_get ht hj with ⟨rfl, rfl⟩ | ⟨hne, hj⟩
            · simp at hn
            · exact hi.busy j t hj hn
        · simp at h
    | locked =>
      cases todo with
      | nil => simp at h
      | cons e es =>
        simp only [Option.some.injEq] at h
        subst h
        have ho := hi.owns i _ ht (by simp)
        refine ⟨?_, ?_, ?_, ?_, ?_⟩
        · intro c
          have := sums ⟨e :: es, .loaded (s.errors e)⟩ c
          have := hi.sum c
          simp only at *
          omega
        · intro j t hj hp
          rcases set_get ht hj with ⟨rfl, rfl⟩ | ⟨hne, hj⟩
          · exact ho
          · exact hi.owns j t hj hp
        · intro j hj
          have : j = i := by simp only [ho, Option.some.injEq] at hj; exact hj.symm
          subst this
          exact ⟨_, get_set _ ht, by simp⟩
        · intro j e' es' v hj
          rcases set_get ht hj with ⟨rfl, h2⟩ | ⟨hne, hj⟩
          · simp only [Thread.mk.injEq, List.cons.injEq, PC.loaded.injEq] at h2
            obtain ⟨⟨rfl, rfl⟩, rfl⟩ := h2
            rfl
          · exact hi.fresh j e' es' v hj
        · intro j t hj hn
          rcases set_get ht hj with ⟨rfl, rfl⟩ | ⟨hne, hj⟩
          · simp at hn
          · exact hi.busy j t hj hn
    | loaded v =>
      cases todo with
      | nil => simp at h
      | cons e es =>
        simp only [Option.some.injEq] at h
        subst h
        have ho := hi.owns i _ ht (by simp)
        have hv := hi.fresh i e es v ht
        refine ⟨?_, ?_, ?_, ?_, ?_⟩
        · intro c
          have h1 := sums ⟨es, .stored⟩ c
          have h2 := hi.sum c
          simp only [List.count_cons] at h1 ⊢
          by_cases hc : c = e
          · subst hc
            simp only [beq_self_eq_true, if_true] at h1 ⊢
            omega
          · have : (e == c) = false := by simpa using fun h => hc h.symm
            simp only [this, hc, if_false] at h1 ⊢
            simp only [Bool.false_eq_true, if_false] at h1
            omega
        · intro j t hj hp
          rcases set_get ht hj with ⟨rfl, rfl⟩ | ⟨hne, hj⟩
          · exact ho
          · exact hi.owns j t hj hp
        · intro j hj
          have : j = i := by simp only [ho, Option.some.injEq] at hj; exact hj.symm
          subst this
          exact ⟨_, get_set _ ht, by simp⟩
        · intro j e' es' w hj
          rcases set_get ht hj with ⟨rfl, h2⟩ | ⟨hne, hj⟩
          · simp at h2
          · have := hi.owns j _ hj (by simp)
            rw [ho] at this
            exact absurd (by simpa using this.symm) hne
        · intro j t hj hn
          rcases set_get ht hj with ⟨rfl, rfl⟩ | ⟨hne, hj⟩
          · exact .inr rfl
          · exact hi.busy j t hj hn
    | stored =>
      simp only [Option.some.injEq] at h
      subst h
      have ho := hi.owns i _ ht (by simp)
      refine ⟨?_, ?_, ?_, ?_, ?_⟩
      · intro c
        have := sums ⟨todo, .out⟩ c
        have := hi.sum c
        simp only at *
        omega
      · intro j t hj hp
        rcases set_get ht hj with ⟨rfl, rfl⟩ | ⟨hne, hj⟩
        · simp at hp
        · have := hi.owns j t hj hp
          rw [ho] at this
          exact absurd (by simpa using this.symm) hne
      · intro j hj
        simp at hj
      · intro j e' es' w hj
        rcases set_get ht hj with ⟨rfl, h2⟩ | ⟨hne, hj⟩
        · simp at h2
        · exact hi.fresh j e' es' w hj
      · intro j t hj hn
        rcases set_get ht hj with ⟨rfl, rfl⟩ | ⟨hne, hj⟩
        · exact .inl rfl
        · exact hi.busy j t hj hn

theorem step_measure {s s' : St} {i : Nat} (h : step s i = some s') :
    measure s'.threads + 1 = measure s.threads ∧ s'.threads.length = s.threads.length := by
  unfold step at h
  cases ht : s.threads[i]? with
  | none => simp [ht] at h
  | some t =>
    obtain ⟨todo, pc⟩ := t
    rw [ht] at h
    have sums : ∀ t' : Thread, measure (s.threads.set i t') + (4 * todo.length + pc.weight) =
        measure s.threads + (4 * t'.todo.length + t'.pc.weight) :=
      fun t' => sum_set (fun t : Thread => 4 * t.todo.length + t.pc.weight) s.threads i ⟨todo, pc⟩ t' ht
    cases pc with
    | out =>
      cases todo with
      | nil => simp at h
      | cons e es =>
        simp only at h
        split at h
        · simp only [Option.some.injEq] at h
          subst h
          have := sums ⟨e :: es, .locked⟩
          simp only [PC.weight, List.length_cons, List.length_set, and_true] at *
          omega
        · simp at h
    | locked =>
      cases todo with
      | nil => simp at h
      | cons e es =>
        simp only [Option.some.injEq] at h
        subst h
        have := sums ⟨e :: es, .loaded (s.errors e)⟩
        simp only [PC.weight, List.length_cons, List.length_set, and_true] at *
        omega
    | loaded v =>
      cases todo with
      | nil => simp at h
      | cons e es =>
        simp only [Option.some.injEq] at h
        subst h
        have := sums ⟨es, .stored⟩
        simp only [PC.weight, List.length_cons, List.length_set, and_true] at *
        omega
    | stored =>
      simp only [Option.some.injEq] at h
      subst h
      have := sums ⟨todo, .out⟩
      simp only [PC.weight, List.length_set, and_true] at *
      omega

theorem run_inv {total : Code → Nat} {s s' : St} {is : List Nat} (hi : Inv total s) (h : run s is = some s') :
    Inv total s' ∧ measure s'.threads + is.length = measure s.threads ∧ s'.threads.length = s.threads.length := by
  induction is generalizing s with
  | nil =>
    simp only [run, Option.some.injEq] at h
    subst h
    exact ⟨hi, by simp, rfl⟩
  | cons i is ih =>
    simp only [run, Option.bind_eq_some_iff] at h
    obtain ⟨s1, h1, h2⟩ := h
    obtain ⟨a, b, c⟩ := ih (step_inv hi h1) h2
    have := step_measure h1
    simp only [List.length_cons]
    exact ⟨a, by omega, by omega⟩

theorem init_inv (todo : List (List Code)) : Inv (fun c => todo.flatten.count c) (init todo) := by
  refine ⟨?_, ?_, ?_, ?_, ?_⟩
  · intro c
    simp only [init, pending, Nat.zero_add, List.map_map, List.count_flatten]
    rfl
  · intro i t h hp
    simp only [init, List.getElem?_map, Option.map_eq_some_iff] at h
    obtain ⟨_, _, rfl⟩ := h
    exact absurd rfl hp
  · intro i h
    simp [init] at h
  · intro i e es v h
    simp [init, List.getElem?_map] at h
  · intro i t h _
    simp only [init, List.getElem?_map, Option.map_eq_some_iff] at h
    obtain ⟨_, _, rfl⟩ := h
    exact .inl rfl

theorem measure_init (todo : List (List Code)) :
    measure (init todo).threads = 4 * todo.flatten.length + 2 * todo.length := by
  induction todo with
  | nil => rfl
  | cons es todo ih =>
    simp only [init, measure, List.map_cons, List.sum_cons, List.flatten_cons, List.length_append, List.length_cons,
      PC.weight] at *
    omega

theorem measure_ge {s : St} {total : Code → Nat} (hi : Inv total s) : 2 * s.threads.length ≤ measure s.threads := by
  have hb : ∀ t ∈ s.threads, t.todo = [] → t.pc = .out ∨ t.pc = .stored := by
    intro t ht
    obtain ⟨i, h⟩ := List.getElem?_of_mem ht
    exact hi.busy i t h
  unfold measure
  generalize s.threads = ts at hb
  induction ts with
  | nil => simp
  | cons t ts ih =>
    have h1 := ih fun u hu => hb u (List.mem_cons_of_mem _ hu)
    have h2 := hb t List.mem_cons_self
    have : 2 ≤ 4 * t.todo.length + t.pc.weight := by
      obtain ⟨todo, pc⟩ := t
      cases todo with
      | nil => rcases h2 rfl with h | h <;> simp only at h <;> subst h <;> simp [PC.weight]
      | cons e es => simp only [List.length_cons]; omega
    simp only [List.map_cons, List.sum_cons, List.length_cons]
    omega

theorem stuck_finished {total : Code → Nat} {s : St} (hi : Inv total s) (h : s.Stuck) : s.Finished := by
  have hno : s.owner = none := by
    cases ho : s.owner with
    | none => rfl
    | some i =>
      obtain ⟨⟨todo, pc⟩, ht, hp⟩ := hi.held i ho
      have hs := h i
      unfold step at hs
      rw [ht] at hs
      have hb := hi.busy i _ ht
      cases pc with
      | out => exact absurd rfl hp
      | locked =>
        cases todo with
        | nil => simp at hb
        | cons => simp at hs
      | loaded v =>
        cases todo with
        | nil => simp at hb
        | cons => simp at hs
      | stored => simp at hs
  intro t ht
  obtain ⟨i, hg⟩ := List.getElem?_of_mem ht
  have hp : t.pc = .out := by
    by_cases hp : t.pc = .out
    · exact hp
    · have := hi.owns i t hg hp
      simp [hno] at this
  obtain ⟨todo, pc⟩ := t
  simp only at hp
  subst hp
  cases todo with
  | nil => rfl
  | cons e es =>
    have := h i
    unfold step at this
    rw [hg] at this
    simp [hno] at this

theorem finished_stuck {s : St} (h : s.Finished) : s.Stuck := by
  intro i
  unfold step
  cases hg : s.threads[i]? with
  | none => rfl
  | some t =>
    have := h t (List.mem_of_getElem? hg)
    subst this
    rfl

theorem finished_pending {s : St} (h : s.Finished) (c : Code) : pending s.threads c = 0 := by
  unfold pending
  unfold St.Finished at h
  generalize s.threads = ts at h
  induction ts with
  | nil => rfl
  | cons t ts ih =>
    have := h t List.mem_cons_self
    subst this
    simpa using ih fun u hu => h u (List.mem_cons_of_mem _ hu)

theorem finished_measure {s : St} (h : s.Finished) : measure s.threads = 2 * s.threads.length := by
  unfold measure
  unfold St.Finished at h
  generalize s.threads = ts at h
  induction ts with
  | nil => rfl
  | cons t ts ih =>
    have := h t List.mem_cons_self
    subst this
    have := ih fun u hu => h u (List.mem_cons_of_mem _ hu)
    have hw : PC.out.weight = 2 := rfl
    simp only [List.map_cons, List.sum_cons, List.length_cons, hw, List.length_nil]
    omega

/-! ### The files -/

theorem parseTrain_reason {α β : Type} (f : α → Res β) (x : Bool × List α) :
    (∀ bs, parseTrain f x.1 x.2 = .ok bs → reason f x = none ∧ bs.length = x.2.length) ∧
    ∀ e, parseTrain f x.1 x.2 = .err e → reason f x = some e := by
  obtain ⟨r, xs⟩ := x
  unfold parseTrain reason
  cases r with
  | false => simp
  | true =>
    simp only [if_true]
    induction xs with
    | nil => simp [each]
    | cons a xs ih =>
      simp only [each, List.findSome?_cons]
      cases hf : f a with
      | ok b =>
        simp only
        cases he : each f xs with
        | ok bs =>
          have := ih.1 bs he
          simp only [Res.ok.injEq, reduceCtorEq, false_implies, implies_true, and_true]
          rintro _ rfl
          exact ⟨this.1, by simp [this.2]⟩
        | err e =>
          have := ih.2 e he
          simp only [reduceCtorEq, false_implies, implies_true, Res.err.injEq, true_and]
          rintro _ rfl
          exact this
        | throws => simp
        | undef => simp
      | err e => simp
      | throws => simp
      | undef => simp

theorem skipped_cons {α β : Type} (f : α → Res β) (x : Bool × List α) (xs : List (Bool × List α)) (e : KErr) :
    skipped f (x :: xs) e = (if reason f x = some e then 1 else 0) + skipped f xs e := by
  unfold skipped
  rw [List.filter_cons]
  by_cases h : reason f x = some e
  · simp [h]; omega
  · simp [h]

theorem skipped_append {α β : Type} (f : α → Res β) (xs ys : List (Bool × List α)) (e : KErr) :
    skipped f (xs ++ ys) e = skipped f xs e + skipped f ys e := by
  simp [skipped]

theorem parseFile_count {α β : Type} (f : α → Res β) (xs : List (Bool × List α)) (ts : List β) (es : List KErr)
    (h : parseFile f xs = .ok (ts, es)) :
    (∀ e, es.count e = skipped f xs e) ∧ ts.length = ((kept f xs).map fun x => x.2.length).sum ∧
      es.length + (kept f xs).length = xs.length := by
  induction xs generalizing ts es with
  | nil =>
    simp only [parseFile, Res.ok.injEq, Prod.mk.injEq] at h
    obtain ⟨rfl, rfl⟩ := h
    simp [skipped, kept]
  | cons x xs ih =>
    have hx := parseTrain_reason f x
    obtain ⟨r, ys⟩ := x
    rw [parseFile] at h
    cases hp : parseTrain f r ys with
    | throws => simp [hp] at h
    | undef => simp [hp] at h
    | err e =>
      rw [hp] at h
      simp only at h
      have he := hx.2 e hp
      cases hr : parseFile f xs with
      | ok p =>
        obtain ⟨ts1, es1⟩ := p
        rw [hr] at h
        simp only [Res.ok.injEq, Prod.mk.injEq] at h
        obtain ⟨rfl, rfl⟩ := h
        obtain ⟨h1, h2, h3⟩ := ih _ _ hr
        have hk : kept f ((r, ys) :: xs) = kept f xs := by simp [kept, he]
        refine ⟨?_, ?_, ?_⟩
        · intro e'
          rw [skipped_cons, he, List.count_cons, h1 e']
          by_cases hee : e = e'
          · simp [hee]; omega
          · have : (e == e') = false := by simpa using hee
            simp [this, hee]
        · rw [hk]; exact h2
        · rw [hk]; simp only [List.length_cons]; omega
      | _ => rw [hr] at h; simp at h
    | ok bs =>
      rw [hp] at h
      simp only at h
      have hb := hx.1 bs hp
      cases hr : parseFile f xs with
      | ok p =>
        obtain ⟨ts1, es1⟩ := p
        rw [hr] at h
        simp only [Res.ok.injEq, Prod.mk.injEq] at h
        obtain ⟨rfl, rfl⟩ := h
        obtain ⟨h1, h2, h3⟩ := ih _ _ hr
        have hk : kept f ((r, ys) :: xs) = (r, ys) :: kept f xs := by simp [kept, hb.1]
        refine ⟨?_, ?_, ?_⟩
        · intro e'
          rw [skipped_cons, hb.1, h1 e']
          simp
        · rw [hk]; simp only [List.length_append, List.map_cons, List.sum_cons, h2, hb.2]
        · rw [hk]; simp only [List.length_cons]; omega
      | _ => rw [hr] at h; simp at h

theorem files_count {α β : Type} (f : α → Res β) (files : List (List (Bool × List α))) (rs : List (List β × List KErr))
    (h : each (parseFile f) files = .ok rs) :
    (∀ e, (rs.map (·.2)).flatten.count e = skipped f files.flatten e) ∧
    (rs.map (·.1)).flatten.length = ((kept f files.flatten).map fun x => x.2.length).sum ∧
      (rs.map (·.2)).flatten.length + (kept f files.flatten).length = files.flatten.length := by
  rw [each_ok] at h
  induction files generalizing rs with
  | nil =>
    cases rs with
    | nil => simp [skipped, kept]
    | cons => simp at h
  | cons xs files ih =>
    cases rs with
    | nil => simp at h
    | cons r rs =>
      simp only [List.map_cons, List.cons.injEq] at h
      obtain ⟨h1, h2, h3⟩ := parseFile_count f xs r.1 r.2 h.1
      obtain ⟨i1, i2, i3⟩ := ih rs h.2
      refine ⟨?_, ?_, ?_⟩
      · intro e
        simp only [List.map_cons, List.flatten_cons, List.count_append, skipped_append, h1 e, i1 e]
      · simp only [List.map_cons, List.flatten_cons, List.length_append, h2, i2, kept, List.filter_append,
          List.map_append, List.sum_append]
      · simp only [List.map_cons, List.flatten_cons, List.length_append, kept, List.filter_append] at *
        omega

theorem mem_allErrs (e : KErr) : e ∈ allErrs := by
  cases e <;> first | decide | (rename_i x; cases x <;> decide)

theorem code_inj (a b : KErr) (h : code a = code b) : a = b := by
  have : ∀ a ∈ allErrs, ∀ b ∈ allErrs, code a = code b → a = b := by decide
  exact this a (mem_allErrs a) b (mem_allErrs b) h

theorem message_inj (a b : KErr) (h : message (code a) = message (code b)) : a = b := by
  have : ∀ a ∈ allErrs, ∀ b ∈ allErrs, message (code a) = message (code b) → a = b := by decide +kernel
  exact this a (mem_allErrs a) b (mem_allErrs b) h

theorem message_ne (a : KErr) : message (code a) ≠ "not reachable" := by
  have : ∀ a ∈ allErrs, message (code a) ≠ "not reachable" := by decide +kernel
  exact this a (mem_allErrs a)

theorem sum_counts (l : List KErr) : (allErrs.map fun e => l.count e).sum = l.length := by
  induction l with
  | nil => decide
  | cons a l ih =>
    have hs : ∀ es : List KErr, (es.map fun e => (a :: l).count e).sum = (es.map fun e => l.count e).sum + es.count a := by
      intro es
      induction es with
      | nil => rfl
      | cons e es ih =>
        rw [List.map_cons, List.map_cons, List.sum_cons, List.sum_cons, ih, List.count_cons, List.count_cons]
        by_cases hh : a = e
        · subst hh; simp only [beq_self_eq_true, if_true]; omega
        · have h1 : (a == e) = false := by simpa using hh
          have h2 : (e == a) = false := by simpa using fun h => hh h.symm
          simp only [h1, h2, Bool.false_eq_true, if_false]; omega
    have h1 : allErrs.count a = 1 := by
      have : ∀ a ∈ allErrs, allErrs.count a = 1 := by decide
      exact this a (mem_allErrs a)
    rw [hs, ih, h1, List.length_cons]

theorem counted_count {β : Type} (rs : List (List β × List KErr)) (e : KErr) :
    (counted rs).flatten.count (code e) = (rs.map (·.2)).flatten.count e := by
  have : (counted rs).flatten = ((rs.map (·.2)).flatten).map code := by
    simp [counted, List.map_flatten, List.map_map, Function.comp_def]
  rw [this]
  generalize (rs.map (·.2)).flatten = l
  induction l with
  | nil => rfl
  | cons a l ih =>
    rw [List.map_cons, List.count_cons, List.count_cons, ih]
    by_cases h : a = e
    · simp [h]
    · have : code a ≠ code e := fun hh => h (code_inj a e hh)
      simp [h, this]

end Soro.ErrorStats
