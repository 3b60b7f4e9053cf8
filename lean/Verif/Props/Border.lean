import Verif.Spec.Border
import Verif.Props.Network

/-! Borders of neighbouring stations, see `Model/Border.lean`. -/

namespace Soro.Infra

theorem mem_matching {all : List Border} {f t : Border} : t ∈ matching all f ↔ t ∈ all ∧ f.Counterpart t := by
  unfold matching
  simp only [List.mem_filter, decide_eq_true_eq, Bool.not_eq_true', Bool.or_eq_false_iff, decide_eq_false_iff_not, ne_eq, Decidable.not_not]
  constructor
  · rintro ⟨⟨h1, h2⟩, ⟨h3, h4⟩, h5⟩; exact ⟨h1, h2.symm, h3, h5, h4⟩
  · rintro ⟨h1, h⟩; exact ⟨⟨h1, h.there.symm⟩, ⟨h.back, h.sign⟩, h.line⟩

theorem Border.Counterpart.symm {f t : Border} (h : f.Counterpart t) : t.Counterpart f := ⟨h.back, h.there, h.line.symm, h.sign.symm⟩

theorem BordersFit.uniq {all : List Border} (h : BordersFit all) {f t t' : Border} (ht : t ∈ all) (ht' : t' ∈ all)
    (c : f.Counterpart t) (c' : f.Counterpart t') : t = t' :=
  h.one t ht t' ht' (c.there.symm.trans c'.there) (c.back.trans c'.back.symm) (c.line.symm.trans c'.line) (c.sign.symm.trans c'.sign)

theorem partner_eq {all : List Border} (h : BordersFit all) {f t : Border} (ht : t ∈ all) (c : f.Counterpart t) : f.partner all = some t.elem := by
  unfold Border.partner
  have hm : t ∈ matching all f := mem_matching.2 ⟨ht, c⟩
  obtain ⟨s, hs⟩ : ∃ s, (matching all f).getLast? = some s := ⟨_, List.getLast?_eq_some_getLast (List.ne_nil_of_mem hm)⟩
  rw [List.getLast?_map, hs]
  have := mem_matching.1 (List.mem_of_getLast? hs)
  rw [h.uniq this.1 ht this.2 c]
  rfl

theorem idTuple_iff {all : List Border} (h : BordersFit all) {f g : Border} (hf : f ∈ all) (hg : g ∈ all) :
    f.idTuple = g.idTuple ↔ f = g ∨ f.Counterpart g := by
  unfold Border.idTuple
  constructor
  · intro e
    simp only [Prod.mk.injEq] at e
    obtain ⟨e1, e2, e3, e4⟩ := e
    have n1 := h.ne f hf
    have n2 := h.ne g hg
    by_cases hs : f.st = g.st
    · left; exact h.one f hf g hg hs (by omega) e3 e4
    · right; exact ⟨by omega, by omega, e3, e4⟩
  · rintro (rfl | c)
    · rfl
    · rw [c.there, c.back, c.line, c.sign, Nat.min_comm, Nat.max_comm]

/-- the sections made from a part of the borders -/
theorem borderSecs_ok {all : List Border} (h : BordersFit all) : ∀ (l : List Border) (done : List (Nat × Nat × Nat × Int)),
    (∀ f ∈ l, f ∈ all) → ∃ secs, borderSecs all l done = some secs ∧
      (∀ s ∈ secs, ∃ f ∈ l, ∃ t ∈ all, f.Counterpart t ∧ f.idTuple ∉ done ∧
        s = if f.low then ⟨f.line, [t.elem, f.elem], [f.elem, t.elem]⟩ else ⟨f.line, [f.elem, t.elem], [t.elem, f.elem]⟩) ∧
      ∀ f ∈ l, (secs.filter fun s => decide (f.elem ∈ s.rising)).length = if f.idTuple ∈ done then 0 else 1
  | [], _, _ => ⟨[], rfl, by simp, by simp⟩
  | f :: l, done, hl => by
    have hf := hl f (by simp)
    obtain ⟨t, ht, c⟩ := h.other f hf
    have inj : ∀ a ∈ all, ∀ b ∈ all, a.elem = b.elem → a = b := fun a ha b hb e => List.inj_on_of_nodup_map h.elem ha hb e
    unfold borderSecs
    by_cases hd : f.idTuple ∈ done
    · rw [if_pos hd]
      obtain ⟨secs, h1, h2, h3⟩ := borderSecs_ok h l done fun g hg => hl g (by simp [hg])
      refine ⟨secs, h1, ?_, ?_⟩
      · intro s hs
        obtain ⟨g, hg, r⟩ := h2 s hs
        exact ⟨g, by simp [hg], r⟩
      · intro g hg
        rcases List.mem_cons.1 hg with rfl | hg'
        · rw [if_pos hd, List.length_eq_zero_iff, List.filter_eq_nil_iff]
          intro s hs
          obtain ⟨f', hf', t', ht', c', hn, rfl⟩ := h2 s hs
          have hfa := hl f' (by simp [hf'])
          have hne : ¬(g.elem = f'.elem ∨ g.elem = t'.elem) := by
            rintro (e | e)
            · have := inj g hf f' hfa e; subst this; exact hn hd
            · have := inj g hf t' ht' e; subst this
              exact hn (by rw [(idTuple_iff h hfa hf).2 (Or.inr c')]; exact hd)
          split <;> simp <;> constructor <;> intro e <;> exact hne (by simp [e])
        · exact h3 g hg'
    · rw [if_neg hd, partner_eq h ht c]
      obtain ⟨secs, h1, h2, h3⟩ := borderSecs_ok h l (f.idTuple :: done) fun g hg => hl g (by simp [hg])
      simp only [Option.bind_some, h1, Option.map_some]
      refine ⟨_, rfl, ?_, ?_⟩
      · intro s hs
        rcases List.mem_cons.1 hs with rfl | hs'
        · exact ⟨f, by simp, t, ht, c, hd, rfl⟩
        · obtain ⟨g, hg, t', ht', c', hn, e⟩ := h2 s hs'
          exact ⟨g, by simp [hg], t', ht', c', fun q => hn (by simp [q]), e⟩
      · intro g hg
        have hga := hl g hg
        have hin : (g.elem ∈ (if f.low then (⟨f.line, [t.elem, f.elem], [f.elem, t.elem]⟩ : BorderSec)
            else ⟨f.line, [f.elem, t.elem], [t.elem, f.elem]⟩).rising) ↔ g.idTuple = f.idTuple := by
          rw [idTuple_iff h hga hf]
          have : (g = f ∨ g.Counterpart f) ↔ g.elem = f.elem ∨ g.elem = t.elem := by
            constructor
            · rintro (rfl | q)
              · simp
              · right; rw [h.uniq hga ht q.symm c]
            · rintro (e | e)
              · left; exact inj g hga f hf e
              · right; rw [inj g hga t ht e]; exact c.symm
          rw [this]
          split <;> simp [or_comm]
        have hrest : (secs.filter fun s => decide (g.elem ∈ s.rising)).length = if g.idTuple ∈ f.idTuple :: done then 0 else 1 := by
          rcases List.mem_cons.1 hg with rfl | hg'
          · rw [if_pos (by simp), List.length_eq_zero_iff, List.filter_eq_nil_iff]
            intro s hs
            obtain ⟨f', hf', t', ht', c', hn, rfl⟩ := h2 s hs
            have hfa := hl f' (by simp [hf'])
            have hne : ¬(g.elem = f'.elem ∨ g.elem = t'.elem) := by
              rintro (e | e)
              · have := inj g hf f' hfa e; subst this; exact hn (by simp)
              · have := inj g hf t' ht' e; subst this
                exact hn (by rw [(idTuple_iff h hfa hf).2 (Or.inr c')]; simp)
            split <;> simp <;> constructor <;> intro e <;> exact hne (by simp [e])
          · exact h3 g hg'
        rw [List.filter_cons]
        by_cases hgf : g.idTuple = f.idTuple
        · rw [if_pos (by rw [decide_eq_true_eq]; exact hin.2 hgf), List.length_cons, hrest, if_pos (by simp [hgf]), hgf, if_neg hd]
        · rw [if_neg (by rw [decide_eq_true_eq]; exact fun q => hgf (hin.1 q)), hrest]
          simp [hgf]

/-- **C84** If the borders of the stations fit together, every border gets its counterpart as partner, and exactly one section is made for
every pair: in rising direction from the high to the low border, if there is one of each, falling in the other direction -/
theorem C84_pairs (find : Nat → Option Nat) (l : List BorderIn) (h : BordersFit (resolveBorders find l)) :
    ∃ secs, completeBorders find l = some (borderLinks (resolveBorders find l), secs) ∧
      ∀ f ∈ resolveBorders find l, ∃ t ∈ resolveBorders find l, f.Counterpart t ∧
        (∀ p, (∃ low, (f.elem, low, p) ∈ borderLinks (resolveBorders find l)) ↔ p = t.elem) ∧
        ∃ s, secs.filter (fun s => decide (f.elem ∈ s.rising)) = [s] ∧ s.line = f.line ∧ s.rising = s.falling.reverse ∧
          (s.rising = [f.elem, t.elem] ∨ s.rising = [t.elem, f.elem]) ∧ (f.low = true → t.low = false → s.rising = [t.elem, f.elem]) ∧
          (f.low = false → t.low = true → s.rising = [f.elem, t.elem]) := by
  generalize hall : resolveBorders find l = all at *
  obtain ⟨secs, h1, h2, h3⟩ := borderSecs_ok h all [] fun _ h => h
  refine ⟨secs, ?_, ?_⟩
  · unfold completeBorders; simp [hall, h1]
  intro f hf
  obtain ⟨t, ht, c⟩ := h.other f hf
  have inj : ∀ a ∈ all, ∀ b ∈ all, a.elem = b.elem → a = b := fun a ha b hb e => List.inj_on_of_nodup_map h.elem ha hb e
  refine ⟨t, ht, c, ?_, ?_⟩
  · intro p
    constructor
    · rintro ⟨low, hp⟩
      unfold borderLinks at hp
      rw [List.mem_flatMap] at hp
      obtain ⟨g, hg, hp⟩ := hp
      obtain ⟨t', ht', e⟩ := List.mem_map.1 hp
      simp only [Prod.mk.injEq] at e
      have := mem_matching.1 ht'
      have hgf := inj g hg f hf e.1
      subst hgf
      rw [← e.2.2, h.uniq this.1 ht this.2 c]
    · rintro rfl
      refine ⟨f.low, ?_⟩
      unfold borderLinks
      rw [List.mem_flatMap]
      exact ⟨f, hf, List.mem_map.2 ⟨t, mem_matching.2 ⟨ht, c⟩, rfl⟩⟩
  · have := h3 f hf
    rw [if_neg (by simp), List.length_eq_one_iff] at this
    obtain ⟨s, hs⟩ := this
    refine ⟨s, hs, ?_⟩
    have hsm : s ∈ secs.filter (fun s => decide (f.elem ∈ s.rising)) := by rw [hs]; simp
    rw [List.mem_filter, decide_eq_true_eq] at hsm
    obtain ⟨g, hg, t', ht', c', _, e⟩ := h2 s hsm.1
    have hcase : (f = g ∧ t = t') ∨ (f = t' ∧ t = g) := by
      have hh : f.elem = g.elem ∨ f.elem = t'.elem := by
        have := hsm.2
        rw [e] at this
        split at this <;> simp at this <;> rcases this with q | q <;> simp [q]
      rcases hh with q | q
      · have := inj f hf g hg q; subst this
        exact Or.inl ⟨rfl, h.uniq ht ht' c c'⟩
      · have := inj f hf t' ht' q; subst this
        exact Or.inr ⟨rfl, h.uniq ht hg c c'.symm⟩
    rcases hcase with ⟨rfl, rfl⟩ | ⟨rfl, rfl⟩
    · rw [e]
      cases hlow : f.low <;> simp
    · rw [e]
      have := c.line
      cases hlow : t.low <;> simp [this]

def exBorderIn : List BorderIn := [⟨0, 1, 5, 7, 1, false⟩, ⟨0, 1, 8, 7, 2, false⟩, ⟨0, 9, 10, 7, 1, false⟩, ⟨1, 0, 6, 7, 1, true⟩, ⟨1, 0, 9, 7, 2, true⟩]
def exFind (n : Nat) : Option Nat := if n < 2 then some n else none

instance (f t : Border) : Decidable (f.Counterpart t) :=
  decidable_of_iff (f.nb = t.st ∧ t.nb = f.st ∧ f.line = t.line ∧ f.sign = t.sign) ⟨fun h => ⟨h.1, h.2.1, h.2.2.1, h.2.2.2⟩, fun h => ⟨h.1, h.2, h.3, h.4⟩⟩

example : BordersFit (resolveBorders exFind exBorderIn) := ⟨by decide, by decide, by decide, by decide⟩

/-- **C84** A train leaving its section at a border gets to the section at the counterpart, if the borders fit together and one of the two is
low, the other one high -/
theorem C84_run {g0 : Graph} {xs : List SecIn} {all : List Border} (h : BordersFit all) (v : ValidNet g0 xs (borderLinks all)) {L : Links}
    (hL : connectAll (netGraph g0 xs (borderLinks all)).el (netGraph g0 xs (borderLinks all)).n = some L) {f t : Border} (hf : f ∈ all)
    (ht : t ∈ all) (c : f.Counterpart t) (hlow : f.low ≠ t.low) {o o' : SecOut} (ho : o ∈ (parseAll xs g0).2)
    (ho' : o' ∈ (parseAll xs g0).2) (he : o.x.elem f.low = f.elem) (he' : o'.x.elem t.low = t.elem) :
    ∃ n m k, (o.nodes (netGraph g0 xs (borderLinks all)).el f.low).getLast?.bind L.next = some n ∧ n.1 = f.elem ∧ L.next n = some m ∧
      m.1 = t.elem ∧ L.next m = some k ∧ (o'.nodes (netGraph g0 xs (borderLinks all)).el (!t.low)).head? = some k := by
  have hl : t.low = !f.low := by revert hlow; cases f.low <;> cases t.low <;> decide
  have inj : ∀ a ∈ all, ∀ b ∈ all, a.elem = b.elem → a = b := fun a ha b hb e => List.inj_on_of_nodup_map h.elem ha hb e
  rw [hl] at he' ⊢
  rw [← he, ← he', Bool.not_not]
  refine C83_border_partial v hL ho ho' f.low ?_ ?_
  · refine ⟨f.low, ?_⟩
    unfold borderLinks
    rw [List.mem_flatMap]
    exact ⟨f, hf, List.mem_map.2 ⟨t, mem_matching.2 ⟨ht, c⟩, by rw [he, he']⟩⟩
  · intro s hs e
    unfold borderLinks at hs
    rw [List.mem_flatMap] at hs
    obtain ⟨g, hg, hp⟩ := hs
    obtain ⟨t', ht', rfl⟩ := List.mem_map.1 hp
    have := mem_matching.1 ht'
    have hgf := inj g hg f hf (by rw [← he]; exact e)
    subst hgf
    show t'.elem = _
    rw [he', h.uniq this.1 ht this.2 c]

/-- the borders 5 and 6 of the network -/
example : BordersFit [⟨0, 1, 5, 0, 1, false⟩, ⟨1, 0, 6, 0, 1, true⟩] ∧
    ValidNet (exGraph exTys) exSecs (borderLinks [⟨0, 1, 5, 0, 1, false⟩, ⟨1, 0, 6, 0, 1, true⟩]) := by
  refine ⟨⟨by decide, by decide, by decide, by decide⟩, ?_⟩
  exact exNet

/-- **C84** fails: a single border that has no counterpart, although its neighbour station is known, makes the function dereference a null
pointer -/
theorem C84_null {all : List Border} {l : List Border} {done : List (Nat × Nat × Nat × Int)} {f : Border} (hf : f ∈ l)
    (h : ∀ g ∈ all, ∀ t ∈ all, g.idTuple = f.idTuple → ¬ g.Counterpart t) (hl : ∀ g ∈ l, g ∈ all) (hd : f.idTuple ∉ done) :
    borderSecs all l done = none := by
  induction l generalizing done with
  | nil => simp at hf
  | cons g l ih =>
    unfold borderSecs
    have hg := hl g (by simp)
    by_cases e : g.idTuple = f.idTuple
    · rw [if_neg (by rw [e]; exact hd)]
      have : g.partner all = none := by
        unfold Border.partner
        rw [List.getLast?_eq_none_iff, List.map_eq_nil_iff, List.eq_nil_iff_forall_not_mem]
        intro t ht
        have := mem_matching.1 ht
        exact h g hg t this.1 e this.2
      rw [this]; rfl
    · have hfl : f ∈ l := by
        rcases List.mem_cons.1 hf with rfl | q
        · exact absurd rfl e
        · exact q
      have hl' : ∀ g ∈ l, g ∈ all := fun g hg => hl g (by simp [hg])
      by_cases hgd : g.idTuple ∈ done
      · rw [if_pos hgd]; exact ih hfl hl' hd
      · rw [if_neg hgd]
        cases g.partner all with
        | none => rfl
        | some p =>
          have : borderSecs all l (g.idTuple :: done) = none := ih hfl hl' (by simp [Ne.symm e, hd])
          simp [this]

/-- **C84** for the whole function -/
theorem C84_negation (find : Nat → Option Nat) (l : List BorderIn) {f : Border} (hf : f ∈ resolveBorders find l)
    (h : ∀ g ∈ resolveBorders find l, ∀ t ∈ resolveBorders find l, g.idTuple = f.idTuple → ¬ g.Counterpart t) : completeBorders find l = none := by
  have := C84_null (done := []) hf h (fun _ h => h) (by simp)
  unfold completeBorders
  simp [this]

/-- the border of station 0 to station 1 is missing on the other side -/
example : ∃ f ∈ resolveBorders exFind [⟨0, 1, 5, 7, 1, false⟩, ⟨1, 0, 6, 7, 2, true⟩],
    ∀ g ∈ resolveBorders exFind [⟨0, 1, 5, 7, 1, false⟩, ⟨1, 0, 6, 7, 2, true⟩],
    ∀ t ∈ resolveBorders exFind [⟨0, 1, 5, 7, 1, false⟩, ⟨1, 0, 6, 7, 2, true⟩], g.idTuple = f.idTuple → ¬ g.Counterpart t := by decide

theorem mem_resolve {find : Nat → Option Nat} {l : List BorderIn} {f : Border} :
    f ∈ resolveBorders find l ↔ ∃ b ∈ l, ∃ n, find b.name = some n ∧ f = ⟨b.st, n, b.elem, b.line, b.sign, b.low⟩ := by
  unfold resolveBorders
  rw [List.mem_filterMap]
  constructor
  · rintro ⟨b, hb, h⟩
    obtain ⟨n, h1, rfl⟩ := Option.map_eq_some_iff.1 h
    exact ⟨b, hb, n, h1, rfl⟩
  · rintro ⟨b, hb, n, h1, rfl⟩
    exact ⟨b, hb, by rw [h1]; rfl⟩

theorem resolve_elems (find : Nat → Option Nat) (l : List BorderIn) :
    ((resolveBorders find l).map (·.elem)).Sublist (l.map (·.elem)) := by
  induction l with
  | nil => exact .slnil
  | cons b l ih =>
    unfold resolveBorders at ih ⊢
    cases h : find b.name with
    | none =>
      rw [List.filterMap_cons_none (by rw [h]; rfl), List.map_cons]
      exact ih.cons _
    | some n =>
      rw [List.filterMap_cons_some (by rw [h]; rfl), List.map_cons, List.map_cons]
      exact ih.cons_cons _

theorem input_fits {find : Nat → Option Nat} {l : List BorderIn} (h : InputFits find l) : BordersFit (resolveBorders find l) := by
  refine ⟨?_, ?_, ?_, h.elem.sublist (resolve_elems find l)⟩
  · intro f hf
    obtain ⟨b, hb, n, h1, rfl⟩ := mem_resolve.1 hf
    obtain ⟨c, hc, o⟩ := h.other b hb n h1
    have hn : n = c.st := Option.some.inj (h1.symm.trans o.there)
    exact ⟨_, mem_resolve.2 ⟨c, hc, _, o.back, rfl⟩, ⟨hn, rfl, o.line, o.sign⟩⟩
  · intro f hf t ht e1 e2 e3 e4
    obtain ⟨b, hb, n, h1, rfl⟩ := mem_resolve.1 hf
    obtain ⟨c, hc, m, h2, rfl⟩ := mem_resolve.1 ht
    simp only at e1 e2 e3 e4
    subst e2
    have := h.one b hb c hc n h1 h2 e1 e3 e4
    subst this
    rfl
  · intro f hf
    obtain ⟨b, hb, n, h1, rfl⟩ := mem_resolve.1 hf
    intro e
    exact h.ne b hb (by rw [h1]; exact congrArg some e)

/-- **C84** in terms of the input: a border whose neighbour station is known is linked, on its own side, to the opposite border and to no
other, and exactly one section joins the two; a border whose neighbour station is unknown is linked to nothing and part of no section -/
theorem C84_input (find : Nat → Option Nat) (l : List BorderIn) (h : InputFits find l) :
    ∃ links secs, completeBorders find l = some (links, secs) ∧ ∀ b ∈ l,
      (find b.name = none → (∀ low p, (b.elem, low, p) ∉ links) ∧ ∀ s ∈ secs, b.elem ∉ s.rising ∧ b.elem ∉ s.falling) ∧
      ∀ c ∈ l, b.Opposite find c → (∀ low p, (b.elem, low, p) ∈ links ↔ low = b.low ∧ p = c.elem) ∧
        ∃ s, secs.filter (fun s => decide (b.elem ∈ s.rising)) = [s] ∧ s.line = b.line ∧ s.rising = s.falling.reverse ∧
          (s.rising = [b.elem, c.elem] ∨ s.rising = [c.elem, b.elem]) ∧ (b.low = true → c.low = false → s.rising = [c.elem, b.elem]) ∧
          (b.low = false → c.low = true → s.rising = [b.elem, c.elem]) := by
  have fit := input_fits h
  have inj : ∀ a ∈ l, ∀ b ∈ l, a.elem = b.elem → a = b := fun a ha b hb e => List.inj_on_of_nodup_map h.elem ha hb e
  obtain ⟨secs, e1, e2⟩ := C84_pairs find l fit
  obtain ⟨secs', f1, f2, -⟩ := borderSecs_ok fit (resolveBorders find l) [] fun _ h => h
  have hs : secs' = secs := by
    have : completeBorders find l = some (borderLinks (resolveBorders find l), secs') := by unfold completeBorders; simp [f1]
    rw [e1] at this
    simpa using this.symm
  subst hs
  refine ⟨_, secs', e1, fun b hb => ⟨fun hn => ⟨fun low p hp => ?_, fun s hs => ?_⟩, fun c hc o => ?_⟩⟩
  · unfold borderLinks at hp
    rw [List.mem_flatMap] at hp
    obtain ⟨g, hg, hp⟩ := hp
    obtain ⟨t', -, e⟩ := List.mem_map.1 hp
    obtain ⟨b', hb', n, h1, rfl⟩ := mem_resolve.1 hg
    simp only [Prod.mk.injEq] at e
    have := inj b' hb' b hb e.1
    subst this
    rw [hn] at h1; cases h1
  · obtain ⟨f, hf, t, ht, -, -, rfl⟩ := f2 s hs
    obtain ⟨b1, hb1, n1, k1, rfl⟩ := mem_resolve.1 hf
    obtain ⟨b2, hb2, n2, k2, rfl⟩ := mem_resolve.1 ht
    have d1 : b.elem ≠ b1.elem := fun e => by
      have := inj b hb b1 hb1 e; subst this; rw [hn] at k1; cases k1
    have d2 : b.elem ≠ b2.elem := fun e => by
      have := inj b hb b2 hb2 e; subst this; rw [hn] at k2; cases k2
    split <;> simp [d1, d2]
  · have hf := mem_resolve.2 ⟨b, hb, _, o.there, rfl⟩
    have ht := mem_resolve.2 ⟨c, hc, _, o.back, rfl⟩
    obtain ⟨t, ht', k, m1, m2⟩ := e2 _ hf
    have := fit.uniq ht' ht k ⟨rfl, rfl, o.line, o.sign⟩
    subst this
    refine ⟨fun low p => ⟨fun hp => ⟨?_, (m1 p).1 ⟨low, hp⟩⟩, ?_⟩, m2⟩
    · unfold borderLinks at hp
      rw [List.mem_flatMap] at hp
      obtain ⟨g, hg, hp⟩ := hp
      obtain ⟨t', -, e⟩ := List.mem_map.1 hp
      obtain ⟨b', hb', n, h1, rfl⟩ := mem_resolve.1 hg
      simp only [Prod.mk.injEq] at e
      have := inj b' hb' b hb e.1
      subst this
      exact e.2.1.symm
    · rintro ⟨rfl, rfl⟩
      obtain ⟨low, hp⟩ := (m1 c.elem).2 rfl
      have hp' := hp
      unfold borderLinks at hp
      rw [List.mem_flatMap] at hp
      obtain ⟨g, hg, hp⟩ := hp
      obtain ⟨t', -, e⟩ := List.mem_map.1 hp
      obtain ⟨b', hb', n, h1, rfl⟩ := mem_resolve.1 hg
      simp only [Prod.mk.injEq] at e
      have := inj b' hb' b hb e.1
      subst this
      rw [e.2.1]
      exact hp'

example : InputFits exFind exBorderIn ∧ (∃ b ∈ exBorderIn, exFind b.name = none) ∧
    BorderIn.Opposite exFind ⟨0, 1, 5, 7, 1, false⟩ ⟨1, 0, 6, 7, 1, true⟩ := by
  refine ⟨⟨?_, ?_, by decide, by decide⟩, ⟨⟨0, 9, 10, 7, 1, false⟩, by simp [exBorderIn], by decide⟩, ⟨by decide, by decide, rfl, rfl⟩⟩
  · intro b hb n hn
    simp only [exBorderIn, List.mem_cons, List.not_mem_nil, or_false] at hb
    rcases hb with rfl | rfl | rfl | rfl | rfl
    · exact ⟨⟨1, 0, 6, 7, 1, true⟩, by simp [exBorderIn], by decide, by decide, rfl, rfl⟩
    · exact ⟨⟨1, 0, 9, 7, 2, true⟩, by simp [exBorderIn], by decide, by decide, rfl, rfl⟩
    · cases hn
    · exact ⟨⟨0, 1, 5, 7, 1, false⟩, by simp [exBorderIn], by decide, by decide, rfl, rfl⟩
    · exact ⟨⟨0, 1, 8, 7, 2, false⟩, by simp [exBorderIn], by decide, by decide, rfl, rfl⟩
  · intro b hb c hc n h1 h2 e1 e2 e3
    simp only [exBorderIn, List.mem_cons, List.not_mem_nil, or_false] at hb hc
    rcases hb with rfl | rfl | rfl | rfl | rfl <;> rcases hc with rfl | rfl | rfl | rfl | rfl <;> first | rfl | (simp_all [exFind] <;> omega)

end Soro.Infra
