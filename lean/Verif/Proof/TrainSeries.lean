import Mathlib.Tactic.Ring
import Mathlib.Tactic.Linarith
import Verif.Spec.TrainSeries
import Verif.Proof.IssFiles
import Verif.Props.IssFiles

namespace Soro.TrainSeries
open Utls Utls.Spec TypeNames ParseFp IssElement IssFiles

theorem number_says {x : Xml} {n : Text} {q : Rat} (h : SaysNumber x n q) : number (some x) n = some q := by
  obtain ⟨k, h1, h2⟩ := h
  rw [number, childText_first h1, C139_decimal_partial.1 h2]

theorem fromKmH_some (q : Rat) : fromKmH (some q) = some (q / (18 / 5)) := by
  rw [fromKmH, Option.map_some]
  congr 1
  ring

/-- a force in SI units -/
def toPiece (f : Force) : Physics.Piece :=
  ⟨[f.f3 * 1000 * (18 / 5) * (18 / 5), f.f2 * 1000 * (18 / 5), f.f1 * 1000], f.lower / (18 / 5), f.upper / (18 / 5)⟩

theorem piece_says {x : Xml} {f : Force} (h : SaysForce x f) : piece x = some (toPiece f) := by
  obtain ⟨h1, h2, h3, h4, h5⟩ := h
  rw [piece, number_says h1, number_says h2, number_says h3, number_says h4, number_says h5, fromKmH_some, fromKmH_some]
  rfl

theorem abs_if (q : Rat) : (if q < 0 then -q else q) = |q| := by
  split
  · rw [abs_of_neg (by assumption)]
  · rw [abs_of_nonneg (not_lt.1 (by assumption))]

theorem continuous_iff : ∀ (fs : List Force), continuous (fs.map toPiece) = true ↔ Consecutive fs
  | [] => by simp [continuous, Consecutive]
  | [f] => by simp [continuous, Consecutive]
  | f :: g :: fs => by
    have ih := continuous_iff (g :: fs)
    rw [List.map_cons] at ih
    rw [List.map_cons, List.map_cons, continuous, Bool.and_eq_true, ih, Consecutive]
    rw [Utls.C67_meaning, abs_if, sub_zero, abs_abs, abs_lt]
    have e1 : (toPiece f).upper = f.upper / (18 / 5) := rfl
    have e2 : (toPiece g).lower = g.lower / (18 / 5) := rfl
    rw [e1, e2]
    refine and_congr_left fun _ => ⟨fun h g' hg => ?_, fun h => ?_⟩
    · cases hg
      constructor <;> linarith [h.1, h.2]
    · have := h g rfl
      constructor <;> linarith [this.1, this.2]

theorem eval_find (fs : List Force) (s : Rat) :
    Physics.evalPieces (fs.map toPiece) (s / (18 / 5)) = (fs.find? fun f => decide (s < f.upper)).map fun f => f.at s := by
  induction fs with
  | nil => rfl
  | cons f fs ih =>
    have hiff : s / (18 / 5) < (toPiece f).upper ↔ s < f.upper := by
      show s / (18 / 5) < f.upper / (18 / 5) ↔ _
      constructor <;> intro h <;> linarith
    rw [Physics.evalPieces, List.map_cons, List.find?_cons, List.find?_cons]
    by_cases h : s < f.upper
    · rw [decide_eq_true (hiff.2 h), decide_eq_true h]
      simp only [toPiece, Physics.evalPoly, List.foldl_cons, List.foldl_nil, Option.map_some, Force.at]
      congr 1
      ring
    · rw [decide_eq_false fun hc => h (hiff.1 hc), decide_eq_false h]
      exact ih

theorem find_forceAt {fs : List Force} {s : Rat} {f : Force} (h : ForceAt fs s f) :
    fs.find? (fun f => decide (s < f.upper)) = some f := by
  obtain ⟨pre, post, rfl, h1, h2⟩ := h
  exact find_first _ (decide_eq_true h1) fun g hg => decide_eq_false (not_lt.2 (h2 g hg))

theorem allSome_filter {α β γ : Type} {f : α → Option β} {R : α → γ → Prop} {g : γ → β} (h : ∀ a c, R a c → f a = some (g c))
    {as : List α} {cs : List γ} (hr : List.Forall₂ R as cs) : allSome f as = some (cs.map g) := by
  induction hr with
  | nil => rfl
  | cons h1 _ ih => rw [allSome, h _ _ h1, ih, List.map_cons]

theorem filter_beq (ks : List Xml) (n : Text) : (ks.filter fun k => k.name == n) = ks.filter fun k => k.name = n :=
  List.filter_congr fun k _ => Bool.beq_eq_decide_eq _ _

/-- what is read for a description -/
def Reads (d : Described) (r : Nat × Option Vehicle) : Prop :=
  r.1 = d.id ∧ (d.Usable → ∃ v, r.2 = some v ∧ Matches d v ∧ v.physics.deceleration = -7 / 10) ∧ (¬ d.Usable → r.2 = none)

theorem variant_says {x : Xml} {d : Described} (h : SaysVariant x d) : ∃ r, variant x = some r ∧ Reads d r := by
  obtain ⟨⟨ds, h1, h2, h3, h4⟩, h5, h6, h7, h8, h9, h10, h11, ks, h12, h13⟩ := h
  have hk := kids_membersAt h12
  simp only [List.foldl_cons, List.foldl_nil] at hk
  have hc : tractiveCurve (child (child (child (some x) "Stromartausruestungen".toList) "Stromartausruestung".toList)
      "Zugkraftfaktoren".toList) = some (if continuous (d.forces.map toPiece) then d.forces.map toPiece else []) := by
    rw [tractiveCurve, hk, filter_beq, allSome_filter (R := SaysForce) (f := piece) (g := toPiece) (fun _ _ h => piece_says h) h13, Option.map_some]
  have hs : stoul ds = some d.id := by rw [stoul_digits h2 h3 (by rw [h4]; omega), h4]
  have hid : d.id % 2 ^ 32 = d.id := Nat.mod_eq_of_lt h5
  by_cases hu : d.Usable
  · obtain ⟨hne, hcons⟩ := hu
    have hempty : (d.forces.map toPiece).isEmpty = false := by
      cases hf : d.forces with
      | nil => exact absurd hf hne
      | cons => rfl
    refine ⟨(d.id, some ⟨d.name, d.tons * 1000, ⟨d.top / (18 / 5), -7 / 10, d.forces.map toPiece,
      [d.r3 * (18 / 5) ^ 2 * gravity, d.r2 * (18 / 5) / 1000 * gravity * (d.tons * 1000),
        d.r1 / 1000 * gravity * (d.tons * 1000)]⟩⟩), ?_, rfl, fun _ => ⟨_, rfl, ⟨rfl, ?_, rfl, fun s => ⟨fun f hf => ?_, fun hf => ?_, ?_⟩⟩, rfl⟩,
        fun hn => absurd ⟨hne, hcons⟩ hn⟩
    · rw [variant, childText_says h1, hs, number_says h7, hc, if_pos ((continuous_iff _).2 hcons)]
      simp only [bind, Option.bind, hempty, if_neg Bool.false_ne_true, resistanceCurve, number_says h8, number_says h9,
        number_says h10, number_says h11, fromKmH_some, childText_says h6, pure, hid]
    · exact mul_comm _ _
    · show Physics.evalPieces (d.forces.map toPiece) _ = _
      rw [eval_find, find_forceAt hf, Option.map_some]
    · show Physics.evalPieces (d.forces.map toPiece) _ = _
      rw [eval_find, List.find?_eq_none.2, Option.map_none]
      intro f hm
      simpa using hf f hm
    · simp only [Physics.evalPoly, List.foldl_cons, List.foldl_nil, gravity]
      congr 1
      ring
  · refine ⟨(d.id, none), ?_, rfl, fun h => absurd h hu, fun _ => rfl⟩
    have hempty : (if continuous (d.forces.map toPiece) then d.forces.map toPiece else []).isEmpty = true := by
      split
      · rename_i hcont
        cases hf : d.forces with
        | nil => rfl
        | cons => exact absurd ⟨by rw [hf]; simp, (continuous_iff _).1 hcont⟩ hu
      · rfl
    rw [variant, childText_says h1, hs, number_says h7, hc]
    simp only [bind, Option.bind, hempty, if_true, pure, hid]

theorem variants_say {xs : List Xml} {ds : List Described} (h : List.Forall₂ SaysVariant xs ds) :
    ∃ rs, allSome variant xs = some rs ∧ List.Forall₂ Reads ds rs := by
  induction h with
  | nil => exact ⟨[], rfl, .nil⟩
  | cons h _ ih =>
    obtain ⟨r, h1, h2⟩ := variant_says h
    obtain ⟨rs, h3, h4⟩ := ih
    exact ⟨r :: rs, by rw [allSome, h1, h3], .cons h2 h4⟩

theorem usable_first {ds : List Described} {rs : List (Nat × Option Vehicle)} (h : List.Forall₂ Reads ds rs) {n : Nat} :
    (∀ d, FirstUsable ds n d → ∃ v, FirstEntry (usable rs) n v ∧ Matches d v ∧ v.physics.deceleration = -7 / 10) ∧
    ((∀ d ∈ ds, d.id = n → ¬ d.Usable) → n ∉ (usable rs).map Prod.fst) := by
  induction h with
  | nil => exact ⟨fun d ⟨pre, post, e, _⟩ => by simp at e, fun _ => by simp [usable]⟩
  | @cons d r ds rs hr _ ih =>
    obtain ⟨rid, rv⟩ := r
    obtain ⟨h1, h2, h3⟩ := hr
    simp only at h1 h2 h3
    subst h1
    refine ⟨fun d' ⟨pre, post, e, he, hu, hp⟩ => ?_, fun hn => ?_⟩
    · cases pre with
      | nil =>
        simp only [List.nil_append, List.cons.injEq] at e
        obtain ⟨rfl, rfl⟩ := e
        obtain ⟨v, rfl, hm⟩ := h2 hu
        exact ⟨v, ⟨[], usable rs, by rw [usable, he]; rfl, by simp⟩, hm⟩
      | cons p pre =>
        simp only [List.cons_append, List.cons.injEq] at e
        obtain ⟨rfl, rfl⟩ := e
        obtain ⟨v, ⟨pre', post', h4, h5⟩, hm⟩ := ih.1 d' ⟨pre, post, rfl, he, hu, fun q hq => hp q (List.mem_cons_of_mem _ hq)⟩
        by_cases hd : d.Usable
        · obtain ⟨w, rfl, _⟩ := h2 hd
          have hdn : d.id ≠ n := (hp d (by simp)).resolve_right fun hc => hc hd
          refine ⟨v, ⟨(d.id, w) :: pre', post', by rw [usable, h4]; rfl, ?_⟩, hm⟩
          intro q hq
          rcases List.mem_cons.1 hq with rfl | hq
          · exact hdn
          · exact h5 q hq
        · obtain rfl := h3 hd
          exact ⟨v, ⟨pre', post', by rw [usable, h4], h5⟩, hm⟩
    · have h4 := ih.2 fun q hq => hn q (List.mem_cons_of_mem _ hq)
      by_cases hd : d.Usable
      · obtain ⟨w, rfl, _⟩ := h2 hd
        rw [usable, List.map_cons, List.mem_cons, not_or]
        exact ⟨fun he => hn d (by simp) he.symm hd, h4⟩
      · obtain rfl := h3 hd
        rw [usable]; exact h4

/-- what is read for a described series -/
def ReadsSeries (d : DescribedSeries) (s : Series) : Prop :=
  s.nr = d.nr ∧ s.company = d.company ∧ ∀ n,
    (∀ v, FirstUsable d.variants n v → ∃ w, s.variants n = some w ∧ Matches v w ∧ w.physics.deceleration = -7 / 10) ∧
    ((∀ v ∈ d.variants, v.id = n → ¬ v.Usable) → s.variants n = none)

theorem series_says {x : Xml} {d : DescribedSeries} (h : SaysSeries x d) : ∃ s, series x = some s ∧ ReadsSeries d s := by
  obtain ⟨h1, ⟨e, h2, h3⟩, ks, h4, h5⟩ := h
  obtain ⟨rs, h6, h7⟩ := variants_say h5
  refine ⟨⟨d.nr, d.company, emplaceAll (usable rs) fun _ => none⟩, ?_, rfl, rfl, fun n => ⟨fun v hv => ?_, fun hn => ?_⟩⟩
  · rw [series, kids_members h4, filter_beq, h6, Option.map_some, childText_says h1, child_first h2, attr_has h3]
  · obtain ⟨w, h8, h9⟩ := (usable_first h7).1 v hv
    exact ⟨w, ((emplaceAll_spec (usable rs) _ n).2 rfl).1 w h8, h9⟩
  · exact ((emplaceAll_spec (usable rs) _ n).2 rfl).2 ((usable_first h7).2 hn)

theorem all_series_say {xs : List Xml} {ds : List DescribedSeries} (h : List.Forall₂ SaysSeries xs ds) :
    ∃ ss, allSome series xs = some ss ∧ List.Forall₂ ReadsSeries ds ss := by
  induction h with
  | nil => exact ⟨[], rfl, .nil⟩
  | cons h _ ih =>
    obtain ⟨r, h1, h2⟩ := series_says h
    obtain ⟨rs, h3, h4⟩ := ih
    exact ⟨r :: rs, by rw [allSome, h1, h3], .cons h2 h4⟩

theorem addSeries_append (a b : List Series) (m : Text → Option Series) :
    addSeries (a ++ b) m = (addSeries a m).bind (addSeries b) := by
  induction a generalizing m with
  | nil => rfl
  | cons s a ih =>
    rw [List.cons_append, addSeries, addSeries]
    split
    · rfl
    · exact ih _

theorem addSeries_spec (ss : List Series) (m : Text → Option Series) (hm : ∀ s ∈ ss, m s.key = none)
    (hd : (ss.map Series.key).Nodup) :
    ∃ m', addSeries ss m = some m' ∧ (∀ s ∈ ss, m' s.key = some s) ∧ ∀ k, k ∉ ss.map Series.key → m' k = m k := by
  induction ss generalizing m with
  | nil => exact ⟨m, rfl, by simp, fun _ _ => rfl⟩
  | cons s ss ih =>
    rw [List.map_cons, List.nodup_cons] at hd
    obtain ⟨m', h1, h2, h3⟩ := ih (assign m s.key s) (fun t ht => by
      rw [assign, if_neg, hm t (List.mem_cons_of_mem _ ht)]
      exact fun he => hd.1 (List.mem_map.2 ⟨t, ht, he⟩)) hd.2
    refine ⟨m', ?_, fun t ht => ?_, fun k hk => ?_⟩
    · rw [addSeries, hm s (by simp)]
      exact h1
    · rcases List.mem_cons.1 ht with rfl | ht
      · rw [h3 _ hd.1, assign, if_pos rfl]
      · exact h2 t ht
    · rw [List.map_cons, List.mem_cons, not_or] at hk
      rw [h3 k hk.2, assign, if_neg hk.1]

theorem addSeries_mono (ss : List Series) {m m' : Text → Option Series} (h : addSeries ss m = some m') {k : Text}
    (hk : (m k).isSome) : (m' k).isSome ∧ k ∉ ss.map Series.key := by
  induction ss generalizing m with
  | nil => cases h; exact ⟨hk, by simp⟩
  | cons s ss ih =>
    rw [addSeries] at h
    split at h
    · cases h
    · rename_i hs
      have hne : k ≠ s.key := by rintro rfl; exact hs hk
      obtain ⟨h1, h2⟩ := ih h (by rw [assign, if_neg hne]; exact hk)
      refine ⟨h1, ?_⟩
      rw [List.map_cons, List.mem_cons, not_or]
      exact ⟨hne, h2⟩

theorem addSeries_nodup (ss : List Series) {m m' : Text → Option Series} (h : addSeries ss m = some m') :
    (ss.map Series.key).Nodup := by
  induction ss generalizing m with
  | nil => exact List.nodup_nil
  | cons s ss ih =>
    rw [addSeries] at h
    split at h
    · cases h
    · rw [List.map_cons, List.nodup_cons]
      exact ⟨(addSeries_mono ss h (k := s.key) (by rw [assign, if_pos rfl]; rfl)).2, ih h⟩

/-- the defaults after a document -/
def step (d : Xml) (dv : Option Defaults) : Option Defaults :=
  match child (child (child (some d) "XmlIssDaten".toList) "Stammdaten".toList) "Standardwerte".toList with
  | some x => some (parseDefaults x)
  | none => dv

theorem coreData_cons (d : Xml) (ds : List (Option Xml)) (dv : Option Defaults) (m : Text → Option Series) :
    coreData (some d :: ds) dv m =
      ((parseTrainSeries (child (child (child (some d) "XmlIssDaten".toList) "Stammdaten".toList)
        "Triebfahrzeugbaureihen".toList)).bind fun ss => addSeries ss m).bind fun m => coreData ds (step d dv) m := by
  rw [coreData, step]
  generalize child (child (some d) "XmlIssDaten".toList) "Stammdaten".toList = core
  cases child core "Triebfahrzeugbaureihen".toList <;> rfl

theorem allSome_append {α β : Type} (f : α → Option β) (a b : List α) :
    allSome f (a ++ b) = (allSome f a).bind fun x => (allSome f b).map fun y => x ++ y := by
  induction a with
  | nil => cases h : allSome f b <;> simp [allSome, h]
  | cons c a ih =>
    rw [List.cons_append, allSome, allSome, ih]
    cases f c <;> cases allSome f a <;> cases allSome f b <;> rfl

theorem coreData_series {docs : List Xml} {kss : List (List Xml)}
    (h : List.Forall₂ (fun d ks => MembersAt d ["XmlIssDaten".toList, "Stammdaten".toList, "Triebfahrzeugbaureihen".toList] ks) docs kss)
    {ss : List Series} (hs : allSome series (kss.flatten.filter fun k => k.name = "Triebfahrzeugbaureihe".toList) = some ss)
    (dv : Option Defaults) (m : Text → Option Series) :
    coreData (docs.map some) dv m = (addSeries ss m).map fun m => (docs.foldl (fun dv d => step d dv) dv, m) := by
  induction h generalizing ss dv m with
  | nil => cases hs; rfl
  | @cons d ks docs kss hd _ ih =>
    have hk := kids_membersAt hd
    simp only [List.foldl_cons, List.foldl_nil] at hk
    rw [List.flatten_cons, List.filter_append, allSome_append] at hs
    cases h1 : allSome series (ks.filter fun k => k.name = "Triebfahrzeugbaureihe".toList) with
    | none => rw [h1] at hs; cases hs
    | some s1 =>
      cases h2 : allSome series (kss.flatten.filter fun k => k.name = "Triebfahrzeugbaureihe".toList) with
      | none => rw [h1, h2] at hs; cases hs
      | some s2 =>
        rw [h1, h2] at hs
        cases hs
        rw [List.map_cons, coreData_cons, parseTrainSeries, hk, filter_beq, h1, Option.bind_some, addSeries_append]
        cases addSeries s1 m with
        | none => rfl
        | some m1 =>
          rw [Option.bind_some, Option.bind_some, ih h2]
          rfl

theorem dataText_shows {v : View} {s : Text} (h : ∃ rest, v.mem = s ++ '\x00' :: rest) (h' : '\x00' ∉ s) : dataText v = some s := by
  obtain ⟨rest, h⟩ := h
  rw [dataText, if_pos (by rw [h]; simp), h]
  congr 1
  rw [List.takeWhile_append_of_pos]
  · simp
  · intro c hc
    rw [bne_iff_ne]
    rintro rfl
    exact h' hc

theorem key_inj {a b c d : Text} (h : a ++ '-' :: b = c ++ '-' :: d) (ha : '-' ∉ a) (hc : '-' ∉ c) : a = c ∧ b = d := by
  induction a generalizing c with
  | nil =>
    cases c with
    | nil => simpa using h
    | cons x c =>
      simp only [List.nil_append, List.cons_append, List.cons.injEq] at h
      exact absurd (by rw [← h.1]; simp) hc
  | cons x a ih =>
    cases c with
    | nil =>
      simp only [List.nil_append, List.cons_append, List.cons.injEq] at h
      exact absurd (by rw [h.1]; simp) ha
    | cons y c =>
      simp only [List.cons_append, List.cons.injEq] at h
      obtain ⟨h1, h2⟩ := ih h.2 (fun hm => ha (List.mem_cons_of_mem _ hm)) fun hm => hc (List.mem_cons_of_mem _ hm)
      exact ⟨by rw [h.1, h1], h2⟩

end Soro.TrainSeries
