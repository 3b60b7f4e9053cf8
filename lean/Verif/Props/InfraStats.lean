import Verif.Proof.InfraStats
import Verif.Props.IssElement

/-! Statistics of the rail plan files and the built infrastructure: C156. -/

namespace Soro.InfraStats
open TypeNames IssElement IssFiles Spec

theorem simple_eq (t : Ty) : isSimpleElement t = (t == .kmJump || t == .border || t == .lineSwitch) := by cases t <;> rfl

theorem reduce_ends (t : Ty) (n : Nat) (h : isTrackElement t = false) : reduce t (n * ends t) = n := by
  revert h
  cases t <;> intro h <;> first
    | (exfalso; revert h; decide)
    | (simp [reduce, ends, simple_eq])

theorem reduce_track (t : Ty) (n : Nat) (h : isTrackElement t = true) : reduce t n = n := by
  revert h
  cases t <;> intro h <;> first
    | (exfalso; revert h; decide)
    | (simp [reduce, simple_eq])

/-- for every well-formed rail plan the statistics count exactly the elements of each type that the parser creates from the same
files, and the stations of the files -/
theorem C156_numbers (files : List (Option Xml)) (ss : List Xml) (hf : allSections files = some ss) (h : PlanFit ss) :
    ∃ st p, getInfraStats files = some st ∧ build files = some p ∧ (∀ t, t ≠ .meta' → st.number t = p.types.count t) ∧
      st.stations = ((files.flatMap Option.toList).flatMap stations).length := by
  obtain ⟨r, h1, h2, h3, h4⟩ := countFiles_spec files ⟨0, 0, fun _ => 0⟩ ss hf
  have hreq : ∀ s ∈ ss, requests s = some (reqs s) := by
    intro s hs
    have hk : ∀ x ∈ known s, ∃ i, rpId x = some i := fun x hx => by
      obtain ⟨i, hi, _⟩ := h.id x (List.mem_flatMap.2 ⟨s, hs, hx⟩)
      exact ⟨i, hi⟩
    refine requests_eq (h.sec s hs) hk fun x hx => ?_
    obtain ⟨y, hy, h5, _⟩ := h.main x (List.mem_flatMap.2 ⟨s, hs, hx⟩)
    obtain ⟨s', hs', hy⟩ := List.mem_flatMap.1 hy
    obtain ⟨i, hi, _⟩ := h.id y (List.mem_flatMap.2 ⟨s', hs', (end_known (h.sec s' hs') hy).1⟩)
    exact ⟨i, by rw [h5, hi]⟩
  refine ⟨_, _, by rw [getInfraStats, h1]; rfl, by rw [build, hf, Option.bind_some, allSome_requests ss hreq]; rfl, ?_, ?_⟩
  · intro t ht
    dsimp only
    rw [h4, Nat.zero_add, ← List.flatMap_def, run_count _ [] (by rw [List.append_nil]; exact fit_reqs h) t ht]
    cases hk : isTrackElement t with
    | true =>
      have hi : t ≠ .invalid := by rintro rfl; revert hk; decide
      have hm : mains t (ss.flatMap reqs) = [] := by
        rw [mains_flat, List.map_eq_nil_iff, List.filter_eq_nil_iff]
        intro x hx
        obtain ⟨s, hs, hx⟩ := List.mem_flatMap.1 hx
        have := (end_known (h.sec s hs) hx).2
        simp only [decide_eq_true_eq]
        intro e
        rw [e, hk] at this; cases this
      rw [if_neg hi, reduce_track t _ hk, hm, tracks_flat, cnt_flat]
      have : ss.map (fun s => cnt (trackNodes s) t) = ss.map fun s => cnt (nodes s) t :=
        List.map_congr_left fun s _ => cnt_track hk hi
      rw [this]; simp
    | false =>
      have htr : tracks t (ss.flatMap reqs) = 0 := by
        have : ss.map (fun s => cnt (trackNodes s) t) = ss.map fun _ => 0 :=
          List.map_congr_left fun s _ => cnt_track_zero hk
        rw [tracks_flat, this]; simp
      rw [htr, Nat.zero_add]
      by_cases hi : t = .invalid
      · subst hi
        have hm : mains .invalid (ss.flatMap reqs) = [] := by
          rw [mains_flat, List.map_eq_nil_iff, List.filter_eq_nil_iff]
          intro x hx
          obtain ⟨s, hs, hx⟩ := List.mem_flatMap.1 hx
          have := (mem_known.1 (end_known (h.sec s hs) hx).1).2
          simpa using this
        rw [hm, if_pos rfl]; rfl
      · have hlen : (mains t (ss.flatMap reqs)).length = cnt (ss.flatMap nodes) t := by
          have : ss.map (fun s => cnt (endNodes s) t) = ss.map fun s => cnt (nodes s) t :=
            List.map_congr_left fun s hs => cnt_ends (h.sec s hs) hk hi
          rw [mains_flat, List.length_map, ← List.countP_eq_length_filter, cnt_flat, ← this, ← cnt_flat]
          rfl
        rw [if_neg hi, ← hlen, mains_multiple h t, reduce_ends t _ hk]
  · dsimp only
    rw [h3, Nat.zero_add]; rfl

/-- the number of sections in the statistics: that of the infrastructure, plus one for every two borders to stations that are not
in the files -/
theorem C156_sections (files : List (Option Xml)) (ss : List Xml) (hf : allSections files = some ss) (find : Nat → Option Nat)
    (bs : List Infra.BorderIn) (hb : bs.length = ((ss.flatMap nodes).filter fun x => getType x.name = .border).length)
    (fit : Infra.BordersFit (Infra.resolveBorders find bs)) :
    ∃ st n, getInfraStats files = some st ∧ sectionCount files find bs = some n ∧
      st.sections = n + (bs.filter fun b => (find b.name).isNone).length / 2 := by
  obtain ⟨r, h1, h2, h3, h4⟩ := countFiles_spec files ⟨0, 0, fun _ => 0⟩ ss hf
  obtain ⟨secs, h5, h6⟩ := border_sections fit
  refine ⟨_, _, by rw [getInfraStats, h1]; rfl, by
    rw [sectionCount, hf, Option.bind_some, Infra.completeBorders, h5]; rfl, ?_⟩
  dsimp only
  rw [h2, h4, if_neg (by decide)]
  have hc : cnt (ss.flatMap nodes) .border = bs.length := by rw [hb, cnt, List.countP_eq_length_filter]
  have hsplit : bs.length = (Infra.resolveBorders find bs).length + (bs.filter fun b => (find b.name).isNone).length := by
    clear hb fit h5 h6 hc
    induction bs with
    | nil => rfl
    | cons b bs ih =>
      unfold Infra.resolveBorders at ih ⊢
      rw [List.filterMap_cons, List.filter_cons, List.length_cons, ih]
      cases find b.name <;> simp <;> omega
  rw [hc, hsplit, ← h6]
  dsimp only
  omega

/-- with two or more borders to stations that are not in the files, the statistics count sections that are never built -/
theorem C156_sections_negation (files : List (Option Xml)) (ss : List Xml) (hf : allSections files = some ss)
    (find : Nat → Option Nat) (bs : List Infra.BorderIn)
    (hb : bs.length = ((ss.flatMap nodes).filter fun x => getType x.name = .border).length)
    (fit : Infra.BordersFit (Infra.resolveBorders find bs)) (two : 2 ≤ (bs.filter fun b => (find b.name).isNone).length) :
    ∃ st n, getInfraStats files = some st ∧ sectionCount files find bs = some n ∧ n < st.sections := by
  obtain ⟨st, n, h1, h2, h3⟩ := C156_sections files ss hf find bs hb fit
  exact ⟨st, n, h1, h2, by omega⟩

theorem filter_name (ks : List Xml) (n : Text) : (ks.filter fun k => k.name == n) = ks.filter fun k => decide (k.name = n) :=
  List.filter_congr fun k _ => by rw [Bool.beq_eq_decide_eq]

theorem hasId_rpId {x : Xml} {n : Nat} (h : HasId x n) : rpId x = some n := by
  obtain ⟨k, h1, h2, h3, h4, h5⟩ := h
  rw [rpId, childText_first h1, stoul_digits h2 h3 (by omega), h4]

theorem refs : (∀ s ∈ ["Prellbock".toList, "Betriebsstellengrenze".toList, "Gleisende".toList, "KmSprungAnfang".toList,
      "Weichenanfang".toList, "KreuzungAnfangLinks".toList, "KreuzungsweicheAnfangLinks".toList, "Streckenwechsel0".toList],
      switchHash s mainCases = some .self) ∧
    (∀ s ∈ ["KmSprungEnde".toList, "Streckenwechsel1".toList], switchHash s mainCases = some .partnerNode) ∧
    (∀ s ∈ ["Weichenstamm".toList, "WeichenabzweigLinks".toList, "WeichenabzweigRechts".toList],
      switchHash s mainCases = some .partner) ∧
    (∀ s ∈ ["KreuzungEndeLinks".toList, "KreuzungsweicheEndeLinks".toList], switchHash s mainCases = some .neighbour) ∧
    (∀ s ∈ ["KreuzungAnfangRechts".toList, "KreuzungEndeRechts".toList, "KreuzungsweicheAnfangRechts".toList,
      "KreuzungsweicheEndeRechts".toList], switchHash s mainCases = some .mainNode) := by decide +kernel

/-- C156: statistics and parser find in the documents what they say: the sections of all stations, in order, and of every node its
number and the number of its main node. -/
theorem C156_documents :
    (∀ (ds : List Xml) (sss : List (List Xml)), List.Forall₂ FileHas ds sss →
      allSections (ds.map some) = some sss.flatten) ∧
    (∀ d sts, HasStations d sts → stations d = sts) ∧
    (∀ s ns, Members s "Spurplanknoten".toList ns → nodes s = ns) ∧
    (∀ x n, HasId x n → rpId x = some n) ∧ ∀ x n, HasMain x n → mainId x = some n := by
  have hst : ∀ d sts, HasStations d sts → stations d = sts := by
    rintro d sts ⟨iss, ks, h1, h2, rfl⟩
    rw [stations, child_first h1, kids_members h2, filter_name]
  have hse : ∀ st ss, HasSections st ss → sections st = ss := by
    rintro st ss ⟨ks, h1, rfl⟩
    rw [sections, kids_members h1, filter_name]
  refine ⟨?_, hst, fun s ns h => kids_members h, fun x n => hasId_rpId, ?_⟩
  · intro ds sss h
    induction h with
    | nil => rfl
    | cons h _ ih =>
      obtain ⟨sts, secs, h1, h2, rfl⟩ := h
      have : sts.flatMap sections = secs.flatten := by
        clear h1
        induction h2 with
        | nil => rfl
        | cons h _ ih => rw [List.flatMap_cons, List.flatten_cons, hse _ _ h, ih]
      rw [List.map_cons, allSections, ih, hst _ _ h1, this]
      rfl
  · rintro x n (⟨h1, h2⟩ | ⟨h1, h2⟩ | ⟨h1, h2⟩ | ⟨h1, h2⟩ | ⟨h1, h2⟩)
    · rw [mainId, refs.1 _ h1]
      exact hasId_rpId h2
    · rw [mainId, refs.2.1 _ h1]
      exact (says_node h2).1
    · rw [mainId, refs.2.2.1 _ h1]
      exact (says_node h2).1
    · rw [mainId, refs.2.2.2.1 _ h1]
      exact (says_node h2).1
    · rw [mainId, refs.2.2.2.2 _ h1]
      exact (says_node h2).1

/-! ### Example data -/

def exNode (n id : String) (more : List Xml) : Xml := .node n.toList [] [] (leaf "ID" id :: more)

def exSection (ns : List Xml) : Xml :=
  .node "Spurplanabschnitt".toList [] [] [.node "Spurplanknoten".toList [] [] ns]

/-- a track with a bumper, two signals and a kilometrage jump, behind it a tunnel and a border; an unknown node -/
def exSections : List Xml :=
  [exSection [exNode "Prellbock" "1" [], exNode "HauptsignalS" "2" [], exNode "HauptsignalF" "3" [], exNode "Unbekannt" "x" [],
     exNode "KmSprungAnfang" "4" []],
   exSection [exNode "KmSprungEnde" "5" [.node "Partnerknoten".toList [("ID".toList, "4".toList)] [] []], exNode "Tunnel" "6" [],
     exNode "Betriebsstellengrenze" "7" []],
   exSection [exNode "Betriebsstellengrenze" "8" [], exNode "Prellbock" "9" []]]

def exFile (ss : List Xml) : Option Xml :=
  some (.node [] [] [] [.node "XmlIssDaten".toList [] [] [.node "Spurplanbetriebsstellen".toList [] []
    [.node "Spurplanbetriebsstelle".toList [] [] [.node "Spurplanabschnitte".toList [] [] ss]]]])

theorem exSections_id : ∀ x ∈ exSections.flatMap known, ((rpId x).any fun i => decide (i < 2 ^ 64 - 1)) = true := by decide +kernel

theorem exSections_fit : PlanFit exSections where
  sec := by
    intro s hs
    simp only [exSections, List.mem_cons, List.not_mem_nil, or_false] at hs
    have key : ∀ x y : Xml, ∀ ns : List Xml, (∀ z ∈ [x, y], getType z.name ≠ .invalid ∧ isTrackElement (getType z.name) = false) →
        (∀ z ∈ ns, getType z.name = .invalid ∨ isTrackElement (getType z.name) = true) → SectionFit (exSection (x :: ns ++ [y])) := by
      intro x y ns h1 h2
      refine ⟨x, ns, y, rfl, fun z hz => h1 z (by simpa using hz), h2⟩
    rcases hs with rfl | rfl | rfl
    · exact key _ _ [_, _, _] (by decide +kernel) (by decide +kernel)
    · exact key _ _ [_] (by decide +kernel) (by decide +kernel)
    · exact key _ _ [] (by decide +kernel) (by decide +kernel)
  id := by
    intro x hx
    have := exSections_id x hx
    rw [Option.any_eq_true] at this
    obtain ⟨i, h1, h2⟩ := this
    exact ⟨i, h1, by simpa using h2⟩
  uniq := by decide +kernel
  main := by decide +kernel
  share := by decide +kernel

/-- a file with a station without and one with sections, between other children -/
example : FileHas (.node [] [] [] [leaf "a" "b", .node "XmlIssDaten".toList [] [] [.node "Spurplanbetriebsstellen".toList [] []
      [.node "Spurplanbetriebsstelle".toList [] [] [], leaf "x" "y",
       .node "Spurplanbetriebsstelle".toList [] [] [.node "Spurplanabschnitte".toList [] [] exSections]]]]) exSections := by
  exact ⟨_, [[], exSections], ⟨_, _, ⟨[_], [], rfl, rfl, by decide⟩, .inl ⟨_, ⟨[], [], rfl, rfl, by simp⟩, rfl⟩, rfl⟩,
    .cons ⟨[], .inr ⟨by simp [Lacks, Xml.kids], rfl⟩, rfl⟩ (.cons ⟨_, .inl ⟨_, ⟨[], [], rfl, rfl, by simp⟩, rfl⟩, rfl⟩ .nil), by simp⟩
example : HasId (exNode "KmSprungEnde" "5" [.node "Partnerknoten".toList [("ID".toList, "4".toList)] [] []]) 5 ∧
    HasMain (exNode "KmSprungEnde" "5" [.node "Partnerknoten".toList [("ID".toList, "4".toList)] [] []]) 4 :=
  ⟨⟨_, ⟨[], _, rfl, rfl, by simp⟩, by decide, (by unfold ParseFp.AllDigits; decide), by decide, by decide⟩,
    .inr (.inl ⟨by decide, _, _, ⟨[leaf "ID" "5"], [], rfl, rfl, by decide⟩, ⟨[], [], rfl, by simp⟩, by decide,
      (by unfold ParseFp.AllDigits; decide), by decide, by decide⟩)⟩

/-- the plan of the example is well-formed, and its statistics are not trivial -/
example : allSections [exFile exSections] = some exSections ∧ PlanFit exSections ∧
    ((getInfraStats [exFile exSections]).map fun st => [st.number .bumper, st.number .border, st.number .kmJump, st.number .mainSignal,
      st.number .tunnel, st.stations, st.sections]) = some [2, 2, 1, 2, 1, 1, 4] :=
  ⟨rfl, exSections_fit, by decide +kernel⟩

/-- the borders of the example lead to each other or to unknown stations -/
example : Infra.BordersFit (Infra.resolveBorders (fun n => if n < 2 then some n else none)
      [⟨0, 1, 5, 7, 1, false⟩, ⟨1, 0, 6, 7, 1, true⟩]) ∧
    Infra.BordersFit (Infra.resolveBorders (fun _ => none) [⟨0, 1, 5, 7, 1, false⟩, ⟨1, 2, 6, 7, 1, true⟩]) ∧
    ((exSections.flatMap nodes).filter fun x => getType x.name = .border).length = 2 :=
  ⟨⟨by decide, by decide, by decide, by decide⟩, ⟨by decide, by decide, by decide, by decide⟩, by decide +kernel⟩

end Soro.InfraStats
