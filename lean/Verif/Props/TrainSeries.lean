import Verif.Proof.TrainSeries

/-! Vehicles and default values of the core data files: C149, C150, C151. -/

namespace Soro.TrainSeries
open Utls Utls.Spec TypeNames ParseFp IssElement IssFiles

/-! ### Example data -/

theorem exInt (s : String) (h : s.toList ≠ [] ∧ s.toList.all Char.isDigit = true) {q : Rat} (hq : (value s.toList : Rat) = q) :
    Decimal [',', '.'] s.toList q :=
  ⟨false, s.toList, [], h.1, List.all_eq_true.1 h.2, by simp [AllDigits], .inl ⟨rfl, by simp⟩, by simp [value, hq]⟩

theorem exFirst {x k : Xml} {n : Text} (pre post : List Xml) (h : x.kids = pre ++ k :: post) (hk : k.name = n)
    (hp : pre.all (fun p => p.name != n) = true) : First x n k :=
  ⟨pre, post, h, hk, fun p hm => by simpa using List.all_eq_true.1 hp p hm⟩

theorem exNumber {x : Xml} (n s : String) (pre post : List Xml) (h : x.kids = pre ++ leaf n s :: post)
    (hp : pre.all (fun p => p.name != n.toList) = true) (hs : s.toList ≠ [] ∧ s.toList.all Char.isDigit = true) {q : Rat}
    (hq : (value s.toList : Rat) = q) : SaysNumber x n.toList q :=
  ⟨_, exFirst pre post h rfl hp, exInt s hs hq⟩

def exForce (lo hi a b c : String) : Xml :=
  .node "Zugkraftfaktor".toList [] [] [leaf "GeschwindigkeitVon" lo, leaf "GeschwindigkeitBis" hi, leaf "Faktor1" a,
    leaf "Faktor2" b, leaf "Faktor3" c]

theorem exForce_says (lo hi a b c : String) {l h x y z : Rat} (H : ∀ s ∈ [lo, hi, a, b, c], s.toList ≠ [] ∧ s.toList.all Char.isDigit = true)
    (hl : (value lo.toList : Rat) = l) (hh : (value hi.toList : Rat) = h) (hx : (value a.toList : Rat) = x)
    (hy : (value b.toList : Rat) = y) (hz : (value c.toList : Rat) = z) : SaysForce (exForce lo hi a b c) ⟨l, h, x, y, z⟩ :=
  ⟨exNumber "GeschwindigkeitVon" lo [] _ rfl rfl (H _ (by simp)) hl, exNumber "GeschwindigkeitBis" hi [_] _ rfl rfl (H _ (by simp)) hh,
   exNumber "Faktor1" a [_, _] _ rfl rfl (H _ (by simp)) hx, exNumber "Faktor2" b [_, _, _] _ rfl rfl (H _ (by simp)) hy,
   exNumber "Faktor3" c [_, _, _, _] _ rfl rfl (H _ (by simp)) hz⟩

/-- a variant of 80 tons: 300 kN up to 50 km/h, then 250 + 1 v kN from the given speed up to 120 km/h -/
def exVariant (lo : String) : Xml :=
  .node "Triebfahrzeugbaureihenvariante".toList [] [] [leaf "Variante" "3", leaf "Bezeichnung" "BR 101", leaf "EigenGewicht" "80",
    leaf "ZulaessigeGeschwindigkeit" "160", leaf "Laufwiderstandsfaktor1" "1", leaf "Laufwiderstandsfaktor2" "2",
    leaf "Laufwiderstandsfaktor3" "3", .node "Stromartausruestungen".toList [] [] [.node "Stromartausruestung".toList [] []
      [.node "Zugkraftfaktoren".toList [] [] [exForce "0" "50" "300" "0" "0", exForce lo "120" "250" "1" "0"]]]]

def exDescribed (lo : Rat) : Described := ⟨3, "BR 101".toList, 80, 160, 1, 2, 3, [⟨0, 50, 300, 0, 0⟩, ⟨lo, 120, 250, 1, 0⟩]⟩

theorem exVariant_says (lo : String) (h : lo.toList ≠ [] ∧ lo.toList.all Char.isDigit = true) {l : Rat} (hl : (value lo.toList : Rat) = l) :
    SaysVariant (exVariant lo) (exDescribed l) := by
  refine ⟨⟨"3".toList, .inl ⟨leaf "Variante" "3", exFirst [] _ rfl rfl rfl, rfl⟩, ?_⟩, show (3 : Nat) < 2 ^ 32 by decide,
    .inl ⟨leaf "Bezeichnung" "BR 101", exFirst [_] _ rfl rfl (by decide), rfl⟩,
    exNumber "EigenGewicht" "80" [_, _] _ rfl (by decide) (by decide) (q := 80) (by decide +kernel),
    exNumber "ZulaessigeGeschwindigkeit" "160" [_, _, _] _ rfl (by decide) (by decide) (q := 160) (by decide +kernel),
    exNumber "Laufwiderstandsfaktor1" "1" [_, _, _, _] _ rfl (by decide) (by decide) (q := 1) (by decide +kernel),
    exNumber "Laufwiderstandsfaktor2" "2" [_, _, _, _, _] _ rfl (by decide) (by decide) (q := 2) (by decide +kernel),
    exNumber "Laufwiderstandsfaktor3" "3" [_, _, _, _, _, _] _ rfl (by decide) (by decide) (q := 3) (by decide +kernel),
    [exForce "0" "50" "300" "0" "0", exForce lo "120" "250" "1" "0"],
    .inl ⟨_, exFirst [_, _, _, _, _, _, _] [] rfl rfl (by decide), .inl ⟨_, exFirst [] [] rfl rfl rfl, .inl ⟨_, exFirst [] [] rfl rfl rfl, rfl⟩⟩⟩, ?_⟩
  · unfold Writes AllDigits
    exact ⟨by decide, by decide, show value "3".toList = 3 by decide +kernel⟩
  · refine .cons (exForce_says "0" "50" "300" "0" "0" (by decide) (by decide +kernel) (by decide +kernel) (by decide +kernel)
      (by decide +kernel) (by decide +kernel)) (.cons (exForce_says lo "120" "250" "1" "0" ?_ hl (by decide +kernel) (by decide +kernel)
      (by decide +kernel) (by decide +kernel)) .nil)
    intro s hs
    simp only [List.mem_cons, List.not_mem_nil, or_false] at hs
    rcases hs with rfl | rfl | rfl | rfl | rfl
    · exact h
    all_goals decide

theorem exUsable : (exDescribed 50).Usable ∧ ¬ (exDescribed 60).Usable := by
  refine ⟨⟨by simp [exDescribed], ?_⟩, fun h => ?_⟩
  · simp only [exDescribed, Consecutive, List.head?_cons, List.head?_nil, Option.mem_def, Option.some.injEq]
    refine ⟨?_, ?_, trivial⟩
    · rintro g rfl; norm_num
    · rintro g ⟨⟩
  · have := h.2.1 ⟨60, 120, 250, 1, 0⟩ rfl
    norm_num at this

/-! ### C149: Forces of a vehicle are those of the core data, in SI units -/

/-- A variant whose tractive forces follow each other is read as a vehicle that has, at every speed of `s` km/h, the tractive
force of the piece for this speed in newtons, none from the end of the last piece on, and the running resistance of the data;
any other variant is read without a vehicle. -/
theorem C149_forces {x : Xml} {d : Described} (h : SaysVariant x d) :
    (d.Usable → ∃ v, variant x = some (d.id, some v) ∧ Matches d v ∧ v.physics.deceleration = -7 / 10) ∧
    (¬ d.Usable → variant x = some (d.id, none)) := by
  obtain ⟨⟨rid, rv⟩, h1, h2, h3, h4⟩ := variant_says h
  simp only at h2 h3 h4
  subst h2
  refine ⟨fun hu => ?_, fun hu => ?_⟩
  · obtain ⟨v, rfl, hv⟩ := h3 hu
    exact ⟨v, h1, hv⟩
  · rw [h1, h4 hu]

example : SaysVariant (exVariant "50") (exDescribed 50) ∧ (exDescribed 50).Usable ∧ SaysVariant (exVariant "60") (exDescribed 60) ∧
    ¬ (exDescribed 60).Usable ∧ ForceAt (exDescribed 50).forces 60 ⟨50, 120, 250, 1, 0⟩ ∧ (⟨50, 120, 250, 1, 0⟩ : Force).at 60 = 310000 := by
  refine ⟨exVariant_says _ (by decide) (by decide +kernel), exUsable.1, exVariant_says _ (by decide) (by decide +kernel), exUsable.2,
    ⟨[_], [], rfl, by norm_num, ?_⟩, ?_⟩
  · simp only [List.mem_singleton]; rintro g rfl; norm_num
  · simp only [Force.at]; norm_num

/-! ### C150: Vehicles are found by series, owner and variant -/

theorem core_reads {docs : List Xml} {ss : List DescribedSeries} (h : SaysAllSeries docs ss) (dv : Option Defaults) (m : Text → Option Series) :
    ∃ rs, List.Forall₂ ReadsSeries ss rs ∧
      coreData (docs.map some) dv m = (addSeries rs m).map fun m => (docs.foldl (fun dv d => step d dv) dv, m) := by
  obtain ⟨ks, ⟨kss, h1, rfl⟩, h2⟩ := h
  obtain ⟨rs, h3, h4⟩ := all_series_say h2
  exact ⟨rs, h4, coreData_series h1 h3 dv m⟩

theorem reads_keys {ss : List DescribedSeries} {rs : List Series} (h : List.Forall₂ ReadsSeries ss rs) :
    rs.map Series.key = ss.map fun s => s.nr ++ '-' :: s.company := by
  induction h with
  | nil => rfl
  | cons h _ ih => rw [List.map_cons, List.map_cons, ih, Series.key, h.1, h.2.1]

theorem reads_mem {ss : List DescribedSeries} {rs : List Series} (h : List.Forall₂ ReadsSeries ss rs) {s : DescribedSeries}
    (hs : s ∈ ss) : ∃ r ∈ rs, ReadsSeries s r := by
  induction h with
  | nil => cases hs
  | cons h _ ih =>
    rcases List.mem_cons.1 hs with rfl | hs
    · exact ⟨_, by simp, h⟩
    · obtain ⟨r, h1, h2⟩ := ih hs
      exact ⟨r, List.mem_cons_of_mem _ h1, h2⟩

theorem keys_nodup {ss : List DescribedSeries} (hd : (ss.map fun s => (s.nr, s.company)).Nodup) (hn : ∀ s ∈ ss, '-' ∉ s.nr) :
    (ss.map fun s => s.nr ++ '-' :: s.company).Nodup := by
  induction ss with
  | nil => exact List.nodup_nil
  | cons s ss ih =>
    rw [List.map_cons, List.nodup_cons] at hd ⊢
    refine ⟨fun hm => ?_, ih hd.2 fun t ht => hn t (List.mem_cons_of_mem _ ht)⟩
    obtain ⟨t, ht, he⟩ := List.mem_map.1 hm
    obtain ⟨e1, e2⟩ := key_inj he (hn t (List.mem_cons_of_mem _ ht)) (hn s (by simp))
    exact hd.1 (List.mem_map.2 ⟨t, ht, by rw [e1, e2]⟩)

theorem lookup_shows {m : Text → Option Series} {vn vo : View} {nr owner : Text} (h1 : Shows vn nr) (h2 : Shows vo owner) (n : Nat) :
    getTractionVehicle m vn vo n = some ((m (nr ++ '-' :: owner)).bind fun s => s.variants n) := by
  rw [getTractionVehicle, dataText_shows h1.1 h1.2.1, dataText_shows h2.1 h2.2.1]

/-- Series numbers without a hyphen and views that are followed by a zero: the core data are read, and for each series number,
owner and variant the vehicle of the first usable variant of this series is found, with its forces; nothing is found for other
variants, numbers and owners. Missing: series numbers with a hyphen and views into longer texts (the negations below). -/
theorem C150_lookup_partial {docs : List Xml} {ss : List DescribedSeries} (h : SaysAllSeries docs ss)
    (hd : (ss.map fun s => (s.nr, s.company)).Nodup) (hn : ∀ s ∈ ss, '-' ∉ s.nr) :
    ∃ dv m, coreData (docs.map some) none (fun _ => none) = some (dv, m) ∧
      ∀ vn vo nr owner n, Shows vn nr → Shows vo owner → '-' ∉ nr →
        (∀ s ∈ ss, s.nr = nr → s.company = owner →
          (∀ d, FirstUsable s.variants n d → ∃ v, getTractionVehicle m vn vo n = some (some v) ∧ Matches d v) ∧
          ((∀ d ∈ s.variants, d.id = n → ¬ d.Usable) → getTractionVehicle m vn vo n = some none)) ∧
        ((∀ s ∈ ss, s.nr = nr → s.company ≠ owner) → getTractionVehicle m vn vo n = some none) := by
  obtain ⟨rs, h1, h2⟩ := core_reads h none fun _ => none
  have hk := reads_keys h1
  obtain ⟨m, h3, h4, h5⟩ := addSeries_spec rs (fun _ => none) (fun _ _ => rfl) (by rw [hk]; exact keys_nodup hd hn)
  refine ⟨_, m, by rw [h2, h3]; rfl, fun vn vo nr owner n s1 s2 hnr => ⟨fun s hs e1 e2 => ?_, fun hno => ?_⟩⟩
  · obtain ⟨r, hr, e3, e4, hv⟩ := reads_mem h1 hs
    have hm := h4 r hr
    rw [Series.key, e3, e4, e1, e2] at hm
    rw [lookup_shows s1 s2, hm, Option.bind_some]
    refine ⟨fun d hu => ?_, fun hu => by rw [(hv n).2 hu]⟩
    obtain ⟨w, e5, e6, _⟩ := (hv n).1 d hu
    exact ⟨w, by rw [e5], e6⟩
  · rw [lookup_shows s1 s2, h5]
    · rfl
    · rw [hk]
      intro hm
      obtain ⟨t, ht, he⟩ := List.mem_map.1 hm
      obtain ⟨e1, e2⟩ := key_inj he (hn t ht) hnr
      exact hno t ht e1 e2

/-- Two series with the same number and company: the core data are rejected. -/
theorem C150_repeated {docs : List Xml} {ss : List DescribedSeries} (h : SaysAllSeries docs ss)
    (hd : ¬ (ss.map fun s => (s.nr, s.company)).Nodup) : coreData (docs.map some) none (fun _ => none) = none := by
  obtain ⟨rs, h1, h2⟩ := core_reads h none fun _ => none
  rw [h2]
  cases h3 : addSeries rs (fun _ => none) with
  | none => rfl
  | some m =>
    have := addSeries_nodup rs h3
    rw [reads_keys h1] at this
    have he : (ss.map fun s => s.nr ++ '-' :: s.company) = (ss.map fun s => (s.nr, s.company)).map fun p => p.1 ++ '-' :: p.2 := by
      rw [List.map_map]; rfl
    rw [he] at this
    exact absurd this.of_map hd

/-- Code violation: number and company are joined by a hyphen, so series `a-b` of company `c` is also found as series `a` of company
`b-c`, and if both exist the core data are rejected although their numbers and companies differ. -/
theorem C150_ambiguous_negation (a b c : Text) :
    (∀ m n va vbc vab vc, Shows va a → Shows vbc (b ++ '-' :: c) → Shows vab (a ++ '-' :: b) → Shows vc c →
      getTractionVehicle m va vbc n = getTractionVehicle m vab vc n) ∧
    (∀ docs ss s t, SaysAllSeries docs ss → [s, t].Sublist ss → s.nr = a ++ '-' :: b → s.company = c → t.nr = a → t.company = b ++ '-' :: c →
      coreData (docs.map some) none (fun _ => none) = none) := by
  refine ⟨fun m n va vbc vab vc h1 h2 h3 h4 => ?_, fun docs ss s t h hsub e1 e2 e3 e4 => ?_⟩
  · rw [lookup_shows h1 h2, lookup_shows h3 h4, List.append_assoc, List.cons_append]
  · obtain ⟨rs, h1, h2⟩ := core_reads h none fun _ => none
    rw [h2]
    cases h3 : addSeries rs (fun _ => none) with
    | none => rfl
    | some m =>
      have hnd := addSeries_nodup rs h3
      rw [reads_keys h1] at hnd
      have := hnd.sublist (hsub.map _)
      rw [List.map_cons, List.map_cons, List.nodup_cons, e1, e2, e3, e4] at this
      exact absurd (by simp) this.1

/-- Code violation: only the address of a view is used, not its size. A view of a part of a text finds the series of the longer text. -/
theorem C150_view_negation {m : Text → Option Series} {vn wn vo wo : View} {nr more owner : Text} (h1 : vn.mem = wn.mem)
    (hs : Shows wn (nr ++ more)) (h2 : vo.mem = wo.mem) (ho : Shows wo owner) (n : Nat) :
    getTractionVehicle m vn vo n = getTractionVehicle m wn wo n ∧
    getTractionVehicle m vn vo n = some ((m (nr ++ more ++ '-' :: owner)).bind fun s => s.variants n) := by
  have e : getTractionVehicle m vn vo n = getTractionVehicle m wn wo n := by
    rw [getTractionVehicle, getTractionVehicle, dataText, dataText, dataText, dataText, h1, h2]
  exact ⟨e, by rw [e, lookup_shows hs ho]⟩

def exSeries (nr company : String) : Xml :=
  .node "Triebfahrzeugbaureihe".toList [] [] [leaf "Nr" nr, .node "Eisenbahnunternehmen".toList [("Nr".toList, company.toList)] [] [],
    .node "Triebfahrzeugbaureihenvarianten".toList [] [] [exVariant "60", exVariant "50"]]

def exDescribedSeries (nr company : String) : DescribedSeries := ⟨nr.toList, company.toList, [exDescribed 60, exDescribed 50]⟩

theorem exSeries_says (nr company : String) : SaysSeries (exSeries nr company) (exDescribedSeries nr company) :=
  ⟨.inl ⟨leaf "Nr" nr, exFirst [] _ rfl rfl rfl, rfl⟩, ⟨_, exFirst [_] _ rfl rfl rfl, [], [], rfl, by simp⟩,
    [exVariant "60", exVariant "50"], .inl ⟨_, exFirst [_, _] [] rfl rfl rfl, rfl⟩,
    .cons (exVariant_says _ (by decide) (by decide +kernel)) (.cons (exVariant_says _ (by decide) (by decide +kernel)) .nil)⟩

def exCore (ss : List Xml) (defaults : List Xml) : Xml :=
  .node [] [] [] [.node "XmlIssDaten".toList [] [] [.node "Stammdaten".toList [] []
    (.node "Triebfahrzeugbaureihen".toList [] [] ss :: defaults)]]

theorem exCore_says (a b c d : String) : SaysAllSeries [exCore [exSeries a b, exSeries c d] []] [exDescribedSeries a b, exDescribedSeries c d] :=
  ⟨[exSeries a b, exSeries c d], ⟨[_], .cons (.inl ⟨_, exFirst [] [] rfl rfl rfl, .inl ⟨_, exFirst [] [] rfl rfl rfl,
    .inl ⟨_, exFirst [] [] rfl rfl rfl, rfl⟩⟩⟩) .nil, rfl⟩, .cons (exSeries_says a b) (.cons (exSeries_says c d) .nil)⟩

def exView (mem : String) (size : Nat) : View := ⟨mem.toList ++ ['\x00'], size⟩

example : SaysAllSeries [exCore [exSeries "101" "DB", exSeries "101" "NX"] []] [exDescribedSeries "101" "DB", exDescribedSeries "101" "NX"] ∧
    ([exDescribedSeries "101" "DB", exDescribedSeries "101" "NX"].map fun s => (s.nr, s.company)).Nodup ∧
    (∀ s ∈ [exDescribedSeries "101" "DB", exDescribedSeries "101" "NX"], '-' ∉ s.nr) ∧
    Shows (exView "101" 3) "101".toList ∧ FirstUsable (exDescribedSeries "101" "NX").variants 3 (exDescribed 50) ∧
    ¬ ([exDescribedSeries "101" "DB", exDescribedSeries "101" "DB"].map fun s => (s.nr, s.company)).Nodup := by
  refine ⟨exCore_says _ _ _ _, by decide, by decide, ⟨⟨[], rfl⟩, by decide, rfl⟩, ⟨[_], [], rfl, rfl, exUsable.1, ?_⟩, by decide⟩
  simp only [List.mem_singleton]
  rintro p rfl
  exact .inr exUsable.2

example : SaysAllSeries [exCore [exSeries "1-2" "3", exSeries "1" "2-3"] []] [exDescribedSeries "1-2" "3", exDescribedSeries "1" "2-3"] ∧
    (exDescribedSeries "1-2" "3").nr = "1".toList ++ '-' :: "2".toList ∧ (exDescribedSeries "1" "2-3").company = "2".toList ++ '-' :: "3".toList ∧
    Shows (exView "1-2" 3) ("1".toList ++ '-' :: "2".toList) ∧ (exView "1-2" 1).mem = (exView "1-2" 3).mem ∧
    Shows (exView "1-2" 3) ("1".toList ++ "-2".toList) :=
  ⟨exCore_says _ _ _ _, rfl, rfl, ⟨⟨[], rfl⟩, by decide, rfl⟩, rfl, ⟨⟨[], rfl⟩, by decide, rfl⟩⟩

/-! ### C151: Default values are those of the last core data file that has them -/

theorem step_says {d x : Xml} (h : SaysDefaults d x) (dv : Option Defaults) : step d dv = some (parseDefaults x) := by
  obtain ⟨a, b, h1, h2, h3⟩ := h
  rw [step, child_first h1, child_first h2, child_first h3]

theorem step_lacks {d : Xml} (h : LacksDefaults d) (dv : Option Defaults) : step d dv = dv := by
  have e : child (child (child (some d) "XmlIssDaten".toList) "Stammdaten".toList) "Standardwerte".toList = none := by
    rcases h with h | ⟨a, h1, h | ⟨b, h2, h⟩⟩
    · rw [child_lacks h]; rfl
    · rw [child_first h1, child_lacks h]; rfl
    · rw [child_first h1, child_first h2, child_lacks h]
  rw [step, e]

theorem steps_lack {ds : List Xml} (h : ∀ d ∈ ds, LacksDefaults d) (dv : Option Defaults) : ds.foldl (fun dv d => step d dv) dv = dv := by
  induction ds generalizing dv with
  | nil => rfl
  | cons d ds ih => rw [List.foldl_cons, step_lacks (h d (by simp)), ih fun e he => h e (List.mem_cons_of_mem _ he)]

theorem core_defaults (docs : List Xml) (dv dv' : Option Defaults) (m m' : Text → Option Series)
    (h : coreData (docs.map some) dv m = some (dv', m')) : dv' = docs.foldl (fun dv d => step d dv) dv := by
  induction docs generalizing dv m with
  | nil => cases h; rfl
  | cons d docs ih =>
    rw [List.map_cons, coreData_cons] at h
    obtain ⟨m1, _, h2⟩ := Option.bind_eq_some_iff.1 h
    exact ih _ _ h2

/-- The default values are those of the last document that has them: the class as written, the route formation time, the brake path,
and the speed limit (written with a point, or without decimals) in metres per second. Documents without default values leave
them invalid. Missing: speed limits written with a comma (negation below). -/
theorem C151_defaults_partial {docs : List Xml} {dv : Option Defaults} {m : Text → Option Series}
    (h : coreData (docs.map some) none (fun _ => none) = some (dv, m)) :
    (∀ pre d post x, docs = pre ++ d :: post → SaysDefaults d x → (∀ p ∈ post, LacksDefaults p) →
      ∃ D, dv = some D ∧ (∀ c, SaysText x "Streckenklasse".toList c → D.lineClass = c) ∧
        (∀ q, SaysNumber x "Fahrstrassenbildezeit".toList q → D.routeFormTime = some q) ∧
        (∀ q, SaysNumber x "BremswegArt".toList q → D.brakePath = some q) ∧
        (∀ k q, First x "ZulaessigeOrtsfesteGeschwindigkeit".toList k → Decimal ['.'] k.text q → D.speedLimit = some (q / (18 / 5)))) ∧
    ((∀ d ∈ docs, LacksDefaults d) → dv = none) := by
  have hdv := core_defaults docs _ _ _ _ h
  refine ⟨fun pre d post x e hx hp => ?_, fun hl => by rw [hdv, steps_lack hl]⟩
  rw [e, List.foldl_append, List.foldl_cons, step_says hx, steps_lack hp] at hdv
  refine ⟨_, hdv, fun c hc => childText_says hc, fun q hq => number_says hq, fun q hq => number_says hq, fun k q hk hq => ?_⟩
  show fromKmH (parseFp false (childText (some x) _)) = _
  rw [childText_first hk, C139_decimal_partial.2 hq, fromKmH_some]

/-- Code violation: the decimals of a speed limit written with a comma, as all other numbers are, are dropped. -/
theorem C151_speed_limit_negation {docs pre post : List Xml} {d x k : Xml} {dv : Option Defaults} {m : Text → Option Series}
    (h : coreData (docs.map some) none (fun _ => none) = some (dv, m)) (e : docs = pre ++ d :: post) (hx : SaysDefaults d x)
    (hp : ∀ p ∈ post, LacksDefaults p) (hk : First x "ZulaessigeOrtsfesteGeschwindigkeit".toList k) {ip fp : Text} (hne : ip ≠ [])
    (hi : AllDigits ip) (ht : k.text = ip ++ ',' :: fp) (hf : AllDigits fp) (hv : value fp ≠ 0) :
    ∃ D q, dv = some D ∧ Decimal [',', '.'] k.text q ∧ D.speedLimit = some ((value ip : Rat) / (18 / 5)) ∧ (value ip : Rat) < q := by
  have hdv := core_defaults docs _ _ _ _ h
  rw [e, List.foldl_append, List.foldl_cons, step_says hx, steps_lack hp] at hdv
  refine ⟨_, _, hdv, ⟨false, ip, fp, hne, hi, hf, .inr ⟨',', by simp, by simp [ht]⟩, rfl⟩, ?_, ?_⟩
  · show fromKmH (parseFp false (childText (some x) _)) = _
    rw [childText_first hk, ht, C139_garbage_negation.2.2.1 ip fp hne hi, fromKmH_some]
  · have h1 : (0 : Rat) < value fp := by exact_mod_cast Nat.pos_of_ne_zero hv
    have h2 : (0 : Rat) < ((10 ^ fp.length : Nat) : Rat) := by exact_mod_cast Nat.pow_pos (by norm_num)
    have := div_pos h1 h2
    simp only [Bool.false_eq_true, if_false, one_mul]
    linarith

def exDefaults (speed : String) : Xml :=
  .node "Standardwerte".toList [] [] [leaf "Streckenklasse" "D4", leaf "Fahrstrassenbildezeit" "12", leaf "BremswegArt" "1000",
    leaf "ZulaessigeOrtsfesteGeschwindigkeit" speed]

theorem exDefaults_says (ss : List Xml) (speed : String) : SaysDefaults (exCore ss [exDefaults speed]) (exDefaults speed) :=
  ⟨_, _, exFirst [] [] rfl rfl rfl, exFirst [] [] rfl rfl rfl, exFirst [_] [] rfl rfl (by
    rw [List.all_cons, List.all_nil, Bool.and_true, bne_iff_ne]; show "Triebfahrzeugbaureihen".toList ≠ _; decide)⟩

example : (∃ p, coreData ([exCore [] [exDefaults "40"], exCore [] [exDefaults "99,5"], exCore [] []].map some) none (fun _ => none) = some p) ∧
    SaysDefaults (exCore [] [exDefaults "99,5"]) (exDefaults "99,5") ∧ LacksDefaults (exCore [] []) ∧
    SaysText (exDefaults "99,5") "Streckenklasse".toList "D4".toList ∧ SaysNumber (exDefaults "99,5") "Fahrstrassenbildezeit".toList 12 ∧
    First (exDefaults "99,5") "ZulaessigeOrtsfesteGeschwindigkeit".toList (leaf "ZulaessigeOrtsfesteGeschwindigkeit" "99,5") ∧
    (leaf "ZulaessigeOrtsfesteGeschwindigkeit" "99,5").text = "99".toList ++ ',' :: "5".toList ∧ value "5".toList ≠ 0 := by
  refine ⟨⟨_, rfl⟩, exDefaults_says _ _, .inr ⟨_, exFirst [] [] rfl rfl rfl, .inr ⟨_, exFirst [] [] rfl rfl rfl, ?_⟩⟩,
    .inl ⟨leaf "Streckenklasse" "D4", exFirst [] _ rfl rfl rfl, rfl⟩,
    exNumber "Fahrstrassenbildezeit" "12" [_] _ rfl (by decide) (by decide) (by decide +kernel), exFirst [_, _, _] [] rfl rfl (by decide), rfl, by decide⟩
  intro p hp
  rw [show (Xml.node "Stammdaten".toList [] [] [Xml.node "Triebfahrzeugbaureihen".toList [] [] []]).kids =
    [Xml.node "Triebfahrzeugbaureihen".toList [] [] []] from rfl, List.mem_singleton] at hp
  subst hp
  show "Triebfahrzeugbaureihen".toList ≠ _
  decide

end Soro.TrainSeries
