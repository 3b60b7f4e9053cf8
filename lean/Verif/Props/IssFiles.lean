import Verif.Proof.IssFiles
import Verif.Props.IssElement

/-! Properties C144–C148: files of an infrastructure, names, lines and coordinates of stations. -/

namespace Soro
open Utls Utls.Spec TypeNames ParseFp IssElement IssFiles

/-! ### C144 -/

/-- C144 for directories: the files of a category are those listed in the index whose names begin with the name of the category,
in the order of the index. -/
theorem C144_directory_partial {fs : Files} {dir : Path} {index : Xml} {names : List Text} (hd : fs dir = some .dir)
    (hi : fs (dir ++ ["Index.xml".toList]) = some (.file (some index))) (ha : ∀ n, n ≠ [] → filename dir ≠ n ++ ".iss".toList)
    (hx : filename dir ≠ "Index.xml".toList) (hl : Lists index names) (hp : ∀ n ∈ names, Plain n)
    (hf : ∀ n ∈ names, ∃ d, fs (dir ++ [n]) = some (.file d)) :
    ∃ s, getIssFiles fs dir = some s ∧ s.index = index ∧ ∀ c : Category,
      (c.files s).map Prod.fst = (names.filter fun n => decide (c.begins <+: n)).map (fun n => dir ++ [n]) ∧
      ∀ q ∈ c.files s, fs q.1 = some (.file q.2) := by
  obtain ⟨ks, h1, h2⟩ := hl
  have h3 := kids_membersAt h1
  simp only [List.foldl_cons, List.foldl_nil] at h3
  obtain ⟨s, h4, h5, h6⟩ := addFiles_spec h2 hp hf ⟨index, [], [], [], []⟩
  refine ⟨s, ?_, h5, fun c => ?_⟩
  · have hs : isArchive (filename dir) = false := by
      rw [isArchive, ← Bool.not_eq_true, Bool.and_eq_true, List.isSuffixOf_iff_suffix, decide_eq_true_eq]
      rintro ⟨⟨n, hn⟩, hlt⟩
      refine ha n ?_ hn.symm
      rintro rfl
      rw [← hn] at hlt
      exact absurd hlt (by decide)
    rw [getIssFiles, hd]
    dsimp only
    rw [if_neg (by rw [hs]; exact Bool.false_ne_true), if_neg hx, hi, if_pos Option.isSome_some, issFiles, load, hi]
    dsimp only
    rw [h3, List.dropLast_concat]
    exact (congrArg (fun l => addFiles fs dir l ⟨index, [], [], [], []⟩)
      (List.filter_congr fun k _ => (Bool.beq_eq_decide_eq _ _))).trans h4
  · obtain ⟨new, h7, h8, h9⟩ := h6 c
    have : c.files ⟨index, [], [], [], []⟩ = [] := by cases c <;> rfl
    rw [this, List.nil_append] at h7
    rw [h7]
    exact ⟨h8, h9⟩

/-- C144: a file that is listed but does not exist is an error. -/
theorem C144_missing {fs : Files} {dir : Path} {index : Xml} {names : List Text} {n : Text}
    (hi : fs (dir ++ ["Index.xml".toList]) = some (.file (some index))) (hl : Lists index names)
    (hx : filename dir ≠ "Index.xml".toList) (hm : n ∈ names) (hp : Plain n) (hn : fs (dir ++ [n]) = none) :
    getIssFiles fs dir = none := by
  obtain ⟨ks, h1, h2⟩ := hl
  have h3 := kids_membersAt h1
  simp only [List.foldl_cons, List.foldl_nil] at h3
  rw [getIssFiles]
  cases fs dir with
  | none => rfl
  | some e =>
    dsimp only
    rw [if_neg hx]
    split
    · rfl
    · cases e with
      | file => rfl
      | dir =>
        dsimp only
        rw [hi, if_pos Option.isSome_some, issFiles, load, hi]
        dsimp only
        rw [h3, List.dropLast_concat]
        exact (congrArg (fun l => addFiles fs dir l ⟨index, [], [], [], []⟩)
          (List.filter_congr fun k _ => (Bool.beq_eq_decide_eq _ _))).trans (addFiles_missing h2 hm hp hn _)

/-- C144 is false if the index is given instead of its directory: it is always rejected, since the directory is read as index.
Directories with a name that ends in .iss are rejected as archives. -/
theorem C144_index_negation {fs : Files} {dir : Path} :
    ((∀ d, fs dir ≠ some (.file d)) → getIssFiles fs (dir ++ ["Index.xml".toList]) = none) ∧
    (∀ n, n ≠ [] → filename dir = n ++ ".iss".toList → getIssFiles fs dir = none) := by
  refine ⟨fun h => ?_, fun n hn hd => ?_⟩
  · rw [getIssFiles]
    cases fs (dir ++ ["Index.xml".toList]) with
    | none => rfl
    | some e =>
      dsimp only
      rw [filename_append, if_neg (by decide +kernel), if_pos rfl, List.dropLast_concat, issFiles, load]
      cases hd : fs dir with
      | none => rfl
      | some e =>
        cases e with
        | dir => rfl
        | file d => exact absurd hd (h d)
  · rw [getIssFiles]
    cases fs dir with
    | none => rfl
    | some e =>
      dsimp only
      rw [if_pos]
      rw [hd, isArchive, Bool.and_eq_true, List.isSuffixOf_iff_suffix, decide_eq_true_eq, List.length_append]
      have := List.length_pos_iff.2 hn
      exact ⟨⟨n, rfl⟩, by simp; omega⟩

/-- C144: the version is that of the index. -/
theorem C144_version {index root v : Xml} {name digits : Text} {n : Nat} (h1 : First index "XmlIssIndex".toList root)
    (h2 : First root "SpurplandatenVersion".toList v) (h3 : SaysText v "Name".toList name)
    (h4 : SaysText v "Nummer".toList digits) (h5 : Writes digits n) (h6 : n < 2 ^ 32) : parseVersion index = (name, n) := by
  rw [parseVersion, child_first h1, child_first h2, childText_says h3, childText_says h4, parseInt_writes h5 (by simpa using h6)]

def exIndex : Xml :=
  .node [] [] [] [.node "XmlIssIndex".toList [] [] [
    .node "SpurplandatenVersion".toList [] [] [leaf "Name" "Mai", leaf "Nummer" "7"],
    .node "Dateien".toList [] [] [
      .node "Datei".toList [] [] [leaf "Name" "Stammdaten.xml"],
      .node "Datei".toList [] [] [leaf "Name" "Spurplanbetriebsstellen_B.xml"],
      .node "Datei".toList [] [] [leaf "Name" "Spurplanbetriebsstellen_A.xml"]]]]

def exNames : List Text :=
  ["Stammdaten.xml".toList, "Spurplanbetriebsstellen_B.xml".toList, "Spurplanbetriebsstellen_A.xml".toList]

def exFiles : Files := fun p =>
  if p = ["i".toList] then some .dir
  else if p = ["i".toList, "Index.xml".toList] then some (.file (some exIndex))
  else if p ∈ exNames.map fun n => ["i".toList, n] then some (.file none)
  else none

theorem exIndex_lists : Lists exIndex exNames := by
  refine ⟨_, .inl ⟨_, ⟨[], [], rfl, rfl, by simp⟩, .inl ⟨_, ⟨[_], [], rfl, rfl, ?_⟩, rfl⟩⟩, ?_⟩
  · intro p hp
    rw [List.mem_singleton] at hp
    subst hp
    decide
  · refine .cons (.inl ⟨_, ⟨[], [], rfl, rfl, by simp⟩, rfl⟩) (.cons (.inl ⟨_, ⟨[], [], rfl, rfl, by simp⟩, rfl⟩)
      (.cons (.inl ⟨_, ⟨[], [], rfl, rfl, by simp⟩, rfl⟩) .nil))

example : exFiles ["i".toList] = some .dir ∧
    exFiles (["i".toList] ++ ["Index.xml".toList]) = some (.file (some exIndex)) ∧ Lists exIndex exNames ∧
    (∀ n ∈ exNames, Plain n) ∧ (∀ n ∈ exNames, ∃ d, exFiles (["i".toList] ++ [n]) = some (.file d)) ∧
    (∀ d, exFiles ["i".toList] ≠ some (.file d)) ∧ ¬ ".iss".toList <:+ filename ["i".toList] ∧
    (getIssFiles exFiles ["i".toList]).map (fun s => s.railPlan.map Prod.fst) =
      some [["i".toList, "Spurplanbetriebsstellen_B.xml".toList], ["i".toList, "Spurplanbetriebsstellen_A.xml".toList]] ∧
    parseVersion exIndex = ("Mai".toList, 7) := by
  refine ⟨rfl, rfl, exIndex_lists, ?_, ?_, ?_, by decide +kernel, by decide +kernel, by decide +kernel⟩
  · unfold Plain; decide +kernel
  · intro n hn
    refine ⟨none, ?_⟩
    rw [exFiles, if_neg (by simp), if_neg, if_pos]
    · exact List.mem_map.2 ⟨n, hn, rfl⟩
    · revert n; decide +kernel
  · intro d h; cases h

/-! ### C145 -/

/-- C145: a station has the full name of the last entry for its short name in the regulatory files, and its short name if there
is none. -/
theorem C145_names {docs : List Xml} {ks : List Xml} {es : List (Text × Text)}
    (hl : Listed docs ["XmlIssDaten".toList, "Ordnungsrahmen".toList, "Betriebsstellen".toList] ks)
    (he : List.Forall₂ SaysStation ks es) (stations : List Text) :
    ∃ m, parseStations (docs.map some) (fun _ => none) = some m ∧ (fullNames stations m).length = stations.length ∧
      ∀ (i : Nat) (s : Text), stations[i]? = some s →
        (∀ n, LastEntry es s n → (fullNames stations m)[i]? = some n) ∧
        (s ∉ es.map Prod.fst → (fullNames stations m)[i]? = some s) := by
  obtain ⟨kss, h1, rfl⟩ := hl
  refine ⟨_, parseStations_eq h1 _, by simp [fullNames], fun i s hs => ?_⟩
  have hes : es = kss.flatten.map fun k => (childText (some k) "DS100".toList, childText (some k) "Name".toList) := by
    generalize kss.flatten = ks at he
    induction he with
    | nil => rfl
    | cons h _ ih => rw [List.map_cons, childText_says h.1, childText_says h.2, ← ih]
  have key := foldl_assign (fun k => (childText (some k) "DS100".toList, childText (some k) "Name".toList)) kss.flatten
    (fun _ => none) s
  rw [← hes] at key
  refine ⟨fun n hn => ?_, fun hn => ?_⟩
  · rw [fullNames, List.getElem?_map, hs, Option.map_some, key.1 n hn]
    rfl
  · rw [fullNames, List.getElem?_map, hs, Option.map_some, key.2 hn]
    rfl

/-- C145: a file that is not well-formed is an error. -/
theorem C145_bad_file {docs : List (Option Xml)} (h : none ∈ docs) (m : Text → Option Text) : parseStations docs m = none := by
  induction docs generalizing m with
  | nil => cases h
  | cons d ds ih =>
    cases d with
    | none => rfl
    | some d => exact ih (by simpa using h) _

def exStations : Xml :=
  .node [] [] [] [.node "XmlIssDaten".toList [] [] [.node "Ordnungsrahmen".toList [] [] [.node "Betriebsstellen".toList [] [] [
    .node "Betriebsstelle".toList [] [] [leaf "DS100" "AA", leaf "Name" "Altstadt"],
    .node "Betriebsstelle".toList [] [] [leaf "DS100" "AA", leaf "Name" "Neustadt"]]]]]

example : Listed [exStations] ["XmlIssDaten".toList, "Ordnungsrahmen".toList, "Betriebsstellen".toList]
      [.node "Betriebsstelle".toList [] [] [leaf "DS100" "AA", leaf "Name" "Altstadt"],
       .node "Betriebsstelle".toList [] [] [leaf "DS100" "AA", leaf "Name" "Neustadt"]] ∧
    SaysStation (.node "Betriebsstelle".toList [] [] [leaf "DS100" "AA", leaf "Name" "Neustadt"])
      ("AA".toList, "Neustadt".toList) ∧
    LastEntry [("AA".toList, "Altstadt".toList), ("AA".toList, "Neustadt".toList)] "AA".toList "Neustadt".toList ∧
    ((parseStations [some exStations] fun _ => none).map (fullNames ["AA".toList, "B".toList])) =
      some ["Neustadt".toList, "B".toList] := by
  refine ⟨⟨[_], .cons (.inl ⟨_, ⟨[], [], rfl, rfl, by simp⟩, .inl ⟨_, ⟨[], [], rfl, rfl, by simp⟩,
    .inl ⟨_, ⟨[], [], rfl, rfl, by simp⟩, rfl⟩⟩⟩) .nil, rfl⟩,
    ⟨.inl ⟨_, ⟨[], [_], rfl, rfl, by simp⟩, rfl⟩, .inl ⟨_, ⟨[_], [], rfl, rfl, ?_⟩, rfl⟩⟩, ⟨[_], [], rfl, by simp⟩,
    by decide +kernel⟩
  intro p hp
  rw [List.mem_singleton] at hp
  subst hp
  decide

/-! ### C146 -/

theorem parseSegment_says {k : Xml} {s : Seg} (h : SaysSegment k s) : parseSegment k = some s := by
  obtain ⟨⟨a, x, ha, hx, h1⟩, ⟨b, y, hb, hy, h2⟩, h3⟩ := h
  rw [parseSegment, childText_says ha, childText_says hb, kilometrage_parse hx, kilometrage_parse hy]
  obtain ⟨f, t, e, l, g⟩ := s
  simp only at h1 h2 h3
  subst h1 h2
  rcases h3 with ⟨h3, rfl, rfl, rfl⟩ | ⟨key, ⟨art, ds, h4, h5, h6⟩, h7⟩
  · rw [child_lacks h3]
  · have tables : ∀ p ∈ equipment, p.1 < 2 ^ 32 ∧ hasSignalling.lookup p.1 = some p.2.1 ∧ hasLzb.lookup p.1 = some p.2.2.1 ∧
        hasEtcs.lookup p.1 = some p.2.2.2 := by decide +kernel
    obtain ⟨h8, h9, h10, h11⟩ := tables _ h7
    simp only at h8 h9 h10 h11
    rw [child_first h4]
    dsimp only
    rw [attr_has h5, parseInt_writes h6 (by simpa using h8), h9, h10, h11]

theorem parseLine_says {k : Xml} {l : Nat × List Seg} (h : SaysLine k l) (hn : l.1 < 2 ^ 16) : parseLine k = some l := by
  obtain ⟨⟨ds, h1, h2⟩, ks, h3, h4⟩ := h
  rw [parseLine, kids_members h3, allSome_forall (h4.imp fun _ _ => parseSegment_says), Option.map_some, childText_says h1,
    parseInt_writes h2 (by simpa using hn)]

theorem forall₂_split {α β : Type} {R : α → β → Prop} (as : List α) {as' : List α} {bs : List β}
    (h : List.Forall₂ R (as ++ as') bs) : ∃ b1 b2, List.Forall₂ R as b1 ∧ List.Forall₂ R as' b2 ∧ bs = b1 ++ b2 := by
  induction as generalizing bs with
  | nil => exact ⟨[], bs, .nil, h, rfl⟩
  | cons a as ih =>
    cases h with
    | cons h1 h2 =>
      obtain ⟨b1, b2, h3, h4, rfl⟩ := ih h2
      exact ⟨_ :: b1, b2, .cons h1 h3, h4, rfl⟩

theorem parseLines_says {docs : List Xml} {ks : List Xml} {ls : List (Nat × List Seg)}
    (hl : Listed docs ["XmlIssDaten".toList, "Ordnungsrahmen".toList, "Strecken".toList] ks)
    (hs : List.Forall₂ (fun k l => parseLine k = some l) ks ls) :
    parseLines (docs.map some) = some (emplaceAll ls fun _ => none) := by
  obtain ⟨kss, h1, rfl⟩ := hl
  have : ∃ lss, allSome parseLinesFromFile (docs.map some) = some lss ∧ lss.flatten = ls := by
    induction h1 generalizing ls with
    | nil =>
      cases hs
      exact ⟨[], rfl, rfl⟩
    | @cons d ks docs kss hd _ ih =>
      rw [List.flatten_cons] at hs
      obtain ⟨l1, l2, h2, h3, h4⟩ : ∃ l1 l2, List.Forall₂ (fun k l => parseLine k = some l) ks l1 ∧
          List.Forall₂ (fun k l => parseLine k = some l) kss.flatten l2 ∧ ls = l1 ++ l2 := by
        exact forall₂_split ks hs
      obtain ⟨lss, h5, h6⟩ := ih h3
      refine ⟨l1 :: lss, ?_, by rw [List.flatten_cons, h6, h4]⟩
      have h7 := kids_membersAt hd
      simp only [List.foldl_cons, List.foldl_nil] at h7
      rw [List.map_cons, allSome, parseLinesFromFile, Option.bind_some, h7, allSome_forall h2, h5]
  obtain ⟨lss, h2, h3⟩ := this
  rw [parseLines, h2, Option.map_some, h3]

/-- C146, if line numbers are below 65536: each line is known with the segments of its first entry, other numbers are unknown. -/
theorem C146_lines_partial {docs : List Xml} {ks : List Xml} {ls : List (Nat × List Seg)}
    (hl : Listed docs ["XmlIssDaten".toList, "Ordnungsrahmen".toList, "Strecken".toList] ks)
    (hs : List.Forall₂ SaysLine ks ls) (hn : ∀ l ∈ ls, l.1 < 2 ^ 16) :
    ∃ m, parseLines (docs.map some) = some m ∧
      (∀ n s, FirstEntry ls n s → m n = some s) ∧ ∀ n, n ∉ ls.map Prod.fst → m n = none := by
  have hs' : List.Forall₂ (fun k l => parseLine k = some l) ks ls := by
    clear hl
    induction hs with
    | nil => exact .nil
    | cons h _ ih =>
      exact .cons (parseLine_says h (hn _ (by simp))) (ih fun l hl => hn l (List.mem_cons_of_mem _ hl))
  exact ⟨_, parseLines_says hl hs', fun n s h => ((emplaceAll_spec ls _ n).2 rfl).1 s h,
    fun n h => ((emplaceAll_spec ls _ n).2 rfl).2 h⟩

/-- C146 is false for further entries of a line: their segments are dropped. -/
theorem C146_duplicate_negation {docs : List Xml} {ks : List Xml} {pre mid post : List (Nat × List Seg)} {n : Nat}
    {s s' : List Seg} (hl : Listed docs ["XmlIssDaten".toList, "Ordnungsrahmen".toList, "Strecken".toList] ks)
    (hs : List.Forall₂ SaysLine ks (pre ++ (n, s) :: mid ++ (n, s') :: post))
    (hn : ∀ l ∈ pre ++ (n, s) :: mid ++ (n, s') :: post, l.1 < 2 ^ 16) (hp : ∀ p ∈ pre, p.1 ≠ n) (hd : s ≠ s') :
    ∃ m, parseLines (docs.map some) = some m ∧ m n = some s ∧ m n ≠ some s' := by
  obtain ⟨m, h1, h2, _⟩ := C146_lines_partial hl hs hn
  have h3 := h2 n s ⟨pre, mid ++ (n, s') :: post, by simp, hp⟩
  exact ⟨m, h1, h3, by rw [h3]; simpa using hd⟩

/-- C146 is false for large numbers: lines with the numbers 65536 and above are all read as line 65535. -/
theorem C146_large_number_negation {k : Xml} {n : Nat} {segs : List Seg} (h : SaysLine k (n, segs)) (hn : 2 ^ 16 ≤ n) :
    parseLine k = some (65535, segs) := by
  obtain ⟨⟨ds, h1, h2, h3, h4⟩, ks, h5, h6⟩ := h
  have hspan := span_digits (rest := []) h3 (fun _ h => by cases h)
  rw [List.append_nil] at hspan
  have hv : ds.foldl (fun a c => 10 * a + digit c) 0 = n := by
    exact (natOf_eq ds).trans h4
  have : parseInt ⟨false, 2⟩ ds = 65535 := by
    obtain ⟨c, cs, rfl⟩ := List.exists_cons_of_ne_nil h2
    simp only [parseInt, fromChars, Bool.false_and, if_neg Bool.false_ne_true, hspan.1, hv, List.isEmpty_cons]
    rw [if_neg]
    · rfl
    · rintro ⟨_, h⟩
      simp only [IntTy.max, if_neg Bool.false_ne_true] at h
      omega
  rw [parseLine, kids_members h5, allSome_forall (h6.imp fun _ _ => parseSegment_says), Option.map_some, childText_says h1, this]
  rfl

/-- C146: an unknown kind of a segment is an error. -/
theorem C146_unknown_kind {docs : List Xml} {ks segs : List Xml} {line seg : Xml} {key : Nat}
    (hl : Listed docs ["XmlIssDaten".toList, "Ordnungsrahmen".toList, "Strecken".toList] ks) (hm : line ∈ ks)
    (hs : Members line "Streckenabschnitte".toList segs) (hm' : seg ∈ segs) (hk : SaysKey seg key) (hb : key < 2 ^ 32)
    (hu : key ∉ equipment.map Prod.fst) : parseLines (docs.map some) = none := by
  have h1 : parseSegment seg = none := by
    obtain ⟨art, ds, h4, h5, h6⟩ := hk
    have : hasSignalling.lookup key = none := by
      rw [List.lookup_eq_none_iff]
      have tables : ∀ p ∈ hasSignalling, p.1 ∈ equipment.map Prod.fst := by decide +kernel
      intro p hp
      rw [bne_iff_ne]
      rintro rfl
      exact hu (tables p hp)
    rw [parseSegment, child_first h4]
    dsimp only
    rw [attr_has h5, parseInt_writes h6 (by simpa using hb), this]
  have h2 : parseLine line = none := by rw [parseLine, kids_members hs, allSome_none hm' h1, Option.map_none]
  obtain ⟨kss, h3, rfl⟩ := hl
  obtain ⟨ks, h4, h5⟩ := List.mem_flatten.1 hm
  have h6 : ∃ d ∈ docs, MembersAt d ["XmlIssDaten".toList, "Ordnungsrahmen".toList, "Strecken".toList] ks := by
    clear hm
    induction h3 with
    | nil => cases h4
    | cons h _ ih =>
      rcases List.mem_cons.1 h4 with rfl | h4
      · exact ⟨_, by simp, h⟩
      · obtain ⟨d, hd, h⟩ := ih h4
        exact ⟨d, List.mem_cons_of_mem _ hd, h⟩
  obtain ⟨d, hd, h7⟩ := h6
  have h8 := kids_membersAt h7
  simp only [List.foldl_cons, List.foldl_nil] at h8
  have h9 : parseLinesFromFile (some d) = none := by rw [parseLinesFromFile, Option.bind_some, h8, allSome_none h5 h2]
  rw [parseLines, allSome_none (List.mem_map.2 ⟨d, hd, rfl⟩) h9, Option.map_none]

def exSegment (a b key : String) : Xml :=
  .node "Streckenabschnitt".toList [] [] [leaf "KilometrierungVon" a, leaf "KilometrierungBis" b,
    .node "Art".toList [("Schluessel".toList, key.toList)] [] []]

def exLine (nr : String) : Xml :=
  .node "Strecke".toList [] [] [leaf "Nr" nr, .node "Streckenabschnitte".toList [] [] [exSegment "0" "2" "1", exSegment "2" "5" "13"]]

def exLines : Xml :=
  .node [] [] [] [.node "XmlIssDaten".toList [] [] [.node "Ordnungsrahmen".toList [] [] [
    .node "Strecken".toList [] [] [exLine "3600", .node "Strecke".toList [] [] [leaf "Nr" "3600"]]]]]

def exSegs : List Seg := [⟨some 0, some 2000, false, false, true⟩, ⟨some 2000, some 5000, true, false, false⟩]

theorem decimal_int {s : Text} {n : Nat} (h1 : s ≠ []) (h2 : AllDigits s) (h3 : value s = n) : Decimal [',', '.'] s n :=
  ⟨false, s, [], h1, h2, by simp [AllDigits], .inl ⟨rfl, rfl⟩, by simp [h3, value]⟩

theorem exSegment_says {a b key : String} {x y k : Nat} {sig lzb etcs : Bool} (ha : Writes a.toList x) (hb : Writes b.toList y)
    (hk : Writes key.toList k) (he : (k, sig, lzb, etcs) ∈ equipment) :
    SaysSegment (exSegment a b key) ⟨some (1000 * x), some (1000 * y), etcs, lzb, sig⟩ := by
  refine ⟨⟨a.toList, _, .inl ⟨_, ⟨[], [_, _], rfl, rfl, by simp⟩, rfl⟩, .inl ⟨x, decimal_int ha.1 ha.2.1 ha.2.2, rfl⟩, rfl⟩,
    ⟨b.toList, _, .inl ⟨_, ⟨[_], [_], rfl, rfl, ?_⟩, rfl⟩, .inl ⟨y, decimal_int hb.1 hb.2.1 hb.2.2, rfl⟩, rfl⟩,
    .inr ⟨k, ⟨_, key.toList, ⟨[_, _], [], rfl, rfl, ?_⟩, ⟨[], [], rfl, by simp⟩, hk⟩, he⟩⟩
  · intro p hp
    rw [List.mem_singleton] at hp
    subst hp
    show "KilometrierungVon".toList ≠ _
    decide
  · intro p hp
    rcases List.mem_cons.1 hp with rfl | hp
    · show "KilometrierungVon".toList ≠ _
      decide
    · rw [List.mem_singleton] at hp
      subst hp
      show "KilometrierungBis".toList ≠ _
      decide

theorem exLine_says {nr : String} {n : Nat} (hw : Writes nr.toList n) : SaysLine (exLine nr) (n, exSegs) := by
  refine ⟨⟨nr.toList, .inl ⟨_, ⟨[], [_], rfl, rfl, by simp⟩, rfl⟩, hw⟩, _, .inl ⟨_, ⟨[_], [], rfl, rfl, ?_⟩, rfl⟩, ?_⟩
  · intro p hp
    rw [List.mem_singleton] at hp
    subst hp
    show "Nr".toList ≠ _
    decide
  · have w : ∀ s ∈ ["0", "2", "5", "1", "13"], s.toList ≠ [] ∧ ∀ c ∈ s.toList, c.isDigit = true := by decide +kernel
    have h1 := exSegment_says (a := "0") (b := "2") (key := "1") (x := 0) (y := 2) (k := 1) (sig := true) (lzb := false) (etcs := false)
      ⟨(w "0" (by simp)).1, (w "0" (by simp)).2, by decide +kernel⟩ ⟨(w "2" (by simp)).1, (w "2" (by simp)).2, by decide +kernel⟩
      ⟨(w "1" (by simp)).1, (w "1" (by simp)).2, by decide +kernel⟩ (by simp [equipment])
    have h2 := exSegment_says (a := "2") (b := "5") (key := "13") (x := 2) (y := 5) (k := 13) (sig := false) (lzb := false) (etcs := true)
      ⟨(w "2" (by simp)).1, (w "2" (by simp)).2, by decide +kernel⟩ ⟨(w "5" (by simp)).1, (w "5" (by simp)).2, by decide +kernel⟩
      ⟨(w "13" (by simp)).1, (w "13" (by simp)).2, by decide +kernel⟩ (by simp [equipment])
    norm_num at h1 h2
    exact .cons h1 (.cons h2 .nil)

theorem exLines_listed : Listed [exLines] ["XmlIssDaten".toList, "Ordnungsrahmen".toList, "Strecken".toList]
    [exLine "3600", .node "Strecke".toList [] [] [leaf "Nr" "3600"]] :=
  ⟨[_], .cons (.inl ⟨_, ⟨[], [], rfl, rfl, by simp⟩, .inl ⟨_, ⟨[], [], rfl, rfl, by simp⟩,
    .inl ⟨_, ⟨[], [], rfl, rfl, by simp⟩, rfl⟩⟩⟩) .nil, rfl⟩

theorem exWrites : Writes "3600".toList 3600 ∧ Writes "70000".toList 70000 := by
  unfold Writes AllDigits
  exact ⟨⟨by decide, by decide, by decide +kernel⟩, ⟨by decide, by decide, by decide +kernel⟩⟩

example : Listed [exLines] ["XmlIssDaten".toList, "Ordnungsrahmen".toList, "Strecken".toList]
      [exLine "3600", .node "Strecke".toList [] [] [leaf "Nr" "3600"]] ∧
    List.Forall₂ SaysLine [exLine "3600", .node "Strecke".toList [] [] [leaf "Nr" "3600"]] [(3600, exSegs), (3600, [])] ∧
    FirstEntry [(3600, exSegs), (3600, [])] 3600 exSegs ∧ SaysLine (exLine "70000") (70000, exSegs) ∧
    (4 ∉ equipment.map Prod.fst) ∧ (5 ∉ [(3600, exSegs), (3600, [])].map Prod.fst) := by
  refine ⟨exLines_listed, .cons (exLine_says exWrites.1) (.cons ⟨⟨"3600".toList, .inl ⟨_, ⟨[], [], rfl, rfl, by simp⟩, rfl⟩,
    exWrites.1⟩, [], .inr ⟨?_, rfl⟩, .nil⟩ .nil), ⟨[], _, rfl, by simp⟩, exLine_says exWrites.2, by decide, by decide⟩
  intro p hp
  rw [show (Xml.node "Strecke".toList [] [] [leaf "Nr" "3600"]).kids = [leaf "Nr" "3600"] from rfl, List.mem_singleton] at hp
  subst hp
  show "Nr".toList ≠ _
  decide

/-! ### C147 -/

theorem joined_adjoining : ∀ {l : List Seg}, Joined l → ∃ l', List.Forall₂ (fun a b => toSegment a = some b) l l' ∧
    Infra.Spec.Adjoining l'
  | [], _ => ⟨[], .nil, trivial⟩
  | [s], ⟨⟨f, t, h1, h2, h3⟩, _, _⟩ =>
    ⟨[⟨f, t, if s.signalling then 1 else 0⟩], .cons (by rw [toSegment, h1, h2]) .nil, h3⟩
  | s :: r :: l, ⟨⟨f, t, h1, h2, h3⟩, h4, h5⟩ => by
    obtain ⟨l', h6, h7⟩ := joined_adjoining h5
    obtain ⟨r', l', rfl⟩ : ∃ r' l'', l' = r' :: l'' := by cases h6; exact ⟨_, _, rfl⟩
    refine ⟨⟨f, t, if s.signalling then 1 else 0⟩ :: r' :: l', .cons (by rw [toSegment, h1, h2]) h6, h3, ?_, h7⟩
    cases h6 with
    | cons h6 _ =>
      have := h4 r rfl
      rw [toSegment, this, h2] at h6
      cases hr : r.fin with
      | none => rw [hr] at h6; cases h6
      | some y => rw [hr] at h6; cases h6; rfl

theorem forall₂_getElem? {α β : Type} {R : α → β → Prop} {as : List α} {bs : List β} (h : List.Forall₂ R as bs) (i : Nat) :
    (∀ b, bs[i]? = some b → ∃ a, as[i]? = some a ∧ R a b) ∧ (∀ a, as[i]? = some a → ∃ b, bs[i]? = some b ∧ R a b) := by
  induction h generalizing i with
  | nil => simp
  | cons h _ ih =>
    cases i with
    | zero => simp [h]
    | succ i => simpa using ih i

/-- C147: a route with an ETCS start on a line whose segments are joined requires ETCS iff the segment of the line has no signals
there (the later one where two segments meet). Other routes do not. -/
theorem C147_requires {docs : List Xml} {ks : List Xml} {ls : List (Nat × List Seg)} {n : Nat} {segs : List Seg} {first last : Seg}
    {f t km : Rat} (hl : Listed docs ["XmlIssDaten".toList, "Ordnungsrahmen".toList, "Strecken".toList] ks)
    (hs : List.Forall₂ SaysLine ks ls) (hn : ∀ l ∈ ls, l.1 < 2 ^ 16) (hf : FirstEntry ls n segs) (hj : Joined segs)
    (h1 : segs.head? = some first) (h2 : segs.getLast? = some last) (h3 : first.frm = some f) (h4 : last.fin = some t)
    (h5 : f ≤ km) (h6 : km ≤ t) :
    ∃ m r, parseLines (docs.map some) = some m ∧ requiresEtcs m none = some false ∧ requiresEtcs m (some (n, km)) = some r ∧
      ∃ (i : Nat) (s : Seg), segs[i]? = some s ∧ On s km ∧ (r = true ↔ s.signalling = false) ∧
        ∀ (j : Nat) (s' : Seg), i < j → segs[j]? = some s' → ¬ On s' km := by
  obtain ⟨m, h7, h8, _⟩ := C146_lines_partial hl hs hn
  obtain ⟨l', h9, h10⟩ := joined_adjoining hj
  have hto : ∀ {a : Seg} {b : Infra.Segment}, toSegment a = some b → a.frm = some b.frm ∧ a.fin = some b.to ∧
      b.tag = if a.signalling then 1 else 0 := by
    intro a b h
    rw [toSegment] at h
    split at h
    · rename_i x y hx hy
      cases h
      exact ⟨hx, hy, rfl⟩
    · cases h
  rw [List.head?_eq_getElem?] at h1
  rw [List.getLast?_eq_getElem?] at h2
  obtain ⟨fb, h11, h12⟩ := (forall₂_getElem? h9 0).2 first h1
  obtain ⟨lb, h13, h14⟩ := (forall₂_getElem? h9 (segs.length - 1)).2 last h2
  have hf' : fb.frm = f := by have := (hto h12).1; rw [h3] at this; exact (Option.some.inj this).symm
  have ht' : lb.to = t := by have := (hto h14).2.1; rw [h4] at this; exact (Option.some.inj this).symm
  obtain ⟨i, sg, h15, h16, h17, h18, h19⟩ := Infra.C45_contains l' km fb lb (by rw [List.head?_eq_getElem?]; exact h11)
    (by rw [List.getLast?_eq_getElem?, ← h9.length_eq]; exact h13) h10 (by rw [hf']; exact h5) (by rw [ht']; exact h6)
  obtain ⟨s, h20, h21⟩ := (forall₂_getElem? h9 i).1 sg h16
  obtain ⟨h22, h23, h24⟩ := hto h21
  refine ⟨m, decide (sg.tag ≠ 1), h7, rfl, ?_, i, s, h20, ⟨_, _, h22, h23, h17, h18⟩, ?_, ?_⟩
  · rw [requiresEtcs]
    rw [h8 n segs hf, Option.bind_some, allSome_forall h9, Option.bind_some, h15, Option.map_some]
  · rw [decide_eq_true_eq, h24]
    cases s.signalling <;> simp
  · rintro j s' hij hs' ⟨x, y, hx, _, hxy, _⟩
    obtain ⟨b, hb1, hb2⟩ := (forall₂_getElem? h9 j).2 s' hs'
    have := h19 j b hij hb1
    have h25 := (hto hb2).1
    rw [hx] at h25
    cases h25
    exact absurd hxy (not_le.2 this)

/-- C147: a route with an ETCS start on a line the regulatory files do not list is an error. -/
theorem C147_unknown_line {docs : List Xml} {ks : List Xml} {ls : List (Nat × List Seg)} {n : Nat} {km : Rat}
    (hl : Listed docs ["XmlIssDaten".toList, "Ordnungsrahmen".toList, "Strecken".toList] ks)
    (hs : List.Forall₂ SaysLine ks ls) (hn : ∀ l ∈ ls, l.1 < 2 ^ 16) (hu : n ∉ ls.map Prod.fst) :
    ∃ m, parseLines (docs.map some) = some m ∧ requiresEtcs m (some (n, km)) = none := by
  obtain ⟨m, h1, _, h2⟩ := C146_lines_partial hl hs hn
  exact ⟨m, h1, by rw [requiresEtcs]; rw [h2 n hu]; rfl⟩

example : Joined exSegs ∧ exSegs.head? = some ⟨some 0, some 2000, false, false, true⟩ ∧
    requiresEtcs (fun _ => some exSegs) (some (3600, 1000)) = some false ∧
    requiresEtcs (fun _ => some exSegs) (some (3600, 2000)) = some true := by
  refine ⟨⟨⟨0, 2000, rfl, rfl, by norm_num⟩, ?_, ⟨2000, 5000, rfl, rfl, by norm_num⟩, ?_, trivial⟩, rfl, by decide +kernel,
    by decide +kernel⟩
  · intro t ht; cases ht; rfl
  · intro t ht; cases ht

/-! ### C148 -/

theorem stationMap_spec (ss : List Text) (i : Nat) (m : Text → Option Nat) (s : Text) :
    (s ∉ ss → stationMap ss i m s = m s) ∧
    ∀ pre post, ss = pre ++ s :: post → s ∉ post → stationMap ss i m s = some (i + pre.length) := by
  induction ss generalizing i m with
  | nil => exact ⟨fun _ => rfl, fun pre post h => by simp at h⟩
  | cons r ss ih =>
    obtain ⟨h1, h2⟩ := ih (i + 1) (assign m r i)
    rw [stationMap]
    refine ⟨fun h => ?_, fun pre post h hp => ?_⟩
    · rw [List.mem_cons, not_or] at h
      rw [h1 h.2, assign, if_neg h.1]
    · cases pre with
      | nil =>
        simp only [List.nil_append, List.cons.injEq] at h
        obtain ⟨rfl, rfl⟩ := h
        rw [h1 hp, assign, if_pos rfl]
        rfl
      | cons p pre =>
        simp only [List.cons_append, List.cons.injEq] at h
        rw [h2 pre post h.2 hp, List.length_cons]
        congr 1
        omega

theorem keyCount_nodup : ∀ (ss : List Text), keyCount ss ≤ ss.length ∧ (ss.Nodup ↔ keyCount ss = ss.length)
  | [] => by simp [keyCount]
  | s :: ss => by
    obtain ⟨h1, h2⟩ := keyCount_nodup ss
    rw [keyCount, List.nodup_cons, List.length_cons]
    split
    · rename_i h
      exact ⟨by omega, fun hc => absurd h hc.1, fun hc => by omega⟩
    · rename_i h
      exact ⟨by omega, fun hc => by rw [h2.1 hc.2], fun hc => ⟨h, h2.2 (by omega)⟩⟩

theorem coordinate_says {s : Text} {q : Rat} (h : SaysCoordinate s q) : coordinate s = some q := by
  rcases h with h | ⟨rfl, rfl⟩
  · have hne : s ≠ [] := by
      rintro rfl
      obtain ⟨neg, ip, fp, h1, _, _, h2 | ⟨sep, _, h2⟩, _⟩ := h
      · have := h2.2
        simp [h1] at this
      · simp [h1] at h2
    rw [coordinate, if_neg hne, C139_decimal_partial.1 h]
  · rfl

/-- a row of the file: short name, longitude and latitude -/
def SaysRow (r : Row) (e : Text × Rat × Rat) : Prop :=
  r.ds100 = e.1 ∧ SaysCoordinate r.lon e.2.1 ∧ SaysCoordinate r.lat e.2.2

theorem addRows_spec {stations : List Text} (hd : stations.Nodup) {rows : List Row} {es : List (Text × Rat × Rat)}
    (h : List.Forall₂ SaysRow rows es) (v : List (Option Rat × Option Rat)) (hv : v.length = stations.length) :
    ∃ w, addRows (stationMap stations 0 fun _ => none) rows v = some w ∧ w.length = stations.length ∧
      ∀ (i : Nat) (s : Text), stations[i]? = some s →
        (∀ q, LastEntry es s q → w[i]? = some (some q.1, some q.2)) ∧ (s ∉ es.map Prod.fst → w[i]? = v[i]?) := by
  have hpos : ∀ (i : Nat) (s : Text), stations[i]? = some s → stationMap stations 0 (fun _ => none) s = some i := by
    intro i s hs
    obtain ⟨hi, he⟩ := List.getElem?_eq_some_iff.1 hs
    have hsplit : stations = stations.take i ++ s :: stations.drop (i + 1) := by
      rw [← he, ← List.drop_eq_getElem_cons hi, List.take_append_drop]
    have hn : s ∉ stations.drop (i + 1) := by
      rw [hsplit] at hd
      exact ((List.nodup_append.1 hd).2.1 |> List.nodup_cons.1).1
    rw [(stationMap_spec stations 0 _ s).2 _ _ hsplit hn, List.length_take, Nat.min_eq_left (by omega)]
    congr 1
    omega
  induction h generalizing v with
  | nil => exact ⟨v, rfl, hv, fun i s hs => ⟨fun q ⟨pre, post, e, _⟩ => by simp at e, fun _ => rfl⟩⟩
  | @cons r e rows es hr _ ih =>
    obtain ⟨h1, h2, h3⟩ := hr
    by_cases hm : e.1 ∈ stations
    · obtain ⟨j, hj⟩ := List.getElem?_of_mem hm
      have hlt : j < v.length := by rw [hv]; exact (List.getElem?_eq_some_iff.1 hj).1
      obtain ⟨w, hw1, hw2, hw3⟩ := ih (v.set j (some e.2.1, some e.2.2)) (by simpa using hv)
      refine ⟨w, ?_, hw2, fun i s hs => ⟨fun q ⟨pre, post, he, hp⟩ => ?_, fun hn => ?_⟩⟩
      · rw [addRows, h1, hpos j e.1 hj]
        dsimp only
        rw [if_pos hlt, coordinate_says h2, coordinate_says h3, hw1]
      · cases pre with
        | nil =>
          simp only [List.nil_append, List.cons.injEq] at he
          obtain ⟨rfl, rfl⟩ := he
          have hij : i = j := Option.some.inj ((hpos i s hs).symm.trans (hpos j s hj))
          subst hij
          rw [(hw3 i s hs).2, List.getElem?_set_self hlt]
          intro hc
          obtain ⟨p, hp1, hp2⟩ := List.mem_map.1 hc
          exact hp p hp1 hp2
        | cons p pre =>
          simp only [List.cons_append, List.cons.injEq] at he
          exact (hw3 i s hs).1 q ⟨pre, post, he.2, hp⟩
      · rw [List.map_cons, List.mem_cons, not_or] at hn
        rw [(hw3 i s hs).2 hn.2, List.getElem?_set_ne]
        rintro rfl
        rw [hs] at hj
        exact hn.1 (Option.some.inj hj)
    · obtain ⟨w, hw1, hw2, hw3⟩ := ih v hv
      refine ⟨w, ?_, hw2, fun i s hs => ⟨fun q ⟨pre, post, he, hp⟩ => ?_, fun hn => ?_⟩⟩
      · rw [addRows, h1, (stationMap_spec stations 0 _ e.1).1 hm]
        exact hw1
      · cases pre with
        | nil =>
          simp only [List.nil_append, List.cons.injEq] at he
          exact absurd (List.mem_of_getElem? hs) (by rw [he.1] at hm; exact hm)
        | cons p pre =>
          simp only [List.cons_append, List.cons.injEq] at he
          exact (hw3 i s hs).1 q ⟨pre, post, he.2, hp⟩
      · rw [List.map_cons, List.mem_cons, not_or] at hn
        exact (hw3 i s hs).2 hn.2

/-- C148 for stations with distinct short names: each station has the coordinates of the last row with its short name and invalid
coordinates without one. -/
theorem C148_coordinates_partial {stations : List Text} (hd : stations.Nodup) {rows : List Row} {es : List (Text × Rat × Rat)}
    (h : List.Forall₂ SaysRow rows es) :
    ∃ v, stationCoords stations (some rows) = some v ∧ v.length = stations.length ∧
      ∀ (i : Nat) (s : Text), stations[i]? = some s →
        (∀ q, LastEntry es s q → v[i]? = some (some q.1, some q.2)) ∧
        (s ∉ es.map Prod.fst → v[i]? = some (some (-361), some (-361))) := by
  have hk := (keyCount_nodup stations).2.1 hd
  obtain ⟨v, h1, h2, h3⟩ := addRows_spec hd h (List.replicate (keyCount stations) (some (-361), some (-361)))
    (by rw [List.length_replicate, hk])
  refine ⟨v, h1, h2, fun i s hs => ⟨(h3 i s hs).1, fun hn => ?_⟩⟩
  rw [(h3 i s hs).2 hn, List.getElem?_replicate, if_pos]
  rw [hk]
  exact (List.getElem?_eq_some_iff.1 hs).1

/-- C148 is false if two stations share a short name: a row for the last station is written outside of the vector. -/
theorem C148_shared_name_negation {stations : List Text} (hd : ¬ stations.Nodup) {s : Text} (hs : stations.getLast? = some s)
    {rows : List Row} {r : Row} (hr : r ∈ rows) (he : r.ds100 = s) : stationCoords stations (some rows) = none := by
  obtain ⟨pre, rfl⟩ : ∃ pre, stations = pre ++ [s] := by
    obtain ⟨pre, h⟩ := List.getLast?_eq_some_iff.1 hs
    exact ⟨pre, h⟩
  obtain ⟨h1, h2⟩ := keyCount_nodup (pre ++ [s])
  have hlt : keyCount (pre ++ [s]) ≤ pre.length := by
    rcases Nat.lt_or_ge pre.length (keyCount (pre ++ [s])) with h | h
    · exact absurd (h2.2 (by rw [List.length_append, List.length_singleton] at h1 ⊢; omega)) hd
    · exact h
  have hm := (stationMap_spec (pre ++ [s]) 0 (fun _ => none) s).2 pre [] rfl (by simp)
  rw [Nat.zero_add] at hm
  have key : ∀ (rows : List Row) (v : List (Option Rat × Option Rat)), r ∈ rows → v.length ≤ pre.length →
      addRows (stationMap (pre ++ [s]) 0 fun _ => none) rows v = none := by
    intro rows
    induction rows with
    | nil => intro v h; cases h
    | cons r' rows ih =>
      intro v h hv
      rw [addRows]
      rcases List.mem_cons.1 h with rfl | h
      · rw [he, hm]
        dsimp only
        rw [if_neg (by omega)]
      · split
        · exact ih v h hv
        · split
          · exact ih _ h (by simpa using hv)
          · rfl
  exact key rows _ hr (by rw [List.length_replicate]; exact hlt)

/-- C148: without a file there are no coordinates at all. -/
theorem C148_no_file (stations : List Text) : stationCoords stations none = some [] := rfl

example : ["A".toList, "B".toList].Nodup ∧ ¬ ["A".toList, "A".toList].Nodup ∧
    SaysRow ⟨"A".toList, "50".toList, []⟩ ("A".toList, -361, 50) ∧
    stationCoords ["A".toList, "B".toList] (some [⟨"B".toList, "50,5".toList, "8".toList⟩]) =
      some [(some (-361), some (-361)), (some 8, some (101 / 2))] ∧
    stationCoords ["A".toList, "A".toList] (some [⟨"A".toList, "50,5".toList, "8".toList⟩]) = none := by
  refine ⟨by decide, by decide, ⟨rfl, .inr ⟨rfl, rfl⟩, .inl ?_⟩, by decide +kernel, by decide +kernel⟩
  exact_mod_cast decimal_int (s := "50".toList) (n := 50) (by decide) (by unfold AllDigits; decide) (by decide +kernel)

end Soro
