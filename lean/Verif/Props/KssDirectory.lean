import Verif.Props.KssXml

/-! Property C195: a timetable consists of the trains of all its documents. -/

namespace Soro.KssXml
open Utls Utls.Spec TypeNames ParseFp IssElement IssFiles TrainSeries Soro.Train Transform Dates Dates.Spec ServiceDays.Spec

/-- the document of a directory entry -/
def IsDocument (e : Text × Entry) (x : Xml) : Prop := e.2 = .file (some x)

theorem each_ok {α β : Type} (f : α → Kss.Res β) (l : List α) (rs : List β) :
    Kss.each f l = .ok rs ↔ List.Forall₂ (fun a r => f a = .ok r) l rs := by
  induction l generalizing rs with
  | nil =>
    constructor
    · intro h
      cases h
      exact .nil
    · intro h
      cases h
      rfl
  | cons a l ih =>
    constructor
    · intro h
      rw [Kss.each] at h
      cases ha : f a with
      | ok b =>
        rw [ha] at h
        dsimp only at h
        cases hl : Kss.each f l with
        | ok bs =>
          rw [hl] at h
          cases h
          exact .cons ha ((ih bs).1 hl)
        | _ => rw [hl] at h; cases h
      | _ => rw [ha] at h; cases h
    · intro h
      cases h with
      | cons h1 h2 => rw [Kss.each, h1, (ih _).2 h2]

theorem documents_ok (d : Data) (fuel : Nat) (es : Dir) (rs : List (List KTrain × List Kss.KErr)) :
    List.Forall₂ (fun a r => parseLoaded d fuel a = .ok r)
        (es.map fun e => match e.2 with | .dir => none | .file x => x) rs ↔
      List.Forall₂ (fun e r => ∃ x, IsDocument e x ∧ parseDocument d fuel x = .ok r) es rs := by
  rw [List.forall₂_map_left_iff]
  have : ∀ (e : Text × Entry) (r), (parseLoaded d fuel (match e.2 with | .dir => none | .file x => x) = .ok r) ↔
      ∃ x, IsDocument e x ∧ parseDocument d fuel x = .ok r := by
    rintro ⟨n, c⟩ r
    cases c with
    | dir => simp [parseLoaded, IsDocument]
    | file x =>
      cases x with
      | none => simp [parseLoaded, IsDocument]
      | some x => simp [parseLoaded, IsDocument]
  simp only [this]

/-- the flattened trains with their numbers -/
theorem numbered (l : List KTrain) :
    (l.zipIdx.map fun p => (p.2, p.1)).map Prod.snd = l ∧ (l.zipIdx.map fun p => (p.2, p.1)).map Prod.fst = List.range l.length := by
  constructor
  · rw [List.map_map]
    change l.zipIdx.map Prod.fst = l
    simp
  · rw [List.map_map]
    change l.zipIdx.map Prod.snd = _
    rw [List.zipIdx_map_snd, List.range_eq_range']

theorem numbered_unique {l : List KTrain} {ts : List (Nat × KTrain)} (h1 : ts.map Prod.snd = l)
    (h2 : ts.map Prod.fst = List.range l.length) : ts = l.zipIdx.map fun p => (p.2, p.1) := by
  obtain ⟨h3, h4⟩ := numbered l
  have key : ∀ (a b : List (Nat × KTrain)), a.map Prod.fst = b.map Prod.fst → a.map Prod.snd = b.map Prod.snd → a = b := by
    intro a
    induction a with
    | nil => intro b h _; cases b with | nil => rfl | cons _ _ => simp at h
    | cons x a ih =>
      intro b h h'
      cases b with
      | nil => simp at h
      | cons y b =>
        simp only [List.map_cons, List.cons.injEq] at h h'
        rw [ih b h.2 h'.2, Prod.ext h.1 h'.1]
  exact key _ _ (h2.trans h4.symm) (h1.trans h3.symm)

/-- C195: a directory of the version of the infrastructure is read as the trains `ts` iff every timetable file of it is a document
that is read, and `ts` are the trains of these documents in the order of the files, numbered from zero. Other entries of the
directory do not matter. -/
theorem C195_trains (d : Data) (version : Text × Nat) (fuel : Nat) (dir : Dir) (hk : ∃ e ∈ dir, isKssFile e = true)
    (hv : requiredVersion dir = some version) (ts : List (Nat × KTrain)) :
    parseTimetable d version fuel dir = .ok ts ↔
      ∃ rs : List (List KTrain × List Kss.KErr),
        List.Forall₂ (fun e r => ∃ x, IsDocument e x ∧ parseDocument d fuel x = .ok r) (dir.filter isKssFile) rs ∧
        ts.map Prod.snd = (rs.map Prod.fst).flatten ∧ ts.map Prod.fst = List.range ts.length := by
  have hd : ∀ rs, Kss.each (parseLoaded d fuel) (documents dir) = .ok rs ↔
      List.Forall₂ (fun e r => ∃ x, IsDocument e x ∧ parseDocument d fuel x = .ok r) (dir.filter isKssFile) rs := by
    intro rs
    exact (each_ok _ _ _).trans (documents_ok d fuel (dir.filter isKssFile) rs)
  rw [parseTimetable, if_pos (by rw [isKssTimetable, List.any_eq_true]; exact hk), hv]
  dsimp only
  rw [if_neg (by simp)]
  constructor
  · intro h
    cases he : Kss.each (parseLoaded d fuel) (documents dir) with
    | ok rs =>
      rw [he] at h
      cases h
      refine ⟨rs, (hd rs).1 he, (numbered _).1, ?_⟩
      rw [(numbered _).2]
      simp
    | _ => rw [he] at h; cases h
  · rintro ⟨rs, h1, h2, h3⟩
    rw [(hd rs).2 h1]
    dsimp only
    have hl : ts.length = ((rs.map Prod.fst).flatten).length := by rw [← h2, List.length_map]
    rw [hl] at h3
    rw [numbered_unique h2 h3]

/-- C195: one timetable file that is no well-formed document, and no train of the timetable is read. -/
theorem C195_malformed (d : Data) (version : Text × Nat) (fuel : Nat) (dir : Dir) (e : Text × Entry) (he : e ∈ dir)
    (hk : isKssFile e = true) (hx : ∀ x, ¬ IsDocument e x) (ts : List (Nat × KTrain)) : parseTimetable d version fuel dir ≠ .ok ts := by
  intro h
  have hv : requiredVersion dir = some version := by
    rw [parseTimetable, if_pos (by rw [isKssTimetable, List.any_eq_true]; exact ⟨e, he, hk⟩)] at h
    cases hr : requiredVersion dir with
    | none => rw [hr] at h; cases h
    | some v =>
      rw [hr] at h
      dsimp only at h
      split at h
      · cases h
      · rename_i hn
        rw [Decidable.not_not.1 hn]
  obtain ⟨rs, h1, -, -⟩ := (C195_trains d version fuel dir ⟨e, he, hk⟩ hv ts).1 h
  have : ∀ {l : Dir} {rs : List (List KTrain × List Kss.KErr)},
      List.Forall₂ (fun e r => ∃ x, IsDocument e x ∧ parseDocument d fuel x = .ok r) l rs → e ∈ l → False := by
    intro l rs hf hm
    induction hf with
    | nil => cases hm
    | cons a _ ih =>
      cases hm with
      | head => exact hx _ a.choose_spec.1
      | tail _ hm => exact ih hm
  exact this h1 (List.mem_filter.2 ⟨he, hk⟩)

/-- C165, the days: a train whose first stop has a departure leaves that long after the midnight of every day on which it runs, as
long as the sum is a time. -/
theorem C165_departs (t : KTrain) (s : Stop) (rest : List Stop) (ht : t.stops = s :: rest) (midnight : Nat)
    (h : midnight + s.departure < 2 ^ 32) : departs t midnight = some (midnight + s.departure) := by
  rw [departs, firstDeparture, ht]
  show some (relToAbs midnight s.departure) = _
  rw [relToAbs, Nat.mod_eq_of_lt h]

example : (1636786800 : Nat) + 36000 < 2 ^ 32 := by decide

example : ∃ e ∈ [exFile "KSS-1.xml" "7", ("KSS-2.xml".toList, Entry.file none)], isKssFile e = true ∧ ∀ x, ¬ IsDocument e x :=
  ⟨_, .tail _ (.head _), by decide, fun x h => by cases h⟩
example : requiredVersion [exFile "KSS-1.xml" "7", exFile "KSS-2.xml" "7"] = some ("net".toList, 7) ∧
    ([exFile "KSS-1.xml" "7", exFile "KSS-2.xml" "7"].filter isKssFile).length = 2 := by
  constructor
  · rw [exFile, requiredVersion, versionOf_says (exHeader_says "7" (by decide) (n := 7) rfl (by decide))]
  · decide

end Soro.KssXml
