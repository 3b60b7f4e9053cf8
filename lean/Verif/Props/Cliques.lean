import Verif.Proof.Cliques

/-! Properties C154, C155: the file with the exclusion sets and the exported exclusion graph. -/

namespace Soro
open Cliques Cliques.Spec

/-- C154: the exclusion sets are the cliques of the file, each sorted, and the list of them sorted; a route is in two sets
together with another route iff the file has a clique with both.
Missing: files with blanks at the end of a line and missing files, see the negations. -/
theorem C154_cliques_partial (elements graph : Bool) (g : Option (List ES)) (hg : g.isSome) (file : TypeNames.Text)
    (cs : List (List Nat)) (h : FileOf file cs) (irCount : Nat) (hid : ∀ c ∈ cs, ∀ r ∈ c, r < irCount) :
    ∃ d, getExclusion elements graph g (some file) irCount = some d ∧
      (∃ sorted, d.sets.Perm sorted ∧ List.Forall₂ (fun c s => s.Perm c ∧ s.Pairwise (· ≤ ·)) cs sorted) ∧
      d.sets.Pairwise (fun a b => a = b ∨ Before a b) ∧
      d.irsToSets.length = irCount ∧
      (∀ (r k : Nat) l, d.irsToSets[r]? = some l → (k ∈ l ↔ ∃ s, d.sets[k]? = some s ∧ r ∈ s)) ∧
      ∀ (r s : Nat) lr ls, d.irsToSets[r]? = some lr → d.irsToSets[s]? = some ls →
        ((∃ k, k ∈ lr ∧ k ∈ ls) ↔ ∃ c ∈ cs, r ∈ c ∧ s ∈ c) := by
  have hread : readCliques (some file) = sortLex (cs.map Algo.sortNat) := by
    rw [readCliques, Option.getD_some, cliques_file h]
  obtain ⟨hp, hs⟩ := sortLex_spec (cs.map Algo.sortNat)
  have hmem : ∀ s, s ∈ readCliques (some file) ↔ ∃ c ∈ cs, Algo.sortNat c = s := by
    intro s; rw [hread, hp.mem_iff, List.mem_map]
  obtain ⟨m, h1, h2, h3⟩ := C18_irs_to_exclusion_sets (readCliques (some file)) irCount (by
    intro s hs r hr
    obtain ⟨c, hc, rfl⟩ := (hmem s).1 hs
    exact hid c hc r ((Algo.mem_sortNat _ _).1 hr))
  have h4 : ∀ (r k : Nat) l, m[r]? = some l → (k ∈ l ↔ ∃ s, (readCliques (some file))[k]? = some s ∧ r ∈ s) := by
    intro r k l hl
    obtain ⟨l', h5, h6, _⟩ := h3 r (by have := (List.getElem?_eq_some_iff.1 hl).1; omega)
    rw [hl] at h5; cases h5
    exact h6 k
  obtain ⟨nodes, hn⟩ : ∃ nodes, (if (elements && graph) = true then g else some []) = some nodes := by
    cases (elements && graph)
    · exact ⟨[], rfl⟩
    · obtain ⟨x, hx⟩ := Option.isSome_iff_exists.1 hg
      exact ⟨x, hx⟩
  refine ⟨⟨nodes, readCliques (some file), m⟩, by rw [getExclusion, hn, Option.bind_some, h1]; rfl, ⟨cs.map Algo.sortNat, by rw [hread]; exact hp, ?_⟩,
    by rw [hread]; exact hs, h2, h4, ?_⟩
  · clear hid h hread hp hs hmem
    induction cs with
    | nil => exact .nil
    | cons c cs ih => exact .cons (Algo.sortNat_spec c) ih
  · intro r s lr ls hr hs'
    constructor
    · rintro ⟨k, hk, hk'⟩
      obtain ⟨a, ha, hra⟩ := (h4 r k lr hr).1 hk
      obtain ⟨b, hb, hsb⟩ := (h4 s k ls hs').1 hk'
      rw [ha] at hb; cases hb
      obtain ⟨c, hc, rfl⟩ := (hmem a).1 (List.mem_of_getElem? ha)
      exact ⟨c, hc, (Algo.mem_sortNat _ _).1 hra, (Algo.mem_sortNat _ _).1 hsb⟩
    · rintro ⟨c, hc, hrc, hsc⟩
      obtain ⟨k, hk⟩ := List.mem_iff_getElem?.1 ((hmem _).2 ⟨c, hc, rfl⟩)
      exact ⟨k, (h4 r k lr hr).2 ⟨_, hk, (Algo.mem_sortNat _ _).2 hrc⟩, (h4 s k ls hs').2 ⟨_, hk, (Algo.mem_sortNat _ _).2 hsc⟩⟩

/-- C154: neither the order of the lines nor the order within a line matters. -/
theorem C154_order (file file' : TypeNames.Text) (cs ds cs' : List (List Nat)) (h : FileOf file cs) (h' : FileOf file' cs')
    (hp : cs.Perm ds) (hq : List.Forall₂ List.Perm ds cs') : readCliques (some file) = readCliques (some file') := by
  have hds : ds.map Algo.sortNat = cs'.map Algo.sortNat := by
    clear hp h h'
    induction hq with
    | nil => rfl
    | cons h1 _ ih => rw [List.map_cons, List.map_cons, sortNat_eq h1, ih]
  rw [readCliques, readCliques, Option.getD_some, Option.getD_some, cliques_file h, cliques_file h', ← hds]
  exact sortLex_eq (hp.map _)

/-- a file with two cliques -/
theorem exCliqueFile : FileOf "2 0\n1\n".toList [[2, 0], [1]] := by
  refine ⟨["2 0".toList, "1".toList], .inl (by decide), .cons ⟨[['2'], ['0']], by decide, ?_⟩ (.cons ⟨[['1']], by decide, ?_⟩ .nil)⟩
  · exact .cons ⟨.inl ⟨by decide, by decide, by decide⟩, by decide⟩ (.cons ⟨.inl ⟨by decide, by decide, by decide⟩, by decide⟩ .nil)
  · exact .cons ⟨.inl ⟨by decide, by decide, by decide⟩, by decide⟩ .nil

/-- the same without the last newline -/
theorem exCliqueFile' : FileOf "2 0\n1".toList [[2, 0], [1]] := by
  refine ⟨["2 0".toList, "1".toList], .inr ⟨by decide, "2 0\n".toList, '1', by decide, by decide⟩,
    .cons ⟨[['2'], ['0']], by decide, ?_⟩ (.cons ⟨[['1']], by decide, ?_⟩ .nil)⟩
  · exact .cons ⟨.inl ⟨by decide, by decide, by decide⟩, by decide⟩ (.cons ⟨.inl ⟨by decide, by decide, by decide⟩, by decide⟩ .nil)
  · exact .cons ⟨.inl ⟨by decide, by decide, by decide⟩, by decide⟩ .nil

example : ∃ d, getExclusion false false (some []) (some "2 0\n1\n".toList) 3 = some d ∧
    (∃ sorted, d.sets.Perm sorted ∧
      List.Forall₂ (fun c s => s.Perm c ∧ s.Pairwise (· ≤ ·)) [[2, 0], [1]] sorted) := by
  obtain ⟨d, h1, h2, _⟩ := C154_cliques_partial false false (some []) rfl _ _ exCliqueFile 3 (by decide)
  exact ⟨d, h1, h2⟩

/-- C154 fails for a line with a blank at its end: an id without number is read as the largest number, and a route with this
number is looked up without any check. Whatever else the file has: undefined behaviour. -/
theorem C154_trailing_blank_negation (elements graph : Bool) (g : Option (List ES)) (before after : List TypeNames.Text)
    (l : TypeNames.Text) (hb : ∀ x ∈ before, '\n' ∉ x) (hl : '\n' ∉ l) (ha : ∀ x ∈ after, '\n' ∉ x) (irCount : Nat)
    (hir : irCount < 2 ^ 32) :
    getExclusion elements graph g
      (some ((before ++ (l ++ [' ']) :: after).flatMap fun x => x ++ ['\n'])) irCount = none := by
  have hread : readCliques (some ((before ++ (l ++ [' ']) :: after).flatMap fun x => x ++ ['\n'])) =
      sortLex (((before ++ (l ++ [' ']) :: after).map clique).map Algo.sortNat) := by
    rw [readCliques, Option.getD_some, lines_flat]
    intro x hx
    rcases List.mem_append.1 hx with hx | hx
    · exact hb x hx
    · rcases List.mem_cons.1 hx with rfl | hx
      · intro h
        rcases List.mem_append.1 h with h | h
        · exact hl h
        · exact absurd h (by decide)
      · exact ha x hx
  have : Exclusion.irsToExclusionSets
      (readCliques (some ((before ++ (l ++ [' ']) :: after).flatMap fun x => x ++ ['\n']))) irCount = none := by
    refine irsLoop_none _ _ _ ⟨Algo.sortNat (clique (l ++ [' '])), ?_, 2 ^ 32 - 1, ?_, by simp; omega⟩
    · rw [hread, (sortLex_spec _).1.mem_iff]
      exact List.mem_map.2 ⟨_, List.mem_map.2 ⟨l ++ [' '], by simp, rfl⟩, rfl⟩
    · exact (Algo.mem_sortNat _ _).2 (clique_trailing l)
  unfold getExclusion
  cases (if (elements && graph) = true then g else some []) with
  | none => rfl
  | some x => rw [Option.bind_some, this]; rfl

example : getExclusion false false (some []) (some "0 1 \n".toList) 2 = none := by
  have := C154_trailing_blank_negation false false (some []) [] [] "0 1".toList (by simp) (by decide) (by simp) 2 (by decide)
  exact this

/-- C154 fails for a missing file: it is not reported, there are no exclusion sets at all, whatever routes exclude each other. -/
theorem C154_missing_file_negation (g : List ES) (irCount : Nat) :
    ∃ d, getExclusion true true (some g) none irCount = some d ∧ d.graph = g ∧ d.sets = [] ∧
      ∀ r, r < irCount → d.irsToSets[r]? = some [] := by
  refine ⟨⟨g, [], List.replicate irCount []⟩, rfl, rfl, rfl, fun r hr => ?_⟩
  simp [List.getElem?_replicate, hr]

/-- C155 fails for the tool: it asks for the exclusion graph, but not for the exclusion elements, without which the graph is not
computed. The written file is empty whatever routes exclude each other. -/
theorem C155_tool_negation (g : Option (List ES)) (file : Option TypeNames.Text) (irCount : Nat) :
    (∀ t, exportTool g file irCount = some t → t = []) ∧ exportTool g none irCount = some [] := by
  refine ⟨fun t h => ?_, rfl⟩
  unfold exportTool getExclusion at h
  simp only [Bool.false_and, Bool.false_eq_true, if_false] at h
  cases hi : Exclusion.irsToExclusionSets (readCliques file) irCount with
  | none => simp [hi] at h
  | some m => simpa [hi, writeOut, writeFrom] using h.symm

/-- C155: what is written for a graph: a line for every route, in order; the line of a route lists, increasing, the lower routes
it excludes, and if the route does not exclude itself all of them. -/
theorem C155_rows (ns : List ES) (h : ∀ n ∈ ns, n.Reachable) :
    ∃ rows : List (List Nat), writeOut ns = some (rows.flatMap row) ∧ rows.length = ns.length ∧
      ∀ (u : Nat) n, ns[u]? = some n → ∃ r, rows[u]? = some r ∧ r.Pairwise (· < ·) ∧
        ∀ v, v ∈ r ↔ n.idx v = true ∧ (n.idx u = true → v < u) := by
  obtain ⟨rows, h1, h2, h3⟩ := writeFrom_spec ns 0 h
  exact ⟨rows, h1, h2, fun u n hu => by simpa using h3 u n hu⟩

/-- the graph of C17 and its export -/
theorem export_graph (ch : Nat → Nat → Nat) (closed : List (List Nat)) (elementCount T : Nat) (hT : 1 ≤ T)
    (sched : List Nat) (s : Exclusion.UState)
    (h : Exclusion.runThreads elementCount sched (Exclusion.initThreads closed T) = some s)
    (hfin : Exclusion.finished s = true) (he : ∀ es ∈ closed, ∀ e ∈ es, e < elementCount)
    (firstNode lastNode : Nat → Nat) (startingAt endingAt : Nat → List Nat)
    (hstart : ∀ n r, r ∈ startingAt n ↔ r < closed.length ∧ firstNode r = n)
    (hend : ∀ n r, r ∈ endingAt n ↔ r < closed.length ∧ lastNode r = n)
    (hsz : closed.length ≤ 2 ^ 32 - 64) :
    ∃ (d : Data) (rows : List (List Nat)), getExclusion true true
        (Exclusion.exclusionGraph ch closed (Exclusion.combine elementCount T s) firstNode lastNode startingAt endingAt)
        none closed.length = some d ∧ writeOut d.graph = some (rows.flatMap row) ∧ rows.length = closed.length ∧
      ∀ u, u < closed.length → ∃ r, rows[u]? = some r ∧ r.Pairwise (· < ·) ∧
        ∀ v, v ∈ r ↔ Excluded closed firstNode lastNode u v ∧ (Excluded closed firstNode lastNode u u → v < u) := by
  obtain ⟨g, h1, h2, h3, _⟩ := C17_exclusion_graph ch closed elementCount T hT sched s h hfin he firstNode lastNode startingAt
    endingAt hstart hend hsz
  obtain ⟨d, h4, h5, _⟩ := C154_missing_file_negation g closed.length
  obtain ⟨rows, h6, h7, h8⟩ := C155_rows g (by
    intro n hn
    obtain ⟨u, hu⟩ := List.mem_iff_getElem?.1 hn
    obtain ⟨m, h6, h7, _⟩ := h3 u (by have := (List.getElem?_eq_some_iff.1 hu).1; omega)
    rw [hu] at h6; cases h6; exact h7)
  refine ⟨d, rows, by rw [h1]; exact h4, by rw [h5]; exact h6, by omega, fun u hu => ?_⟩
  obtain ⟨n, h9, _, h10⟩ := h3 u hu
  obtain ⟨r, h11, h12, h13⟩ := h8 u n h9
  exact ⟨r, h11, h12, fun v => by rw [h13, h10, h10]⟩

/-- C155: if the exclusion elements are requested too, every pair of different routes that exclude each other is written exactly
once, in the line of the higher one, and nothing else is written.
Missing: routes that end where they start or have no exclusion elements, see `C155_loop_negation`; and the tool does not request
the elements, see `C155_tool_negation`. -/
theorem C155_export_partial (ch : Nat → Nat → Nat) (closed : List (List Nat)) (elementCount T : Nat) (hT : 1 ≤ T)
    (sched : List Nat) (s : Exclusion.UState)
    (h : Exclusion.runThreads elementCount sched (Exclusion.initThreads closed T) = some s)
    (hfin : Exclusion.finished s = true) (he : ∀ es ∈ closed, ∀ e ∈ es, e < elementCount)
    (firstNode lastNode : Nat → Nat) (startingAt endingAt : Nat → List Nat)
    (hstart : ∀ n r, r ∈ startingAt n ↔ r < closed.length ∧ firstNode r = n)
    (hend : ∀ n r, r ∈ endingAt n ↔ r < closed.length ∧ lastNode r = n)
    (hsz : closed.length ≤ 2 ^ 32 - 64) (hne : ∀ u es, closed[u]? = some es → es ≠ [] ∧ firstNode u ≠ lastNode u) :
    ∃ (d : Data) (rows : List (List Nat)), getExclusion true true
        (Exclusion.exclusionGraph ch closed (Exclusion.combine elementCount T s) firstNode lastNode startingAt endingAt)
        none closed.length = some d ∧ writeOut d.graph = some (rows.flatMap row) ∧ rows.length = closed.length ∧
      ∀ u, u < closed.length → ∃ r, rows[u]? = some r ∧ r.Pairwise (· < ·) ∧
        ∀ v, v ∈ r ↔ Excluded closed firstNode lastNode u v ∧ v < u := by
  obtain ⟨d, rows, h1, h2, h3, h4⟩ := export_graph ch closed elementCount T hT sched s h hfin he firstNode lastNode startingAt
    endingAt hstart hend hsz
  refine ⟨d, rows, h1, h2, h3, fun u hu => ?_⟩
  obtain ⟨r, h5, h6, h7⟩ := h4 u hu
  refine ⟨r, h5, h6, fun v => ?_⟩
  obtain ⟨es, hes⟩ : ∃ es, closed[u]? = some es := ⟨_, List.getElem?_eq_getElem hu⟩
  obtain ⟨hne1, hne2⟩ := hne u es hes
  obtain ⟨e, hee⟩ := List.exists_mem_of_ne_nil _ hne1
  have hself : Excluded closed firstNode lastNode u u := ⟨⟨e, es, es, hes, hes, hee, hee⟩, hne2, fun h => hne2 h.symm⟩
  rw [h7]
  exact ⟨fun ⟨a, b⟩ => ⟨a, b hself⟩, fun ⟨a, b⟩ => ⟨a, fun _ => b⟩⟩

/-- the hypotheses of `C155_export_partial`: routes 0 and 1 share element 0 -/
example : ∃ (s : Exclusion.UState) (startingAt endingAt : Nat → List Nat),
    Exclusion.runThreads 1 [0, 1] (Exclusion.initThreads [[0], [0]] 2) = some s ∧ Exclusion.finished s = true ∧
    (∀ n r, r ∈ startingAt n ↔ r < 2 ∧ (fun r => 10 * r) r = n) ∧
    (∀ n r, r ∈ endingAt n ↔ r < 2 ∧ (fun r => 10 * r + 5) r = n) ∧
    (∀ u es, ([[0], [0]] : List (List Nat))[u]? = some es → es ≠ [] ∧ (fun r => 10 * r) u ≠ (fun r => 10 * r + 5) u) := by
  refine ⟨_, fun n => (List.range 2).filter (fun r => 10 * r = n), fun n => (List.range 2).filter (fun r => 10 * r + 5 = n),
    rfl, by decide, by intro n r; simp, by intro n r; simp, ?_⟩
  intro u es h
  refine ⟨?_, by simp⟩
  rcases u with _ | _ | u <;> simp at h <;> simp [← h]

/-- C155 fails for a route that ends where it starts: it is taken out of its own set, therefore its line has all routes it
excludes, and each pair with a higher route is written twice. -/
theorem C155_loop_negation (ch : Nat → Nat → Nat) (closed : List (List Nat)) (elementCount T : Nat) (hT : 1 ≤ T)
    (sched : List Nat) (s : Exclusion.UState)
    (h : Exclusion.runThreads elementCount sched (Exclusion.initThreads closed T) = some s)
    (hfin : Exclusion.finished s = true) (he : ∀ es ∈ closed, ∀ e ∈ es, e < elementCount)
    (firstNode lastNode : Nat → Nat) (startingAt endingAt : Nat → List Nat)
    (hstart : ∀ n r, r ∈ startingAt n ↔ r < closed.length ∧ firstNode r = n)
    (hend : ∀ n r, r ∈ endingAt n ↔ r < closed.length ∧ lastNode r = n)
    (hsz : closed.length ≤ 2 ^ 32 - 64) (u v : Nat) (huv : u < v) (hv : v < closed.length)
    (hloop : firstNode u = lastNode u) (hex : Excluded closed firstNode lastNode u v) :
    ∃ (d : Data) (rows : List (List Nat)) (ru rv : List Nat), getExclusion true true
        (Exclusion.exclusionGraph ch closed (Exclusion.combine elementCount T s) firstNode lastNode startingAt endingAt)
        none closed.length = some d ∧ writeOut d.graph = some (rows.flatMap row) ∧ rows.length = closed.length ∧
      rows[u]? = some ru ∧ rows[v]? = some rv ∧ v ∈ ru ∧ u ∈ rv := by
  obtain ⟨d, rows, h1, h2, h3, h4⟩ := export_graph ch closed elementCount T hT sched s h hfin he firstNode lastNode startingAt
    endingAt hstart hend hsz
  obtain ⟨ru, h5, _, h6⟩ := h4 u (by omega)
  obtain ⟨rv, h7, _, h8⟩ := h4 v hv
  exact ⟨d, rows, ru, rv, h1, h2, h3, h5, h7, (h6 v).2 ⟨hex, fun hs => absurd hloop hs.2.1⟩, (h8 u).2 ⟨hex.symm, fun _ => huv⟩⟩

example : Excluded [[0], [0]] (fun r => if r = 0 then 5 else 7) (fun r => if r = 0 then 5 else 8) 0 1 :=
  ⟨⟨0, [0], [0], rfl, rfl, by decide, by decide⟩, by decide, by decide⟩

end Soro
