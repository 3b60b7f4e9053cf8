import Verif.Proof.IssElement

/-! Properties C141 - C143: speed limits, data of elements and station routes of the input files. -/

namespace Soro
open IssElement Utls Utls.Spec TypeNames ParseFp

/-! ### C141 -/

theorem effects_known (e : Effects) : parseEffects (match e with
    | .all => "Alle".toList
    | .conventional => "Konventionell".toList
    | .lzbEtcs => "LZB".toList) = some e := by
  cases e <;> decide +kernel

theorem poa_swapped (p : Poa) : ∃ p', parsePoa (match p with
    | .here => "Hier".toList
    | .lastSignal => "Signal".toList) = some p' ∧ p' ≠ p := by
  cases p
  · exact ⟨.lastSignal, by decide +kernel, by decide⟩
  · exact ⟨.here, by decide +kernel, by decide⟩

theorem limitSpeed_says {x : Xml} {v : Option Rat} (h : SaysSpeed x v) :
    limitSpeed (some x) = v.map fun v => some (v / (18 / 5)) := by
  cases v with
  | none => rw [limitSpeed, child_lacks h]; rfl
  | some v =>
    obtain ⟨k, h1, h2⟩ := h
    rw [limitSpeed, child_first h1, childText_first h1, C139_decimal_partial.1 h2, Option.map_some, Option.map_some, fromKmH,
      Option.map_some]
    congr 2
    ring

theorem limitLength_says {x : Xml} {l : Option Rat} (h : SaysLength x l) : limitLength (some x) = l.map some := by
  cases l with
  | none => rw [limitLength, child_lacks h]; rfl
  | some l =>
    obtain ⟨k, q, h1, h2, h3⟩ := h
    rw [limitLength, child_first h1, childText_first h1, C139_decimal_partial.1 h2, Option.map_some, Option.map_some, fromKm,
      Option.map_some]
    rcases h3 with ⟨h3, rfl⟩ | ⟨h3, rfl⟩
    · rw [attr_has h3, if_pos rfl, mul_comm]
    · rw [attr_has h3, if_neg (by decide)]

/-- C141 but for the place where limits begin to act: kind, trains concerned, speed, length and origin of a limit are those the
node says. -/
theorem C141_fields_partial {x : Xml} {k : LimitKind} {e : Effects} {p : Poa} {v l : Option Rat} (hk : SaysKind x k)
    (he : SaysEffects x e) (hp : SaysPoa x p) (hv : SaysSpeed x v) (hl : SaysLength x l) :
    ∃ r, getSpeedLimit (some x) = some r ∧ r.kind = k ∧ r.effects = e ∧ r.limit = v.map (fun v => some (v / (18 / 5))) ∧
      r.length = l.map some ∧ (r.calculated = true ↔ ¬ Lacks x "Berechnet".toList) ∧ r.poa ≠ p := by
  obtain ⟨ke, he1, he2⟩ := he
  obtain ⟨kp, hp1, hp2⟩ := hp
  obtain ⟨p', hp3, hp4⟩ := poa_swapped p
  have h1 : parseEffects (childText (some x) "Zugbeeinflussung".toList) = some e := by
    rw [childText_first he1, he2]; exact effects_known e
  have h2 : parsePoa (childText (some x) "Wirkungsort".toList) = some p' := by
    rw [childText_first hp1, hp2]; exact hp3
  refine ⟨⟨limitKind (name (some x)), e, (child (some x) "Berechnet".toList).isSome, limitSpeed (some x), p',
    limitLength (some x)⟩, by unfold getSpeedLimit; rw [h1, h2], ?_, rfl, limitSpeed_says hv, limitLength_says hl, ?_, hp4⟩
  · show limitKind x.name = k
    cases k with
    | invalid => exact absurd hk (by simp [SaysKind])
    | generalAllowed =>
      simp only [SaysKind, List.mem_cons, List.not_mem_nil, or_false] at hk
      rw [limitKind, if_pos hk]
    | endSpecial =>
      simp only [SaysKind, List.mem_cons, List.not_mem_nil, or_false] at hk
      rcases hk with hk | hk <;> rw [hk] <;> decide
  · show (child (some x) "Berechnet".toList).isSome = true ↔ _
    by_cases hb : Lacks x "Berechnet".toList
    · rw [child_lacks hb]; exact ⟨fun h => (by cases h), fun h => absurd hb h⟩
    · simp only [hb, not_false_eq_true, iff_true]
      unfold Lacks at hb
      simp only [not_forall, not_not] at hb
      obtain ⟨kb, h3, h4⟩ := hb
      rw [child, Option.bind_some, List.find?_isSome]
      exact ⟨kb, h3, by rw [h4]; exact beq_self_eq_true _⟩

/-- C141 is false for the place where limits begin to act: every limit that acts here is read as one that acts from the last
signal on, and vice versa; a limit here with a length becomes the combination that the data structure excludes. -/
theorem C141_place_negation {x : Xml} {e : Effects} (he : SaysEffects x e) :
    (SaysPoa x .here → ∃ r, getSpeedLimit (some x) = some r ∧ r.poa = .lastSignal ∧
      (∀ l, SaysLength x (some l) → r.length = some (some l))) ∧
    (SaysPoa x .lastSignal → ∃ r, getSpeedLimit (some x) = some r ∧ r.poa = .here) := by
  obtain ⟨ke, he1, he2⟩ := he
  have h1 : parseEffects (childText (some x) "Zugbeeinflussung".toList) = some e := by
    rw [childText_first he1, he2]; exact effects_known e
  refine ⟨fun ⟨kp, hp1, hp2⟩ => ?_, fun ⟨kp, hp1, hp2⟩ => ?_⟩
  · have h2 : parsePoa (childText (some x) "Wirkungsort".toList) = some .lastSignal := by
      rw [childText_first hp1, hp2]; decide +kernel
    exact ⟨⟨limitKind (name (some x)), e, (child (some x) "Berechnet".toList).isSome, limitSpeed (some x), .lastSignal,
      limitLength (some x)⟩, by unfold getSpeedLimit; rw [h1, h2], rfl, fun l hl => limitLength_says hl⟩
  · have h2 : parsePoa (childText (some x) "Wirkungsort".toList) = some .here := by
      rw [childText_first hp1, hp2]; decide +kernel
    exact ⟨⟨limitKind (name (some x)), e, (child (some x) "Berechnet".toList).isSome, limitSpeed (some x), .here,
      limitLength (some x)⟩, by unfold getSpeedLimit; rw [h1, h2], rfl⟩

/-- C141: nodes with unknown places or trains are rejected, unless the text has the hash of a known one. -/
theorem C141_unknown_partial {x : Xml} {s : Text} :
    (SaysText x "Wirkungsort".toList s → s ∉ ["Hier".toList, "Signal".toList] → ¬ Collides s ["Hier", "Signal"] →
      getSpeedLimit (some x) = none) ∧
    (SaysText x "Zugbeeinflussung".toList s → s ∉ ["Alle".toList, "Konventionell".toList, "LZB".toList] →
      ¬ Collides s ["Alle", "Konventionell", "LZB"] → getSpeedLimit (some x) = none) := by
  have key : ∀ (ws : List String), s ∉ ws.map String.toList → ¬ Collides s ws → ∀ w ∈ ws, strHash w.toList ≠ strHash s :=
    fun ws h1 h2 w hw he => h2 ⟨w, hw, he, fun h => h1 (List.mem_map.2 ⟨w, hw, h⟩)⟩
  refine ⟨fun h1 h2 h3 => ?_, fun h1 h2 h3 => ?_⟩
  · have h4 := key ["Hier", "Signal"] h2 h3
    have : parsePoa s = none := switchHash_unknown _ (by
      intro c hc
      simp only [List.mem_cons, List.not_mem_nil, or_false] at hc
      rcases hc with rfl | rfl
      · exact h4 "Signal" (by simp)
      · exact h4 "Hier" (by simp))
    unfold getSpeedLimit
    rw [childText_says h1, this]
  · have h4 := key ["Alle", "Konventionell", "LZB"] h2 h3
    have : parseEffects s = none := switchHash_unknown _ (by
      intro c hc
      simp only [List.mem_cons, List.not_mem_nil, or_false] at hc
      rcases hc with rfl | rfl | rfl
      · exact h4 "Alle" (by simp)
      · exact h4 "Konventionell" (by simp)
      · exact h4 "LZB" (by simp))
    unfold getSpeedLimit
    rw [childText_says h1, this]
    cases parsePoa (childText (some x) "Wirkungsort".toList) <;> rfl

/-- a leaf -/
def leaf (n t : String) : Xml := .node n.toList [] t.toList []

def exLimit (place trains : String) : Xml :=
  .node "GeschwZulaessigS".toList [] [] [leaf "Geschw" "90",
    .node "Laenge".toList [("Einheit".toList, "km".toList)] "1,5".toList [], leaf "Wirkungsort" place,
    leaf "Zugbeeinflussung" trains]

/-- C141 is false: unknown places and trains with the hash of known ones are accepted. -/
theorem C141_collision_negation :
    (∃ r, getSpeedLimit (some (exLimit "VorZrvmff" "Alle")) = some r) ∧
    (∃ r, getSpeedLimit (some (exLimit "Signal" "KeineZrRhTD")) = some r) := by
  refine ⟨Option.isSome_iff_exists.1 ?_, Option.isSome_iff_exists.1 ?_⟩ <;> decide +kernel

example : SaysKind (exLimit "Hier" "LZB") .generalAllowed ∧ SaysEffects (exLimit "Hier" "LZB") .lzbEtcs ∧
    SaysPoa (exLimit "Hier" "LZB") .here ∧ SaysSpeed (exLimit "Hier" "LZB") (some 90) ∧
    SaysLength (exLimit "Hier" "LZB") (some 1500) := by
  refine ⟨by simp [SaysKind, exLimit, Xml.name], ⟨leaf "Zugbeeinflussung" "LZB", ⟨[_, _, _], [], rfl, rfl, ?_⟩, rfl⟩,
    ⟨leaf "Wirkungsort" "Hier", ⟨[_, _], [_], rfl, rfl, ?_⟩, rfl⟩,
    ⟨leaf "Geschw" "90", ⟨[], [_, _, _], rfl, rfl, by simp⟩, false, "90".toList, [], by decide, by unfold AllDigits; decide,
      by unfold AllDigits; decide, .inl ⟨rfl, rfl⟩, by decide +kernel⟩,
    ⟨_, 3 / 2, ⟨[_], [_, _], rfl, rfl, ?_⟩, ⟨false, "1".toList, "5".toList, by decide, by unfold AllDigits; decide,
      by unfold AllDigits; decide, .inr ⟨',', by decide, rfl⟩, by decide +kernel⟩, .inl ⟨⟨[], [], rfl, by simp⟩, by norm_num⟩⟩⟩
  · simp [leaf, Xml.name]
  · simp [leaf, Xml.name]
  · simp [leaf, Xml.name]

/-! ### C142 -/

/-- C142 but for halts with platforms on both sides ("Beide"): a halt has the name and the identifiers of the node, and its
name tells for whom it is and on which sides its platforms are. -/
theorem C142_halts_partial {x : Xml} {w : String} {passenger left right rising : Bool} {n op ex : Text}
    (hw : (w, passenger, left, right) ∈ haltNames) (hb : w ≠ "HalteplatzRzBeide")
    (hx : x.name = w.toList ++ [if rising then 'S' else 'F']) (hn : SaysText x "Name".toList n)
    (ho : SaysText x "BezeichnerBetrieb".toList op) (he : SaysText x "BezeichnerExtern".toList ex) :
    elementData (some x) = some (.halt ⟨n, op, ex, passenger, left, right⟩) := by
  have hall : ∀ p ∈ haltNames, p.1 ≠ "HalteplatzRzBeide" → ∀ r : Bool,
      getType (p.1.toList ++ [if r then 'S' else 'F']) = .halt ∧
      hasInfix (p.1.toList ++ [if r then 'S' else 'F']) "Rz".toList = p.2.1 ∧
      hasInfix (p.1.toList ++ [if r then 'S' else 'F']) "Links".toList = p.2.2.1 ∧
      hasInfix (p.1.toList ++ [if r then 'S' else 'F']) "Rechts".toList = p.2.2.2 := by decide +kernel
  obtain ⟨h1, h2, h3, h4⟩ := hall _ hw hb rising
  have hname : name (some x) = x.name := rfl
  simp only [elementData, getHalt, hname, hx, h1, h2, h3, h4, childText_says hn, childText_says ho, childText_says he]

/-- C142 is false for halts with platforms on both sides: they are read as halts without platforms. -/
theorem C142_both_sides_negation {x : Xml} {rising : Bool}
    (hx : x.name = "HalteplatzRzBeide".toList ++ [if rising then 'S' else 'F']) :
    ("HalteplatzRzBeide", true, true, true) ∈ haltNames ∧ ∃ h, elementData (some x) = some (.halt h) ∧
      h.passenger = true ∧ h.left = false ∧ h.right = false := by
  have hall : ∀ r : Bool,
      getType ("HalteplatzRzBeide".toList ++ [if r then 'S' else 'F']) = .halt ∧
      hasInfix ("HalteplatzRzBeide".toList ++ [if r then 'S' else 'F']) "Rz".toList = true ∧
      hasInfix ("HalteplatzRzBeide".toList ++ [if r then 'S' else 'F']) "Links".toList = false ∧
      hasInfix ("HalteplatzRzBeide".toList ++ [if r then 'S' else 'F']) "Rechts".toList = false := by decide +kernel
  obtain ⟨h1, h2, h3, h4⟩ := hall rising
  have hname : name (some x) = x.name := rfl
  refine ⟨by simp [haltNames], getHalt (some x), ?_, ?_, ?_, ?_⟩
  · simp only [elementData, hname, hx, h1]
  · simp only [getHalt, hname, hx, h2]
  · simp only [getHalt, hname, hx, h3]
  · simp only [getHalt, hname, hx, h4]

/-- C142: slopes, ends of train detection, main signals and all other elements that are no halts and no speed limits have the
data of their node. -/
theorem C142_other_elements {x : Xml} {t : Ty} {rising : Bool} (hx : Names x.name t rising) :
    (t = .slope → ∀ ks kf r f, First x "Steigend".toList ks → First x "Fallend".toList kf → Decimal [',', '.'] ks.text r →
      Decimal [',', '.'] kf.text f → elementData (some x) = some (.slope (some r) (some f))) ∧
    (t = .eotd → ∃ signal, elementData (some x) = some (.eotd signal) ∧
      (signal = true ↔ ∃ c, x.name = "SignalZugschlussstelle".toList ++ [c])) ∧
    (t = .mainSignal → ∀ n, SaysText x "Name".toList n → elementData (some x) = some (.mainSignal n)) ∧
    (t = .speedLimit → elementData (some x) = (getSpeedLimit (some x)).map .speedLimit) ∧
    (t ∉ [.slope, .eotd, .mainSignal, .speedLimit, .halt] → elementData (some x) = some .empty) := by
  have ht := (C138_vocabulary hx).1
  have hname : name (some x) = x.name := rfl
  refine ⟨?_, ?_, ?_, ?_, ?_⟩
  · rintro rfl ks kf r f h1 h2 h3 h4
    simp only [elementData, hname, ht, getSlope, childText_first h1, childText_first h2, C139_decimal_partial.1 h3,
      C139_decimal_partial.1 h4]
  · rintro rfl
    refine ⟨x.name == "SignalZugschlussstelleF".toList || x.name == "SignalZugschlussstelleS".toList,
      by simp only [elementData, hname, ht, getEotd], ?_⟩
    have hd : ∀ p ∈ directedNames, p.2 = .eotd → p.1 = "FstrZugschlussstelle" ∨ p.1 = "SignalZugschlussstelle" := by
      decide +kernel
    have ho : ∀ p ∈ otherNames, p.2 ≠ Ty.eotd := by decide +kernel
    have hlast : ∀ (c : Char) (a b : Text), a = b ++ [c] → c = a.getLast?.getD 'x' ∧ b = a.dropLast := by
      rintro c a b rfl; simp
    generalize hs : x.name = s at hx
    cases hx with
    | rising w _ hw =>
      rcases hd _ hw rfl with h | h <;> simp only at h <;> subst h
      · refine ⟨fun h => absurd h (by decide), fun ⟨c, hc⟩ => ?_⟩
        have := (hlast _ _ _ hc).2
        exact absurd this (by decide)
      · exact ⟨fun _ => ⟨'S', rfl⟩, fun _ => by decide⟩
    | falling w _ hw =>
      rcases hd _ hw rfl with h | h <;> simp only at h <;> subst h
      · refine ⟨fun h => absurd h (by decide), fun ⟨c, hc⟩ => ?_⟩
        have := (hlast _ _ _ hc).2
        exact absurd this (by decide)
      · exact ⟨fun _ => ⟨'F', rfl⟩, fun _ => by decide⟩
    | other w _ hw => exact absurd rfl (ho _ hw)
  · rintro rfl n hn
    simp only [elementData, hname, ht, childText_says hn]
  · rintro rfl
    simp only [elementData, hname, ht]
  · intro h
    simp only [elementData, hname, ht]
    cases t <;> first | rfl | exact absurd h (by decide)

example : Names (Xml.name (leaf "SignalZugschlussstelleS" "")) .eotd true ∧
    SaysText (leaf "SignalZugschlussstelleS" "") "Name".toList [] :=
  ⟨.rising "SignalZugschlussstelle" .eotd (by decide), .inr ⟨by simp [Lacks, leaf, Xml.kids], rfl⟩⟩

/-! ### C143 -/

/-- the limits of the nodes but those at warning signs, with their elements -/
inductive Limits (elementOf : Nat → Option Nat) : List Xml → List (Limit × Nat) → Prop where
  | nil : Limits elementOf [] []
  | warning (x k : Xml) (xs : List Xml) (ls : List (Limit × Nat)) : First x "Knoten".toList k →
      HasAttr k "Typ".toList "Warnfeld".toList → Limits elementOf xs ls → Limits elementOf (x :: xs) ls
  | limit (x k : Xml) (xs : List Xml) (t : Text) (id e : Nat) (l : Limit) (ls : List (Limit × Nat)) :
      First x "Knoten".toList k → HasAttr k "Typ".toList t → t ≠ "Warnfeld".toList → SaysNode x "Knoten".toList id →
      elementOf id = some e → getSpeedLimit (some x) = some l → Limits elementOf xs ls → Limits elementOf (x :: xs) ((l, e) :: ls)

theorem routeLimits_spec {elementOf : Nat → Option Nat} {xs : List Xml} {ls : List (Limit × Nat)} (h : Limits elementOf xs ls) :
    routeLimits elementOf xs = some ls := by
  induction h with
  | nil => rfl
  | warning x k xs ls h1 h2 _ ih => rw [routeLimits, child_first h1, attr_has h2, if_pos rfl, ih]
  | limit x k xs t id e l ls h1 h2 h3 h4 h5 h6 _ ih =>
    have h7 := (says_node h4).1
    rw [routeLimits, h7]
    rw [child_first h1, attr_has h2, if_neg h3, Option.bind_some, h5, h6, ih]
    rfl

/-- an optional node: its number, or the number that stands for none -/
def SaysOptionalNode (x : Xml) (n : Text) (id : Nat) : Prop := SaysNode x n id ∨ Lacks x n ∧ id = 2 ^ 64 - 1

/-- C143, if all attributes are known: name, ends, stops, course and speed limits of a station route are those of the node, and
an attribute is set iff it is listed. -/
theorem C143_route_partial {elementOf : Nat → Option Nat} {x : Xml} {n : Text} {start fin checkpoint passenger freight : Nat}
    {attributes course limits : List Xml} {ls : List (Limit × Nat)}
    (hn : SaysText x "Name".toList n) (hs : SaysNode x "Anfang".toList start) (hf : SaysNode x "Ende".toList fin)
    (hc : SaysOptionalNode x "Fahrzeitmesspunkt".toList checkpoint)
    (hp : SaysOptionalNode x "Reisezughalt".toList passenger) (hg : SaysOptionalNode x "Gueterzughalt".toList freight)
    (ha : Members x "Attribute".toList attributes) (hak : ∀ a ∈ attributes, a.name ∈ attributeNames)
    (hco : Members x "Verlauf".toList course) (hl : Members x "GeschwBeschraenkungen".toList limits)
    (hls : Limits elementOf limits ls) :
    ∃ r, parseRoute elementOf (some x) = some r ∧ r.name = n ∧ r.start = start ∧ r.fin = fin ∧ r.checkpoint = checkpoint ∧
      r.passengerHalt = passenger ∧ r.freightHalt = freight ∧ r.limits = ls ∧ r.attributes.length = attributeNames.length ∧
      (∀ (i : Nat) (a : Text), attributeNames[i]? = some a → (r.attributes[i]? = some true ↔ ∃ k ∈ attributes, k.name = a)) ∧
      r.course.length = course.length ∧
      ∀ (i : Nat) (k : Xml), course[i]? = some k → (r.course[i]? = some .stem ↔ k.name = "Stamm".toList) := by
  have opt : ∀ m id, SaysOptionalNode x m id → optionalId (child (some x) m) = some id := by
    intro m id h
    rcases h with h | ⟨h, rfl⟩
    · obtain ⟨k, h1, h2⟩ := (says_node h).2
      rw [h1, h2]
    · rw [child_lacks h, optionalId]
  obtain ⟨bs, h1, h2, h3⟩ := setAttributes_spec attributes (List.replicate 11 false) (by simp) hak
  have hr : parseRoute elementOf (some x) = some {
      name := childText (some x) "Name".toList
      start := start
      fin := fin
      passengerHalt := passenger
      freightHalt := freight
      checkpoint := checkpoint
      omitted := ((kids (child (some x) "EntfallendeKnoten".toList)).filter fun k => k.name == "EntfallenderKnoten".toList).map
        fun k => ((parseInt ⟨false, 8⟩ (attr (some k) "ID".toList)).toNat, getType (attr (some k) "Typ".toList))
      attributes := bs
      course := course.map fun k => if k.name = "Stamm".toList then .stem else .branch
      limits := ls } := by
    unfold parseRoute
    rw [(says_node hs).1, (says_node hf).1, opt _ _ hc, opt _ _ hp, opt _ _ hg, kids_members ha, kids_members hl,
      kids_members hco, h1, routeLimits_spec hls]
    rfl
  refine ⟨_, hr, childText_says hn, rfl, rfl, rfl, rfl, rfl, rfl, h2, fun i a hi => ?_, List.length_map .., fun i k hk => ?_⟩
  · show bs[i]? = some true ↔ _
    rw [h3 i a hi]
    have : (List.replicate 11 false)[i]? ≠ some true := by
      rw [List.getElem?_replicate]; split <;> simp
    exact ⟨fun h => h.resolve_left this, .inr⟩
  · show (course.map fun k => if k.name = "Stamm".toList then Course.stem else .branch)[i]? = some .stem ↔ _
    rw [List.getElem?_map, hk, Option.map_some, Option.some.injEq]
    split
    · rename_i h; exact ⟨fun _ => h, fun _ => rfl⟩
    · rename_i h; exact ⟨fun h' => (by cases h'), fun h' => absurd h' h⟩

/-- C143 is false if an attribute is unknown, wherever it is listed: the array of attributes is written outside of its bounds. -/
theorem C143_unknown_attribute_negation {elementOf : Nat → Option Nat} {x : Xml} {attributes : List Xml}
    (ha : Members x "Attribute".toList attributes) {a : Xml} (hm : a ∈ attributes) (hu : a.name ∉ attributeNames) :
    (∀ as : List Bool, as.length = 11 → setAttributes attributes as = none) ∧ parseRoute elementOf (some x) = none := by
  have key : ∀ (xs : List Xml) (as : List Bool), a ∈ xs → as.length = 11 → setAttributes xs as = none := by
    intro xs
    induction xs with
    | nil => intro as h; cases h
    | cons y ys ih =>
      intro as h hlen
      rw [setAttributes]
      rcases List.mem_cons.1 h with rfl | h
      · have : attributeNames.findIdx? (· == a.name) = none := by
          rw [List.findIdx?_eq_none_iff]
          intro n hn
          simp only [beq_eq_false_iff_ne, ne_eq]
          rintro rfl
          exact hu hn
        rw [attributeIndex, this, if_neg]
        simp [hlen]
      · split
        · exact ih _ h (by simpa using hlen)
        · rfl
  refine ⟨fun as h => key _ _ hm h, ?_⟩
  unfold parseRoute
  rw [kids_members ha, key _ (List.replicate 11 false) hm (by simp)]
  simp only [bind, Option.bind]
  repeat' split
  all_goals first | rfl | (rename_i h; cases h)

/-- C143: the omitted nodes are listed with their number and type. -/
theorem C143_omitted {elementOf : Nat → Option Nat} {x : Xml} {r : Route} {omitted : List Xml}
    (h : parseRoute elementOf (some x) = some r) (ho : Members x "EntfallendeKnoten".toList omitted)
    (hn : ∀ k ∈ omitted, k.name = "EntfallenderKnoten".toList) :
    r.omitted.length = omitted.length ∧ ∀ (i : Nat) (k : Xml) (ds s : Text) (t : Ty) (rising : Bool), omitted[i]? = some k →
      HasAttr k "ID".toList ds → ds ≠ [] → AllDigits ds → value ds < 2 ^ 64 → HasAttr k "Typ".toList s → Names s t rising →
      r.omitted[i]? = some (value ds, t) := by
  have hr : r.omitted = omitted.map fun k =>
      ((parseInt ⟨false, 8⟩ (attr (some k) "ID".toList)).toNat, getType (attr (some k) "Typ".toList)) := by
    unfold parseRoute at h
    rw [kids_members ho, List.filter_eq_self.2 (by simpa using hn)] at h
    simp only [bind, Option.bind_eq_some_iff, pure, Option.some.injEq] at h
    obtain ⟨_, _, _, _, _, _, _, _, _, _, _, _, _, _, rfl⟩ := h
    rfl
  refine ⟨by rw [hr, List.length_map], fun i k ds s t rising hk hid hne hd hv hs ht => ?_⟩
  rw [hr, List.getElem?_map, hk, Option.map_some, attr_has hid, attr_has hs, (C138_vocabulary ht).1]
  have := C60_parse_int ⟨false, 8⟩ ds (value ds) (.inl ⟨hne, hd, rfl⟩)
    ⟨by simp [IntTy.min], by simp only [IntTy.max]; norm_num; omega⟩
  rw [this, Int.toNat_natCast]

/-- a node with a number -/
def ref (n id : String) : Xml := .node n.toList [("ID".toList, id.toList)] [] []

def exRoute (a : String) : Xml :=
  .node "Betriebsstellenfahrweg".toList [] [] [leaf "Name" "A-B", ref "Anfang" "12", ref "Ende" "34", ref "Reisezughalt" "56",
    .node "Attribute".toList [] [] [leaf "Elektrifiziert" "", leaf a ""],
    .node "Verlauf".toList [] [] [leaf "Stamm" "", leaf "Abzweig" ""],
    .node "EntfallendeKnoten".toList [] [] [.node "EntfallenderKnoten".toList
      [("ID".toList, "7".toList), ("Typ".toList, "HauptsignalS".toList)] [] []]]

theorem exRoute_node (a n id : String) (pre post : List Xml) (hk : (exRoute a).kids = pre ++ ref n id :: post)
    (hpre : ∀ p ∈ pre, p.name ≠ n.toList) (hd : id.toList ≠ []) (hd' : AllDigits id.toList) (hv : value id.toList < 2 ^ 64) :
    SaysNode (exRoute a) n.toList (value id.toList) :=
  ⟨ref n id, id.toList, ⟨pre, post, hk, rfl, hpre⟩, ⟨[], [], rfl, by simp⟩, hd, hd', rfl, hv⟩

example : SaysText (exRoute "Stumpfgleis") "Name".toList "A-B".toList ∧ SaysNode (exRoute "Stumpfgleis") "Anfang".toList 12 ∧
    SaysNode (exRoute "Stumpfgleis") "Ende".toList 34 ∧
    SaysOptionalNode (exRoute "Stumpfgleis") "Fahrzeitmesspunkt".toList (2 ^ 64 - 1) ∧
    SaysOptionalNode (exRoute "Stumpfgleis") "Reisezughalt".toList 56 ∧
    Members (exRoute "Stumpfgleis") "Attribute".toList [leaf "Elektrifiziert" "", leaf "Stumpfgleis" ""] ∧
    (∀ a ∈ [leaf "Elektrifiziert" "", leaf "Stumpfgleis" ""], a.name ∈ attributeNames) ∧
    (parseRoute (fun _ => none) (some (exRoute "Stumpfgleis"))).map (fun r => (r.start, r.course)) =
      some (12, [.stem, .branch]) ∧
    (parseRoute (fun _ => none) (some (exRoute "Stumpfgleis"))).map Route.omitted = some [(7, .mainSignal)] ∧
    parseRoute (fun _ => none) (some (exRoute "Tunnel")) = none := by
  refine ⟨.inl ⟨leaf "Name" "A-B", ⟨[], _, rfl, rfl, by simp⟩, rfl⟩,
    exRoute_node _ "Anfang" "12" [_] _ rfl (by simp [leaf, Xml.name]) (by decide) (by unfold AllDigits; decide) (by decide),
    exRoute_node _ "Ende" "34" [_, _] _ rfl (by simp [leaf, ref, Xml.name]) (by decide) (by unfold AllDigits; decide) (by decide),
    .inr ⟨by simp [Lacks, exRoute, leaf, ref, Xml.name, Xml.kids], rfl⟩,
    .inl (exRoute_node _ "Reisezughalt" "56" [_, _, _] _ rfl (by simp [leaf, ref, Xml.name]) (by decide)
      (by unfold AllDigits; decide) (by decide)),
    .inl ⟨_, ⟨[_, _, _, _], _, rfl, rfl, by simp [leaf, ref, Xml.name]⟩, rfl⟩, by decide, by decide +kernel,
    by decide +kernel, by decide +kernel⟩

end Soro
