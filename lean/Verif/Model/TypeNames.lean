/-
Model of `include/soro/utls/string.h:15-32` (hashing of texts), `src/infrastructure/graph/type.cc`,
`include/soro/infrastructure/graph/type.h` and `has_rising_name`: types of elements and their names in the input files.

Texts are lists of bytes without zero; a byte is given by the character with its number.
-/

namespace Soro.TypeNames

abbrev Text := List Char

/-- one round of the hash: string.h:17-19 -/
def hashStep (h : BitVec 32) (c : Char) : BitVec 32 := (h ^^^ (BitVec.ofNat 8 c.toNat).setWidth 32) * 16777619#32

/-- string.h:16-32 `str_hash`: the terminating zero is hashed, too -/
def strHash (s : Text) : BitVec 32 := (s ++ ['\x00']).foldl hashStep 2166136261#32

/-- type.h:12-49, in the order of the enumeration -/
inductive Ty where
  | bumper | trackEnd
  | kmJump | border | lineSwitch
  | simpleSwitch
  | cross
  | mainSignal | protectionSignal | approachSignal | runtimeCheckpoint | eotd | speedLimit | pointSpeed | brakePath
  | lzbStart | lzbEnd | lzbBlockSign | etcsStart | etcsEnd | etcsBlockSign | forcedHalt | meta' | halt
  | tunnel | entry | trackName | runtimeCheckpointUndirected | levelCrossing | slope
  | invalid
deriving DecidableEq, Repr

/-- the number of an enumerator -/
def Ty.id (t : Ty) : Nat := t.ctorIdx

/-- type.h:75-77 -/
def isEndElement (t : Ty) : Bool := decide (Ty.bumper.id ≤ t.id) && decide (t.id ≤ Ty.trackEnd.id)
/-- type.h:79-81 -/
def isSimpleElement (t : Ty) : Bool := decide (Ty.kmJump.id ≤ t.id) && decide (t.id ≤ Ty.lineSwitch.id)
/-- type.h:83-85 -/
def isSimpleSwitch (t : Ty) : Bool := t == .simpleSwitch
/-- type.h:87-89 -/
def isTrackElement (t : Ty) : Bool := decide (Ty.mainSignal.id ≤ t.id) && decide (t.id ≤ Ty.slope.id)
/-- type.h:91-93 -/
def isDirected (t : Ty) : Bool := decide (Ty.mainSignal.id ≤ t.id) && decide (t.id ≤ Ty.halt.id)
/-- type.h:95-97 -/
def isUndirected (t : Ty) : Bool := decide (Ty.tunnel.id ≤ t.id) && decide (t.id ≤ Ty.slope.id)
/-- type.h:99-101 -/
def isSectionElement (t : Ty) : Bool := !isTrackElement t
/-- type.h:103 -/
def isCross (t : Ty) : Bool := t == .cross

/-- type.cc:12-102: the cases with the texts of iss_string_literals.h (those of `default` are left out) -/
def cases : List (Text × Ty) :=
  [("KmSprungEnde".toList, .kmJump), ("KmSprungAnfang".toList, .kmJump),
   ("Streckenwechsel0".toList, .lineSwitch), ("Streckenwechsel1".toList, .lineSwitch),
   ("Prellbock".toList, .bumper), ("Betriebsstellengrenze".toList, .border), ("Gleisende".toList, .trackEnd),
   ("VorsignalS".toList, .approachSignal), ("VorsignalF".toList, .approachSignal),
   ("HauptsignalF".toList, .mainSignal), ("HauptsignalS".toList, .mainSignal),
   ("SchutzsignalF".toList, .protectionSignal), ("SchutzsignalS".toList, .protectionSignal),
   ("FstrZugschlussstelleF".toList, .eotd), ("FstrZugschlussstelleS".toList, .eotd),
   ("SignalZugschlussstelleF".toList, .eotd), ("SignalZugschlussstelleS".toList, .eotd),
   ("GeschwEndeSpeziellF".toList, .speedLimit), ("GeschwEndeSpeziellS".toList, .speedLimit),
   ("GeschwZulaessigS".toList, .speedLimit), ("GeschwZulaessigF".toList, .speedLimit),
   ("PunktgeschwF".toList, .pointSpeed), ("PunktgeschwS".toList, .pointSpeed),
   ("ZwangshaltS".toList, .forcedHalt), ("ZwangshaltF".toList, .forcedHalt),
   ("FahrzeitmesspunktS".toList, .runtimeCheckpoint), ("FahrzeitmesspunktF".toList, .runtimeCheckpoint),
   ("HalteplatzGzF".toList, .halt), ("HalteplatzGzS".toList, .halt),
   ("HalteplatzRzLinksS".toList, .halt), ("HalteplatzRzLinksF".toList, .halt),
   ("HalteplatzRzRechtsS".toList, .halt), ("HalteplatzRzRechtsF".toList, .halt),
   ("HalteplatzRzBeideS".toList, .halt), ("HalteplatzRzBeideF".toList, .halt),
   ("HalteplatzRzRechtsLinksF".toList, .halt), ("HalteplatzRzRechtsLinksS".toList, .halt),
   ("BremswegF".toList, .brakePath), ("BremswegS".toList, .brakePath),
   ("Neigung".toList, .slope), ("Tunnel".toList, .tunnel), ("Gleisbezeichnung".toList, .trackName),
   ("Bahnuebergang".toList, .levelCrossing), ("Fahrzeitmesspunkt".toList, .runtimeCheckpointUndirected),
   ("Zugang".toList, .entry),
   ("Weichenanfang".toList, .simpleSwitch), ("Weichenstamm".toList, .simpleSwitch),
   ("WeichenabzweigLinks".toList, .simpleSwitch), ("WeichenabzweigRechts".toList, .simpleSwitch),
   ("KreuzungAnfangLinks".toList, .cross), ("KreuzungEndeLinks".toList, .cross),
   ("KreuzungAnfangRechts".toList, .cross), ("KreuzungEndeRechts".toList, .cross),
   ("KreuzungsweicheAnfangLinks".toList, .cross), ("KreuzungsweicheEndeLinks".toList, .cross),
   ("KreuzungsweicheAnfangRechts".toList, .cross), ("KreuzungsweicheEndeRechts".toList, .cross),
   ("LZBAnfangS".toList, .lzbStart), ("LZBAnfangF".toList, .lzbStart),
   ("LZBEndeS".toList, .lzbEnd), ("LZBEndeF".toList, .lzbEnd),
   ("LZBBlockkennzeichenS".toList, .lzbBlockSign), ("LZBBlockkennzeichenF".toList, .lzbBlockSign),
   ("ETCSAnfangS".toList, .etcsStart), ("ETCSAnfangF".toList, .etcsStart),
   ("ETCSEndeS".toList, .etcsEnd), ("ETCSEndeF".toList, .etcsEnd),
   ("ETCSBlockkennzeichenS".toList, .etcsBlockSign), ("ETCSBlockkennzeichenF".toList, .etcsBlockSign)]

/-- a `switch` over the hash of a text -/
def switchHash {α : Type} (s : Text) (cs : List (Text × α)) : Option α :=
  (cs.find? fun c => strHash c.1 == strHash s).map Prod.snd

/-- type.cc:12-102 `get_type` -/
def getType (s : Text) : Ty := (switchHash s cases).getD .invalid

/-- parse_helpers.cc:31-34 `has_rising_name` (of a name that is not empty) -/
def hasRisingName (s : Text) : Bool := s.getLast? == some 'S'

/-- type.cc:106-140 `get_type_str` -/
def typeStr : Ty → Text
  | .invalid => "invalid".toList
  | .bumper => "bumper".toList
  | .border => "border".toList
  | .trackEnd => "track_end".toList
  | .simpleSwitch => "simple_switch".toList
  | .approachSignal => "as".toList
  | .mainSignal => "ms".toList
  | .protectionSignal => "ps".toList
  | .eotd => "eotd".toList
  | .entry => "entry".toList
  | .speedLimit => "spl".toList
  | .pointSpeed => "point_speed".toList
  | .brakePath => "brake_path".toList
  | .tunnel => "tunnel".toList
  | .trackName => "track_name".toList
  | .halt => "hlt".toList
  | .forcedHalt => "forced_halt".toList
  | .runtimeCheckpoint => "rtcp".toList
  | .runtimeCheckpointUndirected => "rtcp_u".toList
  | .kmJump => "km_jump".toList
  | .lineSwitch => "line_switch".toList
  | .slope => "slope".toList
  | .levelCrossing => "level_crossing".toList
  | .cross => "cross".toList
  | .lzbEnd => "lzb_end".toList
  | .lzbStart => "lzb_start".toList
  | .lzbBlockSign => "lzb_block_sign".toList
  | .etcsEnd => "etcs_end".toList
  | .etcsStart => "etcs_start".toList
  | .etcsBlockSign => "etcs_block_sign".toList
  | .meta' => "meta".toList

end Soro.TypeNames
