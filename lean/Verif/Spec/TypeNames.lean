import Verif.Model.TypeNames

/-! Vocabulary of the input files: names of elements without and with a direction. -/

namespace Soro.TypeNames

/-- names of elements with a direction, without the letter for the direction -/
def directedNames : List (String × Ty) :=
  [("Vorsignal", .approachSignal), ("Hauptsignal", .mainSignal), ("Schutzsignal", .protectionSignal),
   ("FstrZugschlussstelle", .eotd), ("SignalZugschlussstelle", .eotd), ("GeschwEndeSpeziell", .speedLimit),
   ("GeschwZulaessig", .speedLimit), ("Punktgeschw", .pointSpeed), ("Zwangshalt", .forcedHalt),
   ("Fahrzeitmesspunkt", .runtimeCheckpoint), ("HalteplatzGz", .halt), ("HalteplatzRzLinks", .halt),
   ("HalteplatzRzRechts", .halt), ("HalteplatzRzBeide", .halt), ("HalteplatzRzRechtsLinks", .halt),
   ("Bremsweg", .brakePath), ("LZBAnfang", .lzbStart), ("LZBEnde", .lzbEnd), ("LZBBlockkennzeichen", .lzbBlockSign),
   ("ETCSAnfang", .etcsStart), ("ETCSEnde", .etcsEnd), ("ETCSBlockkennzeichen", .etcsBlockSign)]

/-- names of elements without a direction -/
def otherNames : List (String × Ty) :=
  [("Prellbock", .bumper), ("Gleisende", .trackEnd), ("Betriebsstellengrenze", .border), ("KmSprungAnfang", .kmJump),
   ("KmSprungEnde", .kmJump), ("Streckenwechsel0", .lineSwitch), ("Streckenwechsel1", .lineSwitch),
   ("Weichenanfang", .simpleSwitch), ("Weichenstamm", .simpleSwitch), ("WeichenabzweigLinks", .simpleSwitch),
   ("WeichenabzweigRechts", .simpleSwitch), ("KreuzungAnfangLinks", .cross), ("KreuzungAnfangRechts", .cross),
   ("KreuzungEndeLinks", .cross), ("KreuzungEndeRechts", .cross), ("KreuzungsweicheAnfangLinks", .cross),
   ("KreuzungsweicheAnfangRechts", .cross), ("KreuzungsweicheEndeLinks", .cross), ("KreuzungsweicheEndeRechts", .cross),
   ("Neigung", .slope), ("Tunnel", .tunnel), ("Gleisbezeichnung", .trackName), ("Bahnuebergang", .levelCrossing),
   ("Fahrzeitmesspunkt", .runtimeCheckpointUndirected), ("Zugang", .entry)]

/-- `Names s t rising`: the text `s` names elements of type `t`, rising ones or not -/
inductive Names : Text → Ty → Bool → Prop where
  | rising (w : String) (t : Ty) : (w, t) ∈ directedNames → Names (w.toList ++ ['S']) t true
  | falling (w : String) (t : Ty) : (w, t) ∈ directedNames → Names (w.toList ++ ['F']) t false
  | other (w : String) (t : Ty) : (w, t) ∈ otherNames → Names w.toList t false

/-- two texts of the same length that differ in exactly one byte -/
def Typo (s s' : Text) : Prop := ∃ a b x y, s = a ++ x :: b ∧ s' = a ++ y :: b ∧ x ≠ y

/-- all characters are bytes -/
def Bytes (s : Text) : Prop := ∀ c ∈ s, c.toNat < 256

end Soro.TypeNames
