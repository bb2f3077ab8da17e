import Verif.Model.SessionState

/-! # axolotl/state/sessionrecord.py -/

namespace Axolotl
variable [Crypto]

/-- axolotl/state/sessionrecord.py:7-29 -/
structure SessionRecord where
  fresh : Bool := true
  sessionState : SessionState := {}
  previousStates : List SessionState := []
  deriving DecidableEq, Repr

namespace SessionRecord

/-- axolotl/state/sessionrecord.py:8 -/
def ARCHIVED_STATES_MAX_LENGTH : Nat := 40

/-- axolotl/state/sessionrecord.py:32,36: the test applied to each state -/
def stateMatches (version : Nat) (aliceBaseKey : Bytes) (s : SessionState) : Bool :=
  s.getSessionVersion == version && aliceBaseKey == s.getAliceBaseKey

/-- axolotl/state/sessionrecord.py:31-39 -/
def hasSessionState (r : SessionRecord) (version : Nat) (aliceBaseKey : Bytes) : Bool :=
  stateMatches version aliceBaseKey r.sessionState ||
    r.previousStates.any (stateMatches version aliceBaseKey)

/-- axolotl/state/sessionrecord.py:53-57 -/
def promoteState (r : SessionRecord) (s : SessionState) : SessionRecord :=
  let prev := r.sessionState :: r.previousStates
  { r with sessionState := s
           previousStates := if prev.length > ARCHIVED_STATES_MAX_LENGTH then prev.dropLast else prev }

/-- axolotl/state/sessionrecord.py:50-51 -/
def archiveCurrentState (r : SessionRecord) : SessionRecord := r.promoteState {}

/-- axolotl/state/sessionrecord.py:59-60 -/
def setState (r : SessionRecord) (s : SessionState) : SessionRecord := { r with sessionState := s }

/-- axolotl/state/sessionrecord.py:62-68 -/
def serialize (r : SessionRecord) : Bytes :=
  serializeWith RecordS.toFields
    { currentSession := some r.sessionState, previousSessions := r.previousStates }

/-- axolotl/state/sessionrecord.py:19-29 `SessionRecord(serialized=...)`; an empty string is falsy and
gives a fresh record. -/
def ofSerialized (bs : Bytes) : Res SessionRecord :=
  if bs = [] then .ok {}
  else do
    let r ← parseWith RecordS.ofFields bs
    .ok { fresh := false, sessionState := r.currentSession.getD {},
          previousStates := r.previousSessions }

end SessionRecord
end Axolotl
