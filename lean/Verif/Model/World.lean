import Verif.Model.RatchetingSession

/-!
# Stores

The library talks to application-supplied stores through the interfaces in axolotl/state/*store.py.
The stores are modelled by a `World`, with the behaviour of the reference implementation in
axolotl/tests/inmemory*store.py: values are serialised on store and parsed on load, so a loaded object
never aliases the stored one.  Here the stored value is kept as the record itself;
`Verif/Props/Persist.lean` proves that serialising and parsing gives the same record back.

An API call is a function from the world it reads to an `Outcome`: the writes it performed, in order,
and the value returned or exception raised.  No modelled call reads a store cell after writing it, so
reading from the initial world is exact for one call running alone; `Verif/Props/Interleave.lean` proves it from the calls written
as single store accesses.
-/

namespace Axolotl
variable [Crypto]

/-- `(recipientId, deviceId)` (axolotl/tests/inmemorysessionstore.py:24-26) -/
abbrev Address := String × Nat

/-- One party's stores.  `policy` is the application's `isTrustedIdentity`
(axolotl/state/identitykeystore.py), a function of the saved identities. -/
structure World where
  identityKeyPair : KeyPair
  registrationId : Int
  policy : (String → Option ECPub) → String → ECPub → Bool
  identities : String → Option ECPub
  sessions : Address → Option SessionRecord
  preKeys : Nat → Option PreKeyRecord
  signedPreKeys : Nat → Option SignedPreKeyRecord

/-- The store mutations made by the library. -/
inductive Write where
  /-- `sessionStore.storeSession` -/
  | session (a : Address) (r : SessionRecord)
  /-- `identityKeyStore.saveIdentity` -/
  | identity (name : String) (key : ECPub)
  /-- `preKeyStore.removePreKey` -/
  | removePreKey (id : Nat)
  deriving DecidableEq, Repr

/-- Function update. -/
def upd {α β : Type} [DecidableEq α] (f : α → β) (a : α) (b : β) : α → β :=
  fun x => if x = a then b else f x

/-- axolotl/tests/inmemorysessionstore.py:25-26, axolotl/tests/inmemoryidentitykeystore.py:24-25,
axolotl/tests/inmemoryprekeystore.py:24-26 -/
def World.apply (w : World) : Write → World
  | .session a r => { w with sessions := upd w.sessions a (some r) }
  | .identity n k => { w with identities := upd w.identities n (some k) }
  | .removePreKey i => { w with preKeys := upd w.preKeys i none }

def World.applyAll (w : World) (ws : List Write) : World := ws.foldl World.apply w

/-- axolotl/tests/inmemorysessionstore.py:11-15: a stored record is reloaded with `fresh = False`
(axolotl/state/sessionrecord.py:23); a missing one is a new fresh record. -/
def World.loadSession (w : World) (a : Address) : SessionRecord :=
  match w.sessions a with
  | some r => { r with fresh := false }
  | none => {}

/-- axolotl/tests/inmemorysessionstore.py:28-29 -/
def World.containsSession (w : World) (a : Address) : Bool := (w.sessions a).isSome

/-- axolotl/tests/inmemoryprekeystore.py:12-16 -/
def World.loadPreKey (w : World) (id : Nat) : Res PreKeyRecord :=
  match w.preKeys id with
  | some r => .ok r
  | none => .error .invalidKeyId

/-- axolotl/tests/inmemorysignedprekeystore.py:12-16 -/
def World.loadSignedPreKey (w : World) (id : Nat) : Res SignedPreKeyRecord :=
  match w.signedPreKeys id with
  | some r => .ok r
  | none => .error .invalidKeyId

/-- `identityKeyStore.isTrustedIdentity(recipientId, key)` -/
def World.isTrusted (w : World) (name : String) (key : ECPub) : Bool := w.policy w.identities name key

/-- axolotl/tests/inmemoryidentitykeystore.py:27-30: trust on first use -/
def tofu (saved : String → Option ECPub) (name : String) (key : ECPub) : Bool :=
  match saved name with
  | none => true
  | some k => k == key

/-- What one API call did: store writes in order, then return value or exception. -/
structure Outcome (α : Type) where
  writes : List Write
  result : Res α

/-- The stores after the call. -/
def Outcome.final {α : Type} (o : Outcome α) (w : World) : World := w.applyAll o.writes

/-- A call that computes `r` and, on success, performs the writes and returns the value. -/
def Outcome.ofRes {α : Type} (r : Res (List Write × α)) : Outcome α :=
  match r with
  | .ok (ws, a) => ⟨ws, .ok a⟩
  | .error e => ⟨[], .error e⟩

end Axolotl
