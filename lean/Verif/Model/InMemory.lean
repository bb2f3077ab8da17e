import Verif.Model.World
import Verif.Model.Group

/-!
# The in-memory stores

`InMemoryAxolotlStore` (axolotl/tests/inmemoryaxolotlstore.py) with its four parts, method by method.  They are the only
implementation of the store interfaces in the repository.  A dictionary is a list of pairs in insertion order (Python 3.7 and
later).  Simplification: the random identity key pair and registration id of the constructor
(axolotl/tests/inmemoryidentitykeystore.py:11-16) are arguments.
-/

namespace Axolotl

/-- A Python dictionary. -/
abbrev Dict (K V : Type) := List (K × V)

namespace Dict
variable {K V : Type} [DecidableEq K]

/-- `d.get(k)` -/
def get? : Dict K V → K → Option V
  | [], _ => none
  | (j, v) :: d, k => if j = k then some v else get? d k

/-- `k in d` -/
def contains (d : Dict K V) (k : K) : Bool := (d.get? k).isSome

/-- `d[k] = v`: an existing key keeps its place, a new one goes to the end. -/
def set : Dict K V → K → V → Dict K V
  | [], k, v => [(k, v)]
  | (j, u) :: d, k, v => if j = k then (j, v) :: d else (j, u) :: set d k v

/-- `del d[k]` for a key that is there. -/
def del : Dict K V → K → Dict K V
  | [], _ => []
  | (j, u) :: d, k => if j = k then d else (j, u) :: del d k

/-- `d.keys()` -/
def keys (d : Dict K V) : List K := d.map Prod.fst

end Dict

/-- What the methods raise: Python's own exceptions, or those of the library. -/
inductive MemErr where
  | keyError | runtimeError | typeError | lib (e : Err)
  deriving DecidableEq, Repr

/-- `InMemoryAxolotlStore` (axolotl/tests/inmemoryaxolotlstore.py:11-15): the dictionaries of its parts. -/
structure MemStore where
  identityKeyPair : KeyPair
  registrationId : Int
  /-- axolotl/tests/inmemoryidentitykeystore.py:12 -/
  trustedKeys : Dict String ECPub := []
  /-- axolotl/tests/inmemoryprekeystore.py:10 -/
  preKeys : Dict Nat Bytes := []
  /-- axolotl/tests/inmemorysignedprekeystore.py:10 -/
  signedPreKeys : Dict Nat Bytes := []
  /-- axolotl/tests/inmemorysessionstore.py:9 -/
  sessions : Dict Address Bytes := []

/-- A value or an exception, and the store afterwards. -/
abbrev MemOut (α : Type) := Except MemErr α × MemStore

namespace MemStore

/-- axolotl/tests/inmemoryidentitykeystore.py:24-25 -/
def saveIdentity (m : MemStore) (n : String) (k : ECPub) : MemOut Unit :=
  (.ok (), { m with trustedKeys := m.trustedKeys.set n k })

/-- axolotl/tests/inmemoryidentitykeystore.py:27-30 -/
def isTrustedIdentity (m : MemStore) (n : String) (k : ECPub) : MemOut Bool :=
  (.ok (match m.trustedKeys.get? n with | none => true | some j => decide (j = k)), m)

/-- Loading: the bytes are parsed; an exception of the parser passes through. -/
def parse {α : Type} (f : Bytes → Res α) (b : Bytes) : Except MemErr α :=
  match f b with | .ok a => .ok a | .error e => .error (.lib e)

/-- axolotl/tests/inmemoryprekeystore.py:12-16 -/
def loadPreKey (m : MemStore) (i : Nat) : MemOut PreKeyRecord :=
  (match m.preKeys.get? i with
    | none => .error (.lib .invalidKeyId)
    | some b => parse PreKeyRecord.ofSerialized b, m)

/-- axolotl/tests/inmemoryprekeystore.py:18-19 -/
def storePreKey (m : MemStore) (i : Nat) (r : PreKeyRecord) : MemOut Unit :=
  (.ok (), { m with preKeys := m.preKeys.set i r.serialize })

/-- axolotl/tests/inmemoryprekeystore.py:21-22 -/
def containsPreKey (m : MemStore) (i : Nat) : MemOut Bool := (.ok (m.preKeys.contains i), m)

/-- axolotl/tests/inmemoryprekeystore.py:24-26 -/
def removePreKey (m : MemStore) (i : Nat) : MemOut Unit :=
  (.ok (), if m.preKeys.contains i then { m with preKeys := m.preKeys.del i } else m)

/-- axolotl/tests/inmemorysessionstore.py:28-29 -/
def containsSession (m : MemStore) (a : Address) : MemOut Bool := (.ok (m.sessions.contains a), m)

/-- axolotl/tests/inmemorysessionstore.py:11-15 -/
def loadSession (m : MemStore) (a : Address) : MemOut SessionRecord :=
  (match m.sessions.get? a with
    | some b => parse SessionRecord.ofSerialized b
    | none => .ok {}, m)

/-- axolotl/tests/inmemorysessionstore.py:17-23 -/
def getSubDeviceSessions (m : MemStore) (n : String) : MemOut (List Nat) :=
  (.ok ((m.sessions.keys.filter fun k => k.1 = n).map Prod.snd), m)

/-- axolotl/tests/inmemorysessionstore.py:25-26 -/
def storeSession (m : MemStore) (a : Address) (r : SessionRecord) : MemOut Unit :=
  (.ok (), { m with sessions := m.sessions.set a r.serialize })

/-- axolotl/tests/inmemorysessionstore.py:31-32 -/
def deleteSession (m : MemStore) (a : Address) : MemOut Unit :=
  if m.sessions.contains a then (.ok (), { m with sessions := m.sessions.del a }) else (.error .keyError, m)

/-- The loop of axolotl/tests/inmemorysessionstore.py:35-37 over the remaining keys.  When a key was deleted, the next step of
the iteration finds that the dictionary changed its size (also after the last key). -/
def deleteLoop (n : String) (d : Dict Address Bytes) : List Address → Except MemErr Unit × Dict Address Bytes
  | [] => (.ok (), d)
  | k :: ks => if k.1 = n then (.error .runtimeError, d.del k) else deleteLoop n d ks

/-- axolotl/tests/inmemorysessionstore.py:34-37 -/
def deleteAllSessions (m : MemStore) (n : String) : MemOut Unit :=
  ((deleteLoop n m.sessions m.sessions.keys).1, { m with sessions := (deleteLoop n m.sessions m.sessions.keys).2 })

/-- axolotl/tests/inmemorysignedprekeystore.py:12-16 -/
def loadSignedPreKey (m : MemStore) (i : Nat) : MemOut SignedPreKeyRecord :=
  (match m.signedPreKeys.get? i with
    | none => .error (.lib .invalidKeyId)
    | some b => parse SignedPreKeyRecord.ofSerialized b, m)

/-- The loop of axolotl/tests/inmemorysignedprekeystore.py:20-21. -/
def loadAll : List Bytes → Except MemErr (List SignedPreKeyRecord)
  | [] => .ok []
  | b :: bs => do
    let r ← parse SignedPreKeyRecord.ofSerialized b
    let rs ← loadAll bs
    .ok (r :: rs)

/-- axolotl/tests/inmemorysignedprekeystore.py:18-23 -/
def loadSignedPreKeys (m : MemStore) : MemOut (List SignedPreKeyRecord) := (loadAll (m.signedPreKeys.map Prod.snd), m)

/-- axolotl/tests/inmemorysignedprekeystore.py:25-26 -/
def storeSignedPreKey (m : MemStore) (i : Nat) (r : SignedPreKeyRecord) : MemOut Unit :=
  (.ok (), { m with signedPreKeys := m.signedPreKeys.set i r.serialize })

/-- axolotl/tests/inmemorysignedprekeystore.py:28-29 -/
def containsSignedPreKey (m : MemStore) (i : Nat) : MemOut Bool := (.ok (m.signedPreKeys.contains i), m)

/-- `removeSignedPreKey` of the part (axolotl/tests/inmemorysignedprekeystore.py:31-32). -/
def removeSignedPreKeyPart (m : MemStore) (i : Nat) : MemOut Unit :=
  if m.signedPreKeys.contains i then (.ok (), { m with signedPreKeys := m.signedPreKeys.del i }) else (.error .keyError, m)

/-- `removeSignedPreKey` of the whole store (axolotl/tests/inmemoryaxolotlstore.py:71-72) calls the wrong method, without its
argument. -/
def removeSignedPreKey (m : MemStore) (_i : Nat) : MemOut Unit := (.error .typeError, m)

end MemStore

/-- `InMemorySenderKeyStore` (axolotl/tests/groups/inmemorysenderkeystore.py:7-9).  Unlike the other stores it keeps the record
objects themselves; the library changes none after storing it (axolotl/groups/groupcipher.py:36, 59,
axolotl/groups/groupsessionbuilder.py:20, 35), so values will do. -/
abbrev MemSenderKeys := Dict SenderKeyName SenderKeyRecord

namespace MemSenderKeys

/-- axolotl/tests/groups/inmemorysenderkeystore.py:11-12 -/
def storeSenderKey (m : MemSenderKeys) (n : SenderKeyName) (r : SenderKeyRecord) : MemSenderKeys := m.set n r

/-- axolotl/tests/groups/inmemorysenderkeystore.py:14-18 -/
def loadSenderKey (m : MemSenderKeys) (n : SenderKeyName) : Res SenderKeyRecord :=
  match m.get? n with
  | some r => SenderKeyRecord.ofSerialized r.serialize
  | none => .ok {}

end MemSenderKeys
end Axolotl
