import Verif.Model.InMemory
import Verif.Spec.Application

/-!
# Histories on the in-memory stores

The calls of the library run against `InMemoryAxolotlStore`, and the application uses its methods in between.
-/

namespace Axolotl
variable [C : Crypto]

/-- The methods of the store with which an application changes it. -/
inductive MemOp where
  | storePreKey (id : Nat) (r : PreKeyRecord)
  | removePreKey (id : Nat)
  | storeSignedPreKey (id : Nat) (r : SignedPreKeyRecord)
  | removeSignedPreKey (id : Nat)
  /-- directly on the signed prekey store -/
  | removeSignedPreKeyPart (id : Nat)
  | saveIdentity (name : String) (key : ECPub)
  | deleteSession (a : Address)
  | deleteAllSessions (name : String)

omit C in
/-- Calling the method. -/
def MemOp.run (m : MemStore) : MemOp → MemOut Unit
  | .storePreKey i r => m.storePreKey i r
  | .removePreKey i => m.removePreKey i
  | .storeSignedPreKey i r => m.storeSignedPreKey i r
  | .removeSignedPreKey i => m.removeSignedPreKey i
  | .removeSignedPreKeyPart i => m.removeSignedPreKeyPart i
  | .saveIdentity n k => m.saveIdentity n k
  | .deleteSession a => m.deleteSession a
  | .deleteAllSessions n => m.deleteAllSessions n

omit C in
/-- What the library writes, with the store's methods. -/
def MemStore.write (m : MemStore) : Write → MemStore
  | .session a r => (m.storeSession a r).2
  | .identity n k => (m.saveIdentity n k).2
  | .removePreKey i => (m.removePreKey i).2

omit C in
/-- The four dictionaries as maps from keys to bytes; identities are trusted on first use. -/
def MemStore.bytes (m : MemStore) : ByteWorld :=
  { identityKeyPair := m.identityKeyPair, registrationId := m.registrationId, policy := tofu,
    identities := m.trustedKeys.get?, sessions := m.sessions.get?, preKeys := m.preKeys.get?,
    signedPreKeys := m.signedPreKeys.get? }

/-- One step of a history on the store. -/
inductive MemStep where
  | call (c : Call)
  | app (o : MemOp)

/-- A call of the library reads from the store and writes to it. -/
def MemStep.next (m : MemStore) : MemStep → MemStore
  | .call c => (c.run m.bytes.view).writes.foldl MemStore.write m
  | .app o => (o.run m).2

def MemStep.after (m : MemStore) (hs : List MemStep) : MemStore := hs.foldl MemStep.next m

/-- The replies of the library's calls. -/
def MemStep.replies : MemStore → List MemStep → List (Res Reply)
  | _, [] => []
  | m, .call c :: hs => (c.run m.bytes.view).result :: MemStep.replies (MemStep.next m (.call c)) hs
  | m, .app o :: hs => MemStep.replies (MemStep.next m (.app o)) hs

omit C in
/-- A new store (axolotl/tests/inmemoryidentitykeystore.py:11-16). -/
def MemStore.new (k : KeyPair) (registrationId : Int) : MemStore := { identityKeyPair := k, registrationId := registrationId }

omit C in
/-- The same party with stores of records, nothing in them yet. -/
def World.new (k : KeyPair) (registrationId : Int) : World :=
  { identityKeyPair := k, registrationId := registrationId, policy := tofu, identities := fun _ => none,
    sessions := fun _ => none, preKeys := fun _ => none, signedPreKeys := fun _ => none }

namespace Spec

omit C in
/-- What a method really does, in terms of the operations of C63. -/
inductive Means (m : MemStore) : MemOp → List StoreOp → Prop
  | storePreKey {i : Nat} {r : PreKeyRecord} : Means m (.storePreKey i r) [.storePreKey i r]
  | removePreKey {i : Nat} : Means m (.removePreKey i) [.removePreKey i]
  | storeSignedPreKey {i : Nat} {r : SignedPreKeyRecord} : Means m (.storeSignedPreKey i r) [.storeSignedPreKey i r]
  /-- nothing -/
  | removeSignedPreKey {i : Nat} : Means m (.removeSignedPreKey i) []
  | removeSignedPreKeyPart {i : Nat} : Means m (.removeSignedPreKeyPart i) [.removeSignedPreKey i]
  | saveIdentity {n : String} {k : ECPub} : Means m (.saveIdentity n k) [.saveIdentity n k]
  | deleteSession {a : Address} : Means m (.deleteSession a) [.deleteSession a]
  /-- nothing to delete -/
  | deleteNone {n : String} : (∀ e ∈ m.sessions, e.1.1 ≠ n) → Means m (.deleteAllSessions n) []
  /-- only the session stored first is deleted -/
  | deleteFirst {n : String} {x y : Dict Address Bytes} {a : Address} {b : Bytes} : m.sessions = x ++ (a, b) :: y →
      (∀ e ∈ x, e.1.1 ≠ n) → a.1 = n → Means m (.deleteAllSessions n) [.deleteSession a]

/-- A history on the store, and the history of C63 it amounts to. -/
inductive Amounts : MemStore → List MemStep → List Step → Prop
  | nil {m : MemStore} : Amounts m [] []
  | call {m : MemStore} {c : Call} {hs : List MemStep} {ss : List Step} : Amounts ((MemStep.call c).next m) hs ss →
      Amounts m (.call c :: hs) (.call c :: ss)
  | app {m : MemStore} {o : MemOp} {os : List StoreOp} {hs : List MemStep} {ss : List Step} : Means m o os →
      Amounts ((MemStep.app o).next m) hs ss → Amounts m (.app o :: hs) (os.map Step.app ++ ss)

omit C in
/-- The keys of a dictionary are distinct. -/
def DistinctKeys {K V : Type} (d : Dict K V) : Prop := (d.map Prod.fst).Nodup

omit C in
/-- The calls of a history. -/
def callsIn : List MemStep → List Call
  | [] => []
  | .call c :: hs => c :: callsIn hs
  | .app _ :: hs => callsIn hs

omit C in
/-- The application stores prekeys made by their constructors. -/
def MadeByConstructors : MemStep → Prop
  | .app (.storePreKey _ p) => ∃ (id : Nat) (k : KeyPair), id < 2 ^ 32 ∧ k.pub.length = 32 ∧
      k.priv.length < 2 ^ 62 ∧ PreKeyRecord.mk' id k = .ok p
  | .app (.storeSignedPreKey _ p) => ∃ (id : Nat) (ts : Nat) (k : KeyPair) (sig : Bytes),
      id < 2 ^ 32 ∧ ts < 2 ^ 64 ∧ k.pub.length = 32 ∧ k.priv.length < 2 ^ 62 ∧ sig.length < 2 ^ 62 ∧
      SignedPreKeyRecord.mk' id ts k sig = .ok p
  | _ => True

end Spec
end Axolotl
