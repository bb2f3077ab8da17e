import Verif.Spec.Sending
import Verif.Spec.ByteStore
import Verif.Spec.Calls
import Verif.Spec.Receive

/-!
# Histories in which the application uses its stores too

Between two calls of the library the application works on its own stores: it uploads new prekeys
(axolotl/state/prekeystore.py:14-16, axolotl/state/signedprekeystore.py:18-20), withdraws old ones
(axolotl/state/prekeystore.py:22-24, axolotl/state/signedprekeystore.py:26-28), confirms or replaces an identity
(axolotl/state/identitykeystore.py:18-20), changes its mind about whom to trust (axolotl/state/identitykeystore.py:22-24),
deletes sessions (axolotl/state/sessionstore.py:26-32), or registers anew with another identity of its own.
The one thing it does not do here is to put back a session it saved before.
-/

namespace Axolotl
variable [C : Crypto]

/-- What the application does between two calls. -/
inductive StoreOp where
  | storePreKey (id : Nat) (r : PreKeyRecord)
  | removePreKey (id : Nat)
  | storeSignedPreKey (id : Nat) (r : SignedPreKeyRecord)
  | removeSignedPreKey (id : Nat)
  | saveIdentity (name : String) (key : ECPub)
  /-- from now on `isTrustedIdentity` decides like this -/
  | trust (policy : (String → Option ECPub) → String → ECPub → Bool)
  | deleteSession (a : Address)
  /-- all devices of a name -/
  | deleteAllSessions (name : String)
  /-- a new identity and registration id of our own -/
  | register (identity : KeyPair) (registrationId : Int)

omit C in
/-- The stores afterwards. -/
def StoreOp.next (w : World) : StoreOp → World
  | .storePreKey id r => { w with preKeys := upd w.preKeys id (some r) }
  | .removePreKey id => { w with preKeys := upd w.preKeys id none }
  | .storeSignedPreKey id r => { w with signedPreKeys := upd w.signedPreKeys id (some r) }
  | .removeSignedPreKey id => { w with signedPreKeys := upd w.signedPreKeys id none }
  | .saveIdentity n k => { w with identities := upd w.identities n (some k) }
  | .trust p => { w with policy := p }
  | .deleteSession a => { w with sessions := upd w.sessions a none }
  | .deleteAllSessions n => { w with sessions := fun a => if a.1 = n then none else w.sessions a }
  | .register k id => { w with identityKeyPair := k, registrationId := id }

/-- One step of a history: a call of the library, or something the application does. -/
inductive Step where
  | call (c : Call)
  | app (o : StoreOp)

/-- The stores after a step. -/
def Step.next (w : World) : Step → World
  | .call c => c.next w
  | .app o => o.next w

/-- The stores after a history. -/
def Step.after (w : World) (ss : List Step) : World := ss.foldl Step.next w

namespace Spec

omit C in
/-- A new identity of our own has a public key of 32 bytes. -/
def Step.Sane : Step → Prop
  | .app (.register k _) => k.pub.length = 32
  | _ => True

/-- The messages sent in a history: peer, ratchet key and counter. -/
def sentIn : World → List Step → List (Address × ECPub × Nat)
  | _, [] => []
  | w, .call c :: ss => sentMessages w [c] ++ sentIn (c.next w) ss
  | w, .app o :: ss => sentIn (o.next w) ss

omit C in
/-- The calls of a history. -/
def callsOf : List Step → List Call
  | [] => []
  | .call c :: ss => c :: callsOf ss
  | .app _ :: ss => callsOf ss

/-- No key-exchange request of ours is answered twice. -/
def AnsweredOnceIn : (ECPub → Prop) → World → List Step → Prop
  | _, _, [] => True
  | old, w, .call c :: ss =>
    (∀ k, Answered w c k → ¬ old k) ∧ AnsweredOnceIn (fun k => old k ∨ Answered w c k) (c.next w) ss
  | old, w, .app o :: ss => AnsweredOnceIn old (o.next w) ss

/-- How often a one-time prekey was used to set up a session. -/
def timesUsed (id : Nat) : World → List Step → Nat
  | _, [] => 0
  | w, .call c :: ss => (if .removePreKey id ∈ (c.run w).writes then 1 else 0) + timesUsed id (c.next w) ss
  | w, .app o :: ss => timesUsed id (o.next w) ss

omit C in
/-- How often the application stored a one-time prekey under this id. -/
def timesStored (id : Nat) : List Step → Nat
  | [] => 0
  | .app (.storePreKey i _) :: ss => (if i = id then 1 else 0) + timesStored id ss
  | _ :: ss => timesStored id ss

/-- The session that was in state `s` in the stores `w` is, some steps later, in state `s'` in the stores `w'`, and its
receive chain for `key` was there all the time. -/
inductive KeptIn (a : Address) (key : ECPub) (w : World) (s : SessionS) : World → SessionS → Prop
  | refl : KeptIn a key w s w s
  | step {w1 : World} {s1 s2 : SessionS} {x : Step} {r : SessionRecord} : KeptIn a key w s w1 s1 →
      (x.next w1).sessions a = some r → s2 ∈ states r → StateStep s1 s2 → recvChain s2 key ≠ none →
      KeptIn a key w s (x.next w1) s2

/-- Whole histories by the case list of `Does`: the outcomes of the calls and the stores at the end. -/
inductive RunsIn : World → List Step → List (Outcome Reply) → World → Prop
  | nil {w : World} : RunsIn w [] [] w
  | call {w w' : World} {c : Call} {ss : List Step} {o : Outcome Reply} {os : List (Outcome Reply)} :
      Does w c o → RunsIn (o.final w) ss os w' → RunsIn w (.call c :: ss) (o :: os) w'
  | app {w w' : World} {x : StoreOp} {ss : List Step} {os : List (Outcome Reply)} :
      RunsIn (x.next w) ss os w' → RunsIn w (.app x :: ss) os w'

end Spec

/-- The outcomes of the calls of a history. -/
def Step.outcomes : World → List Step → List (Outcome Reply)
  | _, [] => []
  | w, .call c :: ss => c.run w :: Step.outcomes (c.next w) ss
  | w, .app o :: ss => Step.outcomes (o.next w) ss

omit C in
/-- The same operations on stores that keep bytes. -/
def StoreOp.nextB (b : ByteWorld) : StoreOp → ByteWorld
  | .storePreKey id r => { b with preKeys := upd b.preKeys id (some r.serialize) }
  | .removePreKey id => { b with preKeys := upd b.preKeys id none }
  | .storeSignedPreKey id r => { b with signedPreKeys := upd b.signedPreKeys id (some r.serialize) }
  | .removeSignedPreKey id => { b with signedPreKeys := upd b.signedPreKeys id none }
  | .saveIdentity n k => { b with identities := upd b.identities n (some k) }
  | .trust p => { b with policy := p }
  | .deleteSession a => { b with sessions := upd b.sessions a none }
  | .deleteAllSessions n => { b with sessions := fun a => if a.1 = n then none else b.sessions a }
  | .register k id => { b with identityKeyPair := k, registrationId := id }

/-- The byte stores after a step. -/
def Step.nextB (b : ByteWorld) : Step → ByteWorld
  | .call c => c.nextB b
  | .app o => o.nextB b

/-- The byte stores after a history. -/
def Step.afterB (b : ByteWorld) (ss : List Step) : ByteWorld := ss.foldl Step.nextB b

/-- The replies of a history run against byte stores. -/
def Step.repliesB : ByteWorld → List Step → List (Res Reply)
  | _, [] => []
  | b, .call c :: ss => (c.run b.view).result :: Step.repliesB (c.nextB b) ss
  | b, .app o :: ss => Step.repliesB (o.nextB b) ss

end Axolotl
