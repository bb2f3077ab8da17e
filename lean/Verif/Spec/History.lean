import Verif.Model.SessionCipher

/-!
# Histories of API calls

One party's library calls, with all their arguments and all the randomness they consume, as data.  A
history is a list of calls run one after the other against the party's stores.
-/

namespace Axolotl
variable [Crypto]

/-- A call of the public API for one peer address. -/
inductive Call where
  /-- `SessionCipher.encrypt` -/
  | encrypt (addr : Address) (plaintext : Bytes)
  /-- `SessionCipher.decryptMsg`, on any message object -/
  | decryptMsg (addr : Address) (m : WhisperMessage) (seed : Bytes) (seeds : Nat → Bytes)
  /-- `SessionCipher.decryptPkmsg`, on any message object -/
  | decryptPkmsg (addr : Address) (m : PreKeyWhisperMessage) (seed : Bytes) (seeds : Nat → Bytes)
  /-- `SessionBuilder.processPreKeyBundle` -/
  | processBundle (addr : Address) (b : PreKeyBundle) (baseSeed ratchetSeed : Bytes)
  /-- `SessionBuilder.processKeyExchangeMessage` -/
  | processKeyExchange (addr : Address) (m : KeyExchangeMessage) (rnd : SessionBuilder.InitiateRand)
  /-- `SessionBuilder.processInitKeyExchangeMessage` -/
  | initKeyExchange (addr : Address) (rnd : Nat) (baseSeed ratchetSeed sigRand : Bytes)

/-- What a call returns. -/
inductive Reply where
  | ciphertext (c : Ciphertext)
  | plaintext (b : Bytes)
  | done
  | keyExchange (m : Option KeyExchangeMessage)
  deriving DecidableEq, Repr

namespace Call

def addr : Call → Address
  | .encrypt a .. | .decryptMsg a .. | .decryptPkmsg a .. | .processBundle a .. |
    .processKeyExchange a .. | .initKeyExchange a .. => a

/-- Rename the result type of an outcome. -/
def mapOutcome {α β : Type} (f : α → β) (o : Outcome α) : Outcome β :=
  ⟨o.writes, match o.result with | .ok a => .ok (f a) | .error e => .error e⟩

/-- Run one call. -/
def run (w : World) : Call → Outcome Reply
  | .encrypt a p => mapOutcome .ciphertext (SessionCipher.encrypt w a p)
  | .decryptMsg a m s ss => mapOutcome .plaintext (SessionCipher.decryptMsg w a m s ss)
  | .decryptPkmsg a m s ss => mapOutcome .plaintext (SessionCipher.decryptPkmsg w a m s ss)
  | .processBundle a b s1 s2 => mapOutcome (fun _ => .done) (SessionBuilder.processPreKeyBundle w a b s1 s2)
  | .processKeyExchange a m r =>
    mapOutcome .keyExchange (SessionBuilder.processKeyExchangeMessage w a m r)
  | .initKeyExchange a n s1 s2 s3 =>
    mapOutcome (fun m => .keyExchange (some m)) (SessionBuilder.processInitKeyExchangeMessage w a n s1 s2 s3)

/-- The stores after one call. -/
def next (w : World) (c : Call) : World := (c.run w).final w

/-- The stores after a history. -/
def after (w : World) (cs : List Call) : World := cs.foldl next w

/-- The replies of a history, in order. -/
def replies : World → List Call → List (Res Reply)
  | _, [] => []
  | w, c :: cs => (c.run w).result :: replies (c.next w) cs

end Call

/-- Stores in which no session has been set up yet. -/
def World.NoSessions (w : World) : Prop := ∀ a, w.sessions a = none

end Axolotl
