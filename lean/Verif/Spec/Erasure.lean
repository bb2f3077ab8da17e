import Verif.Spec.Conversation
import Verif.Spec.Receive
import Verif.Spec.Group

/-!
# Vocabulary for the erasure of keys

Stored states that differ in one secret only.
-/

namespace Axolotl.Spec

/-- The state with another key in its sending chain. -/
def withSendKey (s : SessionS) (k : Bytes) : SessionS :=
  { s with senderChain := s.senderChain.map fun c =>
      { c with chainKey := c.chainKey.map fun ck => { ck with key := some k } } }

/-- The chain with another chain key. -/
def withKey (c : ChainS) (k : Bytes) : ChainS := { c with chainKey := c.chainKey.map fun ck => { ck with key := some k } }

/-- The state with another root key, another private ratchet key and another key in its sending chain. -/
def withOwnKeys (s : SessionS) (root priv k : Bytes) : SessionS :=
  { s with
    rootKey := some root
    senderChain := s.senderChain.map fun c =>
      { c with senderRatchetKeyPrivate := some priv, chainKey := c.chainKey.map fun ck => { ck with key := some k } } }

/-- The stores with another current session state for this address, and nothing archived. -/
def storing (w : World) (a : Address) (s : SessionS) : World :=
  { w with sessions := upd w.sessions a (some { sessionState := s }) }

/-- The sender-key state with another chain key. -/
def withGroupKey (s : SenderKeyStateS) (k : Bytes) : SenderKeyStateS :=
  { s with senderChainKey := s.senderChainKey.map fun ck => { ck with seed := some k } }

end Axolotl.Spec
