import Verif.Spec.Session

/-! # What a party sends, and the ratchet keys it starts to use, over a history of calls -/

namespace Axolotl.Spec
variable [C : Crypto]

/-- The messages returned by `encrypt` in a history: peer, ratchet key and counter. -/
def sentMessages : World → List Call → List (Address × ECPub × Nat)
  | _, [] => []
  | w, c :: cs =>
    (match c with
     | .encrypt a pt =>
       match (SessionCipher.encrypt w a pt).result with
       | .ok m => [(a, m.inner.senderRatchetKey, m.inner.counter)]
       | .error _ => []
     | _ => []) ++ sentMessages (c.next w) cs

/-- The public ratchet key of the sending chain (32 bytes after the type byte). -/
def SendingKey (s : SessionS) (k : ECPub) : Prop :=
  ∃ c b, s.senderChain = some c ∧ c.senderRatchetKey = some (5 :: b) ∧ k = b.take 32

/-- The ratchet keys a call may start to use: those it draws, and for a key-exchange message the sending key of
the session that it sets up. -/
def NewKey (w : World) : Call → ECPub → Prop
  | .encrypt .., _ => False
  | .decryptMsg _ _ seed seeds, k => k = C.genPub (C.genPriv seed) ∨ ∃ i, k = C.genPub (C.genPriv (seeds i))
  | .decryptPkmsg _ _ seed seeds, k => k = C.genPub (C.genPriv seed) ∨ ∃ i, k = C.genPub (C.genPriv (seeds i))
  | .processBundle _ _ _ ratchetSeed, k => k = C.genPub (C.genPriv ratchetSeed)
  | .processKeyExchange a m rnd, k =>
    ∃ r, ((Call.processKeyExchange a m rnd).next w).sessions a = some r ∧
      ((Call.processKeyExchange a m rnd).next w).sessions a ≠ w.sessions a ∧ SendingKey r.sessionState k
  | .initKeyExchange .., _ => False

/-- No ratchet key is started to be used twice, and none of `used`. -/
def FreshFrom : (ECPub → Prop) → World → List Call → Prop
  | _, _, [] => True
  | used, w, c :: cs =>
    (∀ k, NewKey w c k → ¬ used k) ∧ FreshFrom (fun k => used k ∨ NewKey w c k) (c.next w) cs

/-- Random seeds have the right length. -/
def SeedsOk : Call → Prop
  | .decryptMsg _ _ seed seeds => seed.length = 32 ∧ ∀ i, (seeds i).length = 32
  | .decryptPkmsg _ _ seed seeds => seed.length = 32 ∧ ∀ i, (seeds i).length = 32
  | .processBundle _ _ baseSeed ratchetSeed => baseSeed.length = 32 ∧ ratchetSeed.length = 32
  | .processKeyExchange _ _ rnd => rnd.baseSeed.length = 32 ∧ rnd.ratchetSeed.length = 32 ∧ rnd.sendSeed.length = 32
  | .initKeyExchange _ _ baseSeed ratchetSeed _ => baseSeed.length = 32 ∧ ratchetSeed.length = 32
  | .encrypt .. => True

/-- The ratchet keys drawn at random by a call. -/
def Drawn : Call → ECPub → Prop
  | .encrypt .., _ => False
  | .decryptMsg _ _ seed seeds, k => k = C.genPub (C.genPriv seed) ∨ ∃ i, k = C.genPub (C.genPriv (seeds i))
  | .decryptPkmsg _ _ seed seeds, k => k = C.genPub (C.genPriv seed) ∨ ∃ i, k = C.genPub (C.genPriv (seeds i))
  | .processBundle _ _ _ ratchetSeed, k => k = C.genPub (C.genPriv ratchetSeed)
  | .processKeyExchange _ _ rnd, k => k = C.genPub (C.genPriv rnd.ratchetSeed) ∨ k = C.genPub (C.genPriv rnd.sendSeed)
  | .initKeyExchange _ _ _ ratchetSeed _, k => k = C.genPub (C.genPriv ratchetSeed)

/-- No ratchet key is drawn twice. -/
def DrawnOnce : (ECPub → Prop) → List Call → Prop
  | _, [] => True
  | old, c :: cs => (∀ k, Drawn c k → ¬ old k) ∧ DrawnOnce (fun k => old k ∨ Drawn c k) cs

omit C in
/-- The public ratchet key of a key exchange that is pending. -/
def PendingKey (p : Option PendingKeyExchangeS) (k : ECPub) : Prop :=
  ∃ x b, p = some x ∧ x.localRatchetKey = some (5 :: b) ∧ k = b.take 32

/-- A key-exchange message is accepted and the ratchet key of our pending request becomes our sending key. -/
def Answered (w : World) : Call → ECPub → Prop
  | .processKeyExchange a m rnd, k =>
    ∃ r r', w.sessions a = some r ∧ ((Call.processKeyExchange a m rnd).next w).sessions a = some r' ∧ r' ≠ r ∧
      PendingKey r.sessionState.pendingKeyExchange k ∧ SendingKey r'.sessionState k
  | _, _ => False

/-- No request of ours is answered twice. -/
def AnsweredOnce : (ECPub → Prop) → World → List Call → Prop
  | _, _, [] => True
  | old, w, c :: cs =>
    (∀ k, Answered w c k → ¬ old k) ∧ AnsweredOnce (fun k => old k ∨ Answered w c k) (c.next w) cs

end Axolotl.Spec
