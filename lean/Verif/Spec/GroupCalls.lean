import Verif.Spec.Grammar

/-!
# The group API, in every case

For each group call: what it stores and what it returns or raises, in terms of stored values.
-/

namespace Axolotl.Spec
variable [C : Crypto]

omit C in
/-- The first state of the record with this key id, with the states before and after it. -/
structure FirstState (r : SenderKeyRecord) (id : Nat) (x : List SenderKeyStateS) (s : SenderKeyStateS)
    (y : List SenderKeyStateS) : Prop where
  split : r.senderKeyStates = x ++ s :: y
  key : s.senderKeyId.getD 0 = id
  first : ∀ z ∈ x, z.senderKeyId.getD 0 ≠ id

/-- A state after one message was sent with it. -/
def sentState (s : SenderKeyStateS) : SenderKeyStateS :=
  { s with senderChainKey := some { iteration := some (iterationOf s + 1), seed := some (C.hmac (chainKeyOf s) [0x02]) } }

/-- The message seed a state has for an iteration, and the state once that seed is used. -/
inductive GroupKey (s : SenderKeyStateS) (i : Nat) : Bytes → SenderKeyStateS → Prop
  /-- kept when the iteration was skipped -/
  | kept {a b : List SenderSeedS} {k : SenderSeedS} : i < iterationOf s → s.senderMessageKeys = a ++ k :: b →
      k.iteration.getD 0 = i → (∀ j ∈ a, j.iteration.getD 0 ≠ i) →
      GroupKey s i (k.seed.getD []) { s with senderMessageKeys := a ++ b }
  /-- further along the chain: the seeds in between are kept -/
  | ahead : iterationOf s ≤ i → i + 1 < 2 ^ 32 →
      GroupKey s i (groupSeed (chainAt (chainKeyOf s) (i - iterationOf s)))
        { s with
          senderChainKey := some { iteration := some (i + 1), seed := some (chainAt (chainKeyOf s) (i + 1 - iterationOf s)) }
          senderMessageKeys := s.senderMessageKeys ++ (List.range (i - iterationOf s)).map fun j =>
            { iteration := some (iterationOf s + j), seed := some (groupSeed (chainAt (chainKeyOf s) j)) } }

omit C in
/-- The message that announces a state. -/
def announcement (s : SenderKeyStateS) (signingKey : ECPub) : SenderKeyDistributionMessage :=
  { serialized := distributionMessage (s.senderKeyId.getD 0) (iterationOf s) (chainKeyOf s) signingKey
    id := s.senderKeyId.getD 0, iteration := iterationOf s, chainKey := chainKeyOf s, signatureKey := signingKey }

/-- What each call does. -/
inductive GroupDoes (g : GroupStore) : GroupCall → GOutcome GroupReply → Prop
  /-- no sender key -/
  | sendNothing {n : SenderKeyName} {pt rand : Bytes} : (g n).senderKeyStates = [] →
      GroupDoes g (.encrypt n pt rand) ⟨none, .error .noSession⟩
  /-- we hold no signing key, as for the sender keys of others -/
  | sendUnsigned {n : SenderKeyName} {pt rand : Bytes} {s : SenderKeyStateS} {rest : List SenderKeyStateS} {ct : Bytes} :
      (g n).senderKeyStates = s :: rest →
      CbcEncryption (groupCipherKey (groupSeed (chainKeyOf s))) (groupIv (groupSeed (chainKeyOf s))) pt ct →
      C.calcSig rand ((s.senderSigningKey.getD {}).priv.getD [])
        (groupMessage (s.senderKeyId.getD 0) (iterationOf s) ct) = none →
      GroupDoes g (.encrypt n pt rand) ⟨none, .error .valueError⟩
  /-- the next iteration is not a 32-bit number -/
  | sendLast {n : SenderKeyName} {pt rand : Bytes} {s : SenderKeyStateS} {rest : List SenderKeyStateS} :
      (g n).senderKeyStates = s :: rest → 2 ^ 32 ≤ iterationOf s + 1 →
      GroupDoes g (.encrypt n pt rand) ⟨none, .error .valueError⟩
  | sent {n : SenderKeyName} {pt rand : Bytes} {s : SenderKeyStateS} {rest : List SenderKeyStateS} {ct sig : Bytes} :
      (g n).senderKeyStates = s :: rest → iterationOf s + 1 < 2 ^ 32 →
      CbcEncryption (groupCipherKey (groupSeed (chainKeyOf s))) (groupIv (groupSeed (chainKeyOf s))) pt ct →
      C.calcSig rand ((s.senderSigningKey.getD {}).priv.getD [])
        (groupMessage (s.senderKeyId.getD 0) (iterationOf s) ct) = some sig →
      GroupDoes g (.encrypt n pt rand)
        ⟨some { senderKeyStates := sentState s :: rest },
          .ok (.bytes (groupMessage (s.senderKeyId.getD 0) (iterationOf s) ct ++ sig))⟩
  /-- no sender key -/
  | readNothing {n : SenderKeyName} {bs : Bytes} : (g n).senderKeyStates = [] →
      GroupDoes g (.decrypt n bs) ⟨none, .error .noSession⟩
  /-- not a group message -/
  | readOther {n : SenderKeyName} {bs : Bytes} {e : Err} : (g n).senderKeyStates ≠ [] → ReadsGroup bs (.error e) →
      GroupDoes g (.decrypt n bs) ⟨none, .error e⟩
  /-- another key id -/
  | readUnknown {n : SenderKeyName} {bs : Bytes} {m : SenderKeyMessage} : (g n).senderKeyStates ≠ [] →
      ReadsGroup bs (.ok m) → (∀ s ∈ (g n).senderKeyStates, s.senderKeyId.getD 0 ≠ m.keyId) →
      GroupDoes g (.decrypt n bs) ⟨none, .error .invalidMessage⟩
  /-- too short for a signature -/
  | readShort {n : SenderKeyName} {bs : Bytes} {m : SenderKeyMessage} {x y : List SenderKeyStateS} {s : SenderKeyStateS} :
      ReadsGroup bs (.ok m) → FirstState (g n) m.keyId x s y → bs.length < 64 →
      GroupDoes g (.decrypt n bs) ⟨none, .error .valueError⟩
  /-- the signature check refuses its arguments -/
  | readNoSignature {n : SenderKeyName} {body sig : Bytes} {m : SenderKeyMessage} {x y : List SenderKeyStateS}
      {s : SenderKeyStateS} {k : ECPub} : ReadsGroup (body ++ sig) (.ok m) → sig.length = 64 →
      FirstState (g n) m.keyId x s y → KeyOf (s.senderSigningKey.getD {}).pub k → C.verifySig k body sig = none →
      GroupDoes g (.decrypt n (body ++ sig)) ⟨none, .error .valueError⟩
  /-- wrong signature -/
  | readForged {n : SenderKeyName} {body sig : Bytes} {m : SenderKeyMessage} {x y : List SenderKeyStateS}
      {s : SenderKeyStateS} {k : ECPub} : ReadsGroup (body ++ sig) (.ok m) → sig.length = 64 →
      FirstState (g n) m.keyId x s y → KeyOf (s.senderSigningKey.getD {}).pub k → C.verifySig k body sig = some false →
      GroupDoes g (.decrypt n (body ++ sig)) ⟨none, .error .invalidMessage⟩
  /-- the iteration was passed and its key is not kept -/
  | readAgain {n : SenderKeyName} {body sig : Bytes} {m : SenderKeyMessage} {x y : List SenderKeyStateS}
      {s : SenderKeyStateS} {k : ECPub} : ReadsGroup (body ++ sig) (.ok m) → sig.length = 64 →
      FirstState (g n) m.keyId x s y → KeyOf (s.senderSigningKey.getD {}).pub k → C.verifySig k body sig = some true →
      m.iteration < iterationOf s → (∀ j ∈ s.senderMessageKeys, j.iteration.getD 0 ≠ m.iteration) →
      GroupDoes g (.decrypt n (body ++ sig)) ⟨none, .error .duplicateMessage⟩
  /-- the iteration after this one is not a 32-bit number -/
  | readLast {n : SenderKeyName} {body sig : Bytes} {m : SenderKeyMessage} {x y : List SenderKeyStateS}
      {s : SenderKeyStateS} {k : ECPub} : ReadsGroup (body ++ sig) (.ok m) → sig.length = 64 →
      FirstState (g n) m.keyId x s y → KeyOf (s.senderSigningKey.getD {}).pub k → C.verifySig k body sig = some true →
      iterationOf s ≤ m.iteration → 2 ^ 32 ≤ m.iteration + 1 →
      GroupDoes g (.decrypt n (body ++ sig)) ⟨none, .error .valueError⟩
  /-- the body is no encryption -/
  | readGarbage {n : SenderKeyName} {body sig : Bytes} {m : SenderKeyMessage} {x y : List SenderKeyStateS}
      {s s' : SenderKeyStateS} {k : ECPub} {seed : Bytes} : ReadsGroup (body ++ sig) (.ok m) → sig.length = 64 →
      FirstState (g n) m.keyId x s y → KeyOf (s.senderSigningKey.getD {}).pub k → C.verifySig k body sig = some true →
      GroupKey s m.iteration seed s' → (∀ pt, ¬ CbcDecryption (groupCipherKey seed) (groupIv seed) m.ciphertext pt) →
      GroupDoes g (.decrypt n (body ++ sig)) ⟨none, .error .invalidMessage⟩
  | read {n : SenderKeyName} {body sig : Bytes} {m : SenderKeyMessage} {x y : List SenderKeyStateS}
      {s s' : SenderKeyStateS} {k : ECPub} {seed pt : Bytes} : ReadsGroup (body ++ sig) (.ok m) → sig.length = 64 →
      FirstState (g n) m.keyId x s y → KeyOf (s.senderSigningKey.getD {}).pub k → C.verifySig k body sig = some true →
      GroupKey s m.iteration seed s' → CbcDecryption (groupCipherKey seed) (groupIv seed) m.ciphertext pt →
      GroupDoes g (.decrypt n (body ++ sig)) ⟨some { senderKeyStates := x ++ s' :: y }, .ok (.bytes pt)⟩
  /-- another sender key: behind those already there -/
  | processed {n : SenderKeyName} {m : SenderKeyDistributionMessage} : m.id < 2 ^ 32 → m.iteration < 2 ^ 32 →
      GroupDoes g (.process n m) ⟨some { senderKeyStates := (g n).senderKeyStates ++ [
        { senderKeyId := some m.id, senderChainKey := some { iteration := some m.iteration, seed := some m.chainKey }
          senderSigningKey := some { pub := some (5 :: m.signatureKey), priv := none } }] }, .ok .done⟩
  /-- numbers too large for the storage format -/
  | processBad {n : SenderKeyName} {m : SenderKeyDistributionMessage} : 2 ^ 32 ≤ m.id ∨ 2 ^ 32 ≤ m.iteration →
      GroupDoes g (.process n m) ⟨none, .error .valueError⟩
  /-- our sender key as it is now -/
  | createKnown {n : SenderKeyName} {rnd : GroupSessionBuilder.CreateRand} {s : SenderKeyStateS}
      {rest : List SenderKeyStateS} {k : ECPub} : (g n).senderKeyStates = s :: rest →
      KeyOf (s.senderSigningKey.getD {}).pub k →
      GroupDoes g (.create n rnd) ⟨none, .ok (.distribution (announcement s k))⟩
  /-- a new sender key -/
  | created {n : SenderKeyName} {rnd : GroupSessionBuilder.CreateRand} {s : SenderKeyStateS} :
      (g n).senderKeyStates = [] → rnd.keyId < 2 ^ 32 →
      s = { senderKeyId := some rnd.keyId, senderChainKey := some { iteration := some 0, seed := some rnd.senderKey }
            senderSigningKey := some { pub := some (5 :: C.genPub (C.genPriv rnd.signSeed))
                                       priv := some (C.genPriv rnd.signSeed) } } →
      GroupDoes g (.create n rnd)
        ⟨some { senderKeyStates := [s] }, .ok (.distribution (announcement s (C.genPub (C.genPriv rnd.signSeed))))⟩
  /-- a key id too large for the storage format -/
  | createBad {n : SenderKeyName} {rnd : GroupSessionBuilder.CreateRand} : (g n).senderKeyStates = [] →
      2 ^ 32 ≤ rnd.keyId → GroupDoes g (.create n rnd) ⟨none, .error .valueError⟩

omit C in
/-- Sizes that Python guarantees: byte strings below 2^62 bytes, 32 random bytes for a key. -/
def GroupSized : GroupCall → Prop
  | .encrypt _ pt _ => pt.length < 2 ^ 62
  | .process _ m => m.chainKey.length < 2 ^ 62
  | .create _ rnd => rnd.senderKey.length < 2 ^ 62 ∧ rnd.signSeed.length = 32
  | .decrypt _ _ => True

omit C in
/-- The store after a call. -/
def groupStored (g : GroupStore) (n : SenderKeyName) (o : GOutcome GroupReply) : GroupStore :=
  fun x => if x = n then o.stored.getD (g n) else g x

/-- A whole history: calls, what they did, and the store at the end. -/
inductive GroupRuns : GroupStore → List GroupCall → List (GOutcome GroupReply) → GroupStore → Prop
  | nil {g : GroupStore} : GroupRuns g [] [] g
  | cons {g g' : GroupStore} {c : GroupCall} {cs : List GroupCall} {o : GOutcome GroupReply}
      {os : List (GOutcome GroupReply)} : GroupDoes g c o → GroupRuns (groupStored g c.name o) cs os g' →
      GroupRuns g (c :: cs) (o :: os) g'

end Axolotl.Spec
