import Verif.Model.Objects
import Verif.Props.Messages
import Verif.Props.Group
import Mathlib.Data.List.Induction
import Mathlib.Tactic.Tauto

/-! # C82, C83: objects that carry arguments -/

namespace Axolotl

/-- What was passed for one key the last time: `none` if it never was, or if it was `None` then. -/
def Spec.lastSet {σ α : Type} (f : σ → Option (Option α)) (cs : List σ) : Option α := (cs.reverse.findSome? f).join

theorem lastSet_concat {σ α : Type} (f : σ → Option (Option α)) (cs : List σ) (c : σ) :
    Spec.lastSet f (cs ++ [c]) = match f c with
      | some k => k
      | none => Spec.lastSet f cs := by
  unfold Spec.lastSet
  rw [List.reverse_append, List.reverse_singleton, List.singleton_append, List.findSome?_cons]
  cases f c <;> rfl

/-! ## C83 -/

/-- A call on a `AliceAxolotlParameters.Builder`, with what is passed; `none` is Python's `None`. -/
inductive AliceCall where
  | ourIdentityKey (k : Option KeyPair)
  | ourBaseKey (k : Option KeyPair)
  | theirIdentityKey (k : Option ECPub)
  | theirSignedPreKey (k : Option ECPub)
  | theirRatchetKey (k : Option ECPub)
  | theirOneTimePreKey (k : Option ECPub)

/-- The call on the builder; the setters return the builder itself. -/
def AliceCall.run (b : AliceBuilder) : AliceCall → AliceBuilder
  | .ourIdentityKey k => b.setOurIdentityKey k
  | .ourBaseKey k => b.setOurBaseKey k
  | .theirIdentityKey k => b.setTheirIdentityKey k
  | .theirSignedPreKey k => b.setTheirSignedPreKey k
  | .theirRatchetKey k => b.setTheirRatchetKey k
  | .theirOneTimePreKey k => b.setTheirOneTimePreKey k

/-- What the call passes for this key, if it is about it. -/
def Spec.Alice.ourIdentityKey : AliceCall → Option (Option KeyPair)
  | .ourIdentityKey k => some k
  | _ => none

/-- What the call passes for this key, if it is about it. -/
def Spec.Alice.ourBaseKey : AliceCall → Option (Option KeyPair)
  | .ourBaseKey k => some k
  | _ => none

/-- What the call passes for this key, if it is about it. -/
def Spec.Alice.theirIdentityKey : AliceCall → Option (Option ECPub)
  | .theirIdentityKey k => some k
  | _ => none

/-- What the call passes for this key, if it is about it. -/
def Spec.Alice.theirSignedPreKey : AliceCall → Option (Option ECPub)
  | .theirSignedPreKey k => some k
  | _ => none

/-- What the call passes for this key, if it is about it. -/
def Spec.Alice.theirRatchetKey : AliceCall → Option (Option ECPub)
  | .theirRatchetKey k => some k
  | _ => none

/-- What the call passes for this key, if it is about it. -/
def Spec.Alice.theirOneTimePreKey : AliceCall → Option (Option ECPub)
  | .theirOneTimePreKey k => some k
  | _ => none

theorem AliceCall.fold (cs : List AliceCall) : cs.foldl AliceCall.run {} =
    ⟨Spec.lastSet Spec.Alice.ourIdentityKey cs, Spec.lastSet Spec.Alice.ourBaseKey cs, Spec.lastSet Spec.Alice.theirIdentityKey cs, Spec.lastSet Spec.Alice.theirSignedPreKey cs, Spec.lastSet Spec.Alice.theirRatchetKey cs, Spec.lastSet Spec.Alice.theirOneTimePreKey cs⟩ := by
  induction cs using List.reverseRecOn with
  | nil => rfl
  | append_singleton cs c ih =>
    rw [List.foldl_append, List.foldl_cons, List.foldl_nil, ih]
    simp only [lastSet_concat]
    cases c <;> rfl

/-- Whatever setters were called, in whatever order and however often: `create` gives the parameters in which every key is
the one passed last, and raises `ValueError` when one that is needed was not passed or was `None` the last time. -/
theorem C83_alice (cs : List AliceCall) :
    (∀ p, (cs.foldl AliceCall.run {}).create = .ok p ↔
        Spec.lastSet Spec.Alice.ourIdentityKey cs = some p.ourIdentityKey ∧
        Spec.lastSet Spec.Alice.ourBaseKey cs = some p.ourBaseKey ∧
        Spec.lastSet Spec.Alice.theirIdentityKey cs = some p.theirIdentityKey ∧
        Spec.lastSet Spec.Alice.theirSignedPreKey cs = some p.theirSignedPreKey ∧
        Spec.lastSet Spec.Alice.theirRatchetKey cs = some p.theirRatchetKey ∧
        Spec.lastSet Spec.Alice.theirOneTimePreKey cs = p.theirOneTimePreKey) ∧
    (∀ e, (cs.foldl AliceCall.run {}).create = .error e ↔ e = .valueError ∧
        (Spec.lastSet Spec.Alice.ourIdentityKey cs = none ∨
        Spec.lastSet Spec.Alice.ourBaseKey cs = none ∨
        Spec.lastSet Spec.Alice.theirIdentityKey cs = none ∨
        Spec.lastSet Spec.Alice.theirSignedPreKey cs = none ∨
        Spec.lastSet Spec.Alice.theirRatchetKey cs = none)) := by
  rw [AliceCall.fold]
  generalize Spec.lastSet Spec.Alice.ourIdentityKey cs = x_ourIdentityKey
  generalize Spec.lastSet Spec.Alice.ourBaseKey cs = x_ourBaseKey
  generalize Spec.lastSet Spec.Alice.theirIdentityKey cs = x_theirIdentityKey
  generalize Spec.lastSet Spec.Alice.theirSignedPreKey cs = x_theirSignedPreKey
  generalize Spec.lastSet Spec.Alice.theirRatchetKey cs = x_theirRatchetKey
  generalize Spec.lastSet Spec.Alice.theirOneTimePreKey cs = x_theirOneTimePreKey
  unfold AliceBuilder.create
  cases x_ourIdentityKey <;> cases x_ourBaseKey <;> cases x_theirIdentityKey <;> cases x_theirSignedPreKey <;> cases x_theirRatchetKey <;>
    refine ⟨fun p => ?_, fun e => ?_⟩ <;> (try cases p) <;> simp [eq_comm]

/-- A call on a `BobAxolotlParameters.Builder`, with what is passed; `none` is Python's `None`. -/
inductive BobCall where
  | ourIdentityKey (k : Option KeyPair)
  | ourSignedPreKey (k : Option KeyPair)
  | ourOneTimePreKey (k : Option KeyPair)
  | ourRatchetKey (k : Option KeyPair)
  | theirIdentityKey (k : Option ECPub)
  | theirBaseKey (k : Option ECPub)

/-- The call on the builder; the setters return the builder itself. -/
def BobCall.run (b : BobBuilder) : BobCall → BobBuilder
  | .ourIdentityKey k => b.setOurIdentityKey k
  | .ourSignedPreKey k => b.setOurSignedPreKey k
  | .ourOneTimePreKey k => b.setOurOneTimePreKey k
  | .ourRatchetKey k => b.setOurRatchetKey k
  | .theirIdentityKey k => b.setTheirIdentityKey k
  | .theirBaseKey k => b.setTheirBaseKey k

/-- What the call passes for this key, if it is about it. -/
def Spec.Bob.ourIdentityKey : BobCall → Option (Option KeyPair)
  | .ourIdentityKey k => some k
  | _ => none

/-- What the call passes for this key, if it is about it. -/
def Spec.Bob.ourSignedPreKey : BobCall → Option (Option KeyPair)
  | .ourSignedPreKey k => some k
  | _ => none

/-- What the call passes for this key, if it is about it. -/
def Spec.Bob.ourOneTimePreKey : BobCall → Option (Option KeyPair)
  | .ourOneTimePreKey k => some k
  | _ => none

/-- What the call passes for this key, if it is about it. -/
def Spec.Bob.ourRatchetKey : BobCall → Option (Option KeyPair)
  | .ourRatchetKey k => some k
  | _ => none

/-- What the call passes for this key, if it is about it. -/
def Spec.Bob.theirIdentityKey : BobCall → Option (Option ECPub)
  | .theirIdentityKey k => some k
  | _ => none

/-- What the call passes for this key, if it is about it. -/
def Spec.Bob.theirBaseKey : BobCall → Option (Option ECPub)
  | .theirBaseKey k => some k
  | _ => none

theorem BobCall.fold (cs : List BobCall) : cs.foldl BobCall.run {} =
    ⟨Spec.lastSet Spec.Bob.ourIdentityKey cs, Spec.lastSet Spec.Bob.ourSignedPreKey cs, Spec.lastSet Spec.Bob.ourOneTimePreKey cs, Spec.lastSet Spec.Bob.ourRatchetKey cs, Spec.lastSet Spec.Bob.theirIdentityKey cs, Spec.lastSet Spec.Bob.theirBaseKey cs⟩ := by
  induction cs using List.reverseRecOn with
  | nil => rfl
  | append_singleton cs c ih =>
    rw [List.foldl_append, List.foldl_cons, List.foldl_nil, ih]
    simp only [lastSet_concat]
    cases c <;> rfl

/-- Whatever setters were called, in whatever order and however often: `create` gives the parameters in which every key is
the one passed last, and raises `ValueError` when one that is needed was not passed or was `None` the last time. -/
theorem C83_bob (cs : List BobCall) :
    (∀ p, (cs.foldl BobCall.run {}).create = .ok p ↔
        Spec.lastSet Spec.Bob.ourIdentityKey cs = some p.ourIdentityKey ∧
        Spec.lastSet Spec.Bob.ourSignedPreKey cs = some p.ourSignedPreKey ∧
        Spec.lastSet Spec.Bob.ourRatchetKey cs = some p.ourRatchetKey ∧
        Spec.lastSet Spec.Bob.theirIdentityKey cs = some p.theirIdentityKey ∧
        Spec.lastSet Spec.Bob.theirBaseKey cs = some p.theirBaseKey ∧
        Spec.lastSet Spec.Bob.ourOneTimePreKey cs = p.ourOneTimePreKey) ∧
    (∀ e, (cs.foldl BobCall.run {}).create = .error e ↔ e = .valueError ∧
        (Spec.lastSet Spec.Bob.ourIdentityKey cs = none ∨
        Spec.lastSet Spec.Bob.ourSignedPreKey cs = none ∨
        Spec.lastSet Spec.Bob.ourRatchetKey cs = none ∨
        Spec.lastSet Spec.Bob.theirIdentityKey cs = none ∨
        Spec.lastSet Spec.Bob.theirBaseKey cs = none)) := by
  rw [BobCall.fold]
  generalize Spec.lastSet Spec.Bob.ourIdentityKey cs = x_ourIdentityKey
  generalize Spec.lastSet Spec.Bob.ourSignedPreKey cs = x_ourSignedPreKey
  generalize Spec.lastSet Spec.Bob.ourOneTimePreKey cs = x_ourOneTimePreKey
  generalize Spec.lastSet Spec.Bob.ourRatchetKey cs = x_ourRatchetKey
  generalize Spec.lastSet Spec.Bob.theirIdentityKey cs = x_theirIdentityKey
  generalize Spec.lastSet Spec.Bob.theirBaseKey cs = x_theirBaseKey
  unfold BobBuilder.create
  cases x_ourIdentityKey <;> cases x_ourSignedPreKey <;> cases x_ourRatchetKey <;> cases x_theirIdentityKey <;> cases x_theirBaseKey <;>
    refine ⟨fun p => ?_, fun e => ?_⟩ <;> (try cases p) <;> simp [eq_comm]
  tauto

/-- A call on a `SymmetricAxolotlParameters.Builder`, with what is passed; `none` is Python's `None`. -/
inductive SymmetricCall where
  | ourIdentityKey (k : Option KeyPair)
  | ourBaseKey (k : Option KeyPair)
  | ourRatchetKey (k : Option KeyPair)
  | theirRatchetKey (k : Option ECPub)
  | theirIdentityKey (k : Option ECPub)
  | theirBaseKey (k : Option ECPub)

/-- The call on the builder; the setters return the builder itself. -/
def SymmetricCall.run (b : SymmetricBuilder) : SymmetricCall → SymmetricBuilder
  | .ourIdentityKey k => b.setOurIdentityKey k
  | .ourBaseKey k => b.setOurBaseKey k
  | .ourRatchetKey k => b.setOurRatchetKey k
  | .theirRatchetKey k => b.setTheirRatchetKey k
  | .theirIdentityKey k => b.setTheirIdentityKey k
  | .theirBaseKey k => b.setTheirBaseKey k

/-- What the call passes for this key, if it is about it. -/
def Spec.Symmetric.ourIdentityKey : SymmetricCall → Option (Option KeyPair)
  | .ourIdentityKey k => some k
  | _ => none

/-- What the call passes for this key, if it is about it. -/
def Spec.Symmetric.ourBaseKey : SymmetricCall → Option (Option KeyPair)
  | .ourBaseKey k => some k
  | _ => none

/-- What the call passes for this key, if it is about it. -/
def Spec.Symmetric.ourRatchetKey : SymmetricCall → Option (Option KeyPair)
  | .ourRatchetKey k => some k
  | _ => none

/-- What the call passes for this key, if it is about it. -/
def Spec.Symmetric.theirRatchetKey : SymmetricCall → Option (Option ECPub)
  | .theirRatchetKey k => some k
  | _ => none

/-- What the call passes for this key, if it is about it. -/
def Spec.Symmetric.theirIdentityKey : SymmetricCall → Option (Option ECPub)
  | .theirIdentityKey k => some k
  | _ => none

/-- What the call passes for this key, if it is about it. -/
def Spec.Symmetric.theirBaseKey : SymmetricCall → Option (Option ECPub)
  | .theirBaseKey k => some k
  | _ => none

theorem SymmetricCall.fold (cs : List SymmetricCall) : cs.foldl SymmetricCall.run {} =
    ⟨Spec.lastSet Spec.Symmetric.ourIdentityKey cs, Spec.lastSet Spec.Symmetric.ourBaseKey cs, Spec.lastSet Spec.Symmetric.ourRatchetKey cs, Spec.lastSet Spec.Symmetric.theirRatchetKey cs, Spec.lastSet Spec.Symmetric.theirIdentityKey cs, Spec.lastSet Spec.Symmetric.theirBaseKey cs⟩ := by
  induction cs using List.reverseRecOn with
  | nil => rfl
  | append_singleton cs c ih =>
    rw [List.foldl_append, List.foldl_cons, List.foldl_nil, ih]
    simp only [lastSet_concat]
    cases c <;> rfl

/-- Whatever setters were called, in whatever order and however often: `create` gives the parameters in which every key is
the one passed last, and raises `ValueError` when one that is needed was not passed or was `None` the last time. -/
theorem C83_symmetric (cs : List SymmetricCall) :
    (∀ p, (cs.foldl SymmetricCall.run {}).create = .ok p ↔
        Spec.lastSet Spec.Symmetric.ourIdentityKey cs = some p.ourIdentityKey ∧
        Spec.lastSet Spec.Symmetric.ourBaseKey cs = some p.ourBaseKey ∧
        Spec.lastSet Spec.Symmetric.ourRatchetKey cs = some p.ourRatchetKey ∧
        Spec.lastSet Spec.Symmetric.theirRatchetKey cs = some p.theirRatchetKey ∧
        Spec.lastSet Spec.Symmetric.theirIdentityKey cs = some p.theirIdentityKey ∧
        Spec.lastSet Spec.Symmetric.theirBaseKey cs = some p.theirBaseKey) ∧
    (∀ e, (cs.foldl SymmetricCall.run {}).create = .error e ↔ e = .valueError ∧
        (Spec.lastSet Spec.Symmetric.ourIdentityKey cs = none ∨
        Spec.lastSet Spec.Symmetric.ourBaseKey cs = none ∨
        Spec.lastSet Spec.Symmetric.ourRatchetKey cs = none ∨
        Spec.lastSet Spec.Symmetric.theirRatchetKey cs = none ∨
        Spec.lastSet Spec.Symmetric.theirIdentityKey cs = none ∨
        Spec.lastSet Spec.Symmetric.theirBaseKey cs = none)) := by
  rw [SymmetricCall.fold]
  generalize Spec.lastSet Spec.Symmetric.ourIdentityKey cs = x_ourIdentityKey
  generalize Spec.lastSet Spec.Symmetric.ourBaseKey cs = x_ourBaseKey
  generalize Spec.lastSet Spec.Symmetric.ourRatchetKey cs = x_ourRatchetKey
  generalize Spec.lastSet Spec.Symmetric.theirRatchetKey cs = x_theirRatchetKey
  generalize Spec.lastSet Spec.Symmetric.theirIdentityKey cs = x_theirIdentityKey
  generalize Spec.lastSet Spec.Symmetric.theirBaseKey cs = x_theirBaseKey
  unfold SymmetricBuilder.create
  cases x_ourIdentityKey <;> cases x_ourBaseKey <;> cases x_ourRatchetKey <;> cases x_theirRatchetKey <;> cases x_theirIdentityKey <;> cases x_theirBaseKey <;>
    refine ⟨fun p => ?_, fun e => ?_⟩ <;> (try cases p) <;> simp [eq_comm]
  tauto

/-! A setter may be called twice: the second value counts, also if it is `None`. -/
example (kp : KeyPair) (k : ECPub) :
    (List.foldl AliceCall.run {} [.ourIdentityKey (some kp), .ourBaseKey none, .theirIdentityKey (some k), .theirSignedPreKey (some k),
      .theirRatchetKey (some k), .ourBaseKey (some kp)]).create = .ok ⟨kp, kp, k, k, k, none⟩ := rfl
example (kp : KeyPair) (k : ECPub) :
    (List.foldl AliceCall.run {} [.ourIdentityKey (some kp), .ourBaseKey (some kp), .theirIdentityKey (some k), .theirSignedPreKey (some k),
      .theirRatchetKey (some k), .ourBaseKey none]).create = .error .valueError := rfl
example (kp kp' : KeyPair) (k : ECPub) :
    (List.foldl BobCall.run {} [.ourIdentityKey (some kp), .ourSignedPreKey (some kp'), .ourRatchetKey (some kp'), .theirIdentityKey (some k),
      .theirBaseKey (some k), .ourOneTimePreKey (some kp)]).create = .ok ⟨kp, kp', kp', some kp, k, k⟩ := rfl
example (kp : KeyPair) (k : ECPub) :
    (List.foldl BobCall.run {} [.ourIdentityKey (some kp), .ourSignedPreKey (some kp), .theirIdentityKey (some k),
      .theirBaseKey (some k)]).create = .error .valueError := rfl
example (kp kp' : KeyPair) (k k' : ECPub) :
    (List.foldl SymmetricCall.run {} [.ourIdentityKey (some kp), .ourBaseKey (some kp'), .ourRatchetKey (some kp), .theirRatchetKey (some k),
      .theirIdentityKey (some k'), .theirBaseKey (some k)]).create = .ok ⟨kp', kp, kp, k, k, k'⟩ := rfl
example (kp : KeyPair) (k : ECPub) :
    (List.foldl SymmetricCall.run {} [.ourIdentityKey (some kp), .ourBaseKey (some kp), .theirRatchetKey (some k),
      .theirIdentityKey (some k), .theirBaseKey (some k)]).create = .error .valueError := rfl

section
variable [C : Crypto]

/-- The parameters that the library builds are never refused, and the library's own calls of the builders do what the model says
without them. -/
theorem C83_initialize (s : SessionState) (p : SymmetricParameters) (seed : Bytes) :
    RatchetingSession.initializeSessionBuilt s p seed = RatchetingSession.initializeSession s p seed := rfl

theorem C83_prekey_message (w : World) (r : SessionRecord) (m : PreKeyWhisperMessage) :
    SessionBuilder.processV3Built w r m = SessionBuilder.processV3 w r m := by
  unfold SessionBuilder.processV3Built SessionBuilder.processV3
  split
  · rfl
  · cases m.preKeyId <;> rfl

theorem C83_bundle (w : World) (addr : Address) (b : PreKeyBundle) (baseSeed ratchetSeed : Bytes) :
    SessionBuilder.processPreKeyBundleBuilt w addr b baseSeed ratchetSeed =
      SessionBuilder.processPreKeyBundle w addr b baseSeed ratchetSeed := by
  unfold SessionBuilder.processPreKeyBundleBuilt SessionBuilder.processPreKeyBundle
  congr 1
  split
  · rfl
  · obtain ⟨a1, a2, a3, a4, a5, sk, a7, a8⟩ := b
    cases sk with
    | none => rfl
    | some k =>
      simp only
      cases Curve.verifySignature _ (Curve.serializePoint k) _ with
      | error e => rfl
      | ok v => cases v <;> cases a4 <;> rfl

theorem C83_initiate (w : World) (addr : Address) (m : KeyExchangeMessage) (rnd : SessionBuilder.InitiateRand) :
    SessionBuilder.processInitiateStateBuilt w addr m rnd = SessionBuilder.processInitiateState w addr m rnd := by
  unfold SessionBuilder.processInitiateStateBuilt SessionBuilder.processInitiateState
  rfl

theorem C83_response (w : World) (addr : Address) (m : KeyExchangeMessage) (sendSeed : Bytes) :
    SessionBuilder.processResponseBuilt w addr m sendSeed = SessionBuilder.processResponse w addr m sendSeed := rfl

/-! ## C82 -/

omit C in
theorem distributionOf_u32 {r : SenderKeyRecord} {m : SenderKeyDistributionMessage}
    (h : GroupSessionBuilder.distributionOf r = .ok m) : m.iteration < 2 ^ 32 ∧ m.id < 2 ^ 32 := by
  unfold GroupSessionBuilder.distributionOf at h
  obtain ⟨st, _, h⟩ := bind_eq_ok.1 h
  obtain ⟨pub, _, h⟩ := bind_eq_ok.1 h
  unfold SenderKeyDistributionMessage.create at h
  simp only at h
  obtain ⟨i, hi, h⟩ := bind_eq_ok.1 h
  obtain ⟨j, hj, h⟩ := bind_eq_ok.1 h
  injection h with h
  subst h
  obtain ⟨h1, h2⟩ := chkU32_eq_ok.1 hi
  obtain ⟨h3, h4⟩ := chkU32_eq_ok.1 hj
  simp only
  omega

theorem create_u32 {g : GroupStore} {n : SenderKeyName} {rnd : GroupSessionBuilder.CreateRand}
    {m : SenderKeyDistributionMessage} (h : (GroupSessionBuilder.create g n rnd).result = .ok m) :
    (∃ r, GroupSessionBuilder.distributionOf r = .ok m) ∧ m.iteration < 2 ^ 32 ∧ m.id < 2 ^ 32 := by
  have hw : ∀ r, GroupSessionBuilder.wrapAssert (GroupSessionBuilder.distributionOf r) = .ok m →
      GroupSessionBuilder.distributionOf r = .ok m := by
    intro r h
    cases hd : GroupSessionBuilder.distributionOf r with
    | ok x =>
      rw [hd] at h
      exact h
    | error e =>
      rw [hd] at h
      cases e <;> cases h
  have : ∃ r, GroupSessionBuilder.distributionOf r = .ok m := by
    unfold GroupSessionBuilder.create at h
    split at h
    · cases hs : (g n).setSenderKeyState rnd.keyId 0 rnd.senderKey (Curve.generateKeyPair rnd.signSeed) with
      | error e =>
        rw [hs] at h
        cases e <;> cases h
      | ok r =>
        rw [hs] at h
        exact ⟨r, hw r h⟩
    · exact ⟨_, hw _ h⟩
  obtain ⟨r, hr⟩ := this
  exact ⟨⟨r, hr⟩, distributionOf_u32 hr⟩

/-- What `create` returned is refused by `process`, in every store and under every name, and nothing is stored. -/
theorem C82_direct (g : GroupStore) (n : SenderKeyName) (rnd : GroupSessionBuilder.CreateRand) (o : DistributionObject)
    (h : (DistributionObject.create g n rnd).result = .ok o) (g' : GroupStore) (n' : SenderKeyName) :
    DistributionObject.process g' n' o = ⟨none, .error .typeError⟩ := by
  simp only [DistributionObject.create] at h
  cases hc : (GroupSessionBuilder.create g n rnd).result with
  | error e =>
    simp only [hc] at h
    cases h
  | ok m =>
    obtain rfl : (⟨m, true⟩ : DistributionObject) = o := by simpa only [hc, Except.map, Except.ok.injEq] using h
    have hi := chkU32_ok (create_u32 hc).2.1
    have ha : DistributionObject.addSenderKeyState (g' n') ⟨m, true⟩ = .error .typeError := by
      unfold DistributionObject.addSenderKeyState
      simp only [hi, ok_bind, if_true]
    unfold DistributionObject.process
    rw [ha]
    rfl

omit C in
/-- An object made from bytes is processed as in C43 to C45. -/
theorem C82_parsed (bs : Bytes) (o : DistributionObject) (h : DistributionObject.ofSerialized bs = .ok o) (g : GroupStore)
    (n : SenderKeyName) : SenderKeyDistributionMessage.parse bs = .ok o.message ∧
      DistributionObject.process g n o = GroupSessionBuilder.process g n o.message := by
  unfold DistributionObject.ofSerialized at h
  obtain ⟨m, hm, h⟩ := bind_eq_ok.1 h
  injection h with h
  subst h
  refine ⟨hm, ?_⟩
  unfold DistributionObject.process DistributionObject.addSenderKeyState GroupSessionBuilder.process
    SenderKeyRecord.addSenderKeyState SenderKeyState.mk'
  simp only
  cases h : chkU32 (m.iteration : Int) with
  | error e => simp only [error_bind]
  | ok i => simp only [ok_bind, Bool.false_eq_true, if_false]

/-- Sent as bytes, the same message is accepted by everybody: the new state is the last of the record, with the sender's id,
position, chain key and public key, and without a private key. -/
theorem C82_wire (g : GroupStore) (n : SenderKeyName) (rnd : GroupSessionBuilder.CreateRand) (o : DistributionObject)
    (h : (DistributionObject.create g n rnd).result = .ok o) (hk : o.message.signatureKey.length = 32)
    (hl : o.message.chainKey.length < 2 ^ 63) (g' : GroupStore) (n' : SenderKeyName) :
    ∃ o', DistributionObject.ofSerialized o.message.serialized = .ok o' ∧ o'.message = o.message ∧
      DistributionObject.process g' n' o' = ⟨some { senderKeyStates := (g' n').senderKeyStates ++
        [{ senderKeyId := some o.message.id,
           senderChainKey := some { iteration := some o.message.iteration, seed := some o.message.chainKey },
           senderSigningKey := some { pub := some (0x05 :: o.message.signatureKey), priv := none } }] }, .ok ()⟩ := by
  simp only [DistributionObject.create] at h
  cases hc : (GroupSessionBuilder.create g n rnd).result with
  | error e =>
    simp only [hc] at h
    cases h
  | ok m =>
    obtain rfl : (⟨m, true⟩ : DistributionObject) = o := by simpa only [hc, Except.map, Except.ok.injEq] using h
    obtain ⟨⟨r, hr⟩, hi, hid⟩ := create_u32 hc
    obtain ⟨m', h1, h2, e1, e2, e3, e4⟩ := C05_distribution_roundtrip m.id m.iteration hid hi m.chainKey hl m.signatureKey hk
    have hm : m' = m := by
      unfold GroupSessionBuilder.distributionOf at hr
      obtain ⟨st, _, hr⟩ := bind_eq_ok.1 hr
      obtain ⟨pub, _, hr⟩ := bind_eq_ok.1 hr
      have hf : m.id = SenderKeyState.getKeyId st ∧ m.iteration = (SenderKeyState.getSenderChainKey st).iteration ∧
          m.chainKey = (SenderKeyState.getSenderChainKey st).chainKey ∧ m.signatureKey = pub := by
        unfold SenderKeyDistributionMessage.create at hr
        obtain ⟨i, _, hr⟩ := bind_eq_ok.1 hr
        obtain ⟨j, _, hr⟩ := bind_eq_ok.1 hr
        injection hr with hr
        subst hr
        exact ⟨rfl, rfl, rfl, rfl⟩
      rw [← hf.1, ← hf.2.1, ← hf.2.2.1, ← hf.2.2.2, h1] at hr
      injection hr
    subst hm
    refine ⟨⟨m', false⟩, ?_, rfl, ?_⟩
    · unfold DistributionObject.ofSerialized
      rw [h2]
      rfl
    · unfold DistributionObject.process DistributionObject.addSenderKeyState SenderKeyRecord.addSenderKeyState SenderKeyState.mk'
      simp only
      rw [chkU32_ok hi, chkU32_ok hid]
      rfl

end

section
attribute [local instance] toy
open Example

/-! A sender that has a record already or not, and a store of somebody else. -/
example : ∃ o, (DistributionObject.create GroupStore.empty grp grpRand).result = .ok o ∧
    o.message.signatureKey.length = 32 ∧ o.message.chainKey.length < 2 ^ 63 := by
  refine ⟨_, rfl, ?_, ?_⟩ <;> decide +kernel

/-- What goes over the wire can be read again. -/
example : ∃ o o', (DistributionObject.create GroupStore.empty grp grpRand).result = .ok o ∧
    DistributionObject.ofSerialized o.message.serialized = .ok o' := by
  have h : ((DistributionObject.create GroupStore.empty grp grpRand).result.bind fun o =>
      DistributionObject.ofSerialized o.message.serialized).toOption.isSome = true := by decide +kernel
  generalize (DistributionObject.create GroupStore.empty grp grpRand).result = x at *
  cases x with
  | error e => cases h
  | ok o =>
    refine ⟨o, ?_⟩
    replace h : (DistributionObject.ofSerialized o.message.serialized).toOption.isSome = true := h
    cases hx : DistributionObject.ofSerialized o.message.serialized with
    | error e => rw [hx] at h; cases h
    | ok o' => exact ⟨o', rfl, rfl⟩

end
end Axolotl
