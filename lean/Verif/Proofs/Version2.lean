import Verif.Props.Format
import Verif.Props.Conversation
import Verif.Spec.Version2Session

/-! Lemmas about version-2 sessions. -/

namespace Axolotl
section
variable [C : Crypto]
open SessionState ByteUtil Wire
open Spec (GoodPair Net Conv Start2 KeyOf CbcEncryption CbcDecryption MessageKey2 sessionMessage2 rebind rebindAll versionOf)

omit C in
theorem versionOf_eq (s : SessionS) : getSessionVersion s = versionOf s := by
  unfold getSessionVersion versionOf
  cases h : s.sessionVersion with
  | none => rfl
  | some v => cases v <;> simp

/-! ## The start of a conversation -/

theorem between2_party {me you : ECPub} {s : SessionS} (h : Spec.Between2 me you s) {x : Epoch .v2}
    {R : List (Recv .v2)} (h1 : s.rootKey = some x.root) (h2 : s.senderChain = some (Spec.freshChain x.pub (some x.priv) x.chain))
    (h3 : s.receiverChains = R.map Recv.chain) : Party me you x 0 R s :=
  ⟨(versionOf_eq s).trans h.version, h.me, h.you, h1, h2, h3, h.previous⟩

theorem start2_inv (hC : C.Lawful) {cv : Conv} {net : Net} (h : Start2 cv net) : ConvInv cv net := by
  cases h with
  | @mk wA wB ab ba rA rB idA idB kp seed root chain secret hA hB bA bB lA lB hk hseed hdh b1 b2 b3 a1 a2 a3 hne =>
  let e0 : Epoch .v2 := ⟨kp.priv, kp.pub, root, chain⟩
  have hg0 : e0.Good := ⟨hk.priv, hk.pub⟩
  have hn : nextEpoch e0 seed = ⟨C.genPriv seed, C.genPub (C.genPriv seed), Spec.ratchetRoot2 root secret,
      Spec.ratchetChain2 root secret⟩ := by
    unfold nextEpoch
    have : C.dh (Curve.generateKeyPair seed).priv e0.pub = some secret := hdh
    simp only
    rw [this]
    rfl
  refine ⟨.v2, fun s => if s then idA else idB, fun h => (by cases h), ⟨0, none, 0, []⟩, startGhost e0 (nextEpoch e0 seed),
    start_ginv ?_ hg0 (nextEpoch_good hC e0 hseed) (nextEpoch_next hC hg0 hseed) hne rfl rfl rfl rfl,
    fun h => (by cases h), fun h => (by cases h), ?_, fun h => (by cases h), ?_, fun h => (by cases h)⟩
  · intro s; cases s
    · exact lB
    · exact lA
  · intro s i c pt h; simp at h
  · intro s
    left
    cases s with
    | true =>
      refine ⟨rA, hA, ?_, Or.inl bA.settled, fun x => by cases x⟩
      show Party idA idB (nextEpoch e0 seed) 0 [⟨e0, 0, []⟩] rA.sessionState
      refine between2_party bA ?_ ?_ ?_
      · rw [hn]; exact a1
      · rw [hn]; exact a2
      · exact a3
    | false =>
      refine ⟨rB, hB, ?_, Or.inl bB.settled, fun _ x => by cases x⟩
      exact between2_party (x := e0) (R := []) bB b1 b2 b3

/-! ## Bytes -/

theorem whisper_bytes2 (hlen : ∀ k m, (C.hmac k m).length = 32) {mk : Bytes} {e : ECPub} {n pc : Nat} {ct : Bytes}
    {a b : ECPub} {m : WhisperMessage} (h : WhisperMessage.create 2 mk e n pc ct a b = .ok m)
    (he : e.length ≤ 32) (hct : ct.length < 2 ^ 63) :
    m.serialized = sessionMessage2 e n pc ct ++ (C.hmac mk (sessionMessage2 e n pc ct)).take 8 := by
  unfold WhisperMessage.create at h
  obtain ⟨c', h1, h⟩ := bind_eq_ok.1 h
  obtain ⟨p', h2, h⟩ := bind_eq_ok.1 h
  obtain ⟨e1, l1⟩ := chkU32_eq_ok.1 h1
  obtain ⟨e2, l2⟩ := chkU32_eq_ok.1 h2
  have e1 : c' = n := by omega
  have e2 : p' = pc := by omega
  subst e1 e2
  have h := Except.ok.inj h
  have hv : intsToByteHighAndLow 2 CiphertextMessage.CURRENT_VERSION = 0x23 := by decide
  have hb : serializeWith WhisperMessageP.toFields
      { ratchetKey := some (Curve.serializePoint e), counter := some c',
        previousCounter := some p', ciphertext := some ct } =
      Spec.bytesField 0x0A (5 :: e) ++ Spec.numField 0x10 c' ++ Spec.numField 0x18 p' ++ Spec.bytesField 0x22 ct := by
    unfold serializeWith WhisperMessageP.toFields
    simp only [encFields_append]
    rw [encFields_bytes (by decide) (by rw [serializePoint_length]; omega), encFields_num (by decide) (by omega),
      encFields_num (by decide) (by omega), encFields_bytes (by decide) (by omega)]
    rfl
  rw [hb, hv] at h
  rw [← h]
  simp only [WhisperMessage.getMac, ge_iff_le, show ¬ (3 ≤ 2) by decide, if_false]
  rw [trim_eq_take (by rw [hlen]; decide)]
  rfl

/-- A verified MAC of version 2. -/
theorem verifyMac_ok2 (hlen : ∀ k m, (C.hmac k m).length = 32) {m : WhisperMessage} {a b : ECPub}
    {k : Bytes} (h : m.verifyMac 2 a b k = .ok ()) :
    ∃ body mac, m.serialized = body ++ mac ∧ mac.length = 8 ∧ mac = (C.hmac k body).take 8 := by
  unfold WhisperMessage.verifyMac at h
  simp only at h
  split at h
  · cases h
  · rename_i hne
    have he := Classical.not_not.1 hne
    have hl : (split2 m.serialized ((m.serialized.length : Int) - WhisperMessage.MAC_LENGTH)
        WhisperMessage.MAC_LENGTH).2.length = 8 := by
      rw [← he]; exact getMac_length hlen _ _ _ _ _
    by_cases hlong : 8 ≤ m.serialized.length
    · have hsplit : split2 m.serialized ((m.serialized.length : Int) - WhisperMessage.MAC_LENGTH)
          WhisperMessage.MAC_LENGTH =
          (m.serialized.take (m.serialized.length - 8), m.serialized.drop (m.serialized.length - 8)) := by
        have hd : (m.serialized.drop (m.serialized.length - 8)).length = 8 := by rw [List.length_drop]; omega
        have := split2_tail (m.serialized.take (m.serialized.length - 8))
          (m.serialized.drop (m.serialized.length - 8)) 8 hd
        rw [List.take_append_drop] at this
        exact this
      rw [hsplit] at he
      refine ⟨_, _, (List.take_append_drop (m.serialized.length - 8) m.serialized).symm,
        by rw [List.length_drop]; omega, ?_⟩
      refine he.symm.trans ?_
      unfold WhisperMessage.getMac
      rw [if_neg (by decide)]
      exact trim_eq_take (by rw [hlen]; simp [WhisperMessage.MAC_LENGTH])
    · exfalso
      unfold split2 pySlice at hl
      simp only [List.length_take, List.length_drop] at hl
      omega

omit C in
theorem createFor_two {s : SessionState} (h : versionOf s = 2) : Kdf.createFor (getSessionVersion s) = .ok .v2 := by
  rw [versionOf_eq, h]; rfl

/-- The keys a successful decryption used are ones the state offers. -/
theorem dwss_keys2 (hC : C.Lawful) {s : SessionState} {m : WhisperMessage} {seed : Bytes}
    {pt : Bytes} {s' : SessionState} (h : SessionCipher.decryptWithSessionState s m seed = .ok (pt, s'))
    (hv : versionOf s = 2) :
    ∃ ck mk iv rid lid, MessageKey2 s m.senderRatchetKey m.counter ck mk iv ∧ m.messageVersion = 2 ∧
      WhisperMessage.verifyMac m m.messageVersion rid lid mk = .ok () ∧ CbcDecryption ck iv m.ciphertext pt := by
  have hlen := hC.hmac_len
  obtain ⟨hsc, hver, ck, s1, mk, s2, rid, lid, h1, h2, h3, h4, h5, h6, h7⟩ := SessionCipher.dwss_ok h
  have h6 := aes_cbc_dec hC h6
  have hm3 : m.messageVersion = 2 := by rw [hver, versionOf_eq, hv]
  obtain ⟨c, j, hc, h2⟩ := SessionCipher.gocmk_ok h2
  rcases SessionCipher.gocck_ok h1 with ⟨c1, j1, kdf, g1, g2, g3, g4⟩ | ⟨kdf, our, rk1, rk2, sck, g1, g2, g3, g4, g5, g6⟩
  · subst g4
    rw [g1] at hc
    obtain ⟨rfl, rfl⟩ := Prod.mk.inj (Option.some.inj (Except.ok.inj hc))
    obtain ⟨_, hcm, hck⟩ := SessionState.findChain_some g1
    have hcm := List.mem_of_getElem? hcm
    have hck := decodePoint_KeyOf hck
    rw [createFor_two hv] at g2
    obtain rfl := Except.ok.inj g2
    refine ⟨mk.cipherKey, mk.macKey, mk.iv, rid, lid, ?_, hm3, h5, h6⟩
    rcases h2 with ⟨_, e, rest, ht, hmk, _⟩ | ⟨hle, _, _, hmk, _⟩
    · subst hmk
      obtain ⟨t1, t2⟩ := takeKey_mem ht
      exact .stored hcm hck t1 t2
    · subst hmk; subst g3
      rw [getMessageKeys_v2 hlen _ (by rw [ChainKey.iter_kdf]; rfl), iter_key]
      exact .ahead hcm hck hle rfl
  · obtain ⟨secret, hsec, e1, e2, e3⟩ := RootKey.createChain_ok g4
    rw [createFor_two hv] at g2
    obtain rfl := Except.ok.inj g2
    rw [createChain_of hlen] at g4
    cases hdh : C.dh our.priv m.senderRatchetKey with
    | none => rw [hdh] at g4; cases g4
    | some sec =>
    rw [hdh] at g4
    simp only at g4
    obtain ⟨g4, g4'⟩ := Prod.mk.inj (Except.ok.inj g4)
    subst g4; subst g4'
    refine ⟨mk.cipherKey, mk.macKey, mk.iv, rid, lid, ?_, hm3, h5, h6⟩
    rcases h2 with ⟨hlt, _⟩ | ⟨hle, _, _, hmk, _⟩
    · exact absurd hlt (by simp)
    · subst hmk
      rw [getMessageKeys_v2 hlen _ (by rw [ChainKey.iter_kdf]), iter_key]
      simp only [Nat.sub_zero]
      unfold SessionState.getSenderRatchetKeyPair at g3
      obtain ⟨pub, _, g3⟩ := bind_eq_ok.1 g3
      obtain rfl := Except.ok.inj g3
      cases hsc' : s.senderChain with
      | none => unfold SessionState.hasSenderChain at hsc; rw [hsc'] at hsc; cases hsc
      | some c0 =>
        refine .ratchet hsc' ?_ rfl
        unfold SessionState.senderChainD at hdh
        rw [hsc'] at hdh
        exact hdh

/-! ## Identities play no part -/

/-- Applying `rebind` to the state of a result. -/
def onState {α : Type} (f : SessionS → SessionS) : Res (α × SessionState) → Res (α × SessionState)
  | .ok p => .ok (p.1, f p.2)
  | .error e => .error e

def onState' (f : SessionS → SessionS) : Res SessionState → Res SessionState
  | .ok p => .ok (f p)
  | .error e => .error e

variable (me you : ECPub)

omit C in
theorem rebind_add (s : SessionState) (k : ECPub) (ck : ChainKey) :
    addReceiverChain (rebind me you s) k ck = onState' (rebind me you) (addReceiverChain s k ck) := by
  unfold addReceiverChain
  cases chkU32 ck.index <;> rfl

omit C in
theorem rebind_setSender (s : SessionState) (k : KeyPair) (ck : ChainKey) :
    setSenderChain (rebind me you s) k ck = onState' (rebind me you) (setSenderChain s k ck) := by
  unfold setSenderChain
  cases chkU32 ck.index <;> rfl

omit C in
theorem rebind_modify {α : Type} (s : SessionState) (k : ECPub) (f : ChainS → Res (α × ChainS)) :
    modifyChain (rebind me you s) k f = onState (rebind me you) (modifyChain s k f) := by
  unfold modifyChain
  have : getReceiverChain (rebind me you s) k = getReceiverChain s k := rfl
  rw [this]
  cases getReceiverChain s k with
  | error e => rfl
  | ok o =>
    cases o with
    | none => rfl
    | some p =>
      simp only [ok_bind]
      cases f p.1 <;> rfl

omit C in
theorem rebind_setKeys (s : SessionState) (k : ECPub) (mk : MessageKeys) :
    setMessageKeys (rebind me you s) k mk = onState' (rebind me you) (setMessageKeys s k mk) := by
  unfold setMessageKeys
  cases chkU32 mk.counter with
  | error e => rfl
  | ok i =>
    simp only [ok_bind]
    rw [rebind_modify]
    cases modifyChain s k _ <;> rfl

omit C in
theorem rebind_setRecv (s : SessionState) (k : ECPub) (ck : ChainKey) :
    setReceiverChainKey (rebind me you s) k ck = onState' (rebind me you) (setReceiverChainKey s k ck) := by
  unfold setReceiverChainKey
  rw [rebind_modify]
  cases modifyChain s k _ <;> rfl

theorem rebind_skip (k : ECPub) : ∀ (n : Nat) (s : SessionState) (ck : ChainKey),
    SessionCipher.skipLoop k n (rebind me you s) ck =
      match SessionCipher.skipLoop k n s ck with
      | .ok p => .ok (rebind me you p.1, p.2)
      | .error e => .error e := by
  intro n
  induction n with
  | zero => intros; rfl
  | succ n ih =>
    intro s ck
    unfold SessionCipher.skipLoop
    rw [rebind_setKeys]
    cases setMessageKeys s k ck.getMessageKeys with
    | error e => rfl
    | ok s' => exact ih s' _

theorem rebind_gocck (s : SessionState) (k : ECPub) (seed : Bytes) :
    SessionCipher.getOrCreateChainKey (rebind me you s) k seed =
      onState (rebind me you) (SessionCipher.getOrCreateChainKey s k seed) := by
  unfold SessionCipher.getOrCreateChainKey
  have e1 : hasReceiverChain (rebind me you s) k = hasReceiverChain s k := rfl
  have e2 : getReceiverChainKey (rebind me you s) k = getReceiverChainKey s k := rfl
  have e3 : getRootKey (rebind me you s) = getRootKey s := rfl
  have e4 : getSenderRatchetKeyPair (rebind me you s) = getSenderRatchetKeyPair s := rfl
  rw [e1, e2, e3, e4]
  cases hasReceiverChain s k with
  | error e => rfl
  | ok b =>
    cases b with
    | true =>
      simp only [ok_bind, if_true]
      cases getReceiverChainKey s k <;> rfl
    | false =>
      simp only [ok_bind, Bool.false_eq_true, if_false]
      cases getRootKey s with
      | error e => rfl
      | ok rk =>
      simp only [ok_bind]
      cases getSenderRatchetKeyPair s with
      | error e => rfl
      | ok our =>
      simp only [ok_bind]
      cases RootKey.createChain rk k our with
      | error e => rfl
      | ok rc =>
      simp only [ok_bind]
      cases RootKey.createChain rc.1 k (Curve.generateKeyPair seed) with
      | error e => rfl
      | ok sc =>
      simp only [ok_bind]
      have e5 : setRootKey (rebind me you s) sc.1 = rebind me you (setRootKey s sc.1) := rfl
      rw [e5, rebind_add]
      cases addReceiverChain (setRootKey s sc.1) k rc.2 with
      | error e => rfl
      | ok s1 =>
      simp only [onState', ok_bind]
      have e6 : getSenderChainKey (rebind me you s1) = getSenderChainKey s1 := rfl
      rw [e6]
      cases getSenderChainKey s1 with
      | error e => rfl
      | ok sck =>
      simp only [ok_bind]
      have e7 : setPreviousCounter (rebind me you s1) (sck.index - 1) =
        rebind me you (setPreviousCounter s1 (sck.index - 1)) := rfl
      rw [e7, rebind_setSender]
      cases setSenderChain (setPreviousCounter s1 (sck.index - 1)) (Curve.generateKeyPair seed) sc.2 <;> rfl

theorem rebind_gocmk (s : SessionState) (k : ECPub) (ck : ChainKey) (n : Nat) :
    SessionCipher.getOrCreateMessageKeys (rebind me you s) k ck n =
      onState (rebind me you) (SessionCipher.getOrCreateMessageKeys s k ck n) := by
  unfold SessionCipher.getOrCreateMessageKeys
  split
  · have e1 : hasMessageKeys (rebind me you s) k n = hasMessageKeys s k n := rfl
    rw [e1]
    cases hasMessageKeys s k n with
    | error e => rfl
    | ok b =>
      cases b with
      | true =>
        simp only [ok_bind, if_true]
        unfold removeMessageKeys
        exact rebind_modify me you s k _
      | false => rfl
  · split
    · rfl
    · rw [rebind_skip]
      cases SessionCipher.skipLoop k (n - ck.index) s ck with
      | error e => rfl
      | ok p =>
        simp only [ok_bind]
        rw [rebind_setRecv]
        cases setReceiverChainKey p.1 k p.2.getNextChainKey <;> rfl

theorem verifyMac_two (m : WhisperMessage) (a b a' b' : ECPub) (k : Bytes) : m.verifyMac 2 a b k = m.verifyMac 2 a' b' k := by
  unfold WhisperMessage.verifyMac WhisperMessage.getMac
  rfl

omit C in
theorem keyOf_decode {o : Option Bytes} {k : ECPub} (h : KeyOf o k) : Curve.decodePoint (o.getD []) = .ok k := by
  obtain ⟨x, rfl, rfl⟩ := h
  rfl

theorem dwss_ids {s s1 s2 : SessionState} {ck : ChainKey} {mk : MessageKeys} {eph : ECPub} {seed : Bytes} {n : Nat}
    (h1 : SessionCipher.getOrCreateChainKey s eph seed = .ok (ck, s1))
    (h2 : SessionCipher.getOrCreateMessageKeys s1 eph ck n = .ok (mk, s2)) :
    s2.localIdentityPublic = s.localIdentityPublic ∧ s2.remoteIdentityPublic = s.remoteIdentityPublic := by
  have e1 : s1.localIdentityPublic = s.localIdentityPublic ∧ s1.remoteIdentityPublic = s.remoteIdentityPublic := by
    rcases SessionCipher.gocck_ok h1 with ⟨_, _, _, _, _, _, rfl⟩ | ⟨_, _, _, _, _, _, _, _, _, _, rfl⟩
    · exact ⟨rfl, rfl⟩
    · exact ⟨rfl, rfl⟩
  obtain ⟨_, _, _, h2⟩ := SessionCipher.gocmk_ok h2
  have e2 : s2.localIdentityPublic = s1.localIdentityPublic ∧ s2.remoteIdentityPublic = s1.remoteIdentityPublic := by
    rcases h2 with ⟨_, _, _, _, _, rfl⟩ | ⟨_, _, _, _, _, _, rfl⟩
    · exact ⟨rfl, rfl⟩
    · exact ⟨rfl, rfl⟩
  exact ⟨e2.1.trans e1.1, e2.2.trans e1.2⟩

theorem rebind_dwss {s : SessionState} (hv : versionOf s = 2) {x y : ECPub} (h1 : KeyOf s.localIdentityPublic x)
    (h2 : KeyOf s.remoteIdentityPublic y) (m : WhisperMessage) (seed : Bytes) :
    SessionCipher.decryptWithSessionState (rebind me you s) m seed =
      onState (rebind me you) (SessionCipher.decryptWithSessionState s m seed) := by
  unfold SessionCipher.decryptWithSessionState
  have e1 : hasSenderChain (rebind me you s) = hasSenderChain s := rfl
  have e2 : getSessionVersion (rebind me you s) = getSessionVersion s := rfl
  rw [e1, e2]
  split
  · rfl
  split
  · rfl
  rename_i hver
  have hver : m.messageVersion = 2 := by
    have := Classical.not_not.1 hver
    rw [this, versionOf_eq, hv]
  rw [rebind_gocck, hver]
  cases hg : SessionCipher.getOrCreateChainKey s m.senderRatchetKey seed with
  | error e => rfl
  | ok p =>
  obtain ⟨ck, s1⟩ := p
  simp only [onState, ok_bind]
  rw [rebind_gocmk]
  cases hk : SessionCipher.getOrCreateMessageKeys s1 m.senderRatchetKey ck m.counter with
  | error e => rfl
  | ok p =>
  obtain ⟨mk, s2⟩ := p
  obtain ⟨i1, i2⟩ := dwss_ids hg hk
  rw [← i1] at h1
  rw [← i2] at h2
  simp only [onState, ok_bind]
  have f1 : getRemoteIdentityKey s2 = .ok y := keyOf_decode h2
  have f2 : getLocalIdentityKey s2 = .ok x := keyOf_decode h1
  have f3 : getRemoteIdentityKey (rebind me you s2) = .ok (you.take 32) := rfl
  have f4 : getLocalIdentityKey (rebind me you s2) = .ok (me.take 32) := rfl
  rw [f1, f2, f3, f4]
  simp only [ok_bind]
  rw [verifyMac_two m (you.take 32) (me.take 32) y x]
  cases m.verifyMac 2 y x mk.macKey with
  | error e => rfl
  | ok u =>
  simp only [ok_bind]
  cases AES.decrypt mk.cipherKey mk.iv m.ciphertext <;> rfl

/-- Version 2, with identities that can be read. -/
def Settled2 (s : SessionS) : Prop :=
  versionOf s = 2 ∧ (∃ x, KeyOf s.localIdentityPublic x) ∧ ∃ y, KeyOf s.remoteIdentityPublic y

theorem rebind_try {r r' : SessionRecord} (m : WhisperMessage) (seeds : Nat → Bytes) : ∀ (l : List SessionState) (i : Nat),
    (∀ s ∈ l, Settled2 s) →
    (SessionCipher.tryPrevious r' m seeds (l.map (rebind me you)) i).map Prod.fst =
      (SessionCipher.tryPrevious r m seeds l i).map Prod.fst := by
  intro l
  induction l with
  | nil => intros; rfl
  | cons p l ih =>
    intro i h
    obtain ⟨q1, ⟨x, q2⟩, ⟨y, q3⟩⟩ := h p (List.mem_cons_self ..)
    rw [List.map_cons]
    unfold SessionCipher.tryPrevious
    rw [rebind_dwss me you q1 q2 q3]
    cases SessionCipher.decryptWithSessionState p m (seeds i) with
    | ok x => rfl
    | error e =>
      cases e <;> first | rfl | exact ih (i + 1) (fun s hs => h s (List.mem_cons_of_mem _ hs))

theorem rebind_dwsr {r : SessionRecord} (m : WhisperMessage) (seed : Bytes) (seeds : Nat → Bytes)
    (h : ∀ s ∈ Spec.states r, Settled2 s) :
    (SessionCipher.decryptWithSessionRecord (rebindAll me you r) m seed seeds).map Prod.fst =
      (SessionCipher.decryptWithSessionRecord r m seed seeds).map Prod.fst := by
  unfold SessionCipher.decryptWithSessionRecord rebindAll
  obtain ⟨q1, ⟨x, q2⟩, ⟨y, q3⟩⟩ := h r.sessionState (List.mem_cons_self ..)
  simp only
  rw [rebind_dwss me you q1 q2 q3]
  cases SessionCipher.decryptWithSessionState r.sessionState m seed with
  | ok x => rfl
  | error e =>
    cases e <;> first | rfl | exact rebind_try me you m seeds _ 0 (fun s hs => h s (List.mem_cons_of_mem _ hs))

end
end Axolotl
