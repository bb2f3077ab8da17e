import Verif.Proofs.Shape

/-! The plaintext or exception of a decryption does not depend on the random seed of the new ratchet key. -/

namespace Axolotl
section
variable [C : Crypto]
open SessionState SessionBuilder SessionCipher

/-- Replace the sending side of a state. -/
def graft (rk : Option Bytes) (sc : Option ChainS) (s : SessionState) : SessionState :=
  { s with rootKey := rk, senderChain := sc }

omit C in
theorem modifyChain_graft {α : Type} (s : SessionState) (rk : Option Bytes) (sc : Option ChainS) (eph : ECPub)
    (f : ChainS → Res (α × ChainS)) :
    modifyChain (graft rk sc s) eph f = (modifyChain s eph f).map fun x => (x.1, graft rk sc x.2) := by
  unfold modifyChain
  rw [show getReceiverChain (graft rk sc s) eph = getReceiverChain s eph from rfl]
  cases getReceiverChain s eph with
  | error e => rfl
  | ok o =>
    cases o with
    | none => rfl
    | some cj =>
      obtain ⟨c, j⟩ := cj
      simp only [ok_bind]
      cases f c with
      | error e => rfl
      | ok r => rfl

theorem setMessageKeys_graft (s : SessionState) (rk : Option Bytes) (sc : Option ChainS) (eph : ECPub) (mk : MessageKeys) :
    setMessageKeys (graft rk sc s) eph mk = (setMessageKeys s eph mk).map (graft rk sc) := by
  unfold setMessageKeys
  cases chkU32 mk.counter with
  | error e => rfl
  | ok i =>
    simp only [ok_bind]
    rw [modifyChain_graft]
    cases modifyChain s eph _ with
    | error e => rfl
    | ok r => rfl

theorem setReceiverChainKey_graft (s : SessionState) (rk : Option Bytes) (sc : Option ChainS) (eph : ECPub) (ck : ChainKey) :
    setReceiverChainKey (graft rk sc s) eph ck = (setReceiverChainKey s eph ck).map (graft rk sc) := by
  unfold setReceiverChainKey
  rw [modifyChain_graft]
  cases modifyChain s eph _ with
  | error e => rfl
  | ok r => rfl

theorem skipLoop_graft (rk : Option Bytes) (sc : Option ChainS) (eph : ECPub) : ∀ (n : Nat) (s : SessionState) (ck : ChainKey),
    SessionCipher.skipLoop eph n (graft rk sc s) ck =
      (SessionCipher.skipLoop eph n s ck).map fun x => (graft rk sc x.1, x.2) := by
  intro n
  induction n with
  | zero => intro s ck; rfl
  | succ n ih =>
    intro s ck
    unfold SessionCipher.skipLoop
    rw [setMessageKeys_graft]
    cases setMessageKeys s eph ck.getMessageKeys with
    | error e => rfl
    | ok s' => exact ih s' ck.getNextChainKey

theorem gocmk_graft (s : SessionState) (rk : Option Bytes) (sc : Option ChainS) (eph : ECPub) (ck : ChainKey) (n : Nat) :
    getOrCreateMessageKeys (graft rk sc s) eph ck n =
      (getOrCreateMessageKeys s eph ck n).map fun x => (x.1, graft rk sc x.2) := by
  unfold getOrCreateMessageKeys
  split
  · rw [show hasMessageKeys (graft rk sc s) eph n = hasMessageKeys s eph n from rfl]
    cases hasMessageKeys s eph n with
    | error e => rfl
    | ok b =>
      cases b with
      | false => rfl
      | true => exact modifyChain_graft s rk sc eph _
  · split
    · rfl
    · rw [skipLoop_graft]
      cases SessionCipher.skipLoop eph (n - ck.index) s ck with
      | error e => rfl
      | ok r =>
        show (setReceiverChainKey (graft rk sc r.1) eph r.2.getNextChainKey >>= _) = _
        rw [setReceiverChainKey_graft]
        simp only [ok_bind]
        cases setReceiverChainKey r.1 eph r.2.getNextChainKey with
        | error e => rfl
        | ok s' => rfl

theorem createChain_total (hC : C.Lawful) {r r' : RootKey} {eph : ECPub} {k k' : KeyPair} {x : RootKey × ChainKey}
    (h : RootKey.createChain r eph k = .ok x) (hk : k'.priv.length = 32) :
    ∃ rk ck, RootKey.createChain r' eph k' = .ok (rk, ck) ∧ ck.index = 0 := by
  obtain ⟨sec, hs, _⟩ := RootKey.createChain_ok h
  have he : eph.length = 32 := by
    unfold Curve.calculateAgreement at hs
    split at hs
    · rename_i s hd; exact (hC.dh_size _ _ _ hd).2
    · cases hs
  obtain ⟨sec', hs'⟩ := hC.dh_total k'.priv eph hk he
  have : Curve.calculateAgreement eph k'.priv = .ok sec' := by
    unfold Curve.calculateAgreement
    rw [hs']
  unfold RootKey.createChain
  rw [this]
  exact ⟨_, _, rfl, rfl⟩

/-- The first step with another seed: same chain key and the same state but for the sending side. -/
theorem gocck_seed (hC : C.Lawful) (s : SessionState) (eph : ECPub) {seed seed' : Bytes} (h : seed.length = 32)
    (h' : seed'.length = 32) :
    (∃ e, getOrCreateChainKey s eph seed = .error e ∧ getOrCreateChainKey s eph seed' = .error e) ∨
    ∃ ck t rk sc, getOrCreateChainKey s eph seed = .ok (ck, t) ∧
      getOrCreateChainKey s eph seed' = .ok (ck, graft rk sc t) := by
  have hl : ∀ {sd : Bytes}, sd.length = 32 → (Curve.generateKeyPair sd).priv.length = 32 := fun hh => hC.genPriv_len _ hh
  unfold getOrCreateChainKey
  cases hasReceiverChain s eph with
  | error e => exact Or.inl ⟨e, rfl, rfl⟩
  | ok b =>
    cases b with
    | true =>
      cases hk : getReceiverChainKey s eph with
      | error e => exact Or.inl ⟨e, by simp [hk, Bind.bind, Except.bind], by simp [hk, Bind.bind, Except.bind]⟩
      | ok ck => exact Or.inr ⟨ck, s, s.rootKey, s.senderChain, by simp [hk, Bind.bind, Except.bind], by simp [hk, Bind.bind, Except.bind, graft]⟩
    | false =>
      simp only [ok_bind, Bool.false_eq_true, if_false]
      cases getRootKey s with
      | error e => exact Or.inl ⟨e, rfl, rfl⟩
      | ok rk =>
        simp only [ok_bind]
        cases getSenderRatchetKeyPair s with
        | error e => exact Or.inl ⟨e, rfl, rfl⟩
        | ok our =>
          simp only [ok_bind]
          cases hcr : RootKey.createChain rk eph our with
          | error e => exact Or.inl ⟨e, rfl, rfl⟩
          | ok rc =>
            obtain ⟨rk1, ck1, h1, hi1⟩ := createChain_total hC (r' := rc.1) hcr (hl h)
            obtain ⟨rk2, ck2, h2, hi2⟩ := createChain_total hC (r' := rc.1) hcr (hl h')
            simp only [ok_bind, h1, h2]
            have hidx : rc.2.index = 0 := by obtain ⟨_, _, _, _, hi⟩ := RootKey.createChain_ok hcr; exact hi
            rw [addReceiverChain_eq (by rw [hidx]; decide), addReceiverChain_eq (by rw [hidx]; decide)]
            simp only [ok_bind]
            cases hsc : getSenderChainKey s with
            | error e =>
              left
              exact ⟨e, by
                show (getSenderChainKey s >>= _) = _
                rw [hsc]; rfl, by
                show (getSenderChainKey s >>= _) = _
                rw [hsc]; rfl⟩
            | ok sck =>
              right
              refine ⟨rc.2, { s with
                  rootKey := some rk1.key, receiverChains := pushChain s.receiverChains (mkChain eph rc.2),
                  previousCounter := some (sck.index - 1),
                  senderChain := some (newSender (senderChainD s) (Curve.generateKeyPair seed) ck1) }, some rk2.key, some (newSender (senderChainD s) (Curve.generateKeyPair seed') ck2), ?_, ?_⟩
              · show (getSenderChainKey s >>= _) = _
                rw [hsc]
                simp only [ok_bind]
                rw [setSenderChain_eq (by rw [hi1]; decide)]
                rfl
              · show (getSenderChainKey s >>= _) = _
                rw [hsc]
                simp only [ok_bind]
                rw [setSenderChain_eq (by rw [hi2]; decide)]
                rfl

/-- The plaintext or exception of a decryption does not depend on the seed. -/
theorem dwss_seed (hC : C.Lawful) (s : SessionState) (m : WhisperMessage) {seed seed' : Bytes} (h : seed.length = 32)
    (h' : seed'.length = 32) :
    (decryptWithSessionState s m seed).map Prod.fst = (decryptWithSessionState s m seed').map Prod.fst := by
  unfold decryptWithSessionState
  split
  · rfl
  · split
    · rfl
    · rcases gocck_seed hC s m.senderRatchetKey h h' with ⟨e, h1, h2⟩ | ⟨ck, t, rk, sc, h1, h2⟩
      · rw [h1, h2]
      · rw [h1, h2]
        simp only [ok_bind]
        rw [gocmk_graft]
        cases getOrCreateMessageKeys t m.senderRatchetKey ck m.counter with
        | error e => rfl
        | ok x =>
          simp only [Except.map, ok_bind]
          rw [show getRemoteIdentityKey (graft rk sc x.2) = getRemoteIdentityKey x.2 from rfl,
            show getLocalIdentityKey (graft rk sc x.2) = getLocalIdentityKey x.2 from rfl]
          cases getRemoteIdentityKey x.2 with
          | error e => rfl
          | ok rid =>
            simp only [ok_bind]
            cases getLocalIdentityKey x.2 with
            | error e => rfl
            | ok lid =>
              simp only [ok_bind]
              cases WhisperMessage.verifyMac m m.messageVersion rid lid x.1.macKey with
              | error e => rfl
              | ok u =>
                simp only [ok_bind]
                cases AES.decrypt x.1.cipherKey x.1.iv m.ciphertext with
                | error e => rfl
                | ok pt => rfl

theorem tryPrevious_seed (hC : C.Lawful) (r : SessionRecord) (m : WhisperMessage) {seeds seeds' : Nat → Bytes}
    (h : ∀ i, (seeds i).length = 32) (h' : ∀ i, (seeds' i).length = 32) : ∀ (l : List SessionState) (i : Nat),
    (tryPrevious r m seeds l i).map Prod.fst = (tryPrevious r m seeds' l i).map Prod.fst := by
  intro l
  induction l with
  | nil => intro i; rfl
  | cons p l ih =>
    intro i
    have := dwss_seed hC p m (h i) (h' i)
    unfold tryPrevious
    cases h1 : decryptWithSessionState p m (seeds i) with
    | error e =>
      cases h2 : decryptWithSessionState p m (seeds' i) with
      | error e' =>
        rw [h1, h2] at this
        have he : e = e' := by simpa [Except.map] using this
        subst he
        cases e <;> first | exact ih (i + 1) | rfl
      | ok x => rw [h1, h2] at this; cases this
    | ok x =>
      cases h2 : decryptWithSessionState p m (seeds' i) with
      | error e' => rw [h1, h2] at this; cases this
      | ok y => rw [h1, h2] at this; exact this

theorem dwsr_seed (hC : C.Lawful) (r : SessionRecord) (m : WhisperMessage) {seed seed' : Bytes}
    {seeds seeds' : Nat → Bytes} (hs : seed.length = 32) (hs' : seed'.length = 32)
    (h : ∀ i, (seeds i).length = 32) (h' : ∀ i, (seeds' i).length = 32) :
    (decryptWithSessionRecord r m seed seeds).map Prod.fst = (decryptWithSessionRecord r m seed' seeds').map Prod.fst := by
  have := dwss_seed hC r.sessionState m hs hs'
  unfold decryptWithSessionRecord
  cases h1 : decryptWithSessionState r.sessionState m seed with
  | error e =>
    cases h2 : decryptWithSessionState r.sessionState m seed' with
    | error e' =>
      rw [h1, h2] at this
      have he : e = e' := by simpa [Except.map] using this
      subst he
      cases e <;> first | exact tryPrevious_seed hC r m h h' _ 0 | rfl
    | ok x => rw [h1, h2] at this; cases this
  | ok x =>
    cases h2 : decryptWithSessionState r.sessionState m seed' with
    | error e' => rw [h1, h2] at this; cases this
    | ok y => rw [h1, h2] at this; exact this

end
end Axolotl
