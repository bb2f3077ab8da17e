import Verif.Proofs.Chains

/-! Inversion lemmas for encryption and decryption with a session state. -/

namespace Axolotl
namespace SessionState

/-- A chain as `addReceiverChain` creates it. -/
def mkChain (eph : ECPub) (ck : ChainKey) : ChainS :=
  { senderRatchetKey := some (Curve.serializePoint eph),
    chainKey := some { key := some ck.key, index := some ck.index } }

/-- The chain list after `addReceiverChain`. -/
def pushChain (cs : List ChainS) (c : ChainS) : List ChainS :=
  if (cs ++ [c]).length > 5 then (cs ++ [c]).drop 1 else cs ++ [c]

theorem addReceiverChain_eq {s : SessionState} {eph : ECPub} {ck : ChainKey} (h : ck.index < 2 ^ 32) :
    addReceiverChain s eph ck =
      .ok { s with receiverChains := pushChain s.receiverChains (mkChain eph ck) } := by
  unfold addReceiverChain
  rw [chkU32_ok h]
  rfl

/-- The sender chain as `setSenderChain` leaves it. -/
def newSender (old : ChainS) (kp : KeyPair) (ck : ChainKey) : ChainS :=
  { old with
    senderRatchetKey := some (Curve.serializePoint kp.pub),
    senderRatchetKeyPrivate := some kp.priv,
    chainKey := some { key := some ck.key, index := some ck.index } }

theorem setSenderChain_eq {s : SessionState} {kp : KeyPair} {ck : ChainKey} (h : ck.index < 2 ^ 32) :
    setSenderChain s kp ck = .ok { s with senderChain := some (newSender (senderChainD s) kp ck) } := by
  unfold setSenderChain
  rw [chkU32_ok h]
  rfl

/-- Send counter of a state. -/
def sendIndex (s : SessionState) : Nat := ((senderChainD s).chainKey.getD {}).index.getD 0
/-- Send chain key of a state. -/
def sendKey (s : SessionState) : Bytes := ((senderChainD s).chainKey.getD {}).key.getD []

/-- Receive chain key stored in a chain. -/
def chainKeyOf (kdf : Kdf) (c : ChainS) : ChainKey :=
  { kdf := kdf, key := (c.chainKey.getD {}).key.getD [], index := (c.chainKey.getD {}).index.getD 0 }

theorem getReceiverChainKey_eq {s : SessionState} {eph : ECPub} {c : ChainS} {j : Nat} {kdf : Kdf}
    (h : getReceiverChain s eph = .ok (some (c, j))) (hk : Kdf.createFor (getSessionVersion s) = .ok kdf) :
    getReceiverChainKey s eph = .ok (chainKeyOf kdf c) := by
  unfold getReceiverChainKey
  rw [h]
  simp only [ok_bind, hk]
  rfl

/-- The state after a ratchet step (lines 160-163 of sessioncipher.py). -/
def ratcheted (s : SessionState) (eph : ECPub) (recv : ChainKey) (root : RootKey) (kp : KeyPair)
    (send : ChainKey) : SessionState :=
  { s with
    rootKey := some root.key
    receiverChains := pushChain s.receiverChains (mkChain eph recv)
    previousCounter := some (sendIndex s - 1)
    senderChain := some (newSender (senderChainD s) kp send) }

theorem findChain_pushChain {eph : ECPub} {ck : ChainKey} {cs : List ChainS} (he : eph.length ≤ 32)
    (h : findChain eph cs 0 = .ok none) :
    ∃ j, findChain eph (pushChain cs (mkChain eph ck)) 0 = .ok (some (mkChain eph ck, j)) := by
  have hd : Curve.decodePoint ((mkChain eph ck).senderRatchetKey.getD []) = .ok eph :=
    decodePoint_serializePoint he
  unfold pushChain
  split
  · cases cs with
    | nil => simp at *
    | cons a cs =>
      refine ⟨cs.length, ?_⟩
      have h1 := findChain_none_tail h
      have h2 : findChain eph cs 0 = .ok none := by
        have := findChain_shift (key := eph) (cs := cs) 0 1
        rw [Nat.zero_add] at this
        rw [h1] at this
        cases hf : findChain eph cs 0 with
        | error e => rw [hf] at this; cases this
        | ok o =>
          rw [hf] at this
          cases o with
          | none => rfl
          | some p => cases this
      have := findChain_append_none (c := mkChain eph ck) h2 hd
      simpa using this
  · refine ⟨cs.length, ?_⟩
    have := findChain_append_none (c := mkChain eph ck) h hd
    simpa using this

end SessionState

section
variable [C : Crypto]

namespace SessionState

omit C in
theorem getSenderChainKey_eq {s : SessionState} {kdf : Kdf}
    (hk : Kdf.createFor (getSessionVersion s) = .ok kdf) :
    getSenderChainKey s = .ok ⟨kdf, sendKey s, sendIndex s⟩ := by
  unfold getSenderChainKey
  rw [hk]
  rfl

end SessionState

namespace RootKey
theorem createChain_ok {r : RootKey} {p : ECPub} {k : KeyPair} {x : RootKey × ChainKey}
    (h : r.createChain p k = .ok x) :
    ∃ sec, Curve.calculateAgreement p k.priv = .ok sec ∧ x.1.kdf = r.kdf ∧ x.2.kdf = r.kdf ∧ x.2.index = 0 := by
  unfold createChain at h
  obtain ⟨sec, h1, h2⟩ := bind_eq_ok.1 h
  injection h2 with h2
  subst h2
  exact ⟨sec, h1, rfl, rfl, rfl⟩
end RootKey

namespace SessionCipher
open SessionState

theorem gocck_ok {s : SessionState} {eph : ECPub} {seed : Bytes} {ck : ChainKey} {s1 : SessionState}
    (h : getOrCreateChainKey s eph seed = .ok (ck, s1)) :
    (∃ c j kdf, getReceiverChain s eph = .ok (some (c, j)) ∧
        Kdf.createFor (getSessionVersion s) = .ok kdf ∧ ck = chainKeyOf kdf c ∧ s1 = s) ∨
    (∃ kdf our rk1 rk2 sck, getReceiverChain s eph = .ok none ∧
        Kdf.createFor (getSessionVersion s) = .ok kdf ∧
        getSenderRatchetKeyPair s = .ok our ∧
        RootKey.createChain ⟨kdf, s.rootKey.getD []⟩ eph our = .ok (rk1, ck) ∧
        RootKey.createChain rk1 eph (Curve.generateKeyPair seed) = .ok (rk2, sck) ∧
        s1 = ratcheted s eph ck rk2 (Curve.generateKeyPair seed) sck) := by
  unfold getOrCreateChainKey at h
  obtain ⟨b, hb, h⟩ := bind_eq_ok.1 h
  unfold hasReceiverChain at hb
  obtain ⟨o, ho, hb⟩ := bind_eq_ok.1 hb
  injection hb with hb
  cases o with
  | some p =>
    simp only [Option.isSome_some] at hb
    subst hb
    simp only [if_true] at h
    obtain ⟨ck', hck, h⟩ := bind_eq_ok.1 h
    injection h with h
    injection h with h1 h2
    subst h1; subst h2
    left
    unfold getReceiverChainKey at hck
    rw [ho] at hck
    simp only [ok_bind] at hck
    obtain ⟨kdf, hk, hck⟩ := bind_eq_ok.1 hck
    injection hck with hck
    exact ⟨p.1, p.2, kdf, ho, hk, hck.symm, rfl⟩
  | none =>
    simp only [Option.isSome_none] at hb
    subst hb
    simp only [Bool.false_eq_true, if_false] at h
    right
    obtain ⟨root, hroot, h⟩ := bind_eq_ok.1 h
    obtain ⟨our, hour, h⟩ := bind_eq_ok.1 h
    obtain ⟨rc, hrc, h⟩ := bind_eq_ok.1 h
    obtain ⟨sc, hsc, h⟩ := bind_eq_ok.1 h
    unfold getRootKey at hroot
    obtain ⟨kdf, hk, hroot⟩ := bind_eq_ok.1 hroot
    injection hroot with hroot
    subst hroot
    obtain ⟨rk1, rck⟩ := rc
    obtain ⟨rk2, sck⟩ := sc
    obtain ⟨_, _, _, _, hi1⟩ := RootKey.createChain_ok hrc
    obtain ⟨_, _, _, _, hi2⟩ := RootKey.createChain_ok hsc
    simp only at hi1 hi2 h
    rw [addReceiverChain_eq (by omega)] at h
    simp only [ok_bind] at h
    have hv : Kdf.createFor (getSessionVersion
        { setRootKey s rk2 with receiverChains := pushChain (setRootKey s rk2).receiverChains (mkChain eph rck) })
        = .ok kdf := hk
    rw [getSenderChainKey_eq hv] at h
    simp only [ok_bind] at h
    rw [setSenderChain_eq (by omega)] at h
    simp only [ok_bind] at h
    injection h with h
    injection h with h1 h2
    subst h1
    exact ⟨kdf, our, rk1, rk2, sck, ho, hk, hour, hrc, hsc, h2.symm⟩

omit C in
theorem takeKey_any {counter : Nat} : ∀ {l : List MessageKeyS},
    (l.any fun e => e.index.getD 0 == counter) = (takeKey counter l).isSome := by
  intro l
  induction l with
  | nil => rfl
  | cons a l ih =>
    unfold takeKey
    rw [List.any_cons]
    by_cases h : a.index.getD 0 = counter
    · simp [h]
    · rw [if_neg h, ih]
      have : (a.index.getD 0 == counter) = false := by simpa using h
      rw [this]
      simp

/-- What a successful `getOrCreateMessageKeys` did, on a state in which the chain is at position `j`. -/
theorem gocmk_ok {s : SessionState} {eph : ECPub} {ck : ChainKey} {counter : Nat} {mk : MessageKeys}
    {s' : SessionState} (h : getOrCreateMessageKeys s eph ck counter = .ok (mk, s')) :
    ∃ c j, getReceiverChain s eph = .ok (some (c, j)) ∧
    ((counter < ck.index ∧ ∃ e rest, takeKey counter c.messageKeys = some (e, rest) ∧
        mk = messageKeysOf e ∧ s' = setChainAt s j { c with messageKeys := rest }) ∨
     (ck.index ≤ counter ∧ counter ≤ ck.index + 2000 ∧ counter + 1 < 2 ^ 32 ∧
        mk = (ck.iter (counter - ck.index)).getMessageKeys ∧
        ∃ c', c' = { c with messageKeys := c.messageKeys ++ skipped ck (counter - ck.index),
                            chainKey := some { key := some (ck.iter (counter - ck.index + 1)).key,
                                               index := some (counter + 1) } } ∧
          s' = setChainAt s j c')) := by
  unfold getOrCreateMessageKeys at h
  split at h
  · rename_i hlt
    obtain ⟨b, hb, h⟩ := bind_eq_ok.1 h
    unfold hasMessageKeys at hb
    obtain ⟨o, ho, hb⟩ := bind_eq_ok.1 hb
    cases o with
    | none => cases hb
    | some p =>
      obtain ⟨c, j⟩ := p
      refine ⟨c, j, ho, Or.inl ⟨hlt, ?_⟩⟩
      simp only at hb
      injection hb with hb
      cases b with
      | false => simp only [Bool.false_eq_true, if_false] at h; cases h
      | true =>
        simp only [if_true] at h
        unfold removeMessageKeys modifyChain at h
        rw [ho] at h
        simp only [ok_bind] at h
        rw [takeKey_any] at hb
        cases ht : takeKey counter c.messageKeys with
        | none => rw [ht] at hb; cases hb
        | some q =>
          obtain ⟨e, rest⟩ := q
          rw [ht] at h
          simp only [ok_bind] at h
          injection h with h
          injection h with h1 h2
          exact ⟨e, rest, rfl, h1.symm, h2.symm⟩
  · rename_i hge
    split at h
    · cases h
    · rename_i hfar
      simp only [MAX_FUTURE] at hfar
      obtain ⟨r, hr, h⟩ := bind_eq_ok.1 h
      obtain ⟨s2, hs2, h⟩ := bind_eq_ok.1 h
      injection h with h
      injection h with h1 h2
      subst h2
      -- the chain must be there
      have hfound : ∃ c j, getReceiverChain s eph = .ok (some (c, j)) := by
        by_cases hz : counter - ck.index = 0
        · rw [hz] at hr
          simp only [skipLoop] at hr
          injection hr with hr
          subst hr
          unfold setReceiverChainKey modifyChain at hs2
          obtain ⟨_, hs2, _⟩ := bind_eq_ok.1 hs2
          obtain ⟨o, ho, hs2⟩ := bind_eq_ok.1 hs2
          cases o with
          | none => cases hs2
          | some p => exact ⟨p.1, p.2, ho⟩
        · obtain ⟨n, hn⟩ := Nat.exists_eq_succ_of_ne_zero hz
          rw [hn] at hr
          unfold skipLoop at hr
          obtain ⟨_, hr, _⟩ := bind_eq_ok.1 hr
          unfold setMessageKeys modifyChain at hr
          obtain ⟨_, _, hr⟩ := bind_eq_ok.1 hr
          obtain ⟨_, hr, _⟩ := bind_eq_ok.1 hr
          obtain ⟨o, ho, hr⟩ := bind_eq_ok.1 hr
          cases o with
          | none => cases hr
          | some p => exact ⟨p.1, p.2, ho⟩
      obtain ⟨c, j, hc⟩ := hfound
      refine ⟨c, j, hc, Or.inr ?_⟩
      have hfind : ∀ l, getReceiverChain (setChainAt s j (addKeys c l)) eph = .ok (some (addKeys c l, j)) :=
        fun l => findChain_set (c' := addKeys c l) hc rfl
      -- the counters fit
      have hr0 := hr
      rcases skipLoop_bound _ hr with hb | hb
      · -- no skipping
        rw [hb] at hr
        simp only [skipLoop] at hr
        injection hr with hr
        subst hr
        unfold setReceiverChainKey modifyChain at hs2
        rw [hc] at hs2
        simp only [ok_bind] at hs2
        obtain ⟨x, hx, hs2⟩ := bind_eq_ok.1 hs2
        obtain ⟨y, hy, hx⟩ := bind_eq_ok.1 hx
        obtain ⟨i, hi, hy⟩ := bind_eq_ok.1 hy
        rw [chkU32_eq_ok] at hi
        simp only [ChainKey.getNextChainKey] at hi
        injection hy with hy
        injection hx with hx
        injection hs2 with hs2
        have hcc : counter = ck.index := by omega
        have hii : i = counter + 1 := by omega
        refine ⟨by omega, by omega, by omega, ?_, _, rfl, ?_⟩
        · rw [hb]; exact h1.symm
        · rw [← hs2, ← hx, ← hy, hb, hii]
          simp only [skipped, List.range_zero, List.map_nil, List.append_nil]
          rfl
      · rw [skipLoop_eq _ hc hb] at hr
        injection hr with hr
        subst hr
        unfold setReceiverChainKey modifyChain at hs2
        simp only at hs2
        rw [hfind] at hs2
        simp only [ok_bind] at hs2
        obtain ⟨x, hx, hs2⟩ := bind_eq_ok.1 hs2
        obtain ⟨y, hy, hx⟩ := bind_eq_ok.1 hx
        obtain ⟨i, hi, hy⟩ := bind_eq_ok.1 hy
        rw [chkU32_eq_ok] at hi
        simp only [ChainKey.getNextChainKey, ChainKey.iter_index] at hi
        injection hy with hy
        injection hx with hx
        injection hs2 with hs2
        have hii : i = counter + 1 := by omega
        refine ⟨by omega, by omega, by omega, h1.symm, _, rfl, ?_⟩
        rw [← hs2, ← hx, ← hy, hii]
        simp only [setChainAt, List.set_set]
        rfl

/-- Forward direction, stored key. -/
theorem gocmk_stored {s : SessionState} {eph : ECPub} {ck : ChainKey} {counter : Nat} {c : ChainS} {j : Nat}
    (hc : getReceiverChain s eph = .ok (some (c, j))) (hlt : counter < ck.index) {e : MessageKeyS}
    {rest : List MessageKeyS} (ht : takeKey counter c.messageKeys = some (e, rest)) :
    getOrCreateMessageKeys s eph ck counter =
      .ok (messageKeysOf e, setChainAt s j { c with messageKeys := rest }) := by
  unfold getOrCreateMessageKeys
  rw [if_pos hlt]
  have h1 : hasMessageKeys s eph counter = .ok true := by
    unfold hasMessageKeys
    rw [hc]
    simp only [ok_bind]
    rw [takeKey_any, ht]
    rfl
  rw [h1]
  simp only [ok_bind, if_true]
  unfold removeMessageKeys modifyChain
  rw [hc]
  simp only [ok_bind]
  rw [ht]
  rfl

/-- Forward direction, duplicate. -/
theorem gocmk_duplicate {s : SessionState} {eph : ECPub} {ck : ChainKey} {counter : Nat} {c : ChainS} {j : Nat}
    (hc : getReceiverChain s eph = .ok (some (c, j))) (hlt : counter < ck.index)
    (ht : takeKey counter c.messageKeys = none) :
    getOrCreateMessageKeys s eph ck counter = .error .duplicateMessage := by
  unfold getOrCreateMessageKeys
  rw [if_pos hlt]
  have h1 : hasMessageKeys s eph counter = .ok false := by
    unfold hasMessageKeys
    rw [hc]
    simp only [ok_bind]
    rw [takeKey_any, ht]
    rfl
  rw [h1]
  simp only [ok_bind, Bool.false_eq_true, if_false]

/-- Forward direction, within the window. -/
theorem gocmk_ahead {s : SessionState} {eph : ECPub} {ck : ChainKey} {counter : Nat} {c : ChainS} {j : Nat}
    (hc : getReceiverChain s eph = .ok (some (c, j))) (hge : ck.index ≤ counter)
    (hw : counter ≤ ck.index + 2000) (hb : counter + 1 < 2 ^ 32) {c' : ChainS}
    (hc' : c' = { c with messageKeys := c.messageKeys ++ skipped ck (counter - ck.index),
                         chainKey := some { key := some (ck.iter (counter - ck.index + 1)).key,
                                            index := some (counter + 1) } }) :
    getOrCreateMessageKeys s eph ck counter =
      .ok ((ck.iter (counter - ck.index)).getMessageKeys, setChainAt s j c') := by
  unfold getOrCreateMessageKeys
  rw [if_neg (by omega), if_neg (by simp only [MAX_FUTURE]; omega)]
  rw [skipLoop_eq _ hc (by omega)]
  simp only [ok_bind]
  have hfind : getReceiverChain (setChainAt s j (addKeys c (skipped ck (counter - ck.index)))) eph
      = .ok (some (addKeys c (skipped ck (counter - ck.index)), j)) :=
    findChain_set (c' := addKeys c (skipped ck (counter - ck.index))) hc rfl
  unfold setReceiverChainKey modifyChain
  rw [hfind]
  simp only [ok_bind]
  have hidx : ((ck.iter (counter - ck.index)).getNextChainKey).index = counter + 1 := by
    simp only [ChainKey.getNextChainKey, ChainKey.iter_index]; omega
  rw [hidx, chkU32_ok hb]
  simp only [ok_bind, setChainAt, List.set_set]
  rw [hc']
  rfl

/-- Forward direction, too far ahead. -/
theorem gocmk_far {s : SessionState} {eph : ECPub} {ck : ChainKey} {counter : Nat}
    (hw : ck.index + 2000 < counter) :
    getOrCreateMessageKeys s eph ck counter = .error .invalidMessage := by
  unfold getOrCreateMessageKeys
  rw [if_neg (by omega), if_pos (by simp only [MAX_FUTURE]; omega)]

/-- What a successful decryption with a session state did. -/
theorem dwss_ok {s : SessionState} {m : WhisperMessage} {seed : Bytes} {pt : Bytes} {s' : SessionState}
    (h : decryptWithSessionState s m seed = .ok (pt, s')) :
    hasSenderChain s = true ∧ m.messageVersion = getSessionVersion s ∧
    ∃ ck s1 mk s2 rid lid, getOrCreateChainKey s m.senderRatchetKey seed = .ok (ck, s1) ∧
      getOrCreateMessageKeys s1 m.senderRatchetKey ck m.counter = .ok (mk, s2) ∧
      getRemoteIdentityKey s2 = .ok rid ∧ getLocalIdentityKey s2 = .ok lid ∧
      WhisperMessage.verifyMac m m.messageVersion rid lid mk.macKey = .ok () ∧
      AES.decrypt mk.cipherKey mk.iv m.ciphertext = .ok pt ∧
      s' = clearUnacknowledgedPreKeyMessage s2 := by
  unfold decryptWithSessionState at h
  split at h
  · cases h
  · rename_i hs
    split at h
    · cases h
    · rename_i hv
      refine ⟨by simpa using hs, by simpa using hv, ?_⟩
      obtain ⟨⟨ck, s1⟩, h1, h⟩ := bind_eq_ok.1 h
      obtain ⟨⟨mk, s2⟩, h2, h⟩ := bind_eq_ok.1 h
      obtain ⟨rid, h3, h⟩ := bind_eq_ok.1 h
      obtain ⟨lid, h4, h⟩ := bind_eq_ok.1 h
      obtain ⟨⟨⟩, h5, h⟩ := bind_eq_ok.1 h
      obtain ⟨p, h6, h⟩ := bind_eq_ok.1 h
      injection h with h
      injection h with h7 h8
      subst h7
      exact ⟨ck, s1, mk, s2, rid, lid, h1, h2, h3, h4, h5, h6, h8.symm⟩

/-- What a successful encryption with a session state did. -/
theorem ews_ok {s : SessionState} {pt : Bytes} {c : Ciphertext} {s' : SessionState}
    (h : encryptWithState s pt = .ok (c, s')) :
    ∃ kdf eph body lid rid m, Kdf.createFor (getSessionVersion s) = .ok kdf ∧
      getSenderRatchetKey s = .ok eph ∧
      AES.encrypt (ChainKey.getMessageKeys ⟨kdf, sendKey s, sendIndex s⟩).cipherKey
        (ChainKey.getMessageKeys ⟨kdf, sendKey s, sendIndex s⟩).iv pt = .ok body ∧
      getLocalIdentityKey s = .ok lid ∧ getRemoteIdentityKey s = .ok rid ∧
      WhisperMessage.create (getSessionVersion s)
        (ChainKey.getMessageKeys ⟨kdf, sendKey s, sendIndex s⟩).macKey eph (sendIndex s)
        (getPreviousCounter s) body lid rid = .ok m ∧
      c.inner = m ∧ sendIndex s + 1 < 2 ^ 32 ∧
      (hasUnacknowledgedPreKeyMessage s = false → c = .whisper m) ∧
      (hasUnacknowledgedPreKeyMessage s = true → ∃ items pm,
        getUnacknowledgedPreKeyMessageItems s = .ok items ∧
        PreKeyWhisperMessage.create (getSessionVersion s) (getLocalRegistrationId s) items.preKeyId
          items.signedPreKeyId items.baseKey lid m = .ok pm ∧ c = .preKey pm) ∧
      ∃ sc, sc = { senderChainD s with
                    chainKey := some { key := some (C.hmac (sendKey s) [0x02]),
                                       index := some (sendIndex s + 1) } } ∧
        s' = { s with senderChain := some sc } := by
  unfold encryptWithState at h
  obtain ⟨ck, h1, h⟩ := bind_eq_ok.1 h
  have hkdf : ∃ kdf, Kdf.createFor (getSessionVersion s) = .ok kdf := by
    unfold getSenderChainKey at h1
    obtain ⟨kdf, hk, _⟩ := bind_eq_ok.1 h1
    exact ⟨kdf, hk⟩
  obtain ⟨kdf, hk⟩ := hkdf
  rw [getSenderChainKey_eq hk] at h1
  injection h1 with h1
  subst h1
  obtain ⟨eph, h2, h⟩ := bind_eq_ok.1 h
  obtain ⟨body, h3, h⟩ := bind_eq_ok.1 h
  obtain ⟨lid, h4, h⟩ := bind_eq_ok.1 h
  obtain ⟨rid, h5, h⟩ := bind_eq_ok.1 h
  obtain ⟨m, h6, h⟩ := bind_eq_ok.1 h
  have hsplit : ∃ c', (if hasUnacknowledgedPreKeyMessage s then do
      let items ← getUnacknowledgedPreKeyMessageItems s
      let pm ← PreKeyWhisperMessage.create (getSessionVersion s) (getLocalRegistrationId s) items.preKeyId
        items.signedPreKeyId items.baseKey lid m
      Except.ok (Ciphertext.preKey pm)
    else .ok (Ciphertext.whisper m)) = .ok c' ∧
      (setSenderChainKey s (ChainKey.getNextChainKey ⟨kdf, sendKey s, sendIndex s⟩) >>= fun s => .ok (c', s))
        = .ok (c, s') := by
    cases hu : hasUnacknowledgedPreKeyMessage s with
    | true =>
      simp only [hu, if_true] at h ⊢
      obtain ⟨items, hi, h⟩ := bind_eq_ok.1 h
      obtain ⟨pm, hp, h⟩ := bind_eq_ok.1 h
      simp only [ok_bind] at h
      refine ⟨.preKey pm, ?_, h⟩
      rw [hi]
      simp only [ok_bind]
      rw [hp]
      rfl
    | false =>
      simp only [hu, Bool.false_eq_true, if_false, ok_bind] at h ⊢
      exact ⟨_, rfl, h⟩
  clear h
  obtain ⟨c', h7, h⟩ := hsplit
  obtain ⟨s1, h8, h⟩ := bind_eq_ok.1 h
  injection h with h
  injection h with h9 h10
  subst h9; subst h10
  unfold setSenderChainKey at h8
  obtain ⟨i, hi, h8⟩ := bind_eq_ok.1 h8
  rw [chkU32_eq_ok] at hi
  simp only [ChainKey.getNextChainKey] at hi
  injection h8 with h8
  have hii : i = sendIndex s + 1 := by omega
  refine ⟨kdf, eph, body, lid, rid, m, hk, h2, h3, h4, h5, h6, ?_, by omega, ?_, ?_, _, rfl, ?_⟩
  · split at h7
    · obtain ⟨items, _, h7⟩ := bind_eq_ok.1 h7
      obtain ⟨pm, hpm, h7⟩ := bind_eq_ok.1 h7
      replace h7 := Except.ok.inj h7
      subst h7
      unfold PreKeyWhisperMessage.create at hpm
      obtain ⟨_, _, hpm⟩ := bind_eq_ok.1 hpm
      obtain ⟨_, _, hpm⟩ := bind_eq_ok.1 hpm
      split at hpm
      · simp only [ok_bind] at hpm
        replace hpm := Except.ok.inj hpm
        subst hpm
        rfl
      · obtain ⟨_, _, hpm⟩ := bind_eq_ok.1 hpm
        simp only [ok_bind] at hpm
        replace hpm := Except.ok.inj hpm
        subst hpm
        rfl
    · replace h7 := Except.ok.inj h7
      subst h7
      rfl
  · intro hu
    rw [hu] at h7
    simp only [Bool.false_eq_true, if_false] at h7
    replace h7 := Except.ok.inj h7
    exact h7.symm
  · intro hu
    rw [hu] at h7
    simp only [if_true] at h7
    obtain ⟨items, hit, h7⟩ := bind_eq_ok.1 h7
    obtain ⟨pm, hpm, h7⟩ := bind_eq_ok.1 h7
    replace h7 := Except.ok.inj h7
    exact ⟨items, pm, hit, hpm, h7.symm⟩
  · rw [← h8, hii]
    rfl

end SessionCipher
end
end Axolotl
