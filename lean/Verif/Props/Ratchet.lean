import Verif.Spec.Ratchet
import Verif.Props.Format
import Verif.Props.Replay

/-! # C55: which state follows when a message is accepted -/

namespace Axolotl
section
variable [C : Crypto]
open SessionState Spec

omit C in
theorem KeyOf_iff {o : Option Bytes} {k : ECPub} : KeyOf o k ↔ Curve.decodePoint (o.getD []) = .ok k := by
  constructor
  · rintro ⟨x, rfl, rfl⟩
    rfl
  · exact decodePoint_KeyOf

omit C in
theorem findChain_split {key : ECPub} : ∀ {cs : List ChainS} {i : Nat} {c : ChainS} {j : Nat},
    findChain key cs i = .ok (some (c, j)) →
    ∃ x y, cs = x ++ c :: y ∧ KeyOf c.senderRatchetKey key ∧ (∀ z ∈ x, ¬ KeyOf z.senderRatchetKey key) ∧
      i ≤ j ∧ ∀ c', cs.set (j - i) c' = x ++ c' :: y := by
  intro cs
  induction cs with
  | nil => intro i c j h; simp [findChain] at h
  | cons a cs ih =>
    intro i c j h
    unfold findChain at h
    obtain ⟨k, hk, h⟩ := bind_eq_ok.1 h
    split at h
    · rename_i hkk
      obtain ⟨h1, h2⟩ := Prod.mk.inj (Option.some.inj (Except.ok.inj h))
      subst h1 h2 hkk
      refine ⟨[], cs, rfl, KeyOf_iff.2 hk, (by intro z hz; cases hz), Nat.le_refl _, ?_⟩
      intro c'
      rw [Nat.sub_self]
      rfl
    · rename_i hkk
      obtain ⟨x, y, h1, h2, h3, h4, h5⟩ := ih h
      refine ⟨a :: x, y, by rw [h1]; rfl, h2, ?_, by omega, ?_⟩
      · intro z hz
        rcases List.mem_cons.1 hz with rfl | hz
        · intro hz
          rw [KeyOf_iff, hk] at hz
          exact hkk (Except.ok.inj hz)
        · exact h3 z hz
      · intro c'
        have e : j - i = (j - (i + 1)) + 1 := by omega
        rw [e, List.set_cons_succ, h5]
        rfl

omit C in
theorem findChain_noKey {key : ECPub} : ∀ {cs : List ChainS} {i : Nat}, findChain key cs i = .ok none →
    ∀ z ∈ cs, ¬ KeyOf z.senderRatchetKey key := by
  intro cs
  induction cs with
  | nil => intro i _ z hz; cases hz
  | cons a cs ih =>
    intro i h
    unfold findChain at h
    obtain ⟨k, hk, h⟩ := bind_eq_ok.1 h
    split at h
    · cases h
    · rename_i hkk
      intro z hz
      rcases List.mem_cons.1 hz with rfl | hz
      · intro hz
        rw [KeyOf_iff, hk] at hz
        exact hkk (Except.ok.inj hz)
      · exact ih h z hz

omit C in
theorem pushChain_newestFive {cs : List ChainS} {c : ChainS} (h : cs.length ≤ 5) :
    pushChain cs c = newestFive (cs ++ [c]) := by
  unfold pushChain newestFive
  split
  · rename_i h1
    congr 1
    simp only [List.length_append, List.length_singleton] at h1 ⊢
    omega
  · rename_i h1
    have : (cs ++ [c]).length - 5 = 0 := by omega
    rw [this]
    rfl

omit C in
theorem sendIndex_eq (s : SessionState) : sendIndex s = sendCounter s := by
  unfold sendIndex sendCounter senderChainD
  cases h : s.senderChain with
  | none => rfl
  | some c =>
    obtain ⟨a, b, ck, d⟩ := c
    cases ck <;> rfl

theorem calc_dh {a b s : Bytes} (h : Curve.calculateAgreement b a = .ok s) : C.dh a b = some s := by
  unfold Curve.calculateAgreement at h
  split at h
  · rename_i x hx; rw [hx]; exact congrArg some (Except.ok.inj h)
  · cases h

/-- The ratchet step, in specification terms. -/
theorem opened_of_gocck (hC : C.Lawful) {s s1 : SessionState} {eph : ECPub} {seed : Bytes}
    {ck : ChainKey} (hv : s.sessionVersion = some 3) (hl : s.receiverChains.length ≤ 5)
    (hsc : s.senderChain.isSome)
    (h : SessionCipher.getOrCreateChainKey s eph seed = .ok (ck, s1)) :
    Opened s eph seed s1 ∧ ∀ c j, getReceiverChain s1 eph = .ok (some (c, j)) → ck = chainKeyOf .v3 c := by
  rcases SessionCipher.gocck_ok h with ⟨c, j, kdf, g1, g2, g3, g4⟩ | ⟨kdf, our, rk1, rk2, sck, g1, g2, g3, g4, g5, g6⟩
  · subst g4
    obtain ⟨x, y, e1, e2, _⟩ := findChain_split g1
    rw [createFor_three hv] at g2
    obtain rfl := Except.ok.inj g2
    refine ⟨.known (c := c) (by rw [e1]; simp) e2, ?_⟩
    intro c1 j1 h1
    rw [g1] at h1
    obtain ⟨rfl, rfl⟩ := Prod.mk.inj (Option.some.inj (Except.ok.inj h1))
    exact g3
  · rw [createFor_three hv] at g2
    obtain rfl := Except.ok.inj g2
    obtain ⟨c, hc⟩ := Option.isSome_iff_exists.1 hsc
    have hour : our.priv = c.senderRatchetKeyPrivate.getD [] := by
      unfold getSenderRatchetKeyPair at g3
      obtain ⟨p, _, g3⟩ := bind_eq_ok.1 g3
      have := Except.ok.inj g3
      rw [← this]
      unfold senderChainD
      rw [hc]
      rfl
    rw [createChain_v3 hC.hmac_len] at g4
    split at g4
    · cases g4
    · rename_i d1 hd1
      obtain ⟨rfl, rfl⟩ := Prod.mk.inj (Except.ok.inj g4)
      rw [createChain_v3 hC.hmac_len] at g5
      split at g5
      · cases g5
      · rename_i d2 hd2
        obtain ⟨rfl, rfl⟩ := Prod.mk.inj (Except.ok.inj g5)
        rw [hour] at hd1
        have hstep := Opened.ratchet (s := s) (eph := eph) (seed := seed) (c := c) (findChain_noKey g1) hc hd1 hd2
        constructor
        · have e : s1 = _ := g6
          unfold ratcheted at e
          rw [pushChain_newestFive hl, sendIndex_eq] at e
          unfold newSender senderChainD at e
          rw [hc] at e
          rw [e]
          exact hstep
        · intro c1 j1 h1
          subst g6
          have he : eph.length ≤ 32 := Nat.le_of_eq (hC.dh_size _ _ _ hd1).2
          obtain ⟨j2, h2⟩ := findChain_pushChain (ck := ⟨.v3, ratchetChain (s.rootKey.getD []) d1, 0⟩) he g1
          have h1 : findChain eph (pushChain s.receiverChains (mkChain eph ⟨.v3, ratchetChain (s.rootKey.getD []) d1, 0⟩)) 0 = _ := h1
          rw [h2] at h1
          obtain ⟨rfl, rfl⟩ := Prod.mk.inj (Option.some.inj (Except.ok.inj h1))
          rfl

/-- What decryption with a state did. -/
theorem accepts_of_dwss (hC : C.Lawful) {s s' : SessionState} {m : WhisperMessage} {seed pt : Bytes}
    (hv : s.sessionVersion = some 3) (hl : s.receiverChains.length ≤ 5)
    (h : SessionCipher.decryptWithSessionState s m seed = .ok (pt, s')) : Accepts s m seed pt s' := by
  obtain ⟨hsc, hver, ck, s1, mk, s2, rid, lid, h1, h2, h3, h4, h5, h6, h7⟩ := SessionCipher.dwss_ok h
  have hm3 : m.messageVersion = 3 := by rw [hver]; unfold getSessionVersion; rw [hv]; rfl
  obtain ⟨hop, hck⟩ := opened_of_gocck hC hv hl hsc h1
  obtain ⟨c, j, hc, h2⟩ := SessionCipher.gocmk_ok h2
  have hck := hck c j hc
  have hids : s1.remoteIdentityPublic = s.remoteIdentityPublic ∧ s1.localIdentityPublic = s.localIdentityPublic := by
    cases hop <;> exact ⟨rfl, rfl⟩
  obtain ⟨x, y, e1, e2, e3, _, e4⟩ := findChain_split hc
  have hval : (mk.cipherKey.length = 16 ∨ mk.cipherKey.length = 24 ∨ mk.cipherKey.length = 32) ∧ mk.iv.length = 16 := by
    unfold AES.decrypt at h6
    split at h6
    · rename_i hp
      unfold AES.validParams at hp
      simp only [Bool.and_eq_true, Bool.or_eq_true, beq_iff_eq] at hp
      omega
    · cases h6
  obtain ⟨body, mac, f1, f2, f3⟩ := verifyMac_ok hC.hmac_len h5 (by omega)
  have key : ∀ c', Yields c m.counter mk.cipherKey mk.macKey mk.iv c' → s2 = setChainAt s1 j c' →
      Accepts s m seed pt s' := by
    intro c' hy hs2
    subst hs2 h7 f3
    have := Accepts.intro hsc hm3 hop e1 e2 e3 hy (them := rid) (me := lid) (body := body)
      (by rw [← hids.1]; exact KeyOf_iff.2 h3) (by rw [← hids.2]; exact KeyOf_iff.2 h4) f1 hval (aes_cbc_dec hC h6)
    rw [← e4 c'] at this
    exact this
  subst hck
  rcases h2 with ⟨hlt, e, rest, ht, hmk, hs2⟩ | ⟨hge, hle, hmax, hmk, c', hc', hs2⟩
  · subst hmk
    obtain ⟨u, v, t1, t2, t3, t4⟩ := takeKey_split ht
    subst t2
    exact key _ (.stored (by rw [← position_chainKeyOf (kdf := .v3)]; exact hlt) t1 t3 t4) hs2
  · rw [position_chainKeyOf] at hge hle hmk hc'
    rw [skipped_entries hC.hmac_len _ rfl, iter_key, key_chainKeyOf, position_chainKeyOf] at hc'
    rw [getMessageKeys_v3 hC.hmac_len _ (by rw [ChainKey.iter_kdf]; rfl), iter_key, key_chainKeyOf] at hmk
    subst hmk
    have := Yields.ahead (c := c) hge hle hmax rfl
    rw [← hc'] at this
    exact key _ this hs2

/-! ## The other direction -/

omit C in
theorem findChain_first {key : ECPub} {c : ChainS} {y : List ChainS} : ∀ {x : List ChainS} (i : Nat),
    (∀ z ∈ x, GoodChain z) → (∀ z ∈ x, ¬ KeyOf z.senderRatchetKey key) → KeyOf c.senderRatchetKey key →
    findChain key (x ++ c :: y) i = .ok (some (c, i + x.length)) := by
  intro x
  induction x with
  | nil =>
    intro i _ _ h
    rw [List.nil_append]
    unfold findChain
    rw [KeyOf_iff.1 h, ok_bind, if_pos rfl]
    rfl
  | cons a x ih =>
    intro i h1 h2 h
    rw [List.cons_append]
    unfold findChain
    obtain ⟨k, hk, hl⟩ := (h1 a (List.mem_cons_self ..)).key
    have hd : Curve.decodePoint (a.senderRatchetKey.getD []) = .ok k := by
      rw [hk]; exact decodePoint_serializePoint (k := k) (by omega)
    have hne : k ≠ key := by
      intro e
      exact h2 a (List.mem_cons_self ..) (KeyOf_iff.2 (by rw [hd, e]))
    rw [hd, ok_bind, if_neg hne, ih (i + 1) (fun z hz => h1 z (List.mem_cons_of_mem _ hz))
      (fun z hz => h2 z (List.mem_cons_of_mem _ hz)) h]
    simp only [List.length_cons]
    rw [Nat.add_right_comm, Nat.add_assoc]

omit C in
theorem findChain_nowhere {key : ECPub} : ∀ {x : List ChainS} (i : Nat), (∀ z ∈ x, GoodChain z) →
    (∀ z ∈ x, ¬ KeyOf z.senderRatchetKey key) → findChain key x i = .ok none := by
  intro x
  induction x with
  | nil => intro i _ _; rfl
  | cons a x ih =>
    intro i h1 h2
    unfold findChain
    obtain ⟨k, hk, hl⟩ := (h1 a (List.mem_cons_self ..)).key
    have hd : Curve.decodePoint (a.senderRatchetKey.getD []) = .ok k := by
      rw [hk]; exact decodePoint_serializePoint (k := k) (by omega)
    have hne : k ≠ key := by
      intro e
      exact h2 a (List.mem_cons_self ..) (KeyOf_iff.2 (by rw [hd, e]))
    rw [hd, ok_bind, if_neg hne]
    exact ih (i + 1) (fun z hz => h1 z (List.mem_cons_of_mem _ hz)) (fun z hz => h2 z (List.mem_cons_of_mem _ hz))

omit C in
theorem blocks_ext : ∀ (n : Nat) {x y : Bytes}, x.length = 16 * n → y.length = 16 * n →
    (∀ i, i < n → block x i = block y i) → x = y := by
  intro n
  induction n with
  | zero =>
    intro x y hx hy _
    rw [List.length_eq_zero_iff.1 hx, List.length_eq_zero_iff.1 hy]
  | succ n ih =>
    intro x y hx hy h
    have h0 := h 0 (by omega)
    unfold block at h0
    simp only [Nat.mul_zero, List.drop_zero] at h0
    have h1 := ih (x := x.drop 16) (y := y.drop 16) (by rw [List.length_drop]; omega) (by rw [List.length_drop]; omega)
      (by
        intro i hi
        have := h (i + 1) (by omega)
        unfold block at this ⊢
        rw [List.drop_drop, List.drop_drop]
        have e : 16 * (i + 1) = 16 + 16 * i := by omega
        rw [e] at this
        exact this)
    rw [← List.take_append_drop 16 x, ← List.take_append_drop 16 y, h0, h1]

/-- Decryption finds the plaintext whose padded form the blocks decrypt to. -/
theorem decrypt_of_cbc (hC : C.Lawful) {key iv ct p : Bytes}
    (hk : (key.length = 16 ∨ key.length = 24 ∨ key.length = 32) ∧ iv.length = 16) (h : CbcDecryption key iv ct p) :
    AES.decrypt key iv ct = .ok p := by
  have hv : AES.validParams key iv = true := by
    unfold AES.validParams
    simp only [Bool.and_eq_true, Bool.or_eq_true, beq_iff_eq]
    omega
  have hpl : (padded p).length = p.length + (16 - p.length % 16) := AES.pad_length p
  have hl : ct.length = 16 * (ct.length / 16) := by have := h.length; omega
  obtain ⟨h1, h2⟩ := cbcDec_blocks hC key (ct.length / 16) iv ct hk.2 hl
  have e : AES.cbcDec key (ct.length / 16) iv ct = padded p := by
    apply blocks_ext (ct.length / 16) h1 (by have := h.length; omega)
    intro i hi
    rw [h2 i hi, h.blocks i (by omega)]
  unfold AES.decrypt
  rw [if_pos hv, if_pos (by omega), e]
  exact AES.unpad_pad p

theorem verify_of_mac (hlen : ∀ k m, (C.hmac k m).length = 32) {m : WhisperMessage} {k body : Bytes} {them me : ECPub}
    (h : m.serialized = body ++ (C.hmac k ((5 :: them) ++ (5 :: me) ++ body)).take 8) {v : Nat} (hv : 3 ≤ v) :
    m.verifyMac v them me k = .ok () := by
  unfold WhisperMessage.verifyMac
  have hl : ((C.hmac k ((5 :: them) ++ (5 :: me) ++ body)).take 8).length = 8 := by rw [List.length_take, hlen]; rfl
  have hs := split2_tail body _ 8 hl
  rw [← h] at hs
  simp only
  rw [show ByteUtil.split2 m.serialized ((m.serialized.length : Int) - WhisperMessage.MAC_LENGTH)
    WhisperMessage.MAC_LENGTH = _ from hs]
  simp only
  rw [if_neg]
  intro hne
  apply hne
  unfold WhisperMessage.getMac
  rw [if_pos hv]
  exact trim_eq_take (by rw [hlen]; simp [WhisperMessage.MAC_LENGTH])

/-- The sending chain of every stored state has a ratchet key that decodes. -/
theorem senderKey_inv : StateInv fun s => ∀ c, s.senderChain = some c → ∃ k, KeyOf c.senderRatchetKey k where
  empty := by intro c h; cases h
  created := by
    intro s h c hc
    obtain ⟨_, _, _, _, _, ⟨kp, ck, h⟩, _⟩ := created_shape h
    rw [h] at hc
    obtain rfl := Option.some.inj hc
    exact ⟨_, kp.pub, rfl, rfl⟩
  encrypt := by
    intro s pt c s' hs h c' hc'
    obtain ⟨_, eph, _, _, _, _, _, he, _, _, _, _, _, _, _, _, sc, hsc, h⟩ := SessionCipher.ews_ok h
    subst h
    obtain rfl := Option.some.inj hc'
    subst hsc
    exact ⟨eph, KeyOf_iff.2 he⟩
  decrypt := by
    intro s m seed pt s' hs h c' hc'
    obtain ⟨_, _, ck, s1, mk, s2, _, _, h1, h2, _, _, _, _, h5⟩ := SessionCipher.dwss_ok h
    obtain ⟨c, j, _, h2⟩ := SessionCipher.gocmk_ok h2
    have hs2 : ∃ c', s2 = setChainAt s1 j c' := by
      rcases h2 with ⟨_, _, _, _, _, h⟩ | ⟨_, _, _, _, _, _, h⟩
      · exact ⟨_, h⟩
      · exact ⟨_, h⟩
    obtain ⟨c', rfl⟩ := hs2
    subst h5
    rcases SessionCipher.gocck_ok h1 with ⟨_, _, _, _, _, _, h⟩ | ⟨_, _, _, _, _, _, _, _, _, _, h⟩
    · subst h; exact hs _ hc'
    · subst h
      obtain rfl := Option.some.inj hc'
      exact ⟨_, _, rfl, rfl⟩
  pending := by
    intro s q a b c s' hs h c' hc'
    obtain ⟨_, rfl⟩ := setPending_ok h
    exact hs _ hc'

theorem gocck_of_opened (hC : C.Lawful) {s s1 : SessionState} {eph : ECPub} {seed : Bytes} {x y : List ChainS} {c : ChainS}
    (hg : GoodChains s) (hk : ∀ c, s.senderChain = some c → ∃ k, KeyOf c.senderRatchetKey k)
    (hv : s.sessionVersion = some 3) (hl : s.receiverChains.length ≤ 5) (h : Opened s eph seed s1)
    (hx : s1.receiverChains = x ++ c :: y) (hc : KeyOf c.senderRatchetKey eph)
    (hn : ∀ z ∈ x, ¬ KeyOf z.senderRatchetKey eph) :
    getReceiverChain s1 eph = .ok (some (c, x.length)) ∧
      SessionCipher.getOrCreateChainKey s eph seed = .ok (chainKeyOf .v3 c, s1) := by
  have hkdf := createFor_three hv
  cases h with
  | known h1 h2 =>
    have hf : getReceiverChain s eph = .ok (some (c, x.length)) := by
      unfold getReceiverChain
      rw [hx, findChain_first 0 (fun z hz => hg.good z (by rw [hx]; exact List.mem_append_left _ hz)) hn hc, Nat.zero_add]
    exact ⟨hf, gocck_found hf hkdf seed⟩
  | @ratchet c0 d1 d2 h1 h2 h3 h4 =>
    have he := (hC.dh_size _ _ _ h3).2
    have hf : getReceiverChain s eph = .ok none := findChain_nowhere 0 hg.good h1
    obtain ⟨k0, hk0⟩ := hk c0 h2
    have hkp : getSenderRatchetKeyPair s = .ok ⟨k0, c0.senderRatchetKeyPrivate.getD []⟩ := by
      unfold getSenderRatchetKeyPair getSenderRatchetKey senderChainD
      rw [h2]
      simp only [Option.getD_some]
      rw [KeyOf_iff.1 hk0, ok_bind]
      rfl
    have hstep : SessionCipher.getOrCreateChainKey s eph seed = .ok (⟨.v3, ratchetChain (s.rootKey.getD []) d1, 0⟩,
        ratcheted s eph ⟨.v3, ratchetChain (s.rootKey.getD []) d1, 0⟩
          ⟨.v3, ratchetRoot (ratchetRoot (s.rootKey.getD []) d1) d2⟩ (Curve.generateKeyPair seed)
          ⟨.v3, ratchetChain (ratchetRoot (s.rootKey.getD []) d1) d2, 0⟩) := by
      unfold SessionCipher.getOrCreateChainKey hasReceiverChain
      rw [hf]
      simp only [ok_bind, Option.isSome_none, Bool.false_eq_true, if_false]
      unfold getRootKey
      rw [hkdf, ok_bind, ok_bind, hkp, ok_bind, createChain_v3 hC.hmac_len]
      simp only [h3]
      rw [ok_bind, createChain_v3 hC.hmac_len]
      have h4' : C.dh (Curve.generateKeyPair seed).priv eph = some d2 := h4
      simp only [h4']
      rw [ok_bind, addReceiverChain_eq (by simp), ok_bind]
      rw [getSenderChainKey_eq (kdf := .v3), ok_bind, setSenderChain_eq (by simp), ok_bind]
      · rfl
      · exact hkdf
    have hstate : ∀ rc : ChainKey, rc = ⟨.v3, ratchetChain (s.rootKey.getD []) d1, 0⟩ →
        ratcheted s eph rc ⟨.v3, ratchetRoot (ratchetRoot (s.rootKey.getD []) d1) d2⟩ (Curve.generateKeyPair seed)
          ⟨.v3, ratchetChain (ratchetRoot (s.rootKey.getD []) d1) d2, 0⟩ = { s with
        rootKey := some (ratchetRoot (ratchetRoot (s.rootKey.getD []) d1) d2)
        receiverChains := newestFive (s.receiverChains ++
          [{ senderRatchetKey := some (5 :: eph), chainKey := startOf (ratchetChain (s.rootKey.getD []) d1) }])
        previousCounter := some (sendCounter s - 1)
        senderChain := some { c0 with
          senderRatchetKey := some (5 :: C.genPub (C.genPriv seed))
          senderRatchetKeyPrivate := some (C.genPriv seed)
          chainKey := startOf (ratchetChain (ratchetRoot (s.rootKey.getD []) d1) d2) } } := by
      intro rc hrc
      subst hrc
      unfold ratcheted
      rw [pushChain_newestFive hl, sendIndex_eq]
      unfold newSender senderChainD
      rw [h2]
      rfl
    have hstate := hstate _ rfl
    rw [hstate] at hstep
    obtain ⟨j, hj⟩ := findChain_pushChain (ck := ⟨.v3, ratchetChain (s.rootKey.getD []) d1, 0⟩) (Nat.le_of_eq he) hf
    rw [pushChain_newestFive hl] at hj
    have hgood : ∀ z ∈ x, GoodChain z := by
      intro z hz
      have hz' : z ∈ newestFive (s.receiverChains ++
          [{ senderRatchetKey := some (5 :: eph), chainKey := startOf (ratchetChain (s.rootKey.getD []) d1) }]) := by
        rw [show newestFive _ = _ from hx]; exact List.mem_append_left _ hz
      have := List.mem_of_mem_drop hz'
      rcases List.mem_append.1 this with h | h
      · exact hg.good z h
      · exfalso
        rw [List.mem_singleton.1 h] at hz
        exact hn _ hz ⟨eph, rfl, (List.take_of_length_le (by omega)).symm⟩
    have hfirst := findChain_first (y := y) 0 hgood hn hc
    rw [Nat.zero_add] at hfirst
    have hfind : findChain eph (newestFive (s.receiverChains ++
          [{ senderRatchetKey := some (5 :: eph), chainKey := startOf (ratchetChain (s.rootKey.getD []) d1) }])) 0 =
        .ok (some (c, x.length)) := by
      rw [show newestFive _ = _ from hx]; exact hfirst
    refine ⟨hfind, ?_⟩
    have hcc := hj.symm.trans hfind
    obtain ⟨hcc, _⟩ := Prod.mk.inj (Option.some.inj (Except.ok.inj hcc))
    rw [hstep, ← hcc]
    rfl

/-- Every state that should accept a message does. -/
theorem dwss_of_accepts (hC : C.Lawful) {s s' : SessionState} {m : WhisperMessage} {seed pt : Bytes}
    (hg : GoodChains s) (hk : ∀ c, s.senderChain = some c → ∃ k, KeyOf c.senderRatchetKey k)
    (hv : s.senderChain.isSome → s.sessionVersion = some 3) (hl : s.receiverChains.length ≤ 5)
    (h : Accepts s m seed pt s') : SessionCipher.decryptWithSessionState s m seed = .ok (pt, s') := by
  obtain @⟨s1, x, y, c, c', cipherKey, macKey, iv, them, me, body, h1, h2, h3, h4, h5, h6, h7, h8, h9, h10, h11, h12⟩ := h
  have hv := hv h1
  obtain ⟨hf, hck⟩ := gocck_of_opened hC hg hk hv hl h3 h4 h5 h6
  have hids : s1.remoteIdentityPublic = s.remoteIdentityPublic ∧ s1.localIdentityPublic = s.localIdentityPublic := by
    cases h3 <;> exact ⟨rfl, rfl⟩
  have hset : ∀ d : ChainS, setChainAt s1 x.length d = { s1 with receiverChains := x ++ d :: y } := by
    intro d
    show { s1 with receiverChains := s1.receiverChains.set x.length d } = _
    rw [h4, List.set_append_right _ _ (Nat.le_refl _), Nat.sub_self]
    rfl
  have hmk : ∃ mk, SessionCipher.getOrCreateMessageKeys s1 m.senderRatchetKey (chainKeyOf .v3 c) m.counter =
      .ok (mk, { s1 with receiverChains := x ++ c' :: y }) ∧ mk.cipherKey = cipherKey ∧ mk.macKey = macKey ∧ mk.iv = iv := by
    cases h7 with
    | @stored u v e q1 q2 q3 q4 =>
      have ht : takeKey m.counter c.messageKeys = some (e, u ++ v) := by
        rw [q2]
        clear q2
        induction u with
        | nil => rw [List.nil_append]; unfold takeKey; rw [if_pos q3]; rfl
        | cons z u ih =>
          rw [List.cons_append]
          unfold takeKey
          rw [if_neg (q4 z (List.mem_cons_self ..)), ih (fun z hz => q4 z (List.mem_cons_of_mem _ hz))]
          rfl
      refine ⟨messageKeysOf e, ?_, rfl, rfl, rfl⟩
      rw [SessionCipher.gocmk_stored hf (by rw [position_chainKeyOf]; exact q1) ht, hset]
    | ahead q1 q2 q3 q4 =>
      subst q4
      refine ⟨((chainKeyOf .v3 c).iter (m.counter - position c)).getMessageKeys, ?_, ?_⟩
      · rw [SessionCipher.gocmk_ahead hf (by rw [position_chainKeyOf]; exact q1) (by rw [position_chainKeyOf]; exact q2) q3 rfl,
          skipped_entries hC.hmac_len _ rfl, iter_key, key_chainKeyOf, position_chainKeyOf, hset]
      · rw [getMessageKeys_v3 hC.hmac_len _ (by rw [ChainKey.iter_kdf]; rfl), iter_key, key_chainKeyOf]
        exact ⟨rfl, rfl, rfl⟩
  obtain ⟨mk, hmk, rfl, rfl, rfl⟩ := hmk
  unfold SessionCipher.decryptWithSessionState
  have hh : hasSenderChain s = true := h1
  have hgv : getSessionVersion s = 3 := by unfold getSessionVersion; rw [hv]; rfl
  have e1 : Curve.decodePoint (s1.remoteIdentityPublic.getD []) = .ok them := by rw [hids.1]; exact KeyOf_iff.1 h8
  have e2 : Curve.decodePoint (s1.localIdentityPublic.getD []) = .ok me := by rw [hids.2]; exact KeyOf_iff.1 h9
  rw [if_neg (by rw [hh]; simp), if_neg (by rw [hgv, h2]; simp), hck, ok_bind]
  simp only
  rw [hmk, ok_bind]
  simp only
  unfold getRemoteIdentityKey getLocalIdentityKey
  rw [e1, ok_bind, e2, ok_bind, h2, verify_of_mac hC.hmac_len h10 (Nat.le_refl 3), ok_bind, decrypt_of_cbc hC h11 h12,
    ok_bind]
  rfl

/-! ## The theorems -/

/-- **C55.** Whenever `decryptMsg` returns a plaintext, the stored record changed in exactly this way: the current state or
one archived state accepted the message and is now, advanced as the double ratchet prescribes, the current one; an archived
one was taken out of the archive and the former current one put first there; nothing else changed. -/
theorem C55_effect (hC : C.Lawful) (w0 : World) (hw : w0.NoSessions) (cs : List Call) (a : Address) (m : WhisperMessage)
    (seed : Bytes) (seeds : Nat → Bytes) (pt : Bytes)
    (h : (SessionCipher.decryptMsg (Call.after w0 cs) a m seed seeds).result = .ok pt) :
    ∃ r r', (Call.after w0 cs).sessions a = some r ∧
      (SessionCipher.decryptMsg (Call.after w0 cs) a m seed seeds).writes = [.session a r'] ∧
      ((Accepts r.sessionState m seed pt r'.sessionState ∧ r'.previousStates = r.previousStates) ∨
       ∃ k p, r.previousStates[k]? = some p ∧ Accepts p m (seeds k) pt r'.sessionState ∧
         r'.previousStates = r.sessionState :: r.previousStates.eraseIdx k) := by
  cases hr : (Call.after w0 cs).sessions a with
  | none =>
    unfold SessionCipher.decryptMsg World.containsSession at h
    rw [hr] at h
    cases h
  | some r =>
    obtain ⟨r', h1, h2⟩ := C36_decrypt (Call.after w0 cs) a r hr (C22_bounded w0 hw cs a r hr).1 m seed seeds pt h
    have hver := reachable_all version_inv w0 hw cs a r hr
    have hlen := (C22_bounded w0 hw cs a r hr)
    have h0 := Outcome.ofRes_ok h
    split at h0
    · cases h0
    · obtain ⟨⟨pt', r2⟩, hd, h3⟩ := bind_eq_ok.1 h0
      obtain ⟨h3, h4⟩ := Prod.mk.inj (Except.ok.inj h3)
      simp only at h4
      subst h4
      have hload : (Call.after w0 cs).loadSession a = { r with fresh := false } := by unfold World.loadSession; rw [hr]
      have hwr : (SessionCipher.decryptMsg (Call.after w0 cs) a m seed seeds).writes = [.session a r2] := by
        unfold SessionCipher.decryptMsg World.containsSession
        rw [hr, hd]
        rfl
      rw [hload] at hd
      refine ⟨r, r2, rfl, hwr, ?_⟩
      rcases dwsr_ok hd with ⟨s, g1, rfl⟩ | ⟨_, k, p, s, hk, g1, _, rfl⟩
      · left
        have hsc := (SessionCipher.dwss_ok g1).1
        exact ⟨accepts_of_dwss hC (hver.1 hsc) (hlen.2 _ (List.mem_cons_self ..)) g1, rfl⟩
      · right
        have hpm := List.mem_of_getElem? hk
        have hsc := (SessionCipher.dwss_ok g1).1
        refine ⟨k, p, hk, accepts_of_dwss hC (hver.2 p hpm hsc) (hlen.2 _ (List.mem_cons_of_mem _ hpm)) g1, ?_⟩
        have hle := List.length_eraseIdx_of_lt (List.getElem?_eq_some_iff.1 hk).1
        have hpos := (List.getElem?_eq_some_iff.1 hk).1
        have := hlen.1
        have hpos : k < r.previousStates.length := hpos
        have hle : (r.previousStates.eraseIdx k).length = r.previousStates.length - 1 := hle
        show (if (r.sessionState :: r.previousStates.eraseIdx k).length > 40 then _ else _) = _
        rw [if_neg (by rw [List.length_cons, hle]; omega)]

/-- **C55.** Conversely, every message that the current state should accept is accepted, and the record is written with
exactly the state that follows. -/
theorem C55_accepted (hC : C.Lawful) (w0 : World) (hw : w0.NoSessions) (cs : List Call) (a : Address) (r : SessionRecord)
    (hr : (Call.after w0 cs).sessions a = some r) (m : WhisperMessage) (seed : Bytes) (seeds : Nat → Bytes) (pt : Bytes)
    (s' : SessionS) (h : Accepts r.sessionState m seed pt s') :
    SessionCipher.decryptMsg (Call.after w0 cs) a m seed seeds =
      ⟨[.session a { r with fresh := false, sessionState := s' }], .ok pt⟩ :=
  decryptMsg_current hr (dwss_of_accepts hC (reachable_all (goodChains_inv hC) w0 hw cs a r hr).1
    (reachable_all senderKey_inv w0 hw cs a r hr).1 (reachable_all version_inv w0 hw cs a r hr).1
    ((C22_bounded w0 hw cs a r hr).2 _ (List.mem_cons_self ..)) h)

end

section
attribute [local instance] toy
open Example Spec

/-- `C55_effect`: Alice reads Bob's reply, which is under a ratchet key new to her, in stores reached from empty ones by
two calls; her previous counter and sending key change accordingly. -/
example : (SessionCipher.decryptMsg alice2 bobAddr replyMsg (key 43) (fun _ => key 44)).result = .ok [121, 111] ∧
    ((alice2.sessions bobAddr).map fun r => (sendCounter r.sessionState, r.sessionState.receiverChains.length,
      r.sessionState.pendingPreKey.isSome)) = some (1, 1, true) ∧
    ((((SessionCipher.decryptMsg alice2 bobAddr replyMsg (key 43) (fun _ => key 44)).final alice2).sessions bobAddr).map
      fun r => (sendCounter r.sessionState, r.sessionState.previousCounter, r.sessionState.receiverChains.length,
        r.sessionState.pendingPreKey.isSome)) = some (0, some 0, 2, false) := by decide +kernel

/-- `C55_accepted`: Alice's state accepts this reply. -/
example : ∃ s', Accepts (alice2.loadSession bobAddr).sessionState replyMsg (key 43) [121, 111] s' := by
  have h : ((SessionCipher.decryptWithSessionState (alice2.loadSession bobAddr).sessionState replyMsg (key 43)).toOption.map
    fun p => p.1) = some [121, 111] := by decide +kernel
  cases hd : SessionCipher.decryptWithSessionState (alice2.loadSession bobAddr).sessionState replyMsg (key 43) with
  | error e => rw [hd] at h; cases h
  | ok p =>
    obtain ⟨pt, s'⟩ := p
    rw [hd] at h
    obtain rfl : pt = [121, 111] := Option.some.inj h
    exact ⟨s', accepts_of_dwss toy_lawful (by decide +kernel) (by decide +kernel) hd⟩

end
end Axolotl
