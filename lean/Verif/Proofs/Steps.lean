import Verif.Spec.Steps
import Verif.Props.Hashing

/-! # The steps of sending and reading, one by one -/

namespace Axolotl
section
variable [C : Crypto]
open Spec Logged Traced SessionState
namespace Work
open Fallible

theorem expandLoop_steps (prk info : Bytes) (n i rem : Nat) (hi : i + n < 128) :
    (expandLoop tracing prk info n (i + 1) (hkdfT prk info i) rem).work =
      (List.range n).map fun j => .hmac prk (hkdfT prk info (i + j) ++ info ++ [UInt8.ofNat (i + j + 1)]) := by
  induction n generalizing i rem with
  | zero => rfl
  | succ n ih =>
    have he : Kdf.chrEncode ((i + 1) % 256) = [UInt8.ofNat (i + 1)] := by
      unfold Kdf.chrEncode
      rw [if_pos (by omega), Nat.mod_eq_of_lt (by omega)]
    unfold expandLoop
    rw [he, work_ok (value_hmac _ _), work_ok (expandLoop_value ..), work_pure, List.append_nil]
    rw [show C.hmac prk (hkdfT prk info i ++ info ++ [UInt8.ofNat (i + 1)]) = hkdfT prk info (i + 1) from rfl, ih (i + 1) _ (by omega),
      List.range_succ_eq_map, List.map_cons, List.map_map]
    have : ∀ j, i + 1 + j = i + (j + 1) := fun j => by omega
    simp only [this]
    rfl

theorem deriveSecrets_steps (ikm info salt : Bytes) {n : Nat} (hn : n ≤ 96) :
    (deriveSecrets tracing .v3 ikm info n salt).work = hkdfSteps salt ikm info n := by
  unfold deriveSecrets
  simp only
  rw [work_ok (value_hmac _ _)]
  have hd : (n + 31) / Kdf.HASH_OUTPUT_SIZE = (n + 31) / 32 := rfl
  rw [hd]
  have := expandLoop_steps (C.hmac (if salt = [] then List.replicate 32 0 else salt) ikm) info ((n + 31) / 32) 0 n (by omega)
  simp only [Nat.zero_add] at this
  exact congrArg _ this

theorem getMessageKeys_steps {c : ChainKey} (hk : c.kdf = .v3) : (getMessageKeys tracing c).work = keySteps c.key := by
  unfold getMessageKeys
  rw [work_ok (value_hmac _ _), work_ok (deriveSecrets_value ..), work_pure, List.append_nil, hk, deriveSecrets_steps _ _ _ (by decide)]
  rfl

theorem getNextChainKey_steps (c : ChainKey) : (getNextChainKey tracing c).work = [.hmac c.key [2]] := rfl

theorem createChain_steps {r : RootKey} (hr : r.kdf = .v3) {t : ECPub} {o : KeyPair} {x : Bytes} (h : C.dh o.priv t = some x) :
    (createChain tracing r t o).work = .dh o.priv t :: hkdfSteps r.key x ratchetInfo 64 := by
  have hv : (calculateAgreement tracing t o.priv).value = .ok x := by
    rw [calculateAgreement_value]
    unfold Curve.calculateAgreement
    rw [h]
  unfold createChain
  rw [work_ok hv, calculateAgreement_trace, work_ok (deriveSecrets_value ..), work_pure, List.append_nil, hr, deriveSecrets_steps _ _ _ (by decide)]
  rfl

theorem skipLoop_steps {t : ECPub} {n : Nat} {s : SessionState} {c : ChainKey} (hk : c.kdf = .v3) {r : SessionState × ChainKey}
    (h : SessionCipher.skipLoop t n s c = .ok r) :
    (skipLoop tracing t n s c).work = (List.range n).flatMap fun j => keySteps (chainAt c.key j) ++ [.hmac (chainAt c.key j) [2]] := by
  induction n generalizing s c with
  | zero => rfl
  | succ n ih =>
    unfold SessionCipher.skipLoop at h
    obtain ⟨s1, h1, h⟩ := bind_eq_ok.1 h
    unfold skipLoop
    rw [work_ok (getMessageKeys_value _), work_ok ((value_lift _).trans h1), work_lift, work_ok (getNextChainKey_value _),
      ih (by exact hk) h, getMessageKeys_steps hk, getNextChainKey_steps, List.range_succ_eq_map, List.flatMap_cons, List.flatMap_map]
    have : ∀ j, chainAt c.getNextChainKey.key j = chainAt c.key (j + 1) := chainAt_next c.key
    simp only [this]
    simp [chainAt]

theorem cbcDec_steps (key : Bytes) (n : Nat) (prev d : Bytes) :
    (cbcDec tracing key n prev d).work = (List.range n).map fun i => .aesDec key (block d i) := by
  induction n generalizing prev d with
  | zero => rfl
  | succ n ih =>
    unfold cbcDec
    rw [work_ok (value_aesDec _ _), work_ok (cbcDec_value ..), work_pure, List.append_nil, ih, List.range_succ_eq_map, List.map_cons, List.map_map]
    simp only [block_drop]
    rfl

theorem aesDecrypt_steps {key iv enc pt : Bytes} (h : AES.decrypt key iv enc = .ok pt) :
    (aesDecrypt tracing key iv enc).work = openSteps key enc := by
  unfold AES.decrypt at h
  unfold aesDecrypt
  by_cases h1 : AES.validParams key iv
  · rw [if_pos h1] at h ⊢
    by_cases h2 : enc.length % 16 = 0
    · rw [if_pos h2, work_ok (cbcDec_value ..), work_lift, List.append_nil, cbcDec_steps]
      rfl
    · rw [if_neg h2] at h; cases h
  · rw [if_neg h1] at h; cases h

theorem cbcEnc_steps (hC : C.Lawful) (key : Bytes) (n : Nat) (prev d : Bytes) (hp : prev.length = 16) (hd : d.length = 16 * n) :
    (cbcEnc tracing key n prev d).work =
      (List.range n).map fun i => .aesEnc key (xor16 (chained prev (AES.cbcEnc key n prev d) i) (block d i)) := by
  induction n generalizing prev d with
  | zero => rfl
  | succ n ih =>
    have hc : (C.aesEnc key (AES.xorB prev (d.take 16))).length = 16 :=
      hC.aes_len _ _ (by rw [AES.xorB_length, List.length_take]; omega)
    unfold cbcEnc AES.cbcEnc
    simp only
    rw [work_ok (value_aesEnc _ _), work_ok (cbcEnc_value ..), work_pure, List.append_nil, ih _ _ hc (by rw [List.length_drop]; omega),
      List.range_succ_eq_map, List.map_cons, List.map_map]
    simp only [Function.comp_def, Nat.succ_eq_add_one, chained_append hc, ← block_drop]
    rfl

theorem aesEncrypt_steps (hC : C.Lawful) {key iv raw ct : Bytes} (h : AES.encrypt key iv raw = .ok ct) :
    (aesEncrypt tracing key iv raw).work = cbcSteps key iv raw ct := by
  unfold AES.encrypt at h
  unfold aesEncrypt
  by_cases hv : AES.validParams key iv
  · rw [if_pos hv] at h ⊢
    obtain rfl := Except.ok.inj h
    have hiv : iv.length = 16 := by
      unfold AES.validParams at hv
      simp only [Bool.and_eq_true, beq_iff_eq] at hv
      exact hv.2
    have hl : (AES.pad raw).length = 16 * ((AES.pad raw).length / 16) := by
      have := AES.pad_length raw
      omega
    simp only
    rw [cbcEnc_steps hC _ _ _ _ hiv hl]
    unfold cbcSteps
    rw [AES.cbcEnc_length hC _ _ _ _ hiv hl, Nat.mul_div_cancel_left _ (by decide)]
    rfl
  · rw [if_neg hv] at h; cases h

omit C in
theorem work_lift_bind {α β : Type} {r : Res α} {f : α → Traced β} (h : ∀ a, (f a).work = []) : (lift r >>= f : Traced β).work = [] := by
  cases r with
  | ok a => rw [work_ok (value_lift _), work_lift, h]; rfl
  | error e => rw [work_error (value_lift _), work_lift]

/-- The keys of a message, if they are found: stored, or further along the chain. -/
theorem getOrCreateMessageKeys_steps {s : SessionState} {t : ECPub} {c : ChainKey} {n : Nat} (hk : c.kdf = .v3) {r : MessageKeys × SessionState}
    (h : SessionCipher.getOrCreateMessageKeys s t c n = .ok r) :
    (n < c.index → (getOrCreateMessageKeys tracing s t c n).work = []) ∧
    (c.index ≤ n → (getOrCreateMessageKeys tracing s t c n).work = chainSteps c.key (n - c.index)) := by
  unfold SessionCipher.getOrCreateMessageKeys at h
  unfold getOrCreateMessageKeys
  constructor
  · intro hlt
    rw [if_pos hlt] at h ⊢
    obtain ⟨b, hb, h⟩ := bind_eq_ok.1 h
    rw [work_ok ((value_lift _).trans hb), work_lift]
    cases b with
    | true => exact work_lift _
    | false => rfl
  · intro hle
    rw [if_neg (by omega)] at h ⊢
    split at h
    · cases h
    · rename_i hf
      rw [if_neg hf]
      obtain ⟨q, hq, h⟩ := bind_eq_ok.1 h
      obtain ⟨s2, hs2, h⟩ := bind_eq_ok.1 h
      rw [work_ok ((skipLoop_value ..).trans hq), skipLoop_steps hk hq, work_ok (getNextChainKey_value _), getNextChainKey_steps,
        work_ok ((value_lift _).trans hs2), work_lift, work_ok (getMessageKeys_value _), work_pure, List.append_nil]
      have he := skipped_chain hq
      rw [getMessageKeys_steps (by rw [he, ChainKey.iter_kdf]; exact hk), he, iter_key]
      unfold chainSteps
      simp only [List.nil_append, List.append_assoc]

theorem macStep_of {m : WhisperMessage} {a b : ECPub} {x y : Option Bytes} {k : Bytes} (hm : 3 ≤ m.messageVersion)
    (ha : KeyOf x a) (hb : KeyOf y b) {o : Op} (h : ∀ (fit : Bytes → ECPub → ECPub → Prop), fit k a b → ∀ earlier, MacFound fit m (earlier ++ [o])) :
    MacStep m x y k o := by
  obtain ⟨e, mk, a', b', body, mac, ⟨rfl, rfl, rfl⟩, h1, h2, _, h4⟩ := h (fun k' a' b' => k' = k ∧ a' = a ∧ b' = b) ⟨rfl, rfl, rfl⟩ []
  rw [if_pos hm] at h1 h4
  rw [List.nil_append] at h1
  have he : e = [] := by
    have := congrArg List.length h1
    simp at this
    exact this
  subst he
  exact ⟨a', b', body, ha, hb, by simpa using h1, by rw [h2, h4]⟩

/-- One state that reads the message. -/
theorem state_steps (hC : C.Lawful) {s : SessionState} (hv : s.sessionVersion = some 3) {m : WhisperMessage} {seed : Bytes} {r : Bytes × SessionState}
    (h : SessionCipher.decryptWithSessionState s m seed = .ok r) : ReadSteps s m seed (decryptWithSessionState tracing s m seed).work := by
  obtain ⟨pt, s'⟩ := r
  have hlen := hC.hmac_len
  obtain ⟨hsc, hver, ck, s1, mk, s2, rid, lid, h1, h2, h3, h4, h5, h6, h7⟩ := SessionCipher.dwss_ok h
  have hm3 : 3 ≤ m.messageVersion := by rw [hver, getSessionVersion_three hv]
  have hids := dwss_ids (s2 := s2) h1 h2
  have hmac : MacStep m s.remoteIdentityPublic s.localIdentityPublic mk.macKey (.hmac mk.macKey (macData m rid lid)) :=
    macStep_of hm3 (by rw [← hids.2]; exact decodePoint_KeyOf h3) (by rw [← hids.1]; exact decodePoint_KeyOf h4)
      fun fit hf earlier => macFound hlen h5 hf earlier
  have hw : (decryptWithSessionState tracing s m seed).work = (getOrCreateChainKey tracing s m.senderRatchetKey seed).work ++
      ((getOrCreateMessageKeys tracing s1 m.senderRatchetKey ck m.counter).work ++
        (.hmac mk.macKey (macData m rid lid) :: openSteps mk.cipherKey m.ciphertext)) := by
    unfold decryptWithSessionState
    rw [if_neg (by rw [hsc]; simp), if_neg (by simpa using hver), work_ok ((getOrCreateChainKey_value ..).trans h1),
      work_ok ((getOrCreateMessageKeys_value ..).trans h2)]
    simp only
    rw [work_ok ((value_lift _).trans h3), work_lift, work_ok ((value_lift _).trans h4), work_lift,
      work_ok ((verifyMac_value ..).trans h5), verifyMac_trace, work_ok ((aesDecrypt_value ..).trans h6), work_pure, aesDecrypt_steps h6]
    simp
  rw [hw]
  obtain ⟨c0, hc0⟩ : ∃ c, s.senderChain = some c := by
    unfold hasSenderChain at hsc
    cases h : s.senderChain with
    | none => rw [h] at hsc; cases hsc
    | some c => exact ⟨c, rfl⟩
  have hk := SessionCipher.gocmk_ok h2
  obtain ⟨c, j, hc, hk⟩ := hk
  rcases SessionCipher.gocck_ok h1 with ⟨c1, j1, kdf, g1, g2, g3, g4⟩ | ⟨kdf, our, rk1, rk2, sck, g1, g2, g3, g4, g5, g6⟩
  · subst g4
    rw [g1] at hc
    obtain ⟨rfl, rfl⟩ := Prod.mk.inj (Option.some.inj (Except.ok.inj hc))
    obtain ⟨_, hcm, hck⟩ := SessionState.findChain_some g1
    have hcm := List.mem_of_getElem? hcm
    have hck := decodePoint_KeyOf hck
    rw [createFor_three hv] at g2
    obtain rfl := Except.ok.inj g2
    have hq := getOrCreateMessageKeys_steps (by rw [g3]; rfl) h2
    have hx : (getOrCreateChainKey tracing s1 m.senderRatchetKey seed).work = [] := by
      have hb : s1.hasReceiverChain m.senderRatchetKey = .ok true := by
        unfold hasReceiverChain
        rw [g1]
        rfl
      unfold getOrCreateChainKey
      rw [work_ok ((value_lift _).trans hb), work_lift, if_pos rfl, mapped_trace, work_lift]
      rfl
    rw [hx, List.nil_append]
    rcases hk with ⟨hlt, e, rest, ht, hmk, _⟩ | ⟨hle, hle2, _, hmk, _⟩
    · rw [hq.1 hlt]
      subst hmk
      obtain ⟨t1, t2⟩ := takeKey_mem ht
      exact .late hcm hck t1 t2 (by rw [g3] at hlt; exact hlt) hmac
    · rw [hq.2 hle]
      rw [getMessageKeys_v3 hlen _ (by rw [ChainKey.iter_kdf, g3]; rfl), iter_key] at hmk
      subst hmk
      refine .ahead (k := ck.key) hcm hck (by rw [g3]; rfl) ?_ (by omega) hmac
      have hi : (c1.chainKey.getD {}).index.getD 0 = ck.index := by rw [g3]; rfl
      omega
  · rw [createFor_three hv] at g2
    obtain rfl := Except.ok.inj g2
    have hpriv : our.priv = c0.senderRatchetKeyPrivate.getD [] := by
      unfold SessionState.getSenderRatchetKeyPair at g3
      obtain ⟨pub, _, g3⟩ := bind_eq_ok.1 g3
      obtain rfl := Except.ok.inj g3
      unfold senderChainD
      rw [hc0]
      rfl
    have hno : ¬ HasChainFor m s := findChain_none g1
    have h4' := g4
    have h5' := g5
    rw [createChain_v3 hlen] at g4
    cases hdh : C.dh our.priv m.senderRatchetKey with
    | none => rw [hdh] at g4; cases g4
    | some sec =>
    rw [hdh] at g4
    obtain ⟨rfl, rfl⟩ := Prod.mk.inj (Except.ok.inj g4)
    rw [createChain_v3 hlen] at g5
    cases hdh2 : C.dh (C.genPriv seed) m.senderRatchetKey with
    | none => rw [show C.dh (Curve.generateKeyPair seed).priv m.senderRatchetKey = none from hdh2] at g5; cases g5
    | some ours =>
    have hq := getOrCreateMessageKeys_steps rfl h2
    rcases hk with ⟨hlt, _⟩ | ⟨hle, hle2, _, hmk, _⟩
    · exact absurd hlt (by simp)
    rw [hq.2 hle]
    rw [getMessageKeys_v3 hlen _ (by rw [ChainKey.iter_kdf]), iter_key] at hmk
    subst hmk
    have hx : (getOrCreateChainKey tracing s m.senderRatchetKey seed).work =
        ratchetSteps (s.rootKey.getD []) (c0.senderRatchetKeyPrivate.getD []) m.senderRatchetKey seed sec ours := by
      have hb : s.hasReceiverChain m.senderRatchetKey = .ok false := by
        unfold hasReceiverChain
        rw [g1]
        rfl
      have hroot : s.getRootKey = .ok ⟨.v3, s.rootKey.getD []⟩ := by
        unfold SessionState.getRootKey
        rw [createFor_three hv]
        rfl
      unfold getOrCreateChainKey
      rw [work_ok ((value_lift _).trans hb), work_lift, if_neg (by simp), work_ok ((value_lift _).trans hroot), work_lift,
        work_ok ((value_lift _).trans g3), work_lift, work_ok ((createChain_value ..).trans h4'), createChain_steps rfl hdh,
        work_ok (generateKeyPair_value _), work_ok ((createChain_value ..).trans h5'), createChain_steps rfl hdh2]
      simp only
      rw [work_lift_bind fun _ => work_lift_bind fun _ => work_lift_bind fun _ => work_pure _, hpriv, List.append_nil]
      unfold ratchetSteps
      simp
      rfl
    rw [hx, ← List.append_assoc]
    have := ReadSteps.new (s := s) (m := m) (random := seed) hno hc0 (hpriv ▸ hdh) hdh2 rfl (by simpa using hle2) hmac
    simpa using this

/-! ## Setting up a session -/

omit C in
theorem work_bind_ok {α β : Type} {x : Traced α} {f : α → Traced β} {b : β} (h : (x >>= f).value = .ok b) :
    ∃ a, x.value = .ok a ∧ (f a).value = .ok b ∧ (x >>= f).work = x.work ++ (f a).work := by
  rw [value_bind] at h
  obtain ⟨a, h1, h2⟩ := bind_eq_ok.1 h
  exact ⟨a, h1, h2, work_ok h1⟩

theorem calculateDerivedKeys_steps (x : Bytes) : (calculateDerivedKeys tracing x).work = hkdfSteps [] x textInfo 64 := by
  unfold calculateDerivedKeys
  rw [work_ok (deriveSecrets_value ..), work_pure, List.append_nil]
  exact deriveSecrets_steps _ _ _ (by decide)

theorem bobSecrets_steps {p : BobParameters} {x : Bytes} (h : (bobSecrets tracing p).value = .ok x) :
    ∃ d1 d2 d3 d4, C.dh p.ourSignedPreKey.priv p.theirIdentityKey = some d1 ∧ C.dh p.ourIdentityKey.priv p.theirBaseKey = some d2 ∧
      C.dh p.ourSignedPreKey.priv p.theirBaseKey = some d3 ∧
      (p.ourOneTimePreKey.map KeyPair.priv).elim (d4 = []) (fun o => C.dh o p.theirBaseKey = some d4) ∧
      x = List.replicate 32 0xFF ++ d1 ++ d2 ++ d3 ++ d4 ∧
      (bobSecrets tracing p).work = [.dh p.ourSignedPreKey.priv p.theirIdentityKey, .dh p.ourIdentityKey.priv p.theirBaseKey,
        .dh p.ourSignedPreKey.priv p.theirBaseKey] ++ ((p.ourOneTimePreKey.map KeyPair.priv).map fun o => Op.dh o p.theirBaseKey).toList := by
  unfold bobSecrets at h ⊢
  obtain ⟨d1, e1, h, w1⟩ := work_bind_ok h
  obtain ⟨d2, e2, h, w2⟩ := work_bind_ok h
  obtain ⟨d3, e3, h, w3⟩ := work_bind_ok h
  rw [w1, w2, w3, calculateAgreement_trace, calculateAgreement_trace, calculateAgreement_trace]
  have e1 := agreement_some e1
  have e2 := agreement_some e2
  have e3 := agreement_some e3
  cases ho : p.ourOneTimePreKey with
  | none =>
    rw [ho] at h
    obtain rfl := Except.ok.inj h
    exact ⟨d1, d2, d3, [], e1, e2, e3, rfl, rfl, rfl⟩
  | some o =>
    rw [ho] at h
    simp only at h ⊢
    obtain ⟨d4, e4, h, w4⟩ := work_bind_ok h
    rw [w4, calculateAgreement_trace]
    obtain rfl := Except.ok.inj h
    exact ⟨d1, d2, d3, d4, e1, e2, e3, agreement_some e4, rfl, rfl⟩

theorem aliceSecrets_steps {p : AliceParameters} {x : Bytes} (h : (aliceSecrets tracing p).value = .ok x) :
    ∃ d1 d2 d3 d4, C.dh p.ourIdentityKey.priv p.theirSignedPreKey = some d1 ∧ C.dh p.ourBaseKey.priv p.theirIdentityKey = some d2 ∧
      C.dh p.ourBaseKey.priv p.theirSignedPreKey = some d3 ∧
      p.theirOneTimePreKey.elim (d4 = []) (fun o => C.dh p.ourBaseKey.priv o = some d4) ∧
      x = List.replicate 32 0xFF ++ d1 ++ d2 ++ d3 ++ d4 ∧
      (aliceSecrets tracing p).work = [.dh p.ourIdentityKey.priv p.theirSignedPreKey, .dh p.ourBaseKey.priv p.theirIdentityKey,
        .dh p.ourBaseKey.priv p.theirSignedPreKey] ++ (p.theirOneTimePreKey.map fun o => Op.dh p.ourBaseKey.priv o).toList := by
  unfold aliceSecrets at h ⊢
  obtain ⟨d1, e1, h, w1⟩ := work_bind_ok h
  obtain ⟨d2, e2, h, w2⟩ := work_bind_ok h
  obtain ⟨d3, e3, h, w3⟩ := work_bind_ok h
  rw [w1, w2, w3, calculateAgreement_trace, calculateAgreement_trace, calculateAgreement_trace]
  have e1 := agreement_some e1
  have e2 := agreement_some e2
  have e3 := agreement_some e3
  cases ho : p.theirOneTimePreKey with
  | none =>
    rw [ho] at h
    obtain rfl := Except.ok.inj h
    exact ⟨d1, d2, d3, [], e1, e2, e3, rfl, rfl, rfl⟩
  | some o =>
    rw [ho] at h
    simp only at h ⊢
    obtain ⟨d4, e4, h, w4⟩ := work_bind_ok h
    rw [w4, calculateAgreement_trace]
    obtain rfl := Except.ok.inj h
    exact ⟨d1, d2, d3, d4, e1, e2, e3, agreement_some e4, rfl, rfl⟩

theorem asBob_steps {s s' : SessionState} {p : BobParameters} (h : (initializeSessionAsBob tracing s p).value = .ok s') :
    AnswerSteps p.ourIdentityKey.priv p.ourSignedPreKey.priv (p.ourOneTimePreKey.map KeyPair.priv) p.theirIdentityKey p.theirBaseKey
      (initializeSessionAsBob tracing s p).work := by
  unfold initializeSessionAsBob at h ⊢
  obtain ⟨x, e1, h, w1⟩ := work_bind_ok h
  obtain ⟨dk, e2, h, w2⟩ := work_bind_ok h
  obtain ⟨d1, d2, d3, d4, g1, g2, g3, g4, rfl, hw⟩ := bobSecrets_steps e1
  rw [w1, w2, hw, work_lift_bind fun _ => work_pure _, calculateDerivedKeys_steps, List.append_nil]
  exact .mk g1 g2 g3 g4

theorem asAlice_steps (hC : C.Lawful) {s s' : SessionState} {p : AliceParameters} {seed : Bytes}
    (h : (initializeSessionAsAlice tracing s p seed).value = .ok s') :
    BeginSteps p.ourIdentityKey.priv p.ourBaseKey.priv seed p.theirIdentityKey p.theirSignedPreKey p.theirOneTimePreKey p.theirRatchetKey
      (initializeSessionAsAlice tracing s p seed).work := by
  unfold initializeSessionAsAlice at h ⊢
  obtain ⟨kp, e0, h, w0⟩ := work_bind_ok h
  obtain ⟨x, e1, h, w1⟩ := work_bind_ok h
  obtain ⟨dk, e2, h, w2⟩ := work_bind_ok h
  obtain ⟨ch, e3, h, w3⟩ := work_bind_ok h
  obtain ⟨d1, d2, d3, d4, g1, g2, g3, g4, hx, hw⟩ := aliceSecrets_steps e1
  rw [generateKeyPair_value] at e0
  obtain rfl := Except.ok.inj e0
  rw [calculateDerivedKeys_value] at e2
  obtain rfl := Except.ok.inj e2
  have hk : (RatchetingSession.calculateDerivedKeys x).1.key = (hkdf [] x textInfo 64).take 32 := by
    rw [← (C11_library_sizes hC.hmac_len x textInfo []).2.1]
    have hl := C11_length hC.hmac_len .v3 x textInfo 64 []
    have hsp := split2_append ((Kdf.v3.deriveSecrets x textInfo 64 []).take 32) ((Kdf.v3.deriveSecrets x textInfo 64 []).drop 32)
    rw [List.take_append_drop, List.length_take, List.length_drop, hl] at hsp
    exact congrArg Prod.fst hsp
  have hd : ∃ y, C.dh (C.genPriv seed) p.theirRatchetKey = some y := by
    rw [createChain_value] at e3
    obtain ⟨y, hy, _⟩ := RootKey.createChain_ok e3
    unfold Curve.calculateAgreement at hy
    cases hd : C.dh (C.genPriv seed) p.theirRatchetKey with
    | none => rw [show C.dh (Curve.generateKeyPair seed).priv p.theirRatchetKey = none from hd] at hy; cases hy
    | some y => exact ⟨y, rfl⟩
  obtain ⟨y, hy⟩ := hd
  rw [w0, w1, w2, w3, hw, work_lift_bind fun _ => work_lift_bind fun _ => work_pure _, calculateDerivedKeys_steps, List.append_nil,
    createChain_steps rfl hy, hk]
  have := BeginSteps.mk (random := seed) g1 g2 g3 g4 hx hy
  simp only [List.append_assoc, List.cons_append, List.nil_append] at this ⊢
  exact this

end Work
end
end Axolotl
