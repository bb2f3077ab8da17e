import Verif.Proofs.Work
import Verif.Proofs.Basic

/-!
# How much work the parts of the calls do
-/

namespace Axolotl
namespace Tally

theorem le_def (a b : Tally) : (a ≤ b) = (a.hmac ≤ b.hmac ∧ a.genPriv ≤ b.genPriv ∧ a.genPub ≤ b.genPub ∧ a.dh ≤ b.dh ∧
    a.verifySig ≤ b.verifySig ∧ a.calcSig ≤ b.calcSig ∧ a.aesEnc ≤ b.aesEnc ∧ a.aesDec ≤ b.aesDec) := rfl

theorem add_def (a b : Tally) : a + b = ⟨a.hmac + b.hmac, a.genPriv + b.genPriv, a.genPub + b.genPub, a.dh + b.dh,
    a.verifySig + b.verifySig, a.calcSig + b.calcSig, a.aesEnc + b.aesEnc, a.aesDec + b.aesDec⟩ := rfl

/-- Comparing concrete tallies. -/
macro "tally" : tactic => `(tactic| (simp only [le_def, add_def, times, Tally.none, Tally.mk.injEq]; omega))

theorem le_refl (a : Tally) : a ≤ a := by tally

theorem le_trans {a b c : Tally} (h : a ≤ b) (h' : b ≤ c) : a ≤ c := by
  simp only [le_def] at *
  omega

theorem add_le {a b c d : Tally} (h : a ≤ c) (h' : b ≤ d) : a + b ≤ c + d := by
  simp only [le_def, add_def] at *
  omega

theorem none_le (a : Tally) : none ≤ a := by tally

theorem add_none (a : Tally) : a + none = a := by simp [add_def, none]

theorem none_add (a : Tally) : none + a = a := by simp [add_def, none]

theorem add_assoc (a b c : Tally) : a + b + c = a + (b + c) := by simp [add_def, Nat.add_assoc]

theorem eq_of_le {a b : Tally} (h : a ≤ b) (h' : b ≤ a) : a = b := by
  obtain ⟨a1, a2, a3, a4, a5, a6, a7, a8⟩ := a
  obtain ⟨b1, b2, b3, b4, b5, b6, b7, b8⟩ := b
  simp only [le_def, Tally.mk.injEq] at *
  omega

/-- Equating concrete tallies. -/
macro "tally_eq" : tactic => `(tactic| (refine Tally.eq_of_le ?_ ?_ <;> tally))

end Tally

namespace Costly
open Fallible Logged

theorem work_pure {α : Type} (a : α) : (pure a : Costly α).work = .none := rfl

theorem work_fail {α : Type} (e : Err) : (fail e : Costly α).work = .none := rfl

theorem work_attempt {α : Type} (x : Costly α) : (attempt x : Costly (Res α)).work = x.work := rfl

theorem work_lift {α : Type} (r : Res α) : (Work.lift r : Costly α).work = .none := by
  cases r <;> rfl

theorem work_ok {α β : Type} {x : Costly α} {f : α → Costly β} {a : α} (h : x.value = .ok a) :
    (x >>= f).work = x.work + (f a).work := by
  show (x.andThen f).work = _
  unfold andThen
  rw [h]
  rfl

theorem work_error {α β : Type} {x : Costly α} {f : α → Costly β} {e : Err} (h : x.value = .error e) :
    (x >>= f).work = x.work := by
  show (x.andThen f).work = _
  unfold andThen
  rw [h]
  rfl

theorem bind_le {α β : Type} {x : Costly α} {f : α → Costly β} {a b : Tally} (hx : x.work ≤ a)
    (hf : ∀ v, x.value = .ok v → (f v).work ≤ b) : (x >>= f).work ≤ a + b := by
  cases h : x.value with
  | ok v => rw [work_ok h]; exact Tally.add_le hx (hf v h)
  | error e =>
    rw [work_error h]
    have := Tally.add_le hx (Tally.none_le b)
    rwa [Tally.add_none] at this

/-- The first computation is known to succeed. -/
theorem bind_ok_le {α β : Type} {x : Costly α} {f : α → Costly β} {v : α} {a b : Tally} (h : x.value = .ok v) (hx : x.work ≤ a)
    (hf : (f v).work ≤ b) : (x >>= f).work ≤ a + b := by
  rw [work_ok h]
  exact Tally.add_le hx hf

theorem lift_le {α β : Type} {r : Res α} {f : α → Costly β} {b : Tally} (hf : ∀ v, r = .ok v → (f v).work ≤ b) :
    ((Work.lift r : Costly α) >>= f).work ≤ b := by
  cases r with
  | ok v => rw [work_ok (value_lift _), work_lift, Tally.none_add]; exact hf v rfl
  | error e => rw [work_error (value_lift _), work_lift]; exact Tally.none_le b

theorem pure_le {α : Type} (a : α) (b : Tally) : (pure a : Costly α).work ≤ b := Tally.none_le b

theorem fail_le {α : Type} (e : Err) (b : Tally) : (fail e : Costly α).work ≤ b := Tally.none_le b

theorem ite_le {α : Type} {c : Prop} [Decidable c] {x y : Costly α} {b : Tally} (h1 : c → x.work ≤ b) (h2 : ¬ c → y.work ≤ b) :
    (if c then x else y).work ≤ b := by
  by_cases h : c
  · rw [if_pos h]; exact h1 h
  · rw [if_neg h]; exact h2 h

theorem outcome_work {α : Type} (x : Costly (List Write × α)) : (Work.outcome x).work = x.work := by
  unfold Work.outcome
  rw [work_ok (value_attempt _), work_attempt, work_pure, Tally.add_none]

end Costly

section
variable [C : Crypto]
namespace Work
open Logged Costly Fallible

theorem expandLoop_work (prk info : Bytes) (n i : Nat) (mixin : Bytes) (rem : Nat) :
    (expandLoop counting prk info n i mixin rem).work = { hmac := n } := by
  induction n generalizing i mixin rem with
  | zero => rfl
  | succ n ih =>
    unfold expandLoop
    rw [work_ok (value_hmac _ _), work_ok (expandLoop_value ..), ih, work_pure]
    show ({ hmac := 1 } : Tally) + _ = _
    tally_eq

theorem deriveSecrets_work (k : Kdf) (ikm info : Bytes) (n : Nat) (salt : Bytes) :
    (deriveSecrets counting k ikm info n salt).work = { hmac := 1 + (n + 31) / 32 } := by
  unfold deriveSecrets
  simp only
  rw [work_ok (value_hmac _ _), expandLoop_work]
  rfl

theorem generateKeyPair_work (seed : Bytes) : (generateKeyPair counting seed).work = { genPriv := 1, genPub := 1 } := rfl

omit C in
theorem orValueError_work {α : Type} (x : Option α) : (orValueError x : Costly α).work = .none := by
  cases x <;> rfl

theorem calculateAgreement_work (a : ECPub) (b : ECPriv) : (calculateAgreement counting a b).work = { dh := 1 } := by
  unfold calculateAgreement
  rw [work_ok (value_dh _ _), orValueError_work]
  rfl

theorem verifySignature_work (k : ECPub) (d s : Bytes) : (verifySignature counting k d s).work = { verifySig := 1 } := by
  unfold verifySignature
  rw [work_ok (value_verifySig _ _ _), orValueError_work]
  rfl

theorem calculateSignature_work (r : Bytes) (k : ECPriv) (d : Bytes) : (calculateSignature counting r k d).work = { calcSig := 1 } := by
  unfold calculateSignature
  rw [work_ok (value_calcSig _ _ _), orValueError_work]
  rfl

theorem cbcEnc_work (key : Bytes) (n : Nat) (prev d : Bytes) : (cbcEnc counting key n prev d).work = { aesEnc := n } := by
  induction n generalizing prev d with
  | zero => rfl
  | succ n ih =>
    unfold cbcEnc
    rw [work_ok (value_aesEnc _ _), work_ok (cbcEnc_value ..), ih, work_pure]
    show ({ aesEnc := 1 } : Tally) + _ = _
    tally_eq

theorem cbcDec_work (key : Bytes) (n : Nat) (prev d : Bytes) : (cbcDec counting key n prev d).work = { aesDec := n } := by
  induction n generalizing prev d with
  | zero => rfl
  | succ n ih =>
    unfold cbcDec
    rw [work_ok (value_aesDec _ _), work_ok (cbcDec_value ..), ih, work_pure]
    show ({ aesDec := 1 } : Tally) + _ = _
    tally_eq

theorem aesEncrypt_work {key iv : Bytes} (h : AES.validParams key iv) (raw : Bytes) :
    (aesEncrypt counting key iv raw).work = { aesEnc := raw.length / 16 + 1 } := by
  unfold aesEncrypt
  rw [if_pos h]
  simp only [cbcEnc_work]
  have : (AES.pad raw).length / 16 = raw.length / 16 + 1 := by
    simp only [AES.pad, List.length_append, List.length_replicate]
    omega
  rw [this]

theorem aesEncrypt_le (key iv raw : Bytes) : (aesEncrypt counting key iv raw).work ≤ { aesEnc := raw.length / 16 + 1 } := by
  by_cases h : AES.validParams key iv
  · rw [aesEncrypt_work h]; exact Tally.le_refl _
  · unfold aesEncrypt
    rw [if_neg h]
    exact Tally.none_le _

theorem aesDecrypt_le (key iv enc : Bytes) : (aesDecrypt counting key iv enc).work ≤ { aesDec := enc.length / 16 } := by
  unfold aesDecrypt
  refine ite_le (fun _ => ite_le (fun _ => ?_) fun _ => fail_le _ _) fun _ => fail_le _ _
  rw [work_ok (cbcDec_value ..), cbcDec_work, work_lift, Tally.add_none]
  exact Tally.le_refl _

theorem getNextChainKey_work (c : ChainKey) : (getNextChainKey counting c).work = { hmac := 1 } := rfl

theorem getMessageKeys_work (c : ChainKey) : (getMessageKeys counting c).work = { hmac := 5 } := by
  unfold getMessageKeys
  rw [work_ok (value_hmac _ _), work_ok (deriveSecrets_value ..), deriveSecrets_work, work_pure]
  rfl

theorem createChain_le (r : RootKey) (t : ECPub) (o : KeyPair) : (createChain counting r t o).work ≤ { dh := 1, hmac := 3 } :=
  bind_le (b := { hmac := 3 }) (a := { dh := 1 }) (by rw [calculateAgreement_work]; exact Tally.le_refl _) fun v _ => by
    rw [work_ok (deriveSecrets_value ..), deriveSecrets_work, work_pure]
    simp only [DerivedRootSecrets.SIZE]
    tally

theorem createChain_work {r : RootKey} {t : ECPub} {o : KeyPair} {p : RootKey × ChainKey} (h : r.createChain t o = .ok p) :
    (createChain counting r t o).work = { dh := 1, hmac := 3 } := by
  unfold createChain
  cases ha : Curve.calculateAgreement t o.priv with
  | error e =>
    unfold RootKey.createChain at h
    rw [ha] at h
    cases h
  | ok s =>
    rw [work_ok ((calculateAgreement_value t o.priv).trans ha), work_ok (deriveSecrets_value ..), deriveSecrets_work, work_pure,
      calculateAgreement_work]
    rfl

theorem calculateDerivedKeys_work (d : Bytes) : (calculateDerivedKeys counting d).work = { hmac := 3 } := by
  unfold calculateDerivedKeys
  rw [work_ok (deriveSecrets_value ..), deriveSecrets_work, work_pure]
  rfl

theorem agreement_le (a : ECPub) (b : ECPriv) : (calculateAgreement counting a b).work ≤ { dh := 1 } := by
  rw [calculateAgreement_work]; exact Tally.le_refl _

theorem generate_le (seed : Bytes) : (generateKeyPair counting seed).work ≤ { genPriv := 1, genPub := 1 } := Tally.le_refl _

theorem derivedKeys_le (d : Bytes) : (calculateDerivedKeys counting d).work ≤ { hmac := 3 } := by
  rw [calculateDerivedKeys_work]; exact Tally.le_refl _

theorem verify_le (k : ECPub) (d s : Bytes) : (verifySignature counting k d s).work ≤ { verifySig := 1 } := by
  rw [verifySignature_work]; exact Tally.le_refl _

theorem sign_le (r : Bytes) (k : ECPriv) (d : Bytes) : (calculateSignature counting r k d).work ≤ { calcSig := 1 } := by
  rw [calculateSignature_work]; exact Tally.le_refl _

theorem nextKey_le (c : ChainKey) : (getNextChainKey counting c).work ≤ { hmac := 1 } := Tally.le_refl _

theorem messageKeys_le (c : ChainKey) : (getMessageKeys counting c).work ≤ { hmac := 5 } := by
  rw [getMessageKeys_work]; exact Tally.le_refl _

/-- Without a one-time prekey there is one agreement less. -/
theorem aliceSecrets_le (p : AliceParameters) :
    (aliceSecrets counting p).work ≤ { dh := 3 + (if p.theirOneTimePreKey.isSome then 1 else 0) } := by
  unfold aliceSecrets
  cases h : p.theirOneTimePreKey with
  | none =>
    exact Tally.le_trans (bind_le (agreement_le ..) fun _ _ => bind_le (agreement_le ..) fun _ _ => bind_le (agreement_le ..) fun _ _ =>
      bind_le (pure_le _ .none) fun _ _ => pure_le _ .none) (by simp only [Option.isSome_none, Bool.false_eq_true, if_false]; tally)
  | some k =>
    exact Tally.le_trans (bind_le (agreement_le ..) fun _ _ => bind_le (agreement_le ..) fun _ _ => bind_le (agreement_le ..) fun _ _ =>
      bind_le (agreement_le ..) fun _ _ => pure_le _ .none) (by simp only [Option.isSome_some, if_true]; tally)

theorem bobSecrets_le (p : BobParameters) :
    (bobSecrets counting p).work ≤ { dh := 3 + (if p.ourOneTimePreKey.isSome then 1 else 0) } := by
  unfold bobSecrets
  cases h : p.ourOneTimePreKey with
  | none =>
    exact Tally.le_trans (bind_le (agreement_le ..) fun _ _ => bind_le (agreement_le ..) fun _ _ => bind_le (agreement_le ..) fun _ _ =>
      bind_le (pure_le _ .none) fun _ _ => pure_le _ .none) (by simp only [Option.isSome_none, Bool.false_eq_true, if_false]; tally)
  | some k =>
    exact Tally.le_trans (bind_le (agreement_le ..) fun _ _ => bind_le (agreement_le ..) fun _ _ => bind_le (agreement_le ..) fun _ _ =>
      bind_le (agreement_le ..) fun _ _ => pure_le _ .none) (by simp only [Option.isSome_some, if_true]; tally)

theorem asAlice_le (s : SessionState) (p : AliceParameters) (seed : Bytes) :
    (initializeSessionAsAlice counting s p seed).work ≤
      { genPriv := 1, genPub := 1, hmac := 6, dh := 4 + (if p.theirOneTimePreKey.isSome then 1 else 0) } := by
  unfold initializeSessionAsAlice
  exact Tally.le_trans (bind_le (generate_le ..) fun _ _ => bind_le (aliceSecrets_le ..) fun _ _ => bind_le (derivedKeys_le ..) fun _ _ =>
    bind_le (createChain_le ..) fun _ _ => lift_le fun _ _ => lift_le fun _ _ => pure_le _ .none) (by tally)

theorem asBob_le (s : SessionState) (p : BobParameters) :
    (initializeSessionAsBob counting s p).work ≤ { hmac := 3, dh := 3 + (if p.ourOneTimePreKey.isSome then 1 else 0) } := by
  unfold initializeSessionAsBob
  exact Tally.le_trans (bind_le (bobSecrets_le ..) fun _ _ => bind_le (derivedKeys_le ..) fun _ _ =>
    lift_le fun _ _ => pure_le _ .none) (by tally)

theorem initializeSession_le (s : SessionState) (p : SymmetricParameters) (seed : Bytes) :
    (initializeSession counting s p seed).work ≤ { genPriv := 1, genPub := 1, hmac := 6, dh := 4 } := by
  unfold initializeSession
  refine lift_le fun _ _ => ite_le (fun _ => asAlice_le ..) fun _ => Tally.le_trans (asBob_le ..) ?_
  simp only [Option.isSome_none, Bool.false_eq_true, if_false]
  tally

theorem getMac_work (v : Nat) (a b : ECPub) (k d : Bytes) : (getMac counting v a b k d).work = { hmac := 1 } := rfl

theorem mac_le (v : Nat) (a b : ECPub) (k d : Bytes) : (getMac counting v a b k d).work ≤ { hmac := 1 } := Tally.le_refl _

theorem createWhisperMessage_le (v : Nat) (k : Bytes) (a : ECPub) (n pn : Nat) (ct : Bytes) (i j : ECPub) :
    (createWhisperMessage counting v k a n pn ct i j).work ≤ { hmac := 1 } := by
  unfold createWhisperMessage
  exact Tally.le_trans (lift_le fun _ _ => lift_le fun _ _ => bind_le (mac_le ..) fun _ _ => pure_le _ .none) (by tally)

theorem verifyMac_work (msg : WhisperMessage) (v : Nat) (a b : ECPub) (k : Bytes) :
    (verifyMac counting msg v a b k).work = { hmac := 1 } := by
  unfold verifyMac
  simp only
  rw [work_ok (getMac_value ..), getMac_work]
  split <;> rfl

theorem verifyMac_le (msg : WhisperMessage) (v : Nat) (a b : ECPub) (k : Bytes) :
    (verifyMac counting msg v a b k).work ≤ { hmac := 1 } := by
  rw [verifyMac_work]; exact Tally.le_refl _

theorem encryptWithState_le (s : SessionState) (d : Bytes) :
    (encryptWithState counting s d).work ≤ { hmac := 7, aesEnc := d.length / 16 + 1 } := by
  unfold encryptWithState
  refine Tally.le_trans (lift_le fun _ _ => bind_le (messageKeys_le ..) fun _ _ => lift_le fun _ _ => bind_le (aesEncrypt_le ..) fun _ _ =>
    lift_le fun _ _ => lift_le fun _ _ => bind_le (createWhisperMessage_le ..) fun _ _ => ite_le (b := { hmac := 1 })
      (fun _ => lift_le fun _ _ => lift_le fun _ _ => Tally.le_trans (bind_le (pure_le _ .none) fun _ _ =>
        bind_le (nextKey_le ..) fun _ _ => lift_le fun _ _ => pure_le _ .none) ?_)
      fun _ => Tally.le_trans (bind_le (pure_le _ .none) fun _ _ => bind_le (nextKey_le ..) fun _ _ => lift_le fun _ _ => pure_le _ .none) ?_)
    ?_ <;> tally

/-- A ratchet step: two agreements, two key derivations, one key generation. -/
theorem getOrCreateChainKey_le (s : SessionState) (t : ECPub) (seed : Bytes) :
    (getOrCreateChainKey counting s t seed).work ≤ { genPriv := 1, genPub := 1, hmac := 6, dh := 2 } := by
  unfold getOrCreateChainKey
  refine lift_le fun b _ => ite_le (fun _ => lift_le fun _ _ => pure_le _ _) fun _ => ?_
  exact Tally.le_trans (lift_le fun _ _ => lift_le fun _ _ => bind_le (createChain_le ..) fun _ _ => bind_le (generate_le ..) fun _ _ =>
    bind_le (createChain_le ..) fun _ _ => lift_le fun _ _ => lift_le fun _ _ => lift_le fun _ _ => pure_le _ .none) (by tally)

/-- No ratchet step, no work. -/
theorem getOrCreateChainKey_known {s : SessionState} {t : ECPub} (seed : Bytes) (h : s.hasReceiverChain t = .ok true) :
    (getOrCreateChainKey counting s t seed).work = .none := by
  unfold getOrCreateChainKey
  rw [work_ok ((value_lift _).trans h), work_lift, if_pos rfl]
  exact Tally.eq_of_le (Tally.le_trans (Tally.add_le (Tally.le_refl _) (lift_le fun _ _ => pure_le _ .none)) (by tally)) (Tally.none_le _)

theorem getOrCreateChainKey_work {s : SessionState} {t : ECPub} {seed : Bytes} {p : ChainKey × SessionState}
    (h : s.hasReceiverChain t = .ok false) (hp : SessionCipher.getOrCreateChainKey s t seed = .ok p) :
    (getOrCreateChainKey counting s t seed).work = { genPriv := 1, genPub := 1, hmac := 6, dh := 2 } := by
  unfold SessionCipher.getOrCreateChainKey at hp
  rw [h] at hp
  replace hp := hp
  simp only [Logged.bind_ok, Bool.false_eq_true, if_false] at hp
  obtain ⟨rk, h1, hp⟩ := bind_eq_ok.1 hp
  obtain ⟨kp, h2, hp⟩ := bind_eq_ok.1 hp
  obtain ⟨rc, h3, hp⟩ := bind_eq_ok.1 hp
  obtain ⟨sc, h4, hp⟩ := bind_eq_ok.1 hp
  obtain ⟨s1, h5, hp⟩ := bind_eq_ok.1 hp
  obtain ⟨sk, h6, hp⟩ := bind_eq_ok.1 hp
  obtain ⟨s2, h7, hp⟩ := bind_eq_ok.1 hp
  unfold getOrCreateChainKey
  rw [work_ok ((value_lift _).trans h), work_lift, if_neg (by decide), work_ok ((value_lift _).trans h1), work_lift,
    work_ok ((value_lift _).trans h2), work_lift, work_ok ((createChain_value ..).trans h3), createChain_work h3,
    work_ok (generateKeyPair_value _), generateKeyPair_work, work_ok ((createChain_value ..).trans h4), createChain_work h4]
  simp only
  rw [work_ok ((value_lift _).trans h5), work_lift, work_ok ((value_lift _).trans h6), work_lift, work_ok ((value_lift _).trans h7),
    work_lift, work_pure]
  rfl

theorem skipLoop_le (t : ECPub) (n : Nat) (s : SessionState) (c : ChainKey) : (skipLoop counting t n s c).work ≤ { hmac := 6 * n } := by
  induction n generalizing s c with
  | zero => exact pure_le _ _
  | succ n ih =>
    unfold skipLoop
    exact Tally.le_trans (bind_le (messageKeys_le ..) fun _ _ => lift_le fun _ _ => bind_le (nextKey_le ..) fun _ _ => ih ..) (by tally)

theorem skipLoop_work {t : ECPub} {n : Nat} {s : SessionState} {c : ChainKey} {p : SessionState × ChainKey}
    (h : SessionCipher.skipLoop t n s c = .ok p) : (skipLoop counting t n s c).work = { hmac := 6 * n } := by
  induction n generalizing s c with
  | zero => rfl
  | succ n ih =>
    unfold SessionCipher.skipLoop at h
    obtain ⟨s1, h1, h⟩ := bind_eq_ok.1 h
    unfold skipLoop
    rw [work_ok (getMessageKeys_value _), getMessageKeys_work, work_ok ((value_lift _).trans h1), work_lift,
      work_ok (getNextChainKey_value _), getNextChainKey_work, ih h]
    tally_eq

theorem getOrCreateMessageKeys_le (s : SessionState) (t : ECPub) (c : ChainKey) (n : Nat) :
    (getOrCreateMessageKeys counting s t c n).work ≤ { hmac := 12006 } := by
  unfold getOrCreateMessageKeys
  refine ite_le (fun _ => lift_le fun _ _ => ite_le (fun _ => by rw [work_lift]; exact Tally.none_le _) fun _ => fail_le _ _) fun h1 =>
    ite_le (fun _ => fail_le _ _) fun h2 => ?_
  have h3 : n - c.index ≤ 2000 := by simp only [SessionCipher.MAX_FUTURE] at h2; omega
  exact Tally.le_trans (bind_le (skipLoop_le ..) fun _ _ => bind_le (nextKey_le ..) fun _ _ => lift_le fun _ _ =>
    bind_le (messageKeys_le ..) fun _ _ => pure_le _ .none) (by tally)

theorem getOrCreateMessageKeys_work {s : SessionState} {t : ECPub} {c : ChainKey} {n : Nat} {p : MessageKeys × SessionState}
    (hn : c.index ≤ n) (h : SessionCipher.getOrCreateMessageKeys s t c n = .ok p) :
    (getOrCreateMessageKeys counting s t c n).work = { hmac := 6 * (n - c.index) + 6 } := by
  unfold SessionCipher.getOrCreateMessageKeys at h
  unfold getOrCreateMessageKeys
  rw [if_neg (by omega)] at h ⊢
  by_cases h2 : (n : Int) - c.index > SessionCipher.MAX_FUTURE
  · rw [if_pos h2] at h; cases h
  · rw [if_neg h2] at h ⊢
    obtain ⟨r, h3, h⟩ := bind_eq_ok.1 h
    obtain ⟨s1, h4, h⟩ := bind_eq_ok.1 h
    rw [work_ok ((skipLoop_value ..).trans h3), skipLoop_work h3, work_ok (getNextChainKey_value _), getNextChainKey_work,
      work_ok ((value_lift _).trans h4), work_lift, work_ok (getMessageKeys_value _), getMessageKeys_work, work_pure]
    tally_eq

theorem aesDecrypt_refused {key iv enc : Bytes} (h : AES.decrypt key iv enc = .error .invalidMessage) : False := by
  unfold AES.decrypt AES.unpad at h
  split at h
  · split at h
    · split at h
      · cases h
      · simp only at h
        split at h <;> cases h
    · cases h
  · cases h

theorem decryptWithSessionState_le (s : SessionState) (msg : WhisperMessage) (seed : Bytes) :
    (decryptWithSessionState counting s msg seed).work ≤ Spec.stateWork + { aesDec := msg.ciphertext.length / 16 } := by
  unfold decryptWithSessionState
  refine ite_le (fun _ => fail_le _ _) fun _ => ite_le (fun _ => fail_le _ _) fun _ => ?_
  exact Tally.le_trans (bind_le (getOrCreateChainKey_le ..) fun _ _ => bind_le (getOrCreateMessageKeys_le ..) fun _ _ =>
    lift_le fun _ _ => lift_le fun _ _ => bind_le (verifyMac_le ..) fun _ _ => bind_le (aesDecrypt_le ..) fun _ _ => pure_le _ .none)
    (by unfold Spec.stateWork; tally)

/-- A state that refuses the message with `InvalidMessageException` has not decrypted anything. -/
theorem decryptWithSessionState_refused {s : SessionState} {msg : WhisperMessage} {seed : Bytes}
    (h : SessionCipher.decryptWithSessionState s msg seed = .error .invalidMessage) :
    (decryptWithSessionState counting s msg seed).work ≤ Spec.stateWork := by
  unfold SessionCipher.decryptWithSessionState at h
  unfold decryptWithSessionState
  by_cases h1 : (!s.hasSenderChain) = true
  · rw [if_pos h1]; exact fail_le _ _
  · rw [if_neg h1] at h ⊢
    by_cases h2 : msg.messageVersion ≠ s.getSessionVersion
    · rw [if_pos h2]; exact fail_le _ _
    · rw [if_neg h2] at h ⊢
      refine Tally.le_trans (bind_le (getOrCreateChainKey_le ..) fun p hp => bind_le (getOrCreateMessageKeys_le ..) fun q hq =>
        lift_le fun a ha => lift_le fun b hb => bind_le (verifyMac_le ..) fun u hu => ?_) (c := Spec.stateWork)
        (b := _ + (_ + (_ + .none))) (by unfold Spec.stateWork; tally)
      rw [getOrCreateChainKey_value] at hp
      rw [getOrCreateMessageKeys_value] at hq
      rw [verifyMac_value] at hu
      simp only [hp, hq, ha, hb, hu, Logged.bind_ok] at h
      rcases bind_eq_error.1 h with h | ⟨_, _, h⟩
      · exact (aesDecrypt_refused h).elim
      · cases h

theorem tryPrevious_le (r : SessionRecord) (msg : WhisperMessage) (seeds : Nat → Bytes) (l : List SessionState) (i : Nat) :
    (tryPrevious counting r msg seeds l i).work ≤ Tally.times l.length Spec.stateWork + { aesDec := msg.ciphertext.length / 16 } := by
  induction l generalizing i with
  | nil => exact fail_le _ _
  | cons p l ih =>
    have h0 := decryptWithSessionState_le p msg (seeds i)
    unfold tryPrevious
    rw [work_ok (value_attempt _), work_attempt, decryptWithSessionState_value]
    have one : Spec.stateWork + { aesDec := msg.ciphertext.length / 16 } + .none ≤
        Tally.times (p :: l).length Spec.stateWork + { aesDec := msg.ciphertext.length / 16 } := by
      simp only [List.length_cons, Spec.stateWork]; tally
    split
    · exact Tally.le_trans (Tally.add_le h0 (Tally.le_refl _)) one
    · rename_i h
      refine Tally.le_trans (Tally.add_le (decryptWithSessionState_refused h) (ih (i + 1))) ?_
      simp only [List.length_cons, Spec.stateWork]; tally
    · exact Tally.le_trans (Tally.add_le h0 (Tally.le_refl _)) one

theorem decryptWithSessionRecord_le (r : SessionRecord) (msg : WhisperMessage) (seed : Bytes) (seeds : Nat → Bytes) :
    (decryptWithSessionRecord counting r msg seed seeds).work ≤
      Tally.times (r.previousStates.length + 1) Spec.stateWork + { aesDec := msg.ciphertext.length / 16 } := by
  have h0 := decryptWithSessionState_le r.sessionState msg seed
  unfold decryptWithSessionRecord
  rw [work_ok (value_attempt _), work_attempt, decryptWithSessionState_value]
  have one : Spec.stateWork + { aesDec := msg.ciphertext.length / 16 } + .none ≤
      Tally.times (r.previousStates.length + 1) Spec.stateWork + { aesDec := msg.ciphertext.length / 16 } := by
    simp only [Spec.stateWork]; tally
  split
  · exact Tally.le_trans (Tally.add_le h0 (Tally.le_refl _)) one
  · rename_i h
    refine Tally.le_trans (Tally.add_le (decryptWithSessionState_refused h) (tryPrevious_le ..)) ?_
    simp only [Spec.stateWork]; tally
  · exact Tally.le_trans (Tally.add_le h0 (Tally.le_refl _)) one

theorem asBob_most (s : SessionState) (p : BobParameters) : (initializeSessionAsBob counting s p).work ≤ { hmac := 3, dh := 4 } := by
  refine Tally.le_trans (asBob_le s p) ?_
  split <;> tally

theorem asAlice_most (s : SessionState) (p : AliceParameters) (seed : Bytes) :
    (initializeSessionAsAlice counting s p seed).work ≤ { genPriv := 1, genPub := 1, hmac := 6, dh := 5 } := by
  refine Tally.le_trans (asAlice_le s p seed) ?_
  split <;> tally

theorem processV3_le (w : World) (r : SessionRecord) (msg : PreKeyWhisperMessage) :
    (processV3 counting w r msg).work ≤ { hmac := 3, dh := 4 } := by
  unfold processV3
  refine ite_le (fun _ => pure_le _ _) fun _ => lift_le fun _ _ => lift_le fun _ _ => ?_
  cases h : msg.preKeyId with
  | none =>
    exact Tally.le_trans (bind_le (pure_le _ .none) fun _ _ => bind_le (asBob_most ..) fun _ _ => lift_le fun _ _ => lift_le fun _ _ =>
      pure_le _ .none) (by tally)
  | some id =>
    exact Tally.le_trans (lift_le fun _ _ => lift_le fun _ _ => bind_le (pure_le _ .none) fun _ _ => bind_le (asBob_most ..) fun _ _ =>
      lift_le fun _ _ => lift_le fun _ _ => pure_le _ .none) (by tally)

theorem process_le (w : World) (a : Address) (r : SessionRecord) (msg : PreKeyWhisperMessage) :
    (process counting w a r msg).work ≤ { hmac := 3, dh := 4 } := by
  unfold process
  refine ite_le (fun _ => pure_le _ _) fun _ => ?_
  rw [work_ok (value_attempt _), work_attempt]
  refine Tally.le_trans (Tally.add_le (processV3_le ..) (d := .none) ?_) (by tally)
  split <;> exact pure_le _ _

theorem encrypt_le (w : World) (a : Address) (d : Bytes) :
    (encrypt counting w a d).work ≤ { hmac := 7, aesEnc := d.length / 16 + 1 } := by
  unfold encrypt
  rw [outcome_work]
  exact Tally.le_trans (bind_le (encryptWithState_le ..) fun _ _ => pure_le _ .none) (by tally)

theorem decryptMsg_le (w : World) (a : Address) (msg : WhisperMessage) (seed : Bytes) (seeds : Nat → Bytes) :
    (decryptMsg counting w a msg seed seeds).work ≤
      Tally.times ((w.loadSession a).previousStates.length + 1) Spec.stateWork + { aesDec := msg.ciphertext.length / 16 } := by
  unfold decryptMsg
  rw [outcome_work]
  refine ite_le (fun _ => fail_le _ _) fun _ => ?_
  have := bind_le (decryptWithSessionRecord_le (w.loadSession a) msg seed seeds)
    (f := fun r => (pure ([Write.session a r.2], r.1) : Costly (List Write × Bytes))) (b := .none) fun _ _ => pure_le _ .none
  rwa [Tally.add_none] at this

theorem decryptPkmsg_le (w : World) (a : Address) (msg : PreKeyWhisperMessage) (seed : Bytes) (seeds : Nat → Bytes) (k : Nat)
    (hk : ∀ r i, (SessionBuilder.process w a (w.loadSession a) msg).result = .ok (r, i) → r.previousStates.length ≤ k) :
    (decryptPkmsg counting w a msg seed seeds).work ≤
      Tally.times (k + 1) Spec.stateWork + { hmac := 3, dh := 4, aesDec := msg.message.ciphertext.length / 16 } := by
  unfold decryptPkmsg
  rw [work_ok (process_value ..)]
  refine Tally.le_trans (Tally.add_le (process_le ..) (d := Tally.times (k + 1) Spec.stateWork +
    { aesDec := msg.message.ciphertext.length / 16 }) ?_) (by simp only [Spec.stateWork]; tally)
  split
  · exact pure_le _ _
  · rename_i r i h
    rw [work_ok (value_attempt _), work_attempt]
    have h1 := decryptWithSessionRecord_le r msg.message seed seeds
    have h2 := hk r i h
    refine Tally.le_trans (Tally.add_le h1 (d := .none) ?_) (by simp only [Spec.stateWork]; tally)
    split <;> exact pure_le _ _

theorem processPreKeyBundle_le (w : World) (a : Address) (b : PreKeyBundle) (s1 s2 : Bytes) :
    (processPreKeyBundle counting w a b s1 s2).work ≤ { verifySig := 1, genPriv := 2, genPub := 2, hmac := 6, dh := 5 } := by
  unfold processPreKeyBundle
  rw [outcome_work]
  refine ite_le (fun _ => fail_le _ _) fun _ => ?_
  cases b.signedPreKey with
  | none => exact fail_le _ _
  | some k =>
    refine Tally.le_trans (bind_le (verify_le ..) fun ok _ => ite_le (b := { genPriv := 2, genPub := 2, hmac := 6, dh := 5 })
      (fun _ => fail_le _ _) fun _ => Tally.le_trans (bind_le (generate_le ..) fun _ _ => bind_le (asAlice_most ..) fun _ _ =>
      lift_le fun _ _ => lift_le fun _ _ => lift_le fun _ _ => pure_le _ .none) ?_) ?_ <;> tally

theorem processInitiateState_le (w : World) (a : Address) (msg : KeyExchangeMessage) (rnd : SessionBuilder.InitiateRand) :
    (processInitiateState counting w a msg rnd).work ≤ { verifySig := 1, genPriv := 3, genPub := 3, hmac := 6, dh := 4 } := by
  unfold processInitiateState
  refine Tally.le_trans (bind_le (verify_le ..) (b := { genPriv := 3, genPub := 3, hmac := 6, dh := 4 }) fun ok _ => ite_le
    (fun _ => fail_le _ _) fun _ => ite_le (fun _ => ?_) fun _ => ?_) (by tally)
  · exact Tally.le_trans (bind_le (generate_le ..) fun _ _ => bind_le (generate_le ..) fun _ _ => bind_le (pure_le _ .none) fun _ _ =>
      bind_le (initializeSession_le ..) fun _ _ => pure_le _ .none) (by tally)
  · exact Tally.le_trans (lift_le fun _ _ => lift_le fun _ _ => lift_le fun _ _ => bind_le (pure_le _ .none) fun _ _ =>
      bind_le (initializeSession_le ..) fun _ _ => pure_le _ .none) (by tally)

theorem processKeyExchangeMessage_le (w : World) (a : Address) (msg : KeyExchangeMessage) (rnd : SessionBuilder.InitiateRand) :
    (processKeyExchangeMessage counting w a msg rnd).work ≤
      { verifySig := 1, calcSig := 1, genPriv := 3, genPub := 3, hmac := 6, dh := 4 } := by
  unfold processKeyExchangeMessage
  refine ite_le (fun _ => pure_le _ _) fun _ => ite_le (fun _ => ?_) fun _ => ?_
  · unfold processInitiate
    rw [work_ok (value_attempt _), work_attempt]
    refine Tally.le_trans (Tally.add_le (processInitiateState_le ..) (d := { calcSig := 1 }) ?_) (by tally)
    split
    · exact pure_le _ _
    · rw [work_ok (value_attempt _), work_attempt]
      exact Tally.le_trans (Tally.add_le (bind_le (sign_le ..) fun _ _ => lift_le fun _ _ => pure_le _ .none) (pure_le _ .none)) (by tally)
  · unfold processResponse
    simp only
    refine ite_le (fun _ => ite_le (fun _ => pure_le _ _) fun _ => pure_le _ _) fun _ => ?_
    rw [outcome_work]
    exact Tally.le_trans (lift_le fun _ _ => lift_le fun _ _ => lift_le fun _ _ => bind_le (initializeSession_le ..) fun _ _ =>
      bind_le (verify_le ..) fun _ _ => ite_le (b := .none) (fun _ => fail_le _ _) fun _ => pure_le _ .none) (by tally)

theorem processInitKeyExchangeMessage_le (w : World) (a : Address) (n : Nat) (s1 s2 s3 : Bytes) :
    (processInitKeyExchangeMessage counting w a n s1 s2 s3).work ≤ { calcSig := 1, genPriv := 2, genPub := 2 } := by
  unfold processInitKeyExchangeMessage
  simp only
  refine Tally.le_trans (bind_le (generate_le ..) fun _ _ => bind_le (generate_le ..) fun _ _ => bind_le (a := { calcSig := 1 }) ?_
    (b := .none) fun x _ => ?_) (c := { calcSig := 1, genPriv := 2, genPub := 2 }) ?_
  · rw [work_attempt]
    exact Tally.le_trans (bind_le (sign_le ..) fun _ _ => lift_le fun _ _ => pure_le _ .none) (by tally)
  · split <;> exact pure_le _ _
  · tally

/-! ## Groups -/

theorem senderMessageKey_work (i : Nat) (seed : Bytes) : (senderMessageKey counting i seed).work = { hmac := 3 } := by
  unfold senderMessageKey
  rw [work_ok (deriveSecrets_value ..), deriveSecrets_work, work_pure]
  rfl

theorem getSenderMessageKey_work (c : SenderChainKey) : (getSenderMessageKey counting c).work = { hmac := 4 } := by
  unfold getSenderMessageKey
  rw [work_ok (value_hmac _ _), senderMessageKey_work]
  rfl

theorem getNext_work (c : SenderChainKey) : (getNext counting c).work = { hmac := 1 } := rfl

theorem groupSkipLoop_le (n : Nat) (s : SenderKeyState) (c : SenderChainKey) :
    (groupSkipLoop counting n s c).work ≤ { hmac := 5 * n } := by
  induction n generalizing s c with
  | zero => exact pure_le _ _
  | succ n ih =>
    unfold groupSkipLoop
    rw [work_ok (getSenderMessageKey_value _), getSenderMessageKey_work]
    refine Tally.le_trans (Tally.add_le (Tally.le_refl _) (lift_le fun _ _ => bind_le (a := { hmac := 1 }) (Tally.le_refl _) fun _ _ => ih ..)) ?_
    tally

theorem groupSkipLoop_work {n : Nat} {s : SenderKeyState} {c : SenderChainKey} {p : SenderKeyState × SenderChainKey}
    (h : GroupCipher.skipLoop n s c = .ok p) : (groupSkipLoop counting n s c).work = { hmac := 5 * n } := by
  induction n generalizing s c with
  | zero => rfl
  | succ n ih =>
    unfold GroupCipher.skipLoop at h
    obtain ⟨s1, h1, h⟩ := bind_eq_ok.1 h
    unfold groupSkipLoop
    rw [work_ok (getSenderMessageKey_value _), getSenderMessageKey_work, work_ok ((value_lift _).trans h1), work_lift,
      work_ok (getNext_value _), getNext_work, ih h]
    tally_eq

theorem removeSenderMessageKey_le (s : SenderKeyState) (i : Nat) : (removeSenderMessageKey counting s i).work ≤ { hmac := 3 } := by
  unfold removeSenderMessageKey
  split
  · exact pure_le _ _
  · rw [work_ok (senderMessageKey_value ..), senderMessageKey_work, work_pure]
    tally

theorem getSenderKey_le (s : SenderKeyState) (i : Nat) :
    (getSenderKey counting s i).work ≤ { hmac := 5 * (i + 1 - (SenderKeyState.getSenderChainKey s).iteration) + 3 } := by
  unfold getSenderKey
  simp only
  refine ite_le (fun _ => ite_le (fun _ => ?_) fun _ => fail_le _ _) fun h => ite_le (fun _ => fail_le _ _) fun _ => ?_
  · refine Tally.le_trans (bind_le (removeSenderMessageKey_le ..) (b := .none) fun x _ => ?_) (by tally)
    split
    · exact pure_le _ _
    · exact fail_le _ _
  · refine Tally.le_trans (bind_le (groupSkipLoop_le ..) fun _ _ => bind_le (a := { hmac := 1 }) (Tally.le_refl _) fun _ _ =>
      lift_le fun _ _ => bind_le (a := { hmac := 4 }) ?_ fun _ _ => pure_le _ .none) (c := { hmac := 5 * (i + 1 - _) + 3 }) ?_
    · rw [getSenderMessageKey_work]; exact Tally.le_refl _
    · tally

theorem getSenderKey_work {s : SenderKeyState} {i : Nat} {p : SenderMessageKey × SenderKeyState}
    (hi : (SenderKeyState.getSenderChainKey s).iteration ≤ i) (h : GroupCipher.getSenderKey s i = .ok p) :
    (getSenderKey counting s i).work = { hmac := 5 * (i + 1 - (SenderKeyState.getSenderChainKey s).iteration) } := by
  unfold GroupCipher.getSenderKey at h
  unfold getSenderKey
  simp only at h ⊢
  rw [if_neg (by omega), if_neg (by omega)] at h ⊢
  obtain ⟨r, h1, h⟩ := bind_eq_ok.1 h
  obtain ⟨s1, h2, h⟩ := bind_eq_ok.1 h
  rw [work_ok ((groupSkipLoop_value ..).trans h1), groupSkipLoop_work h1, work_ok (getNext_value _), getNext_work,
    work_ok ((value_lift _).trans h2), work_lift, work_ok (getSenderMessageKey_value _), getSenderMessageKey_work, work_pure]
  tally_eq

theorem aesDecrypt_work {key iv enc pt : Bytes} (h : AES.decrypt key iv enc = .ok pt) :
    (aesDecrypt counting key iv enc).work = { aesDec := enc.length / 16 } := by
  unfold AES.decrypt at h
  unfold aesDecrypt
  by_cases h1 : AES.validParams key iv
  · rw [if_pos h1] at h ⊢
    by_cases h2 : enc.length % 16 = 0
    · rw [if_pos h2, work_ok (cbcDec_value ..), cbcDec_work, work_lift, Tally.add_none]
    · rw [if_neg h2] at h; cases h
  · rw [if_neg h1] at h; cases h

theorem getPlainText_le (iv k d : Bytes) : (getPlainText counting iv k d).work ≤ { aesDec := d.length / 16 } := by
  unfold getPlainText
  rw [work_ok (value_attempt _), work_attempt, work_lift, Tally.add_none]
  exact aesDecrypt_le ..

theorem verifySenderKeyMessage_work (msg : SenderKeyMessage) (k : ECPub) :
    (verifySenderKeyMessage counting msg k).work = { verifySig := 1 } := by
  unfold verifySenderKeyMessage
  simp only
  refine Tally.eq_of_le ?_ ?_
  · exact Tally.le_trans (bind_le (verify_le ..) fun _ _ => ite_le (b := .none) (fun _ => pure_le _ _) fun _ => fail_le _ _) (by tally)
  · cases h : (verifySignature counting k _ _).value with
    | ok b =>
      rw [work_ok h, verifySignature_work]
      cases b <;> exact Tally.le_refl _
    | error e =>
      rw [work_error h, verifySignature_work]
      exact Tally.le_refl _

end Work
end
end Axolotl
