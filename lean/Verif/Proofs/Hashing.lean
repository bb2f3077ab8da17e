import Verif.Spec.Hashing
import Verif.Proofs.Ciphering
import Verif.Props.Hkdf
import Verif.Props.Format

/-! What a call hashes, and with which key. -/

namespace Axolotl
namespace Traced
open Fallible Logged Spec

/-- Only these are hashed, with these keys. -/
structure Macs (H : Bytes → Bytes → Prop) {α : Type} (x : Traced α) : Prop where
  each : ∀ k d, .hmac k d ∈ x.work → H k d

variable {H : Bytes → Bytes → Prop}

theorem macs_bind {α β : Type} {x : Traced α} {f : α → Traced β} (hx : Macs H x)
    (hf : ∀ v, x.value = .ok v → Macs H (f v)) : Macs H (x >>= f) := by
  constructor
  intro k d hm
  cases h : x.value with
  | ok v =>
    rw [work_ok h] at hm
    rcases List.mem_append.1 hm with hm | hm
    · exact hx.each k d hm
    · exact (hf v h).each k d hm
  | error e => rw [work_error h] at hm; exact hx.each k d hm

theorem macs_pure {α : Type} (a : α) : Macs H (pure a : Traced α) := ⟨fun _ _ h => by cases h⟩

theorem macs_fail {α : Type} (e : Err) : Macs H (fail e : Traced α) := ⟨fun _ _ h => by cases h⟩

theorem macs_lift {α : Type} (r : Res α) : Macs H (Work.lift r : Traced α) := by
  cases r with
  | ok a => exact macs_pure a
  | error e => exact macs_fail e

theorem macs_attempt {α : Type} {x : Traced α} (h : Macs H x) : Macs H (attempt x : Traced (Res α)) := ⟨h.each⟩

theorem macs_ite {α : Type} {c : Prop} [Decidable c] {x y : Traced α} (h1 : c → Macs H x)
    (h2 : ¬ c → Macs H y) : Macs H (if c then x else y) := by
  by_cases h : c
  · rw [if_pos h]; exact h1 h
  · rw [if_neg h]; exact h2 h

theorem macs_all {α : Type} {x : Traced α} (h : ∀ k d, H k d) : Macs H x := ⟨fun k d _ => h k d⟩

end Traced

section
variable [C : Crypto]
namespace Work
open Logged Traced Fallible Spec
variable {H : Bytes → Bytes → Prop}

omit C in
theorem one_macs {α : Type} {x : Traced α} {o : Op} (h : x.work = [o]) (ho : ∀ k d, o = .hmac k d → H k d) : Macs H x := by
  constructor
  intro k d hm
  rw [h] at hm
  exact ho k d (List.mem_singleton.1 hm).symm

theorem hmac_macs {k d : Bytes} (h : H k d) : Macs H (tracing.hmac k d) :=
  one_macs (o := .hmac k d) rfl fun _ _ he => by
    injection he with h1 h2
    subst h1; subst h2
    exact h

theorem generateKeyPair_macs (seed : Bytes) : Macs H (generateKeyPair tracing seed) := by
  unfold generateKeyPair
  exact macs_bind (one_macs (o := .genPriv seed) rfl fun _ _ he => by cases he) fun v _ =>
    macs_bind (one_macs (o := .genPub v) rfl fun _ _ he => by cases he) fun _ _ => macs_pure _

theorem verifySignature_macs (k : ECPub) (d s : Bytes) : Macs H (verifySignature tracing k d s) :=
  one_macs (verifySignature_trace k d s) fun _ _ he => by cases he

theorem calculateSignature_macs (r : Bytes) (k : ECPriv) (d : Bytes) : Macs H (calculateSignature tracing r k d) := by
  constructor
  intro _ _ hm
  unfold calculateSignature at hm
  rw [work_ok (value_calcSig _ _ _), orValueError_trace, List.append_nil] at hm
  cases List.mem_singleton.1 hm

theorem calculateAgreement_macs (a : ECPub) (b : ECPriv) : Macs H (calculateAgreement tracing a b) :=
  one_macs (calculateAgreement_trace a b) fun _ _ he => by cases he

/-- The blocks of the output. -/
theorem expandLoop_macs (prk info : Bytes) (n i : Nat) (rem : Nat) (hi : i + n < 128)
    (h : ∀ j, i ≤ j → j < i + n → H prk (hkdfT prk info j ++ info ++ [UInt8.ofNat (j + 1)])) :
    Macs H (expandLoop tracing prk info n (i + 1) (hkdfT prk info i) rem) := by
  induction n generalizing i rem with
  | zero => exact macs_pure _
  | succ n ih =>
    have he : Kdf.chrEncode ((i + 1) % 256) = [UInt8.ofNat (i + 1)] := by
      unfold Kdf.chrEncode
      rw [if_pos (by omega), Nat.mod_eq_of_lt (by omega)]
    unfold expandLoop
    rw [he]
    refine macs_bind (hmac_macs (h i (Nat.le_refl _) (by omega))) fun v hv => ?_
    have hv : v = hkdfT prk info (i + 1) := (Except.ok.inj hv).symm
    subst hv
    exact macs_bind (ih (i + 1) _ (by omega) fun j h1 h2 => h j (by omega) (by omega)) fun _ _ => macs_pure _

theorem deriveSecrets_macs {ikm info salt : Bytes} {n : Nat} (hn : n ≤ 96) (h : ∀ k d, HkdfUse salt ikm info n k d → H k d) :
    Macs H (deriveSecrets tracing .v3 ikm info n salt) := by
  unfold deriveSecrets
  refine macs_bind (hmac_macs (h _ _ .extract)) fun v hv => ?_
  have hv : v = C.hmac (if salt = [] then List.replicate 32 0 else salt) ikm := (Except.ok.inj hv).symm
  have hd : (n + 31) / Kdf.HASH_OUTPUT_SIZE = (n + 31) / 32 := rfl
  rw [hd]
  exact expandLoop_macs _ _ _ 0 _ (by omega) fun j _ hj => h _ _ (.expand hv (by omega))

theorem getNextChainKey_macs {c : ChainKey} (h : H c.key [2]) : Macs H (getNextChainKey tracing c) := by
  unfold getNextChainKey
  exact macs_bind (hmac_macs h) fun _ _ => macs_pure _

theorem getMessageKeys_macs {c : ChainKey} (hk : c.kdf = .v3) (h : ∀ k d, ChainUse c.key k d → H k d) : Macs H (getMessageKeys tracing c) := by
  unfold getMessageKeys
  refine macs_bind (hmac_macs (h _ _ .seed)) fun v hv => macs_bind ?_ fun _ _ => macs_pure _
  have hv : v = C.hmac c.key [1] := (Except.ok.inj hv).symm
  subst hv
  rw [hk]
  exact deriveSecrets_macs (by decide) fun k d hd => h _ _ (.keys hd)

theorem chainAt_next (k : Bytes) (j : Nat) : chainAt (C.hmac k [2]) j = chainAt k (j + 1) := by
  induction j with
  | zero => rfl
  | succ j ih =>
    show C.hmac (chainAt (C.hmac k [2]) j) [2] = C.hmac (chainAt k (j + 1)) [2]
    rw [ih]

/-- The chain key that is left after skipping. -/
theorem skipped_chain {t : ECPub} {n : Nat} {s : SessionState} {c : ChainKey} {r : SessionState × ChainKey}
    (h : SessionCipher.skipLoop t n s c = .ok r) : r.2 = c.iter n := by
  induction n generalizing s c with
  | zero =>
    obtain rfl := Except.ok.inj h
    rfl
  | succ n ih =>
    unfold SessionCipher.skipLoop at h
    obtain ⟨_, _, h⟩ := bind_eq_ok.1 h
    rw [ih h, ChainKey.iter_next]

theorem skipLoop_macs (t : ECPub) (n : Nat) (s : SessionState) (c : ChainKey) (hk : c.kdf = .v3)
    (h : ∀ j, j < n → ∀ k d, ChainUse (chainAt c.key j) k d → H k d) : Macs H (skipLoop tracing t n s c) := by
  induction n generalizing s c with
  | zero => exact macs_pure _
  | succ n ih =>
    unfold skipLoop
    refine macs_bind (getMessageKeys_macs hk (h 0 (by omega))) fun _ _ => macs_bind (macs_lift _) fun _ _ =>
      macs_bind (getNextChainKey_macs (h 0 (by omega) _ _ .next)) fun v hv => ?_
    rw [getNextChainKey_value] at hv
    obtain rfl := Except.ok.inj hv
    refine ih _ _ hk fun j hj k d hd => h (j + 1) (by omega) k d ?_
    have hd : ChainUse (chainAt (C.hmac c.key [2]) j) k d := hd
    rwa [chainAt_next c.key j] at hd

theorem getOrCreateMessageKeys_macs (s : SessionState) (t : ECPub) (c : ChainKey) (n : Nat) (hk : c.kdf = .v3)
    (h : ∀ j, c.index + j ≤ n → ∀ k d, ChainUse (chainAt c.key j) k d → H k d) :
    Macs H (getOrCreateMessageKeys tracing s t c n) := by
  unfold getOrCreateMessageKeys
  refine macs_ite (fun _ => macs_bind (macs_lift _) fun _ _ => macs_ite (fun _ => macs_lift _) fun _ => macs_fail _) fun hle =>
    macs_ite (fun _ => macs_fail _) fun _ => macs_bind (skipLoop_macs _ _ _ _ hk fun j hj => h j (by omega)) fun r hr => ?_
  have hr2 : r.2 = c.iter (n - c.index) := by
    rw [skipLoop_value] at hr
    exact skipped_chain hr
  have hlast : ∀ k d, ChainUse r.2.key k d → H k d := fun k d hd => by
    rw [hr2, iter_key] at hd
    exact h _ (by omega) k d hd
  exact macs_bind (getNextChainKey_macs (hlast _ _ .next)) fun _ _ =>
    macs_bind (macs_lift _) fun _ _ => macs_bind (getMessageKeys_macs (by rw [hr2, ChainKey.iter_kdf]; exact hk) hlast) fun _ _ => macs_pure _

theorem calculateDerivedKeys_macs {x : Bytes} (h : ∀ k d, HkdfUse [] x textInfo 64 k d → H k d) : Macs H (calculateDerivedKeys tracing x) := by
  unfold calculateDerivedKeys
  exact macs_bind (deriveSecrets_macs (by decide) h) fun _ _ => macs_pure _

theorem createChain_macs {r : RootKey} {t : ECPub} {o : KeyPair} (hk : r.kdf = .v3)
    (h : ∀ x, C.dh o.priv t = some x → ∀ k d, HkdfUse r.key x ratchetInfo 64 k d → H k d) : Macs H (createChain tracing r t o) := by
  unfold createChain
  refine macs_bind (calculateAgreement_macs ..) fun x hx => macs_bind ?_ fun _ _ => macs_pure _
  rw [calculateAgreement_value] at hx
  rw [hk]
  refine deriveSecrets_macs (by decide) (h x ?_)
  unfold Curve.calculateAgreement at hx
  cases hd : C.dh o.priv t with
  | none => rw [hd] at hx; cases hx
  | some y => rw [hd] at hx; rw [Except.ok.inj hx]

theorem cbcEnc_macs (key : Bytes) (n : Nat) (prev d : Bytes) : Macs H (cbcEnc tracing key n prev d) := by
  induction n generalizing prev d with
  | zero => exact macs_pure _
  | succ n ih =>
    unfold cbcEnc
    exact macs_bind (one_macs (o := .aesEnc key (AES.xorB prev (d.take 16))) rfl fun _ _ he => by cases he) fun c hcv => macs_bind (ih ..) fun _ _ => macs_pure _

theorem cbcDec_macs (key : Bytes) (n : Nat) (prev d : Bytes) : Macs H (cbcDec tracing key n prev d) := by
  induction n generalizing prev d with
  | zero => exact macs_pure _
  | succ n ih =>
    unfold cbcDec
    exact macs_bind (one_macs (o := .aesDec key (d.take 16)) rfl fun _ _ he => by cases he) fun _ _ => macs_bind (ih ..) fun _ _ => macs_pure _

theorem aesEncrypt_macs (key iv raw : Bytes) : Macs H (aesEncrypt tracing key iv raw) := by
  unfold aesEncrypt
  exact macs_ite (fun _ => cbcEnc_macs ..) fun _ => macs_fail _

theorem aesDecrypt_macs (key iv enc : Bytes) : Macs H (aesDecrypt tracing key iv enc) := by
  unfold aesDecrypt
  exact macs_ite (fun _ => macs_ite (fun _ => macs_bind (cbcDec_macs ..) fun _ _ => macs_lift _) fun _ => macs_fail _) fun _ => macs_fail _

theorem getMac_macs {a b : ECPub} {k d : Bytes} (h : H k ((5 :: a) ++ (5 :: b) ++ d)) : Macs H (getMac tracing 3 a b k d) := by
  unfold getMac
  exact macs_bind (hmac_macs h) fun _ _ => macs_pure _

theorem senderMessageKey_macs {i : Nat} {s : Bytes} (h : ∀ k d, HkdfUse [] s groupInfo 48 k d → H k d) : Macs H (senderMessageKey tracing i s) := by
  unfold senderMessageKey
  exact macs_bind (deriveSecrets_macs (by decide) h) fun _ _ => macs_pure _

theorem getSenderMessageKey_macs {c : SenderChainKey} (h : ∀ k d, GroupChainUse c.chainKey k d → H k d) : Macs H (getSenderMessageKey tracing c) := by
  unfold getSenderMessageKey
  refine macs_bind (hmac_macs (h _ _ .seed)) fun v hv => senderMessageKey_macs fun k d hd => h _ _ (.keys ?_)
  have hv : v = C.hmac c.chainKey [1] := (Except.ok.inj hv).symm
  subst hv
  exact hd

theorem getNext_macs {c : SenderChainKey} (h : H c.chainKey [2]) : Macs H (getNext tracing c) := by
  unfold getNext
  exact macs_bind (hmac_macs h) fun _ _ => macs_pure _

/-- The blocks of the output, numbered from 0. -/
theorem expandLoop_macs2 (prk info : Bytes) (n i : Nat) (mixin : Bytes) (rem : Nat) (hi : i + n < 128)
    (hm : mixin = if i = 0 then [] else hkdf2T prk info (i - 1))
    (h : ∀ j, i ≤ j → j < i + n → H prk ((if j = 0 then [] else hkdf2T prk info (j - 1)) ++ info ++ [UInt8.ofNat j])) :
    Macs H (expandLoop tracing prk info n i mixin rem) := by
  induction n generalizing i mixin rem with
  | zero => exact macs_pure _
  | succ n ih =>
    have he : Kdf.chrEncode (i % 256) = [UInt8.ofNat i] := by
      unfold Kdf.chrEncode
      rw [if_pos (by omega), Nat.mod_eq_of_lt (by omega)]
    unfold expandLoop
    rw [he, hm]
    refine macs_bind (hmac_macs (h i (Nat.le_refl _) (by omega))) fun v hv => ?_
    have hv : v = C.hmac prk ((if i = 0 then [] else hkdf2T prk info (i - 1)) ++ info ++ [UInt8.ofNat i]) := (Except.ok.inj hv).symm
    refine macs_bind (ih (i + 1) _ _ (by omega) ?_ fun j h1 h2 => h j (by omega) (by omega)) fun _ _ => macs_pure _
    rw [hv, if_neg (Nat.succ_ne_zero i)]
    cases i with
    | zero => rfl
    | succ i => rfl

theorem deriveSecrets_macs2 {ikm info salt : Bytes} {n : Nat} (hn : n ≤ 96) (h : ∀ k d, HkdfUse2 salt ikm info n k d → H k d) :
    Macs H (deriveSecrets tracing .v2 ikm info n salt) := by
  unfold deriveSecrets
  refine macs_bind (hmac_macs (h _ _ .extract)) fun v hv => ?_
  have hv : v = C.hmac (if salt = [] then List.replicate 32 0 else salt) ikm := (Except.ok.inj hv).symm
  have hd : (n + 31) / Kdf.HASH_OUTPUT_SIZE = (n + 31) / 32 := rfl
  rw [hd]
  exact expandLoop_macs2 _ _ _ 0 _ _ (by omega) rfl fun j _ hj => h _ _ (.expand hv (by omega))

theorem getMessageKeys_macs2 {c : ChainKey} (hk : c.kdf = .v2) (h : ∀ k d, ChainUse2 c.key k d → H k d) : Macs H (getMessageKeys tracing c) := by
  unfold getMessageKeys
  refine macs_bind (hmac_macs (h _ _ .seed)) fun v hv => macs_bind ?_ fun _ _ => macs_pure _
  have hv : v = C.hmac c.key [1] := (Except.ok.inj hv).symm
  subst hv
  rw [hk]
  exact deriveSecrets_macs2 (by decide) fun k d hd => h _ _ (.keys hd)

theorem skipLoop_macs2 (t : ECPub) (n : Nat) (s : SessionState) (c : ChainKey) (hk : c.kdf = .v2)
    (h : ∀ j, j < n → ∀ k d, ChainUse2 (chainAt c.key j) k d → H k d) : Macs H (skipLoop tracing t n s c) := by
  induction n generalizing s c with
  | zero => exact macs_pure _
  | succ n ih =>
    unfold skipLoop
    refine macs_bind (getMessageKeys_macs2 hk (h 0 (by omega))) fun _ _ => macs_bind (macs_lift _) fun _ _ =>
      macs_bind (getNextChainKey_macs (h 0 (by omega) _ _ .next)) fun v hv => ?_
    rw [getNextChainKey_value] at hv
    obtain rfl := Except.ok.inj hv
    refine ih _ _ hk fun j hj k d hd => h (j + 1) (by omega) k d ?_
    have hd : ChainUse2 (chainAt (C.hmac c.key [2]) j) k d := hd
    rwa [chainAt_next c.key j] at hd

theorem getOrCreateMessageKeys_macs2 (s : SessionState) (t : ECPub) (c : ChainKey) (n : Nat) (hk : c.kdf = .v2)
    (h : ∀ j, c.index + j ≤ n → ∀ k d, ChainUse2 (chainAt c.key j) k d → H k d) :
    Macs H (getOrCreateMessageKeys tracing s t c n) := by
  unfold getOrCreateMessageKeys
  refine macs_ite (fun _ => macs_bind (macs_lift _) fun _ _ => macs_ite (fun _ => macs_lift _) fun _ => macs_fail _) fun hle =>
    macs_ite (fun _ => macs_fail _) fun _ => macs_bind (skipLoop_macs2 _ _ _ _ hk fun j hj => h j (by omega)) fun r hr => ?_
  have hr2 : r.2 = c.iter (n - c.index) := by
    rw [skipLoop_value] at hr
    exact skipped_chain hr
  have hlast : ∀ k d, ChainUse2 r.2.key k d → H k d := fun k d hd => by
    rw [hr2, iter_key] at hd
    exact h _ (by omega) k d hd
  exact macs_bind (getNextChainKey_macs (hlast _ _ .next)) fun _ _ =>
    macs_bind (macs_lift _) fun _ _ => macs_bind (getMessageKeys_macs2 (by rw [hr2, ChainKey.iter_kdf]; exact hk) hlast) fun _ _ => macs_pure _

theorem createChain_macs2 {r : RootKey} {t : ECPub} {o : KeyPair} (hk : r.kdf = .v2)
    (h : ∀ x, C.dh o.priv t = some x → ∀ k d, HkdfUse2 r.key x ratchetInfo 64 k d → H k d) : Macs H (createChain tracing r t o) := by
  unfold createChain
  refine macs_bind (calculateAgreement_macs ..) fun x hx => macs_bind ?_ fun _ _ => macs_pure _
  rw [calculateAgreement_value] at hx
  rw [hk]
  refine deriveSecrets_macs2 (by decide) (h x ?_)
  unfold Curve.calculateAgreement at hx
  cases hd : C.dh o.priv t with
  | none => rw [hd] at hx; cases hx
  | some y => rw [hd] at hx; rw [Except.ok.inj hx]

theorem getMac_macs2 {a b : ECPub} {k d : Bytes} (h : H k d) : Macs H (getMac tracing 2 a b k d) := by
  unfold getMac
  exact macs_bind (hmac_macs h) fun _ _ => macs_pure _

/-- The chain key that is left after skipping, in a group. -/
theorem groupSkipped_chain {n : Nat} {s : SenderKeyState} {c : SenderChainKey} {r : SenderKeyState × SenderChainKey}
    (h : GroupCipher.skipLoop n s c = .ok r) : r.2.chainKey = chainAt c.chainKey n := by
  induction n generalizing s c with
  | zero =>
    obtain rfl := Except.ok.inj h
    rfl
  | succ n ih =>
    unfold GroupCipher.skipLoop at h
    obtain ⟨_, _, h⟩ := bind_eq_ok.1 h
    rw [ih h]
    exact chainAt_next ..

theorem groupSkipLoop_macs (n : Nat) (s : SenderKeyState) (c : SenderChainKey)
    (h : ∀ j, j < n → ∀ k d, GroupChainUse (chainAt c.chainKey j) k d → H k d) : Macs H (groupSkipLoop tracing n s c) := by
  induction n generalizing s c with
  | zero => exact macs_pure _
  | succ n ih =>
    unfold groupSkipLoop
    refine macs_bind (getSenderMessageKey_macs (h 0 (by omega))) fun _ _ => macs_bind (macs_lift _) fun _ _ =>
      macs_bind (getNext_macs (h 0 (by omega) _ _ .next)) fun v hv => ?_
    rw [getNext_value] at hv
    obtain rfl := Except.ok.inj hv
    refine ih _ _ fun j hj k d hd => h (j + 1) (by omega) k d ?_
    rwa [← chainAt_next]

theorem getSenderKey_macs (s : SenderKeyState) (i : Nat)
    (h1 : ∀ j, iterationOf s + j ≤ i → ∀ k d, GroupChainUse (chainAt (chainKeyOf s) j) k d → H k d)
    (h2 : ∀ e ∈ s.senderMessageKeys, e.iteration.getD 0 = i → i < iterationOf s → ∀ k d, HkdfUse [] (e.seed.getD []) groupInfo 48 k d → H k d) :
    Macs H (getSenderKey tracing s i) := by
  rw [← position_eq] at h1 h2
  rw [← chainKeyOf_eq] at h1
  unfold getSenderKey
  refine macs_ite (fun hlt => macs_ite (fun _ => ?_) fun _ => macs_fail _) fun hle => macs_ite (fun _ => macs_fail _) fun _ =>
    macs_bind (groupSkipLoop_macs _ _ _ fun j hj => h1 j (by omega)) fun r hr => ?_
  · refine macs_bind ?_ fun v _ => ?_
    · unfold removeSenderMessageKey
      split
      · exact macs_pure _
      · rename_i k rest hk
        obtain ⟨q1, q2⟩ := groupTake_mem hk
        exact macs_bind (senderMessageKey_macs (h2 k q1 q2 hlt)) fun _ _ => macs_pure _
    · split
      · exact macs_pure _
      · exact macs_fail _
  · rw [groupSkipLoop_value] at hr
    have hlast : ∀ k d, GroupChainUse r.2.chainKey k d → H k d := fun k d hd => by
      rw [groupSkipped_chain hr] at hd
      exact h1 _ (by omega) k d hd
    exact macs_bind (getNext_macs (hlast _ _ .next)) fun _ _ => macs_bind (macs_lift _) fun _ _ =>
      macs_bind (getSenderMessageKey_macs hlast) fun _ _ => macs_pure _

theorem groupCreate_macs (g : GroupStore) (n : SenderKeyName) (r : GroupSessionBuilder.CreateRand) : Macs H (groupCreate tracing g n r) := by
  unfold groupCreate
  exact macs_ite (fun _ => macs_bind (generateKeyPair_macs _) fun _ _ => macs_pure _) fun _ => macs_pure _

theorem agreement_some {t : ECPub} {o : ECPriv} {x : Bytes} (h : (calculateAgreement tracing t o).value = .ok x) : C.dh o t = some x := by
  rw [calculateAgreement_value] at h
  unfold Curve.calculateAgreement at h
  cases hd : C.dh o t with
  | none => rw [hd] at h; cases h
  | some y => rw [hd] at h; rw [Except.ok.inj h]

theorem asBob_macs (s : SessionState) (p : BobParameters)
    (h : ∀ k d, AnswerUse p.ourIdentityKey.priv p.ourSignedPreKey.priv (p.ourOneTimePreKey.map KeyPair.priv) p.theirIdentityKey p.theirBaseKey k d → H k d) :
    Macs H (initializeSessionAsBob tracing s p) := by
  unfold initializeSessionAsBob
  have hs : ∀ x, (bobSecrets tracing p).value = .ok x → ∀ k d, HkdfUse [] x textInfo 64 k d → H k d := by
    intro x hx k d hd
    unfold bobSecrets at hx
    rw [value_bind] at hx
    obtain ⟨d1, e1, hx⟩ := bind_eq_ok.1 hx
    rw [value_bind] at hx
    obtain ⟨d2, e2, hx⟩ := bind_eq_ok.1 hx
    rw [value_bind] at hx
    obtain ⟨d3, e3, hx⟩ := bind_eq_ok.1 hx
    have e1 := agreement_some e1
    have e2 := agreement_some e2
    have e3 := agreement_some e3
    cases ho : p.ourOneTimePreKey with
    | none =>
      rw [ho] at hx
      obtain rfl := Except.ok.inj hx
      exact h k d (.mk e1 e2 e3 (d4 := []) (by rw [ho]; rfl) hd)
    | some o =>
      rw [ho] at hx
      simp only at hx
      rw [value_bind] at hx
      obtain ⟨d4, e4, hx⟩ := bind_eq_ok.1 hx
      obtain rfl := Except.ok.inj hx
      exact h k d (.mk e1 e2 e3 (d4 := d4) (by rw [ho]; exact agreement_some e4) hd)
  refine macs_bind ?_ fun x hx => macs_bind (calculateDerivedKeys_macs (hs x hx)) fun _ _ => macs_bind (macs_lift _) fun _ _ => macs_pure _
  unfold bobSecrets
  refine macs_bind (calculateAgreement_macs ..) fun _ _ => macs_bind (calculateAgreement_macs ..) fun _ _ =>
      macs_bind (calculateAgreement_macs ..) fun _ _ => ?_
  cases p.ourOneTimePreKey with
  | none => exact macs_bind (macs_pure _) fun _ _ => macs_pure _
  | some k => exact macs_bind (calculateAgreement_macs ..) fun _ _ => macs_pure _

theorem asAlice_macs (hC : C.Lawful) (s : SessionState) (p : AliceParameters) (seed : Bytes)
    (h : ∀ k d, BeginUse p.ourIdentityKey.priv p.ourBaseKey.priv (C.genPriv seed) p.theirIdentityKey p.theirSignedPreKey p.theirRatchetKey
      p.theirOneTimePreKey k d → H k d) : Macs H (initializeSessionAsAlice tracing s p seed) := by
  unfold initializeSessionAsAlice
  have hs : ∀ x, (aliceSecrets tracing p).value = .ok x → ∀ k d, HkdfUse [] x textInfo 64 k d ∨ (∃ y, C.dh (C.genPriv seed) p.theirRatchetKey = some y ∧
      HkdfUse ((hkdf [] x textInfo 64).take 32) y ratchetInfo 64 k d) → H k d := by
    intro x hx k d hd
    unfold aliceSecrets at hx
    rw [value_bind] at hx
    obtain ⟨d1, e1, hx⟩ := bind_eq_ok.1 hx
    rw [value_bind] at hx
    obtain ⟨d2, e2, hx⟩ := bind_eq_ok.1 hx
    rw [value_bind] at hx
    obtain ⟨d3, e3, hx⟩ := bind_eq_ok.1 hx
    have e1 := agreement_some e1
    have e2 := agreement_some e2
    have e3 := agreement_some e3
    cases ho : p.theirOneTimePreKey with
    | none =>
      rw [ho] at hx
      obtain rfl := Except.ok.inj hx
      exact h k d (.mk e1 e2 e3 (d4 := []) (by rw [ho]; rfl) rfl hd)
    | some o =>
      rw [ho] at hx
      simp only at hx
      rw [value_bind] at hx
      obtain ⟨d4, e4, hx⟩ := bind_eq_ok.1 hx
      obtain rfl := Except.ok.inj hx
      exact h k d (.mk e1 e2 e3 (d4 := d4) (by rw [ho]; exact agreement_some e4) rfl hd)
  refine macs_bind (generateKeyPair_macs _) fun kp hkp => macs_bind ?_ fun x hx =>
    macs_bind (calculateDerivedKeys_macs fun k d hd => hs x hx k d (Or.inl hd)) fun dk hdk =>
    macs_bind (createChain_macs ?_ fun y hy k d hd => hs x hx k d (Or.inr ⟨y, ?_, ?_⟩)) fun _ _ =>
    macs_bind (macs_lift _) fun _ _ => macs_bind (macs_lift _) fun _ _ => macs_pure _
  · unfold aliceSecrets
    refine macs_bind (calculateAgreement_macs ..) fun _ _ => macs_bind (calculateAgreement_macs ..) fun _ _ =>
        macs_bind (calculateAgreement_macs ..) fun _ _ => ?_
    cases p.theirOneTimePreKey with
    | none => exact macs_bind (macs_pure _) fun _ _ => macs_pure _
    | some k => exact macs_bind (calculateAgreement_macs ..) fun _ _ => macs_pure _
  · rw [calculateDerivedKeys_value] at hdk
    obtain rfl := Except.ok.inj hdk
    rfl
  · rw [generateKeyPair_value] at hkp
    obtain rfl := Except.ok.inj hkp
    exact hy
  · rw [calculateDerivedKeys_value] at hdk
    obtain rfl := Except.ok.inj hdk
    have := (C11_library_sizes hC.hmac_len x textInfo []).2.1
    rw [← this]
    have hl := C11_length hC.hmac_len .v3 x textInfo 64 []
    have hsp := split2_append ((Kdf.v3.deriveSecrets x textInfo 64 []).take 32) ((Kdf.v3.deriveSecrets x textInfo 64 []).drop 32)
    rw [List.take_append_drop, List.length_take, List.length_drop, hl] at hsp
    have hk : (RatchetingSession.calculateDerivedKeys x).1.key = (Kdf.v3.deriveSecrets x textInfo 64 []).take 32 := congrArg Prod.fst hsp
    rwa [hk] at hd

end Work
end
end Axolotl
