import Verif.Model.Keys
import Verif.Proofs.Messages
import Verif.Toy

/-! # C47, C48: generated identifiers and signed prekeys -/

namespace Axolotl

/-- The id after `id` in the cycle 1, 2, ..., 0xFFFFFE, 1, ... -/
def Spec.nextPreKeyId (id : Nat) : Nat := if id = 0xFFFFFE then 1 else id + 1

namespace KeyHelper

theorem preKeyIdAt_range (start : Int) (i : Nat) :
    1 ≤ preKeyIdAt start i ∧ preKeyIdAt start i ≤ 0xFFFFFE := by
  unfold preKeyIdAt Medium.MAX_VALUE
  omega

theorem preKeyIdAt_succ (start : Int) (i : Nat) :
    (preKeyIdAt start (i + 1)).toNat = Spec.nextPreKeyId (preKeyIdAt start i).toNat := by
  unfold Spec.nextPreKeyId preKeyIdAt Medium.MAX_VALUE
  split <;> omega

theorem preKeyIdAt_inj (start : Int) {i j n : Nat} (hn : n ≤ 0xFFFFFE) (hi : i < n) (hj : j < n)
    (h : preKeyIdAt start i = preKeyIdAt start j) : i = j := by
  unfold preKeyIdAt Medium.MAX_VALUE at h
  omega

end KeyHelper

theorem mapM_ok {α β : Type} (f : α → Res β) (g : α → β) (l : List α) (h : ∀ a ∈ l, f a = .ok (g a)) :
    l.mapM f = .ok (l.map g) := by
  induction l with
  | nil => rfl
  | cons a l ih =>
    rw [List.mapM_cons, h a (by simp), ih (fun b hb => h b (by simp [hb]))]
    rfl

section
variable [C : Crypto]

/-- **C47.** Exactly `count` records are generated; their ids lie between 1 and 0xFFFFFE (so never the
reserved 0xFFFFFF), each is the cyclic successor of the one before, the first is `start` whenever that is
a legal id, and they are pairwise distinct up to a full cycle. -/
theorem C47_prekey_ids (start : Int) (count : Nat) (seeds : Nat → Bytes) :
    ∃ rs, KeyHelper.generatePreKeys start count seeds = .ok rs ∧ rs.length = count ∧
      (∀ r ∈ rs, 1 ≤ PreKeyRecord.getId r ∧ PreKeyRecord.getId r ≤ 0xFFFFFE) ∧
      (∀ i a b, rs[i]? = some a → rs[i + 1]? = some b →
        PreKeyRecord.getId b = Spec.nextPreKeyId (PreKeyRecord.getId a)) ∧
      (1 ≤ start → start ≤ 0xFFFFFE → ∀ a, rs[0]? = some a → (PreKeyRecord.getId a : Int) = start) ∧
      (count ≤ 0xFFFFFE → (rs.map PreKeyRecord.getId).Nodup) := by
  let g : Nat → PreKeyRecord := fun i =>
    { id := some (KeyHelper.preKeyIdAt start i).toNat,
      publicKey := some (Curve.serializePoint (Curve.generateKeyPair (seeds i)).pub),
      privateKey := some (Curve.generateKeyPair (seeds i)).priv }
  have hg : ∀ i, PreKeyRecord.mk' (KeyHelper.preKeyIdAt start i) (Curve.generateKeyPair (seeds i))
      = .ok (g i) := by
    intro i
    unfold PreKeyRecord.mk'
    have h := KeyHelper.preKeyIdAt_range start i
    have : chkU32 (KeyHelper.preKeyIdAt start i) = .ok (KeyHelper.preKeyIdAt start i).toNat := by
      rw [chkU32_eq_ok]; omega
    rw [this]
    rfl
  have hget : ∀ i a, ((List.range count).map g)[i]? = some a → i < count ∧ a = g i := by
    intro i a h
    rw [List.getElem?_map] at h
    by_cases hi : i < count
    · simp [hi] at h; exact ⟨hi, h.symm⟩
    · simp [hi] at h
  refine ⟨(List.range count).map g, mapM_ok _ g _ (fun i _ => hg i), by simp, ?_, ?_, ?_, ?_⟩
  · intro r hr
    obtain ⟨i, _, rfl⟩ := List.mem_map.1 hr
    have h := KeyHelper.preKeyIdAt_range start i
    simp only [PreKeyRecord.getId, g, Option.getD_some]
    omega
  · intro i a b ha hb
    obtain ⟨_, rfl⟩ := hget i a ha
    obtain ⟨_, rfl⟩ := hget (i + 1) b hb
    exact KeyHelper.preKeyIdAt_succ start i
  · intro h1 h2 a ha
    obtain ⟨_, rfl⟩ := hget 0 a ha
    simp only [PreKeyRecord.getId, g, Option.getD_some, KeyHelper.preKeyIdAt, Medium.MAX_VALUE]
    omega
  · intro hc
    rw [List.map_map]
    refine List.pairwise_map.2 ?_
    refine List.Pairwise.imp_of_mem ?_ (List.nodup_range (n := count))
    intro i j hi hj hne h
    apply hne
    have h1 := KeyHelper.preKeyIdAt_range start i
    have h2 := KeyHelper.preKeyIdAt_range start j
    refine KeyHelper.preKeyIdAt_inj start hc (List.mem_range.1 hi) (List.mem_range.1 hj) ?_
    simp only [Function.comp, PreKeyRecord.getId, g, Option.getD_some] at h
    omega

/-- Each record holds the key pair generated for it. -/
theorem C47_prekey_keys (start : Int) (count : Nat) (seeds : Nat → Bytes)
    (hl : ∀ i, (Curve.generateKeyPair (seeds i)).pub.length ≤ 32) (rs : List PreKeyRecord)
    (h : KeyHelper.generatePreKeys start count seeds = .ok rs) (i : Nat) (r : PreKeyRecord)
    (hr : rs[i]? = some r) : PreKeyRecord.getKeyPair r = .ok (Curve.generateKeyPair (seeds i)) := by
  have hg : ∀ i, PreKeyRecord.mk' (KeyHelper.preKeyIdAt start i) (Curve.generateKeyPair (seeds i))
      = .ok { id := some (KeyHelper.preKeyIdAt start i).toNat,
              publicKey := some (Curve.serializePoint (Curve.generateKeyPair (seeds i)).pub),
              privateKey := some (Curve.generateKeyPair (seeds i)).priv } := by
    intro i
    unfold PreKeyRecord.mk'
    have h := KeyHelper.preKeyIdAt_range start i
    have : chkU32 (KeyHelper.preKeyIdAt start i) = .ok (KeyHelper.preKeyIdAt start i).toNat := by
      rw [chkU32_eq_ok]; omega
    rw [this]
    rfl
  unfold KeyHelper.generatePreKeys at h
  rw [mapM_ok _ _ _ (fun i _ => hg i)] at h
  injection h with h
  subst h
  rw [List.getElem?_map] at hr
  by_cases hi : i < count
  · simp [hi] at hr
    subst hr
    unfold PreKeyRecord.getKeyPair
    simp only [Option.getD_some]
    rw [decodePoint_serializePoint (hl i)]
    rfl
  · simp [hi] at hr

omit C in
/-- The wrap-around in a concrete case: ids 0xFFFFFD, 0xFFFFFE, 1, 2. -/
example : (List.range 4).map (KeyHelper.preKeyIdAt 0xFFFFFD) = [0xFFFFFD, 0xFFFFFE, 1, 2] := by decide

omit C in
/-- **C48.** Registration ids are in the documented range and fit the `uint32` wire fields. -/
theorem C48_registration_id (extended : Bool) (rnd : Nat) (h : rnd < KeyHelper.registrationIdMax extended) :
    1 ≤ KeyHelper.generateRegistrationId rnd ∧
      KeyHelper.generateRegistrationId rnd ≤ (if extended then 2147483646 else 16380) ∧
      chkU32 (KeyHelper.generateRegistrationId rnd) = .ok (KeyHelper.generateRegistrationId rnd) := by
  unfold KeyHelper.registrationIdMax at h
  unfold KeyHelper.generateRegistrationId
  refine ⟨by omega, by split at h <;> simp_all <;> omega, chkU32_ok ?_⟩
  split at h <;> omega

example := C48_registration_id true 2147483645 (by decide)

/-- **C48.** A generated signed prekey stores the key pair, id and time it was made with, and its
signature verifies under the identity key over the encoded public key. -/
theorem C48_signed_prekey (hC : C.Lawful) (identityPriv : ECPriv) (hid : C.Generated identityPriv)
    (id now : Nat) (hi : id < 2 ^ 32) (hn : now < 2 ^ 64) (seed rand : Bytes) (hs : seed.length = 32)
    (hr : rand.length = 64) :
    ∃ r, KeyHelper.generateSignedPreKey ⟨C.genPub identityPriv, identityPriv⟩ id now seed rand = .ok r ∧
      SignedPreKeyRecord.getKeyPair r = .ok (Curve.generateKeyPair seed) ∧
      SignedPreKeyRecord.getId r = id ∧ SignedPreKeyRecord.getTimestamp r = now ∧
      Curve.verifySignature (C.genPub identityPriv)
        (Curve.serializePoint (Curve.generateKeyPair seed).pub) (SignedPreKeyRecord.getSignature r)
        = .ok true := by
  obtain ⟨sig, h1, _, h3⟩ := hC.sig_ok rand identityPriv
    (Curve.serializePoint (Curve.generateKeyPair seed).pub) hr hid
  have hl : (Curve.generateKeyPair seed).pub.length = 32 :=
    hC.genPub_len _ (hC.genPriv_len _ hs)
  refine ⟨{ id := some id, publicKey := some (Curve.serializePoint (Curve.generateKeyPair seed).pub),
            privateKey := some (Curve.generateKeyPair seed).priv, signature := some sig,
            timestamp := some now }, ?_, ?_, rfl, rfl, ?_⟩
  · unfold KeyHelper.generateSignedPreKey Curve.calculateSignature SignedPreKeyRecord.mk'
    simp only [h1, ok_bind, chkU32_ok hi]
    rw [if_pos hn]
  · unfold SignedPreKeyRecord.getKeyPair
    simp only [Option.getD_some]
    rw [decodePoint_serializePoint (by omega)]
    rfl
  · unfold Curve.verifySignature
    simp only [SignedPreKeyRecord.getSignature, Option.getD_some, h3]

example := C48_signed_prekey (C := toy) toy_lawful (List.replicate 32 1) (toy_generated _ (by simp)) 5 1700000000000
  (by omega) (by omega) (List.replicate 32 2) (List.replicate 64 3) (by simp) (by simp)

end
end Axolotl
