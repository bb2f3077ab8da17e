import Verif.Proofs.Reach
import Verif.Spec.Session
import Verif.Spec.Version2
import Verif.Props.Hkdf

/-! The model's key schedule is the specified one, for version-3 sessions. -/

namespace Axolotl
open ByteUtil

theorem split3_sizes (x : Bytes) (h : x.length = 80) :
    split3 x 32 32 16 = (x.take 32, (x.drop 32).take 32, x.drop 64) := by
  have e : x = x.take 32 ++ (x.drop 32).take 32 ++ x.drop 64 := by
    have h1 : x.drop 64 = (x.drop 32).drop 32 := by rw [List.drop_drop]
    rw [h1, List.append_assoc, List.take_append_drop, List.take_append_drop]
  have := split3_append (x.take 32) ((x.drop 32).take 32) (x.drop 64)
  rw [← e] at this
  have l1 : (x.take 32).length = 32 := by rw [List.length_take]; omega
  have l2 : ((x.drop 32).take 32).length = 32 := by rw [List.length_take, List.length_drop]; omega
  have l3 : (x.drop 64).length = 16 := by rw [List.length_drop]; omega
  rw [l1, l2, l3] at this
  exact this

theorem split2_sizes (x : Bytes) (h : x.length = 64) : split2 x 32 32 = (x.take 32, x.drop 32) := by
  have := split2_append (x.take 32) (x.drop 32)
  rw [List.take_append_drop] at this
  have l1 : (x.take 32).length = 32 := by rw [List.length_take]; omega
  have l2 : (x.drop 32).length = 32 := by rw [List.length_drop]; omega
  rw [l1, l2] at this
  exact this

theorem messageKeysInfo_eq : ChainKey.MESSAGE_KEYS_INFO = Spec.messageKeysInfo := by decide
theorem ratchetInfo_eq : RootKey.RATCHET_INFO = Spec.ratchetInfo := by decide

section
variable [C : Crypto]

theorem iter_key (c : ChainKey) (n : Nat) : (c.iter n).key = Spec.chainAt c.key n := by
  induction n with
  | zero => rfl
  | succ n ih =>
    show C.hmac (c.iter n).key _ = C.hmac _ _
    rw [ih]
    rfl

theorem chainAt_add (k : Bytes) (a b : Nat) : Spec.chainAt (Spec.chainAt k a) b = Spec.chainAt k (a + b) := by
  induction b with
  | zero => rfl
  | succ n ih => show C.hmac _ _ = C.hmac _ _; rw [ih]; rfl

theorem getMessageKeys_v3 (hlen : ∀ k m, (C.hmac k m).length = 32) (c : ChainKey) (hv : c.kdf = .v3) :
    c.getMessageKeys = { cipherKey := Spec.cipherKeyOf c.key, macKey := Spec.macKeyOf c.key,
                         iv := Spec.ivOf c.key, counter := c.index } := by
  unfold ChainKey.getMessageKeys
  simp only [hv, DerivedMessageSecrets.SIZE]
  rw [split3_sizes _ (C11_length hlen _ _ _ _ _), (C11_library_sizes hlen _ _ _).1, messageKeysInfo_eq]
  rfl

theorem createChain_v3 (hlen : ∀ k m, (C.hmac k m).length = 32) {root : Bytes} {p : ECPub} {k : KeyPair} :
    RootKey.createChain ⟨.v3, root⟩ p k =
      match C.dh k.priv p with
      | none => .error .valueError
      | some sec => .ok (⟨.v3, Spec.ratchetRoot root sec⟩, ⟨.v3, Spec.ratchetChain root sec, 0⟩) := by
  unfold RootKey.createChain Curve.calculateAgreement
  cases C.dh k.priv p with
  | none => rfl
  | some sec =>
    simp only [ok_bind, DerivedRootSecrets.SIZE]
    rw [split2_sizes _ (C11_length hlen _ _ _ _ _), (C11_library_sizes hlen _ _ _).2.1, ratchetInfo_eq]
    rfl

omit C in
theorem createFor_three {s : SessionState} (h : s.sessionVersion = some 3) :
    Kdf.createFor (SessionState.getSessionVersion s) = .ok .v3 := by
  unfold SessionState.getSessionVersion
  rw [h]
  rfl

/-! ### Version 2, and both versions at once -/

theorem expandLoop_eq2 (hlen : ∀ k m, (C.hmac k m).length = 32) (prk info : Bytes) :
    ∀ n i rem, i + n ≤ 127 →
      Kdf.expandLoop prk info n (i + 1) (Spec.hkdf2T prk info i) rem
        = (((List.range n).map fun j => Spec.hkdf2T prk info (i + j + 1)).flatten).take rem := by
  intro n
  induction n with
  | zero => intro i rem _; simp [Kdf.expandLoop]
  | succ n ih =>
    intro i rem h
    have hT : Crypto.hmac prk (Spec.hkdf2T prk info i ++ info ++ Kdf.chrEncode ((i + 1) % 256))
        = Spec.hkdf2T prk info (i + 1) := by
      rw [Spec.hkdf2T, Nat.mod_eq_of_lt (by omega)]
      simp [Kdf.chrEncode, show i + 1 < 128 by omega]
    simp only [Kdf.expandLoop]
    rw [hT, ih (i + 1) _ (by omega)]
    have hl : (Spec.hkdf2T prk info (i + 1)).length = 32 := by rw [Spec.hkdf2T]; exact hlen _ _
    rw [List.range_succ_eq_map, List.map_cons, List.flatten_cons, List.take_append, hl]
    congr 1
    · by_cases hr : rem ≤ 32
      · rw [Nat.min_eq_left hr]
      · rw [Nat.min_eq_right (by omega), List.take_of_length_le (by omega)]
        simp only [Nat.add_zero]
        rw [List.take_of_length_le (by omega)]
    · have : rem - min rem 32 = rem - 32 := by omega
      rw [this, List.map_map]
      have : ((fun j => Spec.hkdf2T prk info (i + j + 1)) ∘ Nat.succ)
          = fun j => Spec.hkdf2T prk info (i + 1 + j + 1) := by
        funext j
        simp only [Function.comp]
        congr 1
        omega
      rw [this]

/-- Up to 127 blocks the key derivation of version 2 is HKDF with blocks numbered from 0. -/
theorem hkdf2_eq (hlen : ∀ k m, (C.hmac k m).length = 32) (ikm info salt : Bytes) (L : Nat) (hL : L ≤ 127 * 32) (h0 : 0 < L) :
    Kdf.v2.deriveSecrets ikm info L salt = Spec.hkdf2 salt ikm info L := by
  unfold Kdf.deriveSecrets Kdf.expand Spec.hkdf2 Kdf.extract
  simp only [Kdf.startOffset, Kdf.HASH_OUTPUT_SIZE]
  generalize Crypto.hmac (if salt = [] then List.replicate 32 0 else salt) ikm = prk
  obtain ⟨n, hn⟩ : ∃ n, (L + 31) / 32 = n + 1 := ⟨(L + 31) / 32 - 1, by omega⟩
  rw [hn]
  simp only [Kdf.expandLoop]
  have e0 : Crypto.hmac prk ([] ++ info ++ Kdf.chrEncode (0 % 256)) = Spec.hkdf2T prk info 0 := by
    rw [Spec.hkdf2T]; rfl
  rw [e0, expandLoop_eq2 hlen prk info n 0 _ (by omega)]
  have hl : (Spec.hkdf2T prk info 0).length = 32 := hlen _ _
  rw [List.range_succ_eq_map, List.map_cons, List.flatten_cons, List.take_append, hl, List.map_map]
  have e1 : ((fun j => Spec.hkdf2T prk info j) ∘ Nat.succ) = fun j => Spec.hkdf2T prk info (0 + j + 1) := by
    funext j; simp only [Function.comp, Nat.zero_add]
  rw [e1]
  congr 1
  · by_cases hr : L ≤ 32
    · rw [Nat.min_eq_left hr]
    · rw [Nat.min_eq_right (by omega), List.take_of_length_le (by omega), List.take_of_length_le (by omega)]
  · rw [show L - min L 32 = L - 32 by omega]

/-- The number of a version. -/
def Kdf.number : Kdf → Nat
  | .v2 => 2
  | .v3 => 3

/-- Message keys of a chain key, in either version. -/
def cipherOf : Kdf → Bytes → Bytes
  | .v2 => Spec.cipherKeyOf2
  | .v3 => Spec.cipherKeyOf

def macOf : Kdf → Bytes → Bytes
  | .v2 => Spec.macKeyOf2
  | .v3 => Spec.macKeyOf

def ivecOf : Kdf → Bytes → Bytes
  | .v2 => Spec.ivOf2
  | .v3 => Spec.ivOf

/-- A ratchet step, in either version. -/
def rootOf : Kdf → Bytes → Bytes → Bytes
  | .v2 => Spec.ratchetRoot2
  | .v3 => Spec.ratchetRoot

def chainOf : Kdf → Bytes → Bytes → Bytes
  | .v2 => Spec.ratchetChain2
  | .v3 => Spec.ratchetChain

theorem getMessageKeys_v2 (hlen : ∀ k m, (C.hmac k m).length = 32) (c : ChainKey) (hv : c.kdf = .v2) :
    c.getMessageKeys = { cipherKey := Spec.cipherKeyOf2 c.key, macKey := Spec.macKeyOf2 c.key,
                         iv := Spec.ivOf2 c.key, counter := c.index } := by
  unfold ChainKey.getMessageKeys
  simp only [hv, DerivedMessageSecrets.SIZE]
  rw [split3_sizes _ (C11_length hlen _ _ _ _ _), hkdf2_eq hlen _ _ _ _ (by omega) (by omega), messageKeysInfo_eq]
  rfl

theorem getMessageKeys_of (hlen : ∀ k m, (C.hmac k m).length = 32) {v : Kdf} (c : ChainKey) (hv : c.kdf = v) :
    c.getMessageKeys = { cipherKey := cipherOf v c.key, macKey := macOf v c.key, iv := ivecOf v c.key, counter := c.index } := by
  cases v
  · exact getMessageKeys_v2 hlen c hv
  · exact getMessageKeys_v3 hlen c hv

theorem createChain_of (hlen : ∀ k m, (C.hmac k m).length = 32) {v : Kdf} {root : Bytes} {p : ECPub} {k : KeyPair} :
    RootKey.createChain ⟨v, root⟩ p k =
      match C.dh k.priv p with
      | none => .error .valueError
      | some sec => .ok (⟨v, rootOf v root sec⟩, ⟨v, chainOf v root sec, 0⟩) := by
  cases v
  · unfold RootKey.createChain Curve.calculateAgreement
    cases C.dh k.priv p with
    | none => rfl
    | some sec =>
      simp only [ok_bind, DerivedRootSecrets.SIZE]
      rw [split2_sizes _ (C11_length hlen _ _ _ _ _), hkdf2_eq hlen _ _ _ _ (by omega) (by omega), ratchetInfo_eq]
      rfl
  · exact createChain_v3 hlen

omit C in
theorem createFor_number (v : Kdf) : Kdf.createFor v.number = .ok v := by cases v <;> rfl

theorem cipherOf_len (hlen : ∀ k m, (C.hmac k m).length = 32) (v : Kdf) (k : Bytes) : (cipherOf v k).length = 32 := by
  cases v
  · show (Spec.cipherKeyOf2 k).length = 32
    unfold Spec.cipherKeyOf2 Spec.messageOkm2
    rw [List.length_take, ← hkdf2_eq hlen _ _ _ _ (by omega) (by omega), C11_length hlen]; omega
  · show (Spec.cipherKeyOf k).length = 32
    unfold Spec.cipherKeyOf Spec.messageOkm
    rw [List.length_take, ← (C11_library_sizes hlen _ _ _).1, C11_length hlen]; omega

theorem ivecOf_len (hlen : ∀ k m, (C.hmac k m).length = 32) (v : Kdf) (k : Bytes) : (ivecOf v k).length = 16 := by
  cases v
  · show (Spec.ivOf2 k).length = 16
    unfold Spec.ivOf2 Spec.messageOkm2
    rw [List.length_drop, ← hkdf2_eq hlen _ _ _ _ (by omega) (by omega), C11_length hlen]
  · show (Spec.ivOf k).length = 16
    unfold Spec.ivOf Spec.messageOkm
    rw [List.length_drop, ← (C11_library_sizes hlen _ _ _).1, C11_length hlen]

/-- A verified MAC, in plain terms. -/
theorem verifyMac_ok (hlen : ∀ k m, (C.hmac k m).length = 32) {m : WhisperMessage} {v : Nat} {a b : ECPub}
    {k : Bytes} (h : m.verifyMac v a b k = .ok ()) (hv : 3 ≤ v) :
    ∃ body mac, m.serialized = body ++ mac ∧ mac.length = 8 ∧
      mac = (C.hmac k ((5 :: a) ++ (5 :: b) ++ body)).take 8 := by
  unfold WhisperMessage.verifyMac at h
  simp only at h
  split at h
  · cases h
  · rename_i hne
    have he := Classical.not_not.1 hne
    have hl : (split2 m.serialized ((m.serialized.length : Int) - WhisperMessage.MAC_LENGTH)
        WhisperMessage.MAC_LENGTH).2.length = 8 := by
      rw [← he]; exact getMac_length hlen _ _ _ _ _
    by_cases hlong : 8 ≤ m.serialized.length
    · have hsplit : split2 m.serialized ((m.serialized.length : Int) - WhisperMessage.MAC_LENGTH)
          WhisperMessage.MAC_LENGTH =
          (m.serialized.take (m.serialized.length - 8), m.serialized.drop (m.serialized.length - 8)) := by
        have hd : (m.serialized.drop (m.serialized.length - 8)).length = 8 := by rw [List.length_drop]; omega
        have := split2_tail (m.serialized.take (m.serialized.length - 8))
          (m.serialized.drop (m.serialized.length - 8)) 8 hd
        rw [List.take_append_drop] at this
        exact this
      rw [hsplit] at he
      refine ⟨_, _, (List.take_append_drop (m.serialized.length - 8) m.serialized).symm,
        by rw [List.length_drop]; omega, ?_⟩
      refine he.symm.trans ?_
      unfold WhisperMessage.getMac
      rw [if_pos hv]
      exact trim_eq_take (by rw [hlen]; simp [WhisperMessage.MAC_LENGTH])
    · exfalso
      unfold split2 pySlice at hl
      simp only [List.length_drop, List.length_take] at hl
      have := Nat.min_le_right (pyIdx m.serialized.length
        ((m.serialized.length : Int) - WhisperMessage.MAC_LENGTH + WhisperMessage.MAC_LENGTH)) m.serialized.length
      omega

end
end Axolotl
