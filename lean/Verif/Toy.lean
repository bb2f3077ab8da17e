import Verif.Model.Crypto

/-!
# A concrete instance of the crypto interface

Used only to show that hypotheses are satisfiable and to exhibit counterexamples.  It is lawful in the
sense of `Crypto.Lawful` and small enough for the kernel to evaluate.  It is of course not secure.
-/

namespace Axolotl.Toy

/-- polynomial hash of a byte string -/
def mix (bs : Bytes) : Nat := bs.foldl (fun h b => (h * 1000003 + b.toNat + 1) % 2 ^ 64) 7

/-- 32 bytes out of a number -/
def stretch (h : Nat) : Bytes := (List.range 32).map fun i => UInt8.ofNat (h * (2 * i + 1) / 2 ^ 16 % 256)

def hmac (k m : Bytes) : Bytes := stretch (mix (k ++ 0 :: m))

/-- symmetric: xor of the two keys -/
def dh (a b : Bytes) : Option Bytes :=
  if a.length = 32 ∧ b.length = 32 then some (List.zipWith (· ^^^ ·) a b) else none

def tag (k m : Bytes) : Bytes := hmac k m ++ hmac m k

def verify (k m s : Bytes) : Option Bool := if k.length = 32 ∧ s.length = 64 then some (s == tag k m) else none

def sign (k m : Bytes) : Option Bytes := if k.length = 32 then some (tag k m) else none

end Toy

/-- private key = public key = seed -/
@[reducible] def toy : Crypto where
  hmac := Toy.hmac
  genPriv := id
  genPub := id
  dh := Toy.dh
  verifySig := Toy.verify
  calcSig := fun _ k m => Toy.sign k m
  aesEnc := fun _ b => b.map (· + 3)
  aesDec := fun _ b => b.map (· - 3)

theorem Toy.hmac_length (k m : Bytes) : (Toy.hmac k m).length = 32 := by simp [Toy.hmac, Toy.stretch]

theorem Toy.tag_length (k m : Bytes) : (Toy.tag k m).length = 64 := by
  simp [Toy.tag, Toy.hmac_length]

theorem toy_lawful : toy.Lawful where
  hmac_len := Toy.hmac_length
  genPriv_len := by intro r h; exact h
  genPub_len := by intro r h; exact h
  dh_comm := by
    intro a b ha hb
    refine ⟨List.zipWith (· ^^^ ·) a b, ?_, ?_⟩
    · show Toy.dh a b = _
      simp [Toy.dh, ha, hb]
    · show Toy.dh b a = _
      simp only [Toy.dh, ha, hb, and_self, if_true]
      congr 1
      rw [List.zipWith_comm]
      congr 1
      funext x y
      exact UInt8.xor_comm _ _
  dh_size := by
    intro a b s h
    change Toy.dh a b = some s at h
    unfold Toy.dh at h
    split at h
    · rename_i h'; exact h'
    · cases h
  dh_total := by
    intro a b ha hb
    refine ⟨List.zipWith (· ^^^ ·) a b, ?_⟩
    show Toy.dh a b = _
    simp [Toy.dh, ha, hb]
  sig_ok := by
    intro r k m _ hg
    have hk : k.length = 32 := hg.1
    refine ⟨Toy.tag k m, ?_, Toy.tag_length k m, ?_⟩
    · show Toy.sign k m = _
      simp [Toy.sign, hk]
    · show Toy.verify k m _ = _
      simp [Toy.verify, hk, Toy.tag_length]
  sig_size := by
    intro r k m s h
    change Toy.sign k m = some s at h
    unfold Toy.sign at h
    split at h
    · rename_i hk
      injection h with h
      exact ⟨hk, by rw [← h]; exact Toy.tag_length k m⟩
    · cases h
  verify_len := by
    intro k m s b h
    change Toy.verify k m s = some b at h
    unfold Toy.verify at h
    split at h
    · rename_i h'; exact h'.2
    · cases h
  aes_len := by
    intro k b h
    show (List.map (· + 3) b).length = 16
    simp [h]
  aes_dec_len := by
    intro k b h
    show (List.map (· - 3) b).length = 16
    simp [h]
  aes_dec_enc := by
    intro k b _
    show List.map (· - 3) (List.map (· + 3) b) = b
    rw [List.map_map]
    conv => rhs; rw [← List.map_id b]
    congr 1
    funext x
    simp

theorem toy_generated (k : Bytes) (h : k.length = 32) : toy.Generated k := ⟨h, k, rfl⟩

end Axolotl
