import Verif.Props.Session
import Verif.Proofs.ConvWorld
import Verif.Example

/-!
# C33: two concurrent `encrypt` calls

`encrypt` loads the session record, computes, and stores the record.  Two calls on two threads interleave at these two
store accesses.
-/

namespace Axolotl
section
variable [C : Crypto]
open SessionState SessionBuilder Spec

/-- One store access of one of the two threads. -/
inductive Spec.Access where
  | load (thread : Bool)
  | store (thread : Bool)
  deriving DecidableEq, Repr

/-- The store accesses happen in the given order. `seen` is what the threads have loaded. Returns what each thread's
`encrypt` returns, in the order in which they finish. -/
def Spec.interleaved (a : Address) (text : Bool → Bytes) :
    World → (Bool → World) → List Access → List (Res Ciphertext)
  | _, _, [] => []
  | w, seen, .load t :: l => interleaved a text w (upd seen t w) l
  | w, seen, .store t :: l =>
    let o := SessionCipher.encrypt (seen t) a (text t)
    o.result :: interleaved a text (o.final w) seen l

/-- The interleavings: each thread loads once and then stores once. -/
inductive Spec.Schedule : List Access → Prop
  | serial (t : Bool) : Schedule [.load t, .store t, .load (!t), .store (!t)]
  | overlap (t u : Bool) : Schedule [.load t, .load (!t), .store u, .store (!u)]

/-- One after the other, the two messages have different counters on the same chain, and the chain key of the second
is one HMAC step further. -/
theorem C33_serial_partial (w w0 : World) (a : Address) (text : Bool → Bytes) (t : Bool) (c c' : Ciphertext)
    (h : interleaved a text w (fun _ => w0) [.load t, .store t, .load (!t), .store (!t)] = [.ok c, .ok c']) :
    c'.inner.counter = c.inner.counter + 1 ∧ c'.inner.senderRatchetKey = c.inner.senderRatchetKey := by
  simp only [interleaved, upd, if_true, List.cons.injEq, and_true] at h
  obtain ⟨h1, h2⟩ := h
  obtain ⟨r', hw, hcnt, hkey, hcnt', _, hsame, _⟩ := C16_encrypt w a _ c h1
  have hload : ((SessionCipher.encrypt w a (text t)).final w).loadSession a = { r' with fresh := false } := by
    unfold Outcome.final
    rw [hw]
    simp [World.loadSession, World.applyAll, World.apply, upd]
  obtain ⟨_, _, hcnt2, hkey2, _⟩ := C16_encrypt _ a _ c' h2
  rw [hload] at hcnt2 hkey2
  refine ⟨?_, ?_⟩
  · rw [hcnt2, hcnt]; exact hcnt'
  · have h3 : (r'.sessionState.senderChain.map fun c => { c with chainKey := none }) =
        ((w.loadSession a).sessionState.senderChain.map fun c => { c with chainKey := none }) :=
      congrArg SessionS.senderChain hsame
    have h4 : (r'.sessionState.senderChain.getD {}).senderRatchetKey =
        ((w.loadSession a).sessionState.senderChain.getD {}).senderRatchetKey := by
      cases hr : r'.sessionState.senderChain with
      | none =>
        rw [hr] at h3
        cases hs : (w.loadSession a).sessionState.senderChain with
        | none => rfl
        | some y => rw [hs] at h3; cases h3
      | some x =>
        rw [hr] at h3
        cases hs : (w.loadSession a).sessionState.senderChain with
        | none => rw [hs] at h3; cases h3
        | some y =>
          rw [hs] at h3
          simp only [Option.map_some, Option.some.injEq] at h3
          have := congrArg ChainS.senderRatchetKey h3
          exact this
    rw [h4, hkey] at hkey2
    exact (Except.ok.inj hkey2).symm

theorem create_ciphertext {v : Nat} {mk : Bytes} {rk : ECPub} {c pc : Nat} {ct : Bytes} {a b : ECPub}
    {m : WhisperMessage} (h : WhisperMessage.create v mk rk c pc ct a b = .ok m) : m.ciphertext = ct := by
  unfold WhisperMessage.create at h
  simp only at h
  obtain ⟨c', _, h⟩ := bind_eq_ok.1 h
  obtain ⟨pc', _, h⟩ := bind_eq_ok.1 h
  replace h := Except.ok.inj h
  rw [← h]

/-- What `encrypt` returns is AES-CBC under keys computed from the loaded state only. -/
theorem encrypt_key (w : World) (a : Address) : ∃ key iv, ∀ pt c, (SessionCipher.encrypt w a pt).result = .ok c →
    AES.encrypt key iv pt = .ok c.inner.ciphertext := by
  cases hk : Kdf.createFor (getSessionVersion (w.loadSession a).sessionState) with
  | error e =>
    refine ⟨[], [], fun pt c h => ?_⟩
    obtain ⟨⟨c', s'⟩, h1, _⟩ := bind_eq_ok.1 (Outcome.ofRes_ok h)
    obtain ⟨kdf, _, _, _, _, _, h2, _⟩ := SessionCipher.ews_ok h1
    rw [hk] at h2; cases h2
  | ok kdf =>
    refine ⟨(ChainKey.getMessageKeys ⟨kdf, SessionState.sendKey (w.loadSession a).sessionState,
        SessionState.sendIndex (w.loadSession a).sessionState⟩).cipherKey,
      (ChainKey.getMessageKeys ⟨kdf, SessionState.sendKey (w.loadSession a).sessionState,
        SessionState.sendIndex (w.loadSession a).sessionState⟩).iv, fun pt c h => ?_⟩
    obtain ⟨⟨c', s'⟩, h1, h3⟩ := bind_eq_ok.1 (Outcome.ofRes_ok h)
    have h3 := (Prod.mk.inj (Except.ok.inj h3)).2
    have h3 : c' = c := h3
    rw [h3] at h1
    obtain ⟨kdf', _, body, _, _, m, h2, _, hb, _, _, hm, hc, _⟩ := SessionCipher.ews_ok h1
    have h2 := hk.symm.trans h2
    have h2 := Except.ok.inj h2
    rw [← h2] at hb
    have hbody : m.ciphertext = body := create_ciphertext hm
    rw [hc, hbody]
    exact hb

/-- **C33 is false, for every session**: when both threads load before either stores, the two messages carry the same
ratchet key and the same counter, and are encrypted with the same cipher key and IV. -/
theorem C33_overlap_reuses (w w0 : World) (a : Address) (text : Bool → Bytes) (t u : Bool) (c c' : Ciphertext)
    (h : interleaved a text w (fun _ => w0) [.load t, .load (!t), .store u, .store (!u)] = [.ok c, .ok c']) :
    c'.inner.counter = c.inner.counter ∧ c'.inner.senderRatchetKey = c.inner.senderRatchetKey ∧
    ∃ key iv, AES.encrypt key iv (text u) = .ok c.inner.ciphertext ∧
      AES.encrypt key iv (text (!u)) = .ok c'.inner.ciphertext := by
  have hseen : ∀ x, (upd (upd (fun _ => w0) t w) (!t) w) x = w := by
    intro x
    unfold upd
    cases x <;> cases t <;> rfl
  simp only [interleaved, hseen, List.cons.injEq, and_true] at h
  obtain ⟨h1, h2⟩ := h
  obtain ⟨_, _, hcnt, hkey, _⟩ := C16_encrypt w a _ c h1
  obtain ⟨_, _, hcnt2, hkey2, _⟩ := C16_encrypt w a _ c' h2
  rw [hkey] at hkey2
  obtain ⟨key, iv, hk⟩ := encrypt_key w a
  exact ⟨by rw [hcnt, hcnt2], (Except.ok.inj hkey2).symm, key, iv, hk _ _ h1, hk _ _ h2⟩

/-- Over all interleavings: the two messages share a header exactly when the calls overlap. -/
theorem C33_exact_partial (w w0 : World) (a : Address) (text : Bool → Bytes) (l : List Access) (hl : Schedule l)
    (c c' : Ciphertext) (h : interleaved a text w (fun _ => w0) l = [.ok c, .ok c']) :
    (c'.inner.senderRatchetKey, c'.inner.counter) ≠ (c.inner.senderRatchetKey, c.inner.counter) ↔
      ∃ t, l = [.load t, .store t, .load (!t), .store (!t)] := by
  cases hl with
  | serial t =>
    obtain ⟨h1, _⟩ := C33_serial_partial w w0 a text t c c' h
    refine ⟨fun _ => ⟨t, rfl⟩, fun _ he => ?_⟩
    injection he with _ he
    omega
  | overlap t u =>
    obtain ⟨h1, h2, _⟩ := C33_overlap_reuses w w0 a text t u c c' h
    refine ⟨fun hne => absurd (by rw [h1, h2]) hne, ?_⟩
    rintro ⟨t', ht⟩
    simp at ht

end

/-! ## Example -/

namespace Example
attribute [local instance] toy
open Spec

/-- Two threads of Alice write to Bob; both succeed under every interleaving. -/
def twoTexts : Bool → Bytes := fun b => if b then [1, 2, 3] else [4, 5]

example : ∀ t : Bool, (interleaved bobAddr twoTexts alice1 (fun _ => alice1) [.load t, .store t, .load (!t), .store (!t)]).map
    (fun x => x.toOption.map fun c => c.inner.counter) = [some 0, some 1] := by decide +kernel

/-- **C33 is false.** -/
theorem C33_false : ∃ l, Schedule l ∧
    (interleaved bobAddr twoTexts alice1 (fun _ => alice1) l).map
      (fun x => x.toOption.map fun c => (c.inner.senderRatchetKey, c.inner.counter)) =
    [some (key 42, 0), some (key 42, 0)] :=
  ⟨_, .overlap true false, by decide +kernel⟩

end Example
end Axolotl
