import Verif.Spec.Trace
import Verif.Proofs.WorkBound
import Verif.Proofs.Retell
import Verif.Proofs.KeySchedule
import Verif.Proofs.Version2
import Verif.Props.Records

/-!
# What the parts of the calls do with the primitives, in order
-/

namespace Axolotl
namespace Traced
open Fallible Logged Spec

theorem work_pure {α : Type} (a : α) : (pure a : Traced α).work = [] := rfl

theorem work_fail {α : Type} (e : Err) : (fail e : Traced α).work = [] := rfl

theorem work_attempt {α : Type} (x : Traced α) : (attempt x : Traced (Res α)).work = x.work := rfl

theorem work_lift {α : Type} (r : Res α) : (Work.lift r : Traced α).work = [] := by
  cases r <;> rfl

theorem work_ok {α β : Type} {x : Traced α} {f : α → Traced β} {a : α} (h : x.value = .ok a) :
    (x >>= f).work = x.work ++ (f a).work := by
  show (x.andThen f).work = _
  unfold andThen
  rw [h]
  rfl

theorem work_error {α β : Type} {x : Traced α} {f : α → Traced β} {e : Err} (h : x.value = .error e) :
    (x >>= f).work = x.work := by
  show (x.andThen f).work = _
  unfold andThen
  rw [h]
  rfl

theorem tally_add_assoc (a b c : Tally) : a + b + c = a + (b + c) := by
  show Tally.mk .. = Tally.mk ..
  simp only [Tally.mk.injEq]
  refine ⟨?_, ?_, ?_, ?_, ?_, ?_, ?_, ?_⟩ <;> exact Nat.add_assoc ..

theorem tally_zero_add (a : Tally) : Tally.none + a = a := by
  show Tally.mk .. = a
  cases a
  simp only [Tally.mk.injEq]
  refine ⟨?_, ?_, ?_, ?_, ?_, ?_, ?_, ?_⟩ <;> exact Nat.zero_add _

theorem tally_add_zero (a : Tally) : a + Tally.none = a := rfl

instance : Faithful total where
  empty := rfl
  join a b := by
    show total (a ++ b) = total a + total b
    induction a with
    | nil => exact (tally_zero_add _).symm
    | cons o a ih => exact (congrArg (o.tally + ·) ih).trans (tally_add_assoc ..).symm

/-- A block is decrypted or a signature checked. -/
def Loud : Op → Prop
  | .aesDec .. => True
  | .verifySig .. => True
  | _ => False

/-- No block is decrypted and no signature checked. -/
structure Quiet {α : Type} (x : Traced α) : Prop where
  loud : ∀ o ∈ x.work, ¬ Loud o

theorem Quiet.all {α : Type} {x : Traced α} (h : Quiet x) : ∀ o ∈ x.work, ¬ Deciphers o := by
  intro o ho hd
  refine h.loud o ho ?_
  cases o <;> first | exact hd | trivial

/-- What the first part does is done. -/
theorem mem_left {α β : Type} {x : Traced α} {f : α → Traced β} {o : Op} (h : o ∈ x.work) : o ∈ (x >>= f).work := by
  cases hx : x.value with
  | ok v => rw [work_ok hx]; exact List.mem_append_left _ h
  | error e => rw [work_error hx]; exact h

theorem mem_right {α β : Type} {x : Traced α} {f : α → Traced β} {o : Op} {v : α} (hx : x.value = .ok v) (h : o ∈ (f v).work) :
    o ∈ (x >>= f).work := by
  rw [work_ok hx]; exact List.mem_append_right _ h

theorem quiet_bind {α β : Type} {x : Traced α} {f : α → Traced β} (hx : Quiet x) (hf : ∀ v, x.value = .ok v → Quiet (f v)) :
    Quiet (x >>= f) := by
  refine ⟨fun o ho => ?_⟩
  cases h : x.value with
  | ok v =>
    rw [work_ok h, List.mem_append] at ho
    exact ho.elim (hx.loud o) ((hf v h).loud o)
  | error e =>
    rw [work_error h] at ho
    exact hx.loud o ho

theorem quiet_pure {α : Type} (a : α) : Quiet (pure a : Traced α) := ⟨fun _ ho => (List.not_mem_nil ho).elim⟩

theorem quiet_fail {α : Type} (e : Err) : Quiet (fail e : Traced α) := ⟨fun _ ho => (List.not_mem_nil ho).elim⟩

theorem quiet_lift {α : Type} (r : Res α) : Quiet (Work.lift r : Traced α) := by
  cases r with
  | ok a => exact quiet_pure a
  | error e => exact quiet_fail e

theorem quiet_attempt {α : Type} {x : Traced α} (h : Quiet x) : Quiet (attempt x : Traced (Res α)) := ⟨h.loud⟩

theorem quiet_ite {α : Type} {c : Prop} [Decidable c] {x y : Traced α} (h1 : c → Quiet x) (h2 : ¬ c → Quiet y) :
    Quiet (if c then x else y) := by
  by_cases h : c
  · rw [if_pos h]; exact h1 h
  · rw [if_neg h]; exact h2 h

theorem outcome_trace {α : Type} (x : Traced (List Write × α)) : (Work.outcome x).work = x.work := by
  unfold Work.outcome
  rw [work_ok (value_attempt _), work_attempt, work_pure, List.append_nil]

theorem mapped_trace {α β : Type} (x : Traced α) (f : α → β) : (do pure (f (← x)) : Traced β).work = x.work := by
  cases h : x.value with
  | ok a => rw [work_ok h, work_pure, List.append_nil]
  | error e => rw [work_error h]

end Traced

section
variable [C : Crypto]
namespace Work
open Logged Traced Fallible Spec

omit C in
theorem one_quiet {α : Type} {x : Traced α} {o : Op} (h : x.work = [o]) (ho : ¬ Loud o) : Quiet x := by
  refine ⟨fun o' ho' => ?_⟩
  rw [h, List.mem_singleton] at ho'
  exact ho' ▸ ho

theorem hmac_quiet (k d : Bytes) : Quiet (tracing.hmac k d) := one_quiet (o := .hmac k d) rfl fun h => h

theorem expandLoop_quiet (prk info : Bytes) (n i : Nat) (mixin : Bytes) (rem : Nat) :
    Quiet (expandLoop tracing prk info n i mixin rem) := by
  induction n generalizing i mixin rem with
  | zero => exact quiet_pure _
  | succ n ih =>
    unfold expandLoop
    exact quiet_bind (hmac_quiet ..) fun _ _ => quiet_bind (ih ..) fun _ _ => quiet_pure _

theorem deriveSecrets_quiet (k : Kdf) (ikm info : Bytes) (n : Nat) (salt : Bytes) :
    Quiet (deriveSecrets tracing k ikm info n salt) := by
  unfold deriveSecrets
  exact quiet_bind (hmac_quiet ..) fun _ _ => expandLoop_quiet ..

theorem generateKeyPair_quiet (seed : Bytes) : Quiet (generateKeyPair tracing seed) := by
  unfold generateKeyPair
  exact quiet_bind (one_quiet (o := .genPriv seed) rfl fun h => h) fun v _ =>
    quiet_bind (one_quiet (o := .genPub v) rfl fun h => h) fun _ _ => quiet_pure _

omit C in
theorem orValueError_trace {α : Type} (x : Option α) : (orValueError x : Traced α).work = [] := by
  cases x <;> rfl

theorem calculateAgreement_trace (a : ECPub) (b : ECPriv) : (calculateAgreement tracing a b).work = [.dh b a] := by
  unfold calculateAgreement
  rw [work_ok (value_dh _ _), orValueError_trace]
  rfl

theorem verifySignature_trace (k : ECPub) (d s : Bytes) : (verifySignature tracing k d s).work = [.verifySig k d s] := by
  unfold verifySignature
  rw [work_ok (value_verifySig _ _ _), orValueError_trace]
  rfl

theorem calculateAgreement_quiet (a : ECPub) (b : ECPriv) : Quiet (calculateAgreement tracing a b) :=
  one_quiet (calculateAgreement_trace a b) fun h => h

theorem getNextChainKey_quiet (c : ChainKey) : Quiet (getNextChainKey tracing c) := by
  unfold getNextChainKey
  exact quiet_bind (hmac_quiet ..) fun _ _ => quiet_pure _

theorem getMessageKeys_quiet (c : ChainKey) : Quiet (getMessageKeys tracing c) := by
  unfold getMessageKeys
  exact quiet_bind (hmac_quiet ..) fun _ _ => quiet_bind (deriveSecrets_quiet ..) fun _ _ => quiet_pure _

theorem createChain_quiet (r : RootKey) (t : ECPub) (o : KeyPair) : Quiet (createChain tracing r t o) := by
  unfold createChain
  exact quiet_bind (calculateAgreement_quiet ..) fun _ _ => quiet_bind (deriveSecrets_quiet ..) fun _ _ => quiet_pure _

theorem getOrCreateChainKey_quiet (s : SessionState) (t : ECPub) (seed : Bytes) : Quiet (getOrCreateChainKey tracing s t seed) := by
  unfold getOrCreateChainKey
  refine quiet_bind (quiet_lift _) fun _ _ => quiet_ite (fun _ => quiet_bind (quiet_lift _) fun _ _ => quiet_pure _) fun _ =>
    quiet_bind (quiet_lift _) fun _ _ => quiet_bind (quiet_lift _) fun _ _ => quiet_bind (createChain_quiet ..) fun _ _ =>
    quiet_bind (generateKeyPair_quiet _) fun _ _ => quiet_bind (createChain_quiet ..) fun _ _ => quiet_bind (quiet_lift _) fun _ _ =>
    quiet_bind (quiet_lift _) fun _ _ => quiet_bind (quiet_lift _) fun _ _ => quiet_pure _

theorem skipLoop_quiet (t : ECPub) (n : Nat) (s : SessionState) (c : ChainKey) : Quiet (skipLoop tracing t n s c) := by
  induction n generalizing s c with
  | zero => exact quiet_pure _
  | succ n ih =>
    unfold skipLoop
    exact quiet_bind (getMessageKeys_quiet _) fun _ _ => quiet_bind (quiet_lift _) fun _ _ =>
      quiet_bind (getNextChainKey_quiet _) fun _ _ => ih ..

theorem getOrCreateMessageKeys_quiet (s : SessionState) (t : ECPub) (c : ChainKey) (n : Nat) :
    Quiet (getOrCreateMessageKeys tracing s t c n) := by
  unfold getOrCreateMessageKeys
  exact quiet_ite (fun _ => quiet_bind (quiet_lift _) fun _ _ => quiet_ite (fun _ => quiet_lift _) fun _ => quiet_fail _) fun _ =>
    quiet_ite (fun _ => quiet_fail _) fun _ => quiet_bind (skipLoop_quiet ..) fun _ _ => quiet_bind (getNextChainKey_quiet _) fun _ _ =>
    quiet_bind (quiet_lift _) fun _ _ => quiet_bind (getMessageKeys_quiet _) fun _ _ => quiet_pure _

/-- The data of the MAC. -/
def macData (m : WhisperMessage) (a b : ECPub) : Bytes :=
  (if m.messageVersion ≥ 3 then (5 :: a) ++ (5 :: b) else []) ++
    (ByteUtil.split2 m.serialized ((m.serialized.length : Int) - WhisperMessage.MAC_LENGTH) WhisperMessage.MAC_LENGTH).1

theorem verifyMac_trace (m : WhisperMessage) (a b : ECPub) (k : Bytes) :
    (verifyMac tracing m m.messageVersion a b k).work = [.hmac k (macData m a b)] := by
  unfold verifyMac
  simp only
  rw [work_ok (getMac_value ..)]
  split <;> rfl

theorem cbcDec_trace (key : Bytes) (n : Nat) (prev d : Bytes) : ∀ o ∈ (cbcDec tracing key n prev d).work, ∃ b, o = .aesDec key b := by
  induction n generalizing prev d with
  | zero => intro o ho; cases ho
  | succ n ih =>
    unfold cbcDec
    rw [work_ok (value_aesDec _ _), work_ok (cbcDec_value ..), work_pure, List.append_nil]
    intro o ho
    rcases List.mem_append.1 ho with h | h
    · exact ⟨_, List.mem_singleton.1 h⟩
    · exact ih _ _ o h

theorem aesDecrypt_trace (key iv enc : Bytes) : ∀ o ∈ (aesDecrypt tracing key iv enc).work, ∃ b, o = .aesDec key b := by
  unfold aesDecrypt
  by_cases h1 : AES.validParams key iv
  · rw [if_pos h1]
    by_cases h2 : enc.length % 16 = 0
    · rw [if_pos h2, work_ok (cbcDec_value ..), work_lift, List.append_nil]
      exact cbcDec_trace key _ iv enc
    · rw [if_neg h2]; intro o ho; cases ho
  · rw [if_neg h1]; intro o ho; cases ho

theorem macFound (hlen : ∀ k m, (C.hmac k m).length = 32) {m : WhisperMessage} {a b : ECPub} {k : Bytes}
    (h : m.verifyMac m.messageVersion a b k = .ok ()) {fit : Bytes → ECPub → ECPub → Prop} (hf : fit k a b) (earlier : List Op) :
    MacFound fit m (earlier ++ [.hmac k (macData m a b)]) := by
  unfold WhisperMessage.verifyMac at h
  simp only at h
  split at h
  · cases h
  · rename_i hne
    have he := Classical.not_not.1 hne
    have hl : (ByteUtil.split2 m.serialized ((m.serialized.length : Int) - WhisperMessage.MAC_LENGTH)
        WhisperMessage.MAC_LENGTH).2.length = 8 := by
      rw [← he]; exact getMac_length hlen _ _ _ _ _
    by_cases hlong : 8 ≤ m.serialized.length
    · have hsplit : ByteUtil.split2 m.serialized ((m.serialized.length : Int) - WhisperMessage.MAC_LENGTH)
          WhisperMessage.MAC_LENGTH =
          (m.serialized.take (m.serialized.length - 8), m.serialized.drop (m.serialized.length - 8)) := by
        have hd : (m.serialized.drop (m.serialized.length - 8)).length = 8 := by rw [List.length_drop]; omega
        have := split2_tail (m.serialized.take (m.serialized.length - 8))
          (m.serialized.drop (m.serialized.length - 8)) 8 hd
        rw [List.take_append_drop] at this
        exact this
      unfold macData
      rw [hsplit] at he ⊢
      refine ⟨earlier, k, a, b, _, _, hf, rfl, (List.take_append_drop (m.serialized.length - 8) m.serialized).symm,
        by rw [List.length_drop]; omega, ?_⟩
      refine Eq.trans ?_ he
      unfold WhisperMessage.getMac
      exact (trim_eq_take (by rw [hlen]; simp)).symm
    · exfalso
      unfold ByteUtil.split2 pySlice at hl
      simp only [List.length_drop, List.length_take] at hl
      have := Nat.min_le_right (pyIdx m.serialized.length
        ((m.serialized.length : Int) - WhisperMessage.MAC_LENGTH + WhisperMessage.MAC_LENGTH)) m.serialized.length
      omega

omit C in
theorem nothing_found [Crypto] {fit : Bytes → ECPub → ECPub → Prop} (m : WhisperMessage) {t : List Op} (h : ∀ o ∈ t, ¬ Deciphers o) :
    MacThenDecrypt fit m t :=
  ⟨t, [], [], (List.append_nil t).symm, h, fun _ ho => (List.not_mem_nil ho).elim, fun q => absurd rfl q⟩

theorem _root_.Axolotl.Spec.MacThenDecrypt.after {fit : Bytes → ECPub → ECPub → Prop} {m : WhisperMessage} {t : List Op}
    (h : MacThenDecrypt fit m t) {t0 : List Op} (h0 : ∀ o ∈ t0, ¬ Deciphers o) :
    MacThenDecrypt fit m (t0 ++ t) := by
  obtain ⟨before, blocks, key, rfl, h1, h2, h3⟩ := h
  refine ⟨t0 ++ before, blocks, key, (List.append_assoc ..).symm, fun o ho => ?_, h2, fun q => ?_⟩
  · exact (List.mem_append.1 ho).elim (h0 o) (h1 o)
  · obtain ⟨e, mk, a, b, body, mac, q0, q1, q2⟩ := h3 q
    exact ⟨t0 ++ e, mk, a, b, body, mac, q0, by rw [q1, List.append_assoc], q2⟩

/-- The MAC is found before anything is decrypted; if the message is refused nothing has been decrypted. -/
structure Shape {α : Type} (fit : Bytes → ECPub → ECPub → Prop) (m : WhisperMessage) (x : Traced α) : Prop where
  order : MacThenDecrypt fit m x.work
  refused : x.value = .error .invalidMessage → Quiet x

theorem _root_.Axolotl.Traced.Quiet.shape {α : Type} {fit : Bytes → ECPub → ECPub → Prop} {x : Traced α} (h : Quiet x) (m : WhisperMessage) :
    Shape fit m x := ⟨nothing_found m h.all, fun _ => h⟩

theorem shape_bind {α β : Type} {fit : Bytes → ECPub → ECPub → Prop} {m : WhisperMessage} {x : Traced α} {f : α → Traced β} (hx : Quiet x)
    (hf : ∀ v, x.value = .ok v → Shape fit m (f v)) : Shape fit m (x >>= f) := by
  cases h : x.value with
  | ok v =>
    refine ⟨by rw [work_ok h]; exact (hf v h).order.after hx.all, fun q => quiet_bind hx fun v' h' => ?_⟩
    obtain rfl := Except.ok.inj (h.symm.trans h')
    refine (hf v h).refused ?_
    rw [value_bind, h] at q
    exact q
  | error e =>
    exact (quiet_bind hx fun v h' => by rw [h] at h'; cases h').shape m

theorem shape_ite {α : Type} {fit : Bytes → ECPub → ECPub → Prop} {m : WhisperMessage} {c : Prop} [Decidable c] {x y : Traced α} (h1 : c → Shape fit m x) (h2 : ¬ c → Shape fit m y) :
    Shape fit m (if c then x else y) := by
  by_cases h : c
  · rw [if_pos h]; exact h1 h
  · rw [if_neg h]; exact h2 h

/-- The MAC key that is found for a message is one the state offers, see `dwss_mac`. -/
theorem offered_mac (hlen : ∀ k m, (C.hmac k m).length = 32) {s s1 s2 : SessionState} {ck : ChainKey} {mk : MessageKeys} {eph : ECPub}
    {seed : Bytes} {n : Nat} (hsc : s.hasSenderChain = true) (h1 : SessionCipher.getOrCreateChainKey s eph seed = .ok (ck, s1))
    (h2 : SessionCipher.getOrCreateMessageKeys s1 eph ck n = .ok (mk, s2)) (hv : s.sessionVersion = some 3) : MacKey s eph n mk.macKey := by
  obtain ⟨c, j, hc, h2⟩ := SessionCipher.gocmk_ok h2
  rcases SessionCipher.gocck_ok h1 with ⟨c1, j1, kdf, g1, g2, g3, g4⟩ | ⟨kdf, our, rk1, rk2, sck, g1, g2, g3, g4, g5, g6⟩
  · subst g4
    rw [g1] at hc
    replace hc := Except.ok.inj hc
    injection hc with hc
    injection hc with hc1 hc2
    subst hc1; subst hc2
    obtain ⟨_, hcm, hck⟩ := SessionState.findChain_some g1
    have hcm := List.mem_of_getElem? hcm
    rw [createFor_three hv] at g2
    replace g2 := Except.ok.inj g2
    subst g2
    rcases h2 with ⟨_, e, rest, ht, hmk, _⟩ | ⟨hle, _, _, hmk, _⟩
    · subst hmk
      obtain ⟨t1, t2⟩ := takeKey_mem ht
      exact .stored hcm hck t1 t2
    · subst hmk; subst g3
      rw [getMessageKeys_v3 hlen _ (by rw [ChainKey.iter_kdf]; rfl), iter_key]
      exact .ahead hcm hck rfl hle
  · obtain ⟨secret, hsec, e1, e2, e3⟩ := RootKey.createChain_ok g4
    rw [createFor_three hv] at g2
    replace g2 := Except.ok.inj g2
    subst g2
    rw [createChain_v3 hlen] at g4
    unfold Curve.calculateAgreement at hsec
    cases hdh : C.dh our.priv eph with
    | none => rw [hdh] at g4; cases g4
    | some sec =>
    rw [hdh] at g4
    simp only at g4
    replace g4 := Except.ok.inj g4
    injection g4 with g4 g4'
    subst g4; subst g4'
    rcases h2 with ⟨hlt, _⟩ | ⟨hle, _, _, hmk, _⟩
    · exact absurd hlt (by simp)
    · subst hmk
      rw [getMessageKeys_v3 hlen _ (by rw [ChainKey.iter_kdf]), iter_key]
      simp only [Nat.sub_zero]
      unfold SessionState.getSenderRatchetKeyPair at g3
      obtain ⟨pub, _, g3⟩ := bind_eq_ok.1 g3
      replace g3 := Except.ok.inj g3
      subst g3
      cases hsc' : s.senderChain with
      | none => unfold SessionState.hasSenderChain at hsc; rw [hsc'] at hsc; cases hsc
      | some c0 =>
        refine .ratchet hsc' ?_
        unfold SessionState.senderChainD at hdh
        rw [hsc'] at hdh
        exact hdh

omit C in
theorem getSessionVersion_two {s : SessionState} (hv : versionOf s = 2) : s.getSessionVersion = 2 := by
  rw [versionOf_eq, hv]

omit C in
theorem version_three {s : SessionState} (hv : versionOf s = 3) : s.sessionVersion = some 3 := by
  unfold versionOf at hv
  split at hv
  · cases hv
  · cases hv
  · rename_i h; rw [h, hv]

/-- The keys that are found for a message are ones the state offers, see `dwss_keys2`. -/
theorem offered_keys2 (hlen : ∀ k m, (C.hmac k m).length = 32) {s s1 s2 : SessionState} {ck : ChainKey} {mk : MessageKeys} {eph : ECPub}
    {seed : Bytes} {n : Nat} (hsc : s.hasSenderChain = true) (h1 : SessionCipher.getOrCreateChainKey s eph seed = .ok (ck, s1))
    (h2 : SessionCipher.getOrCreateMessageKeys s1 eph ck n = .ok (mk, s2)) (hv : versionOf s = 2) :
    MessageKey2 s eph n mk.cipherKey mk.macKey mk.iv := by
  obtain ⟨c, j, hc, h2⟩ := SessionCipher.gocmk_ok h2
  rcases SessionCipher.gocck_ok h1 with ⟨c1, j1, kdf, g1, g2, g3, g4⟩ | ⟨kdf, our, rk1, rk2, sck, g1, g2, g3, g4, g5, g6⟩
  · subst g4
    rw [g1] at hc
    obtain ⟨rfl, rfl⟩ := Prod.mk.inj (Option.some.inj (Except.ok.inj hc))
    obtain ⟨_, hcm, hck⟩ := SessionState.findChain_some g1
    have hcm := List.mem_of_getElem? hcm
    have hck := decodePoint_KeyOf hck
    rw [createFor_two hv] at g2
    obtain rfl := Except.ok.inj g2
    rcases h2 with ⟨_, e, rest, ht, hmk, _⟩ | ⟨hle, _, _, hmk, _⟩
    · subst hmk
      obtain ⟨t1, t2⟩ := takeKey_mem ht
      exact .stored hcm hck t1 t2
    · subst hmk; subst g3
      rw [getMessageKeys_v2 hlen _ (by rw [ChainKey.iter_kdf]; rfl), iter_key]
      exact .ahead hcm hck hle rfl
  · obtain ⟨secret, hsec, e1, e2, e3⟩ := RootKey.createChain_ok g4
    rw [createFor_two hv] at g2
    obtain rfl := Except.ok.inj g2
    rw [createChain_of hlen] at g4
    cases hdh : C.dh our.priv eph with
    | none => rw [hdh] at g4; cases g4
    | some sec =>
    rw [hdh] at g4
    simp only at g4
    obtain ⟨g4, g4'⟩ := Prod.mk.inj (Except.ok.inj g4)
    subst g4; subst g4'
    rcases h2 with ⟨hlt, _⟩ | ⟨hle, _, _, hmk, _⟩
    · exact absurd hlt (by simp)
    · subst hmk
      rw [getMessageKeys_v2 hlen _ (by rw [ChainKey.iter_kdf]), iter_key]
      simp only [Nat.sub_zero]
      unfold SessionState.getSenderRatchetKeyPair at g3
      obtain ⟨pub, _, g3⟩ := bind_eq_ok.1 g3
      obtain rfl := Except.ok.inj g3
      cases hsc' : s.senderChain with
      | none => unfold SessionState.hasSenderChain at hsc; rw [hsc'] at hsc; cases hsc
      | some c0 =>
        refine .ratchet hsc' ?_ rfl
        unfold SessionState.senderChainD at hdh
        rw [hsc'] at hdh
        exact hdh

omit C in
theorem createFor_other {s : SessionState} (h2 : versionOf s ≠ 2) (h3 : versionOf s ≠ 3) :
    Kdf.createFor s.getSessionVersion = .error .assertionError := by
  unfold Kdf.createFor
  rw [versionOf_eq, if_neg h2, if_neg h3]

/-- One state. -/
theorem state_shape (hlen : ∀ k m, (C.hmac k m).length = 32) (s : SessionState) (m : WhisperMessage) (seed : Bytes)
    {fit : Bytes → ECPub → ECPub → Prop} (hfit : ∀ k a b, MacFrom s m k a b → fit k a b) : Shape fit m (decryptWithSessionState tracing s m seed) := by
  unfold decryptWithSessionState
  refine shape_ite (fun _ => (quiet_fail _).shape m) fun hsc => shape_ite (fun _ => (quiet_fail _).shape m) fun _ =>
    shape_bind (getOrCreateChainKey_quiet ..) fun p hp => shape_bind (getOrCreateMessageKeys_quiet ..) fun q hq =>
    shape_bind (quiet_lift _) fun r hr => shape_bind (quiet_lift _) fun l hl => ?_
  have hp := (getOrCreateChainKey_value ..).symm.trans hp
  have hq := (getOrCreateMessageKeys_value ..).symm.trans hq
  have hr := (value_lift _).symm.trans hr
  have hl := (value_lift _).symm.trans hl
  have hids := dwss_ids (s2 := q.2) hp hq
  have hof : fit q.1.macKey r l := by
    refine hfit _ _ _ ⟨Option.isSome_iff_ne_none.2 (by simpa [SessionState.hasSenderChain] using hsc), ?_, ?_, ?_⟩
    · by_cases h3 : versionOf s = 3
      · exact .inl ⟨h3, offered_mac hlen (by simpa using hsc) hp hq (version_three h3)⟩
      by_cases h2 : versionOf s = 2
      · exact .inr ⟨h2, _, _, offered_keys2 hlen (by simpa using hsc) hp hq h2⟩
      rcases SessionCipher.gocck_ok (ck := p.1) (s1 := p.2) hp with ⟨c1, j1, kdf, g1, g2, _, _⟩ | ⟨kdf, our, rk1, rk2, sck, g1, g2, _⟩
      · rw [createFor_other h2 h3] at g2; cases g2
      · rw [createFor_other h2 h3] at g2; cases g2
    · rw [← hids.2]; exact decodePoint_KeyOf hr
    · rw [← hids.1]; exact decodePoint_KeyOf hl
  have hm := verifyMac_trace m r l q.1.macKey
  cases hv : m.verifyMac m.messageVersion r l q.1.macKey with
  | error e =>
    have hv' := (verifyMac_value (f := fun o => [o]) m m.messageVersion r l q.1.macKey).trans hv
    refine Quiet.shape ⟨fun o ho => ?_⟩ m
    rw [work_error hv', hm, List.mem_singleton] at ho
    rw [ho]
    exact fun h => h
  | ok u =>
    have hv' := (verifyMac_value (f := fun o => [o]) m m.messageVersion r l q.1.macKey).trans hv
    have ha := aesDecrypt_trace q.1.cipherKey q.1.iv m.ciphertext
    have he : ∀ g : Bytes → Bytes × SessionState, ((aesDecrypt tracing q.1.cipherKey q.1.iv m.ciphertext) >>= fun p => pure (g p)).work =
        (aesDecrypt tracing q.1.cipherKey q.1.iv m.ciphertext).work := fun g => mapped_trace _ g
    constructor
    · rw [work_ok hv', hm, he]
      refine ⟨_, _, _, rfl, fun o ho => ?_, ha, fun _ => macFound hlen hv hof []⟩
      rw [List.mem_singleton.1 ho]
      exact fun h => h
    · intro h
      rw [value_bind, hv', bind_ok, value_bind, aesDecrypt_value] at h
      rcases bind_eq_error.1 h with h | ⟨_, _, h⟩
      · exact (aesDecrypt_refused h).elim
      · cases h

theorem tryPrevious_shape (hlen : ∀ k m, (C.hmac k m).length = 32) (r : SessionRecord) (m : WhisperMessage) (seeds : Nat → Bytes)
    {fit : Bytes → ECPub → ECPub → Prop} (l : List SessionState) (hfit : ∀ s ∈ l, ∀ k a b, MacFrom s m k a b → fit k a b) (i : Nat) :
    MacThenDecrypt fit m (tryPrevious tracing r m seeds l i).work := by
  induction l generalizing i with
  | nil => exact nothing_found m (quiet_fail (α := Bytes × SessionRecord) _).all
  | cons p l ih =>
    have h0 := state_shape hlen p m (seeds i) (hfit p (List.mem_cons_self ..))
    unfold tryPrevious
    rw [work_ok (value_attempt _), work_attempt]
    split
    · rw [work_pure, List.append_nil]; exact h0.order
    · rename_i h
      exact (ih (fun s hs => hfit s (List.mem_cons_of_mem _ hs)) (i + 1)).after (h0.refused h).all
    · rw [work_fail, List.append_nil]; exact h0.order

theorem record_shape (hlen : ∀ k m, (C.hmac k m).length = 32) (r : SessionRecord) (m : WhisperMessage) (seed : Bytes) (seeds : Nat → Bytes)
    {fit : Bytes → ECPub → ECPub → Prop} (hfit : ∀ s ∈ states r, ∀ k a b, MacFrom s m k a b → fit k a b) :
    MacThenDecrypt fit m (decryptWithSessionRecord tracing r m seed seeds).work := by
  have h0 := state_shape hlen r.sessionState m seed (hfit _ (List.mem_cons_self ..))
  unfold decryptWithSessionRecord
  rw [work_ok (value_attempt _), work_attempt]
  split
  · rw [work_pure, List.append_nil]; exact h0.order
  · rename_i h
    exact (tryPrevious_shape hlen _ _ _ _ (fun s hs => hfit s (List.mem_cons_of_mem _ hs)) _).after (h0.refused h).all
  · rw [work_fail, List.append_nil]; exact h0.order

theorem calculateDerivedKeys_quiet (d : Bytes) : Quiet (calculateDerivedKeys tracing d) := by
  unfold calculateDerivedKeys
  exact quiet_bind (deriveSecrets_quiet ..) fun _ _ => quiet_pure _

theorem bobSecrets_quiet (p : BobParameters) : Quiet (bobSecrets tracing p) := by
  unfold bobSecrets
  cases h : p.ourOneTimePreKey with
  | none =>
    exact quiet_bind (calculateAgreement_quiet ..) fun _ _ => quiet_bind (calculateAgreement_quiet ..) fun _ _ =>
      quiet_bind (calculateAgreement_quiet ..) fun _ _ => quiet_bind (quiet_pure _) fun _ _ => quiet_pure _
  | some k =>
    exact quiet_bind (calculateAgreement_quiet ..) fun _ _ => quiet_bind (calculateAgreement_quiet ..) fun _ _ =>
      quiet_bind (calculateAgreement_quiet ..) fun _ _ => quiet_bind (calculateAgreement_quiet ..) fun _ _ => quiet_pure _

theorem asBob_quiet (s : SessionState) (p : BobParameters) : Quiet (initializeSessionAsBob tracing s p) := by
  unfold initializeSessionAsBob
  exact quiet_bind (bobSecrets_quiet _) fun _ _ => quiet_bind (calculateDerivedKeys_quiet _) fun _ _ =>
    quiet_bind (quiet_lift _) fun _ _ => quiet_pure _

theorem processV3_quiet (w : World) (r : SessionRecord) (m : PreKeyWhisperMessage) : Quiet (processV3 tracing w r m) := by
  unfold processV3
  refine quiet_ite (fun _ => quiet_pure _) fun _ => quiet_bind (quiet_lift _) fun _ _ => quiet_bind (quiet_lift _) fun _ _ => ?_
  cases m.preKeyId with
  | none =>
    exact quiet_bind (quiet_pure _) fun _ _ => quiet_bind (asBob_quiet ..) fun _ _ => quiet_bind (quiet_lift _) fun _ _ =>
      quiet_bind (quiet_lift _) fun _ _ => quiet_pure _
  | some i =>
    exact quiet_bind (quiet_lift _) fun _ _ => quiet_bind (quiet_lift _) fun _ _ => quiet_bind (quiet_pure _) fun _ _ =>
      quiet_bind (asBob_quiet ..) fun _ _ => quiet_bind (quiet_lift _) fun _ _ =>
      quiet_bind (quiet_lift _) fun _ _ => quiet_pure _

theorem process_quiet (w : World) (a : Address) (r : SessionRecord) (m : PreKeyWhisperMessage) : Quiet (process tracing w a r m) := by
  unfold process
  refine quiet_ite (fun _ => quiet_pure _) fun _ => quiet_bind (quiet_attempt (processV3_quiet ..)) fun v _ => ?_
  cases v <;> exact quiet_pure _

/-- A signature is checked, the rest is done only if it is right. -/
theorem gate_trace {α : Type} (k : ECPub) (d s : Bytes) (x : Traced α) (e : Err) :
    ∃ rest, ((verifySignature tracing k d s) >>= fun ok => if !ok then fail e else x).work = .verifySig k d s :: rest ∧
      (rest ≠ [] → C.verifySig k d s = some true) := by
  have hv := verifySignature_value (f := fun o => [o]) k d s
  unfold Curve.verifySignature at hv
  cases h : C.verifySig k d s with
  | none =>
    rw [h] at hv
    exact ⟨[], by rw [work_error hv, verifySignature_trace], fun q => absurd rfl q⟩
  | some b =>
    rw [h] at hv
    cases b with
    | false => exact ⟨[], by rw [work_ok hv, verifySignature_trace]; rfl, fun q => absurd rfl q⟩
    | true => exact ⟨x.work, by rw [work_ok hv, verifySignature_trace]; rfl, fun _ => rfl⟩

theorem gate_value {α : Type} {k : ECPub} {d s : Bytes} (h : C.verifySig k d s ≠ some true) (x : Traced α) (e : Err) :
    ∃ e', ((verifySignature tracing k d s) >>= fun ok => if !ok then fail e else x).value = .error e' := by
  have hv := verifySignature_value (f := fun o => [o]) k d s
  unfold Curve.verifySignature at hv
  rw [value_bind]
  cases h' : C.verifySig k d s with
  | none => rw [h'] at hv; exact ⟨_, by rw [hv]; rfl⟩
  | some b =>
    rw [h'] at hv
    cases b with
    | false => exact ⟨_, by rw [hv]; rfl⟩
    | true => exact absurd h' h

theorem aliceSecrets_quiet (p : AliceParameters) : Quiet (aliceSecrets tracing p) := by
  unfold aliceSecrets
  cases h : p.theirOneTimePreKey with
  | none =>
    exact quiet_bind (calculateAgreement_quiet ..) fun _ _ => quiet_bind (calculateAgreement_quiet ..) fun _ _ =>
      quiet_bind (calculateAgreement_quiet ..) fun _ _ => quiet_bind (quiet_pure _) fun _ _ => quiet_pure _
  | some k =>
    exact quiet_bind (calculateAgreement_quiet ..) fun _ _ => quiet_bind (calculateAgreement_quiet ..) fun _ _ =>
      quiet_bind (calculateAgreement_quiet ..) fun _ _ => quiet_bind (calculateAgreement_quiet ..) fun _ _ => quiet_pure _

theorem asAlice_quiet (s : SessionState) (p : AliceParameters) (seed : Bytes) : Quiet (initializeSessionAsAlice tracing s p seed) := by
  unfold initializeSessionAsAlice
  exact quiet_bind (generateKeyPair_quiet _) fun _ _ => quiet_bind (aliceSecrets_quiet _) fun _ _ =>
    quiet_bind (calculateDerivedKeys_quiet _) fun _ _ => quiet_bind (createChain_quiet ..) fun _ _ =>
    quiet_bind (quiet_lift _) fun _ _ => quiet_bind (quiet_lift _) fun _ _ => quiet_pure _

theorem initializeSession_quiet (s : SessionState) (p : SymmetricParameters) (seed : Bytes) : Quiet (initializeSession tracing s p seed) := by
  unfold initializeSession
  exact quiet_bind (quiet_lift _) fun _ _ => quiet_ite (fun _ => asAlice_quiet ..) fun _ => asBob_quiet ..

/-- The peer's base key is used. -/
theorem initializeSession_agrees {s : SessionState} {p : SymmetricParameters} {seed : Bytes} {s' : SessionState}
    (h : RatchetingSession.initializeSession s p seed = .ok s') :
    ∃ k, Op.dh k p.theirBaseKey ∈ (initializeSession tracing s p seed).work := by
  unfold RatchetingSession.initializeSession at h
  obtain ⟨b, hb, h⟩ := bind_eq_ok.1 h
  unfold initializeSession
  refine ⟨p.ourIdentityKey.priv, mem_right ((value_lift _).trans hb) ?_⟩
  cases b with
  | true =>
    rw [if_pos rfl]
    unfold initializeSessionAsAlice
    refine mem_right (generateKeyPair_value _) (mem_left ?_)
    unfold aliceSecrets
    refine mem_left ?_
    rw [calculateAgreement_trace]
    exact List.mem_singleton.2 rfl
  | false =>
    rw [if_neg (by decide)] at h ⊢
    unfold RatchetingSession.initializeSessionAsBob RatchetingSession.bobSecrets at h
    obtain ⟨sec, hs, h⟩ := bind_eq_ok.1 h
    obtain ⟨a1, h1, hs⟩ := bind_eq_ok.1 hs
    unfold initializeSessionAsBob
    refine mem_left ?_
    unfold bobSecrets
    refine mem_right ((calculateAgreement_value ..).trans h1) (mem_left ?_)
    rw [calculateAgreement_trace]
    exact List.mem_singleton.2 rfl

theorem verifySenderKeyMessage_trace {m : SenderKeyMessage} {body sig : Bytes} (hm : m.serialized = body ++ sig) (hl : sig.length = 64)
    (k : ECPub) : (verifySenderKeyMessage tracing m k).work = [.verifySig k body sig] := by
  have hs : ByteUtil.split2 m.serialized ((m.serialized.length : Int) - SenderKeyMessage.SIGNATURE_LENGTH)
      SenderKeyMessage.SIGNATURE_LENGTH = (body, sig) := by
    rw [hm]; exact split2_tail body sig 64 hl
  unfold verifySenderKeyMessage
  simp only [hs]
  cases hv : Curve.verifySignature k body sig with
  | error e => rw [work_error ((verifySignature_value ..).trans hv), verifySignature_trace]
  | ok b =>
    rw [work_ok ((verifySignature_value ..).trans hv), verifySignature_trace]
    cases b <;> rfl

theorem expandLoop_kinds (prk info : Bytes) (n i : Nat) (mixin : Bytes) (rem : Nat) :
    (expandLoop tracing prk info n i mixin rem).work.map kind = List.replicate n .hmac := by
  induction n generalizing i mixin rem with
  | zero => rfl
  | succ n ih =>
    unfold expandLoop
    rw [work_ok (value_hmac _ _), work_ok (expandLoop_value ..), work_pure, List.append_nil, List.map_append, ih]
    rfl

theorem getMessageKeys_kinds (c : ChainKey) : (getMessageKeys tracing c).work.map kind = List.replicate 5 .hmac := by
  unfold getMessageKeys
  rw [work_ok (value_hmac _ _), work_ok (deriveSecrets_value ..), work_pure, List.append_nil]
  unfold deriveSecrets
  simp only
  rw [work_ok (value_hmac _ _), List.map_append, List.map_append, expandLoop_kinds]
  rfl

theorem cbcEnc_kinds (key : Bytes) (n : Nat) (prev d : Bytes) :
    (cbcEnc tracing key n prev d).work.map kind = List.replicate n .aesEnc := by
  induction n generalizing prev d with
  | zero => rfl
  | succ n ih =>
    unfold cbcEnc
    rw [work_ok (value_aesEnc _ _), work_ok (cbcEnc_value ..), work_pure, List.append_nil, List.map_append, ih]
    rfl

theorem aesEncrypt_kinds {key iv raw ct : Bytes} (h : AES.encrypt key iv raw = .ok ct) :
    (aesEncrypt tracing key iv raw).work.map kind = List.replicate (raw.length / 16 + 1) .aesEnc := by
  unfold AES.encrypt at h
  unfold aesEncrypt
  by_cases hv : AES.validParams key iv
  · rw [if_pos hv]
    simp only [cbcEnc_kinds]
    congr 1
    simp only [AES.pad, List.length_append, List.length_replicate]
    omega
  · rw [if_neg hv] at h; cases h

theorem createWhisperMessage_trace (hlen : ∀ k m, (C.hmac k m).length = 32) {v : Nat} {k : Bytes} {a : ECPub} {n pn : Nat} {ct : Bytes}
    {i j : ECPub} {m : WhisperMessage} (h : WhisperMessage.create v k a n pn ct i j = .ok m) :
    ∃ o, (createWhisperMessage tracing v k a n pn ct i j).work = [o] ∧ kind o = .hmac ∧ 
      ∀ (fit : Bytes → ECPub → ECPub → Prop), fit k i j → ∀ earlier, MacFound fit m (earlier ++ [o]) := by
  unfold WhisperMessage.create at h
  obtain ⟨c, h1, h⟩ := bind_eq_ok.1 h
  obtain ⟨pc, h2, h⟩ := bind_eq_ok.1 h
  cases h
  unfold createWhisperMessage
  simp only
  rw [work_ok ((value_lift _).trans h1), work_lift, work_ok ((value_lift _).trans h2), work_lift]
  rw [work_ok (getMac_value ..), work_pure]
  refine ⟨_, rfl, rfl, fun fit hf earlier => ⟨earlier, k, i, j, _, _, hf, rfl, rfl, getMac_length hlen _ _ _ _ _, ?_⟩⟩
  unfold WhisperMessage.getMac
  exact (trim_eq_take (by rw [hlen]; simp)).symm

theorem getSenderMessageKey_kinds (c : SenderChainKey) :
    (getSenderMessageKey tracing c).work.map kind = List.replicate 4 .hmac := by
  unfold getSenderMessageKey
  rw [work_ok (value_hmac _ _)]
  unfold senderMessageKey
  rw [work_ok (deriveSecrets_value ..), work_pure, List.append_nil]
  unfold deriveSecrets
  simp only
  rw [work_ok (value_hmac _ _), List.map_append, List.map_append, expandLoop_kinds]
  rfl

theorem createSenderKeyMessage_trace {i n : Nat} {ct : Bytes} {k : ECPriv} {rand : Bytes} {m : SenderKeyMessage}
    (h : SenderKeyMessage.create i n ct k rand = .ok m) :
    ∃ priv body sig, (createSenderKeyMessage tracing i n ct k rand).work = [.calcSig rand priv body] ∧ m.serialized = body ++ sig ∧
      C.calcSig rand priv body = some sig := by
  unfold SenderKeyMessage.create at h
  obtain ⟨id, h1, h⟩ := bind_eq_ok.1 h
  obtain ⟨it, h2, h⟩ := bind_eq_ok.1 h
  obtain ⟨sig, h3, h⟩ := bind_eq_ok.1 h
  cases h
  have sg : ∀ d, Curve.calculateSignature rand k d = .ok sig → C.calcSig rand k d = some sig := by
    intro d h
    unfold Curve.calculateSignature at h
    cases hx : C.calcSig rand k d with
    | none => rw [hx] at h; cases h
    | some s => rw [hx] at h; cases h; rfl
  have hs := sg _ h3
  unfold createSenderKeyMessage
  rw [work_ok ((value_lift _).trans h1), work_lift, work_ok ((value_lift _).trans h2), work_lift]
  simp only
  rw [work_ok ((calculateSignature_value ..).trans h3), work_pure]
  refine ⟨k, _, sig, ?_, rfl, hs⟩
  unfold calculateSignature
  rw [work_ok (value_calcSig _ _ _), orValueError_trace]
  rfl

end Work
end
end Axolotl
