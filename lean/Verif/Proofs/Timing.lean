import Verif.Spec.Timing
import Verif.Proofs.Trace
import Verif.Proofs.Content

/-!
# Which primitives are used does not depend on what is said
-/

namespace Axolotl
section
variable [C : Crypto]
namespace Work
open Logged Traced Fallible Spec

theorem cbcDec_kinds (key : Bytes) (n : Nat) (prev d : Bytes) :
    (cbcDec tracing key n prev d).work.map kind = List.replicate n .aesDec := by
  induction n generalizing prev d with
  | zero => rfl
  | succ n ih =>
    unfold cbcDec
    rw [work_ok (value_aesDec _ _), work_ok (cbcDec_value ..), work_pure, List.append_nil, List.map_append, ih]
    rfl

theorem cbcDec_size (hC : C.Lawful) (key : Bytes) (n : Nat) (prev d : Bytes) (hp : prev.length = 16) (hd : d.length = 16 * n) :
    (AES.cbcDec key n prev d).length = 16 * n := by
  induction n generalizing prev d with
  | zero => rfl
  | succ n ih =>
    have h1 : (d.take 16).length = 16 := by rw [List.length_take]; omega
    unfold AES.cbcDec
    rw [List.length_append, ih _ _ h1 (by rw [List.length_drop]; omega), AES.xorB, List.length_zipWith, hC.aes_dec_len _ _ h1, hp]
    omega

theorem aesDecrypt_kinds (hC : C.Lawful) {key iv enc pt : Bytes} (h : AES.decrypt key iv enc = .ok pt) :
    (aesDecrypt tracing key iv enc).work.map kind = List.replicate (pt.length / 16 + 1) .aesDec := by
  unfold AES.decrypt at h
  unfold aesDecrypt
  by_cases hv : AES.validParams key iv
  · rw [if_pos hv] at h ⊢
    by_cases hd : enc.length % 16 = 0
    · rw [if_pos hd] at h
      have hl : enc.length / 16 = pt.length / 16 + 1 := by
        have hs := cbcDec_size hC key (enc.length / 16) iv enc
          (by unfold AES.validParams at hv; simp only [Bool.and_eq_true, beq_iff_eq] at hv; exact hv.2) (by omega)
        unfold AES.unpad at h
        split at h
        · cases h
        · simp only at h
          split at h
          · cases h
            rename_i hn
            rw [List.length_take, hs]
            rw [hs] at hn
            omega
          · cases h
      rw [if_pos hd, work_ok (cbcDec_value ..), work_lift, List.append_nil, cbcDec_kinds, hl]
    · rw [if_neg hd] at h; cases h
  · rw [if_neg hv] at h; cases h

/-- What is done for an accepted message. -/
theorem accepted_trace {s : SessionState} {m : WhisperMessage} {seed pt : Bytes} {s' : SessionState}
    (h : SessionCipher.decryptWithSessionState s m seed = .ok (pt, s')) :
    ∃ ck s1 mk s2 d, SessionCipher.getOrCreateChainKey s m.senderRatchetKey seed = .ok (ck, s1) ∧
      SessionCipher.getOrCreateMessageKeys s1 m.senderRatchetKey ck m.counter = .ok (mk, s2) ∧
      AES.decrypt mk.cipherKey mk.iv m.ciphertext = .ok pt ∧
      (decryptWithSessionState tracing s m seed).work = (getOrCreateChainKey tracing s m.senderRatchetKey seed).work ++
        ((getOrCreateMessageKeys tracing s1 m.senderRatchetKey ck m.counter).work ++ (.hmac mk.macKey d ::
          (aesDecrypt tracing mk.cipherKey mk.iv m.ciphertext).work)) := by
  obtain ⟨h1, h2, ck, s1, mk, s2, rid, lid, a1, a2, a3, a4, a5, a6, _⟩ := SessionCipher.dwss_ok h
  refine ⟨ck, s1, mk, s2, macData m rid lid, a1, a2, a6, ?_⟩
  unfold decryptWithSessionState
  rw [if_neg (by rw [h1]; decide), if_neg (fun q => q h2), work_ok ((getOrCreateChainKey_value ..).trans a1),
    work_ok ((getOrCreateMessageKeys_value ..).trans a2), work_ok ((value_lift _).trans a3), work_lift,
    work_ok ((value_lift _).trans a4), work_lift, work_ok ((verifyMac_value ..).trans a5), verifyMac_trace,
    work_ok ((aesDecrypt_value ..).trans a6), work_pure, List.append_nil]
  rfl

/-- Two accepted messages with the same header and as many blocks. -/
theorem accepted_kinds (hC : C.Lawful) {s s1 s2 : SessionState} {m m' : WhisperMessage} {seed pt pt' : Bytes} (hm : SameHeader m m')
    (h1 : SessionCipher.decryptWithSessionState s m seed = .ok (pt, s1))
    (h2 : SessionCipher.decryptWithSessionState s m' seed = .ok (pt', s2)) (hpt : pt'.length / 16 = pt.length / 16) :
    (decryptWithSessionState tracing s m' seed).work.map kind = (decryptWithSessionState tracing s m seed).work.map kind := by
  obtain ⟨ck, t1, mk, t2, d, a1, a2, a3, a4⟩ := accepted_trace h1
  obtain ⟨ck', t1', mk', t2', d', b1, b2, b3, b4⟩ := accepted_trace h2
  rw [hm.ratchetKey, a1] at b1
  injection b1 with b1
  injection b1 with c1 c2
  subst c1 c2
  rw [hm.ratchetKey, hm.counter, a2] at b2
  injection b2 with b2
  injection b2 with c1 c2
  subst c1 c2
  rw [a4, b4, hm.ratchetKey, hm.counter]
  simp only [List.map_append, List.map_cons, aesDecrypt_kinds hC a3, aesDecrypt_kinds hC b3, hpt]
  rfl

theorem aes_not_duplicate {key iv enc : Bytes} (h : AES.decrypt key iv enc = .error .duplicateMessage) : False := by
  unfold AES.decrypt AES.unpad at h
  split at h
  · split at h
    · split at h
      · cases h
      · simp only at h
        split at h <;> cases h
    · cases h
  · cases h

/-- Two messages with the same header, one of which is a repetition: so is the other. -/
theorem repeated_trace {s : SessionState} {m m' : WhisperMessage} {seed : Bytes} (hm : SameHeader m m')
    (h : SessionCipher.decryptWithSessionState s m seed = .error .duplicateMessage) :
    (decryptWithSessionState tracing s m' seed).work = (decryptWithSessionState tracing s m seed).work := by
  unfold SessionCipher.decryptWithSessionState at h
  unfold decryptWithSessionState
  rw [hm.version, hm.ratchetKey, hm.counter]
  by_cases h1 : (!s.hasSenderChain) = true
  · rw [if_pos h1, if_pos h1]
  rw [if_neg h1] at h
  rw [if_neg h1, if_neg h1]
  by_cases h2 : m.messageVersion ≠ s.getSessionVersion
  · rw [if_pos h2, if_pos h2]
  rw [if_neg h2] at h
  rw [if_neg h2, if_neg h2]
  cases h3 : SessionCipher.getOrCreateChainKey s m.senderRatchetKey seed with
  | error e => rw [work_error ((getOrCreateChainKey_value ..).trans h3), work_error ((getOrCreateChainKey_value ..).trans h3)]
  | ok p =>
    rw [work_ok ((getOrCreateChainKey_value ..).trans h3), work_ok ((getOrCreateChainKey_value ..).trans h3)]
    rw [h3] at h
    refine congrArg (_ ++ ·) ?_
    cases h4 : SessionCipher.getOrCreateMessageKeys p.2 m.senderRatchetKey p.1 m.counter with
    | error e => rw [work_error ((getOrCreateMessageKeys_value ..).trans h4), work_error ((getOrCreateMessageKeys_value ..).trans h4)]
    | ok q =>
      rw [work_ok ((getOrCreateMessageKeys_value ..).trans h4), work_ok ((getOrCreateMessageKeys_value ..).trans h4)]
      refine congrArg (_ ++ ·) ?_
      rcases bind_eq_error.1 h with h | ⟨p', h3', h⟩
      · cases h
      obtain rfl := Except.ok.inj h3'
      rcases bind_eq_error.1 h with h | ⟨q', h4', h⟩
      · rw [h4] at h; cases h
      obtain rfl := Except.ok.inj (h4.symm.trans h4')
      cases h5 : q.2.getRemoteIdentityKey with
      | error e => rw [work_error ((value_lift _).trans h5), work_error ((value_lift _).trans h5)]
      | ok rid =>
        rw [work_ok ((value_lift _).trans h5), work_ok ((value_lift _).trans h5)]
        refine congrArg (_ ++ ·) ?_
        rcases bind_eq_error.1 h with h | ⟨_, h5', h⟩
        · rw [h5] at h; cases h
        cases h6 : q.2.getLocalIdentityKey with
        | error e => rfl
        | ok lid =>
          exfalso
          rcases bind_eq_error.1 h with h | ⟨_, h6', h⟩
          · rw [h6] at h; cases h
          rcases bind_eq_error.1 h with h | ⟨_, _, h⟩
          · unfold WhisperMessage.verifyMac at h
            simp only at h
            split at h <;> cases h
          · rcases bind_eq_error.1 h with h | ⟨_, _, h⟩
            · exact aes_not_duplicate h
            · cases h

/-- A record whose current state decides. -/
theorem record_trace_ok {r : SessionRecord} {m : WhisperMessage} {seed : Bytes} {x : Bytes × SessionState} (seeds : Nat → Bytes)
    (h : SessionCipher.decryptWithSessionState r.sessionState m seed = .ok x) :
    (decryptWithSessionRecord tracing r m seed seeds).work = (decryptWithSessionState tracing r.sessionState m seed).work := by
  unfold decryptWithSessionRecord
  rw [work_ok (value_attempt _), work_attempt, (decryptWithSessionState_value ..).trans h, work_pure, List.append_nil]

theorem record_trace_dup {r : SessionRecord} {m : WhisperMessage} {seed : Bytes} (seeds : Nat → Bytes)
    (h : SessionCipher.decryptWithSessionState r.sessionState m seed = .error .duplicateMessage) :
    (decryptWithSessionRecord tracing r m seed seeds).work = (decryptWithSessionState tracing r.sessionState m seed).work := by
  unfold decryptWithSessionRecord
  rw [work_ok (value_attempt _), work_attempt, (decryptWithSessionState_value ..).trans h, work_fail, List.append_nil]

/-! ## Writing -/

/-- The same primitives in the same order, and results that are alike. -/
structure Alike {α : Type} (R : α → α → Prop) (x y : Traced α) : Prop where
  kinds : y.work.map kind = x.work.map kind
  value : Like R x.value y.value

omit C in
theorem Alike.bind {α β : Type} {R : α → α → Prop} {S : β → β → Prop} {x y : Traced α} {f g : α → Traced β} (h : Alike R x y)
    (hf : ∀ a b, R a b → Alike S (f a) (g b)) : Alike S (x >>= f) (y >>= g) := by
  refine ⟨?_, ?_⟩
  · have hv := h.value
    cases hx : x.value with
    | ok a =>
      cases hy : y.value with
      | ok b =>
        rw [hx, hy] at hv
        cases hv with
        | ok hab => rw [work_ok hx, work_ok hy, List.map_append, List.map_append, h.kinds, (hf a b hab).kinds]
      | error e => rw [hx, hy] at hv; cases hv
    | error e =>
      cases hy : y.value with
      | ok b => rw [hx, hy] at hv; cases hv
      | error e' => rw [work_error hx, work_error hy, h.kinds]
  · rw [value_bind, value_bind]
    exact h.value.bind fun a b hab => (hf a b hab).value

omit C in
theorem Alike.same {α β : Type} {S : β → β → Prop} {x : Traced α} {f g : α → Traced β} (hf : ∀ a, Alike S (f a) (g a)) :
    Alike S (x >>= f) (x >>= g) := by
  refine Alike.bind (R := Eq) ⟨rfl, ?_⟩ fun a b hab => by subst hab; exact hf a
  cases x.value with
  | ok a => exact .ok rfl
  | error e => exact .error e

omit C in
theorem Alike.lift {α : Type} {R : α → α → Prop} {x y : Res α} (h : Like R x y) : Alike R (Work.lift x : Traced α) (Work.lift y) :=
  ⟨by rw [work_lift, work_lift], by rw [value_lift, value_lift]; exact h⟩

omit C in
theorem Alike.pure {α : Type} {R : α → α → Prop} {x y : α} (h : R x y) : Alike R (Pure.pure x : Traced α) (Pure.pure y) := ⟨rfl, .ok h⟩

theorem aes_alike (hC : C.Lawful) (k iv : Bytes) {pt pt' : Bytes} (h : pt'.length / 16 = pt.length / 16) :
    Alike (fun b b' => b'.length = b.length) (aesEncrypt tracing k iv pt) (aesEncrypt tracing k iv pt') := by
  have hl := aes_like hC k iv pt pt'
  cases hx : AES.encrypt k iv pt with
  | ok a =>
    cases hy : AES.encrypt k iv pt' with
    | ok b =>
      rw [hx, hy] at hl
      cases hl with
      | ok hab =>
        exact ⟨by rw [aesEncrypt_kinds hx, aesEncrypt_kinds hy, h], by rw [aesEncrypt_value, aesEncrypt_value, hx, hy]; exact .ok (hab h)⟩
    | error e => rw [hx, hy] at hl; cases hl
  | error e =>
    have hv : AES.validParams k iv = false := by
      unfold AES.encrypt at hx
      cases hv : AES.validParams k iv with
      | false => rfl
      | true => rw [hv, if_pos rfl] at hx; cases hx
    unfold aesEncrypt
    rw [hv]
    exact ⟨rfl, .error _⟩

theorem getMac_alike (v : Nat) (a b : ECPub) (k d d' : Bytes) :
    Alike (fun _ _ => True) (getMac tracing v a b k d) (getMac tracing v a b k d') := by
  have h : ∀ d, (getMac tracing v a b k d).work.map kind = [.hmac] := by
    intro d
    unfold getMac
    simp only
    rw [work_ok (value_hmac _ _), work_pure]
    rfl
  exact ⟨by rw [h, h], by rw [getMac_value, getMac_value]; exact .ok trivial⟩

theorem create_alike (hC : C.Lawful) (v : Nat) (mk : Bytes) (e : ECPub) (n pc : Nat) (a b : ECPub) {ct ct' : Bytes}
    (h : ct'.length = ct.length) :
    Alike (fun m m' => SameHeader m m' ∧ m'.serialized.length = m.serialized.length)
      (createWhisperMessage tracing v mk e n pc ct a b) (createWhisperMessage tracing v mk e n pc ct' a b) := by
  have hl := create_like hC v mk e n pc a b (P := True) fun _ => h
  refine ⟨?_, ?_⟩
  · refine Alike.kinds (R := fun _ _ => True) ?_
    unfold createWhisperMessage
    refine .same fun _ => .same fun _ => ?_
    exact .bind (getMac_alike ..) fun _ _ _ => .pure trivial
  · rw [createWhisperMessage_value, createWhisperMessage_value]
    cases hx : WhisperMessage.create v mk e n pc ct a b with
    | ok x =>
      cases hy : WhisperMessage.create v mk e n pc ct' a b with
      | ok y =>
        rw [hx, hy] at hl
        cases hl with
        | ok hab => exact .ok ⟨hab.1, hab.2 trivial⟩
      | error e => rw [hx, hy] at hl; cases hl
    | error e =>
      rw [hx] at hl
      generalize WhisperMessage.create v mk _ n pc ct' a b = y at hl
      cases hl
      exact .error _

theorem ews_alike (hC : C.Lawful) (s : SessionState) {pt pt' : Bytes} (h : pt'.length / 16 = pt.length / 16) :
    Alike (fun _ _ => True) (encryptWithState tracing s pt) (encryptWithState tracing s pt') := by
  unfold encryptWithState
  refine .same fun ck => .same fun mk => .same fun eph => ?_
  refine .bind (aes_alike hC _ _ h) fun body body' hb => .same fun lid => .same fun rid => ?_
  refine .bind (create_alike hC _ _ _ _ _ _ _ hb) fun m m' hm => ?_
  split
  · refine .same fun items => ?_
    refine .bind (R := fun _ _ => True) (.lift ?_) fun _ _ _ => .bind (R := fun _ _ => True) (.pure trivial) fun _ _ _ =>
      .same fun _ => .same fun _ => .pure trivial
    have := createPk_like s.getSessionVersion s.getLocalRegistrationId items.preKeyId items.signedPreKeyId items.baseKey lid hm.1
      (P := True) fun _ => hm.2
    generalize PreKeyWhisperMessage.create s.getSessionVersion s.getLocalRegistrationId items.preKeyId items.signedPreKeyId items.baseKey
      lid m = x at this ⊢
    generalize PreKeyWhisperMessage.create s.getSessionVersion s.getLocalRegistrationId items.preKeyId items.signedPreKeyId items.baseKey
      lid m' = y at this ⊢
    cases this with
    | ok _ => exact .ok trivial
    | error e => exact .error e
  · exact .bind (R := fun _ _ => True) (.pure trivial) fun _ _ _ => .same fun _ => .same fun _ => .pure trivial

/-! ## First messages -/

/-- What `process` does depends on the outside of the message only. -/
theorem process_outside {w : World} {a : Address} {r : SessionRecord} {m m' : PreKeyWhisperMessage} (h1 : m'.version = m.version)
    (h2 : m'.registrationId = m.registrationId) (h3 : m'.preKeyId = m.preKeyId) (h4 : m'.signedPreKeyId = m.signedPreKeyId)
    (h5 : m'.baseKey = m.baseKey) (h6 : m'.identityKey = m.identityKey) : process tracing w a r m' = process tracing w a r m := by
  unfold process processV3
  rw [h1, h2, h3, h4, h5, h6]

/-- What is done for a first message that is processed. -/
theorem pkmsg_trace {w : World} {a : Address} {m : PreKeyWhisperMessage} {r : SessionRecord} {u : Option Nat}
    (ht : w.isTrusted a.1 m.identityKey = true) (hv : SessionBuilder.processV3 w (w.loadSession a) m = .ok (r, u))
    (seed : Bytes) (seeds : Nat → Bytes) :
    (decryptPkmsg tracing w a m seed seeds).work = (process tracing w a (w.loadSession a) m).work ++
      (decryptWithSessionRecord tracing r m.message seed seeds).work := by
  unfold decryptPkmsg
  have hp : (SessionBuilder.process w a (w.loadSession a) m).result = .ok (r, u) := by
    unfold SessionBuilder.process
    rw [ht, hv]
    rfl
  rw [work_ok (process_value ..)]
  refine congrArg (_ ++ ·) ?_
  rw [hp]
  simp only
  rw [work_ok (value_attempt _), work_attempt]
  split <;> rw [work_pure, List.append_nil]

theorem msg_trace {w : World} {a : Address} (h : w.containsSession a = true) (m : WhisperMessage) (seed : Bytes) (seeds : Nat → Bytes) :
    (decryptMsg tracing w a m seed seeds).work = (decryptWithSessionRecord tracing (w.loadSession a) m seed seeds).work := by
  unfold decryptMsg
  rw [outcome_trace, h]
  exact mapped_trace _ fun r : Bytes × SessionRecord => ([Write.session a r.2], r.1)

end Work
end
end Axolotl
