import Verif.Proofs.Signing
import Verif.Props.Draws

/-! # C113: what is signed, and with which key -/

namespace Axolotl
section
variable [C : Crypto]
open Spec Logged Traced SessionState SessionBuilder

/-- **C113**, on any stores: the calls of the session API sign only our own base keys, to ask for a key exchange or to answer a request whose
signature is right. -/
theorem C113_call (w : World) (c : Call) (r : Bytes) (k : ECPriv) (d : Bytes) (h : .calcSig r k d ∈ callTrace w c) : Signs w c r k d := by
  have only : ∀ {α : Type} {x : Traced α}, Only (Signs w c) x → Op.calcSig r k d ∈ x.work → Signs w c r k d := fun hx hm => hx.each r k d hm
  unfold callTrace at h
  cases c with
  | encrypt a p =>
    simp only [Work.run, mapped_trace] at h
    unfold Work.encrypt at h
    rw [outcome_trace] at h
    exact only (only_bind (Work.encryptWithState_still _ _).only fun _ _ => only_pure _) h
  | decryptMsg a m s ss =>
    simp only [Work.run, mapped_trace] at h
    unfold Work.decryptMsg at h
    rw [outcome_trace] at h
    exact only (only_ite (fun _ => only_fail _) fun _ => only_bind (Work.record_mute ..) fun _ _ => only_pure _) h
  | decryptPkmsg a m s ss =>
    simp only [Work.run, mapped_trace] at h
    unfold Work.decryptPkmsg at h
    refine only (only_bind (Work.process_still ..).only fun o ho => ?_) h
    split
    · exact only_pure _
    · refine only_bind (only_attempt (Work.record_mute ..)) fun v _ => ?_
      split <;> exact only_pure _
  | processBundle a b s1 s2 =>
    simp only [Work.run, mapped_trace] at h
    exact only (Work.bundle_mute ..) h
  | processKeyExchange a m r =>
    simp only [Work.run, mapped_trace] at h
    unfold Work.processKeyExchangeMessage at h
    refine only (only_ite (fun _ => only_pure _) fun _ => only_ite (fun hm => ?_) fun _ => ?_) h
    · exact Work.initiate_only _ _ _ _ hm
    · exact Work.response_mute ..
  | initKeyExchange a n s1 s2 s3 =>
    simp only [Work.run, mapped_trace] at h
    exact only (Work.init_only ..) h

/-- **C113**, groups, on any stores: only `encrypt` signs, and only the message it sends, with the signing key of the state that sends. -/
theorem C113_group (hC : C.Lawful) (g : GroupStore) (c : GroupCall) (r : Bytes) (k : ECPriv) (d : Bytes)
    (hl : ∀ n pt rand, c = .encrypt n pt rand → pt.length < 2 ^ 62) (h : .calcSig r k d ∈ groupCallTrace g c) : GroupSigns g c r k d := by
  have only : ∀ {α : Type} {x : Traced α}, Only (GroupSigns g c) x → Op.calcSig r k d ∈ x.work → GroupSigns g c r k d :=
    fun hx hm => hx.each r k d hm
  unfold groupCallTrace at h
  cases c with
  | encrypt n pt r =>
    simp only [Work.groupRun, mapped_trace] at h
    exact only (Work.groupEncrypt_only hC _ _ _ _ (hl _ _ _ rfl)) h
  | decrypt n b =>
    simp only [Work.groupRun, mapped_trace] at h
    exact only (Work.groupDecrypt_still ..).only h
  | process n m => cases h
  | create n r =>
    simp only [Work.groupRun, mapped_trace] at h
    unfold Work.groupCreate at h
    exact only (only_ite (fun _ => only_bind (Work.generateKeyPair_mute _) fun _ _ => only_pure _) fun _ => only_pure _) h

/-- What a key exchange that is pending has to do with us: it has our identity key and a base key made from these random bytes. -/
def OwnExchange (id : ECPriv) (seeds : List Bytes) (o : Option PendingKeyExchangeS) : Prop :=
  ∀ p, o = some p → p.localIdentityKeyPrivate = some id ∧ ∃ b ∈ seeds, p.localBaseKey = some (5 :: C.genPub (C.genPriv b))

theorem OwnExchange.more {id : ECPriv} {seeds : List Bytes} (l : List Bytes) {o : Option PendingKeyExchangeS} (h : OwnExchange id seeds o) :
    OwnExchange id (seeds ++ l) o := by
  intro p hp
  obtain ⟨h1, b, h2, h3⟩ := h p hp
  exact ⟨h1, b, List.mem_append_left _ h2, h3⟩

theorem own_next {w : World} {id : ECPriv} {seeds : List Bytes} (hid : w.identityKeyPair.priv = id) (h : PendingAll (OwnExchange id seeds) w)
    (c : Call) : PendingAll (OwnExchange id (seeds ++ baseSeeds c)) (c.next w) := by
  have hnone : OwnExchange id (seeds ++ baseSeeds c) none := fun p hp => by cases hp
  have hmore : PendingAll (OwnExchange id (seeds ++ baseSeeds c)) w := fun a r hr =>
    ⟨(h a r hr).1.more _, fun s hs => ((h a r hr).2 s hs).more _⟩
  by_cases hc : ∃ a q bs rs ss, c = .initKeyExchange a q bs rs ss
  · obtain ⟨b, q, bs, rs, ss, rfl⟩ := hc
    intro a r hr
    rcases applyAll_sessions (ws := ((Call.initKeyExchange b q bs rs ss).run w).writes) (w := w) (a := a) with h1 | ⟨r', hw, h2⟩
    · exact hmore a r (by rw [← h1]; exact hr)
    · have h3 : ((Call.initKeyExchange b q bs rs ss).next w).sessions a = some r' := h2
      rw [h3] at hr
      injection hr with hr
      subst hr
      simp only [Call.run, Call.mapOutcome] at hw
      obtain ⟨s, hs, hws⟩ := initKeyExchange_writes hw
      rw [hws] at hw
      simp only [List.mem_singleton, Write.session.injEq] at hw
      obtain ⟨rfl, rfl⟩ := hw
      refine ⟨?_, (PendingAll.load hnone hmore a).2⟩
      obtain ⟨_, rfl⟩ := setPending_ok hs
      intro p hp
      injection hp with hp
      subst hp
      exact ⟨congrArg some hid, bs, List.mem_append_right _ (List.mem_singleton.2 rfl), rfl⟩
  · exact PendingAll.next hnone hmore fun a q bs rs ss h => hc ⟨a, q, bs, rs, ss, h⟩

theorem own_after {w : World} {id : ECPriv} {seeds : List Bytes} (hid : w.identityKeyPair.priv = id) (h : PendingAll (OwnExchange id seeds) w)
    (cs : List Call) : PendingAll (OwnExchange id (seeds ++ cs.flatMap baseSeeds)) (Call.after w cs) ∧
      (Call.after w cs).identityKeyPair.priv = id := by
  induction cs generalizing w seeds with
  | nil => rw [List.flatMap_nil, List.append_nil]; exact ⟨h, hid⟩
  | cons c cs ih =>
    have := ih (w := c.next w) (seeds := seeds ++ baseSeeds c) (by rw [← hid]; exact congrArg KeyPair.priv (final_identity _ _)) (own_next hid h c)
    rw [List.append_assoc, ← List.flatMap_cons] at this
    exact this

/-- In any history that begins without sessions, whatever messages, bundles and requests come in, all signatures are made with our identity
key, and over public keys that were made in the same history from our own random bytes: nobody can have something signed. -/
theorem C113_history (hC : C.Lawful) (w : World) (hw : w.NoSessions) (cs : List Call) (c : Call)
    (hs : ∀ s ∈ (cs ++ [c]).flatMap baseSeeds, s.length = 32) (r : Bytes) (k : ECPriv) (d : Bytes)
    (h : .calcSig r k d ∈ callTrace (Call.after w cs) c) :
    k = w.identityKeyPair.priv ∧ ∃ s ∈ (cs ++ [c]).flatMap baseSeeds, d = 5 :: C.genPub (C.genPriv s) := by
  obtain ⟨hown, hid⟩ := own_after (w := w) (seeds := []) rfl (fun a r h => by rw [hw a] at h; cases h) cs
  rw [List.nil_append] at hown
  have hin : ∀ s, s ∈ baseSeeds c → s ∈ (cs ++ [c]).flatMap baseSeeds := fun s h =>
    List.mem_flatMap.2 ⟨c, List.mem_append_right _ (List.mem_singleton.2 rfl), h⟩
  cases C113_call _ _ _ _ _ h with
  | ask => exact ⟨hid, _, hin _ (List.mem_singleton.2 rfl), rfl⟩
  | @answer a m rnd identity base ratchet flags hm hv hk =>
    cases hk with
    | new _ => exact ⟨hid, _, hin _ (List.mem_singleton.2 rfl), rfl⟩
    | @pending p _ _ _ hp hk =>
      unfold Spec.pendingOf at hp
      cases hr : (Call.after w cs).sessions a with
      | none => rw [hr] at hp; cases hp
      | some rec =>
        rw [hr] at hp
        obtain ⟨h1, b, hb, h2⟩ := (hown a rec hr).1 p hp
        have hb' : b ∈ (cs ++ [Call.processKeyExchange a m rnd]).flatMap baseSeeds := by
          rw [List.flatMap_append]
          exact List.mem_append_left _ hb
        refine ⟨?_, b, hb', ?_⟩
        · rw [← hk.identity.2, h1]; rfl
        · obtain ⟨x, h3, h4⟩ := hk.base.1
          rw [h2] at h3
          cases h3
          rw [h4, List.take_of_length_le (Nat.le_of_eq (hC.genPub_len _ (hC.genPriv_len _ (hs b hb'))))]

/-- What is signed for a session is never what is signed for a group. -/
theorem C113_apart {w : World} {g : GroupStore} {c : Call} {gc : GroupCall} {r r' : Bytes} {k k' : ECPriv} {d d' : Bytes}
    (h : Signs w c r k d) (h' : GroupSigns g gc r' k' d') : d ≠ d' := by
  cases h' with
  | message _ _ =>
    cases h with
    | ask => intro h; injection h with h _; revert h; decide
    | answer _ _ _ => intro h; injection h with h _; revert h; decide

/-- But a base key signed for a key exchange is as good as a signed prekey: on any stores that a history leads to, a bundle made of the
identity key, the base key and the signature of a key exchange message is accepted, as long as its numbers fit and agreements can be made with
its keys. -/
theorem C113_interchangeable (hC : C.Lawful) (w0 : World) (hw : w0.NoSessions) (hid : w0.identityKeyPair.pub.length = 32) (cs : List Call)
    (a : Address) (m : KeyExchangeMessage) (b : PreKeyBundle) (s1 s2 okm secret : Bytes)
    (hb : b.identityKey = m.identityKey ∧ b.signedPreKey = some m.baseKey ∧ b.signedPreKeySignature = m.baseKeySignature ∧ b.preKey = none)
    (hm : exchangeSignature m = some true) (ht : (Call.after w0 cs).isTrusted a.1 m.identityKey = true)
    (hset : SetupMaterial (Call.after w0 cs).identityKeyPair.priv (C.genPriv s1) m.identityKey m.baseKey none okm)
    (hdh : C.dh (C.genPriv s2) m.baseKey = some secret) (hf : Spec.Fits (Call.after w0 cs).registrationId) (hf' : Spec.Fits b.registrationId)
    (hn : -2 ^ 31 ≤ b.signedPreKeyId ∧ b.signedPreKeyId < 2 ^ 31) :
    ((Call.processBundle a b s1 s2).run (Call.after w0 cs)).result = .ok .done ∧
      ∃ r, ((Call.processBundle a b s1 s2).next (Call.after w0 cs)).sessions a = some r ∧
        r.sessionState.remoteIdentityPublic = some (5 :: m.identityKey) := by
  obtain ⟨h1, h2, h3, h4⟩ := hb
  have hd := Does.bundle (w := Call.after w0 cs) (a := a) (b := b) (baseSeed := s1) (ratchetSeed := s2) (by rw [h1]; exact ht)
    (.session h2 (by rw [h1, h3]; exact hm) (by rw [h1, h4]; exact hset) hdh hf hf' hn.1 hn.2 (by rw [h4]; intro h; cases h))
  have hrun := (C59_exact hC w0 hw hid cs (.processBundle a b s1 s2) trivial _).1 hd
  have key : ∀ {r : SessionRecord} {k : ECPub}, (Call.processBundle a b s1 s2).run (Call.after w0 cs) = ⟨[.session a r, .identity a.1 k], .ok .done⟩ →
      ((Call.processBundle a b s1 s2).next (Call.after w0 cs)).sessions a = some r := by
    intro r k h
    unfold Call.next
    rw [h]
    simp [Outcome.final, World.applyAll, World.apply, upd]
  exact ⟨by rw [hrun], _, key hrun, by rw [← h1]; rfl⟩

end

section
open Example Spec
attribute [local instance] toy

/-- The hypothesis of `C113_call` and `C113_history`: Alice asks for a key exchange, Bob answers. -/
example : .calcSig (key 3) alice0.identityKeyPair.priv (5 :: (toy).genPub ((toy).genPriv (key 1))) ∈
      callTrace alice0 (.initKeyExchange bobAddr 5 (key 1) (key 2) (key 3)) ∧
    .calcSig keRand.sigRand bob0.identityKeyPair.priv (5 :: (toy).genPub ((toy).genPriv keRand.baseSeed)) ∈
      callTrace bob0 (.processKeyExchange aliceAddr keAskMsg keRand) ∧
    (∀ s ∈ baseSeeds (.processKeyExchange aliceAddr keAskMsg keRand), s.length = 32) ∧
    (groupCallTrace ((GroupCall.create grp grpRand).next GroupStore.empty) (.encrypt grp [1] (key 9))).any
      (fun o => match o with | .calcSig r _ d => r == key 9 && d.head? == some 0x33 | _ => false) = true := by
  decide +kernel

/-- Alice has asked for a key exchange and now gets a request from Bob: she signs the base key of her
own request. -/
example : (match (SessionBuilder.processInitKeyExchangeMessage bob0 aliceAddr 9 (key 91) (key 92) (key 93)).result with
    | .error _ => false
    | .ok m => (callTrace keAlice1 (.processKeyExchange bobAddr m ⟨key 81, key 82, key 83, key 84⟩)).any (fun o => match o with
      | .calcSig r k d => r == key 84 && k == alice0.identityKeyPair.priv && some d == (keAlice1.loadSession bobAddr).sessionState.pendingKeyExchange.bind
          (·.localBaseKey)
      | _ => false)) = true := by
  decide +kernel

/-- The base key with which Bob answered a key exchange, and its signature, make a bundle that Alice accepts
(`C113_interchangeable`). -/
example : exchangeSignature keAnswerMsg = some true ∧ (SessionBuilder.processPreKeyBundle alice0 bobAddr { bobBundle with
      identityKey := keAnswerMsg.identityKey, signedPreKey := some keAnswerMsg.baseKey
      signedPreKeySignature := keAnswerMsg.baseKeySignature, preKey := none } (key 41) (key 42)).result.isOk = true := by
  decide +kernel

end
end Axolotl
