import Verif.Proofs.Timing
import Verif.Props.Content
import Verif.Props.GroupContent
import Verif.Props.Trace

/-! # C111: which primitives are used does not depend on what is said -/

namespace Axolotl
section
variable [C : Crypto]
open Spec Logged Traced

/-- `receiveCall` is what `receive` does. -/
theorem C111_receive (w : World) (a : Address) (type : Nat) (bytes seed : Bytes) (seeds : Nat → Bytes) (c : Call)
    (h : receiveCall a type bytes seed seeds = some c) : c.run w = Call.mapOutcome .plaintext (receive w a type bytes seed seeds) := by
  unfold receiveCall at h
  unfold receive
  split at h <;> split at h <;> first | cases h | skip
  · rename_i h1 _ _ h2; rw [if_pos h1, h2]; rfl
  · rename_i h1 _ _ h2; rw [if_neg h1, h2]; rfl

/-- **C111**, writing, on any stores: plaintexts with the same number of blocks are encrypted, or refused, by the same primitives in the
same order. -/
theorem C111_write (hC : C.Lawful) (w : World) (a : Address) (pt pt' : Bytes) (h : pt'.length / 16 = pt.length / 16) :
    callKinds w (.encrypt a pt') = callKinds w (.encrypt a pt) := by
  unfold callKinds callTrace
  simp only [Work.run, mapped_trace]
  unfold Work.encrypt
  rw [outcome_trace, outcome_trace]
  simp only
  have h1 : ∀ d (g : Ciphertext × SessionState → List Write × Ciphertext),
      ((Work.encryptWithState tracing (w.loadSession a).sessionState d) >>= fun r => pure (g r)).work =
      (Work.encryptWithState tracing (w.loadSession a).sessionState d).work := fun d g => mapped_trace _ g
  rw [h1, h1]
  exact (Work.ews_alike hC _ h).kinds

/-- **C111**, reading, on any stores without archived sessions: two messages with the same header that are both accepted and say as many
blocks. -/
theorem C111_read (hC : C.Lawful) (w : World) (a : Address) (m m' : WhisperMessage) (seed pt pt' : Bytes) (seeds : Nat → Bytes)
    (hone : (w.loadSession a).previousStates = []) (hm : SameHeader m m') (hpt : pt'.length / 16 = pt.length / 16)
    (h : (SessionCipher.decryptMsg w a m seed seeds).result = .ok pt) (h' : (SessionCipher.decryptMsg w a m' seed seeds).result = .ok pt') :
    callKinds w (.decryptMsg a m' seed seeds) = callKinds w (.decryptMsg a m seed seeds) := by
  have key : ∀ (m : WhisperMessage) (pt : Bytes), (SessionCipher.decryptMsg w a m seed seeds).result = .ok pt →
      w.containsSession a = true ∧ ∃ s, SessionCipher.decryptWithSessionState (w.loadSession a).sessionState m seed = .ok (pt, s) := by
    intro m pt h
    unfold SessionCipher.decryptMsg at h
    cases hc : w.containsSession a with
    | false => rw [hc] at h; cases h
    | true =>
      rw [hc] at h
      refine ⟨rfl, ?_⟩
      simp only [Bool.not_true, Bool.false_eq_true, if_false] at h
      cases hs : SessionCipher.decryptWithSessionState (w.loadSession a).sessionState m seed with
      | ok x =>
        obtain ⟨p, s⟩ := x
        rw [dwsr_forward seeds hs] at h
        cases h
        exact ⟨s, rfl⟩
      | error e =>
        exfalso
        unfold SessionCipher.decryptWithSessionRecord at h
        rw [hs, hone] at h
        cases e <;> cases h
  obtain ⟨hc, s1, h1⟩ := key m pt h
  obtain ⟨_, s2, h2⟩ := key m' pt' h'
  unfold callKinds callTrace
  simp only [Work.run, mapped_trace]
  rw [Work.msg_trace hc, Work.msg_trace hc, Work.record_trace_ok seeds h1, Work.record_trace_ok seeds h2]
  exact Work.accepted_kinds hC hm h1 h2 hpt

theorem open_kinds {cv : Conv} {ids : Bool → ECPub} {hd : PkHeader} {b : Bool} {w : World} {r : SessionRecord}
    {c : Ciphertext} (h1 : w.sessions (cv.addr b) = some r)
    (h2 : b = false → cv.waits = true → r.sessionState.sessionVersion = some 3 ∧
      r.sessionState.aliceBaseKey = some (Curve.serializePoint hd.baseKey))
    (ht : b = false → cv.waits = true → w.isTrusted (cv.addr false).1 (ids true) = true)
    (hc : WireOk cv ids hd (!b) c) (seed : Bytes) (seeds : Nat → Bytes) :
    receiveKinds w (cv.addr b) c.getType c.serialize seed seeds =
      (Work.decryptWithSessionRecord tracing { r with fresh := false } c.inner seed seeds).work.map kind := by
  have hload : w.loadSession (cv.addr b) = { r with fresh := false } := by unfold World.loadSession; rw [h1]
  rcases hc with ⟨m, rfl, hm⟩ | ⟨hb, hwt, m, p, p', rfl, hp⟩
  · unfold receiveKinds receiveCall Ciphertext.getType Ciphertext.serialize Ciphertext.inner
    simp only
    rw [if_neg (by decide), hm]
    unfold callKinds callTrace
    simp only [Work.run, mapped_trace]
    rw [Work.msg_trace (by unfold World.containsSession; rw [h1]; rfl), hload]
  · obtain rfl : b = false := by cases b with | false => rfl | true => cases hb
    obtain ⟨v1, v2⟩ := h2 rfl hwt
    unfold receiveKinds receiveCall Ciphertext.getType Ciphertext.serialize Ciphertext.inner
    simp only
    rw [if_pos (by rfl), hp.parse]
    have hk : (w.loadSession (cv.addr false)).hasSessionState p'.version (Curve.serializePoint p'.baseKey) = true := by
      rw [hload, hasSessionState_iff, hp.version, hp.bk]
      refine ⟨r.sessionState, ?_, ?_, ?_⟩
      · exact List.mem_cons_self ..
      · rw [v1]; rfl
      · rw [v2]; rfl
    have hv : SessionBuilder.processV3 w (w.loadSession (cv.addr false)) p' = .ok ({ r with fresh := false }, none) := by
      unfold SessionBuilder.processV3
      rw [if_pos hk, hload]
    have htr : w.isTrusted (cv.addr false).1 p'.identityKey = true := by rw [hp.ik]; exact ht rfl hwt
    have hq : (Work.process tracing w (cv.addr false) (w.loadSession (cv.addr false)) p').work = [] := by
      unfold Work.process Work.processV3
      rw [htr, if_pos hk]
      rfl
    unfold callKinds callTrace
    simp only [Work.run, mapped_trace]
    rw [Work.pkmsg_trace htr hv, hq, hp.message', hp.message]
    rfl

/-- **C111**, whole conversations: two runs in which the same things happen and only the words differ (C94).  Receiving a message and its
counterpart with as many blocks uses the same primitives in the same order, whether it is the first message, a later one, one out of order
or a repetition. -/
theorem C111_deliver (hC : C.Lawful) {cv : Conv} {n0 n m : Net} (h0 : Start cv n0) (hn : Steps cv n0 n) (hm : Steps cv n0 m)
    {say : Bool → Nat → Bytes} (hR : Retold say n m) {b : Bool} {i : Nat} {c c' : Ciphertext} {pt pt' seed : Bytes} (seeds : Nat → Bytes)
    (hi : (n.sent (!b))[i]? = some (c, pt)) (hi' : (m.sent (!b))[i]? = some (c', pt')) (hpt : pt'.length / 16 = pt.length / 16)
    (hl : i ∉ n.accepted b → n.inLimits cv b (header c)) (hr : i ∈ n.accepted b → n.remembered cv b (header c))
    (hseed : seed.length = 32) (hfresh : C.genPub (C.genPriv seed) ∉ n.keys) :
    receiveKinds (m.world b) (cv.addr b) c'.getType c'.serialize seed seeds =
      receiveKinds (n.world b) (cv.addr b) c.getType c.serialize seed seeds := by
  obtain ⟨ids, hd, g0, hall⟩ := start_both hC h0
  obtain ⟨_, hs, _⟩ := hR.sent (!b) i c c' pt pt' hi hi'
  obtain ⟨hl', hr', _⟩ := deliver_content hC (hall n hn) (hall m hm) hR seeds hi hi' hs hl hr hseed hfresh
  obtain ⟨⟨g, hg, hw, _⟩, _⟩ := hall n hn
  obtain ⟨⟨g', hg', hw', _⟩, _⟩ := hall m hm
  have hwire := hw.wire _ _ _ _ hi
  have hwire' := hw'.wire _ _ _ _ hi'
  by_cases hwt : b = false ∧ cv.waits = true ∧ n.accepted false = []
  · obtain ⟨rfl, ht, ha⟩ := hwt
    have q := hw.waiting ht ha
    have q' := hw'.waiting ht (by rw [hR.accepted]; exact ha)
    have hna : i ∉ n.accepted false := by rw [ha]; simp
    have hna' : i ∉ m.accepted false := by rw [hR.accepted]; exact hna
    obtain ⟨p, rfl⟩ := q.announced i c pt hi
    obtain ⟨p2, rfl⟩ := q'.announced i c' pt' hi'
    rcases hwire with ⟨_, x, _⟩ | ⟨_, _, m1, _, p', x, an⟩
    · cases x
    rcases hwire' with ⟨_, x', _⟩ | ⟨_, _, m2, _, p2', x', an'⟩
    · cases x'
    injection x with x; subst x
    injection x' with x'; subst x'
    obtain ⟨otId, hot⟩ : ∃ o, hd.preKeyId = some o := by
      obtain ⟨_, _, otId, _, _, k2, _⟩ := q.keys
      exact ⟨otId, k2⟩
    have hreg := (hw.hdr ht).reg
    obtain ⟨r, s1, u, a1, a2⟩ := waiting_state hC hg q hi (hl hna) hseed an.version (by rw [an.reg]; exact hreg)
      (by rw [an.pk, hot]; rfl) an.spk an.bk an.ik (by rw [an.message']; exact an.message.symm)
    obtain ⟨r', s2, u', b1, b2⟩ := waiting_state hC hg' q' hi' (hl' hna') hseed an'.version (by rw [an'.reg]; exact hreg)
      (by rw [an'.pk, hot]; rfl) an'.spk an'.bk an'.ik (by rw [an'.message']; exact an'.message.symm)
    have htr := hw.trusted ht
    have e1 : p2'.version = p'.version := by rw [an.version, an'.version]
    have e2 : p2'.registrationId = p'.registrationId := by rw [an.reg, an'.reg]
    have e3 : p2'.preKeyId = p'.preKeyId := by rw [an.pk, an'.pk]
    have e4 : p2'.signedPreKeyId = p'.signedPreKeyId := by rw [an.spk, an'.spk]
    have e5 : p2'.baseKey = p'.baseKey := by rw [an.bk, an'.bk]
    have e6 : p2'.identityKey = p'.identityKey := by rw [an.ik, an'.ik]
    rw [hR.world, processV3_outside e1 e2 e3 e4 e5 e6, a1] at b1
    injection b1 with b1
    injection b1 with c1 c2
    subst c1 c2
    have hin := outside_inner hs
    have hin' : SameHeader p'.message p2'.message := by
      rw [an.message', an'.message']
      exact (show SameHeader m1 m2 from by rw [← an.message, ← an'.message]; exact hin)
    rw [hR.world]
    unfold receiveKinds receiveCall Ciphertext.getType Ciphertext.serialize
    simp only
    rw [if_pos (by rfl), if_pos (by rfl), an.parse, an'.parse]
    unfold callKinds callTrace
    simp only [Work.run, mapped_trace]
    rw [Work.pkmsg_trace (by rw [an.ik]; exact htr) a1,
      Work.pkmsg_trace (m := p2') (r := r) (u := u) (by rw [an'.ik]; exact htr) ((processV3_outside e1 e2 e3 e4 e5 e6).trans a1),
      Work.process_outside e1 e2 e3 e4 e5 e6, Work.record_trace_ok seeds a2, Work.record_trace_ok seeds b2,
      List.map_append, List.map_append, Work.accepted_kinds hC hin' a2 b2 hpt]
  · obtain ⟨r, q1, q2, q3, q4⟩ : Open cv ids hd g b (n.world b) := by
      rcases hw.sides b with ho | ⟨hb, q⟩
      · exact ho
      · exact absurd ⟨hb, q.waits, q.accepted⟩ hwt
    obtain ⟨r', q1', q2', q3', q4'⟩ : Open cv ids hd g' b (m.world b) := by
      rcases hw'.sides b with ho | ⟨hb, q⟩
      · exact ho
      · exact absurd ⟨hb, q.waits, by rw [← hR.accepted]; exact q.accepted⟩ hwt
    rw [hR.world, q1] at q1'
    obtain rfl := Option.some.inj q1'
    rw [hR.world, open_kinds (b := b) (hd := hd) (ids := ids) q1 (fun x y => ⟨q2.version, q4 x y⟩)
      (by rintro rfl y; exact hw.trusted y) hwire seed seeds,
      open_kinds (b := b) (hd := hd) (ids := ids) q1 (fun x y => ⟨q2.version, q4 x y⟩)
      (by rintro rfl y; exact hw.trusted y) hwire' seed seeds]
    by_cases ha : i ∈ n.accepted b
    · have ha' : i ∈ m.accepted b := by rw [hR.accepted]; exact ha
      have d1 := hg.again hC q2 hi ha (hr ha) seed
      have d2 := hg'.again hC q2' hi' ha' (hr' ha') seed
      rw [Work.record_trace_dup (r := { r with fresh := false }) seeds d1, Work.record_trace_dup (r := { r with fresh := false }) seeds d2,
        Work.repeated_trace (outside_inner hs) d1]
    · have ha' : i ∉ m.accepted b := by rw [hR.accepted]; exact ha
      obtain ⟨s1, _, d1, _⟩ := hg.receive hC q2 hi ha (hl ha) hseed hfresh
      obtain ⟨s2, _, d2, _⟩ := hg'.receive hC q2' hi' ha' (hl' ha') hseed (by rw [hR.keys]; exact hfresh)
      rw [Work.record_trace_ok (r := { r with fresh := false }) seeds d1, Work.record_trace_ok (r := { r with fresh := false }) seeds d2]
      exact Work.accepted_kinds hC (outside_inner hs) d1 d2 hpt

/-- **C111**, groups, sending. -/
theorem C111_group_write (g : GroupStore) (n : SenderKeyName) (pt pt' rand rand' b b' : Bytes) (hpt : pt'.length / 16 = pt.length / 16)
    (h : (GroupCipher.encrypt g n pt rand).result = .ok b) (h' : (GroupCipher.encrypt g n pt' rand').result = .ok b') :
    groupCallKinds g (.encrypt n pt' rand') = groupCallKinds g (.encrypt n pt rand) := by
  obtain ⟨keys, blocks, priv, body, sig, ck, h1, _, _, h2, h3⟩ := C110_group_write g n pt rand b h
  obtain ⟨keys', blocks', priv', body', sig', ck', h1', _, _, h2', h3'⟩ := C110_group_write g n pt' rand' b' h'
  unfold groupCallKinds
  rw [h1, h1']
  simp only [List.map_append, h2, h3, h2', h3', hpt]
  rfl

/-- Checking a group message is one check of a signature. -/
theorem verify_trace (m : SenderKeyMessage) (pub : ECPub) :
    ∃ d sig, (Work.verifySenderKeyMessage tracing m pub).work = [.verifySig pub d sig] := by
  refine ⟨(ByteUtil.split2 m.serialized ((m.serialized.length : Int) - SenderKeyMessage.SIGNATURE_LENGTH) SenderKeyMessage.SIGNATURE_LENGTH).1,
    (ByteUtil.split2 m.serialized ((m.serialized.length : Int) - SenderKeyMessage.SIGNATURE_LENGTH) SenderKeyMessage.SIGNATURE_LENGTH).2, ?_⟩
  unfold Work.verifySenderKeyMessage
  simp only
  cases hs : Curve.verifySignature pub (ByteUtil.split2 m.serialized ((m.serialized.length : Int) - SenderKeyMessage.SIGNATURE_LENGTH)
      SenderKeyMessage.SIGNATURE_LENGTH).1 (ByteUtil.split2 m.serialized ((m.serialized.length : Int) - SenderKeyMessage.SIGNATURE_LENGTH)
      SenderKeyMessage.SIGNATURE_LENGTH).2 with
  | error e => rw [work_error ((Work.verifySignature_value ..).trans hs), Work.verifySignature_trace]
  | ok v =>
    rw [work_ok ((Work.verifySignature_value ..).trans hs), Work.verifySignature_trace]
    cases v <;> rfl

/-- What is done for a group message that is accepted. -/
theorem group_accepted_trace {g : GroupStore} {n : SenderKeyName} {b pt : Bytes} (h : (GroupCipher.decrypt g n b).result = .ok pt) :
    ∃ m s j pub k s' d sig, SenderKeyMessage.parse b = .ok m ∧ (g n).getStateById m.keyId = .ok (s, j) ∧
      GroupCipher.getSenderKey s m.iteration = .ok (k, s') ∧ AES.decrypt k.cipherKey k.iv m.ciphertext = .ok pt ∧
      groupCallTrace g (.decrypt n b) = .verifySig pub d sig :: ((Work.getSenderKey tracing s m.iteration).work ++
        (Work.aesDecrypt tracing k.cipherKey k.iv m.ciphertext).work) := by
  obtain ⟨m, s, j, pub, k, s', h1, h2, h3, h4, h5, h6, _⟩ := GroupCipher.decrypt_ok h
  obtain ⟨d, sig, hv⟩ := verify_trace m pub
  refine ⟨m, s, j, pub, k, s', d, sig, h1, h2, h5, h6, ?_⟩
  have hne : (g n).isEmpty = false := by
    cases he : (g n).isEmpty with
    | false => rfl
    | true =>
      unfold GroupCipher.decrypt GroupCipher.decryptWithRecord at h
      rw [he] at h
      cases h
  have hg : (Work.getPlainText tracing k.iv k.cipherKey m.ciphertext).work = (Work.aesDecrypt tracing k.cipherKey k.iv m.ciphertext).work := by
    unfold Work.getPlainText
    rw [work_ok (value_attempt _), work_attempt, work_lift, List.append_nil]
  have hgv : (Work.getPlainText tracing k.iv k.cipherKey m.ciphertext).value = .ok pt := by
    rw [Work.getPlainText_value]
    unfold GroupCipher.getPlainText
    rw [h6]
    rfl
  unfold groupCallTrace
  simp only [Work.groupRun, mapped_trace]
  unfold Work.groupDecrypt
  rw [work_ok (value_attempt _), work_attempt]
  refine Eq.trans (congrArg (_ ++ ·) (?_ : _ = ([] : List Op))) ?_
  · split <;> rfl
  rw [List.append_nil]
  unfold Work.decryptWithRecord
  rw [hne, if_neg (by decide), work_ok ((value_lift _).trans h1), work_lift, work_ok ((value_lift _).trans h2), work_lift,
    work_ok ((value_lift _).trans h3), work_lift, work_ok ((Work.verifySenderKeyMessage_value ..).trans h4), hv,
    work_ok ((Work.getSenderKey_value ..).trans h5), work_ok hgv, work_pure, List.append_nil, hg]
  rfl

/-- Deciding that the key of an iteration is gone uses no primitive. -/
theorem getSenderKey_repeated {s : SenderKeyState} {i : Nat} (h : GroupCipher.getSenderKey s i = .error .duplicateMessage) :
    (Work.getSenderKey tracing s i).work = [] := by
  have hp : i < iterationOf s := by
    rcases getSenderKey_error h with ⟨_, h⟩ | ⟨h, _⟩
    · exact h
    · cases h
  have hk : SenderKeyState.hasSenderMessageKey s i = false := by
    cases hk : SenderKeyState.hasSenderMessageKey s i with
    | false => rfl
    | true =>
      exfalso
      unfold GroupCipher.getSenderKey at h
      simp only at h
      rw [if_pos (show (SenderKeyState.getSenderChainKey s).iteration > i by rw [position_eq]; exact hp), hk, if_pos rfl] at h
      split at h <;> cases h
  unfold Work.getSenderKey
  simp only
  rw [if_pos (show (SenderKeyState.getSenderChainKey s).iteration > i by rw [position_eq]; exact hp), hk]
  rfl

/-- What is done for a group message whose key is gone: its signature is checked, and that is all. -/
theorem group_repeated_trace {g : GroupStore} {n : SenderKeyName} {b : Bytes}
    (h : (GroupCipher.decrypt g n b).result = .error .duplicateMessage) :
    ∃ pub d sig, groupCallTrace g (.decrypt n b) = [.verifySig pub d sig] := by
  unfold GroupCipher.decrypt at h
  cases he : GroupCipher.decryptWithRecord (g n) b with
  | ok p => rw [he] at h; cases h
  | error e' =>
    rw [he] at h
    simp only at h
    have hd : e' = .duplicateMessage := by
      unfold GroupCipher.wrapInvalid at h
      split at h
      · cases h
      · cases h
      · exact Except.error.inj h
    subst hd
    unfold GroupCipher.decryptWithRecord at he
    split at he
    · cases he
    · rename_i hne
      rcases bind_eq_error.1 he with he | ⟨m, h1, he⟩
      · unfold SenderKeyMessage.parse at he
        split at he
        · cases he
        · cases wrapAll_error he
      rcases bind_eq_error.1 he with he | ⟨⟨s, j⟩, h2, he⟩
      · cases (SenderKeyRecord.findState_error he).1
      rcases bind_eq_error.1 he with he | ⟨pub, h3, he⟩
      · unfold SenderKeyState.getSigningKeyPublic at he
        by_cases hn : (s.senderSigningKey.getD {}).pub.getD [] = []
        · simp only at he
          rw [hn] at he
          cases he
        · cases decodePoint_error hn he
      rcases bind_eq_error.1 he with he | ⟨_, h4, he⟩
      · unfold SenderKeyMessage.verifySignature at he
        simp only at he
        rcases bind_eq_error.1 he with he | ⟨x, _, he⟩
        · unfold Curve.verifySignature at he
          split at he <;> cases he
        · split at he <;> cases he
      rcases bind_eq_error.1 he with h5 | ⟨⟨k, s'⟩, _, he⟩
      · obtain ⟨d, sig, hv⟩ := verify_trace m pub
        refine ⟨pub, d, sig, ?_⟩
        unfold groupCallTrace
        simp only [Work.groupRun, mapped_trace]
        unfold Work.groupDecrypt
        rw [work_ok (value_attempt _), work_attempt]
        refine Eq.trans (congrArg (_ ++ ·) (?_ : _ = ([] : List Op))) ?_
        · split <;> rfl
        rw [List.append_nil]
        unfold Work.decryptWithRecord
        rw [if_neg hne, work_ok ((value_lift _).trans h1), work_lift, work_ok ((value_lift _).trans h2), work_lift,
          work_ok ((value_lift _).trans h3), work_lift, work_ok ((Work.verifySenderKeyMessage_value ..).trans h4), hv,
          work_error ((Work.getSenderKey_value ..).trans h5), getSenderKey_repeated h5]
        rfl
      · rcases bind_eq_error.1 he with he | ⟨pt, _, he⟩
        · unfold GroupCipher.getPlainText at he
          cases wrapAll_error he
        · cases he

/-- **C111**, groups, receiving: two messages with the same key id and iteration that are both accepted and say as many blocks. -/
theorem C111_group_read (hC : C.Lawful) (g : GroupStore) (n : SenderKeyName) (b b' pt pt' : Bytes) (m m' : SenderKeyMessage)
    (hm : SenderKeyMessage.parse b = .ok m) (hm' : SenderKeyMessage.parse b' = .ok m') (hid : m'.keyId = m.keyId)
    (hit : m'.iteration = m.iteration) (hpt : pt'.length / 16 = pt.length / 16) (h : (GroupCipher.decrypt g n b).result = .ok pt)
    (h' : (GroupCipher.decrypt g n b').result = .ok pt') :
    groupCallKinds g (.decrypt n b') = groupCallKinds g (.decrypt n b) := by
  obtain ⟨x, s, j, pub, k, s1, d, sig, h1, h2, h3, h4, h5⟩ := group_accepted_trace h
  obtain ⟨x', s', j', pub', k', s1', d', sig', h1', h2', h3', h4', h5'⟩ := group_accepted_trace h'
  obtain rfl := Except.ok.inj (hm.symm.trans h1)
  obtain rfl := Except.ok.inj (hm'.symm.trans h1')
  rw [hid, h2] at h2'
  injection h2' with h2'
  injection h2' with e1 e2
  subst e1 e2
  rw [hit, h3] at h3'
  injection h3' with h3'
  injection h3' with e1 e2
  subst e1 e2
  unfold groupCallKinds
  rw [h5, h5', hit]
  simp only [List.map_cons, List.map_append, Work.aesDecrypt_kinds hC h4, Work.aesDecrypt_kinds hC h4', hpt]
  rfl

/-- **C111**, groups as a whole.  In any run of a group and the run in which other words are said, the message number `i`, delivered to
any member, is read or refused by the same primitives in the same order if it says as many blocks. -/
theorem C111_group_deliver {M : Type} [DecidableEq M] (hC : C.Lawful) (owner : SenderKeyName → M) (S : M → GroupStore) (log log' : RoomLog M)
    (hr : RoomReach owner S log) (hr' : RoomReach owner S log') (say : SenderKeyName → Nat → Bytes) (h : RoomRetold say log log')
    (m : M) (n : SenderKeyName) (i : Nat) (x x' : GroupSent) (hx : (sentUnder n log)[i]? = some x)
    (hx' : (sentUnder n log')[i]? = some x') (hpt : x'.plaintext.length / 16 = x.plaintext.length / 16) :
    groupCallKinds (S m) (.decrypt n x'.bytes) = groupCallKinds (S m) (.decrypt n x.bytes) := by
  have again : GroupCipher.decrypt (S m) n x.bytes = ⟨none, .error .duplicateMessage⟩ →
      GroupCipher.decrypt (S m) n x'.bytes = ⟨none, .error .duplicateMessage⟩ →
      groupCallKinds (S m) (.decrypt n x'.bytes) = groupCallKinds (S m) (.decrypt n x.bytes) := by
    intro h1 h2
    obtain ⟨p, d, s, q⟩ := group_repeated_trace (g := S m) (n := n) (b := x.bytes) (by rw [h1])
    obtain ⟨p', d', s', q'⟩ := group_repeated_trace (g := S m) (n := n) (b := x'.bytes) (by rw [h2])
    unfold groupCallKinds
    rw [q, q']
    rfl
  have mx := List.mem_iff_getElem?.2 ⟨i, hx⟩
  have mx' := List.mem_iff_getElem?.2 ⟨i, hx'⟩
  by_cases hm : m = owner n
  · subst hm
    exact again (C72_owner hC owner S log hr n x mx) (C72_owner hC owner S log' hr' n x' mx')
  · have hh := h.heard m n
    cases hd : heardBy m n log with
    | nil =>
      have he := C72_unheard hC owner S log hr n m hm hd
      have hnil : (S m n).isEmpty = true := by
        rcases decrypt_exceptions (S m) n [] .noSession (by rw [he]) with ⟨_, e⟩ | e | e | e | ⟨e, _⟩ | ⟨e, _⟩
        · exact (isEmpty_iff _).2 e
        all_goals cases e
      have hno : ∀ b, groupCallKinds (S m) (.decrypt n b) = [] := by
        intro b
        unfold groupCallKinds groupCallTrace
        simp only [Work.groupRun, mapped_trace]
        unfold Work.groupDecrypt
        rw [work_ok (value_attempt _), work_attempt]
        unfold Work.decryptWithRecord
        rw [if_pos hnil]
        rfl
      rw [hno, hno]
    | cons d rest =>
      have hd' := hh.trans hd
      obtain ⟨k, hk, _⟩ := C72_heard hC owner S log hr n m hm d rest hd
      have hk' := (h.announced n k d).2 hk
      by_cases hi : i < k
      · exact again (C72_before hC owner S log hr n m hm d rest hd k hk i x hx hi)
          (C72_before hC owner S log' hr' n m hm d rest hd' k hk' i x' hx' hi)
      · by_cases hread : ∃ p ∈ readBy m n log, SameBody p.1 x.bytes
        · obtain ⟨p', hp', hpx'⟩ := (h.read_iff hC hr hr' hx hx').1 hread
          obtain ⟨p, hp, hpx⟩ := hread
          exact again (C72_again hC owner S log hr n m p hp x mx hpx) (C72_again hC owner S log' hr' n m p' hp' x' mx' hpx')
        · have r1 := C72_read hC owner S log hr n m hm d rest hd k hk i x hx (by omega) (fun p hp q => hread ⟨p, hp, q⟩)
          have r2 := C72_read hC owner S log' hr' n m hm d rest hd' k hk' i x' hx' (by omega)
            (fun p hp q => hread ((h.read_iff hC hr hr' hx hx').2 ⟨p, hp, q⟩))
          obtain ⟨_, ⟨id, it, _, _, _, _, _, _, _, _, ⟨y, p1, p2, p3⟩, ⟨y', q1, q2, q3⟩⟩, _⟩ := h.message n i x x' hx hx'
          exact C111_group_read hC (S m) n x.bytes x'.bytes _ _ y y' p1 q1 (by rw [p2, q2]) (by rw [p3, q3]) hpt r1 r2

end

/-! ## Non-vacuity -/

section
attribute [local instance] toy
open Example Spec

/-- Another reply of Bob's. -/
def Example.otherReply : WhisperMessage :=
  match (SessionCipher.encrypt bob1 aliceAddr [7, 7, 7]).result with | .ok c => c.inner | .error _ => noMessage

/-- `C111_write` and what it does not say: with one more block there is one more encryption. -/
example : callKinds alice1 (.encrypt bobAddr [1]) = callKinds alice1 (.encrypt bobAddr (List.replicate 15 2)) ∧
    callKinds alice1 (.encrypt bobAddr [1]) ≠ callKinds alice1 (.encrypt bobAddr (List.replicate 16 2)) := by decide +kernel

/-- The hypotheses of `C111_read`. -/
example : (alice2.loadSession bobAddr).previousStates = [] ∧ SameHeader replyMsg otherReply ∧ replyMsg ≠ otherReply ∧
    (SessionCipher.decryptMsg alice2 bobAddr replyMsg (key 43) (fun _ => key 44)).result = .ok [121, 111] ∧
    (SessionCipher.decryptMsg alice2 bobAddr otherReply (key 43) (fun _ => key 44)).result = .ok [7, 7, 7] := by
  refine ⟨by decide +kernel, ⟨by decide +kernel, by decide +kernel, by decide +kernel, by decide +kernel⟩, by decide +kernel,
    by decide +kernel, by decide +kernel⟩

/-- The hypotheses of `C111_deliver`: the conversation of `convRun` with other words, all of one block.  `convCheck` says what is asked of
the next delivery, of a message that was not yet accepted and of one that was. -/
example : ∃ n m, Start convCv conv0 ∧ Steps convCv conv0 n ∧ Steps convCv conv0 m ∧ Retold (fun _ _ => [9]) n m ∧ convCheck n = true ∧
    ∀ b, ((n.sent b).all fun x => x.2.length / 16 == 0) = true := by
  have h : (convRun.any fun n => convCheck n && [false, true].all fun b => (n.sent b).all fun x => x.2.length / 16 == 0) = true := by
    decide +kernel
  cases hr : convRun with
  | none => rw [hr] at h; cases h
  | some n =>
    rw [hr] at h
    obtain ⟨m, h1, h2⟩ := C94_retold toy_lawful conv_start (convRun_steps hr) (fun _ _ => [9]) (by intro b i; simp)
    simp only [Option.any_some, Bool.and_eq_true, List.all_cons, List.all_nil] at h
    refine ⟨n, m, conv_start, convRun_steps hr, h1, h2, h.1, ?_⟩
    intro b
    cases b
    · exact h.2.1
    · exact h.2.2.1

/-- The hypotheses of the group theorems: two messages with the same id and iteration, of one block each, both accepted. -/
example : (GroupCipher.decrypt (GroupCall.after GroupStore.empty [.process grp grpDist]) grp (grpMsg 1)).result = .ok [2, 2] ∧
    ∃ b, (GroupCipher.encrypt (GroupCall.after GroupStore.empty (grpCalls.take 4)) grp [8] grpSig).result = .ok b ∧
      (GroupCipher.decrypt (GroupCall.after GroupStore.empty [.process grp grpDist]) grp b).result = .ok [8] ∧
      groupCallKinds (GroupCall.after GroupStore.empty [.process grp grpDist]) (.decrypt grp b) =
        [.verifySig, .hmac, .hmac, .hmac, .hmac, .hmac, .hmac, .hmac, .hmac, .hmac, .hmac, .aesDec] := by
  have h : ((GroupCipher.encrypt (GroupCall.after GroupStore.empty (grpCalls.take 4)) grp [8] grpSig).result.toOption.any fun b =>
      decide ((GroupCipher.decrypt (GroupCall.after GroupStore.empty [.process grp grpDist]) grp b).result = .ok [8] ∧
        groupCallKinds (GroupCall.after GroupStore.empty [.process grp grpDist]) (.decrypt grp b) =
        [.verifySig, .hmac, .hmac, .hmac, .hmac, .hmac, .hmac, .hmac, .hmac, .hmac, .hmac, .aesDec])) = true := by
    decide +kernel
  refine ⟨by decide +kernel, ?_⟩
  cases hb : (GroupCipher.encrypt (GroupCall.after GroupStore.empty (grpCalls.take 4)) grp [8] grpSig).result with
  | error e => rw [hb] at h; cases h
  | ok b =>
    rw [hb] at h
    exact ⟨b, rfl, of_decide_eq_true h⟩

/-- `C111_group_deliver` on the run of `roomCalls` and the run in which all messages say `[9]`: the three messages are of one block, and
member 1, which has read the second, does different things for the second and the third. -/
example : ∃ log', RoomReach roomOwner (roomRun roomCalls).1 (roomRun roomCalls).2 ∧ RoomReach roomOwner (roomRun roomCalls).1 log' ∧
    RoomRetold (fun _ _ => [9]) (roomRun roomCalls).2 log' ∧
    (sentUnder grp (roomRun roomCalls).2).map (·.plaintext.length / 16) = [0, 0, 0] ∧
    groupCallKinds ((roomRun roomCalls).1 1) (.decrypt grp (grpMsg 1)) = [.verifySig] ∧
    (groupCallKinds ((roomRun roomCalls).1 1) (.decrypt grp (grpMsg 2))).length > 1 := by
  obtain ⟨log', h1, h2⟩ := C94_group_retold toy_lawful roomOwner _ _ room_reach (fun _ _ => [9]) (fun _ _ => by decide)
  exact ⟨log', room_reach, h1, h2, by decide +kernel, by decide +kernel, by decide +kernel⟩

end
end Axolotl
