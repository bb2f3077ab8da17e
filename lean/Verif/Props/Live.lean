import Verif.Proofs.LiveGroup
import Verif.Spec.Live
import Verif.Props.PreKeys
import Verif.Props.Group
import Verif.Example

/-!
# C71: stores that hand out the object they keep

The library is written for stores that return a new record for every `loadSession`.  A store that keeps the object and returns it is
compared with one that copies: same results, same stores after success; what failing calls leave behind; and what is different
because the record objects stay marked as new.
-/

namespace Axolotl
section
variable [C : Crypto]
open Spec InUse

omit C in
theorem sendCounter_chainKey {s : SessionState} {k : ChainKey} (h : s.getSenderChainKey = .ok k) : k.index = sendCounter s := by
  unfold SessionState.getSenderChainKey SessionState.senderChainD at h
  obtain ⟨kdf, _, h⟩ := bind_eq_ok.1 h
  cases h
  unfold sendCounter
  dsimp only
  generalize s.senderChain = x
  cases x with
  | none => rfl
  | some c =>
    obtain ⟨a1, a2, ck, a4⟩ := c
    cases ck <;> rfl

omit C in
theorem load_some {w : World} {a : Address} {r : SessionRecord} (h : w.sessions a = some r) : w.loadSession a = { r with fresh := false } := by
  unfold World.loadSession; rw [h]

omit C in
theorem quiet_of_plain {w : World} {c : Call} (h : plain w c) : Quiet w c := by
  cases c with
  | encrypt a p =>
    intro k hk
    rw [sendCounter_chainKey hk]
    cases hs : w.sessions a with
    | none =>
      unfold World.loadSession
      rw [hs]
      decide
    | some r => rw [load_some hs]; exact h r hs
  | decryptMsg a m s ss => trivial
  | decryptPkmsg a m s ss =>
    cases hs : w.sessions a with
    | none => exact .inl hs
    | some r =>
      refine .inr ?_
      rw [load_some hs]
      exact (hasSessionState_iff { r with fresh := false } _ _).2 (h r hs)
  | processBundle a b s1 s2 => exact h
  | processKeyExchange a m r => exact h
  | initKeyExchange a n s1 s2 s3 => trivial

omit C in
theorem allQuiet_of_plain [Crypto] (cs : List Call) : ∀ w, allPlain w cs → AllQuiet w cs := by
  induction cs with
  | nil => intro w _; trivial
  | cons c cs ih => intro w h; exact ⟨quiet_of_plain h.1, ih _ h.2⟩

omit C in
theorem archived_shape {r : SessionRecord} (h : r.fresh = false) (s : SessionState) :
    ((archived r).setState s).previousStates = archivedStates r := by
  unfold archived SessionBuilder.archiveUnlessFresh
  rw [h]
  rfl

/-- On record objects made from stored bytes, a call has the result it has on a copy. -/
theorem C71_result (w : World) (c : Call) (h : reloaded w c.addr) : (c.runLive w).1 = (c.run w).result := (call_agrees h).1

/-- If it succeeds, the stores are the same. -/
theorem C71_success (w : World) (c : Call) (h : reloaded w c.addr) {x : Reply} (hx : (c.runLive w).1 = .ok x) :
    unmarked (c.runLive w).2 = unmarked (c.next w) := by
  obtain ⟨h1, h2⟩ := call_agrees h
  rcases h2 with h2 | ⟨⟨e, he⟩, _⟩
  · exact h2
  · have hx : (c.live (load w c.addr)).1 = .ok x := hx
    rw [h1, he] at hx
    cases hx


theorem v3_record {w : World} {r r' : SessionRecord} {m : PreKeyWhisperMessage} {id : Option Nat}
    (h : SessionBuilder.processV3 w r m = .ok (r', id)) : Left r r' := by
  cases hn : r.hasSessionState m.version (Curve.serializePoint m.baseKey) with
  | true =>
    unfold SessionBuilder.processV3 at h
    rw [hn] at h
    simp only [if_true] at h
    cases h
    exact .inl rfl
  | false =>
    unfold SessionBuilder.processV3 at h
    rw [hn] at h
    simp only [Bool.false_eq_true, if_false] at h
    obtain ⟨_, _, h⟩ := bind_eq_ok.1 h
    obtain ⟨_, _, h⟩ := bind_eq_ok.1 h
    split at h
    all_goals
      first
      | obtain ⟨_, _, h⟩ := bind_eq_ok.1 h
        obtain ⟨_, _, h⟩ := bind_eq_ok.1 h
        obtain ⟨_, _, h⟩ := bind_eq_ok.1 h
        obtain ⟨_, _, h⟩ := bind_eq_ok.1 h
        obtain ⟨_, _, h⟩ := bind_eq_ok.1 h
        obtain ⟨_, _, h⟩ := bind_eq_ok.1 h
        cases h
        exact .inr ⟨_, rfl⟩
      | obtain ⟨_, _, h⟩ := bind_eq_ok.1 h
        obtain ⟨_, _, h⟩ := bind_eq_ok.1 h
        obtain ⟨_, _, h⟩ := bind_eq_ok.1 h
        obtain ⟨_, _, h⟩ := bind_eq_ok.1 h
        cases h
        exact .inr ⟨_, rfl⟩

omit C in
theorem left_setup {c : Call} {r r' : SessionRecord} (hf : r.fresh = false) (hc : setsUp c) (h : Left r r') :
    r' = r ∨ Spoilt c r r' := by
  rcases h with h | ⟨s, h⟩
  · exact .inl h
  · refine .inr (.setup hc ?_)
    rw [h]
    exact archived_shape hf s

theorem left_spoilt {w : World} {c : Call} {r r' : SessionRecord} (hf : r.fresh = false) (h : CallLeft w c r r') :
    r' = r ∨ Spoilt c r r' := by
  cases c with
  | encrypt a p =>
    rcases h with h | ⟨k, hk, hi, h⟩
    · exact .inl h
    · refine .inr ?_
      rw [sendCounter_chainKey hk] at hi
      refine .sending ⟨a, p, rfl⟩ hi ?_ ?_ ?_
      · rw [h]
        unfold sendCounter SessionRecord.setState SessionState.senderChainD
        dsimp only
        cases r.sessionState.senderChain with
        | none => rfl
        | some x => obtain ⟨a1, a2, ck, a4⟩ := x; cases ck <;> rfl
      · rw [h]
        cases hsc : r.sessionState.senderChain with
        | none =>
          exfalso
          unfold SessionState.getSenderChainKey at hk
          unfold sendCounter at hi
          rw [hsc] at hi
          exact absurd hi (by decide)
        | some x =>
          unfold withoutSendKey SessionRecord.setState SessionState.senderChainD
          dsimp only
          rw [hsc]
          rfl
      · rw [h]; rfl
  | decryptMsg a m s ss => exact .inl h
  | initKeyExchange a n s1 s2 s3 => exact .inl h
  | decryptPkmsg a m s ss =>
    rcases h with h | ⟨id, h⟩
    · exact left_setup hf trivial h
    · exact left_setup hf trivial (v3_record h)
  | processBundle a b s1 s2 => exact left_setup hf trivial h
  | processKeyExchange a m rn => exact left_setup hf trivial h

/-- If it raises an exception, the stores are the same, or the record object is the one described by `Spoilt`. -/
theorem C71_failed (w : World) (c : Call) (h : reloaded w c.addr) :
    unmarked (c.runLive w).2 = unmarked (c.next w) ∨
      (∃ e, (c.runLive w).1 = .error e) ∧ ∃ r r', w.sessions c.addr = some r ∧ Spoilt c r r' ∧
        (c.runLive w).2 = { c.next w with sessions := upd w.sessions c.addr (some r') } := by
  obtain ⟨h1, h2⟩ := call_agrees h
  rcases h2 with h2 | ⟨⟨e, he⟩, hw, r', hl, hr⟩
  · exact .inl h2
  · have hr : (c.runLive w).2 = _ := hr
    have hw : (c.next w).sessions = w.sessions := hw
    cases hs : w.sessions c.addr with
    | none =>
      left
      rw [hr, hs]
      show unmarked { c.next w with sessions := w.sessions } = _
      rw [← hw]
    | some r =>
      rw [hs] at hr
      have hobj : (load w c.addr).obj = r := by unfold load; rw [hs]; rfl
      rw [hobj] at hl
      rcases left_spoilt (h r hs) hl with hl | hl
      · left
        rw [hr, hl]
        show unmarked { c.next w with sessions := upd w.sessions c.addr (some r) } = _
        have : upd w.sessions c.addr (some r) = (c.next w).sessions := by
          rw [hw]
          funext b
          unfold upd
          split
          · next hb => rw [hb, hs]
          · rfl
        rw [this]
      · exact .inr ⟨⟨e, h1.trans he⟩, r, r', rfl, hl, hr⟩

/-- A history of plain calls has the same results and leaves the same stores. -/
theorem C71_plain (w : World) (cs : List Call) (h : allPlain w cs) :
    Call.repliesLive w cs = Call.replies w cs ∧ unmarked (Call.afterLive w cs) = unmarked (Call.after w cs) :=
  history_agrees cs w w rfl (allQuiet_of_plain cs w h)

/-- A store that keeps the objects never archives a session: each record has the current one only. -/
theorem C71_never_archives (w : World) (hw : w.NoSessions) (cs : List Call) {a : Address} {r : SessionRecord}
    (h : (Call.afterLive w cs).sessions a = some r) : r.previousStates = [] :=
  (allNew_after cs (fun a r hr => by rw [hw a] at hr; cases hr) a r h).2

omit C in
theorem only_known {r : SessionRecord} {k : ECPub} (h : Only r (Curve.serializePoint k)) {v : Nat} {k' : ECPub}
    (hk : knowsBaseKey r v k') : k' = k :=
  (List.cons.inj (h.knows ((hasSessionState_iff r v k').2 hk))).2

/-- With such a store, processing a bundle discards every session with the peer but the new one. -/
theorem C71_overwritten_bundle (w : World) (hw : w.NoSessions) (cs : List Call) {a : Address} {b : PreKeyBundle} {s1 s2 : Bytes}
    {x : Reply} (hx : ((Call.processBundle a b s1 s2).runLive (Call.afterLive w cs)).1 = .ok x) :
    ∃ r, ((Call.processBundle a b s1 s2).runLive (Call.afterLive w cs)).2.sessions a = some r ∧
      ∀ v k, knowsBaseKey r v k → k = C.genPub (C.genPriv s1) := by
  obtain ⟨r, h1, h2⟩ := bundle_new (allNew_after cs (fun a r hr => by rw [hw a] at hr; cases hr)) hx
  exact ⟨r, h1, fun v k hk => only_known h2 hk⟩

/-- And so does accepting a prekey message that starts another session. -/
theorem C71_overwritten_prekey (w : World) (hw : w.NoSessions) (cs : List Call) {a : Address} {m : PreKeyWhisperMessage} {s : Bytes}
    {ss : Nat → Bytes} {x : Reply}
    (hn : ∀ r, (Call.afterLive w cs).sessions a = some r → ¬ knowsBaseKey r m.version m.baseKey)
    (hx : ((Call.decryptPkmsg a m s ss).runLive (Call.afterLive w cs)).1 = .ok x) :
    ∃ r, ((Call.decryptPkmsg a m s ss).runLive (Call.afterLive w cs)).2.sessions a = some r ∧
      ∀ v k, knowsBaseKey r v k → k = m.baseKey := by
  have hall : AllNew (Call.afterLive w cs) := allNew_after cs (fun a r hr => by rw [hw a] at hr; cases hr)
  cases hk : ((Call.afterLive w cs).loadSession a).hasSessionState m.version (Curve.serializePoint m.baseKey) with
  | false =>
    obtain ⟨r, h1, h2⟩ := pkmsg_new hall hk hx
    exact ⟨r, h1, fun v k hk => only_known h2 hk⟩
  | true =>
    exfalso
    have := (hasSessionState_iff _ _ _).1 hk
    cases hs : (Call.afterLive w cs).sessions a with
    | some r => rw [load_some hs] at this; exact hn r hs this
    | none =>
      unfold World.loadSession at this
      rw [hs] at this
      obtain ⟨s, h1, h2, h3⟩ := this
      rcases List.mem_cons.1 h1 with h1 | h1
      · rw [h1] at h3; cases h3
      · cases h1

theorem spoiled_iff {g : GroupStore} {c : GroupCall} (h : LiveGroup.Spoiled g c) : signedFailure g c := by
  cases c with
  | decrypt n b =>
    obtain ⟨⟨i, m, st, pub, h1, h2, h3, h4⟩, e, h5⟩ := h
    refine ⟨?_, m, st, pub, h1, (SenderKeyRecord.getStateById_ok h2).1, h3, h4⟩
    unfold GroupCipher.decrypt
    rw [h5]
    cases e <;> exact ⟨_, rfl⟩
  | encrypt n pt s => exact h
  | process n d => exact h
  | create n rn => exact h

/-- For group messages the results are the same; so is the store, unless the call raised an exception on a message with a valid
signature, and then only the record of the sender differs. -/
theorem C71_group_result (g : GroupStore) (c : GroupCall) :
    (c.runLive g).1 = (c.run g).result ∧
      ((c.runLive g).2 = c.next g ∨ signedFailure g c ∧ ∃ r, (c.runLive g).2 = g.store c.name r) := by
  obtain ⟨h1, h2⟩ := LiveGroup.call_agrees g c
  exact ⟨h1, h2.imp_right fun ⟨h3, h4⟩ => ⟨spoiled_iff h3, h4⟩⟩

theorem unspoiled_of (cs : List GroupCall) : ∀ g, noSignedFailure g cs → LiveGroup.Unspoiled g cs := by
  induction cs with
  | nil => intro g _; trivial
  | cons c cs ih => intro g h; exact ⟨fun hc => h.1 (spoiled_iff hc), ih _ h.2⟩

/-- A history without such a failure has the same results and leaves the same store. -/
theorem C71_group_history (g : GroupStore) (cs : List GroupCall) (h : noSignedFailure g cs) :
    GroupCall.repliesLive g cs = GroupCall.replies g cs ∧ GroupCall.afterLive g cs = GroupCall.after g cs :=
  LiveGroup.history_agrees cs g (unspoiled_of cs g h)

end

/-! ## Concrete cases -/

section
attribute [local instance] toy
open Example Spec

/-- Alice's side of a conversation; the calls are plain. -/
def Example.liveCalls : List Call :=
  [.processBundle bobAddr bobBundle (key 41) (key 42), .encrypt bobAddr [104, 105],
   .decryptMsg bobAddr replyMsg (key 43) (fun _ => key 44), .encrypt bobAddr [1]]

theorem plain_of_check {w : World} {c : Call} (h : (match c with
    | .encrypt a _ => match w.sessions a with | some r => decide (sendCounter r.sessionState + 1 < 2 ^ 32) | none => true
    | .decryptMsg .. | .initKeyExchange .. => true
    | .decryptPkmsg a m _ _ => match w.sessions a with
      | some r => r.hasSessionState m.version (Curve.serializePoint m.baseKey) | none => true
    | .processBundle a .. | .processKeyExchange a .. => (w.sessions a).isNone) = true) : plain w c := by
  cases c with
  | encrypt a p => intro r hr; dsimp only at h; rw [hr] at h; exact of_decide_eq_true h
  | decryptMsg a m s ss => trivial
  | initKeyExchange a n s1 s2 s3 => trivial
  | decryptPkmsg a m s ss => intro r hr; dsimp only at h; rw [hr] at h; exact (hasSessionState_iff _ _ _).1 h
  | processBundle a b s1 s2 => exact Option.isNone_iff_eq_none.1 h
  | processKeyExchange a m r => exact Option.isNone_iff_eq_none.1 h

/-- The hypothesis of `C71_plain` holds of it, and the calls succeed. -/
example : allPlain alice0 liveCalls ∧ (Call.repliesLive alice0 liveCalls).all (·.toOption.isSome) = true := by
  refine ⟨⟨plain_of_check ?_, plain_of_check ?_, plain_of_check ?_, plain_of_check ?_, trivial⟩, ?_⟩ <;> decide +kernel

/-- The hypothesis of `C71_result`, `C71_success` and `C71_failed` holds of a store that has been reloaded. -/
example : reloaded (unmarked alice3) bobAddr ∧ ((unmarked alice3).sessions bobAddr).isSome = true ∧
    ((Call.encrypt bobAddr [1]).runLive (unmarked alice3)).1.toOption.isSome = true := by
  refine ⟨?_, by decide +kernel, by decide +kernel⟩
  intro r hr
  unfold unmarked at hr
  cases hs : alice3.sessions bobAddr with
  | none => simp [hs] at hr
  | some r' => simp [hs] at hr; rw [← hr]

/-- A second bundle while Bob's answer is on its way. -/
def Example.liveLost : List Call :=
  [.processBundle bobAddr bobBundle (key 41) (key 42), .encrypt bobAddr [104, 105],
   .processBundle bobAddr bobBundle (key 141) (key 142), .decryptMsg bobAddr replyMsg (key 43) (fun _ => key 44)]

/-- The results of a history depend on which kind of store it is run with: Bob's answer in the first session is read with a store
that copies, and rejected with one that keeps the objects. -/
theorem C71_store_matters : ∃ (C : Crypto) (w : World) (cs : List Call), C.Lawful ∧ w.NoSessions ∧
    (Call.replies w cs).getLast? = some (.ok (.plaintext [121, 111])) ∧
    (Call.repliesLive w cs).getLast? = some (.error .invalidMessage) :=
  ⟨toy, alice0, liveLost, toy_lawful, fun _ => rfl, by decide +kernel, by decide +kernel⟩

/-- A forged answer to the key exchange Alice starts: the signature is wrong. -/
def Example.liveForged : KeyExchangeMessage := { keAnswerMsg with baseKeySignature := List.replicate 64 9 }
def Example.liveStart : World := unmarked alice3
def Example.liveSpoilt : List Call :=
  [.initKeyExchange bobAddr 77 (key 61) (key 62) (key 63), .processKeyExchange bobAddr liveForged ⟨key 81, key 82, key 83, key 84⟩,
   .encrypt bobAddr [7]]
def Example.liveLast (rs : List (Res Reply)) : WhisperMessage :=
  match rs.getLast? with | some (.ok (.ciphertext c)) => c.inner | _ => noMessage

/-- A call that raises an exception can change what later calls do: after a forged answer to a key exchange, Alice's next message is
one that Bob can read with a store that copies, and one that Bob cannot read with a store that keeps the objects. -/
theorem C71_failure_matters : ∃ (C : Crypto) (w : World) (c c' : Call) (a : Address) (pt : Bytes) (bob : World) (b : Address) (s : Bytes)
    (ss : Nat → Bytes) (m m' : Ciphertext), C.Lawful ∧ reloaded w a ∧
    (c'.run (c.next w)).result = .error .invalidKey ∧ (c'.runLive (c.runLive w).2).1 = .error .invalidKey ∧
    ((Call.encrypt a pt).run (c'.next (c.next w))).result = .ok (.ciphertext m) ∧
    (SessionCipher.decryptMsg bob b m.inner s ss).result = .ok pt ∧
    ((Call.encrypt a pt).runLive (c'.runLive (c.runLive w).2).2).1 = .ok (.ciphertext m') ∧
    (SessionCipher.decryptMsg bob b m'.inner s ss).result = .error .invalidMessage := by
  refine ⟨toy, liveStart, .initKeyExchange bobAddr 77 (key 61) (key 62) (key 63),
    .processKeyExchange bobAddr liveForged ⟨key 81, key 82, key 83, key 84⟩, bobAddr, [7], bob2, aliceAddr, key 53, fun _ => key 54,
    .whisper (liveLast (Call.replies liveStart liveSpoilt)), .whisper (liveLast (Call.repliesLive liveStart liveSpoilt)), toy_lawful, ?_, ?_, ?_, ?_, ?_, ?_, ?_⟩
  · intro r hr
    unfold liveStart unmarked at hr
    cases hs : alice3.sessions bobAddr with
    | none => simp [hs] at hr
    | some r' => simp [hs] at hr; rw [← hr]
  all_goals decide +kernel

/-- A message of the sender whose ciphertext is not one: signed, but not decryptable. -/
def Example.liveBadGroup : Bytes :=
  match SenderKeyMessage.create grpDist.id 0 [1, 2, 3] (key 92) grpSig with | .ok m => m.serialized | .error _ => []
def Example.liveGroup : List GroupCall := [.process grp grpDist, .decrypt grp liveBadGroup, .decrypt grp (grpMsg 0)]

/-- After such a message the genuine one with the same iteration is read with a store that copies, and rejected as a duplicate with
one that keeps the objects. -/
theorem C71_group_failure_matters : ∃ (C : Crypto) (cs : List GroupCall) (pt : Bytes), C.Lawful ∧
    (GroupCall.replies GroupStore.empty cs).getLast? = some (.ok (.bytes pt)) ∧
    (GroupCall.repliesLive GroupStore.empty cs).getLast? = some (.error .duplicateMessage) :=
  ⟨toy, liveGroup, [1], toy_lawful, by decide +kernel, by decide +kernel⟩

theorem noSignedFailure_of_check {g : GroupStore} {c : GroupCall} (h : (c.run g).result.toOption.isSome = true) : ¬ signedFailure g c := by
  cases c with
  | decrypt n b =>
    rintro ⟨⟨e, he⟩, _⟩
    unfold GroupCall.run at h
    dsimp only at h
    unfold GroupCall.mapG at h
    rw [he] at h
    cases h
  | encrypt n pt s => exact id
  | process n d => exact id
  | create n rn => exact id

/-- The hypothesis of `C71_group_history` holds of a history that delivers messages. -/
example : noSignedFailure GroupStore.empty [.process grp grpDist, .decrypt grp (grpMsg 1), .decrypt grp (grpMsg 0)] :=
  ⟨noSignedFailure_of_check (by decide +kernel), noSignedFailure_of_check (by decide +kernel),
    noSignedFailure_of_check (by decide +kernel), trivial⟩

/-- The hypotheses of `C71_overwritten_bundle` and `C71_overwritten_prekey` hold of a second session. -/
example : alice0.NoSessions ∧ ((Call.afterLive alice0 (liveLost.take 2)).sessions bobAddr).isSome = true ∧
    ((Call.processBundle bobAddr bobBundle (key 141) (key 142)).runLive (Call.afterLive alice0 (liveLost.take 2))).1 = .ok .done :=
  ⟨fun _ => rfl, by decide +kernel, by decide +kernel⟩

/-- Alice's first message in another session. -/
def Example.liveSecond : PreKeyWhisperMessage :=
  match (Call.replies alice0 [.processBundle bobAddr { bobBundle with preKey := none } (key 141) (key 142), .encrypt bobAddr [8]]).getLast? with
  | some (.ok (.ciphertext (.preKey m))) => m
  | _ => firstPk

example : bob0.NoSessions ∧
    (∀ r, (Call.afterLive bob0 [.decryptPkmsg aliceAddr firstPk (key 51) fun _ => key 52]).sessions aliceAddr = some r →
      ¬ knowsBaseKey r liveSecond.version liveSecond.baseKey) ∧
    ((Call.decryptPkmsg aliceAddr liveSecond (key 53) fun _ => key 54).runLive
      (Call.afterLive bob0 [.decryptPkmsg aliceAddr firstPk (key 51) fun _ => key 52])).1 = .ok (.plaintext [8]) := by
  refine ⟨fun _ => rfl, ?_, by decide +kernel⟩
  intro r hr hk
  have hk := (hasSessionState_iff _ _ _).2 hk
  have : (((Call.afterLive bob0 [.decryptPkmsg aliceAddr firstPk (key 51) fun _ => key 52]).sessions aliceAddr).map fun r =>
    r.hasSessionState liveSecond.version (Curve.serializePoint liveSecond.baseKey)) = some false := by decide +kernel
  rw [hr] at this
  cases hk.symm.trans (Option.some.inj this)

end
end Axolotl
