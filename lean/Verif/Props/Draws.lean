import Verif.Proofs.Draws
import Verif.Props.Trace

/-! # C112: random bytes are used at most once -/

namespace Axolotl
section
variable [C : Crypto]
open Spec Logged Traced

omit C in
theorem archive_more (r : SessionRecord) : (SessionBuilder.archiveUnlessFresh r).previousStates.length ≤ (states r).length := by
  unfold SessionBuilder.archiveUnlessFresh SessionRecord.archiveCurrentState SessionRecord.promoteState states
  split
  · simp only
    split <;> simp
  · simp

theorem process_more {w : World} {a : Address} {r : SessionRecord} {m : PreKeyWhisperMessage} {r' : SessionRecord} {i : Option Nat}
    (h : (SessionBuilder.process w a r m).result = .ok (r', i)) : r'.previousStates.length ≤ (states r).length := by
  unfold SessionBuilder.process at h
  split at h
  · cases h
  · cases hp : SessionBuilder.processV3 w r m with
    | error e => rw [hp] at h; cases h
    | ok x =>
      rw [hp] at h
      obtain rfl := Except.ok.inj h
      rcases processV3_ok hp with ⟨_, hx⟩ | ⟨_, _, _, _, _, _, _, _, _, _, _, _, _, _, hx, _⟩
      · obtain ⟨rfl, _⟩ := Prod.mk.inj hx
        simp [states]
      · simp only at hx
        rw [hx]
        exact archive_more r

omit C in
theorem range_sublist {k n : Nat} (h : k ≤ n) (f : Nat → Bytes) : ((List.range k).map f).Sublist ((List.range n).map f) :=
  (List.range_sublist.2 h).map f

/-- **C112**, on any stores: a call of the session API takes no random bytes but its own, each at most once, in order: none when writing, one
key pair per state when reading. -/
theorem C112_call (w : World) (c : Call) : (draws (callTrace w c)).Sublist (randomness w c) := by
  unfold callTrace
  cases c with
  | encrypt a p =>
    simp only [Work.run, mapped_trace, randomness]
    unfold Work.encrypt
    rw [outcome_trace]
    exact (still_bind (Work.encryptWithState_still _ _) fun _ _ => still_pure _).sub
  | decryptMsg a m s ss =>
    simp only [Work.run, mapped_trace, randomness]
    unfold Work.decryptMsg
    rw [outcome_trace]
    refine (still_ite (fun _ => still_fail _) fun _ => ?_).sub
    have := draws_bind (l' := []) (Work.record_draws (w.loadSession a) m s ss) (f := fun x => (pure ([Write.session a x.2], x.1) : Traced _))
      fun _ _ => still_pure _
    rw [List.append_nil] at this
    exact this
  | decryptPkmsg a m s ss =>
    simp only [Work.run, mapped_trace, randomness]
    unfold Work.decryptPkmsg
    refine (still_bind (Work.process_still ..) fun o ho => ?_).sub
    rw [Work.process_value] at ho
    obtain rfl := Except.ok.inj ho
    split
    · exact still_pure _
    · rename_i r i h
      have h1 := still_attempt (Work.record_draws r m.message s ss)
      have h2 := range_sublist (process_more h) ss
      refine Draws.mono ?_ (h2.cons_cons s)
      rw [← List.append_nil (s :: _)]
      refine draws_bind h1 fun v _ => ?_
      split <;> exact still_pure _
  | processBundle a b s1 s2 =>
    simp only [Work.run, mapped_trace, randomness]
    exact (Work.bundle_draws ..).sub
  | processKeyExchange a m r =>
    simp only [Work.run, mapped_trace, randomness]
    unfold Work.processKeyExchangeMessage
    refine (still_ite (fun _ => still_pure _) fun _ => still_ite (fun _ => ?_) fun _ => ?_).sub
    · exact Work.initiate_draws ..
    · exact (Work.response_draws ..).mono (.cons _ (.cons _ (.cons_cons _ (List.nil_sublist _))))
  | initKeyExchange a n s1 s2 s3 =>
    simp only [Work.run, mapped_trace, randomness]
    exact (Work.init_draws ..).sub

/-- **C112**, group API: only sending a message and making a sender key take random bytes, once. -/
theorem C112_group (g : GroupStore) (c : GroupCall) : (draws (groupCallTrace g c)).Sublist (groupRandomness c) := by
  unfold groupCallTrace
  cases c with
  | encrypt n pt r => simp only [Work.groupRun, mapped_trace]; exact (Work.groupEncrypt_draws ..).sub
  | decrypt n b => simp only [Work.groupRun, mapped_trace]; exact (Work.groupDecrypt_still ..).sub
  | process n m => exact List.nil_sublist _
  | create n r => simp only [Work.groupRun, mapped_trace]; exact (Work.groupCreate_draws ..).sub

/-- Over whole histories. -/
theorem C112_history (w : World) (cs : List Call) : (historyDraws w cs).Sublist (historyRandomness w cs) := by
  induction cs generalizing w with
  | nil => exact List.Sublist.refl _
  | cons c cs ih => exact (C112_call w c).append (ih _)

/-- Over whole histories of a group store. -/
theorem C112_group_history (g : GroupStore) (cs : List GroupCall) : (groupHistoryDraws g cs).Sublist (cs.flatMap groupRandomness) := by
  induction cs generalizing g with
  | nil => exact List.Sublist.refl _
  | cons c cs ih => rw [List.flatMap_cons]; exact (C112_group g c).append (ih _)

/-- As long as the random source never repeats itself, no random bytes serve twice in a history: no two private keys, no two signatures and
no key and signature are made from the same bytes. -/
theorem C112_once (w : World) (cs : List Call) (h : (historyRandomness w cs).Nodup) : (historyDraws w cs).Nodup :=
  (C112_history w cs).nodup h

/-- The same for a group store. -/
theorem C112_group_once (g : GroupStore) (cs : List GroupCall) (h : (cs.flatMap groupRandomness).Nodup) : (groupHistoryDraws g cs).Nodup :=
  (C112_group_history g cs).nodup h

omit C in
theorem findChain_known {key : ECPub} {l : List ChainS} (i : Nat) (h : ∃ c ∈ l, KeyOf c.senderRatchetKey key) :
    SessionState.findChain key l i ≠ .ok none := by
  induction l generalizing i with
  | nil => obtain ⟨c, hc, _⟩ := h; cases hc
  | cons d l ih =>
    intro he
    unfold SessionState.findChain at he
    cases hd : Curve.decodePoint (d.senderRatchetKey.getD []) with
    | error e => rw [hd] at he; cases he
    | ok k =>
      rw [hd] at he
      simp only [ok_bind] at he
      split at he
      · cases he
      · rename_i hk
        obtain ⟨c, hc, hkey⟩ := h
        rcases List.mem_cons.1 hc with rfl | hc
        · obtain ⟨x, h1, h2⟩ := hkey
          obtain ⟨y, h3, h4⟩ := decodePoint_KeyOf hd
          rw [h1] at h3
          cases h3
          exact hk (h4.trans h2.symm)
        · exact ih (i + 1) ⟨c, hc, hkey⟩ he

theorem state_still {s : SessionState} {m : WhisperMessage} (seed : Bytes) (h : HasChainFor m s) :
    Still (Work.decryptWithSessionState tracing s m seed) := by
  unfold Work.decryptWithSessionState
  refine still_ite (fun _ => still_fail _) fun _ => still_ite (fun _ => still_fail _) fun _ => still_bind ?_ fun _ _ =>
    still_bind (Work.getOrCreateMessageKeys_still ..) fun _ _ =>
    still_bind (still_lift _) fun _ _ => still_bind (still_lift _) fun _ _ => still_bind (Work.verifyMac_still ..) fun _ _ =>
    still_bind (Work.aesDecrypt_still ..) fun _ _ => still_pure _
  unfold Work.getOrCreateChainKey
  refine still_bind (still_lift _) fun b hb => ?_
  cases b with
  | true => exact still_bind (still_lift _) fun _ _ => still_pure _
  | false =>
    exfalso
    have hn := findChain_known 0 h
    have hb : s.hasReceiverChain m.senderRatchetKey = .ok false := by rwa [value_lift] at hb
    unfold SessionState.hasReceiverChain SessionState.getReceiverChain at hb
    cases hf : SessionState.findChain m.senderRatchetKey s.receiverChains 0 with
    | error e => rw [hf] at hb; cases hb
    | ok o =>
      rw [hf] at hb hn
      cases o with
      | none => exact hn rfl
      | some x => cases hb

theorem tryPrevious_none (r : SessionRecord) {m : WhisperMessage} (seeds : Nat → Bytes) (l : List SessionState) (i : Nat)
    (h : ∀ s ∈ l, HasChainFor m s) : Still (Work.tryPrevious tracing r m seeds l i) := by
  induction l generalizing i with
  | nil => exact still_fail _
  | cons p l ih =>
    unfold Work.tryPrevious
    refine still_bind (still_attempt (state_still _ (h p (List.mem_cons_self ..)))) fun v _ => ?_
    split
    · exact still_pure _
    · exact ih (i + 1) fun s hs => h s (List.mem_cons_of_mem _ hs)
    · exact still_fail _

/-- Reading takes random bytes only for a ratchet key that is new: if every state of the record has a chain for the key of the message, none
are taken, whether the message is accepted or not. -/
theorem C112_read_known (w : World) (a : Address) (m : WhisperMessage) (seed : Bytes) (seeds : Nat → Bytes)
    (h : ∀ s ∈ states (w.loadSession a), HasChainFor m s) : draws (callTrace w (.decryptMsg a m seed seeds)) = [] := by
  unfold callTrace
  simp only [Work.run, mapped_trace]
  unfold Work.decryptMsg
  rw [outcome_trace]
  refine List.sublist_nil.1 (still_ite (fun _ => still_fail _) fun _ => still_bind ?_ fun _ _ => still_pure _).sub
  unfold Work.decryptWithSessionRecord
  refine still_bind (still_attempt (state_still _ (h _ (List.mem_cons_self ..)))) fun v _ => ?_
  split
  · exact still_pure _
  · exact tryPrevious_none _ _ _ _ fun s hs => h s (List.mem_cons_of_mem _ hs)
  · exact still_fail _

/-- Nor does writing, whatever is written. -/
theorem C112_write (w : World) (a : Address) (pt : Bytes) : draws (callTrace w (.encrypt a pt)) = [] :=
  List.sublist_nil.1 (C112_call w (.encrypt a pt))

end

section
open Example Spec
attribute [local instance] toy

/-- What is taken: one key pair for a message under a new ratchet key, none for a message under the same key (here the one just read,
again, which is refused), two for a bundle, two and a signature to answer a key exchange (the greater base key makes Bob the second party,
who needs no sending ratchet key yet), one to accept the answer, two and a signature for asking for one. -/
example : draws (callTrace alice2 (.decryptMsg bobAddr replyMsg (key 43) (fun _ => key 44))) = [key 43] ∧
    draws (callTrace alice3 (.decryptMsg bobAddr replyMsg (key 43) (fun _ => key 44))) = [] ∧
    (states (alice3.loadSession bobAddr)).length = 1 ∧
    draws (callTrace alice0 (.processBundle bobAddr bobBundle (key 41) (key 42))) = [key 41, key 42] ∧
    draws (callTrace bob0 (.processKeyExchange aliceAddr keAskMsg keRand)) = [keRand.baseSeed, keRand.ratchetSeed, keRand.sigRand] ∧
    draws (callTrace keAlice1 (.processKeyExchange bobAddr keAnswerMsg keRand)) = [keRand.sendSeed] ∧
    draws (callTrace alice0 (.initKeyExchange bobAddr 5 (key 1) (key 2) (key 3))) = [key 1, key 2, key 3] ∧
    draws (groupCallTrace GroupStore.empty (.create grp grpRand)) = [grpRand.signSeed] ∧
    draws (groupCallTrace ((GroupCall.create grp grpRand).next GroupStore.empty) (.encrypt grp [1] (key 9))) = [key 9] := by
  decide +kernel

/-- The hypothesis of `C112_read_known`. -/
example : ∀ s ∈ states (alice3.loadSession bobAddr), HasChainFor replyMsg s := by
  have h : ((states (alice3.loadSession bobAddr)).all fun s => s.receiverChains.any fun c =>
      decide (c.senderRatchetKey = some (5 :: replyMsg.senderRatchetKey) ∧ replyMsg.senderRatchetKey.length = 32)) = true := by decide +kernel
  intro s hs
  obtain ⟨c, hc, h1⟩ := List.any_eq_true.1 (List.all_eq_true.1 h s hs)
  obtain ⟨h1, h2⟩ := of_decide_eq_true h1
  exact ⟨c, hc, _, h1, (List.take_of_length_le (by omega)).symm⟩

/-- The hypothesis of `C112_once`: Alice begins a session and reads the answer; and of `C112_group_once`. -/
example : (historyRandomness alice0 [.processBundle bobAddr bobBundle (key 41) (key 42), .encrypt bobAddr [104, 105],
      .decryptMsg bobAddr replyMsg (key 43) (fun _ => key 44)]).Nodup ∧
    historyDraws alice0 [.processBundle bobAddr bobBundle (key 41) (key 42), .encrypt bobAddr [104, 105],
      .decryptMsg bobAddr replyMsg (key 43) (fun _ => key 44)] = [key 41, key 42, key 43] ∧
    ([.create grp grpRand, .encrypt grp [1] (key 9), .encrypt grp [2] (key 10)].flatMap groupRandomness).Nodup ∧
    groupHistoryDraws GroupStore.empty [.create grp grpRand, .encrypt grp [1] (key 9), .encrypt grp [2] (key 10)] =
      [grpRand.signSeed, key 9, key 10] := by
  decide +kernel

end
end Axolotl
