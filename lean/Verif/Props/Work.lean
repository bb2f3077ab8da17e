import Verif.Proofs.WorkBound
import Verif.Props.Verdict
import Verif.Spec.Sessions

/-! # C108: the work of every call of the session API -/

namespace Axolotl
section
variable [C : Crypto]
open SessionState Spec Logged Costly

/-- Counting does not change what is computed: the counted call is the call. -/
theorem C108_same (w : World) (c : Call) : (Work.run counting w c).value = .ok (c.run w) := Work.run_value w c

omit C in
theorem mapped_work {α β : Type} (x : Costly α) (f : α → β) : (do pure (f (← x)) : Costly β).work = x.work := by
  cases h : x.value with
  | ok a => rw [work_ok h, work_pure, Tally.add_none]
  | error e => rw [work_error h]

theorem process_length {w : World} {a : Address} {r : SessionRecord} {m : PreKeyWhisperMessage} {r' : SessionRecord} {i : Option Nat}
    (hr : r.previousStates.length ≤ 40) (h : (SessionBuilder.process w a r m).result = .ok (r', i)) : r'.previousStates.length ≤ 40 := by
  unfold SessionBuilder.process at h
  split at h
  · cases h
  · cases hp : SessionBuilder.processV3 w r m with
    | error e => rw [hp] at h; cases h
    | ok x =>
      rw [hp] at h
      obtain rfl := Except.ok.inj h
      rcases processV3_ok hp with ⟨_, hx⟩ | ⟨_, _, _, _, _, _, _, _, _, _, _, _, _, _, hx, _⟩
      · obtain ⟨rfl, _⟩ := Prod.mk.inj hx
        exact hr
      · simp only at hx
        rw [hx]
        exact archive_length hr

/-- No call does more work than `mostWork`, whatever the history of the stores, the message and the keys: in particular at most 82
agreements and 492533 HMACs to read a message, accepted or not, and block decryption only once per block. -/
theorem C108_bound (w0 : World) (hw : w0.NoSessions) (cs : List Call) (c : Call) :
    callWork (Call.after w0 cs) c ≤ mostWork c := by
  have h40 : ∀ a, ((Call.after w0 cs).loadSession a).previousStates.length ≤ 40 := by
    intro a
    unfold World.loadSession
    cases hr : (Call.after w0 cs).sessions a with
    | none => simp
    | some r => exact (C22_bounded w0 hw cs a r hr).1
  unfold callWork
  cases c with
  | encrypt a pt =>
    simp only [Work.run, mapped_work]
    exact Work.encrypt_le ..
  | decryptMsg a m s ss =>
    simp only [Work.run, mapped_work]
    have := h40 a
    exact Tally.le_trans (Work.decryptMsg_le ..) (by simp only [mostWork, stateWork]; tally)
  | decryptPkmsg a m s ss =>
    simp only [Work.run, mapped_work]
    exact Work.decryptPkmsg_le _ _ _ _ _ 40 fun r i h => process_length (h40 a) h
  | processBundle a b s1 s2 =>
    simp only [Work.run, mapped_work]
    exact Work.processPreKeyBundle_le ..
  | processKeyExchange a m r =>
    simp only [Work.run, mapped_work]
    exact Work.processKeyExchangeMessage_le ..
  | initKeyExchange a n s1 s2 s3 =>
    simp only [Work.run, mapped_work]
    exact Work.processInitKeyExchangeMessage_le ..

/-- The same for stores with any contents, in terms of the number of states in the record. -/
theorem C108_per_state (w : World) (a : Address) (m : WhisperMessage) (seed : Bytes) (seeds : Nat → Bytes) :
    callWork w (.decryptMsg a m seed seeds) ≤ Tally.times (statesAt w a).length stateWork + { aesDec := m.ciphertext.length / 16 } := by
  unfold callWork
  simp only [Work.run, mapped_work]
  cases h : w.sessions a with
  | none =>
    unfold Work.decryptMsg World.containsSession
    rw [h, outcome_work]
    exact fail_le _ _
  | some r =>
    have := Work.decryptMsg_le w a m seed seeds
    unfold World.loadSession at this
    rw [h] at this
    unfold statesAt
    rw [h]
    exact this

/-- Nothing is computed for someone not trusted, nor for a message without a session. -/
theorem C108_free (w : World) (a : Address) :
    (∀ m s ss, w.sessions a = none → callWork w (.decryptMsg a m s ss) = .none) ∧
    (∀ (m : PreKeyWhisperMessage) s ss, w.isTrusted a.1 m.identityKey = false → callWork w (.decryptPkmsg a m s ss) = .none) ∧
    (∀ (b : PreKeyBundle) s1 s2, w.isTrusted a.1 b.identityKey = false → callWork w (.processBundle a b s1 s2) = .none) ∧
    (∀ (m : KeyExchangeMessage) r, w.isTrusted a.1 m.identityKey = false → callWork w (.processKeyExchange a m r) = .none) := by
  refine ⟨fun m s ss h => ?_, fun m s ss h => ?_, fun b s1 s2 h => ?_, fun m r h => ?_⟩ <;> unfold callWork <;>
    simp only [Work.run, mapped_work]
  · unfold Work.decryptMsg World.containsSession
    rw [h]
    rfl
  · unfold Work.decryptPkmsg Work.process
    rw [h]
    rfl
  · unfold Work.processPreKeyBundle
    rw [h]
    rfl
  · unfold Work.processKeyExchangeMessage
    rw [h]
    rfl

/-- What one state does with a message it cannot authenticate, sent with a ratchet key it has not seen. -/
theorem forged_work (hC : C.Lawful) {s : SessionState} (hs : Sane s) {m : WhisperMessage} {seed : Bytes} (hses : s.senderChain.isSome)
    (hver : m.messageVersion = 3) (hnew : ∀ c ∈ s.receiverChains, ¬ KeyOf c.senderRatchetKey m.senderRatchetKey)
    (hn : m.counter ≤ 2000) (h : SessionCipher.decryptWithSessionState s m seed = .error .invalidMessage) :
    (Work.decryptWithSessionState counting s m seed).work = { hmac := 6 * m.counter + 13, genPriv := 1, genPub := 1, dh := 2 } := by
  have zero : ∀ {s1 x c y}, Reads s m seed s1 x c y → position c = 0 := by
    intro s1 x c y hr
    have hc : c ∈ s1.receiverChains := by rw [hr.chain.split]; simp
    have ho := hr.opened
    cases ho with
    | known h1 h2 => exact absurd h2 (hnew _ h1)
    | ratchet _ _ _ _ =>
      rcases List.mem_append.1 (List.mem_of_mem_drop hc) with h | h
      · exact absurd hr.chain.key (hnew _ h)
      · rw [List.mem_singleton.1 h]; rfl
  cases (verdict_iff hC hs m seed _).2 h with
  | empty h => rw [h] at hses; cases hses
  | version _ h => exact absurd hver h
  | tooFar hr h => rw [zero hr] at h; omega
  | @badMac s1 x y c c' k1 k2 k3 them me hr hy ht hm hbad =>
    obtain ⟨hf, hck⟩ := gocck_of_opened hC hs.chains hs.sender (hs.version hr.session) hs.five hr.opened hr.chain.split hr.chain.key
      hr.chain.first
    obtain ⟨mk, hmk, rfl, rfl, rfl⟩ := gocmk_yields hC hf hr.chain.split hy
    have hh : hasSenderChain s = true := hses
    have hgv : getSessionVersion s = 3 := by unfold getSessionVersion; rw [hs.version hses]; rfl
    have hno : hasReceiverChain s m.senderRatchetKey = .ok false := by
      unfold hasReceiverChain getReceiverChain
      rw [findChain_nowhere 0 hs.chains.good hnew]
      rfl
    have ids : getRemoteIdentityKey { s1 with receiverChains := x ++ c' :: y } = .ok them ∧
        getLocalIdentityKey { s1 with receiverChains := x ++ c' :: y } = .ok me := by
      have ho := hr.opened
      cases ho <;> exact ⟨KeyOf_iff.1 ht, KeyOf_iff.1 hm⟩
    have hmac : m.verifyMac m.messageVersion them me mk.macKey = .error .invalidMessage := by
      rcases verifyMac_cases m m.messageVersion them me mk.macKey with h | h
      · obtain ⟨body, mac, g1, _, g2⟩ := verifyMac_ok hC.hmac_len h (by omega)
        subst g2
        exact absurd g1 (hbad body)
      · exact h
    unfold Work.decryptWithSessionState
    rw [if_neg (by rw [hh]; simp), if_neg (by rw [hgv, hver]; simp), work_ok ((Work.getOrCreateChainKey_value ..).trans hck),
      Work.getOrCreateChainKey_work hno hck]
    simp only
    rw [work_ok ((Work.getOrCreateMessageKeys_value ..).trans hmk),
      Work.getOrCreateMessageKeys_work (by rw [position_chainKeyOf, zero hr]; omega) hmk]
    simp only
    rw [work_ok ((value_lift _).trans ids.1), work_lift, work_ok ((value_lift _).trans ids.2), work_lift,
      work_error ((Work.verifyMac_value ..).trans hmac), Work.verifyMac_work, position_chainKeyOf, zero hr]
    tally_eq

theorem tryPrevious_work {r : SessionRecord} {m : WhisperMessage} {seeds : Nat → Bytes} {t : Tally} :
    ∀ (l : List SessionState) (i : Nat), (∀ k s, l[k]? = some s →
      SessionCipher.decryptWithSessionState s m (seeds (i + k)) = .error .invalidMessage ∧
      (Work.decryptWithSessionState counting s m (seeds (i + k))).work = t) →
    (Work.tryPrevious counting r m seeds l i).work = Tally.times l.length t := by
  intro l
  induction l with
  | nil => intro i _; unfold Work.tryPrevious; rw [work_fail, List.length_nil]; tally_eq
  | cons p l ih =>
    intro i h
    obtain ⟨h1, h2⟩ := h 0 p rfl
    rw [Nat.add_zero] at h1 h2
    unfold Work.tryPrevious
    rw [work_ok (value_attempt _), work_attempt, Work.decryptWithSessionState_value, h1]
    simp only
    rw [h2, ih (i + 1) fun k s hk => by
      have := h (k + 1) s hk
      rwa [show i + (k + 1) = i + 1 + k by omega] at this, List.length_cons]
    simp only [Tally.times, Tally.add_def, Nat.succ_mul, Tally.mk.injEq]
    omega

/-- The bound is reached, by anyone on the network: a message with a ratchet key not seen before and no valid MAC makes every state of the
record do all of the work; with the counter 2000 this is `stateWork` each.  It takes no secret to write such a message. -/
theorem C108_forgery (hC : C.Lawful) (w0 : World) (hw : w0.NoSessions) (cs : List Call) (a : Address) (m : WhisperMessage) (seed : Bytes)
    (seeds : Nat → Bytes) (hses : ∀ s ∈ statesAt (Call.after w0 cs) a, s.senderChain.isSome) (hver : m.messageVersion = 3)
    (hnew : ∀ s ∈ statesAt (Call.after w0 cs) a, ∀ c ∈ s.receiverChains, ¬ KeyOf c.senderRatchetKey m.senderRatchetKey)
    (hn : m.counter ≤ 2000)
    (h : (SessionCipher.decryptMsg (Call.after w0 cs) a m seed seeds).result = .error .invalidMessage) :
    callWork (Call.after w0 cs) (.decryptMsg a m seed seeds) = Tally.times (statesAt (Call.after w0 cs) a).length
      { hmac := 6 * m.counter + 13, genPriv := 1, genPub := 1, dh := 2 } := by
  cases hr : (Call.after w0 cs).sessions a with
  | none =>
    unfold SessionCipher.decryptMsg World.containsSession at h
    rw [hr] at h
    cases h
  | some r =>
    have hst : statesAt (Call.after w0 cs) a = r.sessionState :: r.previousStates := by unfold statesAt; rw [hr]
    rw [hst] at hses hnew ⊢
    obtain ⟨hs0, hsp⟩ := sane hC w0 hw cs a r hr
    obtain ⟨v, hv, _⟩ := C58_one_outcome hC w0 hw cs a r hr m seed seeds
    rw [(C58_exact hC w0 hw cs a r hr m seed seeds v).1 hv] at h
    have all : Verdict r.sessionState m seed (.error .invalidMessage) ∧
        ∀ j q, r.previousStates[j]? = some q → Verdict q m (seeds j) (.error .invalidMessage) := by
      cases hv with
      | current _ => cases h
      | archived _ _ _ _ => cases h
      | currentStops _ hne => exact absurd (Except.error.inj h) hne
      | archivedStops _ _ _ _ hne => exact absurd (Except.error.inj h) hne
      | nobody h1 h2 => exact ⟨h1, h2⟩
    have e0 := (verdict_iff hC hs0 m seed _).1 all.1
    have w0' := forged_work hC hs0 (hses _ (List.mem_cons_self ..)) hver (hnew _ (List.mem_cons_self ..)) hn e0
    unfold callWork
    simp only [Work.run, mapped_work]
    unfold Work.decryptMsg World.containsSession World.loadSession
    rw [hr, outcome_work]
    simp only [Option.isSome_some, Bool.not_true, Bool.false_eq_true, if_false]
    have hrec : (Work.decryptWithSessionRecord counting { r with fresh := false } m seed seeds).work =
        Tally.times (r.sessionState :: r.previousStates).length { hmac := 6 * m.counter + 13, genPriv := 1, genPub := 1, dh := 2 } := by
      unfold Work.decryptWithSessionRecord
      rw [work_ok (value_attempt _), work_attempt, Work.decryptWithSessionState_value]
      simp only [e0]
      rw [w0', tryPrevious_work r.previousStates 0 (t := { hmac := 6 * m.counter + 13, genPriv := 1, genPub := 1, dh := 2 }) fun k s hk => by
        have hmem := List.mem_of_getElem? hk
        have e := (verdict_iff hC (hsp s hmem) m (seeds k) _).1 (all.2 k s hk)
        rw [Nat.zero_add]
        exact ⟨e, forged_work hC (hsp s hmem) (hses _ (List.mem_cons_of_mem _ hmem)) hver (hnew _ (List.mem_cons_of_mem _ hmem)) hn e⟩,
        List.length_cons]
      simp only [Tally.times, Tally.add_def, Nat.succ_mul, Tally.mk.injEq]
      omega
    cases hx : (Work.decryptWithSessionRecord counting { r with fresh := false } m seed seeds).value with
    | ok p => rw [work_ok hx, work_pure, Tally.add_none, hrec]
    | error e => rw [work_error hx, hrec]

end

/-! ## Non-vacuity -/

section
attribute [local instance] toy
open Example Spec

/-- Alice has set up a session with Bob and sent a message. -/
def Example.workCalls : List Call := [.processBundle bobAddr bobBundle (key 41) (key 42), .encrypt bobAddr [104, 105]]

/-- Anyone can write this. -/
def Example.junk (counter : Nat) : WhisperMessage :=
  { serialized := [0x33], senderRatchetKey := key 99, messageVersion := 3, counter := counter, previousCounter := 0, ciphertext := [] }

/-- `C108_forgery` applies to it. -/
example : callWork (Call.after alice0 workCalls) (.decryptMsg bobAddr (junk 2) (key 43) (fun _ => key 44)) =
    Tally.times 1 { hmac := 25, genPriv := 1, genPub := 1, dh := 2 } := by
  have h1 : ∀ s ∈ statesAt (Call.after alice0 workCalls) bobAddr, s.senderChain.isSome = true ∧
      ∀ c ∈ s.receiverChains, decide (Curve.decodePoint (c.senderRatchetKey.getD []) ≠ .ok (key 99)) = true := by decide +kernel
  have h2 : (statesAt (Call.after alice0 workCalls) bobAddr).length = 1 := by decide +kernel
  have := C108_forgery toy_lawful alice0 (fun _ => rfl) workCalls bobAddr (junk 2) (key 43) (fun _ => key 44) (fun s hs => (h1 s hs).1) rfl
    (fun s hs c hc hk => of_decide_eq_true ((h1 s hs).2 c hc) (KeyOf_iff.1 hk)) (by decide) (by decide +kernel)
  rw [h2] at this
  exact this

/-- The reply that Alice reads costs a ratchet step, seven HMACs and one block; encrypting costs seven HMACs and one block; a bundle costs
what `C108_bound` allows. -/
example : callWork alice2 (.decryptMsg bobAddr replyMsg (key 43) (fun _ => key 44)) =
      { hmac := 13, genPriv := 1, genPub := 1, dh := 2, aesDec := 1 } ∧
    callWork alice1 (.encrypt bobAddr [104, 105]) = { hmac := 7, aesEnc := 1 } ∧
    callWork alice0 (.processBundle bobAddr bobBundle (key 41) (key 42)) =
      mostWork (.processBundle bobAddr bobBundle (key 41) (key 42)) ∧
    callWork alice0 (.decryptMsg bobAddr replyMsg (key 43) (fun _ => key 44)) = .none := by decide +kernel

end
end Axolotl
