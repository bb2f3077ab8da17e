import Verif.Proofs.Shape
import Verif.Proofs.ChainInv
import Verif.Proofs.GroupSteps
import Verif.Props.Persist
import Verif.Spec.ByteStore

/-! Every stored record is in the range of its protobuf types; calls read the stores only through `load`. -/

namespace Axolotl
section
variable [C : Crypto]
open SessionState SessionBuilder Spec Wire

omit C in
theorem OptLt.of_getD {o : Option Nat} {n : Nat} (h : o.getD 0 < n) : OptLt o n := by
  cases o with
  | none => exact OptLt.none
  | some a => exact OptLt.some h

omit C in
theorem OptLt.getD_lt {o : Option Nat} {n : Nat} (h : OptLt o n) (hn : 0 < n) : o.getD 0 < n := by
  cases o with
  | none => exact hn
  | some a => exact h a rfl

omit C in
theorem chainOk_mk {eph : ECPub} {ck : ChainKey} (h : ck.index < 2 ^ 32) : (mkChain eph ck).Ok := by
  refine ⟨?_, ?_⟩
  · intro a ha; injection ha with ha; subst ha; exact ⟨OptLt.some h⟩
  · intro a ha; cases ha

omit C in
theorem chainOk_sender {old : ChainS} (ho : old.Ok) {kp : KeyPair} {ck : ChainKey} (h : ck.index < 2 ^ 32) :
    (newSender old kp ck).Ok := by
  refine ⟨?_, ho.messageKeys⟩
  intro a ha; injection ha with ha; subst ha; exact ⟨OptLt.some h⟩

omit C in
theorem chainOk_empty : ChainS.Ok {} := by
  refine ⟨?_, ?_⟩
  · intro a ha; cases ha
  · intro a ha; cases ha

omit C in
theorem senderChainD_ok {s : SessionState} (h : SessionS.Ok s) : (senderChainD s).Ok := by
  unfold senderChainD
  cases hs : s.senderChain with
  | none => exact chainOk_empty
  | some c => exact h.senderChain c hs

omit C in
theorem sendIndex_lt {s : SessionState} (h : SessionS.Ok s) : sendIndex s < 2 ^ 32 := by
  unfold sendIndex
  cases hc : (senderChainD s).chainKey with
  | none => exact Nat.two_pow_pos 32
  | some k => exact OptLt.getD_lt ((senderChainD_ok h).chainKey k hc).index (Nat.two_pow_pos 32)

omit C in
theorem setChainAt_ok {s : SessionState} (h : SessionS.Ok s) {j : Nat} {c : ChainS} (hc : c.Ok) :
    SessionS.Ok (setChainAt s j c) := by
  refine ⟨h.sessionVersion, h.previousCounter, h.senderChain, ?_, h.pendingKeyExchange, h.pendingPreKey,
    h.remoteRegistrationId, h.localRegistrationId⟩
  intro a ha
  rcases List.mem_or_eq_of_mem_set ha with h1 | h1
  · exact h.receiverChains a h1
  · exact h1 ▸ hc

theorem entryOf_ok {c : ChainKey} (h : c.index < 2 ^ 32) : (entryOf c).Ok := ⟨OptLt.some h⟩

omit C in
theorem chainOk_keys {c : ChainS} (h : c.Ok) {l : List MessageKeyS} (hl : ∀ a ∈ l, a.Ok) :
    ChainS.Ok { c with messageKeys := l } := ⟨h.chainKey, hl⟩

/-- Every state the library makes has its integers in range. -/
theorem stateOk_inv : StateInv SessionS.Ok where
  empty := by
    refine ⟨OptLt.none, OptLt.none, ?_, ?_, ?_, ?_, OptLt.none, OptLt.none⟩ <;> intro a ha <;> cases ha
  created := by
    intro s h
    obtain ⟨h1, h2, _, _, _, ⟨kp, ck, h6⟩, h7, h8⟩ := created_shape h
    have hsc : ∀ a, s.senderChain = some a → a.Ok := by
      intro a ha
      rw [h6] at ha
      injection ha with ha
      exact ha ▸ chainOk_sender chainOk_empty (Nat.two_pow_pos 32)
    have hrc : ∀ a ∈ s.receiverChains, a.Ok := by
      intro a ha
      rcases h7 with h7 | ⟨eph, ck, h7, _⟩
      · rw [h7] at ha; cases ha
      · rw [h7, List.mem_singleton] at ha
        exact ha ▸ chainOk_mk (Nat.two_pow_pos 32)
    have hv : OptLt s.sessionVersion (2 ^ 32) := by rw [h1]; exact OptLt.some (by omega)
    have hp : OptLt s.previousCounter (2 ^ 32) := by rw [h8]; exact OptLt.none
    have hke : ∀ a, s.pendingKeyExchange = some a → a.Ok := by intro a ha; rw [h2] at ha; cases ha
    suffices h' : OptLt s.remoteRegistrationId (2 ^ 32) ∧ OptLt s.localRegistrationId (2 ^ 32) ∧
        ∀ a, s.pendingPreKey = some a → a.Ok from ⟨hv, hp, hsc, hrc, hke, h'.2.2, h'.1, h'.2.1⟩
    cases h with
    | bob h0 h1 h2 =>
      obtain ⟨_, _, rfl⟩ := initBob_ok h0
      obtain ⟨_, _, hl, rfl⟩ := setLocalRegistrationId_ok h1
      obtain ⟨_, _, hr, rfl⟩ := setRemoteRegistrationId_ok h2
      refine ⟨OptLt.some hr, OptLt.some hl, ?_⟩
      intro a ha; cases ha
    | @alice _ _ _ _ _ _ _ _ _ pk _ _ h0 h1 h2 h3 =>
      obtain ⟨_, _, _, _, _, rfl⟩ := initAlice_ok h0
      obtain ⟨p, p1, _, p3, p4, p5, p6, rfl⟩ := setUnack_ok h1
      obtain ⟨_, _, hl, rfl⟩ := setLocalRegistrationId_ok h2
      obtain ⟨_, _, hr, rfl⟩ := setRemoteRegistrationId_ok h3
      refine ⟨OptLt.some hr, OptLt.some hl, ?_⟩
      intro a ha
      have ha : some p = some a := ha
      injection ha with ha
      subst ha
      refine ⟨?_, ?_⟩
      · cases hq : pk with
        | none => rw [p5 hq]; exact OptLt.none
        | some i =>
          obtain ⟨n, _, hn, h⟩ := p6 i hq
          rw [h]
          exact OptLt.some hn
      · intro i hi
        rw [p1] at hi
        injection hi with hi
        exact hi ▸ ⟨p3, p4⟩
    | sym h0 =>
      rcases initSession_ok h0 with ⟨_, h1⟩ | ⟨_, h1⟩
      · obtain ⟨_, _, _, _, _, rfl⟩ := initAlice_ok h1
        refine ⟨OptLt.none, OptLt.none, ?_⟩
        intro a ha; cases ha
      · obtain ⟨_, _, rfl⟩ := initBob_ok h1
        refine ⟨OptLt.none, OptLt.none, ?_⟩
        intro a ha; cases ha
  encrypt := by
    intro s pt c s' hs h
    obtain ⟨_, _, _, _, _, _, _, _, _, _, _, _, _, hi, _, _, sc, hsc, h⟩ := SessionCipher.ews_ok h
    subst h
    refine ⟨hs.sessionVersion, hs.previousCounter, ?_, hs.receiverChains, hs.pendingKeyExchange, hs.pendingPreKey,
      hs.remoteRegistrationId, hs.localRegistrationId⟩
    intro a ha
    injection ha with ha
    subst ha
    subst hsc
    refine ⟨?_, (senderChainD_ok hs).messageKeys⟩
    intro b hb
    injection hb with hb
    subst hb
    exact ⟨OptLt.some hi⟩
  decrypt := by
    intro s m seed pt s' hs h
    obtain ⟨_, _, ck, s1, mk, s2, _, _, h1, h2, _, _, _, _, h5⟩ := SessionCipher.dwss_ok h
    have hs1 : SessionS.Ok s1 := by
      rcases SessionCipher.gocck_ok h1 with ⟨_, _, _, _, _, _, h⟩ | ⟨_, _, _, _, sck, _, _, _, hc1, hc2, h⟩
      · exact h ▸ hs
      · subst h
        have i1 : ck.index = 0 := by obtain ⟨_, _, _, _, h⟩ := RootKey.createChain_ok hc1; exact h
        have i2 : sck.index = 0 := by obtain ⟨_, _, _, _, h⟩ := RootKey.createChain_ok hc2; exact h
        refine ⟨hs.sessionVersion, OptLt.some ?_, ?_, ?_, hs.pendingKeyExchange, hs.pendingPreKey,
          hs.remoteRegistrationId, hs.localRegistrationId⟩
        · exact Nat.lt_of_le_of_lt (Nat.sub_le _ _) (sendIndex_lt hs)
        · intro a ha
          injection ha with ha
          exact ha ▸ chainOk_sender (senderChainD_ok hs) (i2 ▸ Nat.two_pow_pos 32)
        · intro a ha
          have : a ∈ s.receiverChains ++ [mkChain m.senderRatchetKey ck] := by
            simp only [ratcheted, pushChain] at ha
            split at ha
            · exact List.mem_of_mem_drop ha
            · exact ha
          rcases List.mem_append.1 this with h | h
          · exact hs.receiverChains a h
          · rw [List.mem_singleton] at h
            exact h ▸ chainOk_mk (i1 ▸ Nat.two_pow_pos 32)
    obtain ⟨c, j, hj, h2⟩ := SessionCipher.gocmk_ok h2
    have hc : c.Ok := hs1.receiverChains c (List.mem_of_getElem? (findChain_some hj).2.1)
    have hs2 : SessionS.Ok s2 := by
      rcases h2 with ⟨_, e, rest, ht, _, h⟩ | ⟨hle, _, hlt, _, c', hc', h⟩
      · subst h
        exact setChainAt_ok hs1 (chainOk_keys hc fun a ha => by
          obtain ⟨x, y, h1, h2, _⟩ := takeKey_split ht
          refine hc.messageKeys a ?_
          rw [h1]
          rw [h2] at ha
          rcases List.mem_append.1 ha with h | h
          · exact List.mem_append.2 (.inl h)
          · exact List.mem_append.2 (.inr (List.mem_cons_of_mem _ h)))
      · subst h; subst hc'
        refine setChainAt_ok hs1 ⟨?_, ?_⟩
        · intro a ha
          injection ha with ha
          subst ha
          exact ⟨OptLt.some hlt⟩
        · intro a ha
          rcases List.mem_append.1 ha with h | h
          · exact hc.messageKeys a h
          · unfold skipped at h
            obtain ⟨i, hi, rfl⟩ := List.mem_map.1 h
            rw [List.mem_range] at hi
            refine entryOf_ok ?_
            rw [ChainKey.iter_index]
            omega
    subst h5
    refine ⟨hs2.sessionVersion, hs2.previousCounter, hs2.senderChain, hs2.receiverChains, hs2.pendingKeyExchange, ?_,
      hs2.remoteRegistrationId, hs2.localRegistrationId⟩
    intro a ha; cases ha
  pending := by
    intro s q a b c s' hs h
    obtain ⟨hq, rfl⟩ := setPending_ok h
    refine ⟨hs.sessionVersion, hs.previousCounter, hs.senderChain, hs.receiverChains, ?_, hs.pendingPreKey,
      hs.remoteRegistrationId, hs.localRegistrationId⟩
    intro a ha
    injection ha with ha
    subst ha
    exact ⟨OptLt.some hq⟩

/-! ## Group records -/

/-- All integers of all states of a group record are in range. -/
def SenderKeyRecord.Ok (r : SenderKeyRecord) : Prop := ∀ s ∈ r.senderKeyStates, SenderKeyStateS.Ok s

omit C in
theorem groupTakeKey_rest {i : Nat} : ∀ {l : List SenderSeedS} {k : SenderSeedS} {rest : List SenderSeedS},
    SenderKeyState.takeKey i l = some (k, rest) → ∀ a ∈ rest, a ∈ l := by
  intro l
  induction l with
  | nil => intro k rest h; cases h
  | cons x l ih =>
    intro k rest h a ha
    unfold SenderKeyState.takeKey at h
    split at h
    · injection h with h
      injection h with h1 h2
      subst h2
      exact List.mem_cons_of_mem _ ha
    · cases ht : SenderKeyState.takeKey i l with
      | none => rw [ht] at h; cases h
      | some p =>
        rw [ht] at h
        injection h with h
        injection h with h1 h2
        subst h2
        rcases List.mem_cons.1 ha with rfl | ha
        · exact List.mem_cons_self ..
        · exact List.mem_cons_of_mem _ (ih (k := p.1) (rest := p.2) ht a ha)

omit C in
theorem iterationOf_lt {s : SenderKeyStateS} (h : s.Ok) : iterationOf s < 2 ^ 32 := by
  unfold iterationOf
  cases hc : s.senderChainKey with
  | none => exact Nat.two_pow_pos 32
  | some c => exact OptLt.getD_lt (h.senderChainKey c hc).iteration (Nat.two_pow_pos 32)

theorem stateStep_ok {s s' : SenderKeyState} (h : SenderKeyStateS.Ok s) (hs : StateStep s s') :
    SenderKeyStateS.Ok s' := by
  cases hs with
  | send hi =>
    refine ⟨h.senderKeyId, ?_, h.senderSigningKey, h.senderMessageKeys⟩
    intro a ha
    injection ha with ha
    subst ha
    exact ⟨OptLt.some hi⟩
  | old _ ht =>
    refine ⟨h.senderKeyId, h.senderChainKey, h.senderSigningKey, ?_⟩
    intro a ha
    exact h.senderMessageKeys a (groupTakeKey_rest ht a ha)
  | new hle hi =>
    refine ⟨h.senderKeyId, ?_, h.senderSigningKey, ?_⟩
    · intro a ha
      injection ha with ha
      subst ha
      exact ⟨OptLt.some hi⟩
    · intro a ha
      rcases List.mem_append.1 ha with h1 | h1
      · exact h.senderMessageKeys a h1
      · unfold skippedSeeds at h1
        obtain ⟨j, hj, rfl⟩ := List.mem_map.1 h1
        rw [List.mem_range] at hj
        refine ⟨OptLt.some ?_⟩
        rw [position_eq]
        omega

theorem freshState_ok {s : SenderKeyState} (h : FreshState s) : SenderKeyStateS.Ok s := by
  obtain ⟨h1, h2, h3, _⟩ := h
  refine ⟨OptLt.of_getD h2, ?_, ?_, ?_⟩
  · intro a ha
    refine ⟨OptLt.of_getD ?_⟩
    unfold iterationOf at h3
    rw [ha] at h3
    exact h3
  · intro a _; constructor
  · intro a ha; rw [h1] at ha; cases ha

theorem recordStep_ok {r r' : SenderKeyRecord} (h : r.Ok) (hs : RecordStep r r') : r'.Ok := by
  cases hs with
  | same => exact h
  | add hf _ =>
    intro a ha
    rcases List.mem_append.1 ha with h1 | h1
    · exact h a h1
    · rw [List.mem_singleton] at h1
      exact h1 ▸ freshState_ok hf
  | first _ hf =>
    intro a ha
    rw [List.mem_singleton] at ha
    exact ha ▸ freshState_ok hf
  | change hg hs =>
    intro a ha
    have hm := List.mem_of_getElem? (SenderKeyRecord.getStateById_ok hg).2.1
    rcases List.mem_or_eq_of_mem_set ha with h1 | h1
    · exact h a h1
    · exact h1 ▸ stateStep_ok (h _ hm) hs

theorem group_after_ok {g : GroupStore} (hg : ∀ n, (g n).Ok) (cs : List GroupCall) (n : SenderKeyName) :
    (GroupCall.after g cs n).Ok := by
  unfold GroupCall.after
  induction cs generalizing g with
  | nil => exact hg n
  | cons c cs ih => exact ih fun n => recordStep_ok (hg n) (next_record g c n)

/-! ## Loading -/

/-- The session records as a load returns them. -/
def normal (w : World) : World :=
  { w with sessions := fun a => (w.sessions a).map fun r => { r with fresh := false } }

omit C in
theorem normal_load (w : World) (a : Address) : (normal w).loadSession a = w.loadSession a := by
  unfold World.loadSession normal
  simp only
  cases w.sessions a <;> rfl

omit C in
theorem normal_contains (w : World) (a : Address) : (normal w).containsSession a = w.containsSession a := by
  unfold World.containsSession normal
  simp only
  cases w.sessions a <;> rfl

/-- Calls see the session store only through `loadSession` and `containsSession`. -/
theorem normal_run (w : World) (c : Call) : c.run (normal w) = c.run w := by
  cases c with
  | encrypt a p =>
    simp only [Call.run, SessionCipher.encrypt, normal_load]
  | decryptMsg a m s ss =>
    simp only [Call.run, SessionCipher.decryptMsg, normal_load, normal_contains]
  | decryptPkmsg a m s ss =>
    simp only [Call.run, SessionCipher.decryptPkmsg, SessionBuilder.process, SessionBuilder.processV3, normal_load]
    rfl
  | processBundle a b s1 s2 =>
    simp only [Call.run, SessionBuilder.processPreKeyBundle, normal_load]
    rfl
  | processKeyExchange a m r =>
    simp only [Call.run, SessionBuilder.processKeyExchangeMessage, SessionBuilder.processInitiate, SessionBuilder.processInitiateState,
      SessionBuilder.processResponse, normal_load]
    rfl
  | initKeyExchange a n s1 s2 s3 =>
    simp only [Call.run, SessionBuilder.processInitKeyExchangeMessage, normal_load]
    rfl

end
end Axolotl
