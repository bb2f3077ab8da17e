import Verif.Proofs.Shape
import Verif.Props.Builder

/-! # C22, C27, C28, C34-C36: session records -/

namespace Axolotl
section
variable [C : Crypto]
open SessionState SessionBuilder

/-! ## C22: bounds -/

theorem chains_inv : StateInv fun s => s.receiverChains.length ≤ 5 where
  empty := by simp
  created := by
    intro s h
    obtain ⟨_, _, _, _, _, _, h, _⟩ := created_shape h
    rcases h with h | ⟨_, _, h, _⟩ <;> rw [h] <;> simp
  encrypt := by
    intro s pt c s' hs h
    rw [(ews_same h).2.2.2.1]; exact hs
  decrypt := by
    intro s m seed pt s' hs h
    exact dwss_chains h hs
  pending := by
    intro s q a b c s' hs h
    rw [(setPending_ok h).2]; exact hs

omit C in
theorem promote_length {r : SessionRecord} {s : SessionState} (h : r.previousStates.length ≤ 40) :
    (r.promoteState s).previousStates.length ≤ 40 := by
  unfold SessionRecord.promoteState SessionRecord.ARCHIVED_STATES_MAX_LENGTH
  simp only
  split
  · simp; omega
  · rename_i h'; omega

theorem dwsr_length {r : SessionRecord} {m : WhisperMessage} {seed : Bytes} {seeds : Nat → Bytes} {pt : Bytes}
    {r' : SessionRecord} (h : SessionCipher.decryptWithSessionRecord r m seed seeds = .ok (pt, r'))
    (hl : r.previousStates.length ≤ 40) : r'.previousStates.length ≤ 40 := by
  rcases dwsr_ok h with ⟨s, _, rfl⟩ | ⟨_, k, p, s, _, _, _, rfl⟩
  · exact hl
  · refine promote_length (r := { r with previousStates := r.previousStates.eraseIdx k }) ?_
    exact Nat.le_trans (List.length_eraseIdx_le _ _) hl

omit C in
theorem archive_length {r : SessionRecord} (h : r.previousStates.length ≤ 40) :
    (archiveUnlessFresh r).previousStates.length ≤ 40 := by
  unfold archiveUnlessFresh
  split
  · exact promote_length h
  · exact h

/-- **C22.** After any history of library calls starting without sessions, no session state (current or
archived) has more than 5 receive chains and no record more than 40 archived states. -/
theorem C22_bounded (w : World) (hw : w.NoSessions) (cs : List Call) (a : Address) (r : SessionRecord)
    (h : (Call.after w cs).sessions a = some r) :
    r.previousStates.length ≤ 40 ∧ ∀ s ∈ Spec.states r, s.receiverChains.length ≤ 5 := by
  refine ⟨?_, ?_⟩
  · refine reachable_record (P := fun r => r.previousStates.length ≤ 40) (by simp) (fun r h => h) ?_ cs w
      (fun a r hr => by rw [hw a] at hr; cases hr) a r h
    intro r r' hr hs
    cases hs with
    | encrypt _ => exact hr
    | decrypt hd => exact dwsr_length hd hr
    | create _ => exact archive_length hr
    | createDecrypt _ hd => exact dwsr_length hd (archive_length hr)
    | pending _ => exact hr
  · have := reachable_all chains_inv w hw cs a r h
    intro s hs
    rcases List.mem_cons.1 hs with rfl | hs
    · exact this.1
    · exact this.2 s hs

/-! ## C35: versions -/

/-- The version a session state speaks: what is stored, 2 if nothing is. -/
def Spec.stateVersion (s : SessionS) : Nat :=
  match s.sessionVersion with
  | none => 2
  | some 0 => 2
  | some v => v

omit C in
theorem stateVersion_eq (s : SessionState) : getSessionVersion s = Spec.stateVersion s := by
  unfold getSessionVersion Spec.stateVersion
  rcases h : s.sessionVersion with _ | (_ | n) <;> simp

/-- A state that cannot decrypt the message for lack of a sender chain or because of the version. -/
theorem dwss_refused {s : SessionState} {m : WhisperMessage} {seed : Bytes}
    (h : s.senderChain = none ∨ Spec.stateVersion s ≠ m.messageVersion) :
    SessionCipher.decryptWithSessionState s m seed = .error .invalidMessage := by
  unfold SessionCipher.decryptWithSessionState
  split
  · rfl
  · rename_i hs
    rw [if_pos]
    rcases h with h | h
    · exfalso; apply hs; unfold hasSenderChain; rw [h]; rfl
    · rw [stateVersion_eq]; exact fun he => h he.symm

theorem tryPrevious_refused {r : SessionRecord} {m : WhisperMessage} {seeds : Nat → Bytes} :
    ∀ {rest : List SessionState} {i : Nat},
    (∀ k s, rest[k]? = some s → SessionCipher.decryptWithSessionState s m (seeds (i + k)) = .error .invalidMessage) →
    SessionCipher.tryPrevious r m seeds rest i = .error .invalidMessage := by
  intro rest
  induction rest with
  | nil => intro i _; rfl
  | cons p rest ih =>
    intro i h
    unfold SessionCipher.tryPrevious
    have h0 := h 0 p rfl
    simp only [Nat.add_zero] at h0
    rw [h0]
    simp only
    apply ih
    intro k s hk
    have := h (k + 1) s hk
    rw [← Nat.add_assoc, Nat.add_right_comm] at this
    exact this

theorem dwsr_refused {r : SessionRecord} {m : WhisperMessage} {seed : Bytes} {seeds : Nat → Bytes}
    (h : ∀ s ∈ Spec.states r, ∀ seed, SessionCipher.decryptWithSessionState s m seed = .error .invalidMessage) :
    SessionCipher.decryptWithSessionRecord r m seed seeds = .error .invalidMessage := by
  unfold SessionCipher.decryptWithSessionRecord
  rw [h r.sessionState (List.mem_cons_self ..) seed]
  simp only
  apply tryPrevious_refused
  intro k s hk
  exact h s (List.mem_cons_of_mem _ (List.mem_of_getElem? hk)) _

/-- **C35.** A message of a version that no stored state of the peer speaks is refused with
`InvalidMessage`, and nothing changes. -/
theorem C35_version_mismatch (w : World) (a : Address) (r : SessionRecord) (hr : w.sessions a = some r)
    (m : WhisperMessage) (seed : Bytes) (seeds : Nat → Bytes)
    (h : ∀ s ∈ Spec.states r, s.senderChain = none ∨ Spec.stateVersion s ≠ m.messageVersion) :
    (SessionCipher.decryptMsg w a m seed seeds).result = .error .invalidMessage ∧
    (SessionCipher.decryptMsg w a m seed seeds).final w = w := by
  have hd : SessionCipher.decryptWithSessionRecord (w.loadSession a) m seed seeds = .error .invalidMessage := by
    apply dwsr_refused
    intro s hs seed
    apply dwss_refused
    apply h
    unfold World.loadSession at hs
    rw [hr] at hs
    exact hs
  unfold SessionCipher.decryptMsg World.containsSession
  rw [hr, hd]
  exact ⟨rfl, rfl⟩

theorem version_inv : StateInv fun s => (s.senderChain.isSome → s.sessionVersion = some 3) where
  empty := by simp
  created := by
    intro s h _
    exact (created_shape h).1
  encrypt := by
    intro s pt c s' hs h _
    obtain ⟨sc, hsc⟩ : ∃ sc, s.senderChain = some sc := by
      obtain ⟨_, eph, _, _, _, _, _, he, _⟩ := SessionCipher.ews_ok h
      cases hs : s.senderChain with
      | some sc => exact ⟨sc, rfl⟩
      | none =>
        unfold getSenderRatchetKey senderChainD at he
        rw [hs] at he
        simp [Curve.decodePoint] at he
    rw [(ews_same h).1.1]
    exact hs (by rw [hsc]; rfl)
  decrypt := by
    intro s m seed pt s' hs h _
    rw [(dwss_same h).1.1]
    apply hs
    exact (SessionCipher.dwss_ok h).1
  pending := by
    intro s q a b c s' hs h
    rw [(setPending_ok h).2]; exact hs

/-- **C35.** Every session the library sets up is version 3: in any reachable world a message of any
other version is refused with `InvalidMessage` (or `NoSession`) and changes nothing. -/
theorem C35_reachable (w : World) (hw : w.NoSessions) (cs : List Call) (a : Address) (m : WhisperMessage)
    (seed : Bytes) (seeds : Nat → Bytes) (hv : m.messageVersion ≠ 3) :
    let w' := Call.after w cs
    ((SessionCipher.decryptMsg w' a m seed seeds).result = .error .invalidMessage ∨
      (SessionCipher.decryptMsg w' a m seed seeds).result = .error .noSession ∧ w'.sessions a = none) ∧
    (SessionCipher.decryptMsg w' a m seed seeds).final w' = w' ∧
    (∀ r, w'.sessions a = some r → ∀ s ∈ Spec.states r, s.senderChain.isSome → s.sessionVersion = some 3) := by
  intro w'
  have hall : ∀ r, w'.sessions a = some r → ∀ s ∈ Spec.states r, s.senderChain.isSome → s.sessionVersion = some 3 := by
    intro r hr s hs
    have := reachable_all version_inv w hw cs a r hr
    rcases List.mem_cons.1 hs with rfl | hs
    · exact this.1
    · exact this.2 s hs
  cases hr : w'.sessions a with
  | none =>
    have : SessionCipher.decryptMsg w' a m seed seeds = ⟨[], .error .noSession⟩ := by
      unfold SessionCipher.decryptMsg World.containsSession
      rw [hr]
      rfl
    rw [this]
    exact ⟨Or.inr ⟨rfl, rfl⟩, rfl, fun r h => by cases h⟩
  | some r =>
    obtain ⟨h1, h2⟩ := C35_version_mismatch w' a r hr m seed seeds (by
      intro s hs
      cases hsc : s.senderChain with
      | none => exact Or.inl rfl
      | some c =>
        right
        unfold Spec.stateVersion
        rw [hall r hr s hs (by rw [hsc]; rfl)]
        exact fun h => hv h.symm)
    exact ⟨Or.inl h1, h2, by rw [← hr]; exact hall⟩

/-! ## C34: authentication -/

omit C in
theorem parse_serialized {bs : Bytes} {m : WhisperMessage} (h : WhisperMessage.parse bs = .ok m) :
    m.serialized = bs := by
  unfold WhisperMessage.parse at h
  split at h
  · cases h
  · unfold WhisperMessage.wrapInvalidKey at h
    split at h
    · cases h
    · unfold WhisperMessage.parseBody at h
      simp only at h
      split at h
      · cases h
      · split at h
        · cases h
        · split at h
          · cases h
          · obtain ⟨_, _, h⟩ := bind_eq_ok.1 h
            split at h
            · cases h
            · obtain ⟨_, _, h⟩ := bind_eq_ok.1 h
              replace h := Except.ok.inj h
              rw [← h]

omit C in
theorem takeKey_mem {n : Nat} : ∀ {l : List MessageKeyS} {e : MessageKeyS} {rest : List MessageKeyS},
    takeKey n l = some (e, rest) → e ∈ l ∧ e.index.getD 0 = n := by
  intro l
  induction l with
  | nil => intro e rest h; simp [takeKey] at h
  | cons x l ih =>
    intro e rest h
    unfold takeKey at h
    split at h
    · rename_i hx
      injection h with h
      injection h with h1 h2
      subst h1
      exact ⟨List.mem_cons_self .., hx⟩
    · cases ht : takeKey n l with
      | none => rw [ht] at h; cases h
      | some p =>
        rw [ht] at h
        injection h with h
        injection h with h1 h2
        subst h1
        obtain ⟨h3, h4⟩ := ih (e := p.1) (rest := p.2) (by rw [ht])
        exact ⟨List.mem_cons_of_mem _ h3, h4⟩

/-- The MAC key a successful decryption used is one the state offers. -/
theorem dwss_mac (hlen : ∀ k m, (C.hmac k m).length = 32) {s : SessionState} {m : WhisperMessage} {seed : Bytes}
    {pt : Bytes} {s' : SessionState} (h : SessionCipher.decryptWithSessionState s m seed = .ok (pt, s'))
    (hv : s.sessionVersion = some 3) :
    ∃ k rid lid, Spec.MacKey s m.senderRatchetKey m.counter k ∧
      Curve.decodePoint (s.remoteIdentityPublic.getD []) = .ok rid ∧
      Curve.decodePoint (s.localIdentityPublic.getD []) = .ok lid ∧ m.messageVersion = 3 ∧
      WhisperMessage.verifyMac m m.messageVersion rid lid k = .ok () := by
  obtain ⟨hsc, hver, ck, s1, mk, s2, rid, lid, h1, h2, h3, h4, h5, h6, h7⟩ := SessionCipher.dwss_ok h
  have hm3 : m.messageVersion = 3 := by rw [hver]; unfold getSessionVersion; rw [hv]; rfl
  obtain ⟨c, j, hc, h2⟩ := SessionCipher.gocmk_ok h2
  have hs2 : ∃ c', s2 = setChainAt s1 j c' := by
    rcases h2 with ⟨_, _, _, _, _, h⟩ | ⟨_, _, _, _, _, _, h⟩
    · exact ⟨_, h⟩
    · exact ⟨_, h⟩
  obtain ⟨c', hs2⟩ := hs2
  rcases SessionCipher.gocck_ok h1 with ⟨c1, j1, kdf, g1, g2, g3, g4⟩ | ⟨kdf, our, rk1, rk2, sck, g1, g2, g3, g4, g5, g6⟩
  · subst g4
    rw [g1] at hc
    replace hc := Except.ok.inj hc
    injection hc with hc
    injection hc with hc1 hc2
    subst hc1; subst hc2
    obtain ⟨_, hcm, hck⟩ := findChain_some g1
    have hcm := List.mem_of_getElem? hcm
    rw [createFor_three hv] at g2
    replace g2 := Except.ok.inj g2
    subst g2
    refine ⟨mk.macKey, rid, lid, ?_, ?_, ?_, hm3, h5⟩
    · rcases h2 with ⟨_, e, rest, ht, hmk, _⟩ | ⟨hle, _, _, hmk, _⟩
      · subst hmk
        obtain ⟨t1, t2⟩ := takeKey_mem ht
        exact .stored hcm hck t1 t2
      · subst hmk; subst g3
        rw [getMessageKeys_v3 hlen _ (by rw [ChainKey.iter_kdf]; rfl), iter_key]
        exact .ahead hcm hck rfl hle
    · rw [hs2] at h3; exact h3
    · rw [hs2] at h4; exact h4
  · obtain ⟨secret, hsec, e1, e2, e3⟩ := RootKey.createChain_ok g4
    rw [createFor_three hv] at g2
    replace g2 := Except.ok.inj g2
    subst g2
    rw [createChain_v3 hlen] at g4
    unfold Curve.calculateAgreement at hsec
    cases hdh : C.dh our.priv m.senderRatchetKey with
    | none => rw [hdh] at g4; cases g4
    | some sec =>
    rw [hdh] at g4
    simp only at g4
    replace g4 := Except.ok.inj g4
    injection g4 with g4 g4'
    subst g4; subst g4'
    refine ⟨mk.macKey, rid, lid, ?_, ?_, ?_, hm3, h5⟩
    · rcases h2 with ⟨hlt, _⟩ | ⟨hle, _, _, hmk, _⟩
      · exact absurd hlt (by simp)
      · subst hmk
        rw [getMessageKeys_v3 hlen _ (by rw [ChainKey.iter_kdf]), iter_key]
        simp only [Nat.sub_zero]
        unfold getSenderRatchetKeyPair at g3
        obtain ⟨pub, _, g3⟩ := bind_eq_ok.1 g3
        replace g3 := Except.ok.inj g3
        subst g3
        cases hsc' : s.senderChain with
        | none => unfold hasSenderChain at hsc; rw [hsc'] at hsc; cases hsc
        | some c0 =>
          refine .ratchet hsc' ?_
          unfold senderChainD at hdh
          rw [hsc'] at hdh
          exact hdh
    · rw [hs2, g6] at h3; exact h3
    · rw [hs2, g6] at h4; exact h4

/-- The decryption of a record: which of its states accepted. -/
theorem dwsr_state {r : SessionRecord} {m : WhisperMessage} {seed : Bytes} {seeds : Nat → Bytes} {pt : Bytes}
    {r' : SessionRecord} (h : SessionCipher.decryptWithSessionRecord r m seed seeds = .ok (pt, r')) :
    ∃ s ∈ Spec.states r, ∃ seed s', SessionCipher.decryptWithSessionState s m seed = .ok (pt, s') := by
  rcases dwsr_ok h with ⟨s, h1, _⟩ | ⟨_, k, p, s, hk, h1, _, _⟩
  · exact ⟨_, List.mem_cons_self .., _, _, h1⟩
  · exact ⟨p, List.mem_cons_of_mem _ (List.mem_of_getElem? hk), _, _, h1⟩

/-- **C34.** If the bytes `bs`, parsed and given to `decryptMsg`, are accepted, then `bs` is some body
followed by the first 8 bytes of the HMAC, under a MAC key that one of the stored session states of that
peer offers for this ratchet key and counter, of both identity keys of that state and the body.
(`hv`: sessions are version 3, which `C35_reachable` proves for every reachable store.) -/
theorem C34_authenticated (hC : C.Lawful) (w : World) (a : Address) (r : SessionRecord) (hr : w.sessions a = some r)
    (hv : ∀ s ∈ Spec.states r, s.senderChain.isSome → s.sessionVersion = some 3)
    (bs : Bytes) (m : WhisperMessage) (hp : WhisperMessage.parse bs = .ok m)
    (seed : Bytes) (seeds : Nat → Bytes) (pt : Bytes)
    (h : (SessionCipher.decryptMsg w a m seed seeds).result = .ok pt) :
    ∃ s ∈ Spec.states r, ∃ macKey theirId ourId body mac,
      Spec.MacKey s m.senderRatchetKey m.counter macKey ∧
      Curve.decodePoint (s.remoteIdentityPublic.getD []) = .ok theirId ∧
      Curve.decodePoint (s.localIdentityPublic.getD []) = .ok ourId ∧
      bs = body ++ mac ∧ mac.length = 8 ∧
      mac = (C.hmac macKey ((5 :: theirId) ++ (5 :: ourId) ++ body)).take 8 := by
  have h0 := Outcome.ofRes_ok h
  split at h0
  · cases h0
  · obtain ⟨⟨pt', r'⟩, hd, h1⟩ := bind_eq_ok.1 h0
    replace h1 := Except.ok.inj h1
    injection h1 with h1 h2
    simp only at h2
    subst h2
    obtain ⟨s, hs, seed', s', hd⟩ := dwsr_state hd
    have hs : s ∈ Spec.states r := by
      unfold World.loadSession at hs
      rw [hr] at hs
      exact hs
    have hsc := (SessionCipher.dwss_ok hd).1
    obtain ⟨k, rid, lid, g1, g2, g3, g4, g5⟩ := dwss_mac hC.hmac_len hd (hv s hs hsc)
    obtain ⟨body, mac, f1, f2, f3⟩ := verifyMac_ok hC.hmac_len g5 (by omega)
    rw [parse_serialized hp] at f1
    exact ⟨s, hs, k, rid, lid, body, mac, g1, g2, g3, f1, f2, f3⟩

/-! ## C36: nothing is lost -/

/-- **C36.** What an accepted message does to the record: either the current state accepted it and only
that state changed, or archived state `k` did; then it becomes current, the former current state is first
in the archive, and all others stay in order. -/
theorem C36_decrypt (w : World) (a : Address) (r : SessionRecord) (hr : w.sessions a = some r)
    (hl : r.previousStates.length ≤ 40) (m : WhisperMessage) (seed : Bytes) (seeds : Nat → Bytes) (pt : Bytes)
    (h : (SessionCipher.decryptMsg w a m seed seeds).result = .ok pt) :
    ∃ r', ((SessionCipher.decryptMsg w a m seed seeds).final w).sessions a = some r' ∧
      ((Spec.SameSession r.sessionState r'.sessionState ∧ r'.previousStates = r.previousStates) ∨
       ∃ k p, r.previousStates[k]? = some p ∧ Spec.SameSession p r'.sessionState ∧
         r'.previousStates = r.sessionState :: r.previousStates.eraseIdx k) := by
  have h0 := Outcome.ofRes_ok h
  split at h0
  · cases h0
  · obtain ⟨⟨pt', r'⟩, hd, h1⟩ := bind_eq_ok.1 h0
    replace h1 := Except.ok.inj h1
    injection h1 with h1 h2
    refine ⟨r', ?_, ?_⟩
    · show (w.applyAll (SessionCipher.decryptMsg w a m seed seeds).writes).sessions a = _
      unfold SessionCipher.decryptMsg World.containsSession
      rw [hr, hd]
      simp [World.applyAll, World.apply, upd, Outcome.ofRes]
    · have hload : w.loadSession a = { r with fresh := false } := by unfold World.loadSession; rw [hr]
      rw [hload] at hd
      rcases dwsr_ok hd with ⟨s, g1, rfl⟩ | ⟨_, k, p, s, hk, g1, _, rfl⟩
      · exact Or.inl ⟨(dwss_same g1).1, rfl⟩
      · right
        refine ⟨k, p, hk, (dwss_same g1).1, ?_⟩
        have hlen := List.length_eraseIdx_of_lt (List.getElem?_eq_some_iff.1 hk).1
        have hpos := (List.getElem?_eq_some_iff.1 hk).1
        simp only at hpos
        show (if (r.sessionState :: r.previousStates.eraseIdx k).length > 40 then _ else _) = _
        rw [if_neg]
        simp only at hlen
        rw [List.length_cons, hlen]
        omega

/-- The sessions kept through a call: all old states but those beyond position `n` are still there, and at
most the one at position `i` has changed, staying the same session. -/
def Spec.Kept (n : Nat) (old new : List SessionS) : Prop :=
  ∃ i x extra, (∀ s, old[i]? = some s → Spec.SameSession s x) ∧ (((old.take n).set i x) ++ extra).Perm new

omit C in
theorem sameSession_refl (s : SessionS) : Spec.SameSession s s := ⟨rfl, rfl, rfl, rfl, rfl, rfl⟩

theorem dwsr_kept {r : SessionRecord} {m : WhisperMessage} {seed : Bytes} {seeds : Nat → Bytes} {pt : Bytes}
    {r' : SessionRecord} (h : SessionCipher.decryptWithSessionRecord r m seed seeds = .ok (pt, r'))
    (hl : r.previousStates.length ≤ 40) :
    ∃ i x, (∀ s, (Spec.states r)[i]? = some s → Spec.SameSession s x) ∧ ((Spec.states r).set i x).Perm (Spec.states r') := by
  rcases dwsr_ok h with ⟨s, h1, rfl⟩ | ⟨_, k, p, s, hk, h1, _, rfl⟩
  · refine ⟨0, s, ?_, ?_⟩
    · intro s0 h0
      simp only [Spec.states, List.getElem?_cons_zero, Option.some.injEq] at h0
      subst h0
      exact (dwss_same h1).1
    · exact List.Perm.refl _
  · refine ⟨k + 1, s, ?_, ?_⟩
    · intro s0 h0
      simp only [Spec.states, List.getElem?_cons_succ] at h0
      rw [hk] at h0
      injection h0 with h0
      subst h0
      exact (dwss_same h1).1
    · have hpos := (List.getElem?_eq_some_iff.1 hk).1
      have hlen := List.length_eraseIdx_of_lt hpos
      have hprev : (SessionRecord.promoteState { r with previousStates := r.previousStates.eraseIdx k } s) =
          { r with sessionState := s, previousStates := r.sessionState :: r.previousStates.eraseIdx k } := by
        unfold SessionRecord.promoteState SessionRecord.ARCHIVED_STATES_MAX_LENGTH
        simp only
        rw [if_neg]
        rw [List.length_cons, hlen]
        omega
      rw [hprev]
      show (r.sessionState :: r.previousStates.set k s).Perm (s :: r.sessionState :: r.previousStates.eraseIdx k)
      refine List.Perm.trans (List.Perm.cons _ ?_) (List.Perm.swap _ _ _)
      -- set k s ~ s :: eraseIdx k
      have : ∀ (l : List SessionState) (k : Nat), k < l.length → (l.set k s).Perm (s :: l.eraseIdx k) := by
        intro l
        induction l with
        | nil => intro k hk; simp at hk
        | cons x l ih =>
          intro k hk
          cases k with
          | zero => exact List.Perm.refl _
          | succ k =>
            simp only [List.set_cons_succ, List.eraseIdx_cons_succ]
            refine List.Perm.trans (List.Perm.cons _ (ih k (by simpa using hk))) (List.Perm.swap _ _ _)
      exact this _ _ hpos

omit C in
theorem archive_states {r : SessionRecord} (hl : r.previousStates.length ≤ 40) (hf : r.fresh = false) :
    (archiveUnlessFresh r).previousStates = (Spec.states r).take 40 := by
  unfold archiveUnlessFresh
  rw [hf]
  simp only [Bool.not_false, if_true]
  unfold SessionRecord.archiveCurrentState SessionRecord.promoteState SessionRecord.ARCHIVED_STATES_MAX_LENGTH Spec.states
  simp only
  split
  · rename_i h
    rw [List.dropLast_eq_take]
    congr 1
    simp only [List.length_cons] at h ⊢
    omega
  · rename_i h
    rw [List.take_of_length_le (by omega)]

/-- **C36.** No call loses a session except the oldest beyond 40: whatever the call, the 40 most recent
states of the record are still there afterwards, unchanged but for at most one, which is still the same
session; only a call that sets up a new session can drop the 41st. -/
theorem C36_nothing_lost (w : World) (c : Call) (a : Address) (r : SessionRecord) (hr : w.sessions a = some r)
    (hl : r.previousStates.length ≤ 40) :
    ∃ r', (c.next w).sessions a = some r' ∧ Spec.Kept 40 (Spec.states r) (Spec.states r') ∧
      ((Spec.states r').length ≤ (Spec.states r).length → Spec.Kept 41 (Spec.states r) (Spec.states r') ∨
        (Spec.states r).length = 41) := by
  have hlen41 : (Spec.states r).length ≤ 41 := by simp [Spec.states]; omega
  have weaken : ∀ r', Spec.Kept 41 (Spec.states r) (Spec.states r') → Spec.Kept 40 (Spec.states r) (Spec.states r') := by
    rintro r' ⟨i, x, extra, h1, h2⟩
    have ht : (Spec.states r).take 41 = Spec.states r := List.take_of_length_le hlen41
    rw [ht] at h2
    refine ⟨i, x, ((Spec.states r).set i x).drop 40 ++ extra, h1, ?_⟩
    rw [← List.append_assoc]
    have : ((Spec.states r).take 40).set i x = ((Spec.states r).set i x).take 40 := by
      rw [List.take_set]
    rw [this, List.take_append_drop]
    exact h2
  rcases next_session w c a with h | ⟨r', h, _, hs⟩
  · rw [hr] at h
    have : Spec.Kept 41 (Spec.states r) (Spec.states r) := by
      refine ⟨41, {}, [], ?_, ?_⟩
      · intro s hs
        have := (List.getElem?_eq_some_iff.1 hs).1
        omega
      · rw [List.append_nil, List.take_of_length_le hlen41, List.set_eq_of_length_le (by omega)]
    exact ⟨r, h, weaken _ this, fun _ => Or.inl this⟩
  · have hload : w.loadSession a = { r with fresh := false } := by unfold World.loadSession; rw [hr]
    rw [hload] at hs
    -- changing only the current state
    have cur : ∀ s, Spec.SameSession r.sessionState s → ∀ r' : SessionRecord, r'.sessionState = s →
        r'.previousStates = r.previousStates → Spec.Kept 41 (Spec.states r) (Spec.states r') := by
      intro s hss r' e1 e2
      refine ⟨0, s, [], ?_, ?_⟩
      · intro s0 h0
        simp only [Spec.states, List.getElem?_cons_zero, Option.some.injEq] at h0
        subst h0; exact hss
      · rw [List.append_nil, List.take_of_length_le hlen41]
        unfold Spec.states
        rw [e1, e2]
        exact List.Perm.refl _
    have done : ∀ r', (c.next w).sessions a = some r' → Spec.Kept 41 (Spec.states r) (Spec.states r') →
        ∃ r', (c.next w).sessions a = some r' ∧ Spec.Kept 40 (Spec.states r) (Spec.states r') ∧
          ((Spec.states r').length ≤ (Spec.states r).length → Spec.Kept 41 (Spec.states r) (Spec.states r') ∨
            (Spec.states r).length = 41) :=
      fun r' e k => ⟨r', e, weaken _ k, fun _ => Or.inl k⟩
    cases hs with
    | encrypt he => exact done _ h (cur _ (ews_same he).1 _ rfl rfl)
    | pending hp =>
      refine done _ h (cur _ ?_ _ rfl rfl)
      rw [(setPending_ok hp).2]
      exact ⟨rfl, rfl, rfl, rfl, rfl, rfl⟩
    | decrypt hd =>
      refine done _ h ?_
      obtain ⟨i, x, h1, h2⟩ := dwsr_kept hd hl
      refine ⟨i, x, [], h1, ?_⟩
      rw [List.append_nil, List.take_of_length_le hlen41]
      exact h2
    | @create s hc =>
      refine ⟨_, h, ?_, ?_⟩
      · refine ⟨41, {}, [s], ?_, ?_⟩
        · intro s0 h0
          have := (List.getElem?_eq_some_iff.1 h0).1
          omega
        · rw [List.set_eq_of_length_le (by rw [List.length_take]; omega)]
          have := archive_states (r := { r with fresh := false }) hl rfl
          show List.Perm _ (s :: (archiveUnlessFresh { r with fresh := false }).previousStates)
          rw [this]
          exact List.perm_append_singleton _ _
      · intro hle
        right
        have := archive_states (r := { r with fresh := false }) hl rfl
        change (s :: (archiveUnlessFresh { r with fresh := false }).previousStates).length ≤ _ at hle
        rw [this] at hle
        change (s :: (Spec.states r).take 40).length ≤ _ at hle
        simp only [List.length_cons, List.length_take] at hle
        omega
    | @createDecrypt s m seed seeds pt _ hc hd =>
      have hst := archive_states (r := { r with fresh := false }) hl rfl
      have hlen' : ((archiveUnlessFresh { r with fresh := false }).setState s).previousStates.length ≤ 40 :=
        archive_length (r := { r with fresh := false }) hl
      obtain ⟨i, x, h1, h2⟩ := dwsr_kept hd hlen'
      have hstates : Spec.states ((archiveUnlessFresh { r with fresh := false }).setState s) =
          s :: (Spec.states r).take 40 := by
        show s :: (archiveUnlessFresh { r with fresh := false }).previousStates = _
        rw [hst]
        rfl
      rw [hstates] at h1 h2
      refine ⟨r', h, ?_, ?_⟩
      · cases i with
        | zero =>
          refine ⟨41, {}, [x], ?_, ?_⟩
          · intro s0 h0
            have := (List.getElem?_eq_some_iff.1 h0).1
            omega
          · rw [List.set_eq_of_length_le (by rw [List.length_take]; omega)]
            exact (List.perm_append_singleton _ _).trans h2
        | succ i =>
          by_cases hi : i < 40
          · refine ⟨i, x, [s], ?_, ?_⟩
            · intro s0 h0
              apply h1
              rw [List.getElem?_cons_succ, List.getElem?_take_of_lt hi]
              exact h0
            · exact (List.perm_append_singleton _ _).trans h2
          · refine ⟨41, {}, [s], ?_, ?_⟩
            · intro s0 h0
              have := (List.getElem?_eq_some_iff.1 h0).1
              omega
            · rw [List.set_eq_of_length_le (by rw [List.length_take]; omega)]
              rw [List.set_cons_succ, List.set_eq_of_length_le (by simp; omega)] at h2
              exact (List.perm_append_singleton _ _).trans h2
      · intro hle
        right
        have hl2 := h2.length_eq
        rw [List.length_set] at hl2
        rw [← hl2] at hle
        simp only [List.length_cons, List.length_take] at hle
        omega

end

/-! ## Non-vacuity -/

section
attribute [local instance] toy
open Example

/-- C22, C35: a reachable store with a session that has a receive chain. -/
example : ∃ cs r, (Call.after alice0 cs).sessions bobAddr = some r ∧ r.sessionState.receiverChains.length = 2 :=
  ⟨[.processBundle bobAddr bobBundle (key 41) (key 42), .encrypt bobAddr [104, 105],
      .decryptMsg bobAddr replyMsg (key 43) (fun _ => key 44)],
    ((alice3.sessions bobAddr).getD {}), by decide +kernel⟩

/-- C35: a version-2 message. -/
example : (SessionCipher.decryptMsg alice2 bobAddr { replyMsg with messageVersion := 2 } (key 43)
    (fun _ => key 44)).result = .error .invalidMessage := by decide +kernel

/-- C34: accepted bytes. -/
example : (WhisperMessage.parse replyMsg.serialized).toOption.map
    (fun m => (SessionCipher.decryptMsg alice2 bobAddr m (key 43) (fun _ => key 44)).result) = some (.ok [121, 111]) := by
  decide +kernel

/-- Alice after she processed Bob's bundle a second time: two sessions. -/
def Example.alice4 : World :=
  (SessionBuilder.processPreKeyBundle alice2 bobAddr bobBundle (key 45) (key 46)).final alice2

/-- C36: Bob's reply on the older session is accepted by the archived state, which becomes current. -/
example : (SessionCipher.decryptMsg alice4 bobAddr replyMsg (key 43) (fun _ => key 44)).result = .ok [121, 111] ∧
    ((alice4.sessions bobAddr).getD {}).previousStates.length = 1 ∧
    ((((SessionCipher.decryptMsg alice4 bobAddr replyMsg (key 43) (fun _ => key 44)).final alice4).sessions
      bobAddr).getD {}).previousStates = [((alice4.sessions bobAddr).getD {}).sessionState] := by decide +kernel

end
end Axolotl
