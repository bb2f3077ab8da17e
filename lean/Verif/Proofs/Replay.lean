import Verif.Proofs.ChainInv

/-! Used-up messages stay used up. -/

namespace Axolotl
section
variable [C : Crypto]
open SessionState SessionBuilder Spec

/-- A state that can decrypt messages of version `v`. -/
structure Ready (s : SessionState) (v : Nat) : Prop where
  sender : hasSenderChain s = true
  version : getSessionVersion s = v
  kdf : ∃ k, Kdf.createFor v = .ok k

theorem ready_dwss {s : SessionState} {m : WhisperMessage} {seed : Bytes} {pt : Bytes} {s' : SessionState}
    (h : SessionCipher.decryptWithSessionState s m seed = .ok (pt, s')) : Ready s' m.messageVersion := by
  have hsame := dwss_same h
  obtain ⟨h0, hv, ck, s1, mk, s2, _, _, h1, h2, _, _, _, _, h5⟩ := SessionCipher.dwss_ok h
  obtain ⟨c, j, _, h2⟩ := SessionCipher.gocmk_ok h2
  have hs2 : ∃ c', s2 = setChainAt s1 j c' := by
    rcases h2 with ⟨_, _, _, _, _, h⟩ | ⟨_, _, _, _, _, _, h⟩
    · exact ⟨_, h⟩
    · exact ⟨_, h⟩
  obtain ⟨c', rfl⟩ := hs2
  have hver : getSessionVersion s' = m.messageVersion := by
    rw [hv]
    unfold getSessionVersion
    rw [hsame.1.1]
  subst h5
  rcases SessionCipher.gocck_ok h1 with ⟨_, _, kdf, _, hk, _, h⟩ | ⟨kdf, _, _, _, _, _, hk, _, _, _, h⟩
  · subst h
    exact ⟨h0, hver, kdf, by rw [hv]; exact hk⟩
  · subst h
    exact ⟨rfl, hver, kdf, by rw [hv]; exact hk⟩

theorem ready_step {s s' : SessionState} {v : Nat} (h : Ready s v) (hs : StateStep s s') : Ready s' v := by
  cases hs with
  | same => exact h
  | encrypt he =>
    have hv := (ews_same he).1.1
    obtain ⟨_, _, _, _, _, _, _, _, _, _, _, _, _, _, _, _, sc, _, rfl⟩ := SessionCipher.ews_ok he
    exact ⟨rfl, h.version, h.kdf⟩
  | decrypt hd =>
    have := ready_dwss hd
    have hv : getSessionVersion s' = v := by
      rw [← h.version]
      unfold getSessionVersion
      rw [(dwss_same hd).1.1]
    exact ⟨this.sender, hv, h.kdf⟩
  | pending hp =>
    obtain ⟨_, rfl⟩ := setPending_ok hp
    exact ⟨h.sender, h.version, h.kdf⟩

theorem goodChains_step (hC : C.Lawful) {s s' : SessionState} (h : GoodChains s) (hs : StateStep s s') :
    GoodChains s' := by
  cases hs with
  | same => exact h
  | encrypt he => exact (goodChains_inv hC).encrypt _ _ _ _ h he
  | decrypt hd => exact (goodChains_inv hC).decrypt _ _ _ _ _ h hd
  | pending hp => exact (goodChains_inv hC).pending _ _ _ _ _ _ h hp

/-- An accepted message is used up. -/
theorem consumed_dwss (hC : C.Lawful) {s : SessionState} (hs : GoodChains s) {m : WhisperMessage} {seed : Bytes}
    {pt : Bytes} {s' : SessionState} (h : SessionCipher.decryptWithSessionState s m seed = .ok (pt, s')) :
    Consumed s' m.senderRatchetKey m.counter := by
  obtain ⟨c, c', h1, h2, h3, _⟩ := dwss_view hC hs h
  refine ⟨c', h1, ?_⟩
  have hgood : ∀ c, recvChain s m.senderRatchetKey = some c → GoodChain c := fun c hc =>
    hs.good c (List.mem_of_find?_eq_some hc)
  rcases h3 with ⟨hlt, hp, a, b, e, e1, e2, e3⟩ | ⟨hle, _, hp, ck, hi, _, e1⟩
  · refine ⟨by omega, ?_⟩
    have hd : (storedCounters c).Nodup := by
      rcases h2 with h2 | ⟨_, h2, h2'⟩
      · exact (hgood c h2).distinct
      · omega
    unfold storedCounters at hd ⊢
    rw [e1, List.map_append, List.map_cons, e3] at hd
    rw [e2, List.map_append]
    intro hm
    rw [List.nodup_append] at hd
    obtain ⟨_, hd2, hd3⟩ := hd
    rw [List.nodup_cons] at hd2
    rcases List.mem_append.1 hm with hm | hm
    · exact hd3 _ hm _ (List.mem_cons_self ..) rfl
    · exact hd2.1 hm
  · refine ⟨by omega, ?_⟩
    unfold storedCounters
    rw [e1, List.map_append, skipped_counters]
    intro hm
    rcases List.mem_append.1 hm with hm | hm
    · rcases h2 with h2 | ⟨_, _, h2⟩
      · have := (hgood c h2).below _ hm; omega
      · rw [h2] at hm; cases hm
    · obtain ⟨i, hi', hi''⟩ := List.mem_map.1 hm
      rw [List.mem_range] at hi'
      omega

/-- Used-up messages stay used up while the chain is there. -/
theorem consumed_step (hC : C.Lawful) {s s' : SessionState} (hg : GoodChains s) (hs : StateStep s s') {key : ECPub}
    {n : Nat} (h : Consumed s key n) (hk : recvChain s' key ≠ none) : Consumed s' key n := by
  cases hs with
  | same => exact h
  | encrypt he =>
    unfold Consumed
    rw [recvChain_congr (ews_same he).2.2.2.1]
    exact h
  | pending hp =>
    obtain ⟨_, rfl⟩ := setPending_ok hp
    exact h
  | decrypt hd =>
    rename_i m seed pt
    obtain ⟨c, c', h1, h2, h3, h4⟩ := dwss_view hC hg hd
    by_cases hkey : key = m.senderRatchetKey
    · subst hkey
      obtain ⟨c0, hc0, hn, hst⟩ := h
      rw [hc0] at h2
      rcases h2 with h2 | ⟨h2, _⟩
      · obtain rfl := Option.some.inj h2
        refine ⟨c', h1, ?_⟩
        rcases h3 with ⟨hlt, hp, a, b, e, e1, e2, e3⟩ | ⟨hle, _, hp, ck, hi, _, e1⟩
        · refine ⟨by omega, ?_⟩
          intro hm
          apply hst
          unfold storedCounters at hm ⊢
          rw [e2] at hm
          rw [e1]
          simp only [List.map_append, List.mem_append, List.map_cons, List.mem_cons] at hm ⊢
          rcases hm with hm | hm
          · exact Or.inl hm
          · exact Or.inr (Or.inr hm)
        · refine ⟨by omega, ?_⟩
          intro hm
          unfold storedCounters at hm
          rw [e1, List.map_append, skipped_counters] at hm
          rcases List.mem_append.1 hm with hm | hm
          · exact hst hm
          · obtain ⟨i, _, hi''⟩ := List.mem_map.1 hm
            omega
      · cases h2
    · rcases h4 key hkey with h4 | h4
      · unfold Consumed
        rw [h4]
        exact h
      · exact absurd h4 hk

/-- A used-up message is refused as a duplicate. -/
theorem consumed_refused {s : SessionState} (hg : GoodChains s) {m : WhisperMessage} (hr : Ready s m.messageVersion)
    (h : Consumed s m.senderRatchetKey m.counter) (seed : Bytes) :
    SessionCipher.decryptWithSessionState s m seed = .error .duplicateMessage := by
  obtain ⟨c, hc, hn, hst⟩ := h
  obtain ⟨j, hj⟩ := found_of_recvChain hg.good hc
  obtain ⟨kdf, hk⟩ := hr.kdf
  unfold SessionCipher.decryptWithSessionState
  rw [if_neg (by rw [hr.sender]; simp), if_neg (by rw [hr.version]; simp)]
  have h1 : SessionCipher.getOrCreateChainKey s m.senderRatchetKey seed = .ok (chainKeyOf kdf c, s) := by
    unfold SessionCipher.getOrCreateChainKey hasReceiverChain
    rw [hj]
    simp only [ok_bind, Option.isSome_some, if_true]
    rw [getReceiverChainKey_eq hj (by rw [hr.version]; exact hk)]
    rfl
  rw [h1, ok_bind]
  rw [SessionCipher.gocmk_duplicate hj (by rw [position_chainKeyOf]; exact hn) (takeKey_none_iff.2 hst)]
  rfl

/-- What holds of a session that accepted a message. -/
structure UsedUp (m : WhisperMessage) (s : SessionState) : Prop where
  good : GoodChains s
  ready : Ready s m.messageVersion
  consumed : Consumed s m.senderRatchetKey m.counter

theorem usedUp_kept (hC : C.Lawful) {a : Address} {m : WhisperMessage} {w w' : World} {s s' : SessionState}
    (hk : KeptSession a m.senderRatchetKey w s w' s') (h : UsedUp m s) : UsedUp m s' := by
  induction hk with
  | refl => exact h
  | step _ _ _ hs hn ih =>
    exact ⟨goodChains_step hC ih.good hs, ready_step ih.ready hs, consumed_step hC ih.good hs ih.consumed hn⟩

theorem usedUp_accepted (hC : C.Lawful) {r : SessionRecord} (hr : r.All GoodChains) {m : WhisperMessage} {seed : Bytes}
    {seeds : Nat → Bytes} {pt : Bytes} {r' : SessionRecord}
    (h : SessionCipher.decryptWithSessionRecord r m seed seeds = .ok (pt, r')) : UsedUp m r'.sessionState := by
  rcases dwsr_ok h with ⟨s, h1, rfl⟩ | ⟨_, k, p, s, h1, h2, _, rfl⟩
  · exact ⟨goodChains_dwss hC hr.1 h1, ready_dwss h1, consumed_dwss hC hr.1 h1⟩
  · have hp := hr.2 p (List.mem_of_getElem? h1)
    exact ⟨goodChains_dwss hC hp h2, ready_dwss h2, consumed_dwss hC hp h2⟩

/-- The record refuses a message whose session, behind states that refuse it as invalid, has used it up. -/
theorem dwsr_usedUp {r : SessionRecord} {m : WhisperMessage} {pre post : List SessionState} {s : SessionState}
    (hr : states r = pre ++ s :: post) (hs : UsedUp m s)
    (hpre : ∀ p ∈ pre, ∀ seed, SessionCipher.decryptWithSessionState p m seed = .error .invalidMessage)
    (seed : Bytes) (seeds : Nat → Bytes) :
    SessionCipher.decryptWithSessionRecord r m seed seeds = .error .duplicateMessage := by
  have hd := consumed_refused hs.good hs.ready hs.consumed
  have htry : ∀ (q : SessionRecord) (pre : List SessionState) (i : Nat),
      (∀ p ∈ pre, ∀ seed, SessionCipher.decryptWithSessionState p m seed = .error .invalidMessage) →
      SessionCipher.tryPrevious q m seeds (pre ++ s :: post) i = .error .duplicateMessage := by
    intro q pre
    induction pre with
    | nil =>
      intro i _
      rw [List.nil_append]
      unfold SessionCipher.tryPrevious
      rw [hd]
    | cons p pre ih =>
      intro i h
      rw [List.cons_append]
      unfold SessionCipher.tryPrevious
      rw [h p (List.mem_cons_self ..)]
      exact ih (i + 1) fun p hp => h p (List.mem_cons_of_mem _ hp)
  unfold SessionCipher.decryptWithSessionRecord
  cases pre with
  | nil =>
    rw [List.nil_append] at hr
    injection hr with h1 _
    rw [h1, hd]
  | cons p pre =>
    rw [List.cons_append] at hr
    injection hr with h1 h2
    rw [h1, hpre p (List.mem_cons_self ..)]
    simp only
    rw [h2]
    exact htry r pre 0 fun p hp => hpre p (List.mem_cons_of_mem _ hp)

end
end Axolotl
