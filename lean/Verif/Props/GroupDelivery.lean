import Verif.Props.Group
import Verif.Spec.Schedule

/-! # C41, C42: delivery of group messages in any order and at any distance -/

namespace Axolotl
section
variable [C : Crypto]
open Spec ByteUtil

/-! ## The sender -/

/-- The state's chain continues the one described by a chain key and an iteration. -/
def OnChain (K : Bytes) (i0 : Nat) (s : SenderKeyState) : Prop :=
  i0 ≤ iterationOf s ∧ chainKeyOf s = chainAt K (iterationOf s - i0)

theorem OnChain.step {K : Bytes} {i0 : Nat} {s s' : SenderKeyState} (h : StateStep s s') (hc : OnChain K i0 s) :
    OnChain K i0 s' := by
  obtain ⟨h1, h2⟩ := hc
  cases h with
  | send hp =>
    have e1 : iterationOf (sentOn s) = iterationOf s + 1 := rfl
    have e2 : chainKeyOf (sentOn s) = C.hmac (chainKeyOf s) [0x02] := rfl
    refine ⟨by rw [e1]; omega, ?_⟩
    rw [e1, e2, h2]
    have : iterationOf s + 1 - i0 = (iterationOf s - i0) + 1 := by omega
    rw [this]
    rfl
  | @old i k rest hi ht => exact ⟨h1, h2⟩
  | @new i hp hi =>
    have e1 : iterationOf (GroupCipher.moved s i) = i + 1 := rfl
    have e2 : chainKeyOf (GroupCipher.moved s i) = chainAt (chainKeyOf s) (i + 1 - iterationOf s) := rfl
    refine ⟨by rw [e1]; omega, ?_⟩
    rw [e1, e2, h2, chainAt_add]
    congr 1
    omega

/-- Either there is no private signing key, or the two signing keys belong together. -/
def SigningPair (s : SenderKeyState) : Prop :=
  SenderKeyState.getSigningKeyPrivate s = [] ∨
    ∃ seed, SenderKeyState.getSigningKeyPrivate s = C.genPriv seed ∧
      (s.senderSigningKey.getD {}).pub = some (5 :: C.genPub (C.genPriv seed))

theorem SigningPair.step {s s' : SenderKeyState} (h : StateStep s s') (hs : SigningPair s) : SigningPair s' := by
  unfold SigningPair SenderKeyState.getSigningKeyPrivate at hs ⊢
  rw [h.signing]
  exact hs

theorem SigningPair.fresh {s : SenderKeyState} (h : FreshState s) : SigningPair s := by
  obtain ⟨_, _, _, ⟨h, _⟩ | h⟩ := h
  · exact .inl h
  · exact .inr h

/-- What the sender's state satisfies after it has been described by a distribution message. -/
structure Describes (d : SenderKeyDistributionMessage) (s : SenderKeyState) : Prop where
  id : s.senderKeyId.getD 0 = d.id
  chain : OnChain d.chainKey d.iteration s
  pair : SigningPair s
  pub : ∃ k, (s.senderSigningKey.getD {}).pub.getD [] = 5 :: k ∧ d.signatureKey = k.take 32

theorem Describes.step {d : SenderKeyDistributionMessage} {s s' : SenderKeyState} (h : StateStep s s')
    (hd : Describes d s) : Describes d s' :=
  ⟨by rw [h.id]; exact hd.id, hd.chain.step h, hd.pair.step h, by rw [h.signing]; exact hd.pub⟩

/-- After `create`, the sending state is described by the message returned. -/
theorem create_describes (hC : C.Lawful) (before : List GroupCall) (n : SenderKeyName)
    (rnd : GroupSessionBuilder.CreateRand) (hseed : rnd.signSeed.length = 32) (d : SenderKeyDistributionMessage)
    (h : (GroupSessionBuilder.create (GroupCall.after GroupStore.empty before) n rnd).result = .ok d) :
    ∃ s, sendingState ((GroupCall.create n rnd).next (GroupCall.after GroupStore.empty before) n) = some s ∧
      Describes d s := by
  generalize hg : GroupCall.after GroupStore.empty before = g at h ⊢
  cases hs : sendingState (g n) with
  | none =>
    have he := sendingState_none.1 hs
    by_cases hk : rnd.keyId < 2 ^ 32
    · rw [next_create_new he hk]
      obtain ⟨s, d', h1, h2, _, _, _, _, h3, h4, h5, h6⟩ := C44_create_new g n rnd hk
        (by rw [hC.genPub_len _ (hC.genPriv_len _ hseed)]; omega) he
      rw [h] at h1
      have := Except.ok.inj h1
      subst this
      refine ⟨createdState rnd, rfl, ?_, ⟨?_, ?_⟩, .inr ⟨rnd.signSeed, rfl, rfl⟩, ⟨_, rfl, ?_⟩⟩
      · rw [h3]; rfl
      · rw [h4]; exact Nat.zero_le _
      · rw [h4, h5]; rfl
      · rw [h6, List.take_of_length_le (by rw [hC.genPub_len _ (hC.genPriv_len _ hseed)]; omega)]
    · rw [create_bad he hk] at h; cases h
  | some s =>
    have hne : (g n).senderKeyStates ≠ [] := fun q => by rw [sendingState_none.2 q] at hs; cases hs
    rw [next_create_again hne]
    obtain ⟨h1, h2, h3, h4⟩ := (C44_create_existing g n rnd s hs).2 d h
    refine ⟨s, hs, h1.symm, ⟨by rw [h2]; exact Nat.le_refl _, ?_⟩, ?_, h4⟩
    · rw [h2, h3, Nat.sub_self]; rfl
    · subst hg
      exact reached_all SigningPair (fun _ _ h hp => hp.step h) (fun _ h => .fresh h) before n _ s
        (SenderKeyRecord.sendingState_stateFor hs)

/-- A message as the sender of a distribution message produces it. -/
structure GroupGenuine (d : SenderKeyDistributionMessage) (x : GroupSent) (m : SenderKeyMessage) : Prop where
  parses : SenderKeyMessage.parse x.bytes = .ok m
  keyId : m.keyId = d.id
  later : d.iteration ≤ m.iteration
  fits : m.iteration + 1 < 2 ^ 32
  signed : m.verifySignature d.signatureKey = .ok ()
  opens : AES.decrypt (groupCipherKey (groupSeed (chainAt d.chainKey (m.iteration - d.iteration))))
    (groupIv (groupSeed (chainAt d.chainKey (m.iteration - d.iteration)))) m.ciphertext = .ok x.plaintext
  keySize : d.signatureKey.length = 32

theorem sent_genuine (hC : C.Lawful) {d : SenderKeyDistributionMessage} (cs : List GroupCall)
    (hcs : ∀ c ∈ cs, GroupCallOk c) {g : GroupStore} {n : SenderKeyName} {s : SenderKeyState}
    (hs : sendingState (g n) = some s) (hd : Describes d s) :
    ∀ x ∈ groupSent g cs, x.name = n → ∃ m, GroupGenuine d x m := by
  induction cs generalizing g s with
  | nil => intro x hx; cases hx
  | cons c cs ih =>
    intro x hx hn
    unfold groupSent at hx
    rcases List.mem_append.1 hx with hx | hx
    · cases c with
      | encrypt n' pt rand =>
        simp only at hx
        cases hr : (GroupCipher.encrypt g n' pt rand).result with
        | error e => rw [hr] at hx; cases hx
        | ok b =>
          rw [hr] at hx
          have hx := List.mem_singleton.1 hx
          subst hx
          simp only at hn
          subst hn
          obtain ⟨h1, h2⟩ := hcs _ (List.mem_cons_self ..)
          obtain ⟨s', m, q1, q2, q3, q4, q5, q6, q7, q8, _⟩ := encrypt_parses hC h1 h2 hr
          rw [hs] at q1
          have := Option.some.inj q1
          subst this
          have hpub : d.signatureKey = C.genPub (SenderKeyState.getSigningKeyPrivate s) ∧
              d.signatureKey.length = 32 ∧ C.Generated (SenderKeyState.getSigningKeyPrivate s) := by
            obtain ⟨k, p1, p2⟩ := hd.pub
            rcases hd.pair with hp | ⟨seed, hp, hp2⟩
            · rw [hp] at q6; cases q6
            · rw [hp2] at p1
              simp only [Option.getD_some] at p1
              injection p1 with _ p1
              have hl := hC.genPub_len _ q6
              rw [hp] at hl
              have hg : C.Generated (SenderKeyState.getSigningKeyPrivate s) := ⟨q6, seed, hp⟩
              rw [p2, ← p1, List.take_of_length_le (by omega), ← hp]
              exact ⟨rfl, hp ▸ hl, hg⟩
          refine ⟨m, q2, by rw [q3, hd.id], by rw [q4]; exact hd.chain.1, by rw [q4]; exact q8, ?_, ?_, hpub.2.1⟩
          · rw [hpub.1]; exact q5 hpub.2.2
          · rw [q4, ← hd.chain.2]; exact q7
      | decrypt _ _ => cases hx
      | process _ _ => cases hx
      | create _ _ => cases hx
    · obtain ⟨s', h1, h2⟩ := (next_record g c n).keeps_sending hs
      refine ih (fun c hc => hcs c (List.mem_cons_of_mem _ hc)) h1 ?_ x hx hn
      rcases h2 with rfl | h2
      · exact hd
      · exact hd.step h2

/-! ## The member -/

/-- A state that can read: it holds the chain, and exactly the keys of the skipped iterations not yet used. -/
structure Keeps (d : SenderKeyDistributionMessage) (done : Nat → Prop) (s : SenderKeyState) : Prop where
  good : GoodSenderState s
  chain : OnChain d.chainKey d.iteration s
  pub : SenderKeyState.getSigningKeyPublic s = .ok d.signatureKey
  seeds : ∀ k ∈ s.senderMessageKeys, k.seed = some (groupSeed (chainAt d.chainKey (k.iteration.getD 0 - d.iteration)))
  used : ∀ i, d.iteration ≤ i → (done i ↔ i < iterationOf s ∧ i ∉ pending s)

/-- The state of a member: it cannot sign. -/
structure Holds (d : SenderKeyDistributionMessage) (done : Nat → Prop) (s : SenderKeyState) : Prop extends Keeps d done s where
  priv : SenderKeyState.getSigningKeyPrivate s = []

theorem seeds_moved {d : SenderKeyDistributionMessage} {done : Nat → Prop} {s : SenderKeyState} (h : Keeps d done s)
    (i : Nat) : ∀ k ∈ (GroupCipher.moved s i).senderMessageKeys,
      k.seed = some (groupSeed (chainAt d.chainKey (k.iteration.getD 0 - d.iteration))) := by
  intro k hk
  rcases List.mem_append.1 hk with hk | hk
  · exact h.seeds k hk
  · unfold skippedSeeds at hk
    obtain ⟨j, _, rfl⟩ := List.mem_map.1 hk
    have h1 := h.chain.1
    simp only [Option.getD_some]
    rw [chainKeyOf_eq, position_eq, h.chain.2, chainAt_add]
    unfold groupSeed
    congr 4
    omega

/-- Getting the key of a genuine message that has not been used. -/
theorem Keeps.fresh_key (hlen : ∀ k m, (C.hmac k m).length = 32) {d : SenderKeyDistributionMessage} {done : Nat → Prop}
    {s : SenderKeyState} (h : Keeps d done s) {i : Nat} (hi : d.iteration ≤ i) (hfit : i + 1 < 2 ^ 32) (hnew : ¬ done i) :
    ∃ s', GroupCipher.getSenderKey s i =
        .ok (⟨i, groupSeed (chainAt d.chainKey (i - d.iteration)),
          groupIv (groupSeed (chainAt d.chainKey (i - d.iteration))),
          groupCipherKey (groupSeed (chainAt d.chainKey (i - d.iteration)))⟩, s') ∧
      StateStep s s' ∧ Keeps d (fun j => done j ∨ j = i) s' := by
  by_cases hp : i < iterationOf s
  · have hmem : i ∈ pending s := by
      apply Classical.byContradiction
      intro hq
      exact hnew ((h.used i hi).2 ⟨hp, hq⟩)
    cases ht : SenderKeyState.takeKey i s.senderMessageKeys with
    | none =>
      exfalso
      have : ∀ l : List SenderSeedS, SenderKeyState.takeKey i l = none → i ∉ l.map fun k => k.iteration.getD 0 := by
        intro l
        induction l with
        | nil => simp
        | cons x l ih =>
          intro ht
          unfold SenderKeyState.takeKey at ht
          split at ht
          · cases ht
          · rename_i hx
            cases ht' : SenderKeyState.takeKey i l with
            | some p => rw [ht'] at ht; cases ht
            | none =>
              rw [List.map_cons, List.mem_cons]
              rintro (hq | hq)
              · exact hx hq.symm
              · exact ih ht' hq
      exact this _ ht hmem
    | some p =>
      obtain ⟨k, rest⟩ := p
      have hget := GroupCipher.getSenderKey_old hp
      rw [ht] at hget
      obtain ⟨a, b, q1, q2, q3⟩ := takeKey_pending ht
      have hk := h.seeds k (by rw [q1]; simp)
      rw [q3] at hk
      have hstep : StateStep s { s with senderMessageKeys := rest } := .old hp ht
      have hused := getSenderKey_used h.good hget
      simp only at hget
      rw [hk, Option.getD_some, senderMessageKey_eq hlen] at hget
      refine ⟨_, hget, hstep, ⟨hused.1, h.chain.step hstep, h.pub, ?_, ?_⟩⟩
      · intro k' hk'
        apply h.seeds
        rw [q1]
        have hk' : k' ∈ rest := hk'
        rw [q2] at hk'
        rcases List.mem_append.1 hk' with hk' | hk'
        · exact List.mem_append_left _ hk'
        · exact List.mem_append_right _ (List.mem_cons_of_mem _ hk')
      · intro j hj
        have e : iterationOf { s with senderMessageKeys := rest } = iterationOf s := rfl
        rw [e]
        have hpend : j ≠ i → (j ∈ pending { s with senderMessageKeys := rest } ↔ j ∈ pending s) := by
          intro hji
          unfold pending
          simp only
          rw [q1, q2, List.map_append, List.map_append, List.map_cons, List.mem_append, List.mem_append, List.mem_cons, q3]
          constructor
          · rintro (hq | hq)
            · exact .inl hq
            · exact .inr (.inr hq)
          · rintro (hq | hq | hq)
            · exact .inl hq
            · exact absurd hq hji
            · exact .inr hq
        by_cases hji : j = i
        · subst hji
          exact ⟨fun _ => hused.2, fun _ => .inr rfl⟩
        · rw [hpend hji, ← h.used j hj]
          exact ⟨fun hq => hq.resolve_right hji, .inl⟩
  · have hp : iterationOf s ≤ i := by omega
    have hget := GroupCipher.getSenderKey_new hp hfit
    have hstep : StateStep s (GroupCipher.moved s i) := .new hp hfit
    have hused := getSenderKey_used h.good hget
    have hc := h.chain.1
    have e0 : iterationOf s - d.iteration + (i - iterationOf s) = i - d.iteration := by omega
    rw [h.chain.2, chainAt_add, e0, senderMessageKey_eq hlen] at hget
    refine ⟨_, hget, hstep, ⟨hused.1, h.chain.step hstep, h.pub, seeds_moved h i, ?_⟩⟩
    intro j hj
    have e : iterationOf (GroupCipher.moved s i) = i + 1 := rfl
    rw [e, pending_moved]
    constructor
    · rintro (hq | rfl)
      · obtain ⟨r1, r2⟩ := (h.used j hj).1 hq
        refine ⟨by omega, ?_⟩
        intro hm
        rcases List.mem_append.1 hm with hm | hm
        · exact r2 hm
        · obtain ⟨x, _, hx⟩ := List.mem_map.1 hm
          omega
      · have := hused.2
        rw [e, pending_moved] at this
        exact this
    · rintro ⟨r1, r2⟩
      by_cases hji : j = i
      · exact .inr hji
      · left
        refine (h.used j hj).2 ⟨?_, fun hq => r2 (List.mem_append_left _ hq)⟩
        apply Classical.byContradiction
        intro hq
        apply r2
        apply List.mem_append_right
        exact List.mem_map.2 ⟨j - iterationOf s, List.mem_range.2 (by omega), by omega⟩

theorem Holds.fresh_key (hlen : ∀ k m, (C.hmac k m).length = 32) {d : SenderKeyDistributionMessage} {done : Nat → Prop}
    {s : SenderKeyState} (h : Holds d done s) {i : Nat} (hi : d.iteration ≤ i) (hfit : i + 1 < 2 ^ 32) (hnew : ¬ done i) :
    ∃ s', GroupCipher.getSenderKey s i =
        .ok (⟨i, groupSeed (chainAt d.chainKey (i - d.iteration)),
          groupIv (groupSeed (chainAt d.chainKey (i - d.iteration))),
          groupCipherKey (groupSeed (chainAt d.chainKey (i - d.iteration)))⟩, s') ∧
      StateStep s s' ∧ Holds d (fun j => done j ∨ j = i) s' := by
  obtain ⟨s', h1, h2, h3⟩ := h.toKeeps.fresh_key hlen hi hfit hnew
  refine ⟨s', h1, h2, h3, ?_⟩
  have := h.priv
  unfold SenderKeyState.getSigningKeyPrivate at this ⊢
  rw [h2.signing]
  exact this

theorem Keeps.done_key {d : SenderKeyDistributionMessage} {done : Nat → Prop} {s : SenderKeyState} (h : Keeps d done s)
    {i : Nat} (hi : d.iteration ≤ i) (hd : done i) : GroupCipher.getSenderKey s i = .error .duplicateMessage :=
  Used.duplicate ⟨h.good, (h.used i hi).1 hd⟩

theorem Keeps.congr {d : SenderKeyDistributionMessage} {done done' : Nat → Prop} {s : SenderKeyState} (h : Keeps d done s)
    (hd : ∀ i, d.iteration ≤ i → (done i ↔ done' i)) : Keeps d done' s :=
  ⟨h.good, h.chain, h.pub, h.seeds, fun i hi => by rw [← hd i hi]; exact h.used i hi⟩

theorem Holds.congr {d : SenderKeyDistributionMessage} {done done' : Nat → Prop} {s : SenderKeyState} (h : Holds d done s)
    (hd : ∀ i, d.iteration ≤ i → (done i ↔ done' i)) : Holds d done' s :=
  ⟨h.toKeeps.congr hd, h.priv⟩

/-- A member's store, seen from one key id. -/
def MemberHolds (g : GroupStore) (n : SenderKeyName) (d : SenderKeyDistributionMessage) (done : Nat → Prop) : Prop :=
  ∃ s, stateFor (g n) d.id = some s ∧ Holds d done s

/-- Delivery of a genuine message for the first time. -/
theorem deliver_new (hC : C.Lawful) {g : GroupStore} {n : SenderKeyName} {d : SenderKeyDistributionMessage}
    {done : Nat → Prop} (h : MemberHolds g n d done) {x : GroupSent} {m : SenderKeyMessage} (hx : GroupGenuine d x m)
    (hnew : ¬ done m.iteration) :
    (GroupCipher.decrypt g n x.bytes).result = .ok x.plaintext ∧
    MemberHolds ((GroupCall.decrypt n x.bytes).next g) n d (fun j => done j ∨ j = m.iteration) := by
  obtain ⟨s, h1, h2⟩ := h
  obtain ⟨s', h3, h4, h5⟩ := h2.fresh_key hC.hmac_len hx.later hx.fits hnew
  obtain ⟨j, h6⟩ := SenderKeyRecord.getStateById_some h1
  have hwr : GroupCipher.decryptWithRecord (g n) x.bytes = .ok (x.plaintext, (g n).replace j s') := by
    unfold GroupCipher.decryptWithRecord
    rw [if_neg (stateFor_ne h1), hx.parses, ok_bind, hx.keyId, h6, ok_bind]
    simp only [h2.pub, ok_bind, hx.signed, h3]
    unfold GroupCipher.getPlainText
    rw [hx.opens]
    rfl
  have hdec : GroupCipher.decrypt g n x.bytes = ⟨some ((g n).replace j s'), .ok x.plaintext⟩ := by
    unfold GroupCipher.decrypt
    rw [hwr]
  refine ⟨by rw [hdec], s', ?_, h5⟩
  rw [next_decrypt (by rw [hdec])]
  have hid : SenderKeyState.getKeyId s' = d.id := by
    unfold SenderKeyState.getKeyId
    rw [h4.id]; exact stateFor_id h1
  rw [(SenderKeyRecord.getStateById_ok h6).2.2 s' hid, if_pos rfl]

/-- Delivery of a genuine message again. -/
theorem deliver_again {g : GroupStore} {n : SenderKeyName} {d : SenderKeyDistributionMessage}
    {done : Nat → Prop} (h : MemberHolds g n d done) {x : GroupSent} {m : SenderKeyMessage} (hx : GroupGenuine d x m)
    (hold : done m.iteration) : GroupCipher.decrypt g n x.bytes = ⟨none, .error .duplicateMessage⟩ := by
  obtain ⟨s, h1, h2⟩ := h
  obtain ⟨j, h6⟩ := SenderKeyRecord.getStateById_some h1
  have hwr : GroupCipher.decryptWithRecord (g n) x.bytes = .error .duplicateMessage := by
    unfold GroupCipher.decryptWithRecord
    rw [if_neg (stateFor_ne h1), hx.parses, ok_bind, hx.keyId, h6, ok_bind]
    simp only [h2.pub, ok_bind, hx.signed, h2.done_key hx.later hold]
    rfl
  unfold GroupCipher.decrypt
  rw [hwr]
  rfl

/-- A call that does not accept bytes for this key id leaves the member's state for it as it is. -/
theorem MemberHolds.other (hC : C.Lawful) {g : GroupStore} {n : SenderKeyName} {d : SenderKeyDistributionMessage}
    {done : Nat → Prop} (h : MemberHolds g n d done) (c : GroupCall)
    (hc : ∀ b m, c = .decrypt n b → SenderKeyMessage.parse b = .ok m → m.keyId = d.id →
      ∀ pt, (GroupCipher.decrypt g n b).result ≠ .ok pt) : MemberHolds (c.next g) n d done := by
  obtain ⟨s, h1, h2⟩ := h
  refine ⟨s, ?_, h2⟩
  by_cases hn : c.name = n
  · cases c with
    | encrypt n' pt rand =>
      have hn : n' = n := hn
      subst hn
      cases hr : (GroupCipher.encrypt g n' pt rand).result with
      | error e => rw [next_encrypt_error (GroupCipher.encrypt_error hr)]; exact h1
      | ok b =>
        obtain ⟨t, ct, m, q1, _, q3, _, q5, q6⟩ := GroupCipher.encrypt_ok hr
        have hne : SenderKeyState.getKeyId t ≠ d.id := by
          intro hid
          have ht := SenderKeyRecord.sendingState_stateFor q1
          have : t = s := by
            unfold SenderKeyState.getKeyId at hid
            rw [hid, h1] at ht
            exact (Option.some.inj ht).symm
          subst this
          rw [h2.priv] at q3
          unfold SenderKeyMessage.create at q3
          simp only at q3
          obtain ⟨_, _, q3⟩ := bind_eq_ok.1 q3
          obtain ⟨_, _, q3⟩ := bind_eq_ok.1 q3
          obtain ⟨sig, q4, _⟩ := bind_eq_ok.1 q3
          unfold Curve.calculateSignature at q4
          split at q4
          · rename_i y hy
            have := (hC.sig_size _ _ _ _ hy).1
            cases this
          · cases q4
        rw [next_encrypt q6]
        have hid : SenderKeyState.getKeyId (sentOn t) = SenderKeyState.getKeyId t := rfl
        rw [(SenderKeyRecord.getStateById_ok (SenderKeyRecord.getStateById_first q1)).2.2 (sentOn t) hid,
          if_neg (fun q => hne q.symm)]
        exact h1
    | decrypt n' b =>
      have hn : n' = n := hn
      subst hn
      cases hr : (GroupCipher.decrypt g n' b).result with
      | error e => rw [next_decrypt_error (GroupCipher.decrypt_error hr)]; exact h1
      | ok pt =>
        obtain ⟨m, t, j, pub, k, t', q1, q2, _, _, q5, _, q7⟩ := GroupCipher.decrypt_ok hr
        have hne : m.keyId ≠ d.id := fun hid => hc b m rfl q1 hid pt hr
        rw [next_decrypt q7]
        have hid : SenderKeyState.getKeyId t' = m.keyId := by
          unfold SenderKeyState.getKeyId
          rw [(getSenderKey_step q5).1.id]; exact stateFor_id (SenderKeyRecord.getStateById_ok q2).1
        rw [(SenderKeyRecord.getStateById_ok q2).2.2 t' hid, if_neg (fun q => hne q.symm)]
        exact h1
    | process n' m =>
      have hn : n' = n := hn
      subst hn
      by_cases hm : m.id < 2 ^ 32 ∧ m.iteration < 2 ^ 32
      · rw [next_process_good hm]
        unfold stateFor at h1 ⊢
        simp only [List.find?_append, h1, Option.some_or]
      · rw [next_process_bad hm]; exact h1
    | create n' rnd =>
      have hn : n' = n := hn
      subst hn
      have hne : (g n').senderKeyStates ≠ [] := by
        intro he
        unfold stateFor at h1
        rw [he] at h1; cases h1
      rw [next_create_again hne]; exact h1
  · rw [next_other g c n hn]; exact h1

/-- After processing a distribution message for a new key id, nothing has been used. -/
theorem process_holds {g : GroupStore} {n : SenderKeyName} {d : SenderKeyDistributionMessage}
    (hd : d.id < 2 ^ 32 ∧ d.iteration < 2 ^ 32) (hsig : d.signatureKey.length = 32)
    (hnew : stateFor (g n) d.id = none) :
    MemberHolds ((GroupCall.process n d).next g) n d (fun _ => False) := by
  refine ⟨addedState d, ?_, ?_⟩
  · rw [next_process_good hd]
    unfold stateFor at hnew ⊢
    rw [List.find?_append, hnew]
    simp [addedState]
  · have e1 : iterationOf (addedState d) = d.iteration := rfl
    have e2 : pending (addedState d) = [] := rfl
    refine ⟨⟨.fresh (addedState_fresh hd.1 hd.2), ⟨by rw [e1]; exact Nat.le_refl _, by rw [e1, Nat.sub_self]; rfl⟩, ?_, ?_, ?_⟩, rfl⟩
    · unfold SenderKeyState.getSigningKeyPublic addedState
      simp only [Option.getD_some]
      exact decodePoint_serializePoint (by omega)
    · intro k hk; cases hk
    · intro i hi
      rw [e1]
      constructor
      · exact False.elim
      · rintro ⟨h, _⟩; omega

/-- Any schedule of deliveries of genuine messages with pairwise different iterations. -/
theorem deliverGroup_verdicts (hC : C.Lawful) {d : SenderKeyDistributionMessage} {n : SenderKeyName}
    (x : Nat → GroupSent) (m : Nat → SenderKeyMessage) (bound : Nat)
    (hgen : ∀ i, i < bound → GroupGenuine d (x i) (m i))
    (hinj : ∀ i j, i < bound → j < bound → (m i).iteration = (m j).iteration → i = j)
    (es : List GroupEvent) (g : GroupStore) (done : List Nat)
    (hin : ∀ i ∈ arrivals es, i < bound) (hdone : ∀ i ∈ done, i < bound)
    (hnf : NoForgery n d.id (fun i => (x i).bytes) g es)
    (h : MemberHolds g n d (fun j => ∃ i ∈ done, (m i).iteration = j)) :
    deliverGroup n (fun i => (x i).bytes) g es = verdicts (fun i => (x i).plaintext) done (arrivals es) := by
  induction es generalizing g done with
  | nil => rfl
  | cons e es ih =>
    obtain ⟨hc, hrest⟩ := hnf
    cases e with
    | deliver i =>
      have hi : i < bound := hin i (List.mem_cons_self ..)
      have hin' : ∀ i ∈ arrivals es, i < bound := fun j hj => hin j (List.mem_cons_of_mem _ hj)
      unfold deliverGroup arrivals verdicts
      by_cases hd : i ∈ done
      · rw [if_pos hd]
        have hdup := deliver_again h (hgen i hi) ⟨i, hd, rfl⟩
        have hsame : ((GroupEvent.deliver i).call n fun i => (x i).bytes).next g = g :=
          next_decrypt_error (by rw [hdup])
        rw [hsame] at hrest ⊢
        rw [ih g done hin' hdone hrest h, hdup]
      · rw [if_neg hd]
        obtain ⟨r1, r2⟩ := deliver_new hC h (hgen i hi) (by
          rintro ⟨j, hj, hij⟩
          rw [hinj j i (hdone j hj) hi hij] at hj
          exact hd hj)
        rw [r1]
        congr 1
        refine ih _ (done ++ [i]) hin' ?_ hrest ?_
        · intro j hj
          rcases List.mem_append.1 hj with hj | hj
          · exact hdone j hj
          · rw [List.mem_singleton.1 hj]; exact hi
        · obtain ⟨s, p1, p2⟩ := r2
          refine ⟨s, p1, p2.congr ?_⟩
          intro j _
          constructor
          · rintro (⟨k, hk, rfl⟩ | rfl)
            · exact ⟨k, List.mem_append_left _ hk, rfl⟩
            · exact ⟨i, List.mem_append_right _ (List.mem_singleton.2 rfl), rfl⟩
          · rintro ⟨k, hk, rfl⟩
            rcases List.mem_append.1 hk with hk | hk
            · exact .inl ⟨k, hk, rfl⟩
            · exact .inr (by rw [List.mem_singleton.1 hk])
    | other c =>
      unfold deliverGroup arrivals
      refine ih _ done hin hdone hrest (h.other hC c ?_)
      intro b m' hcb
      exact hc b m' (by rw [hcb])

/-- **C41.** A sender, after any history, creates a distribution message and then makes any further calls, sending
some messages under that name.  A member for whom the key id is new processes the distribution message.  Then, whatever
the order in which the messages arrive, with losses and duplicates, and whatever else the member does in between, each
message gives its plaintext the first time and `DuplicateMessage` afterwards. -/
theorem C41_any_order (hC : C.Lawful)
    -- the sender
    (before later : List GroupCall) (n : SenderKeyName) (rnd : GroupSessionBuilder.CreateRand)
    (d : SenderKeyDistributionMessage) (hseed : rnd.signSeed.length = 32)
    (hcreate : (GroupSessionBuilder.create (GroupCall.after GroupStore.empty before) n rnd).result = .ok d)
    (hlater : ∀ c ∈ later, GroupCallOk c)
    (sent : List GroupSent)
    (hsent : sent = (groupSent ((GroupCall.create n rnd).next (GroupCall.after GroupStore.empty before)) later).filter
      (·.name = n))
    -- the member
    (g : GroupStore) (n' : SenderKeyName) (d' : SenderKeyDistributionMessage) (hsize : d.chainKey.length < 2 ^ 63)
    (hparse : SenderKeyDistributionMessage.parse d.serialized = .ok d')
    (hnew : stateFor (g n') d'.id = none)
    (es : List GroupEvent) (hin : ∀ i ∈ arrivals es, i < sent.length)
    (hnf : NoForgery n' d'.id (fun i => (sent[i]?.map (·.bytes)).getD []) ((GroupCall.process n' d').next g) es) :
    deliverGroup n' (fun i => (sent[i]?.map (·.bytes)).getD []) ((GroupCall.process n' d').next g) es =
      verdicts (fun i => (sent[i]?.map (·.plaintext)).getD []) [] (arrivals es) := by
  obtain ⟨s, hs, hdesc⟩ := create_describes hC before n rnd hseed d hcreate
  have hgen : ∀ i, i < sent.length → ∃ m, GroupGenuine d (sent[i]?.getD ⟨n, [], []⟩) m := by
    intro i hi
    rw [List.getElem?_eq_getElem hi]
    have hmem := List.getElem_mem hi
    generalize sent[i] = x at hmem ⊢
    rw [hsent] at hmem
    obtain ⟨h1, h2⟩ := List.mem_filter.1 hmem
    exact sent_genuine hC later hlater hs hdesc x h1 (by simpa using h2)
  -- which iterations the messages have
  have hpair := (C38_no_reuse hC ((GroupCall.create n rnd).next (GroupCall.after GroupStore.empty before)) later hlater).filter
    (·.name = n)
  rw [← hsent] at hpair
  by_cases hempty : sent.length = 0
  · -- no message at all
    have harr : arrivals es = [] := by
      cases ha : arrivals es with
      | nil => rfl
      | cons i l => have := hin i (by rw [ha]; exact List.mem_cons_self ..); omega
    have : ∀ (es : List GroupEvent) (g : GroupStore) (msg : Nat → Bytes), arrivals es = [] → deliverGroup n' msg g es = [] := by
      intro es
      induction es with
      | nil => intro g msg _; rfl
      | cons e es ih =>
        intro g msg h
        cases e with
        | deliver i => cases h
        | other c => exact ih _ msg h
    rw [this es _ _ harr, harr]
    rfl
  · obtain ⟨m0, hm0⟩ := hgen 0 (by omega)
    -- the distribution message arrives as it was sent
    have hd : d' = d ∧ d.id < 2 ^ 32 ∧ d.iteration < 2 ^ 32 := by
      have hit : d.iteration < 2 ^ 32 := by
        have := hm0.later; have := hm0.fits; omega
      have hform : ∃ id it ck pub, SenderKeyDistributionMessage.create id it ck pub = .ok d ∧ id < 2 ^ 32 := by
        have key : ∀ r, GroupSessionBuilder.wrapAssert (GroupSessionBuilder.distributionOf r) = .ok d →
            ∃ id it ck pub, SenderKeyDistributionMessage.create id it ck pub = .ok d ∧ id < 2 ^ 32 := by
          intro r hr
          have hr : GroupSessionBuilder.distributionOf r = .ok d := by
            unfold GroupSessionBuilder.wrapAssert at hr
            split at hr
            · cases hr
            · cases hr
            · exact hr
          unfold GroupSessionBuilder.distributionOf at hr
          obtain ⟨st, _, hr⟩ := bind_eq_ok.1 hr
          obtain ⟨pub, _, hr⟩ := bind_eq_ok.1 hr
          refine ⟨_, _, _, _, hr, ?_⟩
          unfold SenderKeyDistributionMessage.create at hr
          obtain ⟨a, q, hr⟩ := bind_eq_ok.1 hr
          have := chkU32_eq_ok.1 q
          omega
        by_cases he : (GroupCall.after GroupStore.empty before n).senderKeyStates = []
        · by_cases hk : rnd.keyId < 2 ^ 32
          · rw [create_new he hk] at hcreate; dsimp only at hcreate; exact key _ hcreate
          · rw [create_bad he hk] at hcreate; cases hcreate
        · rw [create_again he] at hcreate; dsimp only at hcreate; exact key _ hcreate
      obtain ⟨id, it, ck, pub, hcr, hid⟩ := hform
      have hf : d.id = id ∧ d.iteration = it ∧ d.chainKey = ck ∧ d.signatureKey = pub := by
        unfold SenderKeyDistributionMessage.create at hcr
        simp only at hcr
        obtain ⟨_, _, hcr⟩ := bind_eq_ok.1 hcr
        obtain ⟨_, _, hcr⟩ := bind_eq_ok.1 hcr
        rw [← Except.ok.inj hcr]
        exact ⟨rfl, rfl, rfl, rfl⟩
      obtain ⟨f1, f2, f3, f4⟩ := hf
      obtain ⟨d2, r1, r2, _⟩ := C05_distribution_roundtrip id it hid (by omega) ck (by rw [← f3]; exact hsize) pub
        (by rw [← f4]; exact hm0.keySize)
      have := Except.ok.inj (hcr.symm.trans r1)
      subst this
      exact ⟨Except.ok.inj (hparse.symm.trans r2), by omega, hit⟩
    obtain ⟨rfl, hd1, hd2⟩ := hd
    have hex : ∃ m : Nat → SenderKeyMessage, ∀ i, i < sent.length → GroupGenuine d' (sent[i]?.getD ⟨n, [], []⟩) (m i) := by
      refine ⟨fun i => if h : i < sent.length then Classical.choose (hgen i h) else m0, ?_⟩
      intro i hi
      simp only [dif_pos hi]
      exact Classical.choose_spec (hgen i hi)
    obtain ⟨m, hm⟩ := hex
    have hlt : ∀ i j, i < j → j < sent.length → (m i).iteration < (m j).iteration := by
      intro i j hij hj
      have hi : i < sent.length := by omega
      have h1 := hm i hi
      have h2 := hm j hj
      rw [List.getElem?_eq_getElem hi, Option.getD_some] at h1
      rw [List.getElem?_eq_getElem hj, Option.getD_some] at h2
      have hp := List.pairwise_iff_getElem.1 hpair i j hi hj hij
      have nm : ∀ k (hk : k < sent.length), sent[k].name = n := by
        intro k hk
        have hmem := List.getElem_mem hk
        generalize sent[k] = y at hmem
        rw [hsent] at hmem
        simpa using (List.mem_filter.1 hmem).2
      exact (hp (by rw [nm i hi, nm j hj]) _ _ h1.parses h2.parses).2
    have hb : (fun i : Nat => (sent[i]?.map (·.bytes)).getD []) =
        fun i => ((sent[i]?.getD ⟨n, [], []⟩ : GroupSent)).bytes := by
      funext i
      cases sent[i]? <;> rfl
    have hpt : (fun i : Nat => (sent[i]?.map (·.plaintext)).getD []) =
        fun i => ((sent[i]?.getD ⟨n, [], []⟩ : GroupSent)).plaintext := by
      funext i
      cases sent[i]? <;> rfl
    rw [hb] at hnf ⊢
    rw [hpt]
    refine deliverGroup_verdicts hC (fun i => sent[i]?.getD ⟨n, [], []⟩) m sent.length hm ?_ es _ [] hin
      (fun _ h => by cases h) hnf ?_
    · intro i j hi hj he
      rcases Nat.lt_trichotomy i j with h | h | h
      · have := hlt i j h hj; omega
      · exact h
      · have := hlt j i h hi; omega
    · obtain ⟨s, p1, p2⟩ := process_holds ⟨hd1, hd2⟩ hm0.keySize hnew
      refine ⟨s, p1, p2.congr ?_⟩
      intro i _
      constructor
      · exact False.elim
      · rintro ⟨_, h, _⟩; cases h

/-! ## C42: no limit on the distance -/

/-- What happens instead of C42: a message properly made for an iteration at or ahead of the stored chain, however far,
is accepted, as long as the iteration after it still fits 32 bits. -/
theorem C42_any_distance_accepted (hC : C.Lawful) (g : GroupStore) (n : SenderKeyName) (id : Nat) (s : SenderKeyStateS)
    (hs : stateFor (g n) id = some s) (priv : ECPriv) (hpriv : C.Generated priv)
    (hpub : (s.senderSigningKey.getD {}).pub = some (5 :: C.genPub priv)) (hid : id < 2 ^ 32)
    (i : Nat) (hi : iterationOf s ≤ i) (hfit : i + 1 < 2 ^ 32) (pt rand : Bytes) (hpt : pt.length < 2 ^ 62)
    (hrand : rand.length = 64) :
    ∃ ct m, AES.encrypt (groupCipherKey (groupSeed (chainAt (chainKeyOf s) (i - iterationOf s))))
        (groupIv (groupSeed (chainAt (chainKeyOf s) (i - iterationOf s)))) pt = .ok ct ∧
      SenderKeyMessage.create id i ct priv rand = .ok m ∧ SenderKeyMessage.parse m.serialized = .ok m ∧
      m.iteration = i ∧ m.keyId = id ∧
      (GroupCipher.decrypt g n m.serialized).result = .ok pt ∧
      ∃ s', stateFor ((GroupCall.decrypt n m.serialized).next g n) id = some s' ∧ iterationOf s' = i + 1 ∧
        (pending s').length = (pending s).length + (i - iterationOf s) := by
  obtain ⟨ct, c1, c2, _, _, c5⟩ := C01_cipher_roundtrip hC
    (groupCipherKey (groupSeed (chainAt (chainKeyOf s) (i - iterationOf s))))
    (groupIv (groupSeed (chainAt (chainKeyOf s) (i - iterationOf s)))) pt (.inr (.inr (groupCipherKey_length hC.hmac_len _)))
    (groupIv_length hC.hmac_len _)
  obtain ⟨m, r1, r2, r3, r4, r5, r6⟩ := C05_senderkey_roundtrip hC id i hid (by omega) ct (by omega) priv hpriv rand hrand
  obtain ⟨j, h6⟩ := SenderKeyRecord.getStateById_some hs
  have hsig : SenderKeyState.getSigningKeyPublic s = .ok (C.genPub priv) := by
    unfold SenderKeyState.getSigningKeyPublic
    simp only [hpub, Option.getD_some]
    exact decodePoint_serializePoint (by rw [hC.genPub_len _ hpriv.1]; omega)
  have hget := GroupCipher.getSenderKey_new hi hfit
  rw [senderMessageKey_eq hC.hmac_len] at hget
  have hwr : GroupCipher.decryptWithRecord (g n) m.serialized = .ok (pt, (g n).replace j (GroupCipher.moved s i)) := by
    unfold GroupCipher.decryptWithRecord
    rw [if_neg (stateFor_ne hs), r2, ok_bind, r4, h6, ok_bind]
    simp only [hsig, ok_bind, r3, r5, hget]
    unfold GroupCipher.getPlainText
    rw [r6]
    unfold groupSeed at c2
    rw [c2]
    rfl
  have hdec : GroupCipher.decrypt g n m.serialized = ⟨some ((g n).replace j (GroupCipher.moved s i)), .ok pt⟩ := by
    unfold GroupCipher.decrypt
    rw [hwr]
  refine ⟨ct, m, c1, r1, r2, r5, r4, by rw [hdec], GroupCipher.moved s i, ?_, rfl, ?_⟩
  · rw [next_decrypt (by rw [hdec])]
    have hid : SenderKeyState.getKeyId (GroupCipher.moved s i) = id := by
      have := stateFor_id hs
      unfold SenderKeyState.getKeyId GroupCipher.moved
      exact this
    rw [(SenderKeyRecord.getStateById_ok h6).2.2 _ hid, if_pos rfl]
  · rw [pending_moved]
    simp

/-- What does hold of C42: the one iteration that is always refused is the last one.  The full claim would refuse, with
`InvalidMessage`, every iteration more than 2000 ahead. -/
theorem C42_last_refused_partial (g : GroupStore) (n : SenderKeyName) (b : Bytes) (m : SenderKeyMessage) (s : SenderKeyStateS)
    (hm : SenderKeyMessage.parse b = .ok m) (hs : stateFor (g n) m.keyId = some s) (hp : iterationOf s ≤ m.iteration)
    (hi : 2 ^ 32 ≤ m.iteration + 1) : ∃ e, GroupCipher.decrypt g n b = ⟨none, .error e⟩ := by
  cases hd : (GroupCipher.decrypt g n b).result with
  | error e => exact ⟨e, by rw [← hd, ← GroupCipher.decrypt_error hd]⟩
  | ok pt =>
    obtain ⟨m', s', j, pub, k, s2, q1, q2, _, _, q5, _⟩ := GroupCipher.decrypt_ok hd
    have := Except.ok.inj (hm.symm.trans q1)
    subst this
    have q2 := (SenderKeyRecord.getStateById_ok q2).1
    rw [hs] at q2
    have := Option.some.inj q2
    subst this
    rw [GroupCipher.getSenderKey_last hp hi] at q5
    cases q5

/-- **C42 is false**: whatever limit is chosen below `2 ^ 32 - 1`, right after `create` there is a message further ahead
than the limit that is accepted. -/
theorem C42_false (hC : C.Lawful) (n : SenderKeyName) (limit : Nat) (hlimit : limit + 2 < 2 ^ 32) :
    ∃ (rnd : GroupSessionBuilder.CreateRand) (b pt : Bytes) (m : SenderKeyMessage) (s : SenderKeyStateS),
      SenderKeyMessage.parse b = .ok m ∧
      stateFor (GroupCall.after GroupStore.empty [.create n rnd] n) m.keyId = some s ∧
      iterationOf s + limit < m.iteration ∧
      (GroupCipher.decrypt (GroupCall.after GroupStore.empty [.create n rnd]) n b).result = .ok pt := by
  let rnd : GroupSessionBuilder.CreateRand := ⟨7, List.replicate 32 1, List.replicate 32 2⟩
  have hseed : rnd.signSeed.length = 32 := by simp [rnd]
  have hkid : rnd.keyId < 2 ^ 32 := by
    have : rnd.keyId = 7 := rfl
    omega
  have hnext : GroupCall.after GroupStore.empty [.create n rnd] n = { senderKeyStates := [createdState rnd] } := by
    unfold GroupCall.after
    rw [List.foldl_cons, List.foldl_nil]
    exact next_create_new rfl hkid
  have hst : stateFor (GroupCall.after GroupStore.empty [.create n rnd] n) 7 = some (createdState rnd) := by
    rw [hnext]
    simp [stateFor, createdState, rnd]
  have hp : iterationOf (createdState rnd) = 0 := rfl
  obtain ⟨ct, m, _, _, r2, r5, r4, hres, _⟩ := C42_any_distance_accepted hC (GroupCall.after GroupStore.empty [.create n rnd]) n 7
    (createdState rnd) hst (C.genPriv rnd.signSeed) ⟨hC.genPriv_len _ hseed, _, rfl⟩ rfl
    (by omega) (limit + 1) (by rw [hp]; omega) (by omega) [] (List.replicate 64 0) (by simp) (by simp)
  refine ⟨rnd, m.serialized, [], m, createdState rnd, r2, by rw [r4]; exact hst, by rw [hp, r5]; omega, hres⟩

end

/-! ## Non-vacuity -/

section
attribute [local instance] toy
open Example Spec

/-- The member's side: the third message arrives first, then the first, an unknown message, the third again, a repeated
distribution message, the second, and the first again. -/
def Example.grpEvents : List GroupEvent :=
  [.deliver 2, .deliver 0, .other (.decrypt grp [0x33, 1]), .deliver 2, .other (.process grp grpDist), .deliver 1, .deliver 0]

/-- `C41_any_order` applies to this schedule, and gives these results. -/
example : deliverGroup grp (fun i => (grpSent[i]?.map (·.bytes)).getD [])
      ((GroupCall.process grp grpDist).next GroupStore.empty) grpEvents =
    [.ok [], .ok [1], .error .duplicateMessage, .ok [2, 2], .error .duplicateMessage] := by
  have hsent : grpSent = (groupSent ((GroupCall.create grp grpRand).next (GroupCall.after GroupStore.empty []))
      (grpCalls.drop 1)).filter (·.name = grp) := by
    have h1 : grpSent = groupSent ((GroupCall.create grp grpRand).next (GroupCall.after GroupStore.empty [])) (grpCalls.drop 1) := rfl
    have h2 : ∀ x ∈ grpSent, decide (x.name = grp) = true := by decide +kernel
    rw [← h1]
    exact (List.filter_eq_self.2 h2).symm
  have hok : ∀ c ∈ grpCalls.drop 1, decide (GroupCallOk c) = true := by decide +kernel
  have hcreate : (GroupSessionBuilder.create (GroupCall.after GroupStore.empty []) grp grpRand).result = .ok grpDist := by
    decide +kernel
  have hparse : SenderKeyDistributionMessage.parse grpDist.serialized = .ok grpDist := by decide +kernel
  have hlen : grpSent.length = 3 := by decide +kernel
  have hres := C41_any_order toy_lawful [] (grpCalls.drop 1) grp grpRand grpDist (by decide) hcreate
    (fun c hc => of_decide_eq_true (hok c hc)) grpSent hsent GroupStore.empty grp grpDist (by decide +kernel) hparse rfl grpEvents
    (by rw [hlen]; decide)
    (by
      have hbad : ∀ m, SenderKeyMessage.parse [0x33, 1] = .ok m → m.keyId ≠ grpDist.id := by
        intro m hm
        have : (SenderKeyMessage.parse [0x33, 1]).toOption.all (fun m => m.keyId ≠ grpDist.id) = true := by decide +kernel
        rw [hm] at this
        simpa [Except.toOption] using this
      refine ⟨?_, ?_, ?_, ?_, ?_, ?_, ?_, trivial⟩
      rotate_left 2
      · intro b m h hm hk
        injection h with h
        injection h with h1 h2
        subst h2
        exact absurd hk (hbad m hm)
      all_goals intro b m h; cases h)
  rw [hres]
  decide +kernel

/-- `C42_any_distance_accepted`: the state that `create` leaves has the keys the theorem asks for. -/
example : (sendingState (GroupCall.after GroupStore.empty [.create grp grpRand] grp)).map
      (fun s => ((s.senderSigningKey.getD {}).pub, iterationOf s)) = some (some (5 :: toy.genPub (key 92)), 0) ∧
    (key 92).length = 32 := by decide +kernel

end
end Axolotl
