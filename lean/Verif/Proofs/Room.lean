import Verif.Props.GroupDelivery
import Verif.Spec.Room

/-! # The invariant of a group as a whole -/

namespace Axolotl
section
variable [C : Crypto]
open Spec ByteUtil
variable {M : Type} [DecidableEq M]

/-! ## The log -/

omit C [DecidableEq M] in
theorem sentUnder_snoc (n : SenderKeyName) (log : RoomLog M) (e : RoomEntry M) :
    sentUnder n (log ++ [e]) = sentUnder n log ++ sentUnder n [e] := by
  unfold sentUnder; exact List.filterMap_append

omit C in
theorem heardBy_snoc (m : M) (n : SenderKeyName) (log : RoomLog M) (e : RoomEntry M) :
    heardBy m n (log ++ [e]) = heardBy m n log ++ heardBy m n [e] := by
  unfold heardBy; exact List.filterMap_append

omit C in
theorem readBy_snoc (m : M) (n : SenderKeyName) (log : RoomLog M) (e : RoomEntry M) :
    readBy m n (log ++ [e]) = readBy m n log ++ readBy m n [e] := by
  unfold readBy; exact List.filterMap_append

omit C [DecidableEq M] in
theorem announced_snoc (n : SenderKeyName) (log : RoomLog M) (e : RoomEntry M) (k : Nat) (d : SenderKeyDistributionMessage) :
    AnnouncedAt n (log ++ [e]) k d ↔ AnnouncedAt n log k d ∨ ∃ rnd d0, e.call = .create n rnd ∧ e.reply = .ok (.distribution d0) ∧
      SenderKeyDistributionMessage.parse d0.serialized = .ok d ∧ (sentUnder n log).length = k := by
  constructor
  · rintro ⟨pre, e', post, rnd, d0, h1, h2, h3, h4, h5⟩
    rcases List.eq_nil_or_concat post with hp | ⟨post', x, hp⟩
    · subst hp
      obtain ⟨rfl, h⟩ := List.append_inj' h1 rfl
      cases h
      exact .inr ⟨rnd, d0, h2, h3, h4, h5⟩
    · rw [List.concat_eq_append] at hp
      subst hp
      have h1 : log ++ [e] = (pre ++ e' :: post') ++ [x] := by rw [h1]; simp
      obtain ⟨rfl, _⟩ := List.append_inj' h1 rfl
      exact .inl ⟨pre, e', post', rnd, d0, rfl, h2, h3, h4, h5⟩
  · rintro (⟨pre, e', post, rnd, d0, h1, h2, h3, h4, h5⟩ | ⟨rnd, d0, h2, h3, h4, h5⟩)
    · exact ⟨pre, e', post ++ [e], rnd, d0, by rw [h1]; simp, h2, h3, h4, h5⟩
    · exact ⟨log, e, [], rnd, d0, rfl, h2, h3, h4, h5⟩

/-! ## Bytes -/

omit C in
/-- Messages with the same body have the same content. -/
theorem parse_body {body sig sig' : Bytes} {m m' : SenderKeyMessage} (hs : sig.length = 64) (hs' : sig'.length = 64)
    (hb : body ≠ []) (h : SenderKeyMessage.parse (body ++ sig) = .ok m) (h' : SenderKeyMessage.parse (body ++ sig') = .ok m') :
    m'.keyId = m.keyId ∧ m'.iteration = m.iteration ∧ m'.ciphertext = m.ciphertext := by
  cases body with
  | nil => exact absurd rfl hb
  | cons v rest =>
    have key : ∀ (t : Bytes) (x : SenderKeyMessage), t.length = 64 → SenderKeyMessage.parse (v :: rest ++ t) = .ok x →
        ∃ p, parseWith SenderKeyMessageP.ofFields rest = .ok p ∧ x.keyId = p.id.getD 0 ∧ x.iteration = p.iteration.getD 0 ∧
          x.ciphertext = p.ciphertext.getD [] := by
      intro t x ht hx
      unfold SenderKeyMessage.parse at hx
      rw [if_neg (by simp)] at hx
      have hx : SenderKeyMessage.parseBody (v :: (rest ++ t)) = .ok x := by
        have e : v :: rest ++ t = v :: (rest ++ t) := rfl
        rw [e] at hx
        unfold SenderKeyMessage.wrapAll at hx
        split at hx
        · cases hx
        · exact hx
      unfold SenderKeyMessage.parseBody at hx
      have hsp := split3_msg v rest t 64 ht
      have hc : ((SenderKeyMessage.SIGNATURE_LENGTH : Nat) : Int) = ((64 : Nat) : Int) := rfl
      rw [hc, hsp] at hx
      simp only at hx
      split at hx
      · cases hx
      · split at hx
        · cases hx
        · obtain ⟨p, h1, h2⟩ := bind_eq_ok.1 hx
          cases h2
          exact ⟨p, h1, rfl, rfl, rfl⟩
    obtain ⟨p, h1, h2, h3, h4⟩ := key sig m hs h
    obtain ⟨p', k1, k2, k3, k4⟩ := key sig' m' hs' h'
    have := Except.ok.inj (h1.symm.trans k1)
    subst this
    exact ⟨by rw [k2, h2], by rw [k3, h3], by rw [k4, h4]⟩

omit C in
theorem Spec.SameBody.symm {b b' : Bytes} (h : SameBody b b') : SameBody b' b := by
  obtain ⟨x, s, s', h1, h2, h3, h4⟩ := h
  exact ⟨x, s', s, h2, h1, h4, h3⟩

omit C in
theorem Spec.SameBody.trans {a b c : Bytes} (h : SameBody a b) (h' : SameBody b c) : SameBody a c := by
  obtain ⟨x, s, s', h1, h2, h3, h4⟩ := h
  obtain ⟨y, t, t', k1, k2, k3, k4⟩ := h'
  rw [h2] at k1
  obtain ⟨rfl, _⟩ := List.append_inj' k1 (by omega)
  exact ⟨x, s, t', h1, k2, h3, k4⟩

omit C in
theorem Spec.SameBody.parse {b b' : Bytes} (h : SameBody b b') (hl : 64 < b.length) {m m' : SenderKeyMessage}
    (hm : SenderKeyMessage.parse b = .ok m) (hm' : SenderKeyMessage.parse b' = .ok m') :
    m'.keyId = m.keyId ∧ m'.iteration = m.iteration ∧ m'.ciphertext = m.ciphertext := by
  obtain ⟨x, s, s', rfl, rfl, h3, h4⟩ := h
  refine parse_body h3 h4 ?_ hm hm'
  rintro rfl
  simp at hl
  omega

omit C in
theorem Spec.SameBody.length {b b' : Bytes} (h : SameBody b b') : b.length = b'.length := by
  obtain ⟨x, s, s', rfl, rfl, h3, h4⟩ := h
  simp; omega

omit C in
theorem Spec.SameBody.body {b b' : Bytes} (h : SameBody b b') : b.take (b.length - 64) = b'.take (b'.length - 64) := by
  obtain ⟨x, s, s', rfl, rfl, h3, h4⟩ := h
  rw [List.take_left' (by rw [List.length_append]; omega), List.take_left' (by rw [List.length_append]; omega)]

/-- What `encrypt` returns ends in a signature of 64 bytes. -/
theorem encrypt_long (hC : C.Lawful) {g : GroupStore} {n : SenderKeyName} {pt rand b : Bytes}
    (h : (GroupCipher.encrypt g n pt rand).result = .ok b) : 64 < b.length := by
  obtain ⟨s, ct, m, _, _, h3, rfl, _, _⟩ := GroupCipher.encrypt_ok h
  unfold SenderKeyMessage.create at h3
  obtain ⟨_, _, h3⟩ := bind_eq_ok.1 h3
  obtain ⟨_, _, h3⟩ := bind_eq_ok.1 h3
  obtain ⟨sig, hs, h3⟩ := bind_eq_ok.1 h3
  cases h3
  unfold Curve.calculateSignature at hs
  split at hs
  · rename_i y hy
    cases hs
    have := hC.sig_size _ _ _ _ hy
    simp
    omega
  · cases hs

/-! ## The sender -/

/-- The announcement of the sender key `d0`, made when `k` messages had been sent. -/
structure Described (d0 : SenderKeyDistributionMessage) (k : Nat) (d : SenderKeyDistributionMessage) : Prop where
  id : d.id = d0.id
  it : d.iteration = k
  chain : d.chainKey = chainAt d0.chainKey k
  sig : d.signatureKey = d0.signatureKey

/-- The owner's state after `k` messages. -/
structure OwnerState (d0 : SenderKeyDistributionMessage) (k : Nat) (s : SenderKeyState) : Prop where
  id : s.senderKeyId.getD 0 = d0.id
  pos : iterationOf s = k
  chain : chainKeyOf s = chainAt d0.chainKey k
  keys : s.senderMessageKeys = []
  pair : ∃ seed, seed.length = 32 ∧ SenderKeyState.getSigningKeyPrivate s = C.genPriv seed ∧
    (s.senderSigningKey.getD {}).pub = some (5 :: C.genPub (C.genPriv seed)) ∧ d0.signatureKey = C.genPub (C.genPriv seed)

theorem OwnerState.sent {d0 : SenderKeyDistributionMessage} {k : Nat} {s : SenderKeyState} (h : OwnerState d0 k s) :
    OwnerState d0 (k + 1) (sentOn s) := by
  refine ⟨h.id, ?_, ?_, h.keys, h.pair⟩
  · show iterationOf s + 1 = k + 1
    rw [h.pos]
  · show C.hmac (chainKeyOf s) [0x02] = _
    rw [h.chain]; rfl

theorem OwnerState.used {d0 : SenderKeyDistributionMessage} {k i : Nat} {s : SenderKeyState} (h : OwnerState d0 k s) (hi : i < k) :
    Used i s := by
  have hp : pending s = [] := by unfold pending; rw [h.keys]; rfl
  exact ⟨⟨by rw [hp]; exact List.nodup_nil, fun i hi => by rw [hp] at hi; cases hi⟩, by rw [h.pos]; exact hi,
    by rw [hp]; exact List.not_mem_nil⟩

theorem OwnerState.pub {d0 : SenderKeyDistributionMessage} {k : Nat} {s : SenderKeyState} (h : OwnerState d0 k s)
    (hl : d0.signatureKey.length = 32) : SenderKeyState.getSigningKeyPublic s = .ok d0.signatureKey := by
  obtain ⟨seed, _, _, h2, h3⟩ := h.pair
  unfold SenderKeyState.getSigningKeyPublic
  rw [h2, Option.getD_some, h3]
  exact decodePoint_serializePoint (by rw [← h3]; omega)

theorem chainAt_len32 (hC : C.Lawful) {K : Bytes} (h : K.length = 32) (k : Nat) : (chainAt K k).length = 32 := by
  cases k with
  | zero => exact h
  | succ k => exact hC.hmac_len _ _

omit C in
/-- An announcement arrives as it was made. -/
theorem announcement_parses {d d' : SenderKeyDistributionMessage} {id it : Nat} {ck : Bytes} {pub : ECPub}
    (hcr : SenderKeyDistributionMessage.create id it ck pub = .ok d) (hck : ck.length < 2 ^ 63) (hpub : pub.length = 32)
    (h : SenderKeyDistributionMessage.parse d.serialized = .ok d') :
    d' = d ∧ d.id = id ∧ d.iteration = it ∧ d.chainKey = ck ∧ d.signatureKey = pub ∧ id < 2 ^ 32 ∧ it < 2 ^ 32 := by
  have hb : id < 2 ^ 32 ∧ it < 2 ^ 32 := by
    unfold SenderKeyDistributionMessage.create at hcr
    obtain ⟨_, q1, hcr⟩ := bind_eq_ok.1 hcr
    obtain ⟨_, q2, hcr⟩ := bind_eq_ok.1 hcr
    have := chkU32_eq_ok.1 q1
    have := chkU32_eq_ok.1 q2
    omega
  obtain ⟨d2, r1, r2, r3, r4, r5, r6⟩ := C05_distribution_roundtrip id it hb.1 hb.2 ck hck pub hpub
  have := Except.ok.inj (hcr.symm.trans r1)
  subst this
  exact ⟨Except.ok.inj (h.symm.trans r2), r3, r4, r5, r6, hb.1, hb.2⟩

omit C in
theorem distribution_made {r : SenderKeyRecord} {d : SenderKeyDistributionMessage} {s : SenderKeyState} {pub : ECPub}
    (hs : sendingState r = some s) (hp : SenderKeyState.getSigningKeyPublic s = .ok pub)
    (h : GroupSessionBuilder.wrapAssert (GroupSessionBuilder.distributionOf r) = .ok d) :
    SenderKeyDistributionMessage.create (s.senderKeyId.getD 0) (iterationOf s) (chainKeyOf s) pub = .ok d := by
  have h : GroupSessionBuilder.distributionOf r = .ok d := by
    unfold GroupSessionBuilder.wrapAssert at h
    split at h
    · cases h
    · cases h
    · exact h
  unfold GroupSessionBuilder.distributionOf at h
  rw [SenderKeyRecord.getFirstState_ok.2 hs] at h
  simp only [ok_bind, hp] at h
  rw [position_eq, chainKeyOf_eq] at h
  exact h

/-- What the owner announces after `k` messages. -/
theorem OwnerState.announces (hC : C.Lawful) {d0 : SenderKeyDistributionMessage} {k : Nat} {s : SenderKeyState}
    (h : OwnerState d0 k s) (hk : d0.chainKey.length = 32) (hl : d0.signatureKey.length = 32) {r : SenderKeyRecord}
    (hs : sendingState r = some s) {d d' : SenderKeyDistributionMessage}
    (hd : GroupSessionBuilder.wrapAssert (GroupSessionBuilder.distributionOf r) = .ok d)
    (hp : SenderKeyDistributionMessage.parse d.serialized = .ok d') : Described d0 k d' := by
  have hcr := distribution_made hs (h.pub hl) hd
  have hck : (chainKeyOf s).length < 2 ^ 63 := by
    rw [h.chain, chainAt_len32 hC hk]; omega
  obtain ⟨rfl, h1, h2, h3, h4, _⟩ := announcement_parses hcr hck hl hp
  exact ⟨by rw [h1, h.id], by rw [h2, h.pos], by rw [h3, h.chain], h4⟩

/-- A message of the owner. -/
theorem OwnerState.genuine (hC : C.Lawful) {d0 : SenderKeyDistributionMessage} {k : Nat} {s : SenderKeyState}
    (h : OwnerState d0 k s) (h0 : d0.iteration = 0) (hl : d0.signatureKey.length = 32) {g : GroupStore} {n : SenderKeyName}
    (hs : sendingState (g n) = some s) {pt rand b : Bytes} (hpt : pt.length < 2 ^ 62) (hrand : rand.length = 64)
    (hb : (GroupCipher.encrypt g n pt rand).result = .ok b) :
    (∃ m, GroupGenuine d0 ⟨n, pt, b⟩ m ∧ m.iteration = k) ∧ k + 1 < 2 ^ 32 ∧
      sendingState ((GroupCall.encrypt n pt rand).next g n) = some (sentOn s) := by
  obtain ⟨s', m, q1, q2, q3, q4, q5, q6, q7, q8, q9⟩ := encrypt_parses hC hpt hrand hb
  have := Option.some.inj (hs.symm.trans q1)
  subst this
  refine ⟨⟨m, ⟨q2, by rw [q3, h.id], by rw [h0]; exact Nat.zero_le _, by rw [q4]; exact q8, ?_, ?_, hl⟩, by rw [q4, h.pos]⟩,
    by rw [← h.pos]; exact q8, next_sent hs q9⟩
  · obtain ⟨seed, _, h1, _, h3⟩ := h.pair
    have q5 := q5 ⟨q6, seed, h1⟩
    rw [h1, ← h3] at q5
    exact q5
  · rw [q4, h.pos, h0, Nat.sub_zero, ← h.chain]
    exact q7

/-- A message of the owner, for a member who knows a later announcement. -/
theorem GroupGenuine.later_on {d0 d : SenderKeyDistributionMessage} {k : Nat} {x : GroupSent} {m : SenderKeyMessage}
    (h : GroupGenuine d0 x m) (h0 : d0.iteration = 0) (hd : Described d0 k d) (hk : k ≤ m.iteration) : GroupGenuine d x m := by
  refine ⟨h.parses, by rw [hd.id]; exact h.keyId, by rw [hd.it]; exact hk, h.fits, by rw [hd.sig]; exact h.signed, ?_,
    by rw [hd.sig]; exact h.keySize⟩
  have e : k + (m.iteration - k) = m.iteration - 0 := by omega
  rw [hd.chain, hd.it, chainAt_add, e, ← h0]
  exact h.opens

/-- The same message with another valid signature. -/
theorem GroupGenuine.resigned {d : SenderKeyDistributionMessage} {x : GroupSent} {m m' : SenderKeyMessage} (h : GroupGenuine d x m)
    {b : Bytes} (hb : SameBody b x.bytes) (hl : 64 < x.bytes.length) (hm : SenderKeyMessage.parse b = .ok m')
    (hv : m'.verifySignature d.signatureKey = .ok ()) : GroupGenuine d ⟨x.name, x.plaintext, b⟩ m' ∧ m'.iteration = m.iteration := by
  obtain ⟨h1, h2, h3⟩ := hb.symm.parse hl h.parses hm
  refine ⟨⟨hm, by rw [h1]; exact h.keyId, by rw [h2]; exact h.later, by rw [h2]; exact h.fits, hv, ?_, h.keySize⟩, h2⟩
  rw [h2, h3]; exact h.opens

/-- The chain has reached the iteration, and no key is kept for earlier ones. -/
def NotBefore (i : Nat) (s : SenderKeyState) : Prop := i ≤ iterationOf s ∧ ∀ j ∈ pending s, i ≤ j

theorem NotBefore.step {i : Nat} {s s' : SenderKeyState} (ht : StateStep s s') (hp : NotBefore i s) : NotBefore i s' := by
  refine ⟨Nat.le_trans hp.1 ht.position_le, ?_⟩
  cases ht with
  | send => exact hp.2
  | @old j k rest hj hk =>
    obtain ⟨a, b, q1, q2, _⟩ := takeKey_pending hk
    intro i hi
    apply hp.2
    unfold pending at hi ⊢
    simp only at hi
    rw [q2, List.map_append] at hi
    rw [q1, List.map_append, List.map_cons]
    rcases List.mem_append.1 hi with hi | hi
    · exact List.mem_append_left _ hi
    · exact List.mem_append_right _ (List.mem_cons_of_mem _ hi)
  | @new j hj _ =>
    intro i hi
    rw [pending_moved] at hi
    rcases List.mem_append.1 hi with hi | hi
    · exact hp.2 i hi
    · obtain ⟨x, _, hx⟩ := List.mem_map.1 hi
      have := hp.1
      omega

/-- Bytes whose key has been used, or never given, are refused as duplicates. -/
theorem used_duplicate {g : GroupStore} {n : SenderKeyName} {s : SenderKeyState} {m : SenderKeyMessage} {pub : ECPub} {b : Bytes}
    (hs : stateFor (g n) m.keyId = some s) (hp : SenderKeyState.getSigningKeyPublic s = .ok pub)
    (hm : SenderKeyMessage.parse b = .ok m) (hv : m.verifySignature pub = .ok ()) (hu : Used m.iteration s) :
    GroupCipher.decrypt g n b = ⟨none, .error .duplicateMessage⟩ := by
  obtain ⟨j, h6⟩ := SenderKeyRecord.getStateById_some hs
  unfold GroupCipher.decrypt GroupCipher.decryptWithRecord
  rw [if_neg (stateFor_ne hs), hm, ok_bind, h6, ok_bind]
  simp only [hp, ok_bind, hv, hu.duplicate, error_bind]
  rfl

/-! ## The invariant -/

/-- The message with this number is among those read. -/
def HasRead (sent : List GroupSent) (read : List (Bytes × Bytes)) (i : Nat) : Prop :=
  ∃ x p, sent[i]? = some x ∧ p ∈ read ∧ SameBody p.1 x.bytes

/-- The messages of the sender key `d0`, in order. -/
def Numbered (d0 : SenderKeyDistributionMessage) (sent : List GroupSent) : Prop :=
  ∀ i x, sent[i]? = some x → 64 < x.bytes.length ∧ ∃ m, GroupGenuine d0 x m ∧ m.iteration = i

/-- A member other than the owner. -/
structure RoomMember (g : GroupStore) (n : SenderKeyName) (sent : List GroupSent) (heard : List SenderKeyDistributionMessage)
    (read : List (Bytes × Bytes)) (announced : SenderKeyDistributionMessage → Prop) : Prop where
  noPriv : ∀ t ∈ (g n).senderKeyStates, SenderKeyState.getSigningKeyPrivate t = []
  unheard : heard = [] → (g n).senderKeyStates = []
  holds : ∀ d rest, heard = d :: rest → announced d ∧ MemberHolds g n d (HasRead sent read) ∧
    ∃ s, stateFor (g n) d.id = some s ∧ NotBefore d.iteration s
  reads : ∀ p ∈ read, ∃ i x d rest, sent[i]? = some x ∧ SameBody p.1 x.bytes ∧ p.2 = x.plaintext ∧ heard = d :: rest ∧
    d.iteration ≤ i
  once : read.Pairwise fun p q => ¬ SameBody p.1 q.1

/-- A name for which no sender key has been created. -/
structure RoomUntold (S : M → GroupStore) (log : RoomLog M) (n : SenderKeyName) : Prop where
  states : ∀ m, (S m n).senderKeyStates = []
  sent : sentUnder n log = []
  heard : ∀ m, heardBy m n log = []
  read : ∀ m, readBy m n log = []
  announced : ∀ k d, ¬ AnnouncedAt n log k d

/-- A name with a sender key. -/
structure RoomRunning (owner : SenderKeyName → M) (S : M → GroupStore) (log : RoomLog M) (n : SenderKeyName)
    (d0 : SenderKeyDistributionMessage) : Prop where
  id : d0.id < 2 ^ 32
  it : d0.iteration = 0
  klen : d0.chainKey.length = 32
  slen : d0.signatureKey.length = 32
  small : (sentUnder n log).length < 2 ^ 32
  own : ∃ s, sendingState (S (owner n) n) = some s ∧ OwnerState d0 (sentUnder n log).length s
  ownRead : readBy (owner n) n log = []
  sent : Numbered d0 (sentUnder n log)
  announced : ∀ k d, AnnouncedAt n log k d → Described d0 k d ∧ k ≤ (sentUnder n log).length
  member : ∀ m, m ≠ owner n →
    RoomMember (S m) n (sentUnder n log) (heardBy m n log) (readBy m n log) (fun d => ∃ k, AnnouncedAt n log k d)

def RoomInv (owner : SenderKeyName → M) (S : M → GroupStore) (log : RoomLog M) (n : SenderKeyName) : Prop :=
  RoomUntold S log n ∨ ∃ d0, RoomRunning owner S log n d0

theorem memberHolds_iff {g g' : GroupStore} {n : SenderKeyName} {d : SenderKeyDistributionMessage} {p q : Nat → Prop}
    (h : MemberHolds g n d p) (hg : g' n = g n) (hpq : ∀ i, p i ↔ q i) : MemberHolds g' n d q := by
  have : p = q := by funext i; exact propext (hpq i)
  subst this
  unfold MemberHolds at h ⊢
  rw [hg]; exact h

/-- What other members do may add messages and announcements. -/
theorem RoomMember.frame {g g' : GroupStore} {n : SenderKeyName} {sent sent' : List GroupSent}
    {heard : List SenderKeyDistributionMessage} {read : List (Bytes × Bytes)} {announced announced' : SenderKeyDistributionMessage → Prop}
    (h : RoomMember g n sent heard read announced) (hg : g' n = g n)
    (hs : ∀ (i : Nat) (x : GroupSent), sent[i]? = some x → sent'[i]? = some x)
    (hr : ∀ i, HasRead sent read i ↔ HasRead sent' read i) (ha : ∀ d, announced d → announced' d) :
    RoomMember g' n sent' heard read announced' := by
  refine ⟨by rw [hg]; exact h.noPriv, by rw [hg]; exact h.unheard, ?_, ?_, h.once⟩
  · intro d rest hd
    obtain ⟨q1, q2, q3⟩ := h.holds d rest hd
    exact ⟨ha d q1, memberHolds_iff q2 hg hr, by rw [hg]; exact q3⟩
  · intro p hp
    obtain ⟨i, x, d, rest, q1, q2, q3, q4, q5⟩ := h.reads p hp
    exact ⟨i, x, d, rest, hs i x q1, q2, q3, q4, q5⟩

/-- Nothing that concerns the name happens. -/
theorem RoomInv.frame {owner : SenderKeyName → M} {S S' : M → GroupStore} {log log' : RoomLog M} {n : SenderKeyName}
    (h : RoomInv owner S log n) (hS : ∀ m, S' m n = S m n) (h1 : sentUnder n log' = sentUnder n log)
    (h2 : ∀ m, heardBy m n log' = heardBy m n log) (h3 : ∀ m, readBy m n log' = readBy m n log)
    (h4 : ∀ k d, AnnouncedAt n log' k d ↔ AnnouncedAt n log k d) : RoomInv owner S' log' n := by
  rcases h with h | ⟨d0, h⟩
  · exact .inl ⟨fun m => by rw [hS]; exact h.states m, by rw [h1]; exact h.sent, fun m => by rw [h2]; exact h.heard m,
      fun m => by rw [h3]; exact h.read m, fun k d => by rw [h4]; exact h.announced k d⟩
  · refine .inr ⟨d0, h.id, h.it, h.klen, h.slen, by rw [h1]; exact h.small, by rw [hS, h1]; exact h.own, by rw [h3]; exact h.ownRead,
      by rw [h1]; exact h.sent, fun k d => by rw [h4, h1]; exact h.announced k d, ?_⟩
    intro m hm
    rw [h1, h2, h3]
    exact (h.member m hm).frame (hS m) (fun _ _ q => q) (fun _ => Iff.rfl) (fun d ⟨k, q⟩ => ⟨k, (h4 k d).2 q⟩)

/-- A call that returns nothing of interest and does not change the record of the name. -/
theorem RoomInv.idle {owner : SenderKeyName → M} {S : M → GroupStore} {log : RoomLog M} {n : SenderKeyName}
    (h : RoomInv owner S log n) (m : M) (c : GroupCall) (r : Res GroupReply) (hS : c.next (S m) n = S m n)
    (h1 : sentUnder n [(⟨m, c, r⟩ : RoomEntry M)] = []) (h2 : ∀ x, heardBy x n [(⟨m, c, r⟩ : RoomEntry M)] = [])
    (h3 : ∀ x, readBy x n [(⟨m, c, r⟩ : RoomEntry M)] = [])
    (h4 : ∀ rnd d0, c = .create n rnd → r ≠ .ok (.distribution d0)) :
    RoomInv owner (fun x => if x = m then c.next (S m) else S x) (log ++ [⟨m, c, r⟩]) n := by
  refine h.frame ?_ ?_ ?_ ?_ ?_
  · intro x
    split
    · next hx => rw [hx]; exact hS
    · rfl
  · rw [sentUnder_snoc, h1, List.append_nil]
  · intro x; rw [heardBy_snoc, h2, List.append_nil]
  · intro x; rw [readBy_snoc, h3, List.append_nil]
  · intro k d
    rw [announced_snoc]
    constructor
    · rintro (q | ⟨rnd, d0, q1, q2, _⟩)
      · exact q
      · exact absurd q2 (h4 rnd d0 q1)
    · exact .inl

/-- A call for another name. -/
theorem RoomInv.other {owner : SenderKeyName → M} {S : M → GroupStore} {log : RoomLog M} {n : SenderKeyName}
    (h : RoomInv owner S log n) (m : M) (c : GroupCall) (r : Res GroupReply) (hc : c.name ≠ n) :
    RoomInv owner (fun x => if x = m then c.next (S m) else S x) (log ++ [⟨m, c, r⟩]) n := by
  refine h.idle m c r (next_other _ _ _ hc) ?_ ?_ ?_ ?_
  · cases c with
    | encrypt n' pt rand =>
      have hc : n' ≠ n := hc
      unfold sentUnder
      cases r with
      | error e => rfl
      | ok x => cases x <;> simp [hc]
    | decrypt => rfl
    | process => rfl
    | create => rfl
  · intro x
    cases c with
    | process n' d =>
      have hc : n' ≠ n := hc
      unfold heardBy
      cases r with
      | error e => rfl
      | ok x => simp [hc]
    | decrypt => rfl
    | encrypt => rfl
    | create => rfl
  · intro x
    cases c with
    | decrypt n' b =>
      have hc : n' ≠ n := hc
      unfold readBy
      cases r with
      | error e => rfl
      | ok x => cases x <;> simp [hc]
    | encrypt => rfl
    | process => rfl
    | create => rfl
  · intro rnd d0 hcr
    rw [hcr] at hc
    exact absurd rfl hc

/-- A call that raises an exception. -/
theorem RoomInv.failed {owner : SenderKeyName → M} {S : M → GroupStore} {log : RoomLog M} {n : SenderKeyName}
    (h : RoomInv owner S log n) (m : M) (c : GroupCall) (e : Err) (hS : c.next (S m) n = S m n) :
    RoomInv owner (fun x => if x = m then c.next (S m) else S x) (log ++ [⟨m, c, .error e⟩]) n := by
  refine h.idle m c _ hS ?_ ?_ ?_ ?_
  · cases c <;> rfl
  · intro x; cases c <;> rfl
  · intro x; cases c <;> rfl
  · intro _ _ _ q; cases q

/-! ## Numbers -/

/-- The number of a message is settled by its body. -/
theorem Numbered.same {d0 : SenderKeyDistributionMessage} {sent : List GroupSent} (h : Numbered d0 sent) {i j : Nat} {x y : GroupSent}
    (hi : sent[i]? = some x) (hj : sent[j]? = some y) (hxy : SameBody x.bytes y.bytes) : i = j := by
  obtain ⟨hl, m, h1, h2⟩ := h i x hi
  obtain ⟨_, m', h3, h4⟩ := h j y hj
  obtain ⟨_, q, _⟩ := hxy.parse hl h1.parses h3.parses
  omega

theorem Numbered.snoc {d0 : SenderKeyDistributionMessage} {sent : List GroupSent} (h : Numbered d0 sent) {x : GroupSent}
    (hl : 64 < x.bytes.length) (hx : ∃ m, GroupGenuine d0 x m ∧ m.iteration = sent.length) : Numbered d0 (sent ++ [x]) := by
  intro i y hy
  rcases Nat.lt_trichotomy i sent.length with hi | hi | hi
  · rw [List.getElem?_append_left hi] at hy
    exact h i y hy
  · subst hi
    rw [List.getElem?_append_right (Nat.le_refl _), Nat.sub_self] at hy
    cases hy
    exact ⟨hl, hx⟩
  · rw [List.getElem?_append_right (by omega)] at hy
    have : i - sent.length = i - sent.length - 1 + 1 := by omega
    rw [this] at hy
    simp at hy

/-- A message that has just been sent has not been read. -/
theorem hasRead_snoc {d0 : SenderKeyDistributionMessage} {sent : List GroupSent} {read : List (Bytes × Bytes)} {x : GroupSent}
    (h : Numbered d0 (sent ++ [x])) (hr : ∀ p ∈ read, ∃ (i : Nat) (y : GroupSent), sent[i]? = some y ∧ SameBody p.1 y.bytes) (i : Nat) :
    HasRead sent read i ↔ HasRead (sent ++ [x]) read i := by
  have up : ∀ (i : Nat) (y : GroupSent), sent[i]? = some y → (sent ++ [x])[i]? = some y := by
    intro i y hy
    obtain ⟨hi, _⟩ := List.getElem?_eq_some_iff.1 hy
    rw [List.getElem?_append_left hi]; exact hy
  constructor
  · rintro ⟨y, p, q1, q2, q3⟩
    exact ⟨y, p, up i y q1, q2, q3⟩
  · rintro ⟨y, p, q1, q2, q3⟩
    obtain ⟨j, z, r1, r2⟩ := hr p q2
    have : i = j := h.same q1 (up j z r1) (q3.symm.trans r2)
    subst this
    exact ⟨z, p, r1, q2, r2⟩

/-! ## The steps -/

/-- Someone encrypts. -/
theorem RoomRunning.encrypt (hC : C.Lawful) {owner : SenderKeyName → M} {S : M → GroupStore} {log : RoomLog M} {n : SenderKeyName}
    {d0 : SenderKeyDistributionMessage} (h : RoomRunning owner S log n d0) (m : M) {pt rand : Bytes} (hpt : pt.length < 2 ^ 62)
    (hrand : rand.length = 64) {b : Bytes} (hb : (GroupCipher.encrypt (S m) n pt rand).result = .ok b) :
    m = owner n ∧ RoomRunning owner (fun x => if x = m then (GroupCall.encrypt n pt rand).next (S m) else S x)
      (log ++ [⟨m, .encrypt n pt rand, .ok (.bytes b)⟩]) n d0 := by
  have hm : m = owner n := by
    apply Decidable.byContradiction
    intro hm
    obtain ⟨s, x, q1, _, _, _, _, q6, _⟩ := encrypt_parses hC hpt hrand hb
    have := (h.member m hm).noPriv s (List.mem_of_mem_head? q1)
    rw [this] at q6
    cases q6
  refine ⟨hm, ?_⟩
  have e1 : sentUnder n (log ++ [(⟨m, .encrypt n pt rand, .ok (.bytes b)⟩ : RoomEntry M)]) = sentUnder n log ++ [⟨n, pt, b⟩] := by
    rw [sentUnder_snoc]; congr 1; simp [sentUnder]
  have e2 : ∀ x, heardBy x n (log ++ [(⟨m, .encrypt n pt rand, .ok (.bytes b)⟩ : RoomEntry M)]) = heardBy x n log := by
    intro x; rw [heardBy_snoc]; exact List.append_nil _
  have e3 : ∀ x, readBy x n (log ++ [(⟨m, .encrypt n pt rand, .ok (.bytes b)⟩ : RoomEntry M)]) = readBy x n log := by
    intro x; rw [readBy_snoc]; exact List.append_nil _
  have e4 : ∀ k d, AnnouncedAt n (log ++ [(⟨m, .encrypt n pt rand, .ok (.bytes b)⟩ : RoomEntry M)]) k d ↔ AnnouncedAt n log k d := by
    intro k d
    rw [announced_snoc]
    constructor
    · rintro (q | ⟨_, _, q, _⟩)
      · exact q
      · cases q
    · exact .inl
  obtain ⟨s, hs, ho⟩ := h.own
  rw [← hm] at hs
  obtain ⟨g1, g2, g3⟩ := ho.genuine hC h.it h.slen hs hpt hrand hb
  have hnum := h.sent.snoc (x := ⟨n, pt, b⟩) (encrypt_long hC hb) g1
  have hup : ∀ (i : Nat) (y : GroupSent), (sentUnder n log)[i]? = some y → (sentUnder n log ++ [⟨n, pt, b⟩])[i]? = some y := by
    intro i y hy
    obtain ⟨hi, _⟩ := List.getElem?_eq_some_iff.1 hy
    rw [List.getElem?_append_left hi]; exact hy
  refine ⟨h.id, h.it, h.klen, h.slen, ?_, ⟨sentOn s, ?_, ?_⟩, ?_, ?_, ?_, ?_⟩
  · rw [e1, List.length_append, List.length_singleton]; exact g2
  · rw [← hm, if_pos rfl]; exact g3
  · rw [e1, List.length_append, List.length_singleton]; exact ho.sent
  · rw [e3]; exact h.ownRead
  · rw [e1]; exact hnum
  · intro k d q
    rw [e4] at q
    obtain ⟨q1, q2⟩ := h.announced k d q
    exact ⟨q1, by rw [e1, List.length_append]; omega⟩
  · intro x hx
    rw [e1, e2, e3]
    have hxm : x ≠ m := by rw [hm]; exact hx
    refine (h.member x hx).frame (by rw [if_neg hxm]) hup ?_ (fun d ⟨k, q⟩ => ⟨k, (e4 k d).2 q⟩)
    refine fun i => hasRead_snoc hnum ?_ i
    intro p hp
    obtain ⟨i, y, _, _, q1, q2, _⟩ := (h.member x hx).reads p hp
    exact ⟨i, y, q1, q2⟩

/-- The owner announces the sender key again. -/
theorem RoomRunning.create (hC : C.Lawful) {owner : SenderKeyName → M} {S : M → GroupStore} {log : RoomLog M} {n : SenderKeyName}
    {d0 : SenderKeyDistributionMessage} (h : RoomRunning owner S log n d0) {rnd : GroupSessionBuilder.CreateRand}
    {d : SenderKeyDistributionMessage} (hd : (GroupSessionBuilder.create (S (owner n)) n rnd).result = .ok d) :
    RoomRunning owner (fun x => if x = owner n then (GroupCall.create n rnd).next (S (owner n)) else S x)
      (log ++ [⟨owner n, .create n rnd, .ok (.distribution d)⟩]) n d0 := by
  obtain ⟨s, hs, ho⟩ := h.own
  have hne : (S (owner n) n).senderKeyStates ≠ [] := fun q => by
    rw [sendingState_none.2 q] at hs; cases hs
  rw [create_again hne] at hd
  have hS : ∀ x, (if x = owner n then (GroupCall.create n rnd).next (S (owner n)) else S x) = S x := by
    intro x
    split
    · next hx => rw [hx, next_create_again hne]
    · rfl
  have e1 : sentUnder n (log ++ [(⟨owner n, .create n rnd, .ok (.distribution d)⟩ : RoomEntry M)]) = sentUnder n log := by
    rw [sentUnder_snoc]; exact List.append_nil _
  have e2 : ∀ x, heardBy x n (log ++ [(⟨owner n, .create n rnd, .ok (.distribution d)⟩ : RoomEntry M)]) = heardBy x n log := by
    intro x; rw [heardBy_snoc]; exact List.append_nil _
  have e3 : ∀ x, readBy x n (log ++ [(⟨owner n, .create n rnd, .ok (.distribution d)⟩ : RoomEntry M)]) = readBy x n log := by
    intro x; rw [readBy_snoc]; exact List.append_nil _
  refine ⟨h.id, h.it, h.klen, h.slen, by rw [e1]; exact h.small, ⟨s, by rw [hS]; exact hs, by rw [e1]; exact ho⟩,
    by rw [e3]; exact h.ownRead, by rw [e1]; exact h.sent, ?_, ?_⟩
  · intro k d' q
    rw [e1]
    rcases (announced_snoc _ _ _ _ _).1 q with q | ⟨rnd', d2, _, q2, q3, q4⟩
    · exact h.announced k d' q
    · cases q2
      subst q4
      exact ⟨ho.announces hC h.klen h.slen hs hd q3, Nat.le_refl _⟩
  · intro x hx
    rw [e1, e2, e3]
    exact (h.member x hx).frame (by rw [hS]) (fun _ _ q => q) (fun _ => Iff.rfl)
      (fun d ⟨k, q⟩ => ⟨k, (announced_snoc _ _ _ _ _).2 (.inl q)⟩)

/-- Someone processes an announcement. -/
theorem RoomRunning.process (hC : C.Lawful) {owner : SenderKeyName → M} {S : M → GroupStore} {log : RoomLog M} {n : SenderKeyName}
    {d0 : SenderKeyDistributionMessage} (h : RoomRunning owner S log n d0) (m : M) {d : SenderKeyDistributionMessage}
    (hd : ∃ k, AnnouncedAt n log k d) :
    RoomRunning owner (fun x => if x = m then (GroupCall.process n d).next (S m) else S x)
      (log ++ [⟨m, .process n d, .ok .done⟩]) n d0 := by
  obtain ⟨k, hd⟩ := hd
  obtain ⟨hdesc, hk⟩ := h.announced k d hd
  have hsmall : d.id < 2 ^ 32 ∧ d.iteration < 2 ^ 32 := by
    rw [hdesc.id, hdesc.it]; exact ⟨h.id, Nat.lt_of_le_of_lt hk h.small⟩
  have e1 : sentUnder n (log ++ [(⟨m, .process n d, .ok .done⟩ : RoomEntry M)]) = sentUnder n log := by
    rw [sentUnder_snoc]; exact List.append_nil _
  have e2 : ∀ x, x ≠ m → heardBy x n (log ++ [(⟨m, .process n d, .ok .done⟩ : RoomEntry M)]) = heardBy x n log := by
    intro x hx; rw [heardBy_snoc]; simp [heardBy, Ne.symm hx]
  have e2' : heardBy m n (log ++ [(⟨m, .process n d, .ok .done⟩ : RoomEntry M)]) = heardBy m n log ++ [d] := by
    rw [heardBy_snoc]; simp [heardBy]
  have e3 : ∀ x, readBy x n (log ++ [(⟨m, .process n d, .ok .done⟩ : RoomEntry M)]) = readBy x n log := by
    intro x; rw [readBy_snoc]; exact List.append_nil _
  have e4 : ∀ k d', AnnouncedAt n (log ++ [(⟨m, .process n d, .ok .done⟩ : RoomEntry M)]) k d' ↔ AnnouncedAt n log k d' := by
    intro k d
    rw [announced_snoc]
    constructor
    · rintro (q | ⟨_, _, q, _⟩)
      · exact q
      · cases q
    · exact .inl
  refine ⟨h.id, h.it, h.klen, h.slen, by rw [e1]; exact h.small, ?_, by rw [e3]; exact h.ownRead, by rw [e1]; exact h.sent,
    fun k d q => by rw [e4] at q; rw [e1]; exact h.announced k d q, ?_⟩
  · obtain ⟨s, hs, ho⟩ := h.own
    refine ⟨s, ?_, by rw [e1]; exact ho⟩
    split
    · next hx =>
      subst hx
      rw [next_process_good hsmall]
      unfold sendingState at hs ⊢
      rw [List.head?_append, hs]
      rfl
    · exact hs
  · intro x hx
    rw [e1, e3]
    by_cases hxm : x = m
    · subst hxm
      rw [e2', if_pos rfl]
      have hmem := h.member x hx
      refine ⟨?_, ?_, ?_, ?_, hmem.once⟩
      · intro t ht
        rw [next_process_good hsmall] at ht
        rcases List.mem_append.1 ht with ht | ht
        · exact hmem.noPriv t ht
        · rw [List.mem_singleton.1 ht]; rfl
      · intro q; simp at q
      · intro d1 rest q
        cases hh : heardBy x n log with
        | nil =>
          rw [hh] at q
          cases q
          have hnil := hmem.unheard hh
          have hnone : stateFor (S x n) d.id = none := by unfold stateFor; rw [hnil]; rfl
          refine ⟨⟨k, (e4 k d).2 hd⟩, ?_, addedState d, ?_, ?_⟩
          · refine memberHolds_iff (process_holds hsmall (by rw [hdesc.sig]; exact h.slen) hnone) rfl ?_
            intro i
            refine ⟨False.elim, ?_⟩
            rintro ⟨y, p, _, q2, _⟩
            obtain ⟨_, _, _, _, _, _, _, q, _⟩ := hmem.reads p q2
            rw [hh] at q
            cases q
          · rw [next_process_good hsmall, hnil]
            unfold stateFor
            simp [addedState]
          · exact ⟨Nat.le_refl _, fun j hj => by cases hj⟩
        | cons d2 rest2 =>
          rw [hh] at q
          obtain ⟨rfl, _⟩ := List.cons.inj q
          obtain ⟨⟨k', q1⟩, q2, s, q3, q4⟩ := hmem.holds d2 rest2 hh
          refine ⟨⟨k', (e4 _ _).2 q1⟩, q2.other hC _ (fun _ _ q => (nomatch q)), ?_⟩
          obtain ⟨s', r1, r2⟩ := (next_record (S x) (.process n d) n).keeps q3
          refine ⟨s', r1, ?_⟩
          rcases r2 with rfl | r2
          · exact q4
          · exact q4.step r2
      · intro p hp
        obtain ⟨i, y, d1, rest, q1, q2, q3, q4, q5⟩ := hmem.reads p hp
        exact ⟨i, y, d1, rest ++ [d], q1, q2, q3, by rw [q4]; rfl, q5⟩
    · rw [e2 x hxm, if_neg hxm]
      exact (h.member x hx).frame rfl (fun _ _ q => q) (fun _ => Iff.rfl) (fun d ⟨k, q⟩ => ⟨k, (e4 k d).2 q⟩)

/-! ## What becomes of a message -/

/-- The owner cannot read its own messages. -/
theorem RoomRunning.own_message {owner : SenderKeyName → M} {S : M → GroupStore} {log : RoomLog M} {n : SenderKeyName}
    {d0 : SenderKeyDistributionMessage} (h : RoomRunning owner S log n d0) {i : Nat} {y : GroupSent}
    (hy : (sentUnder n log)[i]? = some y) {b : Bytes} (hb : SameBody b y.bytes) {x : SenderKeyMessage}
    (hx : SenderKeyMessage.parse b = .ok x) (hv : x.verifySignature d0.signatureKey = .ok ()) :
    GroupCipher.decrypt (S (owner n)) n b = ⟨none, .error .duplicateMessage⟩ := by
  obtain ⟨hl, m, hm, hmi⟩ := h.sent i y hy
  obtain ⟨hg, hxi⟩ := hm.resigned hb hl hx hv
  obtain ⟨s, hs, ho⟩ := h.own
  obtain ⟨hi, _⟩ := List.getElem?_eq_some_iff.1 hy
  refine used_duplicate (m := x) (s := s) (pub := d0.signatureKey) ?_ (ho.pub h.slen) hx hv (ho.used (by omega))
  rw [hg.keyId, ← ho.id]
  exact SenderKeyRecord.sendingState_stateFor hs

/-- A message from before the announcement. -/
theorem RoomMember.early {g : GroupStore} {n : SenderKeyName} {sent : List GroupSent} {heard : List SenderKeyDistributionMessage}
    {read : List (Bytes × Bytes)} {announced : SenderKeyDistributionMessage → Prop} (h : RoomMember g n sent heard read announced)
    {d d0 : SenderKeyDistributionMessage} {rest : List SenderKeyDistributionMessage} (hd : heard = d :: rest) {k : Nat}
    (hk : Described d0 k d) (hn : Numbered d0 sent) {i : Nat} {y : GroupSent} (hy : sent[i]? = some y) (hi : i < k) {b : Bytes}
    (hb : SameBody b y.bytes) {x : SenderKeyMessage} (hx : SenderKeyMessage.parse b = .ok x)
    (hv : x.verifySignature d0.signatureKey = .ok ()) : GroupCipher.decrypt g n b = ⟨none, .error .duplicateMessage⟩ := by
  obtain ⟨hl, m, hm, hmi⟩ := hn i y hy
  obtain ⟨hg, hxi⟩ := hm.resigned hb hl hx hv
  obtain ⟨_, ⟨s, h1, h2⟩, s', h3, h4⟩ := h.holds d rest hd
  have := Option.some.inj (h1.symm.trans h3)
  subst this
  refine used_duplicate (m := x) (s := s) (pub := d0.signatureKey) (by rw [hg.keyId, ← hk.id]; exact h1)
    (by rw [← hk.sig]; exact h2.pub) hx hv ?_
  have e : d.iteration = k := hk.it
  refine ⟨h2.good, Nat.lt_of_lt_of_le (by omega) h4.1, fun q => ?_⟩
  have := h4.2 _ q
  omega

/-- A message from after the announcement, for the first time. -/
theorem RoomMember.first (hC : C.Lawful) {g : GroupStore} {n : SenderKeyName} {sent : List GroupSent}
    {heard : List SenderKeyDistributionMessage} {read : List (Bytes × Bytes)} {announced : SenderKeyDistributionMessage → Prop}
    (h : RoomMember g n sent heard read announced) {d d0 : SenderKeyDistributionMessage} {rest : List SenderKeyDistributionMessage}
    (hd : heard = d :: rest) {k : Nat} (hk : Described d0 k d) (h0 : d0.iteration = 0) (hn : Numbered d0 sent) {i : Nat}
    {y : GroupSent} (hy : sent[i]? = some y) (hi : k ≤ i) {b : Bytes} (hb : SameBody b y.bytes) {x : SenderKeyMessage}
    (hx : SenderKeyMessage.parse b = .ok x) (hv : x.verifySignature d0.signatureKey = .ok ()) (hr : ¬ HasRead sent read i) :
    (GroupCipher.decrypt g n b).result = .ok y.plaintext ∧
    MemberHolds ((GroupCall.decrypt n b).next g) n d (fun j => HasRead sent read j ∨ j = i) := by
  obtain ⟨hl, m, hm, hmi⟩ := hn i y hy
  obtain ⟨hg, hxi⟩ := (hm.later_on h0 hk (by omega)).resigned hb hl hx (by rw [hk.sig]; exact hv)
  obtain ⟨_, h1, _⟩ := h.holds d rest hd
  have e : x.iteration = i := by omega
  have := deliver_new hC h1 hg (by rw [e]; exact hr)
  rw [e] at this
  exact this

/-- A message from after the announcement, again. -/
theorem RoomMember.again {g : GroupStore} {n : SenderKeyName} {sent : List GroupSent}
    {heard : List SenderKeyDistributionMessage} {read : List (Bytes × Bytes)} {announced : SenderKeyDistributionMessage → Prop}
    (h : RoomMember g n sent heard read announced) {d d0 : SenderKeyDistributionMessage} {rest : List SenderKeyDistributionMessage}
    (hd : heard = d :: rest) {k : Nat} (hk : Described d0 k d) (h0 : d0.iteration = 0) (hn : Numbered d0 sent) {i : Nat}
    {y : GroupSent} (hy : sent[i]? = some y) (hi : k ≤ i) {b : Bytes} (hb : SameBody b y.bytes) {x : SenderKeyMessage}
    (hx : SenderKeyMessage.parse b = .ok x) (hv : x.verifySignature d0.signatureKey = .ok ()) (hr : HasRead sent read i) :
    GroupCipher.decrypt g n b = ⟨none, .error .duplicateMessage⟩ := by
  obtain ⟨hl, m, hm, hmi⟩ := hn i y hy
  obtain ⟨hg, hxi⟩ := (hm.later_on h0 hk (by omega)).resigned hb hl hx (by rw [hk.sig]; exact hv)
  obtain ⟨_, h1, _⟩ := h.holds d rest hd
  exact deliver_again h1 hg (by rw [hxi, hmi]; exact hr)

/-- Someone accepts a message. -/
theorem RoomRunning.decrypt (hC : C.Lawful) {owner : SenderKeyName → M} {S : M → GroupStore} {log : RoomLog M} {n : SenderKeyName}
    {d0 : SenderKeyDistributionMessage} (h : RoomRunning owner S log n d0) (m : M) {b pt : Bytes}
    (hsent : ∃ y ∈ sentUnder n log, SameBody b y.bytes) (hb : (GroupCipher.decrypt (S m) n b).result = .ok pt) :
    RoomRunning owner (fun x => if x = m then (GroupCall.decrypt n b).next (S m) else S x)
      (log ++ [⟨m, .decrypt n b, .ok (.bytes pt)⟩]) n d0 := by
  obtain ⟨y, hy, hby⟩ := hsent
  obtain ⟨i, hy⟩ := List.mem_iff_getElem?.1 hy
  obtain ⟨hl, m0, hm0, hmi⟩ := h.sent i y hy
  obtain ⟨x, s, j, pub, key, s', p1, p2, p3, p4, p5, p6, p7⟩ := GroupCipher.decrypt_ok hb
  obtain ⟨p2, _⟩ := SenderKeyRecord.getStateById_ok p2
  have hkid : x.keyId = d0.id := by
    rw [(hby.symm.parse hl hm0.parses p1).1]; exact hm0.keyId
  by_cases hown : m = owner n
  · exfalso
    subst hown
    obtain ⟨s0, hs0, ho⟩ := h.own
    have : s = s0 := by
      have := SenderKeyRecord.sendingState_stateFor hs0
      rw [ho.id, ← hkid] at this
      exact Option.some.inj (p2.symm.trans this)
    subst this
    rw [ho.pub h.slen] at p3
    cases p3
    rw [h.own_message hy hby p1 p4] at hb
    cases hb
  have hmem := h.member m hown
  cases hh : heardBy m n log with
  | nil =>
    exfalso
    unfold stateFor at p2
    rw [hmem.unheard hh] at p2
    cases p2
  | cons d rest =>
    obtain ⟨⟨k, hann⟩, ⟨s1, hs1, hs2⟩, hbef⟩ := hmem.holds d rest hh
    obtain ⟨hdesc, hk⟩ := h.announced k d hann
    have : s = s1 := by
      rw [hdesc.id, ← hkid] at hs1
      exact Option.some.inj (p2.symm.trans hs1)
    subst this
    rw [hs2.pub, hdesc.sig] at p3
    cases p3
    have hik : k ≤ i := by
      apply Nat.le_of_not_lt
      intro hik
      rw [hmem.early hh hdesc h.sent hy hik hby p1 p4] at hb
      cases hb
    have hnr : ¬ HasRead (sentUnder n log) (readBy m n log) i := by
      intro hr
      rw [hmem.again hh hdesc h.it h.sent hy hik hby p1 p4 hr] at hb
      cases hb
    obtain ⟨r1, r2⟩ := hmem.first hC hh hdesc h.it h.sent hy hik hby p1 p4 hnr
    rw [r1] at hb
    cases hb
    have e1 : sentUnder n (log ++ [(⟨m, .decrypt n b, .ok (.bytes y.plaintext)⟩ : RoomEntry M)]) = sentUnder n log := by
      rw [sentUnder_snoc]; exact List.append_nil _
    have e2 : ∀ z, heardBy z n (log ++ [(⟨m, .decrypt n b, .ok (.bytes y.plaintext)⟩ : RoomEntry M)]) = heardBy z n log := by
      intro z; rw [heardBy_snoc]; exact List.append_nil _
    have e3 : ∀ z, z ≠ m → readBy z n (log ++ [(⟨m, .decrypt n b, .ok (.bytes y.plaintext)⟩ : RoomEntry M)]) = readBy z n log := by
      intro z hz; rw [readBy_snoc]; simp [readBy, Ne.symm hz]
    have e3' : readBy m n (log ++ [(⟨m, .decrypt n b, .ok (.bytes y.plaintext)⟩ : RoomEntry M)]) =
        readBy m n log ++ [(b, y.plaintext)] := by
      rw [readBy_snoc]; simp [readBy]
    have e4 : ∀ k d', AnnouncedAt n (log ++ [(⟨m, .decrypt n b, .ok (.bytes y.plaintext)⟩ : RoomEntry M)]) k d' ↔
        AnnouncedAt n log k d' := by
      intro k d
      rw [announced_snoc]
      constructor
      · rintro (q | ⟨_, _, q, _⟩)
        · exact q
        · cases q
      · exact .inl
    refine ⟨h.id, h.it, h.klen, h.slen, by rw [e1]; exact h.small, ?_, ?_, by rw [e1]; exact h.sent,
      fun k d q => by rw [e4] at q; rw [e1]; exact h.announced k d q, ?_⟩
    · rw [e1, if_neg (Ne.symm hown)]; exact h.own
    · rw [e3 _ (Ne.symm hown)]; exact h.ownRead
    · intro z hz
      rw [e1, e2]
      by_cases hzm : z = m
      · subst hzm
        rw [e3', if_pos rfl]
        have hread : ∀ j, (HasRead (sentUnder n log) (readBy z n log) j ∨ j = i) ↔
            HasRead (sentUnder n log) (readBy z n log ++ [(b, y.plaintext)]) j := by
          intro j
          constructor
          · rintro (⟨w, p, q1, q2, q3⟩ | rfl)
            · exact ⟨w, p, q1, List.mem_append_left _ q2, q3⟩
            · exact ⟨y, _, hy, List.mem_append_right _ (List.mem_singleton.2 rfl), hby⟩
          · rintro ⟨w, p, q1, q2, q3⟩
            rcases List.mem_append.1 q2 with q2 | q2
            · exact .inl ⟨w, p, q1, q2, q3⟩
            · rw [List.mem_singleton.1 q2] at q3
              exact .inr (h.sent.same q1 hy (q3.symm.trans hby))
        refine ⟨?_, ?_, ?_, ?_, ?_⟩
        · have hrec := next_decrypt p7
          intro t ht
          rw [hrec] at ht
          rcases List.mem_or_eq_of_mem_set ht with ht | ht
          · exact hmem.noPriv t ht
          · subst ht
            obtain ⟨q, _⟩ := getSenderKey_step p5
            unfold SenderKeyState.getSigningKeyPrivate
            rw [q.signing]
            exact hs2.priv
        · intro q; rw [hh] at q; cases q
        · intro d1 rest1 q
          rw [hh] at q
          cases q
          refine ⟨⟨k, (e4 _ _).2 hann⟩, memberHolds_iff r2 rfl hread, ?_⟩
          obtain ⟨t, t1, t2⟩ := hbef
          obtain ⟨t', u1, u2⟩ := (next_record (S z) (.decrypt n b) n).keeps t1
          refine ⟨t', u1, ?_⟩
          rcases u2 with rfl | u2
          · exact t2
          · exact t2.step u2
        · intro p hp
          rcases List.mem_append.1 hp with hp | hp
          · exact hmem.reads p hp
          · rw [List.mem_singleton.1 hp]
            exact ⟨i, y, d, rest, hy, hby, rfl, hh, by rw [hdesc.it]; exact hik⟩
        · rw [List.pairwise_append]
          refine ⟨hmem.once, List.pairwise_singleton _ _, ?_⟩
          intro p hp q hq hpq
          rw [List.mem_singleton.1 hq] at hpq
          exact hnr ⟨y, p, hy, hp, hpq.trans hby⟩
      · rw [e3 z hzm, if_neg hzm]
        exact (h.member z hz).frame rfl (fun _ _ q => q) (fun _ => Iff.rfl) (fun d ⟨k, q⟩ => ⟨k, (e4 k d).2 q⟩)

theorem create_new_result {g : GroupStore} {n : SenderKeyName} {rnd : GroupSessionBuilder.CreateRand}
    (h : (g n).senderKeyStates = []) (h1 : rnd.keyId < 2 ^ 32) : (GroupSessionBuilder.create g n rnd).result =
      GroupSessionBuilder.wrapAssert (GroupSessionBuilder.distributionOf { senderKeyStates := [createdState rnd] }) := by
  rw [create_new h h1]

/-- The owner creates the sender key. -/
theorem RoomUntold.create (hC : C.Lawful) {owner : SenderKeyName → M} {S : M → GroupStore} {log : RoomLog M} {n : SenderKeyName}
    (h : RoomUntold S log n) {rnd : GroupSessionBuilder.CreateRand} (hk : rnd.keyId < 2 ^ 32) (hs : rnd.senderKey.length = 32)
    (hg : rnd.signSeed.length = 32) {d : SenderKeyDistributionMessage}
    (hd : (GroupSessionBuilder.create (S (owner n)) n rnd).result = .ok d) :
    RoomRunning owner (fun x => if x = owner n then (GroupCall.create n rnd).next (S (owner n)) else S x)
      (log ++ [⟨owner n, .create n rnd, .ok (.distribution d)⟩]) n d := by
  have hpub : (C.genPub (C.genPriv rnd.signSeed)).length = 32 := hC.genPub_len _ (hC.genPriv_len _ hg)
  obtain ⟨s, d', q1, q2, q3, q4, q5, q6, q7, q8, q9, q10⟩ :=
    C44_create_new (S (owner n)) n rnd hk (Nat.le_of_eq hpub) (h.states _)
  rw [q1] at hd
  cases hd
  have hnext := next_create_new (rnd := rnd) (h.states (owner n)) hk
  have e1 : sentUnder n (log ++ [(⟨owner n, .create n rnd, .ok (.distribution d)⟩ : RoomEntry M)]) = [] := by
    rw [sentUnder_snoc, h.sent]; rfl
  have e2 : ∀ x, heardBy x n (log ++ [(⟨owner n, .create n rnd, .ok (.distribution d)⟩ : RoomEntry M)]) = [] := by
    intro x; rw [heardBy_snoc, h.heard]; rfl
  have e3 : ∀ x, readBy x n (log ++ [(⟨owner n, .create n rnd, .ok (.distribution d)⟩ : RoomEntry M)]) = [] := by
    intro x; rw [readBy_snoc, h.read]; rfl
  have ho : OwnerState d 0 (createdState rnd) :=
    ⟨by rw [q7]; rfl, rfl, by rw [q9]; rfl, rfl, rnd.signSeed, hg, rfl, rfl, q10⟩
  have hsend : sendingState ({ senderKeyStates := [createdState rnd] } : SenderKeyRecord) = some (createdState rnd) := rfl
  have hklen : d.chainKey.length = 32 := by rw [q9]; exact hs
  have hslen : d.signatureKey.length = 32 := by rw [q10]; exact hpub
  refine ⟨by rw [q7]; exact hk, q8, hklen, hslen, by rw [e1]; exact Nat.two_pow_pos 32,
    ⟨createdState rnd, by rw [if_pos rfl, hnext]; exact hsend, by rw [e1]; exact ho⟩, e3 _, ?_, ?_, ?_⟩
  · rw [e1]; intro i x q; simp at q
  · intro k d' q
    rw [e1]
    rcases (announced_snoc _ _ _ _ _).1 q with q | ⟨rnd', d2, _, r2, r3, r4⟩
    · exact absurd q (h.announced k d')
    · cases r2
      rw [h.sent] at r4
      subst r4
      have q1 : GroupSessionBuilder.wrapAssert (GroupSessionBuilder.distributionOf { senderKeyStates := [createdState rnd] }) = .ok d := by
        rw [create_new_result (h.states _) hk] at q1
        exact q1
      exact ⟨ho.announces hC hklen hslen hsend q1 r3, Nat.le_refl _⟩
  · intro x hx
    rw [e1, e2, e3, if_neg hx]
    have hst := h.states x
    refine ⟨fun t ht => ?_, fun _ => hst, fun _ _ q => (nomatch q), fun _ q => (nomatch q), List.Pairwise.nil⟩
    rw [hst] at ht
    cases ht

/-- Every call keeps the invariant. -/
theorem RoomInv.step (hC : C.Lawful) {owner : SenderKeyName → M} {S : M → GroupStore} {log : RoomLog M} {n : SenderKeyName}
    (h : RoomInv owner S log n) (m : M) (c : GroupCall) (hc : RoomAllowed owner log m c (c.run (S m)).result) :
    RoomInv owner (fun x => if x = m then c.next (S m) else S x) (log ++ [⟨m, c, (c.run (S m)).result⟩]) n := by
  by_cases hn : c.name = n
  · cases c with
    | encrypt n' pt rand =>
      have hn : n' = n := hn
      subst hn
      rw [run_encrypt]
      cases hr : (GroupCipher.encrypt (S m) n' pt rand).result with
      | error e =>
        have e1 : (GroupCall.mapG GroupReply.bytes (GroupCipher.encrypt (S m) n' pt rand)).result = .error e := by
          unfold GroupCall.mapG; rw [hr]
        rw [e1]
        exact h.failed m _ e (by rw [next_encrypt_error (GroupCipher.encrypt_error hr)])
      | ok b =>
        have e1 : (GroupCall.mapG GroupReply.bytes (GroupCipher.encrypt (S m) n' pt rand)).result = .ok (.bytes b) := by
          unfold GroupCall.mapG; rw [hr]
        rw [e1]
        rcases h with h | ⟨d0, h⟩
        · obtain ⟨s, _, _, q, _⟩ := GroupCipher.encrypt_ok hr
          rw [sendingState_none.2 (h.states m)] at q
          cases q
        · exact .inr ⟨d0, (h.encrypt hC m hc.1 hc.2 hr).2⟩
    | decrypt n' b =>
      have hn : n' = n := hn
      subst hn
      rw [run_decrypt] at hc ⊢
      cases hr : (GroupCipher.decrypt (S m) n' b).result with
      | error e =>
        have e1 : (GroupCall.mapG GroupReply.bytes (GroupCipher.decrypt (S m) n' b)).result = .error e := by
          unfold GroupCall.mapG; rw [hr]
        rw [e1]
        exact h.failed m _ e (by rw [next_decrypt_error (GroupCipher.decrypt_error hr)])
      | ok pt =>
        have e1 : (GroupCall.mapG GroupReply.bytes (GroupCipher.decrypt (S m) n' b)).result = .ok (.bytes pt) := by
          unfold GroupCall.mapG; rw [hr]
        rw [e1] at hc ⊢
        have hs := hc _ rfl
        rcases h with h | ⟨d0, h⟩
        · obtain ⟨y, q, _⟩ := hs
          rw [h.sent] at q
          cases q
        · exact .inr ⟨d0, h.decrypt hC m hs hr⟩
    | process n' d =>
      have hn : n' = n := hn
      subst hn
      rcases h with h | ⟨d0, h⟩
      · obtain ⟨k, q⟩ := hc
        exact absurd q (h.announced k d)
      · obtain ⟨k, q⟩ := hc
        obtain ⟨q1, q2⟩ := h.announced k d q
        have e1 : ((GroupCall.process n' d).run (S m)).result = .ok .done := by
          rw [run_process, process_good (by rw [q1.id]; exact h.id) (by rw [q1.it]; exact Nat.lt_of_le_of_lt q2 h.small)]
          rfl
        rw [e1]
        exact .inr ⟨d0, h.process hC m ⟨k, q⟩⟩
    | create n' rnd =>
      have hn : n' = n := hn
      subst hn
      obtain ⟨hm, hc2, hc3⟩ := hc
      subst hm
      rw [run_create]
      cases hr : (GroupSessionBuilder.create (S (owner n')) n' rnd).result with
      | error e =>
        have e1 : (GroupCall.mapG GroupReply.distribution (GroupSessionBuilder.create (S (owner n')) n' rnd)).result = .error e := by
          unfold GroupCall.mapG; rw [hr]
        rw [e1]
        refine h.failed _ _ e ?_
        by_cases hne : (S (owner n') n').senderKeyStates = []
        · by_cases hk : rnd.keyId < 2 ^ 32
          · obtain ⟨_, _, q, _⟩ := C44_create_new (S (owner n')) n' rnd hk
              (Nat.le_of_eq (hC.genPub_len _ (hC.genPriv_len _ hc3))) hne
            rw [q] at hr
            cases hr
          · rw [next_create_bad hne hk]
        · rw [next_create_again hne]
      | ok d =>
        have e1 : (GroupCall.mapG GroupReply.distribution (GroupSessionBuilder.create (S (owner n')) n' rnd)).result
            = .ok (.distribution d) := by
          unfold GroupCall.mapG; rw [hr]
        rw [e1]
        rcases h with h | ⟨d0, h⟩
        · by_cases hk : rnd.keyId < 2 ^ 32
          · exact .inr ⟨d, h.create hC hk hc2 hc3 hr⟩
          · rw [create_bad (h.states _) hk] at hr
            cases hr
        · exact .inr ⟨d0, h.create hC hr⟩
  · exact h.other m c _ hn

/-- The invariant holds whatever happens. -/
theorem Spec.RoomReach.inv (hC : C.Lawful) {owner : SenderKeyName → M} {S : M → GroupStore} {log : RoomLog M}
    (h : RoomReach owner S log) (n : SenderKeyName) : RoomInv owner S log n := by
  induction h with
  | start => exact .inl ⟨fun _ => rfl, rfl, fun _ => rfl, fun _ => rfl, fun k d ⟨pre, e, post, _, _, q, _⟩ => by simp at q⟩
  | call m c _ hc ih => exact ih.step hC m c hc

end
end Axolotl
