import Verif.Proofs.Active

/-! # C86: conversations with an attacker on the network -/

namespace Axolotl
section
variable [C : Crypto]
open SessionState SessionBuilder RatchetingSession
open Spec (Net Conv Step Start header AStep ASteps Attack Recorded InnerBytes)

/-- What holds at every moment of such a conversation. -/
structure AInv (cv : Conv) (n : Net) : Prop where
  conv : ∃ ids, (∀ b, (n.world b).identityKeyPair.pub = ids b) ∧ ConvAt .v3 ids cv n
  nodup : ∀ b, (n.accepted b).Nodup

omit C in
theorem upd_nodup {acc : Bool → List Nat} {b : Bool} {l : List Nat} (h : ∀ a, (acc a).Nodup) (hl : l.Nodup) (a : Bool) :
    (upd acc b l a).Nodup := by
  by_cases hab : a = b
  · subst hab
    rw [upd_same]
    exact hl
  · rw [upd_other _ _ hab]
    exact h a

omit C in
theorem nodup_snoc {l : List Nat} {i : Nat} (h : l.Nodup) (hi : i ∉ l) : (l ++ [i]).Nodup := by
  rw [List.nodup_append]
  exact ⟨h, by simp, fun a ha b hb => by rintro rfl; exact hi (by rwa [List.mem_singleton.1 hb] at ha)⟩

theorem start_ainv (hC : C.Lawful) {cv : Conv} {n : Net} (h : Start cv n) : AInv cv n := by
  obtain ⟨ids, h1, h2⟩ := start_at hC h
  refine ⟨⟨ids, h1, h2⟩, ?_⟩
  intro b
  cases h <;> exact List.nodup_nil

/-- What the attacker's delivery does, and how it is put down. -/
theorem attack_recorded (hC : C.Lawful) {cv : Conv} {n : Net} (h : AInv cv n) {b : Bool} {type : Nat} {bytes seed : Bytes}
    {seeds : Nat → Bytes} (ha : Attack cv n b type bytes) (hs1 : seed.length = 32) (hs2 : (seeds 0).length = 32)
    (hf1 : C.genPub (C.genPriv seed) ∉ n.keys) (hf2 : C.genPub (C.genPriv (seeds 0)) ∉ n.keys) :
    let o := Spec.receive (n.world b) (cv.addr b) type bytes seed seeds
    (∀ pt, o.result = .ok pt → ∃ (i : Nat) (c : Ciphertext), (n.sent (!b))[i]? = some (c, pt) ∧ i ∉ n.accepted b ∧
      InnerBytes type bytes c.inner.serialized) ∧
    (∀ acc, Recorded n b type bytes o.result acc → AInv cv { n with
      world := upd n.world b (o.final (n.world b)), accepted := upd n.accepted b acc,
      keys := C.genPub (C.genPriv seed) :: C.genPub (C.genPriv (seeds 0)) :: n.keys }) ∧
    ∃ acc, Recorded n b type bytes o.result acc := by
  intro o
  obtain ⟨⟨ids, hid, hc⟩, hn⟩ := h
  have hat := conv_attack hC hc hid ha hs1 hs2 hf1 hf2
  have hidf : ∀ a, (upd n.world b (o.final (n.world b)) a).identityKeyPair.pub = ids a := upd_identity hid (final_identity _ _)
  refine ⟨fun pt hpt => ?_, ?_, ?_⟩
  · obtain ⟨i, c, h1, h2, h3, _⟩ := hat.taken pt hpt
    exact ⟨i, c, h1, h2, h3⟩
  · intro acc hacc
    cases ho : o.result with
    | error e =>
      rw [ho] at hacc
      cases hacc
      obtain ⟨h1, _⟩ := hat.refused e ho
      rw [show upd n.accepted b (n.accepted b) = n.accepted by
        funext a
        unfold upd
        split
        · rename_i e; rw [e]
        · rfl]
      exact ⟨⟨ids, hidf, h1⟩, hn⟩
    | ok pt =>
      rw [ho] at hacc
      cases hacc with
      | @taken j c' pt' _ hj hin =>
        obtain ⟨i, c, h1, h2, h3, h4⟩ := hat.taken pt ho
        obtain ⟨hd, g, hg, hw⟩ := hc
        have hsame : c.inner.serialized = c'.inner.serialized := by
          unfold InnerBytes at h3 hin
          split at h3
          · rename_i ht
            rw [if_pos ht] at hin
            obtain ⟨m, p1, p2⟩ := h3
            obtain ⟨m', p3, p4⟩ := hin
            rw [p1] at p3
            obtain rfl := Except.ok.inj p3
            rw [← p2, ← p4]
          · rename_i ht
            rw [if_neg ht] at hin
            rw [← h3, ← hin]
        obtain rfl := hg.unique hw h1 hj hsame
        exact ⟨⟨ids, hidf, h4⟩, upd_nodup hn (nodup_snoc (hn b) h2)⟩
  · cases ho : o.result with
    | error e => exact ⟨_, .refused⟩
    | ok pt =>
      obtain ⟨i, c, h1, h2, h3, _⟩ := hat.taken pt ho
      exact ⟨_, .taken h1 h3⟩

theorem asteps_inv (hC : C.Lawful) {cv : Conv} {n m : Net} (h : ASteps cv n m) (hn : AInv cv n) : AInv cv m := by
  induction h with
  | refl => exact hn
  | step _ hs ih =>
    cases hs with
    | honest hs =>
      obtain ⟨⟨ids, hid, hc⟩, hnd⟩ := ih
      cases hs with
      | send h1 h2 h3 => exact ⟨⟨ids, upd_identity hid (final_identity _ _), conv_send_at hC hc h1 h2 h3⟩, hnd⟩
      | deliver h1 h2 h3 h4 h5 =>
        refine ⟨⟨ids, upd_identity hid (final_identity _ _), (conv_deliver_at hC hc _ h1 h2 h3 h4 h5).1⟩, upd_nodup hnd ?_⟩
        split
        · exact hnd _
        · rename_i hi; exact nodup_snoc (hnd _) hi
      | @other b call h1 h2 h3 =>
        exact ⟨⟨ids, upd_identity hid (C30_isolation _ call).2.2.2.1, conv_other_at hc h1 (h2.imp id fun q _ => by rw [← hid]; exact q) h3⟩, hnd⟩
    | attack h1 h2 h3 h4 h5 h6 => exact (attack_recorded hC ih h1 h2 h3 h4 h5).2.1 _ h6

/-- **C86, what is accepted.** In a conversation with an attacker who cannot forge a MAC, whatever they deliver at any moment, as a
message of either type: if it is accepted, then the plaintext is that of a message which the peer sent and which was not accepted
before, and the session message in what they delivered is that of the peer, byte for byte. -/
theorem C86_only_sent (hC : C.Lawful) {cv : Conv} {n0 n : Net} (h0 : Start cv n0) (h : ASteps cv n0 n) {b : Bool} {type : Nat}
    {bytes seed : Bytes} {seeds : Nat → Bytes} (ha : Attack cv n b type bytes) (hs1 : seed.length = 32) (hs2 : (seeds 0).length = 32)
    (hf1 : C.genPub (C.genPriv seed) ∉ n.keys) (hf2 : C.genPub (C.genPriv (seeds 0)) ∉ n.keys) {pt : Bytes}
    (hok : (Spec.receive (n.world b) (cv.addr b) type bytes seed seeds).result = .ok pt) :
    ∃ (i : Nat) (c : Ciphertext), (n.sent (!b))[i]? = some (c, pt) ∧ i ∉ n.accepted b ∧
      InnerBytes type bytes c.inner.serialized :=
  (attack_recorded hC (asteps_inv hC h (start_ainv hC h0)) ha hs1 hs2 hf1 hf2).1 pt hok

/-- **C86, what is refused.** Then no session and no prekey changes, and no identity key is saved but the peer's own. -/
theorem C86_refused (hC : C.Lawful) {cv : Conv} {n0 n : Net} (h0 : Start cv n0) (h : ASteps cv n0 n) {b : Bool} {type : Nat}
    {bytes seed : Bytes} {seeds : Nat → Bytes} (ha : Attack cv n b type bytes) (hs1 : seed.length = 32) (hs2 : (seeds 0).length = 32)
    (hf1 : C.genPub (C.genPriv seed) ∉ n.keys) (hf2 : C.genPub (C.genPriv (seeds 0)) ∉ n.keys) {e : Err}
    (he : (Spec.receive (n.world b) (cv.addr b) type bytes seed seeds).result = .error e) :
    let w := (Spec.receive (n.world b) (cv.addr b) type bytes seed seeds).final (n.world b)
    w.sessions = (n.world b).sessions ∧ w.preKeys = (n.world b).preKeys ∧
    ∀ name, w.identities name = (n.world b).identities name ∨
      name = (cv.addr b).1 ∧ w.identities name = some (n.world (!b)).identityKeyPair.pub := by
  intro w
  obtain ⟨⟨ids, hid, hc⟩, _⟩ := asteps_inv hC h (start_ainv hC h0)
  obtain ⟨_, h2, h3, h4⟩ := (conv_attack hC hc hid ha hs1 hs2 hf1 hf2).refused e he
  exact ⟨h2, h3, fun name => by rw [hid]; exact h4 name⟩

/-- **C86, messages get through.** However the attacker interfered, the conversation goes on as without them (C37): a message not
yet accepted decrypts to exactly what was encrypted, and one already accepted is refused as a duplicate. -/
theorem C86_conversation (hC : C.Lawful) {cv : Conv} {n0 n : Net} (h0 : Start cv n0) (h : ASteps cv n0 n)
    {b : Bool} {i : Nat} {c : Ciphertext} {pt : Bytes} (hi : (n.sent (!b))[i]? = some (c, pt))
    {seed : Bytes} (hseed : seed.length = 32) (hfresh : C.genPub (C.genPriv seed) ∉ n.keys) (seeds : Nat → Bytes) :
    let o := Spec.receive (n.world b) (cv.addr b) c.getType c.serialize seed seeds
    (i ∉ n.accepted b → n.inLimits cv b (header c) → o.result = .ok pt) ∧
    (i ∈ n.accepted b → n.remembered cv b (header c) →
      o.result = .error .duplicateMessage ∧ (o.final (n.world b)).sessions = (n.world b).sessions ∧
      (o.final (n.world b)).preKeys = (n.world b).preKeys) := by
  obtain ⟨⟨ids, _, hc⟩, _⟩ := asteps_inv hC h (start_ainv hC h0)
  intro o
  constructor
  · intro ha hl
    exact (conv_deliver_at hC hc seeds hi (fun _ => hl) (fun x => absurd x ha) hseed hfresh).2.1 ha
  · intro ha hr
    exact (conv_deliver_at hC hc seeds hi (fun x => absurd ha x) (fun _ => hr) hseed hfresh).2.2 ha

/-- **C86, sending.** And each side can go on sending, up to the last counter value. -/
theorem C86_can_send (hC : C.Lawful) {cv : Conv} {n0 n : Net} (h0 : Start cv n0) (h : ASteps cv n0 n) {b : Bool}
    (hb : cv.waits = true → b = false → n.accepted false ≠ []) {r : SessionRecord}
    (hr : (n.world b).sessions (cv.addr b) = some r) {pt : Bytes} (hpt : pt.length < 2 ^ 62) :
    (∃ c, (SessionCipher.encrypt (n.world b) (cv.addr b) pt).result = .ok c) ↔
      ∃ s k, r.sessionState.senderChain = some s ∧ s.chainKey = some k ∧ (k.index.getD 0) + 1 < 2 ^ 32 := by
  obtain ⟨⟨ids, _, hc⟩, _⟩ := asteps_inv hC h (start_ainv hC h0)
  exact conv_can_send hC hc hb hr hpt

/-- **C86, once.** No message is accepted twice, in whatever wrapping. -/
theorem C86_once (hC : C.Lawful) {cv : Conv} {n0 n : Net} (h0 : Start cv n0) (h : ASteps cv n0 n) (b : Bool) :
    (n.accepted b).Nodup ∧ ∀ i ∈ n.accepted b, i < (n.sent (!b)).length := by
  obtain ⟨⟨ids, _, hd, g, hg, _⟩, hn⟩ := asteps_inv hC h (start_ainv hC h0)
  exact ⟨hn b, hg.valid b⟩

/-- **C86, every attack is a step.** Whatever the attacker may deliver, the conversation with the attacker has a next moment. -/
theorem C86_next (hC : C.Lawful) {cv : Conv} {n0 n : Net} (h0 : Start cv n0) (h : ASteps cv n0 n) {b : Bool} {type : Nat}
    {bytes seed : Bytes} {seeds : Nat → Bytes} (ha : Attack cv n b type bytes) (hs1 : seed.length = 32) (hs2 : (seeds 0).length = 32)
    (hf1 : C.genPub (C.genPriv seed) ∉ n.keys) (hf2 : C.genPub (C.genPriv (seeds 0)) ∉ n.keys) :
    ∃ n', AStep cv n n' ∧ n'.sent = n.sent ∧
      n'.world = upd n.world b ((Spec.receive (n.world b) (cv.addr b) type bytes seed seeds).final (n.world b)) := by
  obtain ⟨acc, hacc⟩ := (attack_recorded hC (asteps_inv hC h (start_ainv hC h0)) ha hs1 hs2 hf1 hf2).2.2
  exact ⟨_, .attack ha hs1 hs2 hf1 hf2 hacc, rfl, rfl⟩

/-! ## Checking an attack by computation -/

/-- All MAC keys that a state offers for a message. -/
def macKeys (s : SessionState) (eph : ECPub) (k : Nat) : List Bytes :=
  (s.receiverChains.flatMap fun c =>
    if Curve.decodePoint (c.senderRatchetKey.getD []) = .ok eph then
      (c.messageKeys.filter fun e => e.index.getD 0 = k).map (fun e => e.macKey.getD []) ++
        [Spec.macKeyOf (Spec.chainAt ((c.chainKey.getD {}).key.getD []) (k - (c.chainKey.getD {}).index.getD 0))]
    else []) ++
  match s.senderChain with
  | none => []
  | some c =>
    match C.dh (c.senderRatchetKeyPrivate.getD []) eph with
    | none => []
    | some secret => [Spec.macKeyOf (Spec.chainAt (Spec.ratchetChain (s.rootKey.getD []) secret) k)]

theorem mem_macKeys {s : SessionState} {eph : ECPub} {k : Nat} {x : Bytes} (h : Spec.MacKey s eph k x) : x ∈ macKeys s eph k := by
  unfold macKeys
  cases h with
  | stored h1 h2 h3 h4 =>
    refine List.mem_append_left _ (List.mem_flatMap.2 ⟨_, h1, ?_⟩)
    rw [if_pos h2]
    exact List.mem_append_left _ (List.mem_map.2 ⟨_, List.mem_filter.2 ⟨h3, by simpa using h4⟩, rfl⟩)
  | ahead h1 h2 h3 h4 =>
    refine List.mem_append_left _ (List.mem_flatMap.2 ⟨_, h1, ?_⟩)
    rw [if_pos h2, h3]
    exact List.mem_append_right _ (List.mem_singleton.2 rfl)
  | ratchet h1 h2 =>
    refine List.mem_append_right _ ?_
    rw [h1]
    simp only
    rw [h2]
    exact List.mem_singleton.2 rfl

def verifiesB (s : SessionState) (m : WhisperMessage) : Bool :=
  match Curve.decodePoint (s.remoteIdentityPublic.getD []), Curve.decodePoint (s.localIdentityPublic.getD []) with
  | .ok them, .ok me =>
    (macKeys s m.senderRatchetKey m.counter).any fun k =>
      m.serialized.drop (m.serialized.length - 8) =
        (C.hmac k ((5 :: them) ++ (5 :: me) ++ m.serialized.take (m.serialized.length - 8))).take 8
  | _, _ => false

theorem verifiesB_of (hC : C.Lawful) {s : SessionState} {m : WhisperMessage} (h : Spec.Verifies s m) : verifiesB s m = true := by
  obtain ⟨k, them, me, body, h1, h2, h3, h4⟩ := h
  unfold verifiesB
  rw [KeyOf_iff.1 h2, KeyOf_iff.1 h3]
  simp only
  rw [List.any_eq_true]
  refine ⟨k, mem_macKeys h1, ?_⟩
  have hl : ((C.hmac k ((5 :: them) ++ (5 :: me) ++ body)).take 8).length = 8 := by
    rw [List.length_take, hC.hmac_len]
    rfl
  have hlen : m.serialized.length - 8 = body.length := by
    rw [h4, List.length_append, hl]
    omega
  rw [hlen, h4, List.drop_left, List.take_left]
  simp

def rejectsB (m : WhisperMessage) (s : SessionState) : Bool :=
  (!s.senderChain.isSome || decide (s.sessionVersion = some 3)) && !verifiesB s m

theorem rejects_of (hC : C.Lawful) {s : SessionState} {m : WhisperMessage} (h : rejectsB m s = true) : Spec.Rejects m s := by
  unfold rejectsB at h
  rw [Bool.and_eq_true] at h
  refine ⟨fun hs => ?_, fun hv => ?_⟩
  · have := h.1
    rw [hs] at this
    simpa using this
  · rw [verifiesB_of hC hv] at h
    cases h.2

/-- The state that a prekey message sets up. -/
def setUpOf (w : World) (m : PreKeyWhisperMessage) : Option SessionState := do
  let signed ← w.signedPreKeys m.signedPreKeyId
  let spk ← (Curve.decodePoint (signed.publicKey.getD [])).toOption
  let otk ← match m.preKeyId with
    | none => some none
    | some i => (w.preKeys i).map fun p => some (p.privateKey.getD [])
  let d1 ← C.dh (signed.privateKey.getD []) m.identityKey
  let d2 ← C.dh w.identityKeyPair.priv m.baseKey
  let d3 ← C.dh (signed.privateKey.getD []) m.baseKey
  let d4 ← match otk with
    | none => some []
    | some k => C.dh k m.baseKey
  some { Spec.answererState w.identityKeyPair.pub m.identityKey
      (Spec.hkdf [] (List.replicate 32 0xFF ++ d1 ++ d2 ++ d3 ++ d4) Spec.textInfo 64) ⟨spk, signed.privateKey.getD []⟩ with
    localRegistrationId := some w.registrationId.toNat
    remoteRegistrationId := some m.registrationId
    aliceBaseKey := some (5 :: m.baseKey) }

theorem setUpOf_of {w : World} {m : PreKeyWhisperMessage} {s : SessionState} (h : Spec.SetUp w m s) : setUpOf w m = some s := by
  obtain ⟨signed, spk, otk, okm, lr, h1, ⟨h2, h2'⟩, h3, h4, ⟨d1, d2, d3, d4, e1, e2, e3, e4, rfl⟩, h6, rfl⟩ := h
  unfold setUpOf
  rw [h1]
  simp only [Option.bind_eq_bind, Option.bind_some, KeyOf_iff.1 h2, Except.toOption]
  rw [h2', e1, e2, e3, h6]
  obtain ⟨pub, priv⟩ := spk
  cases hp : m.preKeyId with
  | none =>
    obtain rfl := h3 hp
    simp only [Option.map_none, Option.elim_none] at e4
    subst e4
    rfl
  | some i =>
    obtain ⟨p, k, g1, ⟨_, g2⟩, rfl⟩ := h4 i hp
    simp only [Option.map_some, Option.elim_some] at e4
    simp only [g1, Option.map_some, Option.bind_some, g2, e4]
    rfl

def joinedB (cv : Conv) (n : Net) (b : Bool) : Bool := !cv.waits || b || !(n.accepted false).isEmpty

omit C in
theorem joinedB_iff {cv : Conv} {n : Net} {b : Bool} : joinedB cv n b = true ↔ n.joined cv b := by
  unfold joinedB Net.joined
  cases cv.waits <;> cases b <;> cases n.accepted false <;> simp

def fromPeer (cv : Conv) (n : Net) (b : Bool) (m : WhisperMessage) : Bool :=
  (List.range (n.sent (!b)).length).any fun i =>
    (n.sent (!b))[i]?.any fun x => x.1.inner.serialized == m.serialized &&
      decide (i ∉ n.accepted b → n.inLimits cv b (header x.1)) && decide (i ∈ n.accepted b → n.remembered cv b (header x.1))

def unforgedB (cv : Conv) (n : Net) (b : Bool) (m : WhisperMessage) : Bool :=
  match (n.world b).sessions (cv.addr b) with
  | none => true
  | some r =>
    (if joinedB cv n b then !verifiesB r.sessionState m || fromPeer cv n b m else rejectsB m r.sessionState) &&
      r.previousStates.all (rejectsB m)

theorem unforged_of (hC : C.Lawful) {cv : Conv} {n : Net} {b : Bool} {m : WhisperMessage} (h : unforgedB cv n b m = true) :
    Spec.Unforged cv n b m := by
  unfold unforgedB at h
  refine ⟨?_, ?_, ?_⟩
  all_goals
    intro r
  · intro hj hr hv
    rw [hr] at h
    simp only [Bool.and_eq_true] at h
    rw [if_pos (joinedB_iff.2 hj), verifiesB_of hC hv, Bool.not_true, Bool.false_or] at h
    obtain ⟨i, _, hi⟩ := List.any_eq_true.1 h.1
    obtain ⟨⟨c, pt⟩, hx, hi⟩ := (Option.any_eq_true _ _).1 hi
    simp only [Bool.and_eq_true, decide_eq_true_eq, beq_iff_eq] at hi
    exact ⟨i, c, pt, hx, hi.1.1, hi.1.2, hi.2⟩
  · intro hj hr
    rw [hr] at h
    simp only [Bool.and_eq_true] at h
    rw [if_neg (fun x => hj (joinedB_iff.1 x))] at h
    exact rejects_of hC h.1
  · intro hr s hs
    rw [hr] at h
    simp only [Bool.and_eq_true] at h
    exact rejects_of hC (List.all_eq_true.1 h.2 s hs)

def unforgedSetupB (cv : Conv) (n : Net) (b : Bool) (m : PreKeyWhisperMessage) : Bool :=
  unforgedB cv n b m.message && (!(n.world b).isTrusted (cv.addr b).1 m.identityKey ||
    decide (m.identityKey = (n.world (!b)).identityKeyPair.pub) && (setUpOf (n.world b) m).all fun s => !verifiesB s m.message)

theorem unforgedSetup_of (hC : C.Lawful) {cv : Conv} {n : Net} {b : Bool} {m : PreKeyWhisperMessage}
    (h : unforgedSetupB cv n b m = true) : Spec.UnforgedSetup cv n b m := by
  unfold unforgedSetupB at h
  simp only [Bool.and_eq_true, Bool.or_eq_true, decide_eq_true_eq] at h
  have h2 : (n.world b).isTrusted (cv.addr b).1 m.identityKey = true → _ := fun ht => h.2.resolve_left (by rw [ht]; simp)
  refine ⟨unforged_of hC h.1, fun ht => (h2 ht).1, fun ht _ s hs hv => ?_⟩
  have := (h2 ht).2
  rw [setUpOf_of hs, Option.all_some, verifiesB_of hC hv] at this
  cases this

def attackB (cv : Conv) (n : Net) (b : Bool) (type : Nat) (bytes : Bytes) : Bool :=
  if type = 3 then
    match PreKeyWhisperMessage.parse bytes with
    | .error _ => true
    | .ok m => unforgedSetupB cv n b m
  else
    match WhisperMessage.parse bytes with
    | .error _ => true
    | .ok m => unforgedB cv n b m

theorem attack_of (hC : C.Lawful) {cv : Conv} {n : Net} {b : Bool} {type : Nat} {bytes : Bytes}
    (h : attackB cv n b type bytes = true) : Attack cv n b type bytes := by
  unfold attackB at h
  unfold Attack
  split
  · rename_i ht
    rw [if_pos ht] at h
    intro m hm
    rw [hm] at h
    exact unforgedSetup_of hC h
  · rename_i ht
    rw [if_neg ht] at h
    intro m hm
    rw [hm] at h
    exact unforged_of hC h

def innerOf (type : Nat) (bytes : Bytes) : Bytes :=
  if type = 3 then
    match PreKeyWhisperMessage.parse bytes with
    | .error _ => []
    | .ok m => m.message.serialized
  else bytes

/-- An attack as a function. -/
def convAttack (cv : Conv) (n : Net) (b : Bool) (type : Nat) (bytes seed seed0 : Bytes) : Option Net :=
  let o := Spec.receive (n.world b) (cv.addr b) type bytes seed (fun _ => seed0)
  if attackB cv n b type bytes = true ∧ seed.length = 32 ∧ seed0.length = 32 ∧ C.genPub (C.genPriv seed) ∉ n.keys ∧
      C.genPub (C.genPriv seed0) ∉ n.keys then
    (match o.result with
      | .error _ => some (n.accepted b)
      | .ok _ => ((List.range (n.sent (!b)).length).find? fun i =>
          (n.sent (!b))[i]?.any fun (x : Ciphertext × Bytes) => x.1.inner.serialized == innerOf type bytes &&
            decide (type = 3 → (PreKeyWhisperMessage.parse bytes).toOption.isSome)).map
            fun i => n.accepted b ++ [i]).map fun acc =>
      { n with
        world := upd n.world b (o.final (n.world b)), accepted := upd n.accepted b acc,
        keys := C.genPub (C.genPriv seed) :: C.genPub (C.genPriv seed0) :: n.keys }
  else none

theorem convAttack_spec (hC : C.Lawful) {cv : Conv} {n n' : Net} {b : Bool} {type : Nat} {bytes seed seed0 : Bytes}
    (h : convAttack cv n b type bytes seed seed0 = some n') :
    ∃ acc, n' = { n with
        world := upd n.world b ((Spec.receive (n.world b) (cv.addr b) type bytes seed (fun _ => seed0)).final (n.world b)),
        accepted := upd n.accepted b acc, keys := C.genPub (C.genPriv seed) :: C.genPub (C.genPriv seed0) :: n.keys } ∧
      Attack cv n b type bytes ∧ seed.length = 32 ∧ seed0.length = 32 ∧
      C.genPub (C.genPriv seed) ∉ n.keys ∧ C.genPub (C.genPriv seed0) ∉ n.keys ∧
      Recorded n b type bytes (Spec.receive (n.world b) (cv.addr b) type bytes seed (fun _ => seed0)).result acc := by
  unfold convAttack at h
  simp only at h
  split at h
  · rename_i hc
    obtain ⟨acc, hacc, rfl⟩ := Option.map_eq_some_iff.1 h
    refine ⟨acc, rfl, attack_of hC hc.1, hc.2.1, hc.2.2.1, hc.2.2.2.1, hc.2.2.2.2, ?_⟩
    cases ho : (Spec.receive (n.world b) (cv.addr b) type bytes seed fun _ => seed0).result with
    | error e =>
      rw [ho] at hacc
      obtain rfl := Option.some.inj hacc
      exact .refused
    | ok pt =>
      rw [ho] at hacc
      obtain ⟨i, hi, rfl⟩ := Option.map_eq_some_iff.1 hacc
      have hi := List.find?_some hi
      obtain ⟨⟨c, pt'⟩, hx, hi⟩ := (Option.any_eq_true _ _).1 hi
      simp only [Bool.and_eq_true, decide_eq_true_eq, beq_iff_eq] at hi
      refine .taken hx ?_
      unfold InnerBytes
      unfold innerOf at hi
      split
      · rename_i ht
        rw [if_pos ht] at hi
        cases hp : PreKeyWhisperMessage.parse bytes with
        | error e => rw [hp] at hi; cases hi.2 ht
        | ok m => rw [hp] at hi; exact ⟨m, rfl, hi.1.symm⟩
      · rename_i ht
        rw [if_neg ht] at hi
        exact hi.1.symm
  · cases h

theorem convAttack_step (hC : C.Lawful) {cv : Conv} {n n' : Net} {b : Bool} {type : Nat} {bytes seed seed0 : Bytes}
    (h : convAttack cv n b type bytes seed seed0 = some n') : AStep cv n n' := by
  obtain ⟨acc, rfl, h1, h2, h3, h4, h5, h6⟩ := convAttack_spec hC h
  exact AStep.attack h1 h2 h3 h4 h5 h6

end

/-! ## Non-vacuity: a run over the toy primitives -/

section
attribute [local instance] toy
open Example
open Spec (Net Conv Step Start header AStep ASteps)

/-- Bob with another one-time prekey. -/
def bobTwo : World :=
  { bob0 with preKeys := fun i => if i = 32 then (PreKeyRecord.mk' 32 (pair 32)).toOption else bob0.preKeys i }

def act0 : Net :=
  { world := fun s =>
      if s then (SessionBuilder.processPreKeyBundle alice0 bobAddr bobBundle (key 41) (key 42)).final alice0 else bobTwo,
    sent := fun _ => [], accepted := fun _ => [],
    keys := [(pair 22).pub, toy.genPub (toy.genPriv (key 42))] }

theorem act_start : Start convCv act0 :=
  have hp := contact_example.published
  Start.bundle (wA := alice0) (wB := bobTwo) (ab := bobAddr) (ba := aliceAddr) (b := bobBundle) (spkId := 22)
    (otId := 31) (spk := pair 22) (otk := pair 31) (baseSeed := key 41) (ratchetSeed := key 42)
    contact_example.self
    ⟨hp.identity, hp.goodIdentity, hp.signedKey, hp.signedId, hp.signedRange, hp.signedStored, hp.goodSigned, hp.signature,
      hp.oneTime, (by
        intro p h
        obtain ⟨h1, h2, h3, h4⟩ := hp.oneTimeStored p h
        obtain rfl := Option.some.inj h
        exact ⟨h1, h2, h3, h4⟩), hp.registration, hp.registrationRange⟩
    contact_example.trustA
    (by
      intro saved h
      show tofu saved _ _ = true
      unfold tofu
      rcases h with h | h
      · rw [h]
      · rw [h]; simp)
    (Or.inl rfl) rfl rfl (by intro r hr; cases hr) (by decide)

def lastByteChanged (b : Bytes) : Bytes := b.dropLast ++ [b.getLastD 0 + 1]

/-- The session message of a prekey message in another prekey message. -/
def wrapped (pk : Option Nat) (base : ECPub) (inner : Bytes) (identity : ECPub := key 1) : Bytes :=
  match WhisperMessage.parse inner with
  | .error _ => []
  | .ok m =>
    match PreKeyWhisperMessage.create 3 11 pk 22 base identity m with
    | .error _ => []
    | .ok p => p.serialized

def sentInner (n : Net) (b : Bool) (i : Nat) : Bytes := ((n.sent b)[i]?.map fun x => x.1.inner.serialized).getD []

/-- Alice sends two messages.  The attacker delivers the first one with the last byte of its MAC changed, then Bob gets the second
one.  The attacker delivers a setup message of their own, under an identity key of their own.  The attacker wraps the session message of the first one into a prekey message with a base key of their own and with Bob's
other prekey: Bob accepts it.  Bob replies; the attacker delivers to Alice the reply with a byte changed, and then the reply. -/
def actRun : Option Net :=
  (convSend convCv act0 true [104, 105]).bind fun n => (convSend convCv n true [104, 111]).bind fun n =>
    (convAttack convCv n false 3 (wrapped (some 31) (key 41) (lastByteChanged (sentInner n true 0))) (key 51) (key 52)).bind fun n =>
    (convDeliver convCv n false 1 (key 53)).bind fun n =>
    (convAttack convCv n false 3 (wrapped (some 32) (key 78) (sentInner n true 0) (key 66)) (key 60) (key 61)).bind fun n =>
    (convAttack convCv n false 3 (wrapped (some 32) (key 77) (sentInner n true 0)) (key 54) (key 55)).bind fun n =>
    (convSend convCv n false [121, 111]).bind fun n =>
    (convAttack convCv n true 2 (lastByteChanged (sentInner n false 0)) (key 56) (key 57)).bind fun n =>
    convAttack convCv n true 2 (sentInner n false 0) (key 58) (key 59)

theorem actRun_steps {n : Net} (h : actRun = some n) : ASteps convCv act0 n := by
  unfold actRun at h
  simp only [Option.bind_eq_some_iff] at h
  obtain ⟨a1, h1, a2, h2, a3, h3, a4, h4, a9, h9, a5, h5, a6, h6, a7, h7, h8⟩ := h
  exact ((((((((ASteps.refl.step (.honest (convSend_step h1))).step (.honest (convSend_step h2))).step
    (convAttack_step toy_lawful h3)).step (.honest (convDeliver_step h4))).step
    (convAttack_step toy_lawful h9)).step (convAttack_step toy_lawful h5)).step
    (.honest (convSend_step h6))).step (convAttack_step toy_lawful h7)).step (convAttack_step toy_lawful h8)

/-- In the end Bob has accepted both messages, the second first, and Alice the reply; both of Bob's prekeys are gone. -/
def actCheck (n : Net) : Bool :=
  n.accepted false == [1, 0] && n.accepted true == [0] && ((n.world false).preKeys 31).isNone && ((n.world false).preKeys 32).isNone

theorem actRun_check : actRun.any actCheck = true := by decide +kernel

/-- The hypotheses of C86 are met. -/
example : ∃ n, Start convCv act0 ∧ ASteps convCv act0 n ∧ actCheck n = true := by
  have h := actRun_check
  cases hr : actRun with
  | none => rw [hr] at h; cases h
  | some n => rw [hr] at h; exact ⟨n, act_start, actRun_steps hr, h⟩

end
end Axolotl
