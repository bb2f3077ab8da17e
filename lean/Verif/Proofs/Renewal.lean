import Verif.Props.Room
import Verif.Spec.Renewal

/-! # One key of a name among others -/

namespace Axolotl
section
variable [C : Crypto]
open Spec ByteUtil
variable {M : Type} [DecidableEq M]

/-! ## The log -/

omit C [DecidableEq M] in
theorem ofKey_snoc (n : SenderKeyName) (id : Nat) (log : RoomLog M) (e : RoomEntry M) :
    ofKey n id (log ++ [e]) = ofKey n id log ++ if About n id e then [e] else [] := by
  unfold ofKey
  rw [List.filter_append]
  congr 1
  cases h : About n id e <;> simp [h]

omit C [DecidableEq M] in
theorem announced_log_snoc (n : SenderKeyName) (log : RoomLog M) (e : RoomEntry M) (d : SenderKeyDistributionMessage) :
    Announced n (log ++ [e]) d ↔ Announced n log d ∨ ∃ rnd d0, e.call = .create n rnd ∧ e.reply = .ok (.distribution d0) ∧
      SenderKeyDistributionMessage.parse d0.serialized = .ok d := by
  constructor
  · rintro ⟨x, hx, rnd, d0, h1, h2, h3⟩
    rcases List.mem_append.1 hx with hx | hx
    · exact .inl ⟨x, hx, rnd, d0, h1, h2, h3⟩
    · rw [List.mem_singleton.1 hx] at h1 h2
      exact .inr ⟨rnd, d0, h1, h2, h3⟩
  · rintro (⟨x, hx, rnd, d0, h1, h2, h3⟩ | ⟨rnd, d0, h1, h2, h3⟩)
    · exact ⟨x, List.mem_append_left _ hx, rnd, d0, h1, h2, h3⟩
    · exact ⟨e, List.mem_append_right _ (List.mem_singleton.2 rfl), rnd, d0, h1, h2, h3⟩

omit C [DecidableEq M] in
/-- An announcement is among those of its key. -/
theorem announced_ofKey {n : SenderKeyName} {log : RoomLog M} {d : SenderKeyDistributionMessage} (h : Announced n log d) :
    ∃ k, AnnouncedAt n (ofKey n d.id log) k d := by
  obtain ⟨e, he, rnd, d0, h1, h2, h3⟩ := h
  have hab : About n d.id e = true := by
    unfold About
    rw [h1, h2]
    simp [announcementKeyId, h3, Except.toOption]
  obtain ⟨pre, post, hp⟩ := List.append_of_mem (List.mem_filter.2 ⟨he, hab⟩ : e ∈ ofKey n d.id log)
  exact ⟨_, pre, e, post, rnd, d0, hp, h1, h2, h3, rfl⟩

omit C [DecidableEq M] in
theorem ofKey_announced {n : SenderKeyName} {id k : Nat} {log : RoomLog M} {d : SenderKeyDistributionMessage}
    (h : AnnouncedAt n (ofKey n id log) k d) : d.id = id ∧ Announced n log d := by
  obtain ⟨pre, e, post, rnd, d0, h1, h2, h3, h4, _⟩ := h
  have hm : e ∈ ofKey n id log := by rw [h1]; simp
  obtain ⟨hm, hab⟩ := List.mem_filter.1 hm
  refine ⟨?_, e, hm, rnd, d0, h2, h3, h4⟩
  unfold About at hab
  rw [h2, h3] at hab
  simpa [announcementKeyId, h4, Except.toOption] using hab

omit C [DecidableEq M] in
theorem messageKeyId_some {b : Bytes} {id : Nat} (h : messageKeyId b = some id) :
    ∃ m, SenderKeyMessage.parse b = .ok m ∧ m.keyId = id := by
  unfold messageKeyId at h
  cases hp : SenderKeyMessage.parse b with
  | error e => rw [hp] at h; cases h
  | ok m => rw [hp] at h; cases h; exact ⟨m, rfl, rfl⟩

omit C [DecidableEq M] in
theorem messageKeyId_of {b : Bytes} {m : SenderKeyMessage} (h : SenderKeyMessage.parse b = .ok m) : messageKeyId b = some m.keyId := by
  unfold messageKeyId; rw [h]; rfl

omit C [DecidableEq M] in
theorem sent_ofKey {n : SenderKeyName} {id : Nat} {log : RoomLog M} {x : GroupSent} :
    x ∈ sentUnder n (ofKey n id log) ↔ x ∈ sentUnder n log ∧ messageKeyId x.bytes = some id := by
  unfold sentUnder ofKey
  rw [List.mem_filterMap, List.mem_filterMap]
  constructor
  · rintro ⟨e, he, hx⟩
    obtain ⟨he, hab⟩ := List.mem_filter.1 he
    refine ⟨⟨e, he, hx⟩, ?_⟩
    split at hx
    · rename_i h1 h2
      unfold About at hab
      rw [h1, h2] at hab
      split at hx
      · cases hx
        simp at hab
        exact hab.2
      · cases hx
    · cases hx
  · rintro ⟨⟨e, he, hx⟩, hid⟩
    refine ⟨e, List.mem_filter.2 ⟨he, ?_⟩, hx⟩
    split at hx
    · rename_i h1 h2
      unfold About
      rw [h1, h2]
      split at hx
      · rename_i hn
        cases hx
        simp [hn, hid]
      · cases hx
    · cases hx

/-! ## Records -/

omit C [DecidableEq M] in
theorem findState_shift (id : Nat) : ∀ (l : List SenderKeyState) (i : Nat),
    SenderKeyRecord.findState id l i = (SenderKeyRecord.findState id l 0).map fun p => (p.1, p.2 + i)
  | [], i => rfl
  | s :: l, i => by
    unfold SenderKeyRecord.findState
    split
    · simp [Except.map]
    · rw [findState_shift id l (i + 1), findState_shift id l (0 + 1)]
      cases SenderKeyRecord.findState id l 0 with
      | error e => rfl
      | ok p => simp [Except.map]; omega

omit C [DecidableEq M] in
theorem findState_filter (id : Nat) : ∀ (l : List SenderKeyState),
    (∃ e, SenderKeyRecord.findState id l 0 = .error e ∧ l.filter (fun s => s.senderKeyId.getD 0 == id) = []) ∨
    ∃ s j, SenderKeyRecord.findState id l 0 = .ok (s, j) ∧
      SenderKeyRecord.findState id (l.filter fun s => s.senderKeyId.getD 0 == id) 0 = .ok (s, 0) ∧
      ∀ s', s'.senderKeyId.getD 0 = id →
        (l.set j s').filter (fun s => s.senderKeyId.getD 0 == id) = (l.filter fun s => s.senderKeyId.getD 0 == id).set 0 s' ∧
        ∀ id', id' ≠ id → (l.set j s').filter (fun s => s.senderKeyId.getD 0 == id') =
          l.filter fun s => s.senderKeyId.getD 0 == id'
  | [] => .inl ⟨_, rfl, rfl⟩
  | s :: l => by
    by_cases h : s.senderKeyId.getD 0 = id
    · right
      refine ⟨s, 0, ?_, ?_, ?_⟩
      · unfold SenderKeyRecord.findState; rw [if_pos (by exact h)]
      · rw [List.filter_cons_of_pos (by simp [h])]
        unfold SenderKeyRecord.findState
        rw [if_pos (by exact h)]
      · intro s' hs'
        refine ⟨?_, fun id' hid => ?_⟩
        · rw [List.set_cons_zero, List.filter_cons_of_pos (by simp [hs']), List.filter_cons_of_pos (by simp [h]), List.set_cons_zero]
        · rw [List.set_cons_zero, List.filter_cons_of_neg (by simp [hs']; omega), List.filter_cons_of_neg (by simp [h]; omega)]
    · have e1 : SenderKeyRecord.findState id (s :: l) 0 = SenderKeyRecord.findState id l 1 := by
        rw [SenderKeyRecord.findState, if_neg (by exact h)]
      rw [e1, findState_shift, List.filter_cons_of_neg (by simp [h])]
      rcases findState_filter id l with ⟨e, h1, h2⟩ | ⟨t, j, h1, h2, h3⟩
      · left; exact ⟨e, by rw [h1]; rfl, h2⟩
      · right
        refine ⟨t, j + 1, by rw [h1]; rfl, h2, fun s' hs' => ?_⟩
        obtain ⟨q1, q2⟩ := h3 s' hs'
        refine ⟨?_, fun id' hid => ?_⟩
        · rw [List.set_cons_succ, List.filter_cons_of_neg (by simp [h]), q1]
        · rw [List.set_cons_succ, List.filter_cons, List.filter_cons, q2 id' hid]

/-- Decrypting depends only on the states with the key id of the message, and leaves the others alone. -/
theorem decrypt_only {r : SenderKeyRecord} {id : Nat} {b : Bytes} {m : SenderKeyMessage} (hb : SenderKeyMessage.parse b = .ok m)
    (hm : m.keyId = id) (hne : statesOf id r ≠ []) :
    (∃ e, GroupCipher.decryptWithRecord r b = .error e ∧
      GroupCipher.decryptWithRecord { senderKeyStates := statesOf id r } b = .error e) ∨
    ∃ pt r', GroupCipher.decryptWithRecord r b = .ok (pt, r') ∧
      GroupCipher.decryptWithRecord { senderKeyStates := statesOf id r } b = .ok (pt, { senderKeyStates := statesOf id r' }) ∧
      ∀ id', id' ≠ id → statesOf id' r' = statesOf id' r := by
  have h1 : r.isEmpty = false := by
    cases h : r.isEmpty with
    | false => rfl
    | true =>
      rw [isEmpty_iff] at h
      exact absurd (by unfold statesOf; rw [h]; rfl) hne
  have h2 : ({ senderKeyStates := statesOf id r } : SenderKeyRecord).isEmpty = false := by
    cases h : ({ senderKeyStates := statesOf id r } : SenderKeyRecord).isEmpty with
    | false => rfl
    | true =>
      rw [isEmpty_iff] at h
      exact absurd h hne
  rcases findState_filter id r.senderKeyStates with ⟨e, _, q⟩ | ⟨s, j, q1, q2, q3⟩
  · exact absurd q hne
  unfold GroupCipher.decryptWithRecord
  rw [h1, h2]
  simp only [Bool.false_eq_true, if_false, hb, ok_bind, hm]
  have q1 : r.getStateById id = .ok (s, j) := q1
  have q2 : ({ senderKeyStates := statesOf id r } : SenderKeyRecord).getStateById id = .ok (s, 0) := q2
  rw [q1, q2]
  simp only [ok_bind]
  cases hp : SenderKeyState.getSigningKeyPublic s with
  | error e => left; exact ⟨e, rfl, rfl⟩
  | ok pub =>
    simp only [ok_bind]
    cases hv : m.verifySignature pub with
    | error e => left; exact ⟨e, rfl, rfl⟩
    | ok u =>
      simp only [ok_bind]
      cases hk : GroupCipher.getSenderKey s m.iteration with
      | error e => left; exact ⟨e, rfl, rfl⟩
      | ok k =>
        simp only [ok_bind]
        cases ht : GroupCipher.getPlainText k.1.iv k.1.cipherKey m.ciphertext with
        | error e => left; exact ⟨e, rfl, rfl⟩
        | ok pt =>
          right
          have hid : k.2.senderKeyId.getD 0 = id := by
            rw [(getSenderKey_step (k := k.1) (s' := k.2) hk).1.id]
            have := (SenderKeyRecord.findState_ok q1).2.1
            have := List.find?_some this
            simpa using this
          obtain ⟨q4, q5⟩ := q3 k.2 hid
          refine ⟨pt, r.replace j k.2, rfl, ?_, fun id' hid' => q5 id' hid'⟩
          simp only [ok_bind]
          congr 2
          unfold SenderKeyRecord.replace statesOf
          exact congrArg SenderKeyRecord.mk q4.symm

/-! ## The calls -/

theorem encrypt_congr {g g' : GroupStore} {n : SenderKeyName} (h : g n = g' n) (pt rand : Bytes) :
    GroupCipher.encrypt g n pt rand = GroupCipher.encrypt g' n pt rand := by
  unfold GroupCipher.encrypt; rw [h]

theorem decrypt_congr {g g' : GroupStore} {n : SenderKeyName} (h : g n = g' n) (b : Bytes) :
    GroupCipher.decrypt g n b = GroupCipher.decrypt g' n b := by
  unfold GroupCipher.decrypt; rw [h]

theorem create_congr {g g' : GroupStore} {n : SenderKeyName} (h : g n = g' n) (rnd : GroupSessionBuilder.CreateRand) :
    GroupSessionBuilder.create g n rnd = GroupSessionBuilder.create g' n rnd := by
  unfold GroupSessionBuilder.create; rw [h]

omit C in
theorem process_congr {g g' : GroupStore} {n : SenderKeyName} (h : g n = g' n) (d : SenderKeyDistributionMessage) :
    GroupSessionBuilder.process g n d = GroupSessionBuilder.process g' n d := by
  unfold GroupSessionBuilder.process; rw [h]

/-- A call depends only on the record it is about. -/
theorem run_congr {g g' : GroupStore} (c : GroupCall) (h : g c.name = g' c.name) : c.run g = c.run g' := by
  cases c with
  | encrypt n pt rand => rw [run_encrypt, run_encrypt, encrypt_congr (by exact h)]
  | decrypt n b => rw [run_decrypt, run_decrypt, decrypt_congr (by exact h)]
  | process n d => rw [run_process, run_process, process_congr (by exact h)]
  | create n rnd => rw [run_create, run_create, create_congr (by exact h)]

theorem next_congr {g g' : GroupStore} (c : GroupCall) (h : g c.name = g' c.name) : c.next g c.name = c.next g' c.name := by
  unfold GroupCall.next GOutcome.final
  rw [run_congr c h]
  cases (GroupCall.run g' c).stored with
  | none => exact h
  | some r =>
    show (if c.name = c.name then r else g c.name) = (if c.name = c.name then r else g' c.name)
    rw [if_pos rfl, if_pos rfl]

/-- A new sender key and its announcement. -/
theorem created_announced (hC : C.Lawful) {g : GroupStore} {n : SenderKeyName} {rnd : GroupSessionBuilder.CreateRand}
    (h : (g n).senderKeyStates = []) (hk : rnd.keyId < 2 ^ 32) (hs : rnd.senderKey.length = 32) (hg : rnd.signSeed.length = 32) :
    ∃ d, ((GroupCall.create n rnd).run g).result = .ok (.distribution d) ∧
      SenderKeyDistributionMessage.parse d.serialized = .ok d ∧ d.id = rnd.keyId ∧
      (GroupCall.create n rnd).next g n = { senderKeyStates := [createdState rnd] } := by
  have hpub : (C.genPub (C.genPriv rnd.signSeed)).length = 32 := hC.genPub_len _ (hC.genPriv_len _ hg)
  obtain ⟨s, d, q1, _⟩ := C44_create_new g n rnd hk (Nat.le_of_eq hpub) h
  have q2 := q1
  rw [create_new_result h hk] at q2
  have q3 := distribution_made (s := createdState rnd) (pub := C.genPub (C.genPriv rnd.signSeed)) rfl
    (decodePoint_serializePoint (Nat.le_of_eq hpub)) q2
  obtain ⟨d2, r1, r2, r3, r4, r5, r6⟩ := C05_distribution_roundtrip rnd.keyId 0 hk (Nat.two_pow_pos 32) rnd.senderKey
    (by rw [hs]; omega) (C.genPub (C.genPriv rnd.signSeed)) hpub
  have : d2 = d := Except.ok.inj (r1.symm.trans q3)
  subst this
  refine ⟨d2, ?_, r2, r3, next_create_new h hk⟩
  rw [run_create]
  unfold GroupCall.mapG
  rw [q1]

/-! ## The invariant -/

/-- The group `V`, in which the name has only this key, is what one sees of it. -/
structure KeyView (owner : SenderKeyName → M) (n : SenderKeyName) (S : M → GroupStore) (log : RoomLog M) (id : Nat)
    (V : M → GroupStore) : Prop where
  reach : RoomReach owner V (ofKey n id log)
  member : ∀ m, m ≠ owner n → V m n = { senderKeyStates := statesOf id (S m n) }
  current : ∀ s, S (owner n) n = { senderKeyStates := [s] } → s.senderKeyId.getD 0 = id → V (owner n) n = S (owner n) n
  untold : (∀ d, Announced n log d → d.id ≠ id) → V (owner n) n = {}

omit [DecidableEq M] in
omit C in
theorem last_announced {n : SenderKeyName} {log : RoomLog M} {d : SenderKeyDistributionMessage} (h : LastAnnounced n log d) :
    Announced n log d := by
  obtain ⟨pre, e, post, rnd, d0, h1, h2, h3, h4, _⟩ := h
  exact ⟨e, by rw [h1]; simp, rnd, d0, h2, h3, h4⟩

omit [DecidableEq M] in
omit C in
theorem last_snoc {n : SenderKeyName} {log : RoomLog M} {d : SenderKeyDistributionMessage} (h : LastAnnounced n log d)
    (e : RoomEntry M) (he : ∀ d', ¬ Announced n [e] d') : LastAnnounced n (log ++ [e]) d := by
  obtain ⟨pre, x, post, rnd, d0, h1, h2, h3, h4, h5⟩ := h
  refine ⟨pre, x, post ++ [e], rnd, d0, by rw [h1]; simp, h2, h3, h4, fun d' hd => ?_⟩
  obtain ⟨y, hy, q⟩ := hd
  rcases List.mem_append.1 hy with hy | hy
  · exact h5 d' ⟨y, hy, q⟩
  · exact he d' ⟨y, hy, q⟩

/-- The state of a sender whose key can be announced. -/
structure Announceable (s : SenderKeyState) : Prop where
  id : s.senderKeyId.getD 0 < 2 ^ 32
  it : iterationOf s < 2 ^ 32
  chain : (chainKeyOf s).length = 32
  pub : ∃ pub, pub.length = 32 ∧ SenderKeyState.getSigningKeyPublic s = .ok pub

theorem Announceable.step (hC : C.Lawful) {s s' : SenderKeyState} (h : Announceable s) (hs : StateStep s s') : Announceable s' := by
  obtain ⟨h1, h2, h3, pub, h4, h5⟩ := h
  refine ⟨by rw [hs.id]; exact h1, ?_, ?_, pub, h4, ?_⟩
  · cases hs with
    | send q => exact q
    | old => exact h2
    | new _ q => exact q
  · cases hs with
    | send q => exact hC.hmac_len _ _
    | old => exact h3
    | new _ q => exact chainAt_len32 hC h3 _
  · unfold SenderKeyState.getSigningKeyPublic at h5 ⊢
    rw [hs.signing]
    exact h5

theorem Announceable.created (hC : C.Lawful) {rnd : GroupSessionBuilder.CreateRand} (hk : rnd.keyId < 2 ^ 32)
    (hs : rnd.senderKey.length = 32) (hg : rnd.signSeed.length = 32) : Announceable (createdState rnd) := by
  have hpub : (C.genPub (C.genPriv rnd.signSeed)).length = 32 := hC.genPub_len _ (hC.genPriv_len _ hg)
  exact ⟨hk, Nat.two_pow_pos 32, hs, _, hpub, decodePoint_serializePoint (Nat.le_of_eq hpub)⟩

/-- Such a key is announced by `create`. -/
theorem Announceable.announce {g : GroupStore} {n : SenderKeyName} {s : SenderKeyState} (h : Announceable s)
    (hg : g n = { senderKeyStates := [s] }) (rnd : GroupSessionBuilder.CreateRand) :
    ∃ d, ((GroupCall.create n rnd).run g).result = .ok (.distribution d) ∧
      SenderKeyDistributionMessage.parse d.serialized = .ok d ∧ d.id = s.senderKeyId.getD 0 := by
  obtain ⟨h1, h2, h3, pub, h4, h5⟩ := h
  obtain ⟨d, r1, r2, r3, _⟩ := C05_distribution_roundtrip (s.senderKeyId.getD 0) (iterationOf s) h1 h2 (chainKeyOf s)
    (by rw [h3]; omega) pub h4
  refine ⟨d, ?_, r2, r3⟩
  rw [run_create, create_again (by rw [hg]; simp)]
  unfold GroupSessionBuilder.distributionOf
  rw [SenderKeyRecord.getFirstState_ok.2 (show sendingState (g n) = some s by rw [hg]; rfl), ok_bind, h5, ok_bind, position_eq,
    chainKeyOf_eq, show SenderKeyState.getKeyId s = s.senderKeyId.getD 0 from rfl, r1]
  rfl

structure RenewInv (owner : SenderKeyName → M) (safe : SenderKeyName → Nat → Prop) (n : SenderKeyName) (S : M → GroupStore)
    (log : RoomLog M) : Prop where
  view : ∀ id, safe n id → ∃ V, KeyView owner n S log id V
  own : S (owner n) n = {} ∧ (∀ d, ¬ Announced n log d) ∨
    ∃ s, S (owner n) n = { senderKeyStates := [s] } ∧ Announceable s ∧ ∃ d, LastAnnounced n log d ∧ d.id = s.senderKeyId.getD 0
  sent : ∀ x ∈ sentUnder n log, 64 < x.bytes.length ∧ ∃ d, Announced n log d ∧ messageKeyId x.bytes = some d.id
  priv : ∀ m, m ≠ owner n → ∀ s ∈ (S m n).senderKeyStates, SenderKeyState.getSigningKeyPrivate s = []
  held : ∀ m, m ≠ owner n → ∀ id, statesOf id (S m n) = [] ↔ ∀ d ∈ heardBy m n log, d.id ≠ id
  told : ∀ m, ∀ d ∈ heardBy m n log, Announced n log d

theorem KeyView.skip {owner : SenderKeyName → M} {n : SenderKeyName} {S S' : M → GroupStore} {log : RoomLog M} {id : Nat}
    {V : M → GroupStore} (h : KeyView owner n S log id V) {e : RoomEntry M} (he : About n id e = false)
    (hm : ∀ m, m ≠ owner n → statesOf id (S' m n) = statesOf id (S m n))
    (ho : ∀ s, S' (owner n) n = { senderKeyStates := [s] } → s.senderKeyId.getD 0 = id → S' (owner n) n = S (owner n) n) :
    KeyView owner n S' (log ++ [e]) id V := by
  refine ⟨?_, fun m q => ?_, fun s q1 q2 => ?_, fun q => ?_⟩
  · rw [ofKey_snoc, he]
    simpa using h.reach
  · rw [hm m q]; exact h.member m q
  · have := ho s q1 q2
    rw [this]
    exact h.current s (by rw [← this]; exact q1) q2
  · exact h.untold fun d hd => q d ((announced_log_snoc _ _ _ _).2 (.inl hd))

theorem KeyView.act {owner : SenderKeyName → M} {n : SenderKeyName} {S S' : M → GroupStore} {log : RoomLog M} {id : Nat}
    {V : M → GroupStore} (h : KeyView owner n S log id V) {m : M} {c : GroupCall} {r : Res GroupReply}
    (he : About n id ⟨m, c, r⟩ = true) (hr : (c.run (V m)).result = r)
    (ha : RoomAllowed owner (ofKey n id log) m c r)
    (hS : ∀ x, x ≠ m → S' x n = S x n)
    (hm : m ≠ owner n → c.next (V m) n = { senderKeyStates := statesOf id (S' m n) })
    (ho : m = owner n → c.next (V m) n = S' m n ∧ ∃ d, Announced n (log ++ [⟨m, c, r⟩]) d ∧ d.id = id) :
    KeyView owner n S' (log ++ [⟨m, c, r⟩]) id (fun x => if x = m then c.next (V m) else V x) := by
  refine ⟨?_, fun x q => ?_, fun s q1 q2 => ?_, fun q => ?_⟩
  · rw [ofKey_snoc, he]
    have := RoomReach.call m c h.reach (by rw [hr]; exact ha)
    rw [hr] at this
    exact this
  · by_cases hx : x = m
    · subst hx
      rw [if_pos rfl]; exact hm q
    · rw [if_neg hx, hS x hx]; exact h.member x q
  · by_cases hx : owner n = m
    · subst hx
      rw [if_pos rfl]; exact (ho rfl).1
    · rw [if_neg hx, hS _ hx]
      exact h.current s (by rw [← hS _ hx]; exact q1) q2
  · by_cases hx : owner n = m
    · obtain ⟨d, q1, q2⟩ := (ho hx.symm).2
      exact absurd q2 (q d q1)
    · rw [if_neg hx]
      exact h.untold fun d hd => q d ((announced_log_snoc _ _ _ _).2 (.inl hd))

omit C [DecidableEq M] in
theorem About.announced {n : SenderKeyName} {e : RoomEntry M} {d : SenderKeyDistributionMessage} (h : Announced n [e] d) :
    About n d.id e = true := by
  obtain ⟨x, hx, rnd, d0, h1, h2, h3⟩ := h
  rw [List.mem_singleton.1 hx] at h1 h2
  unfold About
  rw [h1, h2]
  simp [announcementKeyId, h3, Except.toOption]

omit C [DecidableEq M] in
theorem About.sent {n : SenderKeyName} {e : RoomEntry M} {x : GroupSent} (h : x ∈ sentUnder n [e]) :
    ∃ pt rand, e.call = .encrypt n pt rand ∧ e.reply = .ok (.bytes x.bytes) ∧ x.plaintext = pt := by
  unfold sentUnder at h
  rw [List.mem_filterMap] at h
  obtain ⟨y, hy, hx⟩ := h
  rw [List.mem_singleton.1 hy] at hx
  split at hx
  · rename_i h1 h2
    split at hx
    · rename_i hn
      cases hx
      subst hn
      exact ⟨_, _, h1, h2, rfl⟩
    · cases hx
  · cases hx

omit C [DecidableEq M] in
theorem About.other {n : SenderKeyName} {m : M} {c : GroupCall} {r : Res GroupReply} (h : c.name ≠ n) (id : Nat) :
    About n id (⟨m, c, r⟩ : RoomEntry M) = false := by
  unfold About
  cases c <;> cases r with
  | error e => rfl
  | ok x => cases x <;> simp_all [GroupCall.name]

omit C [DecidableEq M] in
theorem About.failed (n : SenderKeyName) (m : M) (c : GroupCall) (e : Err) (id : Nat) :
    About n id (⟨m, c, .error e⟩ : RoomEntry M) = false := by
  unfold About
  cases c <;> rfl

omit C [DecidableEq M] in
theorem log_sent_append (n : SenderKeyName) (l l' : RoomLog M) : sentUnder n (l ++ l') = sentUnder n l ++ sentUnder n l' := by
  unfold sentUnder; rw [List.filterMap_append]

omit C in
theorem About.heard {m : M} {n : SenderKeyName} {e : RoomEntry M} {d : SenderKeyDistributionMessage} (h : d ∈ heardBy m n [e]) :
    e.member = m ∧ e.call = .process n d ∧ About n d.id e = true := by
  unfold heardBy at h
  rw [List.mem_filterMap] at h
  obtain ⟨y, hy, hx⟩ := h
  rw [List.mem_singleton.1 hy] at hx
  split at hx
  · rename_i h1 h2
    split at hx
    · rename_i hn
      cases hx
      obtain ⟨hn1, hn2⟩ := hn
      subst hn2
      refine ⟨hn1, h1, ?_⟩
      unfold About
      rw [h1, h2]
      simp
    · cases hx
  · cases hx

omit C in
theorem log_heard_append (m : M) (n : SenderKeyName) (l l' : RoomLog M) : heardBy m n (l ++ l') = heardBy m n l ++ heardBy m n l' := by
  unfold heardBy; rw [List.filterMap_append]

omit C in
theorem heard_silent (x m : M) (n : SenderKeyName) (c : GroupCall) (r : Res GroupReply) (h : ∀ d, c ≠ .process n d) :
    heardBy x n [(⟨m, c, r⟩ : RoomEntry M)] = [] := by
  cases hq : heardBy x n [(⟨m, c, r⟩ : RoomEntry M)] with
  | nil => rfl
  | cons d l =>
    obtain ⟨_, h1, _⟩ := About.heard (show d ∈ heardBy x n [(⟨m, c, r⟩ : RoomEntry M)] by rw [hq]; simp)
    exact absurd h1 (h d)

theorem RenewInv.idle {owner : SenderKeyName → M} {n : SenderKeyName} {S S' : M → GroupStore} {log : RoomLog M}
    {safe : SenderKeyName → Nat → Prop} (h : RenewInv owner safe n S log) {e : RoomEntry M} (he : ∀ id, About n id e = false)
    (hs : sentUnder n [e] = []) (hS : ∀ x, S' x n = S x n) : RenewInv owner safe n S' (log ++ [e]) := by
  have hh : ∀ m, heardBy m n (log ++ [e]) = heardBy m n log := fun m => by
    rw [log_heard_append]
    cases hq : heardBy m n [e] with
    | nil => rw [List.append_nil]
    | cons d l =>
      have := (About.heard (show d ∈ heardBy m n [e] by rw [hq]; simp)).2.2
      rw [he] at this
      cases this
  have ha : ∀ d', ¬ Announced n [e] d' := fun d' hd => by
    have := About.announced hd
    rw [he] at this
    cases this
  refine ⟨fun id hsafe => ?_, ?_, fun x hx => ?_, fun m q => by rw [hS]; exact h.priv m q,
    fun m q => by rw [hS, hh]; exact h.held m q,
    fun m d q => (announced_log_snoc _ _ _ _).2 (.inl (h.told m d (by rw [← hh]; exact q)))⟩
  · obtain ⟨V, hV⟩ := h.view id hsafe
    exact ⟨V, hV.skip (he id) (fun m _ => by rw [hS]) (fun s _ _ => hS _)⟩
  · rw [hS]
    rcases h.own with ⟨h1, h2⟩ | ⟨s, h1, hann, d, h2, h3⟩
    · refine .inl ⟨h1, fun d hd => ?_⟩
      rcases (announced_log_snoc _ _ _ _).1 hd with q | ⟨rnd, d0, q⟩
      · exact h2 d q
      · exact ha d ⟨e, List.mem_singleton.2 rfl, rnd, d0, q⟩
    · exact .inr ⟨s, h1, hann, d, last_snoc h2 e ha, h3⟩
  · rw [log_sent_append, hs, List.append_nil] at hx
    obtain ⟨r1, d, r2, r3⟩ := h.sent x hx
    exact ⟨r1, d, (announced_log_snoc _ _ _ _).2 (.inl r2), r3⟩

omit C [DecidableEq M] in
theorem sent_failed (n : SenderKeyName) (m : M) (c : GroupCall) (e : Err) : sentUnder n [(⟨m, c, .error e⟩ : RoomEntry M)] = [] := by
  unfold sentUnder; cases c <;> rfl

omit C [DecidableEq M] in
theorem sent_silent (n : SenderKeyName) (m : M) (c : GroupCall) (r : Res GroupReply) (h : ∀ pt rand, c ≠ .encrypt n pt rand) :
    sentUnder n [(⟨m, c, r⟩ : RoomEntry M)] = [] := by
  cases hq : sentUnder n [(⟨m, c, r⟩ : RoomEntry M)] with
  | nil => rfl
  | cons x l =>
    obtain ⟨pt, rand, h1, _⟩ := About.sent (show x ∈ sentUnder n [(⟨m, c, r⟩ : RoomEntry M)] by rw [hq]; simp)
    exact absurd h1 (h pt rand)

/-- The owner makes a key with an id that the name has not had. -/
theorem RenewInv.fresh (hC : C.Lawful) {owner : SenderKeyName → M} {n : SenderKeyName} {S S' : M → GroupStore} {log : RoomLog M}
    {safe : SenderKeyName → Nat → Prop} (h : RenewInv owner safe n S log) {g : GroupStore} (hg : g n = {}) {rnd : GroupSessionBuilder.CreateRand}
    (hk : rnd.keyId < 2 ^ 32) (hs : rnd.senderKey.length = 32) (hseed : rnd.signSeed.length = 32)
    (hnew : ∀ d, Announced n log d → d.id ≠ rnd.keyId) (hS : ∀ x, x ≠ owner n → S' x n = S x n)
    (ho : S' (owner n) n = (GroupCall.create n rnd).next g n) :
    RenewInv owner safe n S' (log ++ [⟨owner n, .create n rnd, ((GroupCall.create n rnd).run g).result⟩]) := by
  obtain ⟨d, q1, q2, q3, q4⟩ := created_announced hC (g := g) (n := n) (rnd := rnd) (by rw [hg]) hk hs hseed
  have hann : Announced n (log ++ [⟨owner n, .create n rnd, ((GroupCall.create n rnd).run g).result⟩]) d :=
    (announced_log_snoc _ _ _ _).2 (.inr ⟨rnd, d, rfl, q1, q2⟩)
  rw [q1] at hann ⊢
  rw [q4] at ho
  have hh : ∀ m, heardBy m n (log ++ [⟨owner n, .create n rnd, .ok (.distribution d)⟩]) = heardBy m n log := fun m => by
    rw [log_heard_append, heard_silent _ _ _ _ _ (fun _ q => by cases q), List.append_nil]
  refine ⟨fun id hsafe => ?_, ?_, fun x hx => ?_, fun m q => by rw [hS m q]; exact h.priv m q,
    fun m q => by rw [hS m q, hh]; exact h.held m q,
    fun m d q => (announced_log_snoc _ _ _ _).2 (.inl (h.told m d (by rw [← hh]; exact q)))⟩
  · obtain ⟨V, hV⟩ := h.view id hsafe
    by_cases hid : rnd.keyId = id
    · subst hid
      have hu := hV.untold hnew
      refine ⟨_, hV.act (m := owner n) (c := .create n rnd) (r := .ok (.distribution d)) ?_ ?_ ⟨rfl, hs, hseed⟩ hS
        (fun q => absurd rfl q) (fun _ => ⟨?_, d, hann, q3⟩)⟩
      · rw [← q3]
        exact About.announced ⟨_, List.mem_singleton.2 rfl, rnd, d, rfl, rfl, q2⟩
      · rw [← q1, run_congr (g := V (owner n)) (g' := g) (.create n rnd) (show V (owner n) n = g n by rw [hu, hg])]
      · rw [ho, ← q4]
        exact next_congr (g := V (owner n)) (g' := g) (.create n rnd) (show V (owner n) n = g n by rw [hu, hg])
    · refine ⟨V, hV.skip ?_ (fun m q => by rw [hS m q]) (fun s r1 r2 => ?_)⟩
      · unfold About
        simp only [announcementKeyId, q2, Except.toOption, Option.map, q3]
        simp [hid]
      · rw [ho] at r1
        cases r1
        exact absurd r2 hid
  · refine .inr ⟨_, ho, Announceable.created hC hk hs hseed, d, ⟨log, _, [], rnd, d, rfl, rfl, rfl, q2, fun d' hd => ?_⟩, q3⟩
    obtain ⟨_, hx, _⟩ := hd
    cases hx
  · rw [log_sent_append, sent_silent _ _ _ _ (by intros; simp), List.append_nil] at hx
    obtain ⟨r1, d, r2, r3⟩ := h.sent x hx
    exact ⟨r1, d, (announced_log_snoc _ _ _ _).2 (.inl r2), r3⟩

theorem RenewInv.encrypt (hC : C.Lawful) {owner : SenderKeyName → M} {n : SenderKeyName} {S S' : M → GroupStore} {log : RoomLog M}
    {safe : SenderKeyName → Nat → Prop} (h : RenewInv owner safe n S log) (m : M) {pt rand b : Bytes} (hpt : pt.length < 2 ^ 62) (hrand : rand.length = 64)
    (hb : (GroupCipher.encrypt (S m) n pt rand).result = .ok b) (hS : ∀ x, x ≠ m → S' x n = S x n)
    (hm : S' m n = (GroupCall.encrypt n pt rand).next (S m) n) :
    RenewInv owner safe n S' (log ++ [⟨m, .encrypt n pt rand, .ok (.bytes b)⟩]) := by
  obtain ⟨s, msg, p1, p2, p3, _, _, p4, _⟩ := encrypt_parses hC hpt hrand hb
  have hid := messageKeyId_of p2
  rw [p3] at hid
  have hmo : m = owner n := by
    apply Classical.byContradiction
    intro hmo
    have hs : s ∈ (S m n).senderKeyStates := by
      unfold sendingState at p1
      exact List.mem_of_mem_head? p1
    rw [h.priv m hmo s hs] at p4
    cases p4
  subst hmo
  rcases h.own with ⟨q, _⟩ | ⟨s', q1, hann, d, q2, q3⟩
  · rw [q] at p1; cases p1
  have hss : s' = s := by rw [q1] at p1; cases p1; rfl
  subst hss
  obtain ⟨hS', hann'⟩ : S' (owner n) n = { senderKeyStates := [sentOn s'] } ∧ Announceable (sentOn s') := by
    obtain ⟨t, _, _, r1, _, _, _, r3, r2⟩ := GroupCipher.encrypt_ok hb
    have : t = s' := Option.some.inj (r1.symm.trans p1)
    subst this
    refine ⟨?_, hann.step hC (.send r3)⟩
    rw [hm, next_encrypt r2, q1]
    rfl
  have hh : ∀ m, heardBy m n (log ++ [⟨owner n, .encrypt n pt rand, .ok (.bytes b)⟩]) = heardBy m n log := fun m => by
    rw [log_heard_append, heard_silent _ _ _ _ _ (fun _ q => by cases q), List.append_nil]
  have hne : ∀ d', ¬ Announced n [(⟨owner n, .encrypt n pt rand, .ok (.bytes b)⟩ : RoomEntry M)] d' := by
    rintro d' ⟨x, hx, rnd, d0, r1, _⟩
    rw [List.mem_singleton.1 hx] at r1
    cases r1
  refine ⟨fun id hsafe => ?_, ?_, fun x hx => ?_, fun m q => by rw [hS m q]; exact h.priv m q,
    fun m q => by rw [hS m q, hh]; exact h.held m q,
    fun m d q => (announced_log_snoc _ _ _ _).2 (.inl (h.told m d (by rw [← hh]; exact q)))⟩
  · obtain ⟨V, hV⟩ := h.view id hsafe
    by_cases hi : s'.senderKeyId.getD 0 = id
    · subst hi
      have hv := hV.current s' q1 rfl
      refine ⟨_, hV.act (m := owner n) (c := .encrypt n pt rand) (r := .ok (.bytes b)) ?_ ?_ ⟨hpt, hrand⟩ hS
        (fun q => absurd rfl q) (fun _ => ⟨?_, d, (announced_log_snoc _ _ _ _).2 (.inl (last_announced q2)), q3⟩)⟩
      · unfold About; simp [hid]
      · rw [run_congr (g := V (owner n)) (g' := S (owner n)) (.encrypt n pt rand) hv, run_encrypt]
        unfold GroupCall.mapG
        rw [hb]
      · rw [hm]
        exact next_congr (g := V (owner n)) (g' := S (owner n)) (.encrypt n pt rand) hv
    · refine ⟨V, hV.skip ?_ (fun m q => by rw [hS m q]) (fun t r1 r2 => ?_)⟩
      · unfold About; simp [hid, hi]
      · rw [hS'] at r1
        cases r1
        exact absurd r2 hi
  · exact .inr ⟨_, hS', hann', d, last_snoc q2 _ hne, q3⟩
  · rw [log_sent_append] at hx
    rcases List.mem_append.1 hx with hx | hx
    · obtain ⟨r1, d, r2, r3⟩ := h.sent x hx
      exact ⟨r1, d, (announced_log_snoc _ _ _ _).2 (.inl r2), r3⟩
    · obtain ⟨_, _, r1, r2, _⟩ := About.sent hx
      cases r2
      exact ⟨encrypt_long hC hb, d, (announced_log_snoc _ _ _ _).2 (.inl (last_announced q2)), by rw [q3]; exact hid⟩

theorem RenewInv.process {owner : SenderKeyName → M} {n : SenderKeyName} {S S' : M → GroupStore} {log : RoomLog M}
    {safe : SenderKeyName → Nat → Prop} (h : RenewInv owner safe n S log) {m : M} {d : SenderKeyDistributionMessage} (hmo : m ≠ owner n) (hd : Announced n log d)
    (hgood : d.id < 2 ^ 32 ∧ d.iteration < 2 ^ 32) (hS : ∀ x, x ≠ m → S' x n = S x n)
    (hm : S' m n = (GroupCall.process n d).next (S m) n) :
    RenewInv owner safe n S' (log ++ [⟨m, .process n d, .ok .done⟩]) := by
  rw [next_process_good hgood] at hm
  have hne : ∀ d', ¬ Announced n [(⟨m, .process n d, .ok .done⟩ : RoomEntry M)] d' := by
    rintro d' ⟨x, hx, rnd, d0, r1, _⟩
    rw [List.mem_singleton.1 hx] at r1
    cases r1
  have hh : ∀ x, heardBy x n (log ++ [⟨m, .process n d, .ok .done⟩]) = heardBy x n log ++ if x = m then [d] else [] := fun x => by
    rw [log_heard_append]
    congr 1
    unfold heardBy
    by_cases hx : x = m
    · subst hx; simp
    · rw [if_neg hx]
      have hx' : ¬ m = x := fun q => hx q.symm
      simp [hx']
  refine ⟨fun id hsafe => ?_, ?_, fun x hx => ?_, fun x q => ?_, fun x q id => ?_, fun x d' q => ?_⟩
  · obtain ⟨V, hV⟩ := h.view id hsafe
    by_cases hi : d.id = id
    · subst hi
      refine ⟨_, hV.act (m := m) (c := .process n d) (r := .ok .done) ?_ ?_ (announced_ofKey hd) hS (fun _ => ?_)
        (fun q => absurd q hmo)⟩
      · unfold About; simp
      · rw [run_process, process_good hgood.1 hgood.2]; rfl
      · rw [next_process_good hgood, hV.member m hmo, hm]
        unfold statesOf
        rw [List.filter_append, List.filter_cons_of_pos (by simp [addedState])]
        rfl
    · refine ⟨V, hV.skip (by unfold About; simp [hi]) (fun x q => ?_) (fun t r1 r2 => hS _ (fun q => hmo q.symm))⟩
      by_cases hx : x = m
      · subst hx
        rw [hm]
        unfold statesOf
        rw [List.filter_append, List.filter_cons_of_neg (by simp [addedState, hi]), List.filter_nil, List.append_nil]
      · rw [hS x hx]
  · rw [hS _ (fun q => hmo q.symm)]
    rcases h.own with ⟨h1, h2⟩ | ⟨s, h1, hann, d2, h2, h3⟩
    · exact absurd hd (h2 d)
    · exact .inr ⟨s, h1, hann, d2, last_snoc h2 _ hne, h3⟩
  · rw [log_sent_append, sent_silent _ _ _ _ (by intros; simp), List.append_nil] at hx
    obtain ⟨r1, d, r2, r3⟩ := h.sent x hx
    exact ⟨r1, d, (announced_log_snoc _ _ _ _).2 (.inl r2), r3⟩
  · by_cases hx : x = m
    · subst hx
      rw [hm]
      intro s hs
      rcases List.mem_append.1 hs with hs | hs
      · exact h.priv x q s hs
      · rw [List.mem_singleton.1 hs]; rfl
    · rw [hS x hx]; exact h.priv x q
  · rw [hh]
    by_cases hx : x = m
    · subst hx
      rw [hm, if_pos rfl]
      unfold statesOf
      rw [List.filter_append]
      have := h.held x q id
      unfold statesOf at this
      constructor
      · intro r d' hd'
        obtain ⟨r1, r2⟩ := List.append_eq_nil_iff.1 r
        rcases List.mem_append.1 hd' with hd' | hd'
        · exact this.1 r1 d' hd'
        · rw [List.mem_singleton.1 hd']
          rintro rfl
          rw [List.filter_cons_of_pos (by simp [addedState])] at r2
          cases r2
      · intro r
        rw [this.2 fun d' hd' => r d' (List.mem_append_left _ hd'), List.nil_append,
          List.filter_cons_of_neg (by simp [addedState, r d (List.mem_append_right _ (List.mem_singleton.2 rfl))]), List.filter_nil]
    · rw [hS x hx, if_neg hx, List.append_nil]; exact h.held x q id
  · rw [hh] at q
    refine (announced_log_snoc _ _ _ _).2 (.inl ?_)
    rcases List.mem_append.1 q with q | q
    · exact h.told x d' q
    · split at q
      · rw [List.mem_singleton.1 q]; exact hd
      · cases q

theorem RenewInv.decrypt (hC : C.Lawful) {owner : SenderKeyName → M} {n : SenderKeyName} {S S' : M → GroupStore} {log : RoomLog M}
    {safe : SenderKeyName → Nat → Prop} (h : RenewInv owner safe n S log) (m : M) {b pt : Bytes} (hpt : (GroupCipher.decrypt (S m) n b).result = .ok pt)
    (hsent : ∀ id, messageKeyId b = some id → safe n id → ∃ y ∈ sentUnder n log, SameBody b y.bytes) (hS : ∀ x, x ≠ m → S' x n = S x n)
    (hm : S' m n = (GroupCall.decrypt n b).next (S m) n) :
    RenewInv owner safe n S' (log ++ [⟨m, .decrypt n b, .ok (.bytes pt)⟩]) := by
  obtain ⟨msg, s, j, pub, k, s', p1, p2, p3, p4, p5, p6, p7⟩ := GroupCipher.decrypt_ok hpt
  have hid := messageKeyId_of p1
  have hsid : s.senderKeyId.getD 0 = msg.keyId := by
    have := List.find?_some (SenderKeyRecord.findState_ok p2).2.1
    simpa using this
  have hmem : s ∈ (S m n).senderKeyStates := List.mem_of_find?_eq_some (SenderKeyRecord.findState_ok p2).2.1
  have hallow : safe n msg.keyId → ∃ y ∈ sentUnder n (ofKey n msg.keyId log), SameBody b y.bytes := by
    intro hsafe
    obtain ⟨y, hy, hby⟩ := hsent _ hid hsafe
    refine ⟨y, ?_, hby⟩
    obtain ⟨hl, d', _, hid'⟩ := h.sent y hy
    obtain ⟨msg', t1, t2⟩ := messageKeyId_some hid'
    have := (hby.symm.parse hl t1 p1).1
    rw [this, t2]
    exact sent_ofKey.2 ⟨hy, hid'⟩
  have hne : ∀ d', ¬ Announced n [(⟨m, .decrypt n b, .ok (.bytes pt)⟩ : RoomEntry M)] d' := by
    rintro d' ⟨x, hx, rnd, d0, r1, _⟩
    rw [List.mem_singleton.1 hx] at r1
    cases r1
  have hrun : ∀ g : GroupStore, (GroupCipher.decrypt g n b).result = .ok pt →
      ((GroupCall.decrypt n b).run g).result = .ok (.bytes pt) := by
    intro g hg
    rw [run_decrypt]
    unfold GroupCall.mapG
    rw [hg]
  have hskip : ∀ id, msg.keyId ≠ id → About n id (⟨m, .decrypt n b, .ok (.bytes pt)⟩ : RoomEntry M) = false := by
    intro id q
    unfold About
    simp [hid, q]
  have htake : About n msg.keyId (⟨m, .decrypt n b, .ok (.bytes pt)⟩ : RoomEntry M) = true := by
    unfold About
    simp [hid]
  have hh : ∀ x, heardBy x n (log ++ [⟨m, .decrypt n b, .ok (.bytes pt)⟩]) = heardBy x n log := fun x => by
    rw [log_heard_append, heard_silent _ _ _ _ _ (fun _ q => by cases q), List.append_nil]
  have htold : ∀ x, ∀ d ∈ heardBy x n (log ++ [⟨m, .decrypt n b, .ok (.bytes pt)⟩]),
      Announced n (log ++ [⟨m, .decrypt n b, .ok (.bytes pt)⟩]) d :=
    fun m d q => (announced_log_snoc _ _ _ _).2 (.inl (h.told m d (by rw [← hh]; exact q)))
  have hsn : ∀ x ∈ sentUnder n (log ++ [⟨m, .decrypt n b, .ok (.bytes pt)⟩]), 64 < x.bytes.length ∧
      ∃ d, Announced n (log ++ [⟨m, .decrypt n b, .ok (.bytes pt)⟩]) d ∧ messageKeyId x.bytes = some d.id := by
    intro x hx
    rw [log_sent_append, sent_silent _ _ _ _ (by intros; simp), List.append_nil] at hx
    obtain ⟨r1, d, r2, r3⟩ := h.sent x hx
    exact ⟨r1, d, (announced_log_snoc _ _ _ _).2 (.inl r2), r3⟩
  by_cases hmo : m = owner n
  · subst hmo
    rcases h.own with ⟨q, _⟩ | ⟨s0, q1, hann, d, q2, q3⟩
    · rw [q] at hmem; cases hmem
    have hss : s0 = s := by rw [q1] at hmem; exact (List.mem_singleton.1 hmem).symm
    subst hss
    have hj : j = 0 := by
      have := (SenderKeyRecord.findState_ok p2).2.2.1
      rw [q1] at this
      cases j with
      | zero => rfl
      | succ j => simp at this
    subst hj
    have hS' : S' (owner n) n = { senderKeyStates := [s'] } := by
      rw [hm, next_decrypt p7, q1]; rfl
    have hs' : s'.senderKeyId.getD 0 = s0.senderKeyId.getD 0 := by rw [(getSenderKey_step p5).1.id]
    refine ⟨fun id hsafe => ?_, .inr ⟨_, hS', hann.step hC (getSenderKey_step p5).1, d, last_snoc q2 _ hne, by rw [q3, hs']⟩, hsn,
      fun m q => by rw [hS m q]; exact h.priv m q, fun m q => by rw [hS m q, hh]; exact h.held m q, htold⟩
    obtain ⟨V, hV⟩ := h.view id hsafe
    by_cases hi : msg.keyId = id
    · subst hi
      have hv := hV.current s0 q1 hsid
      refine ⟨_, hV.act (m := owner n) (c := .decrypt n b) (r := .ok (.bytes pt)) htake ?_ (fun _ _ => hallow hsafe) hS
        (fun q => absurd rfl q) (fun _ => ⟨?_, d, (announced_log_snoc _ _ _ _).2 (.inl (last_announced q2)), q3.trans hsid⟩)⟩
      · exact hrun _ (by rw [decrypt_congr hv]; exact hpt)
      · rw [hm]
        exact next_congr (g := V (owner n)) (g' := S (owner n)) (.decrypt n b) hv
    · refine ⟨V, hV.skip (hskip id hi) (fun m q => by rw [hS m q]) (fun t r1 r2 => ?_)⟩
      rw [hS'] at r1
      cases r1
      exact absurd (hsid.symm.trans (hs'.symm.trans r2)) hi
  · have hnonempty : statesOf msg.keyId (S m n) ≠ [] := by
      intro q
      have : s ∈ statesOf msg.keyId (S m n) := List.mem_filter.2 ⟨hmem, by simp [hsid]⟩
      rw [q] at this
      cases this
    have hpt' := hpt
    unfold GroupCipher.decrypt at hpt'
    rcases decrypt_only p1 rfl hnonempty with ⟨e, r1, _⟩ | ⟨pt', r', r1, r2, r3⟩
    · rw [r1] at hpt'
      simp only [GroupCipher.wrapInvalid] at hpt'
      split at hpt' <;> cases hpt'
    · rw [r1] at hpt'
      cases hpt'
      have hnext : S' m n = r' := by
        rw [hm]
        apply next_decrypt
        unfold GroupCipher.decrypt
        rw [r1]
      refine ⟨fun id hsafe => ?_, ?_, hsn, fun x q => ?_, fun x q id => ?_, htold⟩
      · obtain ⟨V, hV⟩ := h.view id hsafe
        by_cases hi : msg.keyId = id
        · subst hi
          have hdec : GroupCipher.decrypt (V m) n b =
              ⟨some { senderKeyStates := statesOf msg.keyId r' }, .ok pt⟩ := by
            unfold GroupCipher.decrypt
            rw [hV.member m hmo, r2]
          refine ⟨_, hV.act (m := m) (c := .decrypt n b) (r := .ok (.bytes pt)) htake (hrun _ (by rw [hdec]))
            (fun _ _ => hallow hsafe) hS (fun _ => ?_) (fun q => absurd q hmo)⟩
          rw [hnext]
          apply next_decrypt
          rw [hdec]
        · refine ⟨V, hV.skip (hskip id hi) (fun x q => ?_) (fun t _ _ => hS _ (fun q => hmo q.symm))⟩
          by_cases hx : x = m
          · subst hx
            rw [hnext]
            exact r3 id (fun q => hi q.symm)
          · rw [hS x hx]
      · rw [hS _ (fun q => hmo q.symm)]
        rcases h.own with ⟨h1, h2⟩ | ⟨s, h1, hann, d2, h2, h3⟩
        · refine .inl ⟨h1, fun d hd => ?_⟩
          rcases (announced_log_snoc _ _ _ _).1 hd with q | ⟨rnd, d0, q⟩
          · exact h2 d q
          · exact hne d ⟨_, List.mem_singleton.2 rfl, rnd, d0, q⟩
        · exact .inr ⟨s, h1, hann, d2, last_snoc h2 _ hne, h3⟩
      · by_cases hx : x = m
        · subst hx
          intro t ht
          rw [hm, next_decrypt p7] at ht
          rcases List.mem_or_eq_of_mem_set ht with ht | rfl
          · exact h.priv x q t ht
          · unfold SenderKeyState.getSigningKeyPrivate
            rw [(getSenderKey_step p5).1.signing]
            exact h.priv x q s hmem
        · rw [hS x hx]; exact h.priv x q
      · rw [hh]
        by_cases hx : x = m
        · subst hx
          by_cases hi : id = msg.keyId
          · subst hi
            rw [← h.held x q]
            refine ⟨fun r => ?_, fun r => absurd r hnonempty⟩
            exfalso
            have : s' ∈ statesOf msg.keyId (S' x n) := by
              rw [hm, next_decrypt p7]
              refine List.mem_filter.2 ⟨?_, ?_⟩
              · have := (SenderKeyRecord.findState_ok p2).2.2.1
                exact List.mem_set (List.getElem?_eq_some_iff.1 this).1 _
              · rw [(getSenderKey_step p5).1.id]; simp [hsid]
            rw [r] at this
            cases this
          · rw [hnext, r3 id hi]; exact h.held x q id
        · rw [hS x hx]; exact h.held x q id

/-- The owner announces the present key again. -/
theorem RenewInv.again {owner : SenderKeyName → M} {n : SenderKeyName} {S S' : M → GroupStore} {log : RoomLog M}
    {safe : SenderKeyName → Nat → Prop} (h : RenewInv owner safe n S log) {rnd : GroupSessionBuilder.CreateRand}
    (hs : rnd.senderKey.length = 32) (hseed : rnd.signSeed.length = 32) (hne : (S (owner n) n).senderKeyStates ≠ []) (hS : ∀ x, S' x n = S x n) :
    RenewInv owner safe n S' (log ++ [⟨owner n, .create n rnd, ((GroupCall.create n rnd).run (S (owner n))).result⟩]) := by
  rcases h.own with ⟨q, _⟩ | ⟨s, q1, hann, d, q2, q3⟩
  · rw [q] at hne; exact absurd rfl hne
  obtain ⟨d', hrun, r3, hid⟩ := hann.announce q1 rnd
  have hh : ∀ x, heardBy x n (log ++ [⟨owner n, .create n rnd, .ok (.distribution d')⟩]) = heardBy x n log := fun x => by
    rw [log_heard_append, heard_silent _ _ _ _ _ (fun _ q => by cases q), List.append_nil]
  rw [hrun]
  refine ⟨fun id hsafe => ?_, ?_, fun x hx => ?_, fun m q => by rw [hS]; exact h.priv m q,
    fun m q => by rw [hS, hh]; exact h.held m q,
    fun m d q => (announced_log_snoc _ _ _ _).2 (.inl (h.told m d (by rw [← hh]; exact q)))⟩
  · obtain ⟨V, hV⟩ := h.view id hsafe
    by_cases hi : s.senderKeyId.getD 0 = id
    · subst hi
      have hv := hV.current s q1 rfl
      refine ⟨_, hV.act (m := owner n) (c := .create n rnd) (r := .ok (.distribution d')) ?_ ?_ ⟨rfl, hs, hseed⟩ (fun x _ => hS x)
        (fun q => absurd rfl q) (fun _ => ⟨?_, d', (announced_log_snoc _ _ _ _).2 (.inr ⟨rnd, d', rfl, rfl, r3⟩), hid⟩)⟩
      · rw [← hid]
        exact About.announced ⟨_, List.mem_singleton.2 rfl, rnd, d', rfl, rfl, r3⟩
      · rw [run_congr (g := V (owner n)) (g' := S (owner n)) (.create n rnd) hv]; exact hrun
      · rw [next_create_again (by rw [hv]; exact hne), hv, hS]
    · refine ⟨V, hV.skip ?_ (fun m q => by rw [hS m]) (fun _ _ _ => hS _)⟩
      unfold About
      simp only [announcementKeyId, r3, Except.toOption, Option.map, hid]
      simp [hi]
  · refine .inr ⟨s, by rw [hS]; exact q1, hann, d', ⟨log, _, [], rnd, d', rfl, rfl, rfl, r3, fun d' hd => ?_⟩, hid⟩
    obtain ⟨_, hx, _⟩ := hd
    cases hx
  · rw [log_sent_append, sent_silent _ _ _ _ (by intros; simp), List.append_nil] at hx
    obtain ⟨r1, d, r2, r3⟩ := h.sent x hx
    exact ⟨r1, d, (announced_log_snoc _ _ _ _).2 (.inl r2), r3⟩

theorem Spec.RenewReach.inv (hC : C.Lawful) {owner : SenderKeyName → M} {S : M → GroupStore} {log : RoomLog M}
    {safe : SenderKeyName → Nat → Prop} (h : RenewReach owner safe S log) (n : SenderKeyName) : RenewInv owner safe n S log := by
  induction h with
  | start =>
    refine ⟨fun id _ => ⟨fun _ => GroupStore.empty, .start, fun m _ => rfl, fun s q _ => rfl, fun _ => rfl⟩, .inl ⟨rfl, ?_⟩, ?_, ?_, ?_, ?_⟩
    · rintro d ⟨_, hx, _⟩; cases hx
    · rintro x hx; cases hx
    · rintro m _ s hs; cases hs
    · exact fun m _ id => ⟨fun _ d hd => by (cases hd), fun _ => rfl⟩
    · rintro m d hd; cases hd
  | @call S log m c h ha ih =>
    have hS : ∀ x, x ≠ m → (fun x => if x = m then c.next (S m) else S x) x n = S x n := fun x hx => by
      simp only [if_neg hx]
    have hm : (fun x => if x = m then c.next (S m) else S x) m n = c.next (S m) n := by simp only [if_true]
    have hidle : ∀ {e : RoomEntry M}, (∀ id, About n id e = false) → sentUnder n [e] = [] → c.next (S m) n = S m n →
        RenewInv owner safe n (fun x => if x = m then c.next (S m) else S x) (log ++ [e]) := by
      intro e h1 h2 h3
      refine ih.idle h1 h2 fun x => ?_
      by_cases hx : x = m
      · subst hx; exact hm.trans h3
      · exact hS x hx
    have hfail : ∀ e, (c.run (S m)).result = .error e → c.next (S m) n = S m n →
        RenewInv owner safe n (fun x => if x = m then c.next (S m) else S x) (log ++ [⟨m, c, (c.run (S m)).result⟩]) := by
      intro e h1 h2
      rw [h1]
      exact hidle (About.failed n m c e) (sent_failed n m c e) h2
    by_cases hn : c.name = n
    · cases c with
      | encrypt n' pt rand =>
        have hn : n' = n := hn
        subst hn
        cases hr : (GroupCipher.encrypt (S m) n' pt rand).result with
        | error e =>
          refine hfail e ?_ ?_
          · rw [run_encrypt]; unfold GroupCall.mapG; rw [hr]
          · rw [next_encrypt_error (GroupCipher.encrypt_error hr)]
        | ok b =>
          have := ih.encrypt hC m ha.1 ha.2 hr hS hm
          have hrun : ((GroupCall.encrypt n' pt rand).run (S m)).result = .ok (.bytes b) := by
            rw [run_encrypt]; unfold GroupCall.mapG; rw [hr]
          rw [hrun]; exact this
      | decrypt n' b =>
        have hn : n' = n := hn
        subst hn
        cases hr : (GroupCipher.decrypt (S m) n' b).result with
        | error e =>
          refine hfail e ?_ ?_
          · rw [run_decrypt]; unfold GroupCall.mapG; rw [hr]
          · rw [next_decrypt_error (GroupCipher.decrypt_error hr)]
        | ok pt =>
          have hrun : ((GroupCall.decrypt n' b).run (S m)).result = .ok (.bytes pt) := by
            rw [run_decrypt]; unfold GroupCall.mapG; rw [hr]
          have := ih.decrypt hC m hr (fun id => ha _ id hrun) hS hm
          rw [hrun]; exact this
      | process n' d =>
        have hn : n' = n := hn
        subst hn
        by_cases hg : d.id < 2 ^ 32 ∧ d.iteration < 2 ^ 32
        · have hrun : ((GroupCall.process n' d).run (S m)).result = .ok .done := by
            rw [run_process, process_good hg.1 hg.2]; rfl
          rw [hrun]
          exact ih.process ha.1 ha.2 hg hS hm
        · refine hfail .valueError ?_ ?_
          · rw [run_process, process_bad hg]; rfl
          · rw [next_process_bad hg]
      | create n' rnd =>
        have hn : n' = n := hn
        subst hn
        obtain ⟨rfl, h2, h3⟩ := ha
        by_cases he : (S (owner n') n').senderKeyStates = []
        · by_cases hk : rnd.keyId < 2 ^ 32
          · rcases ih.own with ⟨q1, q2⟩ | ⟨s, q1, _⟩
            · exact ih.fresh hC q1 hk h2 h3 (fun d hd => absurd hd (q2 d)) hS hm
            · rw [q1] at he; cases he
          · refine hfail .valueError ?_ ?_
            · rw [run_create, create_bad he hk]; rfl
            · rw [next_create_bad he hk]
        · refine ih.again h2 h3 he fun x => ?_
          by_cases hx : x = owner n'
          · subst hx; exact hm.trans (by rw [next_create_again he])
          · exact hS x hx
    · exact hidle (About.other hn) (sent_silent _ _ _ _ fun pt rand q => hn (by rw [q]; rfl)) (next_other _ _ _ hn)
  | @renew S log n' rnd h h1 h2 h3 h4 ih =>
    by_cases hn : n' = n
    · subst hn
      refine ih.fresh hC (g := emptied (S (owner n')) n') (by simp [emptied, GroupStore.store]) h3 h1 h2 h4 (fun x hx => ?_) ?_
      · simp only [if_neg hx]
      · simp only [if_true]
    · refine ih.idle (fun id => About.other (by exact hn) id) (sent_silent _ _ _ _ (by intros; simp)) fun x => ?_
      by_cases hx : x = owner n'
      · subst hx
        simp only [if_true]
        rw [next_other _ _ _ (by exact hn)]
        unfold emptied GroupStore.store
        rw [if_neg (fun q => hn q.symm)]
      · simp only [if_neg hx]

end
end Axolotl
