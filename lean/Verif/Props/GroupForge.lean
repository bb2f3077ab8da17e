import Verif.Props.GroupSecrecy
import Verif.Spec.GroupForge

/-!
# C96: who can forge a group message

Exactly those who have the private signing key of the sender; the chain keys, which all members have, are of no use.
-/

namespace Axolotl
section
variable [C : Crypto]
open Spec ByteUtil CiphertextMessage
variable {M : Type} [DecidableEq M]

/-! ## The bytes of a message -/

/-- What the cipher makes of a plaintext for message number `i`. -/
def groupCiphertext (K : Bytes) (i : Nat) (pt : Bytes) : Bytes :=
  match AES.encrypt (groupCipherKey (groupSeed (chainAt K i))) (groupIv (groupSeed (chainAt K i))) pt with
  | .ok c => c
  | .error _ => []

theorem value_groupEnc (K : Bytes) (p : ECPriv) (pt : Nat → Bytes) (rand : Bytes → Bytes) (i : Nat) (t : GTerm) :
    (GTerm.enc (.keys i) t).value K p pt rand = groupCiphertext K i (t.value K p pt rand) := by
  obtain ⟨h1, h2⟩ := value_groupKeys K p pt rand i
  unfold groupCiphertext
  rw [← h1, ← h2]
  rfl

theorem value_groupBody (K : Bytes) (p : ECPriv) (pt : Nat → Bytes) (rand : Bytes → Bytes) (i : Nat) (header : Bytes) :
    (GTerm.body i header).value K p pt rand = header ++ groupCiphertext K i (pt i) := by
  show header ++ (GTerm.enc (.keys i) (.text i)).value K p pt rand = _
  rw [value_groupEnc]; rfl

theorem value_groupWire (K : Bytes) (p : ECPriv) (pt : Nat → Bytes) (rand : Bytes → Bytes) (i : Nat) (header : Bytes) :
    (GTerm.wire i header).value K p pt rand = (header ++ groupCiphertext K i (pt i)) ++
      (C.calcSig (rand (header ++ groupCiphertext K i (pt i))) p (header ++ groupCiphertext K i (pt i))).getD [] := by
  show (GTerm.body i header).value K p pt rand ++ (C.calcSig (rand ((GTerm.body i header).value K p pt rand)) p
    ((GTerm.body i header).value K p pt rand)).getD [] = _
  rw [value_groupBody]

/-- What is written in front of a ciphertext of this length. -/
def groupHeader (id it len : Nat) : Bytes :=
  intsToByteHighAndLow CURRENT_VERSION CURRENT_VERSION ::
    (Wire.encField ⟨1, .varint id⟩ ++ (Wire.encField ⟨2, .varint it⟩ ++ (Wire.encVarint (3 * 8 + 2) ++ Wire.encVarint len)))

omit C in
theorem groupBody_bytes (id it : Nat) (ct : Bytes) :
    intsToByteHighAndLow CURRENT_VERSION CURRENT_VERSION :: serializeWith SenderKeyMessageP.toFields
      { id := some id, iteration := some it, ciphertext := some ct } = groupHeader id it ct.length ++ ct := by
  unfold groupHeader serializeWith SenderKeyMessageP.toFields Wire.putVarint Wire.putBytes Wire.encFields
  simp [Wire.encField]

/-- What `create` writes. -/
theorem senderkey_created {id it : Nat} {ct : Bytes} {p : ECPriv} {r : Bytes} {m : SenderKeyMessage}
    (h : SenderKeyMessage.create id it ct p r = .ok m) :
    ∃ sig, C.calcSig r p (groupHeader id it ct.length ++ ct) = some sig ∧ m.serialized = (groupHeader id it ct.length ++ ct) ++ sig := by
  unfold SenderKeyMessage.create at h
  obtain ⟨id', q1, h⟩ := bind_eq_ok.1 h
  obtain ⟨it', q2, h⟩ := bind_eq_ok.1 h
  obtain ⟨sig, q3, h⟩ := bind_eq_ok.1 h
  obtain ⟨r1, _⟩ := chkU32_eq_ok.1 q1
  obtain ⟨r2, _⟩ := chkU32_eq_ok.1 q2
  have e1 : id' = id := by omega
  have e2 : it' = it := by omega
  subst e1 e2
  rw [groupBody_bytes] at q3
  have h := (Except.ok.inj h).symm
  subst h
  refine ⟨sig, ?_, ?_⟩
  · unfold Curve.calculateSignature at q3
    split at q3
    · rename_i x hx; rw [hx, Except.ok.inj q3]
    · cases q3
  · show _ :: (_ ++ sig) = _
    rw [← List.cons_append, groupBody_bytes]

/-! ## What the owner has sent -/

omit [DecidableEq M] in
/-- A call that sends nothing under the name. -/
theorem Spec.GroupWritten.more {K : Bytes} {pub : ECPub} {p : ECPriv} {rand : Bytes → Bytes} {headers : Nat → Bytes} {n : SenderKeyName}
    {log log' : RoomLog M} (h : GroupWritten K pub p rand headers n log) (hs : sentUnder n log' = sentUnder n log) :
    GroupWritten K pub p rand headers n log' := by
  have e : saidUnder n log' = saidUnder n log := by funext i; unfold saidUnder; rw [hs]
  exact ⟨h.pair, h.random, fun i x hx => by rw [e]; exact h.sent i x (by rw [← hs]; exact hx)⟩

/-- The next message of the owner. -/
theorem Spec.GroupWritten.next (hC : C.Lawful) {owner : SenderKeyName → M} {S : M → GroupStore} {log : RoomLog M} {n : SenderKeyName}
    {d0 : SenderKeyDistributionMessage} (hr : RoomRunning owner S log n d0) {p : ECPriv} {rand : Bytes → Bytes}
    {headers : Nat → Bytes} (h : GroupWritten d0.chainKey d0.signatureKey p rand headers n log) {m : M} {s : SenderKeyState}
    (hs : sendingState (S (owner n) n) = some s) (hp : SenderKeyState.getSigningKeyPrivate s = p) {pt r : Bytes}
    (hpt : pt.length < 2 ^ 62) (hrl : r.length = 64) {b : Bytes} (hb : (GroupCipher.encrypt (S m) n pt r).result = .ok b) :
    ∃ rand' headers', GroupWritten d0.chainKey d0.signatureKey p rand' headers' n (log ++ [⟨m, .encrypt n pt r, .ok (.bytes b)⟩]) := by
  obtain ⟨rfl, hr'⟩ := hr.encrypt hC m hpt hrl hb
  obtain ⟨s', ct, msg, q1, q2, q3, q4, _, _⟩ := GroupCipher.encrypt_ok hb
  have := Option.some.inj (hs.symm.trans q1)
  subst this
  rw [senderMessageKey_eq hC.hmac_len] at q2
  obtain ⟨s', hs', ho⟩ := hr.own
  have := Option.some.inj (hs.symm.trans hs')
  subst this
  have hct : groupCiphertext d0.chainKey (sentUnder n log).length pt = ct := by
    unfold groupCiphertext
    rw [← ho.chain, q2]
  obtain ⟨sig, c1, c2⟩ := senderkey_created q3
  rw [hp] at c1
  subst q4
  have hsl := (hC.sig_size _ _ _ _ c1).2
  generalize hhd : groupHeader (SenderKeyState.getKeyId s) (iterationOf s) ct.length = hd at c1 c2
  have hlog : sentUnder n (log ++ [(⟨owner n, .encrypt n pt r, .ok (.bytes msg.serialized)⟩ : RoomEntry M)]) =
      sentUnder n log ++ [⟨n, pt, msg.serialized⟩] := by
    rw [sentUnder_snoc]; unfold sentUnder; simp
  have hsaid : ∀ i, i < (sentUnder n log).length →
      saidUnder n (log ++ [(⟨owner n, .encrypt n pt r, .ok (.bytes msg.serialized)⟩ : RoomEntry M)]) i = saidUnder n log i := by
    intro i hi
    unfold saidUnder
    rw [hlog, List.getElem?_append_left hi]
  have hlast : saidUnder n (log ++ [(⟨owner n, .encrypt n pt r, .ok (.bytes msg.serialized)⟩ : RoomEntry M)])
      (sentUnder n log).length = pt := by
    unfold saidUnder
    rw [hlog, List.getElem?_append_right (Nat.le_refl _)]
    simp
  refine ⟨fun x => if x = hd ++ ct then r else rand x,
    fun i => if i = (sentUnder n log).length then hd else headers i, h.pair, fun x => by
      split
      · exact hrl
      · exact h.random x, fun i x hx => ?_⟩
  rw [value_groupWire]
  by_cases hi : i = (sentUnder n log).length
  · subst hi
    rw [hlog, List.getElem?_append_right (Nat.le_refl _)] at hx
    simp only [Nat.sub_self, List.getElem?_cons_zero, Option.some.injEq] at hx
    subst hx
    simp only [if_pos, hlast, hct]
    rw [c1, c2]; rfl
  · have hx' : (sentUnder n log)[i]? = some x := by
      rw [hlog] at hx
      by_cases hlt : i < (sentUnder n log).length
      · rw [List.getElem?_append_left hlt] at hx; exact hx
      · rw [List.getElem?_append_right (by omega)] at hx
        have : i - (sentUnder n log).length ≠ 0 := by omega
        obtain ⟨j, hj⟩ := Nat.exists_eq_succ_of_ne_zero this
        rw [hj] at hx
        simp at hx
    have hlt : i < (sentUnder n log).length := (List.getElem?_eq_some_iff.1 hx').1
    have hw := h.sent i x hx'
    rw [value_groupWire] at hw
    simp only [if_neg hi, hsaid i hlt]
    rw [if_neg]
    · exact hw
    · intro e
      -- another number, so another body
      obtain ⟨hl, m1, g1, g2⟩ := hr'.sent i x hx
      have hy : (sentUnder n (log ++ [(⟨owner n, .encrypt n pt r, .ok (.bytes msg.serialized)⟩ : RoomEntry M)]))[(sentUnder n log).length]? =
          some ⟨n, pt, msg.serialized⟩ := by
        rw [hlog, List.getElem?_append_right (Nat.le_refl _)]; simp
      obtain ⟨_, m2, g3, g4⟩ := hr'.sent _ _ hy
      have hsame : SameBody x.bytes msg.serialized := by
        rw [e] at hw
        obtain ⟨sg, hsg, hsg2, _⟩ := hC.sig_ok (rand (hd ++ ct)) p (hd ++ ct) (h.random _) h.pair.1
        rw [hsg] at hw
        exact ⟨hd ++ ct, sg, sig, hw, c2, hsg2, hsl⟩
      have := hsame.parse hl g1.parses g3.parses
      omega

/-- By induction: and `p` is the private key in the owner's record. -/
theorem Spec.RoomReach.written (hC : C.Lawful) {owner : SenderKeyName → M} {S : M → GroupStore} {log : RoomLog M}
    (h : RoomReach owner S log) {n : SenderKeyName} {d : SenderKeyDistributionMessage} (hd : AnnouncedAt n log 0 d) :
    ∃ s rand headers, sendingState (S (owner n) n) = some s ∧
      GroupWritten d.chainKey d.signatureKey (SenderKeyState.getSigningKeyPrivate s) rand headers n log := by
  induction h with
  | start => obtain ⟨pre, _, _, _, _, h, _⟩ := hd; cases pre <;> cases h
  | @call S log m c hprev hall ih =>
    have hreach := RoomReach.call m c hprev hall
    rcases (announced_snoc _ _ _ _ _).1 hd with hd' | ⟨rnd, d1, k1, k2, k3, k4⟩
    · obtain ⟨s, rand, headers, i1, i2⟩ := ih hd'
      obtain ⟨d0, hr, e1, e2⟩ := first_announced hC hprev hd'
      -- the sending state keeps its signing key
      have hkeep : ∃ s', sendingState ((if owner n = m then c.next (S m) else S (owner n)) n) = some s' ∧
          SenderKeyState.getSigningKeyPrivate s' = SenderKeyState.getSigningKeyPrivate s := by
        split
        · next hm =>
          rw [← hm]
          obtain ⟨s', j1, j2⟩ := (next_record (S (owner n)) c n).keeps_sending i1
          refine ⟨s', j1, ?_⟩
          rcases j2 with rfl | j2
          · rfl
          · unfold SenderKeyState.getSigningKeyPrivate; rw [j2.signing]
        · exact ⟨s, i1, rfl⟩
      obtain ⟨s', j1, j2⟩ := hkeep
      by_cases hsame : sentUnder n (log ++ [⟨m, c, (c.run (S m)).result⟩]) = sentUnder n log
      · exact ⟨s', rand, headers, j1, by rw [j2]; exact i2.more hsame⟩
      · cases c with
        | encrypt n' pt r =>
          cases hb : (GroupCipher.encrypt (S m) n' pt r).result with
          | error e =>
            exfalso; apply hsame
            rw [sentUnder_snoc]; unfold sentUnder
            have e0 : ((GroupCall.encrypt n' pt r).run (S m)).result = .error e := by
              show (GroupCall.mapG _ _).result = _
              unfold GroupCall.mapG; simp only [hb]
            simp [e0]
          | ok b =>
            have e0 : ((GroupCall.encrypt n' pt r).run (S m)).result = .ok (.bytes b) := by
              show (GroupCall.mapG _ _).result = _
              unfold GroupCall.mapG; simp only [hb]
            by_cases hn : n' = n
            · subst hn
              rw [← e1, ← e2] at i2
              obtain ⟨rand', headers', w⟩ := i2.next hC hr i1 rfl hall.1 hall.2 hb
              refine ⟨s', rand', headers', j1, ?_⟩
              rw [← e1, ← e2, j2]
              rw [e0]; exact w
            · exfalso; apply hsame
              rw [sentUnder_snoc]; unfold sentUnder
              simp [e0, hn]
        | decrypt _ _ =>
          exfalso; apply hsame
          rw [sentUnder_snoc]; unfold sentUnder; simp
        | process _ _ =>
          exfalso; apply hsame
          rw [sentUnder_snoc]; unfold sentUnder; simp
        | create _ _ =>
          exfalso; apply hsame
          rw [sentUnder_snoc]; unfold sentUnder; simp
    · have k1 : c = .create n rnd := k1
      obtain ⟨d0, hr, e1, e2⟩ := first_announced hC hreach hd
      obtain ⟨s, hs, ho⟩ := hr.own
      obtain ⟨seed, p1, p2, _, p4⟩ := ho.pair
      refine ⟨s, fun _ => List.replicate 64 0, fun _ => [], hs, ⟨⟨?_, seed, p2⟩, ?_⟩, fun _ => List.length_replicate, fun i x hx => ?_⟩
      · rw [p2]; exact hC.genPriv_len _ p1
      · rw [p2, ← p4, e2]
      · subst k1
        rw [sentUnder_snoc, List.eq_nil_of_length_eq_zero k4] at hx
        simp [sentUnder] at hx

/-- **C96.** The messages sent under a name are, byte for byte, what the terms say, with the chain key and the signing key that were
announced first. -/
theorem C96_written (hC : C.Lawful) (owner : SenderKeyName → M) (S : M → GroupStore) (log : RoomLog M) (h : RoomReach owner S log)
    (n : SenderKeyName) (d : SenderKeyDistributionMessage) (hd : AnnouncedAt n log 0 d) :
    ∃ p rand headers, GroupWritten d.chainKey d.signatureKey p rand headers n log := by
  obtain ⟨s, rand, headers, _, w⟩ := h.written hC hd
  exact ⟨_, rand, headers, w⟩

/-! ## What is accepted -/

/-- The signing keys that a record holds for a name are all the one that was announced first. -/
theorem RoomRunning.one_key {owner : SenderKeyName → M} {S : M → GroupStore} {log : RoomLog M} {n : SenderKeyName}
    {d0 : SenderKeyDistributionMessage} (h : RoomRunning owner S log n d0) (hk : GroupKept owner S log n) (m : M)
    {s : SenderKeyState} (hs : s ∈ (S m n).senderKeyStates) : SenderKeyState.getSigningKeyPublic s = .ok d0.signatureKey := by
  have hadd : ∀ d ∈ heardBy m n log, SenderKeyState.getSigningKeyPublic (addedState d) = .ok d0.signatureKey := by
    intro d hd
    obtain ⟨k, hk⟩ := hk.heard m d hd
    rw [← (h.announced k d hk).1.sig]
    exact decodePoint_serializePoint (by rw [(h.announced k d hk).1.sig, h.slen]; omega)
  rcases h.records hk m with ⟨_, t, e, ho⟩ | ⟨_, _, e⟩ | ⟨_, d, rest, t, e1, e2, ho, _⟩
  · rw [e] at hs
    rcases mem_added hs with rfl | ⟨d, hd, rfl⟩
    · exact ho.pub h.slen
    · exact hadd d hd
  · rw [e] at hs; cases hs
  · rw [e2] at hs
    rcases mem_added hs with rfl | ⟨d', hd', rfl⟩
    · have hd : d ∈ heardBy m n log := by rw [e1]; exact List.mem_cons_self ..
      obtain ⟨k, hk⟩ := hk.heard m d hd
      rw [ho.pub, (h.announced k d hk).1.sig]
    · exact hadd d' (by rw [e1]; exact List.mem_cons_of_mem _ hd')

/-- **C96.** What any member accepts under a name carries a signature that verifies with the key that was announced first. -/
theorem C96_verifies (hC : C.Lawful) (owner : SenderKeyName → M) (S : M → GroupStore) (log : RoomLog M) (h : RoomReach owner S log)
    (n : SenderKeyName) (m : M) (b pt : Bytes) (hb : (GroupCipher.decrypt (S m) n b).result = .ok pt) :
    ∃ d msg, AnnouncedAt n log 0 d ∧ SenderKeyMessage.parse b = .ok msg ∧ msg.verifySignature d.signatureKey = .ok () := by
  obtain ⟨msg, s, j, pub, k, s', h1, h2, h3, h4, _⟩ := GroupCipher.decrypt_ok hb
  have hs := (SenderKeyRecord.getStateById_ok h2).1
  have hmem : s ∈ (S m n).senderKeyStates := List.mem_of_find?_eq_some hs
  obtain ⟨d, hd⟩ := C90_first hC owner S log h n (.inr ⟨m, .inr (List.ne_nil_of_mem hmem)⟩)
  obtain ⟨d0, hr, e1, e2⟩ := first_announced hC h hd
  have := hr.one_key (h.kept hC n) m hmem
  rw [h3] at this
  rw [Except.ok.inj this, e2] at h4
  exact ⟨d, msg, hd, h1, h4⟩

omit C in
/-- **C96.** Without the signing key the only signatures that can be computed are those seen, whichever chain keys, message
keys and plaintexts have leaked; with it, a signature of anything that can be computed. -/
theorem C96_signatures (l : GLeak) (headers : Nat → Bytes) (count : Nat) (t : GTerm) :
    GDerives (l.Has headers count) (.sig t) ↔
      (∃ i < count, t = .body i (headers i)) ∨ (l.signing ∧ GDerives (l.Has headers count) t) :=
  gderives_sig t

/-- **C96.** If an attacker without the signing key gets bytes accepted, the owner sent them, up to the signature. -/
theorem C96_accepted (hC : C.Lawful) (owner : SenderKeyName → M) (S : M → GroupStore) (log : RoomLog M) (h : RoomReach owner S log)
    (n : SenderKeyName) (m : M) (b pt : Bytes) (hb : (GroupCipher.decrypt (S m) n b).result = .ok pt)
    (hcraft : ∀ d, AnnouncedAt n log 0 d → ∃ p rand headers l, GroupWritten d.chainKey d.signatureKey p rand headers n log ∧
      ¬ l.signing ∧ GroupCrafted d.chainKey d.signatureKey p rand headers l n log b) :
    ∃ y ∈ sentUnder n log, SameBody b y.bytes := by
  obtain ⟨d, msg, hd, h1, h2⟩ := C96_verifies hC owner S log h n m b pt hb
  obtain ⟨p, rand, headers, l, hw, hl, hc⟩ := hcraft d hd
  obtain ⟨t, t1, t2⟩ := hc msg h1 h2
  rcases (C96_signatures l headers _ t).1 t1 with ⟨i, hi, rfl⟩ | ⟨q, _⟩
  · refine ⟨(sentUnder n log)[i], List.getElem_mem hi, ?_⟩
    have hx : (sentUnder n log)[i]? = some (sentUnder n log)[i] := List.getElem?_eq_some_iff.2 ⟨hi, rfl⟩
    have hsent := hw.sent i _ hx
    rw [value_groupWire] at hsent
    rw [value_groupBody] at t2
    obtain ⟨body, sig, e1, e2, _⟩ := verifySignature_ok hC h2
    rw [senderkey_parse_serialized h1] at e1
    obtain ⟨sg, hsg, hsg2, _⟩ := hC.sig_ok (rand (headers i ++ groupCiphertext d.chainKey i (saidUnder n log i))) p
      (headers i ++ groupCiphertext d.chainKey i (saidUnder n log i)) (hw.random _) hw.pair.1
    rw [hsg] at hsent
    refine ⟨_, sig, sg, ?_, hsent, e2, hsg2⟩
    rw [t2, e1, List.take_left' (by rw [List.length_append]; omega)]
  · exact absurd q hl

/-- **C96.** So what C72 assumes of the network follows: everything C72 and C90 say holds against an attacker who has the chain
keys of all members, but not the signing key. -/
theorem C96_reach (hC : C.Lawful) (owner : SenderKeyName → M) (S : M → GroupStore) (log : RoomLog M) (h : CraftReach owner S log) :
    RoomReach owner S log := by
  induction h with
  | start => exact .start
  | @call S log m c _ hall ih =>
    refine .call m c ih ?_
    cases c with
    | encrypt n pt rand => exact hall
    | create n rnd => exact hall
    | process n d => exact hall
    | decrypt n b =>
      intro x hx
      cases hr : (GroupCipher.decrypt (S m) n b).result with
      | ok pt => exact C96_accepted hC owner S log ih n m b pt hr hall
      | error e =>
        have hx : (GroupCall.mapG GroupReply.bytes (GroupCipher.decrypt (S m) n b)).result = .ok x := hx
        unfold GroupCall.mapG at hx
        simp only [hr] at hx
        cases hx

/-- **C96.** In particular: whatever a member reads was sent by the owner of the name, with this plaintext. -/
theorem C96_genuine (hC : C.Lawful) (owner : SenderKeyName → M) (S : M → GroupStore) (log : RoomLog M) (h : CraftReach owner S log)
    (n : SenderKeyName) (m : M) (q : Bytes × Bytes) (hq : q ∈ readBy m n log) :
    ∃ x ∈ sentUnder n log, SameBody q.1 x.bytes ∧ q.2 = x.plaintext := by
  obtain ⟨_, i, _, x, _, _, h1, h2, h3, _⟩ := C72_genuine hC owner S log (C96_reach hC owner S log h) n m q hq
  exact ⟨x, List.mem_of_getElem? h1, h2, h3⟩

/-- **C96.** Nothing is needed to pass on messages that were sent, in any order and as often as one likes. -/
theorem C96_replay (hC : C.Lawful) (owner : SenderKeyName → M) (S : M → GroupStore) (log : RoomLog M) (h : RoomReach owner S log)
    (n : SenderKeyName) (m : M) (x : GroupSent) (hx : x ∈ sentUnder n log) (b : Bytes) (hb : SameBody b x.bytes) :
    CraftAllowed owner log m (.decrypt n b) := by
  intro d hd
  obtain ⟨p, rand, headers, hw⟩ := C96_written hC owner S log h n d hd
  refine ⟨p, rand, headers, ⟨fun _ => False, fun _ => False, False, fun _ => False⟩, hw, id, fun msg h1 h2 => ?_⟩
  obtain ⟨i, hx⟩ := List.mem_iff_getElem?.1 hx
  refine ⟨.body i (headers i), (C96_signatures _ headers _ _).2 (.inl ⟨i, (List.getElem?_eq_some_iff.1 hx).1, rfl⟩), ?_⟩
  have hsent := hw.sent i x hx
  rw [value_groupWire] at hsent
  rw [value_groupBody, hb.body]
  obtain ⟨sg, hsg, hsg2, _⟩ := hC.sig_ok (rand (headers i ++ groupCiphertext d.chainKey i (saidUnder n log i))) p
    (headers i ++ groupCiphertext d.chainKey i (saidUnder n log i)) (hw.random _) hw.pair.1
  rw [hsg] at hsent
  rw [hsent]
  show _ = List.take _ (_ ++ sg)
  rw [List.take_left' (by simp only [Option.getD_some, List.length_append]; omega)]

/-- **C96.** The members are no exception: all their records together, all announcements and all plaintexts are not enough to make
anybody else accept a message that the owner did not send. -/
theorem C96_insiders (hC : C.Lawful) (owner : SenderKeyName → M) (S : M → GroupStore) (log : RoomLog M) (h : RoomReach owner S log)
    (n : SenderKeyName) (p : ECPriv) (rand : Bytes → Bytes) (headers : Nat → Bytes) (d : SenderKeyDistributionMessage)
    (hd : AnnouncedAt n log 0 d) (hw : GroupWritten d.chainKey d.signatureKey p rand headers n log) (m : M) (b pt : Bytes)
    (hc : GroupCrafted d.chainKey d.signatureKey p rand headers (groupTheft n S (· ≠ owner n) (fun _ => True) (fun _ => True)) n log b)
    (hb : (GroupCipher.decrypt (S m) n b).result = .ok pt) : ∃ y ∈ sentUnder n log, SameBody b y.bytes := by
  refine C96_accepted hC owner S log h n m b pt hb fun d' hd' => ?_
  obtain ⟨d0, hr, e1, e2⟩ := first_announced hC h hd
  have k1 := (hr.announced 0 d hd).1
  have k2 := (hr.announced 0 d' hd').1
  have f1 : d'.chainKey = d.chainKey := by rw [k1.chain, k2.chain]
  have f2 : d'.signatureKey = d.signatureKey := by rw [k1.sig, k2.sig]
  rw [f1, f2]
  refine ⟨p, rand, headers, _, hw, ?_, hc⟩
  rintro ⟨m', s, hm', hs, hne⟩
  exact hne ((hr.member m' hm').noPriv s hs)

/-- **C96.** The signing key is enough, together with the keys of a message: the attacker computes a message number `i` with a text
of their own; each member accepts it who took up an announcement made before and has not read message `i`; and refuses the one of
the owner afterwards. -/
theorem C96_forge (hC : C.Lawful) (owner : SenderKeyName → M) (S : M → GroupStore) (log : RoomLog M) (h : RoomReach owner S log)
    (n : SenderKeyName) (m : M) (hm : m ≠ owner n) (dm : SenderKeyDistributionMessage) (rest : List SenderKeyDistributionMessage)
    (hdm : heardBy m n log = dm :: rest) (d : SenderKeyDistributionMessage) (hd : AnnouncedAt n log 0 d)
    (p : ECPriv) (hp : C.Generated p) (hpub : C.genPub p = d.signatureKey) (rand : Bytes → Bytes) (hrand : ∀ x, (rand x).length = 64)
    (headers : Nat → Bytes) (l : GLeak) (hsig : l.signing) (i : Nat) (hreads : l.reads i) (hi : dm.iteration ≤ i)
    (hfit : i + 1 < 2 ^ 32) (hnew : ∀ x, (sentUnder n log)[i]? = some x → ∀ q ∈ readBy m n log, ¬ SameBody q.1 x.bytes)
    (text : Bytes) (ht : text.length < 2 ^ 62) :
    ∃ header, GDerives (l.Has headers (sentUnder n log).length) (GTerm.forged i header text) ∧
      (GroupCipher.decrypt (S m) n ((GTerm.forged i header text).value d.chainKey p (saidUnder n log) rand)).result = .ok text ∧
      ∀ x, (sentUnder n log)[i]? = some x →
        GroupCipher.decrypt ((GroupCall.decrypt n ((GTerm.forged i header text).value d.chainKey p (saidUnder n log) rand)).next (S m))
          n x.bytes = ⟨none, .error .duplicateMessage⟩ := by
  obtain ⟨d0, hr, e1, e2⟩ := first_announced hC h hd
  rw [← e2] at hpub
  rw [← e1]
  obtain ⟨⟨k, r1⟩, hold, _⟩ := (hr.member m hm).holds dm rest hdm
  have hdesc := (hr.announced k dm r1).1
  obtain ⟨ct, c1, c2, _, _, c5⟩ := C01_cipher_roundtrip hC (groupCipherKey (groupSeed (chainAt d0.chainKey i)))
    (groupIv (groupSeed (chainAt d0.chainKey i))) text (.inr (.inr (groupCipherKey_length hC.hmac_len _)))
    (groupIv_length hC.hmac_len _)
  have hct : groupCiphertext d0.chainKey i text = ct := by unfold groupCiphertext; rw [c1]
  obtain ⟨msg, m1, m2, m3, m4, m5, m6⟩ := C05_senderkey_roundtrip hC d0.id i hr.id (by omega) ct (by omega) p hp
    (rand (groupHeader d0.id i ct.length ++ ct)) (hrand _)
  obtain ⟨sig, s1, s2⟩ := senderkey_created m1
  have hval : (GTerm.forged i (groupHeader d0.id i ct.length) text).value d0.chainKey p (saidUnder n log) rand = msg.serialized := by
    have hbody : (GTerm.join (.bytes (groupHeader d0.id i ct.length)) (.enc (.keys i) (.bytes text))).value d0.chainKey p
        (saidUnder n log) rand = groupHeader d0.id i ct.length ++ ct := by
      show _ ++ (GTerm.enc (.keys i) (.bytes text)).value d0.chainKey p (saidUnder n log) rand = _
      rw [value_groupEnc]
      show _ ++ groupCiphertext d0.chainKey i text = _
      rw [hct]; rfl
    show (GTerm.join _ _).value d0.chainKey p (saidUnder n log) rand ++ (C.calcSig (rand ((GTerm.join _ _).value d0.chainKey p
      (saidUnder n log) rand)) p ((GTerm.join _ _).value d0.chainKey p (saidUnder n log) rand)).getD [] = _
    rw [hbody, s1, s2]; rfl
  have hgen : GroupGenuine dm ⟨n, text, msg.serialized⟩ msg := by
    refine GroupGenuine.later_on (d0 := d0) (k := k) ⟨m2, m4, by rw [hr.it]; exact Nat.zero_le _, by rw [m5]; exact hfit, by rw [← hpub]; exact m3, ?_,
      hr.slen⟩ hr.it hdesc (by rw [m5, ← hdesc.it]; exact hi)
    rw [m5, m6, hr.it, Nat.sub_zero]
    exact c2
  have hdel := deliver_new hC hold hgen (by
    rw [m5]
    rintro ⟨x, q, q1, q2, q3⟩
    exact hnew x q1 q q2 q3)
  refine ⟨groupHeader d0.id i ct.length, ?_, ?_, ?_⟩
  · have hb : GDerives (l.Has headers (sentUnder n log).length)
        (GTerm.join (.bytes (groupHeader d0.id i ct.length)) (.enc (.keys i) (.bytes text))) :=
      .join (.bytes _) (.enc (gderives_keys i |>.2 hreads) (.bytes _))
    exact .join hb (.sign (.has (.signing hsig)) hb)
  · rw [hval]; exact hdel.1
  · intro x hx
    rw [hval]
    obtain ⟨_, mx, g1, g2⟩ := hr.sent i x hx
    exact deliver_again hdel.2 (g1.later_on hr.it hdesc (by rw [g2, ← hdesc.it]; exact hi)) (.inr (by rw [m5, g2]))

end
/-! ## Non-vacuity -/

section
attribute [local instance] toy
open Example Spec

/-- Two messages are sent and passed on to members; then the attacker puts the signature of the first one under the second. -/
def Example.forgeCalls : List (Nat × GroupCall) :=
  [(0, .create grp grpRand), (1, .process grp grpDist), (2, .process grp grpDist), (0, .encrypt grp [1] grpSig),
   (1, .decrypt grp (grpMsg 0)), (0, .encrypt grp [2, 2] grpSig),
   (2, .decrypt grp ((grpMsg 1).take ((grpMsg 1).length - 64) ++ (grpMsg 0).drop ((grpMsg 0).length - 64)))]

theorem Example.forge_run : ∀ i, i ≤ 7 → CraftReach roomOwner (roomRun (forgeCalls.take i)).1 (roomRun (forgeCalls.take i)).2 := by
  intro i
  induction i with
  | zero => intro _; exact .start
  | succ i ih =>
    intro hi
    have hlen : forgeCalls.length = 7 := rfl
    have hi' : i < forgeCalls.length := by omega
    have h : CraftAllowed roomOwner (roomRun (forgeCalls.take i)).2 forgeCalls[i].1 forgeCalls[i].2 := by
      have hr := C96_reach toy_lawful roomOwner _ _ (ih (by omega))
      have : i = 0 ∨ i = 1 ∨ i = 2 ∨ i = 3 ∨ i = 4 ∨ i = 5 ∨ i = 6 := by omega
      rcases this with rfl | rfl | rfl | rfl | rfl | rfl | rfl
      · exact ⟨rfl, by decide +kernel, by decide +kernel⟩
      · exact ⟨0, announced_index 0 0 (by decide +kernel)⟩
      · exact ⟨0, announced_index 0 0 (by decide +kernel)⟩
      · exact ⟨by decide +kernel, by decide +kernel⟩
      · have hmem : (⟨grp, [1], grpMsg 0⟩ : GroupSent) ∈ sentUnder grp (roomRun (forgeCalls.take 4)).2 := by decide +kernel
        exact C96_replay toy_lawful roomOwner _ _ hr grp 1 _ hmem _ (sameBody_refl (by decide +kernel))
      · exact ⟨by decide +kernel, by decide +kernel⟩
      · intro d hd
        obtain ⟨p, rand, headers, hw⟩ := C96_written toy_lawful roomOwner _ _ hr grp d hd
        refine ⟨p, rand, headers, ⟨fun _ => True, fun _ => True, False, fun _ => True⟩, hw, id, fun msg h1 h2 => ?_⟩
        exfalso
        obtain ⟨d0, hrun, e1, e2⟩ := first_announced toy_lawful hr hd
        have hfirst : AnnouncedAt grp (roomRun (forgeCalls.take 6)).2 0 grpDist := announced_index 0 0 (by decide +kernel)
        have hkey : d.signatureKey = grpDist.signatureKey := by
          rw [← e2, (hrun.announced 0 grpDist hfirst).1.sig]
        rw [hkey] at h2
        have hno : (match SenderKeyMessage.parse ((grpMsg 1).take ((grpMsg 1).length - 64) ++ (grpMsg 0).drop ((grpMsg 0).length - 64)) with
            | .ok m => (m.verifySignature grpDist.signatureKey).toOption
            | .error _ => none) = none := by decide +kernel
        have h1 : SenderKeyMessage.parse ((grpMsg 1).take ((grpMsg 1).length - 64) ++
          (grpMsg 0).drop ((grpMsg 0).length - 64)) = .ok msg := h1
        rw [h1] at hno
        simp only [h2] at hno
        cases hno
    have := CraftReach.call forgeCalls[i].1 forgeCalls[i].2 (ih (by omega)) h
    rw [List.take_succ_eq_append_getElem (by omega)]
    unfold roomRun at this ⊢
    rw [List.foldl_append]
    exact this

/-- `C96_reach`, `C96_genuine`: in this run a member reads a message, and the forgery is refused. -/
example : CraftReach roomOwner (roomRun forgeCalls).1 (roomRun forgeCalls).2 ∧
    readBy 1 grp (roomRun forgeCalls).2 = [(grpMsg 0, [1])] ∧ readBy 2 grp (roomRun forgeCalls).2 = [] :=
  ⟨forge_run 7 (Nat.le_refl _), by decide +kernel⟩

/-- `C96_forge`: with the signing key, anybody can speak to member 2 as message number 1, or as number 40. -/
example (headers : Nat → Bytes) (i : Nat) (hi : i = 1 ∨ i = 40) :
    ∃ header, GDerives ((⟨(· = 0), fun _ => False, True, fun _ => False⟩ : GLeak).Has headers (sentUnder grp (roomRun forgeCalls).2).length)
        (GTerm.forged i header [9]) ∧
      (GroupCipher.decrypt ((roomRun forgeCalls).1 2) grp ((GTerm.forged i header [9]).value grpDist.chainKey (key 92)
        (saidUnder grp (roomRun forgeCalls).2) (fun _ => grpSig))).result = .ok [9] := by
  have hd : AnnouncedAt grp (roomRun forgeCalls).2 0 grpDist := announced_index 0 0 (by decide +kernel)
  obtain ⟨header, h1, h2, _⟩ := C96_forge toy_lawful roomOwner _ _ (C96_reach toy_lawful roomOwner _ _ (forge_run 7 (Nat.le_refl _))) grp 2 (by decide +kernel)
    grpDist [] (by decide +kernel) grpDist hd (key 92) ⟨by decide +kernel, grpRand.signSeed, by decide +kernel⟩ (by decide +kernel)
    (fun _ => grpSig) (fun _ => by decide +kernel) headers ⟨(· = 0), fun _ => False, True, fun _ => False⟩ trivial i
    (.inr ⟨0, Nat.zero_le _, rfl⟩) (by have : grpDist.iteration = 0 := by decide +kernel
                                       omega) (by omega)
    (fun x _ q hq => by
      have : readBy 2 grp (roomRun forgeCalls).2 = [] := by decide +kernel
      rw [show forgeCalls.take 7 = forgeCalls from rfl, this] at hq
      cases hq) [9] (by decide)
  exact ⟨header, h1, h2⟩

end
end Axolotl
