import Verif.Spec.Content
import Verif.Props.Conversation
import Verif.Props.MessageSize

/-! Two runs of a conversation that differ in the plaintexts only. -/

namespace Axolotl
section
variable [C : Crypto]
open SessionState SessionBuilder RatchetingSession
open Spec (GoodPair Net Conv header SameHeader SameOutside Retold)

/-- Two results that are alike: both succeed, with related values, or both raise the same. -/
inductive Like {α : Type} (R : α → α → Prop) : Res α → Res α → Prop
  | ok {a b : α} : R a b → Like R (.ok a) (.ok b)
  | error (e : Err) : Like R (.error e) (.error e)

omit C in
theorem Like.bind {α β : Type} {R : α → α → Prop} {S : β → β → Prop} {x y : Res α} {f g : α → Res β} (h : Like R x y)
    (hf : ∀ a b, R a b → Like S (f a) (g b)) : Like S (x >>= f) (y >>= g) := by
  cases h with
  | ok h => exact hf _ _ h
  | error e => exact .error e

omit C in
theorem Like.same {α β : Type} {S : β → β → Prop} {x : Res α} {f g : α → Res β} (hf : ∀ a, Like S (f a) (g a)) :
    Like S (x >>= f) (x >>= g) := by
  cases x with
  | ok a => exact hf a
  | error e => exact .error e

theorem aes_like (hC : C.Lawful) (k iv pt pt' : Bytes) :
    Like (fun b b' => pt'.length / 16 = pt.length / 16 → b'.length = b.length) (AES.encrypt k iv pt) (AES.encrypt k iv pt') := by
  unfold AES.encrypt
  cases h : AES.validParams k iv with
  | false => exact .error _
  | true =>
    refine .ok fun hb => ?_
    have hiv : iv.length = 16 := by
      unfold AES.validParams at h
      simp at h
      exact h.2
    have hp : ∀ p : Bytes, (AES.pad p).length = 16 * (p.length / 16 + 1) := by
      intro p
      rw [AES.pad_length]
      omega
    rw [AES.cbcEnc_length hC _ _ _ _ hiv (by rw [hp]; omega), AES.cbcEnc_length hC _ _ _ _ hiv (by rw [hp]; omega), hp, hp, hb]

omit C in
theorem encFields_len {fs gs : List Wire.Field} (h : fs.map (fun f => (Wire.encField f).length) = gs.map fun f => (Wire.encField f).length) :
    (Wire.encFields fs).length = (Wire.encFields gs).length := by
  unfold Wire.encFields
  rw [List.length_flatten, List.length_flatten, List.map_map, List.map_map]
  exact congrArg _ h

theorem create_like (hC : C.Lawful) (v : Nat) (mk : Bytes) (e : ECPub) (n pc : Nat) (a b : ECPub) {ct ct' : Bytes} {P : Prop}
    (h : P → ct'.length = ct.length) :
    Like (fun m m' => SameHeader m m' ∧ (P → m'.serialized.length = m.serialized.length))
      (WhisperMessage.create v mk e n pc ct a b) (WhisperMessage.create v mk e n pc ct' a b) := by
  unfold WhisperMessage.create
  refine .same fun c => ?_
  refine .same fun pc' => ?_
  refine .ok ⟨⟨rfl, rfl, rfl, rfl⟩, fun hp => ?_⟩
  have h1 := h hp
  simp only [List.length_cons, List.length_append]
  congr 1
  congr 1
  · unfold serializeWith
    apply encFields_len
    simp [WhisperMessageP.toFields, Wire.putBytes, Wire.putVarint, Wire.encField, h1]
  · rw [getMac_length hC.hmac_len, getMac_length hC.hmac_len]

omit C in
theorem createPk_like (v reg : Nat) (pid : Option Nat) (sid : Int) (bk ik : ECPub) {m m' : WhisperMessage} {P : Prop}
    (h : SameHeader m m') (hl : P → m'.serialized.length = m.serialized.length) :
    Like (fun p p' => SameOutside (.preKey p) (.preKey p') ∧ (P → p'.serialized.length = p.serialized.length))
      (PreKeyWhisperMessage.create v reg pid sid bk ik m) (PreKeyWhisperMessage.create v reg pid sid bk ik m') := by
  unfold PreKeyWhisperMessage.create
  refine .same fun spk => ?_
  refine .same fun reg' => ?_
  have fin : ∀ pk : Option Nat, P → (serializeWith PreKeyWhisperMessageP.toFields
      { signedPreKeyId := some spk, baseKey := some (Curve.serializePoint bk), identityKey := some (Curve.serializePoint ik),
        message := some m'.serialized, registrationId := some reg', preKeyId := pk }).length =
      (serializeWith PreKeyWhisperMessageP.toFields
      { signedPreKeyId := some spk, baseKey := some (Curve.serializePoint bk), identityKey := some (Curve.serializePoint ik),
        message := some m.serialized, registrationId := some reg', preKeyId := pk }).length := by
    intro pk hp
    have h1 := hl hp
    unfold serializeWith
    apply encFields_len
    simp [PreKeyWhisperMessageP.toFields, Wire.putBytes, Wire.putVarint, Wire.encField, h1]
  cases pid with
  | none => exact .ok ⟨.preKey rfl rfl rfl rfl rfl rfl h, fun hp => congrArg (· + 1) (fin none hp)⟩
  | some i =>
    refine .same fun pk => ?_
    exact .ok ⟨.preKey rfl rfl rfl rfl rfl rfl h, fun hp => congrArg (· + 1) (fin (some pk) hp)⟩

theorem ews_like (hC : C.Lawful) (s : SessionState) (pt pt' : Bytes) :
    Like (fun x y => x.2 = y.2 ∧ SameOutside x.1 y.1 ∧ (pt'.length / 16 = pt.length / 16 → y.1.serialize.length = x.1.serialize.length))
      (SessionCipher.encryptWithState s pt) (SessionCipher.encryptWithState s pt') := by
  unfold SessionCipher.encryptWithState
  refine .same fun ck => ?_
  refine .same fun eph => ?_
  refine .bind (aes_like hC _ _ pt pt') fun body body' hb => ?_
  refine .same fun lid => ?_
  refine .same fun rid => ?_
  refine .bind (create_like hC _ _ _ _ _ _ _ hb) fun m m' hm => ?_
  cases hu : s.hasUnacknowledgedPreKeyMessage with
  | true =>
    simp only [if_true]
    refine .same fun items => ?_
    refine .bind (createPk_like _ _ _ _ _ _ hm.1 hm.2) fun p p' hp => ?_
    generalize s.setSenderChainKey ck.getNextChainKey = z
    cases z with
    | error e => exact .error e
    | ok s' => exact .ok ⟨rfl, hp⟩
  | false =>
    simp only [Bool.false_eq_true, if_false]
    generalize s.setSenderChainKey ck.getNextChainKey = z
    cases z with
    | error e => exact .error e
    | ok s' => exact .ok ⟨rfl, .whisper hm.1, hm.2⟩

theorem encrypt_like (hC : C.Lawful) (w : World) (a : Address) (pt pt' : Bytes) :
    (SessionCipher.encrypt w a pt').writes = (SessionCipher.encrypt w a pt).writes ∧
    Like (fun x y => SameOutside x y ∧ (pt'.length / 16 = pt.length / 16 → y.serialize.length = x.serialize.length))
      (SessionCipher.encrypt w a pt).result (SessionCipher.encrypt w a pt').result := by
  unfold SessionCipher.encrypt
  have h := ews_like hC (w.loadSession a).sessionState pt pt'
  simp only
  generalize SessionCipher.encryptWithState (w.loadSession a).sessionState pt = x at h
  generalize SessionCipher.encryptWithState (w.loadSession a).sessionState pt' = y at h
  cases h with
  | error e => exact ⟨rfl, .error e⟩
  | ok h =>
    refine ⟨?_, .ok h.2⟩
    show [Write.session a _] = [Write.session a _]
    rw [h.1]

/-- What a state becomes by accepting a message depends on the header of the message only. -/
theorem dwss_content {s s1 s2 : SessionState} {m m' : WhisperMessage} {seed pt pt' : Bytes} (hm : SameHeader m m')
    (h1 : SessionCipher.decryptWithSessionState s m seed = .ok (pt, s1))
    (h2 : SessionCipher.decryptWithSessionState s m' seed = .ok (pt', s2)) : s1 = s2 := by
  obtain ⟨_, _, ck, t1, mk, t2, _, _, a1, a2, _, _, _, _, a3⟩ := SessionCipher.dwss_ok h1
  obtain ⟨_, _, ck', t1', mk', t2', _, _, b1, b2, _, _, _, _, b3⟩ := SessionCipher.dwss_ok h2
  rw [hm.ratchetKey, a1] at b1
  injection b1 with b1
  injection b1 with c1 c2
  subst c1 c2
  rw [hm.ratchetKey, hm.counter, a2] at b2
  injection b2 with b2
  injection b2 with c1 c2
  rw [a3, b3, c2]

variable {v : Kdf}

omit C in
theorem outside_type {c c' : Ciphertext} (h : SameOutside c c') : c'.getType = c.getType := by cases h <;> rfl

omit C in
theorem outside_inner {c c' : Ciphertext} (h : SameOutside c c') : SameHeader c.inner c'.inner := by
  cases h with
  | whisper h => exact h
  | preKey _ _ _ _ _ _ h => exact h

omit C in
theorem outside_header {c c' : Ciphertext} (h : SameOutside c c') : header c' = header c := by
  unfold header
  rw [(outside_inner h).ratchetKey, (outside_inner h).counter]

omit C in
theorem retold_at {say : Bool → Nat → Bytes} {n m : Net} (h : Retold say n m) {b : Bool} {i : Nat} {c : Ciphertext} {pt : Bytes}
    (hi : (n.sent b)[i]? = some (c, pt)) : ∃ c', (m.sent b)[i]? = some (c', say b i) ∧ SameOutside c c' := by
  have hlt : i < (m.sent b).length := by
    rw [h.count b]
    exact (List.getElem?_eq_some_iff.1 hi).1
  obtain ⟨e1, e2, _⟩ := h.sent b i c (m.sent b)[i].1 pt (m.sent b)[i].2 hi (List.getElem?_eq_getElem hlt)
  refine ⟨(m.sent b)[i].1, ?_, e2⟩
  rw [← e1]
  exact List.getElem?_eq_getElem hlt

omit C in
theorem retold_log {say : Bool → Nat → Bytes} {n m : Net} (h : Retold say n m) (b : Bool) : m.log b = n.log b := by
  unfold Net.log
  rw [h.accepted]
  refine filterMap_congr' fun i _ => ?_
  cases hi : (n.sent (!b))[i]? with
  | none =>
    have : (m.sent (!b))[i]? = none := by
      rw [List.getElem?_eq_none_iff] at hi ⊢
      rw [h.count]
      exact hi
    rw [this]
  | some x =>
    obtain ⟨c', e1, e2⟩ := retold_at h (c := x.1) (pt := x.2) hi
    rw [e1]
    exact congrArg some (outside_header e2)

/-- What `processV3` does depends on the outside of the message only. -/
theorem processV3_outside {w : World} {r : SessionRecord} {m m' : PreKeyWhisperMessage} (h1 : m'.version = m.version)
    (h2 : m'.registrationId = m.registrationId) (h3 : m'.preKeyId = m.preKeyId) (h4 : m'.signedPreKeyId = m.signedPreKeyId)
    (h5 : m'.baseKey = m.baseKey) (h6 : m'.identityKey = m.identityKey) : processV3 w r m' = processV3 w r m := by
  unfold processV3
  rw [h1, h2, h3, h4, h5, h6]

/-- While side `false` waits, the session that a setup message would begin, and what it becomes by this message. -/
theorem waiting_state (hC : C.Lawful) {ids : Bool → ECPub} {cv : Conv} {n : Net}
    {hd : PkHeader} {g : Ghost .v3} (hg : GInv cv ids n g) (q : Waiting cv ids hd n g) {i : Nat} {c : Ciphertext} {pt seed : Bytes}
    (hi : (n.sent true)[i]? = some (c, pt)) (hl : n.inLimits cv false (header c)) (hseed : seed.length = 32)
    {m : PreKeyWhisperMessage} (f1 : m.version = 3) (f2 : m.registrationId < 2 ^ 32)
    (f3 : m.preKeyId = hd.preKeyId) (f4 : m.signedPreKeyId = hd.signedPreKeyId) (f5 : m.baseKey = hd.baseKey)
    (f6 : m.identityKey = ids true) (f7 : m.message = c.inner) :
    ∃ r s' u, processV3 (n.world false) ((n.world false).loadSession (cv.addr false)) m = .ok (r, u) ∧
      SessionCipher.decryptWithSessionState r.sessionState m.message seed = .ok (pt, s') := by
  obtain ⟨t, k, h1, h2, h3, h4⟩ := hg.locate (b := false) hi
  rw [q.none'] at h1
  obtain rfl : t = 0 := by simpa using h1
  have htop : g.top = 2 * (g.full false).length + off false := by
    have a1 := hg.hi false
    have a2 := hg.e_succ false
    rw [q.none'] at a2 ⊢
    simp only [List.length_nil, off] at *
    omega
  have htop1 : g.top = 1 := by rw [htop, q.none']; rfl
  have e1 : 2 * 0 + off false = g.top := by rw [htop1]; rfl
  rw [e1] at h3 h4
  have hgE := hg.good g.top (Nat.le_refl _)
  have hyz := nextEpoch_next hC hgE hseed
  have hns := hg.not_in_seen (b := false) (by omega)
  rw [← htop] at hns
  have h0 : Spec.nextCounter (n.log false) (g.E g.top).pub = 0 := nextCounter_absent fun x hx => hns (mem_log_seen hx)
  have hk : k ≤ 2000 := by
    have := hl.2
    rw [h3, h0] at this
    omega
  obtain ⟨spk, otk, otId, secrets, k1, k2, k3, k4, k5, k6, k7, k8⟩ := q.keys
  have hnx : (epoch0 spk secrets).Next (g.E g.top) := by
    rw [show epoch0 spk secrets = g.E 0 from k3.symm, htop1]
    exact hg.next 0 (by omega)
  have hnew : ¬ Spec.alreadyKnown (n.world false) (cv.addr false) m := by
    rintro ⟨r, hr, hk⟩
    rw [f1, f5] at hk
    exact q.new r hr hk
  have hnew' : ((n.world false).loadSession (cv.addr false)).hasSessionState m.version (Curve.serializePoint m.baseKey) = false := by
    cases h : ((n.world false).loadSession (cv.addr false)).hasSessionState m.version (Curve.serializePoint m.baseKey) with
    | false => rfl
    | true => exact absurd ((loaded_known _ _ m).1 h) hnew
  obtain ⟨s, p1, p2, p3, p4⟩ := processV3_forward hC (otk := some otk) (secrets := secrets) hnew' (by rw [f4]; exact k4) k5
    (by rw [f3, k2]; exact ⟨otk, rfl, k6, k7⟩) (by rw [f6, f5]; exact k8) q.reg f2
  have hge : (epoch0 spk secrets).Good := ⟨k5.priv, k5.pub⟩
  rw [q.self, f6] at p2
  obtain ⟨s', g1, g2, g3⟩ := recv_new hC (hg.idsLen false) (hg.idsLen true) p2 (by decide) hge hgE (by simp) (by simp) (by simp)
    hnx h4 hk (z := nextEpoch (g.E g.top) seed) rfl rfl hyz
  exact ⟨_, s', _, p1, by rw [f7]; exact g1⟩

/-- Delivering a message and its counterpart does the same to the stores. -/
theorem deliver_content (hC : C.Lawful) {hd : PkHeader} {keys0 : List ECPub} {g0 : Ghost v} {ids : Bool → ECPub} {cv : Conv} {n m : Net}
    {say : Bool → Nat → Bytes} (h : ConvFrom hd keys0 g0 ids cv n) (h' : ConvFrom hd keys0 g0 ids cv m) (hR : Retold say n m)
    {b : Bool} {i : Nat} {c c' : Ciphertext} {pt pt' seed : Bytes} (seeds : Nat → Bytes) (hi : (n.sent (!b))[i]? = some (c, pt))
    (hi' : (m.sent (!b))[i]? = some (c', pt')) (hs : SameOutside c c')
    (hl : i ∉ n.accepted b → n.inLimits cv b (header c)) (hr : i ∈ n.accepted b → n.remembered cv b (header c))
    (hseed : seed.length = 32) (hfresh : C.genPub (C.genPriv seed) ∉ n.keys) :
    (i ∉ m.accepted b → m.inLimits cv b (header c')) ∧ (i ∈ m.accepted b → m.remembered cv b (header c')) ∧
    (Spec.receive (n.world b) (cv.addr b) c'.getType c'.serialize seed seeds).writes =
      (Spec.receive (n.world b) (cv.addr b) c.getType c.serialize seed seeds).writes := by
  have hl' : i ∉ m.accepted b → m.inLimits cv b (header c') := by
    intro ha
    rw [hR.accepted] at ha
    have := hl ha
    unfold Net.inLimits at this ⊢
    rw [retold_log hR, outside_header hs]
    exact this
  have hr' : i ∈ m.accepted b → m.remembered cv b (header c') := by
    intro ha
    rw [hR.accepted] at ha
    have := hr ha
    unfold Net.remembered at this ⊢
    rw [retold_log hR, outside_header hs]
    exact this
  refine ⟨hl', hr', ?_⟩
  obtain ⟨⟨g, hg, hw, _⟩, _⟩ := h
  obtain ⟨⟨g', hg', hw', _⟩, _⟩ := h'
  have hwire := hw.wire _ _ _ _ hi
  have hwire' := hw'.wire _ _ _ _ hi'
  by_cases hwt : b = false ∧ cv.waits = true ∧ n.accepted false = []
  · obtain ⟨rfl, ht, ha⟩ := hwt
    obtain rfl := hw.v3 ht
    have q := hw.waiting ht ha
    have q' := hw'.waiting ht (by rw [hR.accepted]; exact ha)
    have hna : i ∉ n.accepted false := by rw [ha]; simp
    have hna' : i ∉ m.accepted false := by rw [hR.accepted]; exact hna
    obtain ⟨p, rfl⟩ := q.announced i c pt hi
    obtain ⟨p2, rfl⟩ := q'.announced i c' pt' hi'
    rcases hwire with ⟨_, x, _⟩ | ⟨_, _, m1, _, p', x, an⟩
    · cases x
    rcases hwire' with ⟨_, x', _⟩ | ⟨_, _, m2, _, p2', x', an'⟩
    · cases x'
    injection x with x; subst x
    injection x' with x'; subst x'
    obtain ⟨otId, hot⟩ : ∃ o, hd.preKeyId = some o := by
      obtain ⟨_, _, otId, _, _, k2, _⟩ := q.keys
      exact ⟨otId, k2⟩
    have hreg := (hw.hdr ht).reg
    obtain ⟨r, s1, u, a1, a2⟩ := waiting_state hC hg q hi (hl hna) hseed an.version (by rw [an.reg]; exact hreg)
      (by rw [an.pk, hot]; rfl) an.spk an.bk an.ik (by rw [an.message']; exact an.message.symm)
    obtain ⟨r', s2, u', b1, b2⟩ := waiting_state hC hg' q' hi' (hl' hna') hseed an'.version (by rw [an'.reg]; exact hreg)
      (by rw [an'.pk, hot]; rfl) an'.spk an'.bk an'.ik (by rw [an'.message']; exact an'.message.symm)
    have htr := hw.trusted ht
    rw [hR.world, processV3_outside (m := p') (m' := p2') (by rw [an.version, an'.version]) (by rw [an.reg, an'.reg])
      (by rw [an.pk, an'.pk]) (by rw [an.spk, an'.spk]) (by rw [an.bk, an'.bk]) (by rw [an.ik, an'.ik]), a1] at b1
    injection b1 with b1
    injection b1 with c1 c2
    subst c1 c2
    have hin := outside_inner hs
    have hss : s1 = s2 := by
      rw [an.message', ← an.message] at a2
      rw [an'.message', ← an'.message] at b2
      exact dwss_content hin a2 b2
    subst hss
    unfold Spec.receive Ciphertext.getType Ciphertext.serialize
    simp only
    rw [if_pos (by rfl), if_pos (by rfl), an.parse, an'.parse]
    simp only
    rw [pkmsg_eq (by rw [an.ik]; exact htr) a1, dwsr_forward seeds a2,
      pkmsg_eq (m := p2') (r := r) (u := u) (by rw [an'.ik]; exact htr) (by
        rw [← a1]
        exact processV3_outside (by rw [an.version, an'.version]) (by rw [an.reg, an'.reg])
          (by rw [an.pk, an'.pk]) (by rw [an.spk, an'.spk]) (by rw [an.bk, an'.bk]) (by rw [an.ik, an'.ik])),
      dwsr_forward seeds b2]
    simp only
    rw [an.ik, an'.ik]
  · obtain ⟨r, q1, q2, q3, q4⟩ : Open cv ids hd g b (n.world b) := by
      rcases hw.sides b with ho | ⟨hb, q⟩
      · exact ho
      · exact absurd ⟨hb, q.waits, q.accepted⟩ hwt
    obtain ⟨r', q1', q2', q3', q4'⟩ : Open cv ids hd g' b (m.world b) := by
      rcases hw'.sides b with ho | ⟨hb, q⟩
      · exact ho
      · exact absurd ⟨hb, q.waits, by rw [← hR.accepted]; exact q.accepted⟩ hwt
    rw [hR.world, q1] at q1'
    obtain rfl := Option.some.inj q1'
    obtain ⟨ws, hws, hrec⟩ := Open.receive_exact (b := b) (hd := hd) (ids := ids) q1 (fun x y => ⟨by obtain rfl := hw.v3 y; exact q2.version, q4 x y⟩)
      (by rintro rfl y; exact hw.trusted y) hwire seed seeds
    obtain ⟨ws', hws', hrec'⟩ := Open.receive_exact (b := b) (hd := hd) (ids := ids) q1 (fun x y => ⟨by obtain rfl := hw.v3 y; exact q2.version, q4 x y⟩)
      (by rintro rfl y; exact hw.trusted y) hwire' seed seeds
    have hwse : ws' = ws := by
      rw [outside_type hs] at hws'
      rcases hws with ⟨t, e⟩ | ⟨t, _, _, e⟩ <;> rcases hws' with ⟨t', e'⟩ | ⟨t', _, _, e'⟩
      · rw [e, e']
      · rw [t] at t'; cases t'
      · rw [t] at t'; cases t'
      · rw [e, e']
    subst hwse
    rw [hrec, hrec']
    by_cases ha : i ∈ n.accepted b
    · have ha' : i ∈ m.accepted b := by rw [hR.accepted]; exact ha
      rw [dwsr_duplicate (r := { r with fresh := false }) seeds (hg.again hC q2 hi ha (hr ha) seed),
        dwsr_duplicate (r := { r with fresh := false }) seeds (hg'.again hC q2' hi' ha' (hr' ha') seed)]
    · have ha' : i ∉ m.accepted b := by rw [hR.accepted]; exact ha
      obtain ⟨s1, _, d1, _⟩ := hg.receive hC q2 hi ha (hl ha) hseed hfresh
      obtain ⟨s2, _, d2, _⟩ := hg'.receive hC q2' hi' ha' (hl' ha') hseed (by rw [hR.keys]; exact hfresh)
      obtain rfl := dwss_content (outside_inner hs) d1 d2
      rw [dwsr_forward (r := { r with fresh := false }) seeds d1, dwsr_forward (r := { r with fresh := false }) seeds d2]

end
end Axolotl
