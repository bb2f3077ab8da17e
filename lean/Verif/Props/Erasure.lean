import Verif.Spec.Erasure
import Verif.Props.Conversation
import Verif.Props.Ratchet
import Verif.Props.GroupCalls
import Verif.Props.SetupState

/-! # C80: keys that have been used are gone from the stores -/

namespace Axolotl
section
variable [C : Crypto]
open SessionState Spec

omit C in
theorem storing_apply {w : World} {a : Address} {s : SessionState} {r : SessionRecord} :
    (storing w a s).apply (.session a r) = { w with sessions := upd w.sessions a (some r) } := by
  unfold storing World.apply
  simp only
  congr 1
  funext b
  unfold upd
  by_cases h : b = a <;> simp [h]

omit C in
theorem storing_session (w : World) (a : Address) (s : SessionState) :
    (storing w a s).sessions a = some { sessionState := s } := by
  unfold storing upd; simp

/-! ## Sending -/

theorem encrypt_storing {w : World} {a : Address} {s : SessionState} {pt : Bytes} {c : Ciphertext}
    (h : (SessionCipher.encrypt (storing w a s) a pt).result = .ok c) :
    ∃ s', SessionCipher.encryptWithState s pt = .ok (c, s') ∧
      (SessionCipher.encrypt (storing w a s) a pt).final (storing w a s) =
        { w with sessions := upd w.sessions a (some { fresh := false, sessionState := s' }) } := by
  have hload : (storing w a s).loadSession a = { fresh := false, sessionState := s } := by
    unfold World.loadSession; rw [storing_session]
  unfold SessionCipher.encrypt at h ⊢
  rw [hload] at h ⊢
  simp only at h ⊢
  cases he : SessionCipher.encryptWithState s pt with
  | error e => rw [he] at h; cases h
  | ok p =>
    obtain ⟨c', s'⟩ := p
    rw [he] at h
    injection h with h
    subst h
    refine ⟨s', rfl, ?_⟩
    simp only [ok_bind, Outcome.ofRes, Outcome.final, World.applyAll, List.foldl]
    exact storing_apply

/-- **C80**, sending: after `encrypt` the stores are the same for any two chain keys with the same successor, whatever the
plaintexts: the chain key that the message was encrypted under is not kept, nor anything else made of it. -/
theorem C80_send (w : World) (a : Address) (s : SessionS) (k k' : Bytes) (hk : C.hmac k [2] = C.hmac k' [2])
    {pt pt' : Bytes} {c c' : Ciphertext}
    (h : (SessionCipher.encrypt (storing w a (withSendKey s k)) a pt).result = .ok c)
    (h' : (SessionCipher.encrypt (storing w a (withSendKey s k')) a pt').result = .ok c') :
    (SessionCipher.encrypt (storing w a (withSendKey s k)) a pt).final (storing w a (withSendKey s k)) =
    (SessionCipher.encrypt (storing w a (withSendKey s k')) a pt').final (storing w a (withSendKey s k')) := by
  obtain ⟨s1, e1, f1⟩ := encrypt_storing h
  obtain ⟨s2, e2, f2⟩ := encrypt_storing h'
  rw [f1, f2]
  obtain ⟨_, _, _, _, _, _, _, _, _, _, _, _, _, _, _, _, sc1, hs1, g1⟩ := SessionCipher.ews_ok e1
  obtain ⟨_, _, _, _, _, _, _, _, _, _, _, _, _, _, _, _, sc2, hs2, g2⟩ := SessionCipher.ews_ok e2
  have : s1 = s2 := by
    rw [g1, g2, hs1, hs2]
    unfold withSendKey SessionState.sendKey sendIndex senderChainD
    cases hc : s.senderChain with
    | none => rfl
    | some c =>
      simp only [Option.map_some, Option.getD_some]
      cases hck : c.chainKey with
      | none => rfl
      | some ck => simp only [Option.map_some, Option.getD_some, hk]
  rw [this]

/-! ## Receiving -/

theorem decrypt_storing {w : World} {a : Address} {s : SessionState} {m : WhisperMessage} {seed pt : Bytes}
    {seeds : Nat → Bytes} (h : (SessionCipher.decryptMsg (storing w a s) a m seed seeds).result = .ok pt) :
    ∃ s', SessionCipher.decryptWithSessionState s m seed = .ok (pt, s') ∧
      (SessionCipher.decryptMsg (storing w a s) a m seed seeds).final (storing w a s) =
        { w with sessions := upd w.sessions a (some { fresh := false, sessionState := s' }) } := by
  cases he : SessionCipher.decryptWithSessionState s m seed with
  | ok p =>
    obtain ⟨pt', s'⟩ := p
    have := decryptMsg_current (storing_session w a s) (m := m) (seed := seed) (seeds := seeds) he
    rw [this] at h ⊢
    injection h with h
    subst h
    refine ⟨s', rfl, ?_⟩
    simp only [Outcome.final, World.applyAll, List.foldl]
    exact storing_apply
  | error e =>
    exfalso
    have hload : (storing w a s).loadSession a = { fresh := false, sessionState := s } := by
      unfold World.loadSession; rw [storing_session]
    unfold SessionCipher.decryptMsg SessionCipher.decryptWithSessionRecord at h
    rw [hload] at h
    simp only [he] at h
    cases hcs : (storing w a s).containsSession a with
    | false => rw [hcs] at h; cases h
    | true =>
      rw [hcs] at h
      cases e <;> simp [SessionCipher.tryPrevious, Outcome.ofRes, error_bind] at h

omit C in
theorem split_at_first {α : Type} {P : α → Prop} {x y x' y' : List α} {c c' : α} (h : x ++ c :: y = x' ++ c' :: y')
    (hc : P c) (hc' : P c') (hx : ∀ z ∈ x, ¬ P z) (hx' : ∀ z ∈ x', ¬ P z) : x = x' ∧ c = c' ∧ y = y' := by
  induction x generalizing x' with
  | nil =>
    cases x' with
    | nil => simpa using h
    | cons z x' =>
      simp only [List.nil_append, List.cons_append, List.cons.injEq] at h
      exact absurd (h.1 ▸ hc) (hx' z (List.mem_cons_self ..))
  | cons z x ih =>
    cases x' with
    | nil =>
      simp only [List.nil_append, List.cons_append, List.cons.injEq] at h
      exact absurd (h.1 ▸ hc') (hx z (List.mem_cons_self ..))
    | cons z' x' =>
      simp only [List.cons_append, List.cons.injEq] at h
      obtain ⟨rfl, h⟩ := h
      obtain ⟨rfl, r⟩ := ih h (fun w hw => hx w (List.mem_cons_of_mem _ hw)) (fun w hw => hx' w (List.mem_cons_of_mem _ hw))
      exact ⟨rfl, r⟩

omit C in
theorem position_withKey (c : ChainS) (k : Bytes) : position (withKey c k) = position c := by
  unfold position withKey
  cases c.chainKey <;> rfl

omit C in
theorem chainKeyBytes_withKey {c : ChainS} {ck : ChainKeyS} (h : c.chainKey = some ck) (k : Bytes) :
    chainKeyBytes (withKey c k) = k := by
  unfold chainKeyBytes withKey; rw [h]; rfl

/-- Accepting with a known ratchet key, in terms of the chain that has it. -/
theorem accepts_known {s s' : SessionState} {m : WhisperMessage} {seed pt : Bytes} {x y : List ChainS} {c : ChainS}
    (h : Accepts s m seed pt s') (hs : s.receiverChains = x ++ c :: y) (hc : KeyOf c.senderRatchetKey m.senderRatchetKey)
    (hx : ∀ z ∈ x, ¬ KeyOf z.senderRatchetKey m.senderRatchetKey) :
    ∃ c' k1 k2 k3, Yields c m.counter k1 k2 k3 c' ∧
      s' = { s with receiverChains := x ++ c' :: y, pendingPreKey := none } := by
  obtain @⟨s1, x1, y1, c1, c', k1, k2, k3, them, me, body, h1, h2, h3, h4, h5, h6, h7, _⟩ := h
  cases h3 with
  | known _ _ =>
    obtain ⟨rfl, rfl, rfl⟩ := split_at_first (P := fun z : ChainS => KeyOf z.senderRatchetKey m.senderRatchetKey)
      (h4 ▸ hs : x1 ++ c1 :: y1 = x ++ c :: y) h5 hc h6 hx
    exact ⟨c', k1, k2, k3, h7, rfl⟩
  | ratchet hn _ _ _ => exact absurd hc (hn c (by rw [hs]; simp))

/-- A state as the library keeps it for a session of version 3. -/
theorem accepts_of_read (hC : C.Lawful) {w : World} {a : Address} {s : SessionState} {m : WhisperMessage} {seed pt : Bytes}
    {seeds : Nat → Bytes} (hv : s.sessionVersion = some 3) (hl : s.receiverChains.length ≤ 5)
    (h : (SessionCipher.decryptMsg (storing w a s) a m seed seeds).result = .ok pt) :
    ∃ s', Accepts s m seed pt s' ∧
      (SessionCipher.decryptMsg (storing w a s) a m seed seeds).final (storing w a s) =
        { w with sessions := upd w.sessions a (some { fresh := false, sessionState := s' }) } := by
  obtain ⟨s', h1, h2⟩ := decrypt_storing h
  exact ⟨s', accepts_of_dwss hC hv hl h1, h2⟩

/-- **C80**, receiving along a chain: the stores afterwards are the same for any two chain keys which agree on the keys of the
skipped messages and on the chain key after this message.  The key of the message itself, and the chain keys up to it, are not
kept. -/
theorem C80_read (hC : C.Lawful) (w : World) (a : Address) (s : SessionS) (hv : s.sessionVersion = some 3)
    {x y : List ChainS} {c : ChainS} {ck : ChainKeyS} (hl : (x ++ c :: y).length ≤ 5) (hck : c.chainKey = some ck)
    {m m' : WhisperMessage} (hm : m'.senderRatchetKey = m.senderRatchetKey ∧ m'.counter = m.counter)
    (hc : KeyOf c.senderRatchetKey m.senderRatchetKey) (hx : ∀ z ∈ x, ¬ KeyOf z.senderRatchetKey m.senderRatchetKey)
    (hp : position c ≤ m.counter) {k k' : Bytes}
    (hnext : chainAt k (m.counter + 1 - position c) = chainAt k' (m.counter + 1 - position c))
    (hskip : ∀ d n, d < m.counter - position c → skippedEntry k d n = skippedEntry k' d n)
    {seed seed' pt pt' : Bytes} {seeds seeds' : Nat → Bytes}
    (h : (SessionCipher.decryptMsg (storing w a { s with receiverChains := x ++ withKey c k :: y }) a m seed seeds).result
      = .ok pt)
    (h' : (SessionCipher.decryptMsg (storing w a { s with receiverChains := x ++ withKey c k' :: y }) a m' seed'
      seeds').result = .ok pt') :
    (SessionCipher.decryptMsg (storing w a { s with receiverChains := x ++ withKey c k :: y }) a m seed seeds).final
      (storing w a { s with receiverChains := x ++ withKey c k :: y }) =
    (SessionCipher.decryptMsg (storing w a { s with receiverChains := x ++ withKey c k' :: y }) a m' seed' seeds').final
      (storing w a { s with receiverChains := x ++ withKey c k' :: y }) := by
  have hlen : ∀ k, (x ++ withKey c k :: y).length ≤ 5 := by
    intro k; rw [List.length_append, List.length_cons] at hl ⊢; exact hl
  obtain ⟨s1, a1, f1⟩ := accepts_of_read hC (s := { s with receiverChains := x ++ withKey c k :: y }) hv (hlen k) h
  obtain ⟨s2, a2, f2⟩ := accepts_of_read hC (s := { s with receiverChains := x ++ withKey c k' :: y }) hv (hlen k') h'
  rw [f1, f2]
  obtain ⟨c1, _, _, _, y1, rfl⟩ := accepts_known a1 rfl hc hx
  obtain ⟨c2, _, _, _, y2, rfl⟩ := accepts_known a2 rfl (by rw [hm.1]; exact hc) (by rw [hm.1]; exact hx)
  rw [hm.2] at y2
  have key : c1 = c2 := by
    cases y1 with
    | stored q _ _ _ => rw [position_withKey] at q; omega
    | ahead _ _ _ _ =>
      cases y2 with
      | stored q _ _ _ => rw [position_withKey] at q; omega
      | ahead _ _ _ _ =>
        rw [position_withKey, position_withKey, chainKeyBytes_withKey hck, chainKeyBytes_withKey hck]
        have e : m.counter - position c + 1 = m.counter + 1 - position c := by omega
        rw [e, hnext]
        have : (List.range (m.counter - position c)).map (fun d => skippedEntry k d (position c + d)) =
            (List.range (m.counter - position c)).map (fun d => skippedEntry k' d (position c + d)) := by
          apply List.map_congr_left
          intro d hd
          exact hskip d _ (List.mem_range.1 hd)
        rw [this]
        rfl
  rw [key]

/-- **C80**, receiving a message that was skipped: the stores afterwards do not depend on the key kept for it. -/
theorem C80_read_skipped (hC : C.Lawful) (w : World) (a : Address) (s : SessionS) (hv : s.sessionVersion = some 3)
    {x y : List ChainS} {c : ChainS} (hl : (x ++ c :: y).length ≤ 5) {u v : List MessageKeyS} {e e' : MessageKeyS}
    {m m' : WhisperMessage} (hm : m'.senderRatchetKey = m.senderRatchetKey ∧ m'.counter = m.counter)
    (hc : KeyOf c.senderRatchetKey m.senderRatchetKey) (hx : ∀ z ∈ x, ¬ KeyOf z.senderRatchetKey m.senderRatchetKey)
    (hp : m.counter < position c) (he : e.index.getD 0 = m.counter ∧ e'.index.getD 0 = m.counter)
    (hu : ∀ z ∈ u, z.index.getD 0 ≠ m.counter)
    {seed seed' pt pt' : Bytes} {seeds seeds' : Nat → Bytes}
    (h : (SessionCipher.decryptMsg
      (storing w a { s with receiverChains := x ++ { c with messageKeys := u ++ e :: v } :: y }) a m seed seeds).result
        = .ok pt)
    (h' : (SessionCipher.decryptMsg
      (storing w a { s with receiverChains := x ++ { c with messageKeys := u ++ e' :: v } :: y }) a m' seed' seeds').result
        = .ok pt') :
    (SessionCipher.decryptMsg
      (storing w a { s with receiverChains := x ++ { c with messageKeys := u ++ e :: v } :: y }) a m seed seeds).final
      (storing w a { s with receiverChains := x ++ { c with messageKeys := u ++ e :: v } :: y }) =
    (SessionCipher.decryptMsg
      (storing w a { s with receiverChains := x ++ { c with messageKeys := u ++ e' :: v } :: y }) a m' seed' seeds').final
      (storing w a { s with receiverChains := x ++ { c with messageKeys := u ++ e' :: v } :: y }) := by
  have hlen : ∀ e, (x ++ { c with messageKeys := u ++ e :: v } :: y).length ≤ 5 := by
    intro e; rw [List.length_append, List.length_cons] at hl ⊢; exact hl
  obtain ⟨s1, a1, f1⟩ := accepts_of_read hC
    (s := { s with receiverChains := x ++ { c with messageKeys := u ++ e :: v } :: y }) hv (hlen e) h
  obtain ⟨s2, a2, f2⟩ := accepts_of_read hC
    (s := { s with receiverChains := x ++ { c with messageKeys := u ++ e' :: v } :: y }) hv (hlen e') h'
  rw [f1, f2]
  obtain ⟨c1, _, _, _, y1, rfl⟩ := accepts_known a1 rfl hc hx
  obtain ⟨c2, _, _, _, y2, rfl⟩ := accepts_known a2 rfl (by rw [hm.1]; exact hc) (by rw [hm.1]; exact hx)
  rw [hm.2] at y2
  have key : ∀ {e : MessageKeyS} {c' : ChainS} {k1 k2 k3 : Bytes}, e.index.getD 0 = m.counter →
      Yields { c with messageKeys := u ++ e :: v } m.counter k1 k2 k3 c' → c' = { c with messageKeys := u ++ v } := by
    intro e c' k1 k2 k3 he hy
    cases hy with
    | ahead q _ _ _ => have q : position c ≤ m.counter := q; omega
    | stored _ q2 q3 q4 =>
      obtain ⟨rfl, rfl, rfl⟩ := split_at_first (P := fun z : MessageKeyS => z.index.getD 0 = m.counter) q2.symm q3 he q4 hu
      rfl
  rw [key he.1 y1, key he.2 y2]

/-- **C80**, a ratchet step: the stores after reading the first message under a new ratchet key of the peer are the same
whatever our root key, our private ratchet key and our sending chain key were, as long as the agreement leads to the same new
root key and the same receive chain.  None of the three is kept. -/
theorem C80_ratchet (hC : C.Lawful) (w : World) (a : Address) (s : SessionS) (hv : s.sessionVersion = some 3)
    (hl : s.receiverChains.length ≤ 5) {m m' : WhisperMessage}
    (hm : m'.senderRatchetKey = m.senderRatchetKey ∧ m'.counter = m.counter)
    (hnew : ∀ z ∈ s.receiverChains, ¬ KeyOf z.senderRatchetKey m.senderRatchetKey)
    {root root' priv priv' k k' d d' : Bytes}
    (hd : C.dh priv m.senderRatchetKey = some d) (hd' : C.dh priv' m.senderRatchetKey = some d')
    (hroot : ratchetRoot root d = ratchetRoot root' d') (hchain : ratchetChain root d = ratchetChain root' d')
    {seed pt pt' : Bytes} {seeds seeds' : Nat → Bytes}
    (h : (SessionCipher.decryptMsg (storing w a (withOwnKeys s root priv k)) a m seed seeds).result = .ok pt)
    (h' : (SessionCipher.decryptMsg (storing w a (withOwnKeys s root' priv' k')) a m' seed seeds').result = .ok pt') :
    (SessionCipher.decryptMsg (storing w a (withOwnKeys s root priv k)) a m seed seeds).final
      (storing w a (withOwnKeys s root priv k)) =
    (SessionCipher.decryptMsg (storing w a (withOwnKeys s root' priv' k')) a m' seed seeds').final
      (storing w a (withOwnKeys s root' priv' k')) := by
  obtain ⟨s1, a1, f1⟩ := accepts_of_read hC (s := withOwnKeys s root priv k) hv hl h
  obtain ⟨s2, a2, f2⟩ := accepts_of_read hC (s := withOwnKeys s root' priv' k') hv hl h'
  rw [f1, f2]
  obtain @⟨t1, x1, y1, c1, c1', p1, p2, p3, _, _, _, q1, q2, q3, q4, q5, q6, q7, _⟩ := a1
  obtain @⟨t2, x2, y2, c2, c2', r1, r2, r3, _, _, _, u1, u2, u3, u4, u5, u6, u7, _⟩ := a2
  rw [hm.1] at u3 u5 u6
  rw [hm.2] at u7
  have opened : t1 = t2 := by
    cases q3 with
    | known z1 z2 => exact absurd z2 (hnew _ z1)
    | @ratchet b1 d1 d2 _ z2 z3 z4 =>
      cases u3 with
      | known z1 z2 => exact absurd z2 (hnew _ z1)
      | @ratchet b1' d1' d2' _ z2' z3' z4' =>
        cases hsc : s.senderChain with
        | none => simp only [withOwnKeys, hsc, Option.map_none] at z2; cases z2
        | some sc =>
          simp only [withOwnKeys, hsc, Option.map_some, Option.some.injEq] at z2 z2'
          subst z2 z2'
          simp only [Option.getD_some] at z3 z3'
          rw [hd] at z3
          rw [hd'] at z3'
          obtain rfl := Option.some.inj z3
          obtain rfl := Option.some.inj z3'
          rw [z4] at z4'
          obtain rfl := Option.some.inj z4'
          have hcnt : ∀ root priv k, sendCounter (withOwnKeys s root priv k) = sendCounter s := by
            intro root priv k
            unfold sendCounter withOwnKeys
            rw [hsc]
            obtain ⟨b1, b2, b3, b4⟩ := sc
            cases b3 <;> rfl
          rw [hcnt, hcnt]
          simp only [withOwnKeys, Option.getD_some, hroot, hchain]
  subst opened
  obtain ⟨rfl, rfl, rfl⟩ := split_at_first (P := fun z : ChainS => KeyOf z.senderRatchetKey m.senderRatchetKey)
    (q4 ▸ u4 : x1 ++ c1 :: y1 = x2 ++ c2 :: y2) q5 u5 q6 u6
  have : c1' = c2' := by
    cases q7 with
    | stored g1 g2 g3 g4 =>
      cases u7 with
      | stored g1' g2' g3' g4' =>
        obtain ⟨rfl, rfl, rfl⟩ := split_at_first (P := fun z : MessageKeyS => z.index.getD 0 = m.counter)
          (g2.symm.trans g2') g3 g3' g4 g4'
        rfl
      | ahead g1' _ _ _ => omega
    | ahead g1 _ _ _ =>
      cases u7 with
      | stored g1' _ _ _ => omega
      | ahead _ _ _ _ => rfl
  rw [this]

/-! ## A whole conversation -/

/-- **C80**, in any conversation: a side keeps receive chains for the last five ratchet keys of the peer only; each chain is
at the position after the furthest message accepted, and the keys kept beside it are exactly those of the messages before it
that were not accepted.  So no key of an accepted message is kept. -/
theorem C80_conversation (hC : C.Lawful) {cv : Conv} {n0 n : Net} (h0 : Start cv n0) (h : Steps cv n0 n) {b : Bool}
    (hb : cv.waits = true → b = false → n.accepted false ≠ []) {r : SessionRecord}
    (hr : (n.world b).sessions (cv.addr b) = some r) :
    (r.sessionState.receiverChains.map fun c => c.senderRatchetKey) =
      ((seenKeys (cv.start b) (n.log b)).drop ((seenKeys (cv.start b) (n.log b)).length - 5)).map (fun k => some (5 :: k)) ∧
    ∀ c ∈ r.sessionState.receiverChains, ∀ k, c.senderRatchetKey = some (5 :: k) →
      position c = nextCounter (n.log b) k ∧
      (storedCounters c).Nodup ∧
      ∀ i, i ∈ storedCounters c ↔ i < nextCounter (n.log b) k ∧ (k, i) ∉ n.log b := by
  obtain ⟨v, ids, _, hd, g, hg, hw⟩ := steps_inv hC h (start_inv hC h0)
  rcases hw.sides b with ho | ⟨hb', hwt⟩
  rotate_left
  · exact absurd hwt.accepted (hb hwt.waits hb')
  obtain ⟨r', q1, q2, _⟩ := ho
  rw [hr] at q1
  obtain rfl := Option.some.inj q1
  have hstored : ∀ x : Recv v, storedCounters x.chain = x.missing := by
    intro x
    unfold storedCounters Recv.chain
    simp only [List.map_map]
    conv => rhs; rw [← List.map_id x.missing]
    apply List.map_congr_left
    intro k _
    rfl
  constructor
  · rw [q2.recv, hg.seen b]
    unfold last5
    rw [List.length_map, ← List.map_drop, List.map_map, List.map_map]
    rfl
  · intro c hc k hk
    rw [q2.recv] at hc
    obtain ⟨x, hx, rfl⟩ := List.mem_map.1 hc
    have hx := List.mem_of_mem_drop hx
    obtain rfl : x.ep.pub = k := by
      have : some (Curve.serializePoint x.ep.pub) = some (5 :: k) := hk
      exact (List.cons.inj (Option.some.inj this)).2
    rw [hstored]
    refine ⟨hg.index b x hx, hg.nodup b x hx, fun i => ?_⟩
    rw [hg.missing b x hx i, hg.index b x hx]

/-! ## What is not erased -/

/-- **C80**, the limit: a key exchange that we started leaves our private base key in the stores.  Once the answer (or the
peer's own request) is processed, the newest archived state still holds the three key pairs of the pending exchange, and
those, with the public keys in the message, determine the new session.  Whoever reads the stores later, and has recorded the
message, can compute the session's first keys again. -/
theorem C80_exchange_kept (hC : C.Lawful) (w0 : World) (hw : w0.NoSessions) (cs : List Call) (a : Address)
    (m : KeyExchangeMessage) (rnd : SessionBuilder.InitiateRand) {p : PendingKeyExchangeS}
    (hp : Spec.pendingOf ((Call.after w0 cs).sessions a) = some p)
    (h : (SessionBuilder.processKeyExchangeMessage (Call.after w0 cs) a m rnd).writes ≠ []) :
    ∃ new old identity base ratchet,
      ((Call.processKeyExchange a m rnd).next (Call.after w0 cs)).sessions a = some new ∧
      new.previousStates.head? = some old ∧ old.pendingKeyExchange = some p ∧ PendingKeys p identity base ratchet ∧
      Exchanged identity base ratchet m.identityKey m.baseKey m.ratchetKey rnd.sendSeed new.sessionState := by
  obtain ⟨identity, base, ratchet, s, new, h1, h2, h3, h4⟩ := C56_exchange hC.hmac_len w0 hw cs a m rnd h
  rw [hp] at h1
  cases hr : (Call.after w0 cs).sessions a with
  | none => rw [hr] at hp; cases hp
  | some r =>
    rw [hr] at hp h3
    refine ⟨new, r.sessionState, identity, base, ratchet, ?_, ?_, hp, h1.1, ?_⟩
    · show ((SessionBuilder.processKeyExchangeMessage (Call.after w0 cs) a m rnd).final (Call.after w0 cs)).sessions a = _
      unfold Outcome.final
      rw [h4]
      simp [World.applyAll, World.apply, upd]
    · rw [h3.2]; rfl
    · rw [h3.1]; exact h2

/-! ## Groups -/

omit C in
theorem store_store (g : GroupStore) (n : SenderKeyName) (r r' : SenderKeyRecord) : (g.store n r).store n r' = g.store n r' := by
  funext m
  unfold GroupStore.store
  by_cases h : m = n <;> simp [h]

omit C in
theorem store_at (g : GroupStore) (n : SenderKeyName) (r : SenderKeyRecord) : (g.store n r) n = r := by
  unfold GroupStore.store; rw [if_pos rfl]

/-- **C80**, sending to a group: after `encrypt` the store is the same for any two chain keys with the same successor. -/
theorem C80_group_send (g : GroupStore) (n : SenderKeyName) (s : SenderKeyStateS) (rest : List SenderKeyStateS)
    (k k' : Bytes) (hk : C.hmac k [2] = C.hmac k' [2]) {pt pt' rand rand' b b' : Bytes}
    (h : (GroupCipher.encrypt (g.store n { senderKeyStates := withGroupKey s k :: rest }) n pt rand).result = .ok b)
    (h' : (GroupCipher.encrypt (g.store n { senderKeyStates := withGroupKey s k' :: rest }) n pt' rand').result = .ok b') :
    (GroupCipher.encrypt (g.store n { senderKeyStates := withGroupKey s k :: rest }) n pt rand).final
      (g.store n { senderKeyStates := withGroupKey s k :: rest }) n =
    (GroupCipher.encrypt (g.store n { senderKeyStates := withGroupKey s k' :: rest }) n pt' rand').final
      (g.store n { senderKeyStates := withGroupKey s k' :: rest }) n := by
  have key : ∀ {k pt rand b : Bytes},
      (GroupCipher.encrypt (g.store n { senderKeyStates := withGroupKey s k :: rest }) n pt rand).result = .ok b →
      (GroupCipher.encrypt (g.store n { senderKeyStates := withGroupKey s k :: rest }) n pt rand).final
        (g.store n { senderKeyStates := withGroupKey s k :: rest }) n =
        g.store n { senderKeyStates := sentState (withGroupKey s k) :: rest } := by
    intro k pt rand b h
    unfold GroupCipher.encrypt at h ⊢
    rw [store_at] at h ⊢
    cases he : GroupCipher.encryptWithRecord { senderKeyStates := withGroupKey s k :: rest } pt rand with
    | error e => rw [he] at h; cases e <;> cases h
    | ok p =>
      obtain ⟨m, r⟩ := p
      simp only [GOutcome.final]
      rw [store_store]
      congr 1
      unfold GroupCipher.encryptWithRecord at he
      obtain ⟨st, h1, he⟩ := bind_eq_ok.1 he
      obtain rfl : withGroupKey s k = st := by
        unfold SenderKeyRecord.getFirstState at h1
        exact Except.ok.inj h1
      obtain ⟨ct, h2, he⟩ := bind_eq_ok.1 he
      obtain ⟨m', h3, he⟩ := bind_eq_ok.1 he
      obtain ⟨st', h4, he⟩ := bind_eq_ok.1 he
      obtain ⟨_, rfl⟩ := Prod.mk.inj (Except.ok.inj he)
      unfold SenderKeyState.setSenderChainKey at h4
      obtain ⟨i, h5, h4⟩ := bind_eq_ok.1 h4
      have h4 := Except.ok.inj h4
      subst h4
      have hi : i = iterationOf (withGroupKey s k) + 1 := by
        have := (chkU32_eq_ok.1 h5).1
        simp only [SenderChainKey.getNext, position_eq] at this
        omega
      subst hi
      simp only [SenderKeyRecord.replace, List.set_cons_zero, SenderChainKey.getNext, chainKeyOf_eq]
      rfl
  rw [key h, key h']
  congr 3
  unfold sentState withGroupKey iterationOf Spec.chainKeyOf
  cases hc : s.senderChainKey with
  | none => simp
  | some ck => simp [hk]

omit C in
theorem iterationOf_withGroupKey (s : SenderKeyStateS) (k : Bytes) : iterationOf (withGroupKey s k) = iterationOf s := by
  unfold iterationOf withGroupKey
  cases s.senderChainKey <;> rfl

omit C in
theorem chainKeyOf_withGroupKey {s : SenderKeyStateS} {ck : SenderSeedS} (h : s.senderChainKey = some ck) (k : Bytes) :
    Spec.chainKeyOf (withGroupKey s k) = k := by
  unfold Spec.chainKeyOf withGroupKey; rw [h]; rfl

/-- What `decrypt` stores when it returns a plaintext, in terms of the state that has the key id. -/
theorem group_read (hC : C.Lawful) {g : GroupStore} {n : SenderKeyName} {bytes pt : Bytes} {id i : Nat}
    {x y : List SenderKeyStateS} {s : SenderKeyStateS}
    (hg : ∀ m, ∀ t ∈ ((g.store n { senderKeyStates := x ++ s :: y }) m).senderKeyStates, ∃ k,
      KeyOf (t.senderSigningKey.getD {}).pub k)
    (hm : ∃ m, ReadsGroup bytes (.ok m) ∧ m.keyId = id ∧ m.iteration = i)
    (hs : s.senderKeyId.getD 0 = id) (hx : ∀ z ∈ x, z.senderKeyId.getD 0 ≠ id)
    (h : (GroupCipher.decrypt (g.store n { senderKeyStates := x ++ s :: y }) n bytes).result = .ok pt) :
    ∃ seed s', GroupKey s i seed s' ∧
      (GroupCipher.decrypt (g.store n { senderKeyStates := x ++ s :: y }) n bytes).final
        (g.store n { senderKeyStates := x ++ s :: y }) n = g.store n { senderKeyStates := x ++ s' :: y } := by
  obtain ⟨o, ho⟩ := decrypt_exists hg n bytes
  have hrun := decrypt_of hC hg ho
  have hres : o.result = .ok (.bytes pt) := by
    rw [← hrun]
    simp only [GroupCall.run, GroupCall.mapG, h]
  have hfin : (GroupCipher.decrypt (g.store n { senderKeyStates := x ++ s :: y }) n bytes).stored = o.stored := by
    rw [← hrun]; rfl
  generalize hc : GroupCall.decrypt n bytes = c at ho
  cases ho <;> try cases hres
  case read n' body sig m x' y' t t' k seed q1 q2 q3 q4 q5 q6 q7 =>
    obtain ⟨rfl, rfl⟩ := GroupCall.decrypt.inj hc
    obtain ⟨m', e1, e2, e3⟩ := hm
    obtain rfl : m' = m := Except.ok.inj ((group_sound e1).symm.trans (group_sound q1))
    subst e2 e3
    have hsp := q3.split
    rw [store_at] at hsp
    obtain ⟨rfl, rfl, rfl⟩ := split_at_first (P := fun z : SenderKeyStateS => z.senderKeyId.getD 0 = m'.keyId) hsp hs q3.key
      hx q3.first
    refine ⟨seed, t', q6, ?_⟩
    unfold GOutcome.final
    rw [hfin]
    exact store_store ..
  all_goals cases hc

/-- **C80**, reading group messages: the store afterwards is the same for any two chain keys which agree on the seeds of the
skipped messages and on the chain key after this message. -/
theorem C80_group_read (hC : C.Lawful) (g : GroupStore) (n : SenderKeyName) {x y : List SenderKeyStateS} {s : SenderKeyStateS}
    {ck : SenderSeedS} (hck : s.senderChainKey = some ck)
    (hg : ∀ m, ∀ t ∈ ((g.store n { senderKeyStates := x ++ s :: y }) m).senderKeyStates, ∃ k,
      KeyOf (t.senderSigningKey.getD {}).pub k)
    {bytes bytes' : Bytes} {id i : Nat} (hm : ∃ m, ReadsGroup bytes (.ok m) ∧ m.keyId = id ∧ m.iteration = i)
    (hm' : ∃ m, ReadsGroup bytes' (.ok m) ∧ m.keyId = id ∧ m.iteration = i)
    (hs : s.senderKeyId.getD 0 = id) (hx : ∀ z ∈ x, z.senderKeyId.getD 0 ≠ id) (hi : iterationOf s ≤ i) {k k' : Bytes}
    (hnext : chainAt k (i + 1 - iterationOf s) = chainAt k' (i + 1 - iterationOf s))
    (hskip : ∀ d, d < i - iterationOf s → groupSeed (chainAt k d) = groupSeed (chainAt k' d)) {pt pt' : Bytes}
    (h : (GroupCipher.decrypt (g.store n { senderKeyStates := x ++ withGroupKey s k :: y }) n bytes).result = .ok pt)
    (h' : (GroupCipher.decrypt (g.store n { senderKeyStates := x ++ withGroupKey s k' :: y }) n bytes').result = .ok pt') :
    (GroupCipher.decrypt (g.store n { senderKeyStates := x ++ withGroupKey s k :: y }) n bytes).final
      (g.store n { senderKeyStates := x ++ withGroupKey s k :: y }) n =
    (GroupCipher.decrypt (g.store n { senderKeyStates := x ++ withGroupKey s k' :: y }) n bytes').final
      (g.store n { senderKeyStates := x ++ withGroupKey s k' :: y }) n := by
  have hg' : ∀ k m, ∀ t ∈ ((g.store n { senderKeyStates := x ++ withGroupKey s k :: y }) m).senderKeyStates, ∃ k,
      KeyOf (t.senderSigningKey.getD {}).pub k := by
    intro k m t ht
    by_cases hmn : m = n
    · subst hmn
      rw [store_at] at ht
      have hgm := hg m
      rw [store_at] at hgm
      rcases List.mem_append.1 ht with ht | ht
      · exact hgm t (List.mem_append_left _ ht)
      · rcases List.mem_cons.1 ht with rfl | ht
        · exact hgm s (List.mem_append_right _ (List.mem_cons_self ..))
        · exact hgm t (List.mem_append_right _ (List.mem_cons_of_mem _ ht))
    · apply hg m t
      unfold GroupStore.store at ht ⊢
      rw [if_neg hmn] at ht ⊢
      exact ht
  obtain ⟨_, s1, k1, f1⟩ := group_read hC (hg' k) hm hs hx h
  obtain ⟨_, s2, k2, f2⟩ := group_read hC (hg' k') hm' hs hx h'
  rw [f1, f2]
  have : s1 = s2 := by
    cases k1 with
    | kept q _ _ _ => rw [iterationOf_withGroupKey] at q; omega
    | ahead _ _ =>
      cases k2 with
      | kept q _ _ _ => rw [iterationOf_withGroupKey] at q; omega
      | ahead _ _ =>
        rw [iterationOf_withGroupKey, iterationOf_withGroupKey, chainKeyOf_withGroupKey hck, chainKeyOf_withGroupKey hck, hnext]
        have : (List.range (i - iterationOf s)).map (fun j =>
              ({ iteration := some (iterationOf s + j), seed := some (groupSeed (chainAt k j)) } : SenderSeedS)) =
            (List.range (i - iterationOf s)).map (fun j =>
              { iteration := some (iterationOf s + j), seed := some (groupSeed (chainAt k' j)) }) := by
          apply List.map_congr_left
          intro d hd
          rw [hskip d (List.mem_range.1 hd)]
        rw [this]
        rfl
  rw [this]

/-- **C80**, reading a group message that was skipped: the store afterwards does not depend on the seed kept for it. -/
theorem C80_group_read_skipped (hC : C.Lawful) (g : GroupStore) (n : SenderKeyName) {x y : List SenderKeyStateS}
    {s : SenderKeyStateS} {u v : List SenderSeedS} {e e' : SenderSeedS}
    (hg : ∀ m, ∀ t ∈ ((g.store n { senderKeyStates := x ++ s :: y }) m).senderKeyStates, ∃ k,
      KeyOf (t.senderSigningKey.getD {}).pub k)
    {bytes bytes' : Bytes} {id i : Nat} (hm : ∃ m, ReadsGroup bytes (.ok m) ∧ m.keyId = id ∧ m.iteration = i)
    (hm' : ∃ m, ReadsGroup bytes' (.ok m) ∧ m.keyId = id ∧ m.iteration = i)
    (hs : s.senderKeyId.getD 0 = id) (hx : ∀ z ∈ x, z.senderKeyId.getD 0 ≠ id) (hi : i < iterationOf s)
    (he : e.iteration.getD 0 = i ∧ e'.iteration.getD 0 = i) (hu : ∀ z ∈ u, z.iteration.getD 0 ≠ i) {pt pt' : Bytes}
    (h : (GroupCipher.decrypt
      (g.store n { senderKeyStates := x ++ { s with senderMessageKeys := u ++ e :: v } :: y }) n bytes).result = .ok pt)
    (h' : (GroupCipher.decrypt
      (g.store n { senderKeyStates := x ++ { s with senderMessageKeys := u ++ e' :: v } :: y }) n bytes').result = .ok pt') :
    (GroupCipher.decrypt (g.store n { senderKeyStates := x ++ { s with senderMessageKeys := u ++ e :: v } :: y }) n bytes).final
      (g.store n { senderKeyStates := x ++ { s with senderMessageKeys := u ++ e :: v } :: y }) n =
    (GroupCipher.decrypt (g.store n { senderKeyStates := x ++ { s with senderMessageKeys := u ++ e' :: v } :: y }) n bytes').final
      (g.store n { senderKeyStates := x ++ { s with senderMessageKeys := u ++ e' :: v } :: y }) n := by
  have hg' : ∀ e m, ∀ t ∈ ((g.store n { senderKeyStates := x ++ { s with senderMessageKeys := u ++ e :: v } :: y })
      m).senderKeyStates, ∃ k, KeyOf (t.senderSigningKey.getD {}).pub k := by
    intro e m t ht
    by_cases hmn : m = n
    · subst hmn
      rw [store_at] at ht
      have hgm := hg m
      rw [store_at] at hgm
      rcases List.mem_append.1 ht with ht | ht
      · exact hgm t (List.mem_append_left _ ht)
      · rcases List.mem_cons.1 ht with rfl | ht
        · exact hgm s (List.mem_append_right _ (List.mem_cons_self ..))
        · exact hgm t (List.mem_append_right _ (List.mem_cons_of_mem _ ht))
    · apply hg m t
      unfold GroupStore.store at ht ⊢
      rw [if_neg hmn] at ht ⊢
      exact ht
  obtain ⟨_, s1, k1, f1⟩ := group_read hC (s := { s with senderMessageKeys := u ++ e :: v }) (hg' e) hm hs hx h
  obtain ⟨_, s2, k2, f2⟩ := group_read hC (s := { s with senderMessageKeys := u ++ e' :: v }) (hg' e') hm' hs hx h'
  rw [f1, f2]
  have key : ∀ {e : SenderSeedS} {s' : SenderKeyStateS} {k : Bytes}, e.iteration.getD 0 = i →
      GroupKey { s with senderMessageKeys := u ++ e :: v } i k s' → s' = { s with senderMessageKeys := u ++ v } := by
    intro e s' k he hy
    cases hy with
    | ahead q _ => have q : iterationOf s ≤ i := q; omega
    | kept _ q2 q3 q4 =>
      obtain ⟨rfl, rfl, rfl⟩ := split_at_first (P := fun z : SenderSeedS => z.iteration.getD 0 = i) q2.symm q3 he q4 hu
      rfl
  rw [key he.1 k1, key he.2 k2]

end

/-! ## Non-vacuity, over the toy primitives, where different keys with the same successor are easily found -/

section
attribute [local instance] toy
open Example Spec

namespace Erasure

def keyA : Bytes := List.replicate 28 7 ++ [0, 0, 253, 0]
def keyB : Bytes := List.replicate 28 7 ++ [15, 15, 0, 91]

theorem keys_meet : keyA ≠ keyB ∧ toy.hmac keyA [2] = toy.hmac keyB [2] := by decide +kernel

def aliceS : SessionS := (alice3.loadSession bobAddr).sessionState
def bobS : SessionS := (bob2.loadSession aliceAddr).sessionState

/-- `C80_send` -/
example : (SessionCipher.encrypt (storing alice3 bobAddr (withSendKey aliceS keyA)) bobAddr [1, 2]).final
      (storing alice3 bobAddr (withSendKey aliceS keyA)) =
    (SessionCipher.encrypt (storing alice3 bobAddr (withSendKey aliceS keyB)) bobAddr [3]).final
      (storing alice3 bobAddr (withSendKey aliceS keyB)) := by
  have h : ∀ k ∈ [keyA, keyB], ∀ pt ∈ [[1, 2], [3]], ((SessionCipher.encrypt
      (storing alice3 bobAddr (withSendKey aliceS k)) bobAddr pt).result.toOption).isSome = true := by decide +kernel
  have ok : ∀ {r : Res Ciphertext}, r.toOption.isSome = true → ∃ c, r = .ok c := by
    intro r hr
    cases r with
    | error e => cases hr
    | ok c => exact ⟨c, rfl⟩
  obtain ⟨c, hc⟩ := ok (h keyA (by simp) [1, 2] (by simp))
  obtain ⟨c', hc'⟩ := ok (h keyB (by simp) [3] (by simp))
  exact C80_send alice3 bobAddr aliceS keyA keyB keys_meet.2 hc hc'

/-- The state after encrypting once, and the message. -/
def sends (s : SessionS) (pt : Bytes) : WhisperMessage × SessionS :=
  match SessionCipher.encryptWithState s pt with
  | .ok (c, s') => (c.inner, s')
  | .error _ => (noMessage, s)

/-- Bob's messages 1 and 2 if his chain key were `keyA`. -/
def m1 : WhisperMessage := (sends (withSendKey bobS keyA) [1, 2]).1
def m2 : WhisperMessage := (sends (sends (withSendKey bobS keyA) [1, 2]).2 [3, 4]).1

def chains (i : Nat) : ChainS := (aliceS.receiverChains[i]?).getD {}

/-- Alice's state if the chain key of Bob's second chain were `k`. -/
def known (k : Bytes) : SessionS := { aliceS with receiverChains := [chains 0] ++ withKey (chains 1) k :: [] }

/-- Alice reads. -/
def reads (s : SessionS) (m : WhisperMessage) : Outcome Bytes :=
  SessionCipher.decryptMsg (storing alice3 bobAddr s) bobAddr m (key 1) (fun _ => key 2)

theorem chain1_key : KeyOf (chains 1).senderRatchetKey m2.senderRatchetKey :=
  ⟨m2.senderRatchetKey, by decide +kernel, by decide +kernel⟩

theorem chain0_key : ∀ z ∈ [chains 0], ¬ KeyOf z.senderRatchetKey m2.senderRatchetKey := by
  intro z hz
  rw [List.mem_singleton.1 hz]
  rintro ⟨x, h1, h2⟩
  have h3 : (chains 0).senderRatchetKey.map (fun b => (b.drop 1).take 32) ≠ some m2.senderRatchetKey := by decide +kernel
  rw [h1] at h3
  exact h3 (by rw [h2]; rfl)

theorem skipped_meet (n : Nat) : skippedEntry keyA 0 n = skippedEntry keyB 0 n := by
  have : (cipherKeyOf (chainAt keyA 0), macKeyOf (chainAt keyA 0), ivOf (chainAt keyA 0)) =
      (cipherKeyOf (chainAt keyB 0), macKeyOf (chainAt keyB 0), ivOf (chainAt keyB 0)) := by decide +kernel
  simp only [Prod.mk.injEq] at this
  unfold skippedEntry
  rw [this.1, this.2.1, this.2.2]

/-- `C80_read`: message 2 is read, message 1 skipped; the chain key was `keyA` or `keyB`. -/
example : (reads (known keyA) m2).final (storing alice3 bobAddr (known keyA)) =
    (reads (known keyB) m2).final (storing alice3 bobAddr (known keyB)) :=
  C80_read (ck := ((chains 1).chainKey).getD {}) toy_lawful alice3 bobAddr aliceS (by decide +kernel) (by decide)
    (by decide +kernel) ⟨rfl, rfl⟩ chain1_key chain0_key (by decide +kernel) (by decide +kernel)
    (by
      intro d n hd
      have : m2.counter - position (chains 1) = 1 := by decide +kernel
      obtain rfl : d = 0 := by omega
      exact skipped_meet n)
    (h := (by decide +kernel : (reads (known keyA) m2).result = .ok [3, 4]))
    (h' := (by decide +kernel : (reads (known keyB) m2).result = .ok [3, 4]))

/-- The key kept for message 1. -/
def kept : MessageKeyS := skippedEntry keyA 0 1
/-- Any other key for message 1, and message 1 under it. -/
def other : MessageKeyS := skippedEntry (key 9) 0 1
def m1' : WhisperMessage := (sends (withSendKey bobS (key 9)) [1, 2]).1

/-- Bob's second chain after message 2. -/
def later : ChainS := { chains 1 with chainKey := some { key := some (chainAt keyA 2), index := some 3 } }
def skipping (e : MessageKeyS) : SessionS :=
  { aliceS with receiverChains := [chains 0] ++ { later with messageKeys := [] ++ e :: [] } :: [] }

theorem m1_key : m1.senderRatchetKey = m2.senderRatchetKey := by decide +kernel
theorem later_key : KeyOf later.senderRatchetKey m1.senderRatchetKey := by
  have h : later.senderRatchetKey = (chains 1).senderRatchetKey := by unfold later; generalize chains 1 = c; rfl
  rw [h, m1_key]
  exact chain1_key

/-- `C80_read_skipped`: message 1 is read, under either key. -/
example : (reads (skipping kept) m1).final (storing alice3 bobAddr (skipping kept)) =
    (reads (skipping other) m1').final (storing alice3 bobAddr (skipping other)) :=
  C80_read_skipped (c := later) toy_lawful alice3 bobAddr aliceS (by decide +kernel) (by decide) (by decide +kernel)
    later_key (by rw [m1_key]; exact chain0_key)
    (by decide +kernel) (by decide +kernel) (by intro z hz; cases hz)
    (h := (by decide +kernel : (reads (skipping kept) m1).result = .ok [1, 2]))
    (h' := (by decide +kernel : (reads (skipping other) m1').result = .ok [1, 2]))

/-- A new ratchet key of Bob's, and his first message under it if the agreement gives the chain of `root` and `d`. -/
def newKey : Bytes := key 77
def m0 : WhisperMessage :=
  (sends { bobS with senderChain := some { senderRatchetKey := some (5 :: newKey), senderRatchetKeyPrivate := some newKey,
                                           chainKey := startOf (ratchetChain keyA keyA) } } [5, 6]).1

/-- The private key whose agreement with `newKey` is `d`. -/
def privFor (d : Bytes) : Bytes := List.zipWith (· ^^^ ·) d newKey

/-- `C80_ratchet`: three secrets replaced by others. -/
example : (reads (withOwnKeys aliceS keyA (privFor keyA) (key 5)) m0).final
      (storing alice3 bobAddr (withOwnKeys aliceS keyA (privFor keyA) (key 5))) =
    (reads (withOwnKeys aliceS keyB (privFor keyB) (key 6)) m0).final
      (storing alice3 bobAddr (withOwnKeys aliceS keyB (privFor keyB) (key 6))) :=
  C80_ratchet (d := keyA) (d' := keyB) toy_lawful alice3 bobAddr aliceS (by decide +kernel) (by decide +kernel) ⟨rfl, rfl⟩
    (by
      intro z hz
      rintro ⟨x, h1, h2⟩
      have h3 : ∀ z ∈ aliceS.receiverChains, z.senderRatchetKey.map (fun b => (b.drop 1).take 32) ≠ some m0.senderRatchetKey := by
        decide +kernel
      have h3 := h3 z hz
      rw [h1] at h3
      exact h3 (by rw [h2]; rfl))
    (by decide +kernel) (by decide +kernel) (by decide +kernel) (by decide +kernel)
    (h := (by decide +kernel : (reads (withOwnKeys aliceS keyA (privFor keyA) (key 5)) m0).result = .ok [5, 6]))
    (h' := (by decide +kernel : (reads (withOwnKeys aliceS keyB (privFor keyB) (key 6)) m0).result = .ok [5, 6]))

/-- `C80_conversation`: in the example of C37 each side keeps exactly the key of the message that it has not accepted. -/
def keptCheck (n : Net) : Bool :=
  [false, true].all fun b => ((n.world b).sessions (convCv.addr b)).any fun r =>
    (r.sessionState.receiverChains.getLast?.any fun c => position c == 2 && storedCounters c == [0])

example : ∃ n, Start convCv conv0 ∧ Steps convCv conv0 n ∧ n.accepted false ≠ [] ∧ keptCheck n = true := by
  have h : convRun.any (fun n => keptCheck n && n.accepted false == [1]) = true := by decide +kernel
  cases hr : convRun with
  | none => rw [hr] at h; cases h
  | some n =>
    rw [hr] at h
    simp only [Option.any_some, Bool.and_eq_true, beq_iff_eq] at h
    exact ⟨n, conv_start, convRun_steps hr, by rw [h.2]; simp, h.1⟩

/-- `C80_exchange_kept`: Alice asks, Bob answers, Alice processes the answer. -/
example : (Spec.pendingOf (keAlice1.sessions bobAddr)).isSome ∧
    (SessionBuilder.processKeyExchangeMessage keAlice1 bobAddr keAnswerMsg ⟨key 81, key 82, key 83, key 84⟩).writes.length = 2 := by
  decide +kernel

/-! Groups -/

def room : SenderKeyName := ⟨"room", "alice", 1⟩

/-- A sender key at iteration 3. -/
def sender : SenderKeyStateS :=
  { senderKeyId := some 9, senderChainKey := some { iteration := some 3, seed := some keyA },
    senderSigningKey := some { pub := some (5 :: key 8), priv := some (key 8) } }

def storeOf (k : Bytes) : GroupStore := GroupStore.empty.store room { senderKeyStates := withGroupKey sender k :: [] }
def sendsTo (g : GroupStore) (pt : Bytes) : Bytes × GroupStore :=
  match GroupCipher.encrypt g room pt (List.replicate 64 0) with
  | ⟨some r, .ok b⟩ => (b, g.store room r)
  | _ => ([], g)

/-- `C80_group_send` -/
example : (GroupCipher.encrypt (storeOf keyA) room [1, 2] (List.replicate 64 0)).final (storeOf keyA) room =
    (GroupCipher.encrypt (storeOf keyB) room [3] (List.replicate 64 0)).final (storeOf keyB) room :=
  C80_group_send GroupStore.empty room sender [] keyA keyB keys_meet.2
    (h := (by decide +kernel : (GroupCipher.encrypt (storeOf keyA) room [1, 2] (List.replicate 64 0)).result =
      .ok (sendsTo (storeOf keyA) [1, 2]).1))
    (h' := (by decide +kernel : (GroupCipher.encrypt (storeOf keyB) room [3] (List.replicate 64 0)).result =
      .ok (sendsTo (storeOf keyB) [3]).1))

def g3 : Bytes := (sendsTo (storeOf keyA) [1, 2]).1
def g4 : Bytes := (sendsTo (sendsTo (storeOf keyA) [1, 2]).2 [3, 4]).1

def parsed (b : Bytes) : SenderKeyMessage :=
  match SenderKeyMessage.parse b with
  | .ok m => m
  | .error _ => { serialized := [], messageVersion := 0, keyId := 0, iteration := 0, ciphertext := [] }

theorem g3_reads : ∃ m, ReadsGroup g3 (.ok m) ∧ m.keyId = 9 ∧ m.iteration = 3 :=
  ⟨parsed g3, (C60_group _ _).2 (by decide +kernel), by decide +kernel, by decide +kernel⟩

theorem g4_reads : ∃ m, ReadsGroup g4 (.ok m) ∧ m.keyId = 9 ∧ m.iteration = 4 :=
  ⟨parsed g4, (C60_group _ _).2 (by decide +kernel), by decide +kernel, by decide +kernel⟩

theorem room_keys {s : SenderKeyStateS} (hs : s.senderSigningKey = sender.senderSigningKey) :
    ∀ m, ∀ t ∈ ((GroupStore.empty.store room { senderKeyStates := [] ++ s :: [] }) m).senderKeyStates, ∃ k,
      KeyOf (t.senderSigningKey.getD {}).pub k := by
  intro m t ht
  by_cases h : m = room
  · subst h
    rw [store_at] at ht
    rw [List.mem_singleton.1 ht, hs]
    exact ⟨key 8, key 8, rfl, by decide +kernel⟩
  · unfold GroupStore.store at ht
    rw [if_neg h] at ht
    cases ht

/-- `C80_group_read`: the message of iteration 4 is read, that of iteration 3 skipped. -/
example : (GroupCipher.decrypt (storeOf keyA) room g4).final (storeOf keyA) room =
    (GroupCipher.decrypt (storeOf keyB) room g4).final (storeOf keyB) room :=
  C80_group_read (x := []) (y := []) (s := sender) (ck := { iteration := some 3, seed := some keyA }) toy_lawful
    GroupStore.empty room rfl (room_keys rfl) g4_reads g4_reads rfl (by intro z hz; cases hz) (by decide)
    (by decide +kernel)
    (by
      intro d hd
      obtain rfl : d = 0 := by have : iterationOf sender = 3 := rfl; omega
      decide +kernel)
    (h := (by decide +kernel : (GroupCipher.decrypt (storeOf keyA) room g4).result = .ok [3, 4]))
    (h' := (by decide +kernel : (GroupCipher.decrypt (storeOf keyB) room g4).result = .ok [3, 4]))

/-- The same sender key at iteration 5, with the seed of iteration 3 kept. -/
def at5 : SenderKeyStateS := { sender with senderChainKey := some { iteration := some 5, seed := some (chainAt keyA 2) } }
def seedOf (k : Bytes) : SenderSeedS := { iteration := some 3, seed := some (groupSeed k) }
def storeAt5 (k : Bytes) : GroupStore :=
  GroupStore.empty.store room { senderKeyStates := [] ++ { at5 with senderMessageKeys := [] ++ seedOf k :: [] } :: [] }
def g3' : Bytes := (sendsTo (storeOf (key 9)) [1, 2]).1

/-- `C80_group_read_skipped`: the message of iteration 3 is read, under either seed. -/
example : (GroupCipher.decrypt (storeAt5 keyA) room g3).final (storeAt5 keyA) room =
    (GroupCipher.decrypt (storeAt5 (key 9)) room g3').final (storeAt5 (key 9)) room :=
  C80_group_read_skipped (x := []) (y := []) (s := at5) (u := []) (v := []) (e := seedOf keyA) (e' := seedOf (key 9)) toy_lawful
    GroupStore.empty room (room_keys rfl) g3_reads
    ⟨parsed g3', (C60_group _ _).2 (by decide +kernel), by decide +kernel, by decide +kernel⟩ rfl (by intro z hz; cases hz)
    (by decide) ⟨rfl, rfl⟩ (by intro z hz; cases hz)
    (h := (by decide +kernel : (GroupCipher.decrypt (storeAt5 keyA) room g3).result = .ok [1, 2]))
    (h' := (by decide +kernel : (GroupCipher.decrypt (storeAt5 (key 9)) room g3').result = .ok [1, 2]))

end Erasure
end
end Axolotl
