import Verif.Proofs.Shape
import Verif.Props.Cipher
import Verif.Props.Messages

/-! What one side of a session looks like (of either version `v`), in terms of the key schedule, and how sending and
receiving genuine messages change it. -/

namespace Axolotl
section
variable [C : Crypto]
open SessionState ByteUtil Wire

variable {v : Kdf}

/-- A ratchet key with the root key and the chain key that belong to it. -/
structure Epoch (v : Kdf) where
  priv : ECPriv
  pub : ECPub
  root : Bytes
  chain : Bytes

structure Epoch.Good (x : Epoch v) : Prop where
  priv : x.priv.length = 32
  pub : x.pub = C.genPub x.priv

theorem Epoch.Good.pub_len {x : Epoch v} (h : x.Good) (hC : C.Lawful) : x.pub.length = 32 := by
  rw [h.pub]; exact hC.genPub_len _ h.priv

/-- A Diffie-Hellman ratchet step from `x` to `y`. -/
def Epoch.Next (x y : Epoch v) : Prop :=
  ∃ sec, C.dh x.priv y.pub = some sec ∧ C.dh y.priv x.pub = some sec ∧
    y.root = rootOf v x.root sec ∧ y.chain = chainOf v x.root sec

/-- The chain key number `k` of an epoch. -/
def Epoch.at (x : Epoch v) (k : Nat) : ChainKey := ⟨v, Spec.chainAt x.chain k, k⟩

/-- A receive chain: epoch, next counter, counters skipped so far. -/
structure Recv (v : Kdf) where
  ep : Epoch v
  index : Nat
  missing : List Nat

def Recv.chain (r : Recv v) : ChainS :=
  { senderRatchetKey := some (Curve.serializePoint r.ep.pub)
    chainKey := some { key := some (Spec.chainAt r.ep.chain r.index), index := some r.index }
    messageKeys := r.missing.map fun k => entryOf (r.ep.at k) }

structure Recv.Ok (r : Recv v) : Prop where
  nodup : r.missing.Nodup
  below : ∀ k ∈ r.missing, k < r.index

def sendChain (x : Epoch v) (n : Nat) : ChainS :=
  { senderRatchetKey := some (Curve.serializePoint x.pub), senderRatchetKeyPrivate := some x.priv,
    chainKey := some { key := some (Spec.chainAt x.chain n), index := some n } }

/-- The state of one side: identities, own epoch `x` with send counter `n`, receive chains `R`. -/
structure Party (lid rid : ECPub) (x : Epoch v) (n : Nat) (R : List (Recv v)) (s : SessionState) : Prop where
  ver : getSessionVersion s = v.number
  lid : s.localIdentityPublic = some (Curve.serializePoint lid)
  rid : s.remoteIdentityPublic = some (Curve.serializePoint rid)
  root : s.rootKey = some x.root
  sender : s.senderChain = some (sendChain x n)
  recv : s.receiverChains = R.map Recv.chain
  prev : getPreviousCounter s < 2 ^ 32

/-- `m` is message number `k` of epoch `x`, encrypting `pt`, from `sid` to `rid`. -/
structure Genuine (sid rid : ECPub) (x : Epoch v) (k : Nat) (pt : Bytes) (m : WhisperMessage) : Prop where
  version : m.messageVersion = v.number
  key : m.senderRatchetKey = x.pub
  counter : m.counter = k
  bound : k + 1 < 2 ^ 32
  mac : m.verifyMac v.number sid rid (macOf v (Spec.chainAt x.chain k)) = .ok ()
  body : AES.decrypt (cipherOf v (Spec.chainAt x.chain k)) (ivecOf v (Spec.chainAt x.chain k)) m.ciphertext
    = .ok pt

theorem at_iter (x : Epoch v) (k t : Nat) : (x.at k).iter t = x.at (k + t) := by
  have h1 := iter_key (x.at k) t
  have h2 := ChainKey.iter_index (x.at k) t
  have h3 := ChainKey.iter_kdf (x.at k) t
  have h4 : (x.at k).key = Spec.chainAt x.chain k := rfl
  rw [h4, chainAt_add] at h1
  cases h : (x.at k).iter t with
  | mk a b c => rw [h] at h1 h2 h3; simp only at h1 h2 h3; subst h1 h2 h3; rfl

theorem skipped_at (x : Epoch v) (k n : Nat) :
    skipped (x.at k) n = (List.range' k n).map fun i => entryOf (x.at i) := by
  unfold skipped
  rw [List.range'_eq_map_range, List.map_map]
  apply List.map_congr_left
  intro i _
  rw [at_iter]; rfl

theorem entry_index (x : Epoch v) (k : Nat) : (entryOf (x.at k)).index.getD 0 = k := rfl

theorem takeKey_none {x : Epoch v} {k : Nat} : ∀ {l : List Nat}, k ∉ l →
    takeKey k (l.map fun i => entryOf (x.at i)) = none := by
  intro l
  induction l with
  | nil => intro _; rfl
  | cons a l ih =>
    intro h
    rw [List.mem_cons, not_or] at h
    rw [List.map_cons]
    unfold takeKey
    rw [if_neg (by rw [entry_index]; exact fun e => h.1 e.symm), ih h.2]
    rfl

theorem takeKey_erase {x : Epoch v} {k : Nat} : ∀ {l : List Nat}, k ∈ l →
    takeKey k (l.map fun i => entryOf (x.at i)) =
      some (entryOf (x.at k), (l.erase k).map fun i => entryOf (x.at i)) := by
  intro l
  induction l with
  | nil => intro h; cases h
  | cons a l ih =>
    intro h
    rw [List.map_cons]
    unfold takeKey
    by_cases hk : a = k
    · subst hk
      rw [if_pos (entry_index _ _), List.erase_cons_head]
    · have hm : k ∈ l := by
        rcases List.mem_cons.1 h with e | e
        · exact absurd e.symm hk
        · exact e
      rw [if_neg (by rw [entry_index]; exact hk), ih hm,
        List.erase_cons_tail (by simpa using hk), List.map_cons]
      rfl

theorem decode_chain (r : Recv v) (h : r.ep.pub.length = 32) :
    Curve.decodePoint (r.chain.senderRatchetKey.getD []) = .ok r.ep.pub :=
  decodePoint_serializePoint (by omega)

theorem findChain_absent {key : ECPub} : ∀ {R : List (Recv v)} (i : Nat), (∀ r ∈ R, r.ep.pub.length = 32) →
    (∀ r ∈ R, r.ep.pub ≠ key) → findChain key (R.map Recv.chain) i = .ok none := by
  intro R
  induction R with
  | nil => intros; rfl
  | cons a R ih =>
    intro i h1 h2
    rw [List.map_cons]
    unfold findChain
    rw [decode_chain a (h1 a (List.mem_cons_self ..)), ok_bind, if_neg (h2 a (List.mem_cons_self ..))]
    exact ih _ (fun r h => h1 r (List.mem_cons_of_mem _ h)) (fun r h => h2 r (List.mem_cons_of_mem _ h))

theorem findChain_present : ∀ {R : List (Recv v)} (i : Nat) {j : Nat} {r : Recv v}, (∀ r ∈ R, r.ep.pub.length = 32) →
    (R.map fun r => r.ep.pub).Nodup → R[j]? = some r →
    findChain r.ep.pub (R.map Recv.chain) i = .ok (some (r.chain, i + j)) := by
  intro R
  induction R with
  | nil => intro i j r _ _ h; simp at h
  | cons a R ih =>
    intro i j r h1 h2 h3
    rw [List.map_cons] at h2 ⊢
    rw [List.nodup_cons] at h2
    unfold findChain
    rw [decode_chain a (h1 a (List.mem_cons_self ..)), ok_bind]
    cases j with
    | zero =>
      simp only [List.getElem?_cons_zero, Option.some.injEq] at h3
      subst h3
      rw [if_pos rfl]; rfl
    | succ j =>
      simp only [List.getElem?_cons_succ] at h3
      rw [if_neg, ih (i + 1) (fun r h => h1 r (List.mem_cons_of_mem _ h)) h2.2 h3]
      · rw [Nat.add_right_comm, Nat.add_assoc]
      · intro e
        apply h2.1
        rw [e]
        exact List.mem_map.2 ⟨r, List.mem_of_getElem? h3, rfl⟩

theorem set_map_chain (R : List (Recv v)) (j : Nat) (r : Recv v) :
    (R.map Recv.chain).set j r.chain = (R.set j r).map Recv.chain := by
  rw [List.map_set]

namespace Party

variable {lid rid : ECPub} {x : Epoch v} {n : Nat} {R : List (Recv v)} {s : SessionState}

omit C in
theorem _root_.Axolotl.getSessionVersion_three {s : SessionState} : getSessionVersion s = 3 ↔ s.sessionVersion = some 3 := by
  unfold getSessionVersion
  match h : s.sessionVersion with
  | none => simp
  | some 0 => simp
  | some (k + 1) => simp

theorem version {x : Epoch .v3} {R : List (Recv .v3)} (h : Party lid rid x n R s) : s.sessionVersion = some 3 :=
  getSessionVersion_three.1 h.ver

theorem kdf (h : Party lid rid x n R s) : Kdf.createFor (getSessionVersion s) = .ok v := by
  rw [h.ver]; exact createFor_number v

theorem sendIndex (h : Party lid rid x n R s) : SessionState.sendIndex s = n := by
  unfold SessionState.sendIndex senderChainD; rw [h.sender]; rfl

theorem sendKey (h : Party lid rid x n R s) : SessionState.sendKey s = Spec.chainAt x.chain n := by
  unfold SessionState.sendKey senderChainD; rw [h.sender]; rfl

theorem remote (h : Party lid rid x n R s) (hl : rid.length = 32) : getRemoteIdentityKey s = .ok rid := by
  unfold getRemoteIdentityKey; rw [h.rid]; exact decodePoint_serializePoint (by omega)

theorem local' (h : Party lid rid x n R s) (hl : lid.length = 32) : getLocalIdentityKey s = .ok lid := by
  unfold getLocalIdentityKey; rw [h.lid]; exact decodePoint_serializePoint (by omega)

theorem keyPair (h : Party lid rid x n R s) (hl : x.pub.length = 32) :
    getSenderRatchetKeyPair s = .ok ⟨x.pub, x.priv⟩ := by
  unfold getSenderRatchetKeyPair getSenderRatchetKey senderChainD
  rw [h.sender]
  simp only [Option.getD_some, sendChain]
  rw [decodePoint_serializePoint (by omega), ok_bind]
  rfl

/-- Clearing the pending prekey keeps a party a party. -/
theorem clear (h : Party lid rid x n R s) : Party lid rid x n R (clearUnacknowledgedPreKeyMessage s) :=
  ⟨h.ver, h.lid, h.rid, h.root, h.sender, h.recv, h.prev⟩

theorem setRecv (h : Party lid rid x n R s) {j : Nat} {r : Recv v} {c : ChainS} (hc : c = r.chain) :
    Party lid rid x n (R.set j r) (setChainAt s j c) := by
  refine ⟨h.ver, h.lid, h.rid, h.root, h.sender, ?_, h.prev⟩
  show s.receiverChains.set j c = _
  rw [h.recv, hc, set_map_chain]

end Party

/-- The last step of decryption, once the message keys are found. -/
theorem dwss_forward {s s1 s2 : SessionState} {m : WhisperMessage} {seed : Bytes} {ck : ChainKey} {mk : MessageKeys}
    {lid rid : ECPub} {x : Epoch v} {y : Epoch v} {n k : Nat} {R : List (Recv v)} {pt : Bytes}
    (hlen : ∀ k m, (C.hmac k m).length = 32) (hl : lid.length = 32) (hr : rid.length = 32)
    (hsc : hasSenderChain s = true) (hsv : getSessionVersion s = v.number)
    (hg : Genuine rid lid y k pt m)
    (h1 : SessionCipher.getOrCreateChainKey s y.pub seed = .ok (ck, s1))
    (h2 : SessionCipher.getOrCreateMessageKeys s1 y.pub ck k = .ok (mk, s2))
    (hmk : mk = (y.at k).getMessageKeys) (hp : Party lid rid x n R s2) :
    SessionCipher.decryptWithSessionState s m seed = .ok (pt, clearUnacknowledgedPreKeyMessage s2) := by
  unfold SessionCipher.decryptWithSessionState
  rw [if_neg (by rw [hsc]; simp), if_neg (by rw [hsv, hg.version]; simp), hg.key, hg.counter, h1, ok_bind]
  simp only
  rw [h2, ok_bind]
  simp only
  rw [hp.remote hr, ok_bind, hp.local' hl, ok_bind, hmk, getMessageKeys_of (v := v) hlen _ rfl, hg.version]
  simp only
  have e1 : (y.at k).key = Spec.chainAt y.chain k := rfl
  rw [e1, hg.mac, ok_bind, hg.body, ok_bind]

theorem gocck_present {lid rid : ECPub} {x : Epoch v} {n j : Nat} {R : List (Recv v)} {s : SessionState} {r : Recv v}
    (h : Party lid rid x n R s) (hR : ∀ r ∈ R, r.ep.pub.length = 32)
    (hnd : (R.map fun r => r.ep.pub).Nodup) (hj : R[j]? = some r) (seed : Bytes) :
    getReceiverChain s r.ep.pub = .ok (some (r.chain, j)) ∧
    SessionCipher.getOrCreateChainKey s r.ep.pub seed = .ok (r.ep.at r.index, s) := by
  have hf : getReceiverChain s r.ep.pub = .ok (some (r.chain, j)) := by
    unfold getReceiverChain
    rw [h.recv, findChain_present 0 hR hnd hj]; simp
  refine ⟨hf, ?_⟩
  unfold SessionCipher.getOrCreateChainKey hasReceiverChain
  rw [hf]
  simp only [ok_bind, Option.isSome_some, if_true]
  rw [getReceiverChainKey_eq hf h.kdf]
  rfl

/-- A message that was skipped before. -/
theorem recv_skipped {lid rid : ECPub} {x : Epoch v} {n j k : Nat} {R : List (Recv v)} {s : SessionState} {r : Recv v}
    {pt : Bytes} {m : WhisperMessage}
    (hlen : ∀ k m, (C.hmac k m).length = 32) (hl : lid.length = 32) (hr : rid.length = 32)
    (h : Party lid rid x n R s) (hR : ∀ r ∈ R, r.ep.pub.length = 32)
    (hnd : (R.map fun r => r.ep.pub).Nodup) (hj : R[j]? = some r) (hg : Genuine rid lid r.ep k pt m)
    (hk : k ∈ r.missing) (hlt : k < r.index) (seed : Bytes) :
    ∃ s', SessionCipher.decryptWithSessionState s m seed = .ok (pt, s') ∧
      Party lid rid x n (R.set j { r with missing := r.missing.erase k }) s' := by
  obtain ⟨hf, hck⟩ := gocck_present h hR hnd hj seed
  have ht := takeKey_erase (x := r.ep) hk
  have h2 := SessionCipher.gocmk_stored (ck := r.ep.at r.index) hf hlt ht
  have hp : Party lid rid x n (R.set j { r with missing := r.missing.erase k }) _ := h.setRecv rfl
  exact ⟨_, dwss_forward hlen hl hr (by unfold hasSenderChain; rw [h.sender]; rfl) h.ver hg hck h2
    (messageKeysOf_entryOf _) hp, hp.clear⟩

/-- A message that was received before. -/
theorem recv_duplicate {lid rid : ECPub} {x : Epoch v} {n j k : Nat} {R : List (Recv v)} {s : SessionState} {r : Recv v}
    {pt : Bytes} {m : WhisperMessage}
    (h : Party lid rid x n R s) (hR : ∀ r ∈ R, r.ep.pub.length = 32)
    (hnd : (R.map fun r => r.ep.pub).Nodup) (hj : R[j]? = some r) (hg : Genuine rid lid r.ep k pt m)
    (hk : k ∉ r.missing) (hlt : k < r.index) (seed : Bytes) :
    SessionCipher.decryptWithSessionState s m seed = .error .duplicateMessage := by
  obtain ⟨hf, hck⟩ := gocck_present h hR hnd hj seed
  have h2 := SessionCipher.gocmk_duplicate (ck := r.ep.at r.index) hf hlt (takeKey_none hk)
  unfold SessionCipher.decryptWithSessionState
  rw [if_neg (by unfold hasSenderChain; rw [h.sender]; simp), if_neg (by rw [h.ver, hg.version]; simp), hg.key,
    hg.counter, hck, ok_bind]
  simp only
  rw [h2]
  rfl

/-- A message ahead on a known chain. -/
theorem recv_ahead {lid rid : ECPub} {x : Epoch v} {n j k : Nat} {R : List (Recv v)} {s : SessionState} {r : Recv v}
    {pt : Bytes} {m : WhisperMessage}
    (hlen : ∀ k m, (C.hmac k m).length = 32) (hl : lid.length = 32) (hr : rid.length = 32)
    (h : Party lid rid x n R s) (hR : ∀ r ∈ R, r.ep.pub.length = 32)
    (hnd : (R.map fun r => r.ep.pub).Nodup) (hj : R[j]? = some r) (hg : Genuine rid lid r.ep k pt m)
    (hge : r.index ≤ k) (hw : k ≤ r.index + 2000) (seed : Bytes) :
    ∃ s', SessionCipher.decryptWithSessionState s m seed = .ok (pt, s') ∧
      Party lid rid x n
        (R.set j { r with index := k + 1, missing := r.missing ++ List.range' r.index (k - r.index) }) s' := by
  obtain ⟨hf, hck⟩ := gocck_present h hR hnd hj seed
  have h2 := SessionCipher.gocmk_ahead (ck := r.ep.at r.index) hf hge hw hg.bound rfl
  have e1 : (r.ep.at r.index).index = r.index := rfl
  rw [e1, at_iter, at_iter] at h2
  have e2 : r.index + (k - r.index) = k := by omega
  have e3 : r.index + (k - r.index + 1) = k + 1 := by omega
  rw [e2, e3] at h2
  have hp : Party lid rid x n
      (R.set j { r with index := k + 1, missing := r.missing ++ List.range' r.index (k - r.index) })
      (setChainAt s j { r.chain with
        messageKeys := r.chain.messageKeys ++ skipped (r.ep.at r.index) (k - r.index)
        chainKey := some { key := some (r.ep.at (k + 1)).key, index := some (k + 1) } }) := by
    refine h.setRecv ?_
    unfold Recv.chain
    simp only [skipped_at, List.map_append]
    rfl
  exact ⟨_, dwss_forward hlen hl hr (by unfold hasSenderChain; rw [h.sender]; rfl) h.ver hg hck h2 rfl hp, hp.clear⟩

/-- The last five elements. -/
def last5 {α : Type} (l : List α) : List α := l.drop (l.length - 5)

omit C in
theorem pushChain_last5 (cs : List ChainS) (c : ChainS) (h : cs.length ≤ 5) : pushChain cs c = last5 (cs ++ [c]) := by
  unfold pushChain last5
  rw [List.length_append, List.length_singleton]
  split
  · have : cs.length + 1 - 5 = 1 := by omega
    rw [this]
  · have : cs.length + 1 - 5 = 0 := by omega
    rw [this]; rfl

omit C in
theorem last5_map {α β : Type} (f : α → β) (l : List α) : (last5 l).map f = last5 (l.map f) := by
  unfold last5; rw [List.map_drop, List.length_map]

omit C in
theorem last5_append_self {α : Type} (l : List α) (a : α) : last5 (last5 l ++ [a]) = last5 (l ++ [a]) := by
  unfold last5
  simp only [List.length_append, List.length_drop, List.length_singleton]
  have e1 : l.drop (l.length - 5) ++ [a] = (l ++ [a]).drop (l.length - 5) := by
    rw [List.drop_append_of_le_length (by omega)]
  rw [e1, List.drop_drop]
  congr 1
  omega

omit C in
theorem last5_length {α : Type} (l : List α) : (last5 l).length ≤ 5 := by
  unfold last5; rw [List.length_drop]; omega

omit C in
theorem last5_sub {α : Type} {l : List α} {a : α} (h : a ∈ last5 l) : a ∈ l := List.mem_of_mem_drop h

/-- A message of the peer's next epoch: a ratchet step. -/
theorem recv_new {lid rid : ECPub} {x y z : Epoch v} {n k : Nat} {R : List (Recv v)} {s : SessionState}
    {pt : Bytes} {m : WhisperMessage} (hC : C.Lawful) (hl : lid.length = 32) (hr : rid.length = 32)
    (h : Party lid rid x n R s) (hn : n < 2 ^ 32) (hx : x.Good) (hy : y.Good) (hR : ∀ r ∈ R, r.ep.pub.length = 32)
    (hR5 : R.length ≤ 5)
    (habs : ∀ r ∈ R, r.ep.pub ≠ y.pub) (hxy : x.Next y) (hg : Genuine rid lid y k pt m)
    (hw : k ≤ 2000) {seed : Bytes} (hz1 : z.priv = C.genPriv seed) (hz2 : z.pub = C.genPub z.priv)
    (hyz : y.Next z) :
    ∃ s', SessionCipher.decryptWithSessionState s m seed = .ok (pt, s') ∧
      Party lid rid z 0 (last5 (R ++ [⟨y, k + 1, List.range' 0 k⟩])) s' ∧
      s'.aliceBaseKey = s.aliceBaseKey := by
  have hf : getReceiverChain s y.pub = .ok none := by
    unfold getReceiverChain
    rw [h.recv, findChain_absent 0 hR habs]
  obtain ⟨sec, d1, _, r1, c1⟩ := hxy
  obtain ⟨sec', _, d2, r2, c2⟩ := hyz
  have hkp : Curve.generateKeyPair seed = ⟨z.pub, z.priv⟩ := by
    unfold Curve.generateKeyPair; rw [hz2, hz1]
  have hck : SessionCipher.getOrCreateChainKey s y.pub seed =
      .ok (y.at 0, ratcheted s y.pub (y.at 0) ⟨v, z.root⟩ ⟨z.pub, z.priv⟩ (z.at 0)) := by
    unfold SessionCipher.getOrCreateChainKey hasReceiverChain
    rw [hf]
    simp only [ok_bind, Option.isSome_none, Bool.false_eq_true, if_false]
    unfold getRootKey
    rw [h.kdf, ok_bind, ok_bind, h.keyPair (hx.pub_len hC), ok_bind, h.root]
    simp only [Option.getD_some]
    rw [createChain_of hC.hmac_len]
    simp only [d1]
    rw [ok_bind, hkp, createChain_of hC.hmac_len, ← r1]
    simp only [d2]
    rw [ok_bind, ← r2, ← c2, ← c1]
    rw [addReceiverChain_eq (by simp), ok_bind]
    rw [getSenderChainKey_eq (kdf := v), ok_bind, setSenderChain_eq (by simp), ok_bind]
    · rfl
    · exact h.kdf
  have hp1 : Party lid rid z 0 (last5 (R ++ [⟨y, 0, []⟩]))
      (ratcheted s y.pub (y.at 0) ⟨v, z.root⟩ ⟨z.pub, z.priv⟩ (z.at 0)) := by
    refine ⟨h.ver, h.lid, h.rid, rfl, ?_, ?_, ?_⟩
    · show some (newSender (senderChainD s) _ _) = _
      unfold senderChainD
      rw [h.sender]
      rfl
    · show pushChain s.receiverChains _ = _
      rw [h.recv, pushChain_last5 _ _ (by simpa using hR5), last5_map, List.map_append]
      rfl
    · show SessionState.sendIndex s - 1 < _
      rw [h.sendIndex]; omega
  -- the new chain is found
  obtain ⟨j, hj⟩ : ∃ j, getReceiverChain (ratcheted s y.pub (y.at 0) ⟨v, z.root⟩ ⟨z.pub, z.priv⟩ (z.at 0)) y.pub
      = .ok (some (mkChain y.pub (y.at 0), j)) := by
    have := hy.pub_len hC
    exact findChain_pushChain (by omega) hf
  have h2 := SessionCipher.gocmk_ahead (ck := y.at 0) hj (Nat.zero_le _) (by show k ≤ 0 + 2000; omega) hg.bound rfl
  have e1 : (y.at 0).index = 0 := rfl
  rw [e1, at_iter, at_iter] at h2
  have e2 : 0 + (k - 0) = k := by omega
  have e3 : 0 + (k - 0 + 1) = k + 1 := by omega
  rw [e2, e3] at h2
  -- position: the last one
  have hlast : j = (last5 (R ++ [(⟨y, 0, []⟩ : Recv v)])).length - 1 ∧
      (last5 (R ++ [(⟨y, 0, []⟩ : Recv v)])).set j ⟨y, k + 1, List.range' 0 k⟩ =
        last5 (R ++ [⟨y, k + 1, List.range' 0 k⟩]) := by
    have hl5 : ∀ r : Recv v, ∃ L : List (Recv v), (∀ q ∈ L, q ∈ R) ∧
        last5 (R ++ [r]) = L ++ [r] ∧ L = R.drop (R.length + 1 - 5) := by
      intro r
      refine ⟨R.drop (R.length + 1 - 5), fun q hq => List.mem_of_mem_drop hq, ?_, rfl⟩
      unfold last5
      rw [List.length_append, List.length_singleton, List.drop_append_of_le_length (by omega)]
    obtain ⟨L, hL, e4, e5⟩ := hl5 ⟨y, 0, []⟩
    obtain ⟨L', _, e6, e7⟩ := hl5 ⟨y, k + 1, List.range' 0 k⟩
    have hLL : L' = L := by rw [e5, e7]
    subst hLL
    have hab := findChain_absent (key := y.pub) (R := L') 0 (fun r hr' => hR r (hL r hr'))
      (fun r hr' => habs r (hL r hr'))
    have hpos := findChain_append_none (c := mkChain y.pub (y.at 0)) hab
      (decodePoint_serializePoint (by have := hy.pub_len hC; omega))
    have hrc : (ratcheted s y.pub (y.at 0) ⟨v, z.root⟩ ⟨z.pub, z.priv⟩ (z.at 0)).receiverChains =
        L'.map Recv.chain ++ [mkChain y.pub (y.at 0)] := by
      rw [hp1.recv, e4, List.map_append]; rfl
    unfold getReceiverChain at hj
    rw [hrc, hpos] at hj
    have hjj : 0 + (L'.map Recv.chain).length = j := by
      injection hj with hj; injection hj with hj; injection hj
    rw [List.length_map, Nat.zero_add] at hjj
    subst hjj
    refine ⟨by rw [e4]; simp, ?_⟩
    rw [e4, e6]
    simp
  have hp2 : Party lid rid z 0 (last5 (R ++ [⟨y, k + 1, List.range' 0 k⟩]))
      (setChainAt (ratcheted s y.pub (y.at 0) ⟨v, z.root⟩ ⟨z.pub, z.priv⟩ (z.at 0)) j
       { mkChain y.pub (y.at 0) with
        messageKeys := (mkChain y.pub (y.at 0)).messageKeys ++ skipped (y.at 0) (k - 0)
        chainKey := some { key := some (y.at (k + 1)).key, index := some (k + 1) } }) := by
    rw [← hlast.2]
    refine hp1.setRecv ?_
    unfold Recv.chain
    simp only [skipped_at]
    rfl
  refine ⟨_, dwss_forward hC.hmac_len hl hr (by unfold hasSenderChain; rw [h.sender]; rfl) h.ver hg hck h2 rfl hp2,
    hp2.clear, rfl⟩


/-! ## Sending -/

theorem create_verifies (hlen : ∀ k m, (C.hmac k m).length = 32) {v : Nat} {mk : Bytes} {rk : ECPub} {c pc : Nat}
    {ct : Bytes} {a b : ECPub} {m : WhisperMessage} (h : WhisperMessage.create v mk rk c pc ct a b = .ok m) :
    m.verifyMac v a b mk = .ok () := by
  unfold WhisperMessage.create at h
  simp only at h
  obtain ⟨c', _, h⟩ := bind_eq_ok.1 h
  obtain ⟨pc', _, h⟩ := bind_eq_ok.1 h
  replace h := Except.ok.inj h
  subst h
  unfold WhisperMessage.verifyMac
  simp only
  generalize hb : serializeWith WhisperMessageP.toFields _ = body
  rw [← List.cons_append]
  have := split2_tail (intsToByteHighAndLow v CiphertextMessage.CURRENT_VERSION :: body)
    (WhisperMessage.getMac v a b mk (intsToByteHighAndLow v CiphertextMessage.CURRENT_VERSION :: body)) 8
    (getMac_length hlen _ _ _ _ _)
  have h8 : ((WhisperMessage.MAC_LENGTH : Nat) : Int) = ((8 : Nat) : Int) := rfl
  rw [h8, this]
  simp

theorem create_size (hlen : ∀ k m, (C.hmac k m).length = 32) {v : Nat} {mk : Bytes} {rk : ECPub} {c pc : Nat}
    {ct : Bytes} {a b : ECPub} {m : WhisperMessage} (h : WhisperMessage.create v mk rk c pc ct a b = .ok m) :
    m.serialized.length ≤ ct.length + rk.length + 200 := by
  unfold WhisperMessage.create at h
  simp only at h
  obtain ⟨c', _, h⟩ := bind_eq_ok.1 h
  obtain ⟨pc', _, h⟩ := bind_eq_ok.1 h
  replace h := Except.ok.inj h
  subst h
  simp only [List.length_cons, List.length_append]
  rw [getMac_length hlen]
  unfold serializeWith WhisperMessageP.toFields
  simp only [encFields_append, List.length_append]
  have h1 := putBytes_size_le 1 (Curve.serializePoint rk)
  have h2 := putVarint_size_le 2 (some c')
  have h3 := putVarint_size_le 3 (some pc')
  have h4 := putBytes_size_le 4 ct
  rw [serializePoint_length] at h1
  omega

theorem cipherKeyOf_len (hlen : ∀ k m, (C.hmac k m).length = 32) (k : Bytes) : (Spec.cipherKeyOf k).length = 32 := by
  unfold Spec.cipherKeyOf Spec.messageOkm
  rw [List.length_take, ← (C11_library_sizes hlen _ _ _).1, C11_length hlen]; omega

theorem ivOf_len (hlen : ∀ k m, (C.hmac k m).length = 32) (k : Bytes) : (Spec.ivOf k).length = 16 := by
  unfold Spec.ivOf Spec.messageOkm
  rw [List.length_drop, ← (C11_library_sizes hlen _ _ _).1, C11_length hlen]

/-- The header of the prekey messages of an unacknowledged session. -/
structure PkHeader where
  reg : Nat
  preKeyId : Option Nat
  signedPreKeyId : Nat
  baseKey : ECPub

structure PkHeader.Ok (h : PkHeader) : Prop where
  reg : h.reg < 2 ^ 32
  pk : OptLt h.preKeyId (2 ^ 32)
  spk : h.signedPreKeyId < 2 ^ 31
  bk : h.baseKey.length = 32

/-- The state still has to announce itself with this header. -/
structure Announcing (h : PkHeader) (s : SessionState) : Prop where
  reg : s.localRegistrationId = some h.reg
  pending : s.pendingPreKey = some
    { preKeyId := h.preKeyId, signedPreKeyId := some (h.signedPreKeyId : Int),
      baseKey := some (Curve.serializePoint h.baseKey) }

/-- A prekey message with this header around `m`, as sent and as parsed by the receiver. -/
structure Announces (h : PkHeader) (lid : ECPub) (m : WhisperMessage) (p p' : PreKeyWhisperMessage) : Prop where
  message : p.message = m
  parse : PreKeyWhisperMessage.parse p.serialized = .ok p'
  version : p'.version = 3
  reg : p'.registrationId = h.reg
  pk : p'.preKeyId = some (h.preKeyId.getD 0)
  spk : p'.signedPreKeyId = h.signedPreKeyId
  bk : p'.baseKey = h.baseKey
  ik : p'.identityKey = lid
  message' : p'.message = m
  sent : p.preKeyId = h.preKeyId ∧ p.signedPreKeyId = h.signedPreKeyId ∧ p.baseKey = h.baseKey ∧
    p.identityKey = lid ∧ p.registrationId = h.reg ∧ p.version = 3

theorem send_core {lid rid : ECPub} {x : Epoch v} {n : Nat} {R : List (Recv v)} {s : SessionState} (hC : C.Lawful)
    (h : Party lid rid x n R s) (hx : x.Good) (hn : n + 1 < 2 ^ 32) (pt : Bytes) (hpt : pt.length < 2 ^ 62) :
    ∃ body m, AES.encrypt (ChainKey.getMessageKeys ⟨v, Spec.chainAt x.chain n, n⟩).cipherKey
        (ChainKey.getMessageKeys ⟨v, Spec.chainAt x.chain n, n⟩).iv pt = .ok body ∧
      WhisperMessage.create v.number (ChainKey.getMessageKeys ⟨v, Spec.chainAt x.chain n, n⟩).macKey x.pub n
        (getPreviousCounter s) body lid rid = .ok m ∧
      WhisperMessage.parse m.serialized = .ok m ∧ m.serialized.length < 2 ^ 63 ∧ Genuine lid rid x n pt m := by
  have hlen := hC.hmac_len
  obtain ⟨ct, h1, h2, h3, h4, h5⟩ := C01_cipher_roundtrip hC
    (cipherOf v (Spec.chainAt x.chain n)) (ivecOf v (Spec.chainAt x.chain n)) pt
    (by right; right; exact cipherOf_len hlen _ _) (ivecOf_len hlen _ _)
  obtain ⟨m, e1, e2, e3, e4, e5, e6, e7⟩ := C02_whisper_roundtrip hlen v.number (by cases v <;> simp [Kdf.number])
    (macOf v (Spec.chainAt x.chain n)) x.pub (hx.pub_len hC) n (getPreviousCounter s) (by omega) h.prev ct
    (by intro e; rw [e] at h4; simp at h4) (by omega) lid rid
  have hsz := create_size hlen e1
  have hxl := hx.pub_len hC
  rw [getMessageKeys_of hlen _ rfl]
  refine ⟨ct, m, h1, e1, e2, by omega, ?_⟩
  exact ⟨e3, e4, e5, hn, create_verifies hlen e1, by rw [e7]; exact h2⟩

theorem Party.sent {lid rid : ECPub} {x : Epoch v} {n : Nat} {R : List (Recv v)} {s : SessionState}
    (h : Party lid rid x n R s) {sc : ChainS} (hsc : sc = { senderChainD s with
                    chainKey := some { key := some (C.hmac (SessionState.sendKey s) [0x02]),
                                       index := some (SessionState.sendIndex s + 1) } }) :
    Party lid rid x (n + 1) R { s with senderChain := some sc } := by
  refine ⟨h.ver, h.lid, h.rid, h.root, ?_, h.recv, h.prev⟩
  rw [hsc, h.sendIndex, h.sendKey]
  unfold senderChainD
  rw [h.sender]
  rfl

theorem setSenderChainKey_eq {lid rid : ECPub} {x : Epoch v} {n : Nat} {R : List (Recv v)} {s : SessionState}
    (h : Party lid rid x n R s) (hn : n + 1 < 2 ^ 32) :
    ∃ s', setSenderChainKey s (ChainKey.getNextChainKey ⟨v, Spec.chainAt x.chain n, n⟩) = .ok s' ∧
      Party lid rid x (n + 1) R s' ∧ s'.pendingPreKey = s.pendingPreKey ∧
      s'.localRegistrationId = s.localRegistrationId ∧ s'.aliceBaseKey = s.aliceBaseKey := by
  unfold setSenderChainKey
  have : (ChainKey.getNextChainKey ⟨v, Spec.chainAt x.chain n, n⟩).index = n + 1 := rfl
  rw [this, chkU32_ok hn, ok_bind]
  refine ⟨_, rfl, ?_, rfl, rfl, rfl⟩
  refine h.sent ?_
  rw [h.sendIndex, h.sendKey]
  rfl

/-- Sending on an acknowledged session. -/
theorem send_whisper {lid rid : ECPub} {x : Epoch v} {n : Nat} {R : List (Recv v)} {s : SessionState} (hC : C.Lawful)
    (hl : lid.length = 32) (hr : rid.length = 32) (h : Party lid rid x n R s) (hx : x.Good) (hn : n + 1 < 2 ^ 32)
    (pt : Bytes) (hpt : pt.length < 2 ^ 62) (hp : s.pendingPreKey = none) :
    ∃ m s', SessionCipher.encryptWithState s pt = .ok (.whisper m, s') ∧
      WhisperMessage.parse m.serialized = .ok m ∧ Genuine lid rid x n pt m ∧ Party lid rid x (n + 1) R s' ∧
      s'.pendingPreKey = none ∧ s'.aliceBaseKey = s.aliceBaseKey := by
  obtain ⟨body, m, h1, h2, h3, h4, h5⟩ := send_core hC h hx hn pt hpt
  obtain ⟨s', g1, g2, g3, g4, g5⟩ := setSenderChainKey_eq h hn
  refine ⟨m, s', ?_, h3, h5, g2, by rw [g3, hp], g5⟩
  unfold SessionCipher.encryptWithState
  have hk : getSenderRatchetKey s = .ok x.pub := by
    unfold getSenderRatchetKey senderChainD
    rw [h.sender]
    have := hx.pub_len hC
    exact decodePoint_serializePoint (by omega)
  rw [getSenderChainKey_eq h.kdf, ok_bind, hk, ok_bind, h.sendKey, h.sendIndex, h.ver, h1, ok_bind, h.local' hl,
    ok_bind, h.remote hr, ok_bind, h2, ok_bind]
  have hu : hasUnacknowledgedPreKeyMessage s = false := by unfold hasUnacknowledgedPreKeyMessage; rw [hp]; rfl
  rw [hu]
  simp only [Bool.false_eq_true, if_false, ok_bind]
  rw [g1]
  rfl

/-- Sending on a session that still announces itself. -/
theorem send_prekey {lid rid : ECPub} {x : Epoch .v3} {n : Nat} {R : List (Recv .v3)} {s : SessionState} (hC : C.Lawful)
    (hl : lid.length = 32) (hr : rid.length = 32) (h : Party lid rid x n R s) (hx : x.Good) (hn : n + 1 < 2 ^ 32)
    (pt : Bytes) (hpt : pt.length < 2 ^ 62) {hd : PkHeader} (ho : hd.Ok) (hp : Announcing hd s) :
    ∃ m p p' s', SessionCipher.encryptWithState s pt = .ok (.preKey p, s') ∧ Announces hd lid m p p' ∧
      WhisperMessage.parse m.serialized = .ok m ∧ Genuine lid rid x n pt m ∧ Party lid rid x (n + 1) R s' ∧
      Announcing hd s' ∧ s'.aliceBaseKey = s.aliceBaseKey := by
  obtain ⟨body, m, h1, h2, h3, h4, h5⟩ := send_core hC h hx hn pt hpt
  obtain ⟨s', g1, g2, g3, g4, g5⟩ := setSenderChainKey_eq h hn
  have hspk := ho.spk
  obtain ⟨p, q1, q2, q3, q4, q5, q6, q7, q8, q9⟩ := prekey_wire hd.reg ho.reg hd.preKeyId ho.pk hd.signedPreKeyId
    (by omega) hd.baseKey lid ho.bk hl m h3 h4
  refine ⟨m, p, _, s', ?_, ⟨q9, q2, q3, q4, rfl, q6, q7, q8, q9, q5, q6, q7, q8, q4, q3⟩, h3, h5, g2,
    ⟨by rw [g4, hp.reg], by rw [g3, hp.pending]⟩, g5⟩
  unfold SessionCipher.encryptWithState
  have hk : getSenderRatchetKey s = .ok x.pub := by
    unfold getSenderRatchetKey senderChainD
    rw [h.sender]
    have := hx.pub_len hC
    exact decodePoint_serializePoint (by omega)
  rw [getSenderChainKey_eq h.kdf, ok_bind, hk, ok_bind, h.sendKey, h.sendIndex, h.ver, h1, ok_bind, h.local' hl,
    ok_bind, h.remote hr, ok_bind, h2, ok_bind]
  have hu : hasUnacknowledgedPreKeyMessage s = true := by
    unfold hasUnacknowledgedPreKeyMessage; rw [hp.pending]; rfl
  have hi : getUnacknowledgedPreKeyMessageItems s = .ok ⟨hd.preKeyId, hd.signedPreKeyId, hd.baseKey⟩ := by
    unfold getUnacknowledgedPreKeyMessageItems
    rw [hp.pending]
    have := ho.bk
    simp only [Option.getD_some]
    rw [decodePoint_serializePoint (by omega), ok_bind]
  have hreg : getLocalRegistrationId s = hd.reg := by unfold getLocalRegistrationId; rw [hp.reg]; rfl
  rw [hu]
  simp only [if_true, ok_bind]
  rw [hi, ok_bind, hreg]
  simp only
  rw [show Kdf.v3.number = 3 from rfl, q1]
  simp only [ok_bind]
  rw [g1]
  rfl

end
end Axolotl
