import Verif.Spec.Storage
import Verif.Props.Grammar
import Verif.Props.Format
import Verif.Props.Persist

/-! # C62: records in storage -/

namespace Axolotl
open Wire Spec

/-! ## Bytes written -/

theorem stored_bytes {n : Nat} {tag : UInt8} {v : Option Bytes} (hn : n * 8 + 2 < 128 ∧ tag = UInt8.ofNat (n * 8 + 2))
    (hv : (opt (bytesField tag) v).length < 2 ^ 64) : encFields (putBytes n v) = opt (bytesField tag) v := by
  obtain ⟨hn, rfl⟩ := hn
  cases v with
  | none => rfl
  | some b =>
    refine encFields_bytes hn ?_
    simp only [opt, bytesField, List.length_cons, List.length_append] at hv
    omega

theorem stored_num {n : Nat} {tag : UInt8} {v : Option Nat} (hn : n * 8 < 128 ∧ tag = UInt8.ofNat (n * 8))
    (hv : OptLt v (2 ^ 32)) : encFields (putVarint n v) = opt (numField tag) v := by
  obtain ⟨hn, rfl⟩ := hn
  cases v with
  | none => rfl
  | some m => exact encFields_num hn (by have := hv m rfl; omega)

theorem stored_bool {n : Nat} {tag : UInt8} {v : Option Bool} (hn : n * 8 < 128 ∧ tag = UInt8.ofNat (n * 8)) :
    encFields (putBool n v) = opt (boolField tag) v := by
  obtain ⟨hn, rfl⟩ := hn
  cases v with
  | none => rfl
  | some b =>
    have := encFields_num (n := n) (v := if b then 1 else 0) hn (by split <;> omega)
    unfold numField at this
    rw [leb_small (by split <;> omega)] at this
    cases b <;> exact this

theorem stored_signed {n : Nat} {tag : UInt8} {v : Option Int} (hn : n * 8 < 128 ∧ tag = UInt8.ofNat (n * 8))
    (hv : ∀ i, v = some i → -(2 ^ 31) ≤ i ∧ i < 2 ^ 31) : encFields (putI32 n v) = opt (signedField tag) v := by
  obtain ⟨hn, rfl⟩ := hn
  cases v with
  | none => rfl
  | some i =>
    have hi := hv i rfl
    have := encFields_num (n := n) (v := (i % 2 ^ 64).toNat) hn (by omega)
    have e : (i % 2 ^ 64).toNat = if 0 ≤ i then i.toNat else (2 ^ 64 + i).toNat := by
      split <;> omega
    rw [e] at this
    show encFields (putVarint n (some (i % 2 ^ 64).toNat)) = _
    rw [e]
    exact this

theorem leBytes_eq (k n : Nat) : leBytes k n = (List.range k).map fun j => UInt8.ofNat (n / 256 ^ j) := by
  induction k generalizing n with
  | zero => rfl
  | succ k ih =>
    rw [leBytes, ih, List.range_succ_eq_map, List.map_cons, List.map_map]
    congr 1
    · apply UInt8.toNat_inj.1
      simp
    · apply List.map_congr_left
      intro j _
      show UInt8.ofNat (n / 256 / 256 ^ j) = UInt8.ofNat (n / 256 ^ (j + 1))
      rw [Nat.div_div_eq_div_mul, Nat.pow_succ']

theorem stored_fixed {n : Nat} {tag : UInt8} {v : Option Nat} (hn : n * 8 + 1 < 128 ∧ tag = UInt8.ofNat (n * 8 + 1)) :
    encFields (putFixed64 n v) = opt (fixedField tag) v := by
  obtain ⟨hn, rfl⟩ := hn
  cases v with
  | none => rfl
  | some m =>
    simp only [putFixed64, Option.map_some, Option.toList_some, encFields, List.map_cons, List.map_nil, List.flatten_cons,
      List.flatten_nil, List.append_nil, encField]
    rw [encVarint_leb (by omega), leb_small hn, leBytes_eq]
    rfl

theorem stored_msg {α : Type} {n : Nat} {tag : UInt8} {t : α → List Field} {w : α → Bytes} {v : Option α}
    (hn : n * 8 + 2 < 128 ∧ tag = UInt8.ofNat (n * 8 + 2))
    (hv : (opt (fun a => bytesField tag (w a)) v).length < 2 ^ 64)
    (ht : ∀ a, v = some a → (w a).length < 2 ^ 64 → encFields (t a) = w a) :
    encFields (putMsg n t v) = opt (fun a => bytesField tag (w a)) v := by
  obtain ⟨hn, rfl⟩ := hn
  cases v with
  | none => rfl
  | some a =>
    simp only [opt, bytesField, List.length_cons, List.length_append] at hv
    show encFields (putBytes n (some (encFields (t a)))) = _
    rw [ht a rfl (by omega), encFields_bytes hn (by omega)]
    rfl

theorem stored_rep {α : Type} {n : Nat} {tag : UInt8} {t : α → List Field} {w : α → Bytes} {v : List α}
    (hn : n * 8 + 2 < 128 ∧ tag = UInt8.ofNat (n * 8 + 2))
    (hv : (each (fun a => bytesField tag (w a)) v).length < 2 ^ 64)
    (ht : ∀ a ∈ v, (w a).length < 2 ^ 64 → encFields (t a) = w a) :
    encFields (putRep n t v) = each (fun a => bytesField tag (w a)) v := by
  obtain ⟨hn, rfl⟩ := hn
  induction v with
  | nil => rfl
  | cons a v ih =>
    simp only [each, bytesField, List.length_cons, List.length_append] at hv
    show encFields (putBytes n (some (encFields (t a))) ++ putRep n t v) = _
    rw [encFields_append, ih (fun b hb => ht b (List.mem_cons_of_mem _ hb)) (by simp only [bytesField]; omega),
      ht a (List.mem_cons_self ..) (by omega), encFields_bytes hn (by omega)]
    rfl

theorem app {a a' b b' : Bytes} (h : a = a') (g : b = b') : a ++ b = a' ++ b' := h ▸ g ▸ rfl

theorem storedChainKey_eq {m : ChainKeyS} (h : m.Ok) (hl : (storedChainKey m).length < 2 ^ 64) :
    encFields m.toFields = storedChainKey m := by
  unfold storedChainKey at *
  simp only [List.length_append] at hl
  unfold ChainKeyS.toFields
  simp only [Wire.encFields_append]
  exact app (stored_num (by decide) h.index)
    (stored_bytes (by decide) (by omega))

theorem storedMessageKey_eq {m : MessageKeyS} (h : m.Ok) (hl : (storedMessageKey m).length < 2 ^ 64) :
    encFields m.toFields = storedMessageKey m := by
  unfold storedMessageKey at *
  simp only [List.length_append] at hl
  unfold MessageKeyS.toFields
  simp only [Wire.encFields_append]
  exact app (app (app (stored_num (by decide) h.index)
    (stored_bytes (by decide) (by omega)))
    (stored_bytes (by decide) (by omega)))
    (stored_bytes (by decide) (by omega))

theorem storedChain_eq {m : ChainS} (h : m.Ok) (hl : (storedChain m).length < 2 ^ 64) :
    encFields m.toFields = storedChain m := by
  unfold storedChain at *
  simp only [List.length_append] at hl
  unfold ChainS.toFields
  simp only [Wire.encFields_append]
  exact app (app (app (stored_bytes (by decide) (by omega))
    (stored_bytes (by decide) (by omega)))
    (stored_msg (by decide) (by omega) fun _ ha hb => storedChainKey_eq (h.chainKey _ ha) hb))
    (stored_rep (by decide) (by omega) fun _ ha hb => storedMessageKey_eq (h.messageKeys _ ha) hb)

theorem storedPendingExchange_eq {m : PendingKeyExchangeS} (h : m.Ok) (hl : (storedPendingExchange m).length < 2 ^ 64) :
    encFields m.toFields = storedPendingExchange m := by
  unfold storedPendingExchange at *
  simp only [List.length_append] at hl
  unfold PendingKeyExchangeS.toFields
  simp only [Wire.encFields_append]
  exact app (app (app (app (app (app (stored_num (by decide) h.sequence)
    (stored_bytes (by decide) (by omega)))
    (stored_bytes (by decide) (by omega)))
    (stored_bytes (by decide) (by omega)))
    (stored_bytes (by decide) (by omega)))
    (stored_bytes (by decide) (by omega)))
    (stored_bytes (by decide) (by omega))

theorem storedPendingPreKey_eq {m : PendingPreKeyS} (h : m.Ok) (hl : (storedPendingPreKey m).length < 2 ^ 64) :
    encFields m.toFields = storedPendingPreKey m := by
  unfold storedPendingPreKey at *
  simp only [List.length_append] at hl
  unfold PendingPreKeyS.toFields
  simp only [Wire.encFields_append]
  exact app (app (stored_num (by decide) h.preKeyId)
    (stored_bytes (by decide) (by omega)))
    (stored_signed (by decide) h.signedPreKeyId)

theorem storedState_eq {m : SessionS} (h : m.Ok) (hl : (storedState m).length < 2 ^ 64) :
    encFields m.toFields = storedState m := by
  unfold storedState at *
  simp only [List.length_append] at hl
  unfold SessionS.toFields
  simp only [Wire.encFields_append]
  exact app (app (app (app (app (app (app (app (app (app (app (app (stored_num (by decide) h.sessionVersion)
    (stored_bytes (by decide) (by omega)))
    (stored_bytes (by decide) (by omega)))
    (stored_bytes (by decide) (by omega)))
    (stored_num (by decide) h.previousCounter))
    (stored_msg (by decide) (by omega) fun _ ha hb => storedChain_eq (h.senderChain _ ha) hb))
    (stored_rep (by decide) (by omega) fun _ ha hb => storedChain_eq (h.receiverChains _ ha) hb))
    (stored_msg (by decide) (by omega) fun _ ha hb => storedPendingExchange_eq (h.pendingKeyExchange _ ha) hb))
    (stored_msg (by decide) (by omega) fun _ ha hb => storedPendingPreKey_eq (h.pendingPreKey _ ha) hb))
    (stored_num (by decide) h.remoteRegistrationId))
    (stored_num (by decide) h.localRegistrationId))
    (stored_bool (by decide)))
    (stored_bytes (by decide) (by omega))

theorem storedSeed_eq {m : SenderSeedS} (h : m.Ok) (hl : (storedSeed m).length < 2 ^ 64) :
    encFields m.toFields = storedSeed m := by
  unfold storedSeed at *
  simp only [List.length_append] at hl
  unfold SenderSeedS.toFields
  simp only [Wire.encFields_append]
  exact app (stored_num (by decide) h.iteration)
    (stored_bytes (by decide) (by omega))

theorem storedSigningKey_eq {m : SenderSigningKeyS} (hl : (storedSigningKey m).length < 2 ^ 64) :
    encFields m.toFields = storedSigningKey m := by
  unfold storedSigningKey at *
  simp only [List.length_append] at hl
  unfold SenderSigningKeyS.toFields
  simp only [Wire.encFields_append]
  exact app (stored_bytes (by decide) (by omega))
    (stored_bytes (by decide) (by omega))

theorem storedSenderState_eq {m : SenderKeyStateS} (h : m.Ok) (hl : (storedSenderState m).length < 2 ^ 64) :
    encFields m.toFields = storedSenderState m := by
  unfold storedSenderState at *
  simp only [List.length_append] at hl
  unfold SenderKeyStateS.toFields
  simp only [Wire.encFields_append]
  exact app (app (app (stored_num (by decide) h.senderKeyId)
    (stored_msg (by decide) (by omega) fun _ ha hb => storedSeed_eq (h.senderChainKey _ ha) hb))
    (stored_msg (by decide) (by omega) fun _ _ hb => storedSigningKey_eq hb))
    (stored_rep (by decide) (by omega) fun _ ha hb => storedSeed_eq (h.senderMessageKeys _ ha) hb)

/-- **C62.** A session record is stored as these bytes. -/
theorem C62_session_bytes (r : SessionRecord) (h : r.Ok) (hl : (storedRecord r).length < 2 ^ 64) :
    r.serialize = storedRecord r := by
  unfold storedRecord at *
  simp only [List.length_append] at hl
  unfold SessionRecord.serialize serializeWith RecordS.toFields
  rw [Wire.encFields_append]
  exact app (stored_msg (v := some r.sessionState) (by decide) (by show (bytesField _ _).length < _; omega)
      fun a ha hb => by cases ha; exact storedState_eq h.1 hb)
    (stored_rep (v := r.previousStates) (by decide) (Nat.lt_of_le_of_lt (Nat.le_add_left _ _) hl) fun a ha hb => storedState_eq (h.2 a ha) hb)

/-- A sender key record is stored as these bytes. -/
theorem C62_sender_key_bytes (r : SenderKeyRecord) (h : ∀ s ∈ r.senderKeyStates, SenderKeyStateS.Ok s)
    (hl : (storedSenderKeys r).length < 2 ^ 64) : r.serialize = storedSenderKeys r :=
  stored_rep (by decide) hl fun a ha hb => storedSenderState_eq (h a ha) hb

/-- A one-time prekey is stored as these bytes. -/
theorem C62_prekey_bytes (r : PreKeyRecord) (h : PreKeyRecordS.Ok r) (hl : (storedPreKey r).length < 2 ^ 64) :
    PreKeyRecord.serialize r = storedPreKey r := by
  unfold storedPreKey at *
  simp only [List.length_append] at hl
  unfold PreKeyRecord.serialize serializeWith PreKeyRecordS.toFields
  simp only [Wire.encFields_append]
  exact app (app (stored_num (by decide) h.id) (stored_bytes (by decide) (by omega))) (stored_bytes (by decide) (by omega))

/-- A signed prekey is stored as these bytes. -/
theorem C62_signed_prekey_bytes (r : SignedPreKeyRecord) (h : SignedPreKeyRecordS.Ok r)
    (hl : (storedSignedPreKey r).length < 2 ^ 64) : SignedPreKeyRecord.serialize r = storedSignedPreKey r := by
  unfold storedSignedPreKey at *
  simp only [List.length_append] at hl
  unfold SignedPreKeyRecord.serialize serializeWith SignedPreKeyRecordS.toFields
  simp only [Wire.encFields_append]
  exact app (app (app (app (stored_num (by decide) h.id) (stored_bytes (by decide) (by omega)))
    (stored_bytes (by decide) (by omega))) (stored_bytes (by decide) (by omega))) (stored_fixed (by decide))

/-- An identity key pair is stored as these bytes. -/
theorem C62_identity_bytes (k : KeyPair) (hl : (storedIdentity k).length < 2 ^ 64) :
    IdentityKeyPair.serialize k = storedIdentity k := by
  unfold storedIdentity at *
  simp only [List.length_append] at hl
  unfold IdentityKeyPair.serialize serializeWith IdentityKeyPairS.toFields
  simp only [Wire.encFields_append]
  exact app (stored_bytes (v := some _) (by decide) (by show (bytesField 0x0A (5 :: k.pub)).length < _; omega))
    (stored_bytes (v := some _) (by decide) (by show (bytesField 0x12 k.priv).length < _; omega))

/-! ## Bytes read -/

theorem lastBytes_iff {num : Nat} {fs : List Field} {v : Option Bytes} : LastBytes num fs v ↔ getBytes num fs = v := by
  refine ⟨lastBytes_get, ?_⟩
  rintro rfl
  obtain ⟨v, hv⟩ := lastBytes_exists num fs
  rw [lastBytes_get hv]
  exact hv

theorem lastNumber_iff {num : Nat} {fs : List Field} {v : Option Nat} : LastNumber num fs v ↔ getU32 num fs = v := by
  refine ⟨lastNumber_get, ?_⟩
  rintro rfl
  obtain ⟨v, hv⟩ := lastNumber_exists num fs
  rw [lastNumber_get hv]
  exact hv

theorem no_values {β : Type} {f : Field → Option β} {mk : β → Field} (hf : ∀ x b, f x = some b ↔ x = mk b) (fs : List Field) :
    fs.filterMap f = [] ↔ ∀ b, mk b ∉ fs := by
  rw [List.filterMap_eq_nil_iff]
  constructor
  · intro h b hb
    have := h _ hb
    rw [(hf _ b).2 rfl] at this
    cases this
  · intro h x hx
    cases hx' : f x with
    | none => rfl
    | some b => exact absurd ((hf x b).1 hx' ▸ hx) (h b)

/-- The last value of a field. -/
theorem last_iff {β γ : Type} {f : Field → Option β} {mk : β → Field} (hf : ∀ x b, f x = some b ↔ x = mk b) (g : β → γ)
    (fs : List Field) (v : Option γ) :
    (fs.filterMap f).getLast?.map g = v ↔
      match v with
      | none => ∀ b, mk b ∉ fs
      | some c => ∃ b x y, fs = x ++ mk b :: y ∧ (∀ d, mk d ∉ y) ∧ c = g b := by
  constructor
  · rintro rfl
    induction fs with
    | nil => intro b hb; cases hb
    | cons c fs ih =>
      cases hg : (fs.filterMap f).getLast? with
      | some b =>
        rw [hg] at ih
        obtain ⟨b', x, y, rfl, h1, h2⟩ := ih
        have : ((c :: (x ++ mk b' :: y)).filterMap f).getLast? = some b := by
          rw [List.filterMap_cons]
          split
          · exact hg
          · rw [List.getLast?_cons, hg]; rfl
        rw [this]
        exact ⟨b', c :: x, y, rfl, h1, h2⟩
      | none =>
        have hn : fs.filterMap f = [] := List.getLast?_eq_none_iff.1 hg
        have hn' := (no_values hf fs).1 hn
        cases hc : f c with
        | none =>
          rw [List.filterMap_cons, hc]
          simp only [hn, List.getLast?_nil, Option.map_none]
          intro b hb
          rcases List.mem_cons.1 hb with e | hb
          · rw [← e, (hf _ b).2 rfl] at hc; cases hc
          · exact hn' b hb
        | some b =>
          rw [List.filterMap_cons, hc]
          simp only [hn, List.getLast?_singleton, Option.map_some]
          exact ⟨b, [], fs, by rw [(hf c b).1 hc]; rfl, hn', rfl⟩
  · cases v with
    | none =>
      intro h
      rw [(no_values hf fs).2 h]
      rfl
    | some c =>
      rintro ⟨b, x, y, rfl, h1, rfl⟩
      rw [List.filterMap_append, List.filterMap_cons, (hf _ b).2 rfl, (no_values hf y).2 h1]
      simp

def ofVarint (num : Nat) (x : Field) : Option Nat :=
  match x.val with
  | .varint b => if x.num = num then some b else none
  | _ => none

theorem ofVarint_mk (num : Nat) (x : Field) (b : Nat) : ofVarint num x = some b ↔ x = ⟨num, .varint b⟩ := by
  obtain ⟨n, v⟩ := x
  cases v <;> simp [ofVarint]

theorem allVarint_eq (num : Nat) (fs : List Field) : allVarint num fs = fs.filterMap (ofVarint num) := rfl

def ofI64 (num : Nat) (x : Field) : Option Bytes :=
  match x.val with
  | .i64 b => if x.num = num then some b else none
  | _ => none

theorem ofI64_mk (num : Nat) (x : Field) (b : Bytes) : ofI64 num x = some b ↔ x = ⟨num, .i64 b⟩ := by
  obtain ⟨n, v⟩ := x
  cases v <;> simp [ofI64]

theorem allI64_eq (num : Nat) (fs : List Field) : allI64 num fs = fs.filterMap (ofI64 num) := rfl

def ofLen (num : Nat) (x : Field) : Option Bytes :=
  match x.val with
  | .len b => if x.num = num then some b else none
  | _ => none

theorem ofLen_mk (num : Nat) (x : Field) (b : Bytes) : ofLen num x = some b ↔ x = ⟨num, .len b⟩ := by
  obtain ⟨n, v⟩ := x
  cases v <;> simp [ofLen]

theorem allLen_eq (num : Nat) (fs : List Field) : allLen num fs = fs.filterMap (ofLen num) := rfl

theorem lastBool_iff {num : Nat} {fs : List Field} {v : Option Bool} : LastBool num fs v ↔ getBool num fs = v := by
  unfold getBool
  rw [allVarint_eq, last_iff (mk := fun b => ⟨num, .varint b⟩) (ofVarint_mk num)]
  cases v with
  | none => exact Iff.rfl
  | some b =>
    constructor
    · rintro ⟨k, x, y, h1, h2, h3⟩
      refine ⟨k, x, y, h1, h2, ?_⟩
      cases b <;> simp_all
    · rintro ⟨k, x, y, h1, h2, h3⟩
      refine ⟨k, x, y, h1, h2, ?_⟩
      subst h3
      simp

theorem toI32_iff (k : Nat) (i : Int) :
    i = toI32 k ↔ -(2 ^ 31) ≤ i ∧ i < 2 ^ 31 ∧ ∃ m : Int, (k : Int) = i + m * 2 ^ 32 := by
  unfold toI32
  constructor
  · rintro rfl
    split
    · exact ⟨by omega, by omega, (k / 2 ^ 32 : Nat), by omega⟩
    · exact ⟨by omega, by omega, (k / 2 ^ 32 : Nat) + 1, by omega⟩
  · rintro ⟨h1, h2, m, h3⟩
    split <;> omega

theorem lastSigned_iff {num : Nat} {fs : List Field} {v : Option Int} : LastSigned num fs v ↔ getI32 num fs = v := by
  unfold getI32
  rw [allVarint_eq, last_iff (mk := fun b => ⟨num, .varint b⟩) (ofVarint_mk num)]
  cases v with
  | none => exact Iff.rfl
  | some i =>
    simp only [LastSigned, toI32_iff]

theorem littleEndian_eq (b : Bytes) : littleEndian b = leNat b := by
  induction b with
  | nil => rfl
  | cons a b ih => rw [littleEndian, ih]; rfl

theorem lastFixed_iff {num : Nat} {fs : List Field} {v : Option Nat} : LastFixed num fs v ↔ getFixed64 num fs = v := by
  unfold getFixed64
  rw [allI64_eq, last_iff (mk := fun b => ⟨num, .i64 b⟩) (ofI64_mk num)]
  cases v with
  | none => exact Iff.rfl
  | some i => simp only [LastFixed, littleEndian_eq]

theorem occurs_iff {num : Nat} {fs : List Field} {l : List Bytes} : Occurs num fs l ↔ allLen num fs = l := by
  rw [allLen_eq]
  constructor
  · intro h
    induction h with
    | nil => rfl
    | here _ ih => rw [List.filterMap_cons, (ofLen_mk num _ _).2 rfl]; simp only [ih]
    | @other f fs l hb _ ih =>
      rw [List.filterMap_cons]
      split
      · exact ih
      · rename_i b hc
        exact absurd ((ofLen_mk num _ _).1 hc) (hb b)
  · rintro rfl
    induction fs with
    | nil => exact .nil
    | cons f fs ih =>
      rw [List.filterMap_cons]
      split
      · rename_i hc
        refine .other (fun b hb => ?_) ih
        rw [(ofLen_mk num _ b).2 hb] at hc
        cases hc
      · rename_i b hc
        rw [(ofLen_mk num _ _).1 hc]
        exact .here ih

theorem each_iff {α β : Type} {R : α → β → Prop} {f : α → Option β} (hf : ∀ a b, R a b ↔ f a = some b) (l : List α) (m : List β) :
    Each R l m ↔ l.mapM f = some m := by
  constructor
  · intro h
    induction h with
    | nil => rfl
    | cons h _ ih =>
      rw [List.mapM_cons, (hf _ _).1 h, ih]
      rfl
  · induction l generalizing m with
    | nil => intro h; cases h; exact .nil
    | cons a l ih =>
      intro h
      rw [List.mapM_cons] at h
      cases ha : f a with
      | none => rw [ha] at h; cases h
      | some b =>
        cases hl : l.mapM f with
        | none => rw [ha, hl] at h; cases h
        | some k =>
          rw [ha, hl] at h
          cases h
          exact .cons ((hf a b).2 ha) (ih _ hl)

theorem merged_iff {α : Type} {num : Nat} {R : List Field → α → Prop} {o : List Field → Option α}
    (ho : ∀ fs a, R fs a ↔ o fs = some a) {fs : List Field} {v : Option α} :
    Merged num R fs v ↔ getMsg num o fs = some v := by
  unfold getMsg
  cases v with
  | none =>
    show Occurs num fs [] ↔ _
    rw [occurs_iff]
    split
    · rename_i h; simp [h]
    · rename_i p ps h
      constructor
      · intro h'; rw [h] at h'; cases h'
      · intro h'
        split at h'
        · cases h'
        · rename_i l _
          cases hl : o l.flatten with
          | none => rw [hl] at h'; cases h'
          | some a => rw [hl] at h'; cases h'
  | some a =>
    constructor
    · rintro ⟨l, gs, h1, h2, h3, h4⟩
      rw [occurs_iff.1 h2]
      cases l with
      | nil => exact absurd rfl h1
      | cons p ps =>
        simp only
        rw [(each_iff (fun a b => (decFields_iff a b).symm) _ _).1 h3]
        simp only [(ho _ _).1 h4]
        rfl
    · intro h
      split at h
      · cases h
      · rename_i p ps hp
        split at h
        · cases h
        · rename_i l hl
          refine ⟨p :: ps, l, by simp, occurs_iff.2 hp, (each_iff (fun a b => (decFields_iff a b).symm) _ _).2 hl, ?_⟩
          rw [ho]
          cases ho' : o l.flatten with
          | none => rw [ho'] at h; cases h
          | some b => rw [ho'] at h; cases h; rfl

theorem repeated_iff {α : Type} {num : Nat} {R : List Field → α → Prop} {o : List Field → Option α}
    (ho : ∀ fs a, R fs a ↔ o fs = some a) {fs : List Field} {v : List α} :
    Repeated num R fs v ↔ getRep num o fs = some v := by
  unfold getRep
  have hf : ∀ (b : Bytes) (a : α), (∃ gs, Items b gs ∧ R gs a) ↔
      (match decFields b with | none => none | some l => o l) = some a := by
    intro b a
    constructor
    · rintro ⟨gs, h1, h2⟩
      rw [(decFields_iff b gs).2 h1]
      exact (ho _ _).1 h2
    · intro h
      split at h
      · cases h
      · rename_i l hl
        exact ⟨l, (decFields_iff b l).1 hl, (ho _ _).2 h⟩
  constructor
  · rintro ⟨l, h1, h2⟩
    rw [occurs_iff.1 h1]
    exact (each_iff hf _ _).1 h2
  · intro h
    exact ⟨_, occurs_iff.2 rfl, (each_iff hf _ _).2 h⟩

theorem readsChainKey_iff (fs : List Field) (m : ChainKeyS) : ReadsChainKey fs m ↔ ChainKeyS.ofFields fs = some m := by
  unfold ChainKeyS.ofFields
  constructor
  · rintro ⟨h0, h1⟩
    rw [lastNumber_iff.1 h0, lastBytes_iff.1 h1]
  · intro h
    cases h
    exact ⟨lastNumber_iff.2 rfl, lastBytes_iff.2 rfl⟩

theorem readsMessageKey_iff (fs : List Field) (m : MessageKeyS) : ReadsMessageKey fs m ↔ MessageKeyS.ofFields fs = some m := by
  unfold MessageKeyS.ofFields
  constructor
  · rintro ⟨h0, h1, h2, h3⟩
    rw [lastNumber_iff.1 h0, lastBytes_iff.1 h1, lastBytes_iff.1 h2, lastBytes_iff.1 h3]
  · intro h
    cases h
    exact ⟨lastNumber_iff.2 rfl, lastBytes_iff.2 rfl, lastBytes_iff.2 rfl, lastBytes_iff.2 rfl⟩

theorem readsPendingExchange_iff (fs : List Field) (m : PendingKeyExchangeS) : ReadsPendingExchange fs m ↔ PendingKeyExchangeS.ofFields fs = some m := by
  unfold PendingKeyExchangeS.ofFields
  constructor
  · rintro ⟨h0, h1, h2, h3, h4, h5, h6⟩
    rw [lastNumber_iff.1 h0, lastBytes_iff.1 h1, lastBytes_iff.1 h2, lastBytes_iff.1 h3, lastBytes_iff.1 h4, lastBytes_iff.1 h5, lastBytes_iff.1 h6]
  · intro h
    cases h
    exact ⟨lastNumber_iff.2 rfl, lastBytes_iff.2 rfl, lastBytes_iff.2 rfl, lastBytes_iff.2 rfl, lastBytes_iff.2 rfl, lastBytes_iff.2 rfl, lastBytes_iff.2 rfl⟩

theorem readsPendingPreKey_iff (fs : List Field) (m : PendingPreKeyS) : ReadsPendingPreKey fs m ↔ PendingPreKeyS.ofFields fs = some m := by
  unfold PendingPreKeyS.ofFields
  constructor
  · rintro ⟨h0, h1, h2⟩
    rw [lastNumber_iff.1 h0, lastBytes_iff.1 h1, lastSigned_iff.1 h2]
  · intro h
    cases h
    exact ⟨lastNumber_iff.2 rfl, lastBytes_iff.2 rfl, lastSigned_iff.2 rfl⟩

theorem readsSeed_iff (fs : List Field) (m : SenderSeedS) : ReadsSeed fs m ↔ SenderSeedS.ofFields fs = some m := by
  unfold SenderSeedS.ofFields
  constructor
  · rintro ⟨h0, h1⟩
    rw [lastNumber_iff.1 h0, lastBytes_iff.1 h1]
  · intro h
    cases h
    exact ⟨lastNumber_iff.2 rfl, lastBytes_iff.2 rfl⟩

theorem readsSigningKey_iff (fs : List Field) (m : SenderSigningKeyS) : ReadsSigningKey fs m ↔ SenderSigningKeyS.ofFields fs = some m := by
  unfold SenderSigningKeyS.ofFields
  constructor
  · rintro ⟨h0, h1⟩
    rw [lastBytes_iff.1 h0, lastBytes_iff.1 h1]
  · intro h
    cases h
    exact ⟨lastBytes_iff.2 rfl, lastBytes_iff.2 rfl⟩

theorem readsPreKeyFields_iff (fs : List Field) (m : PreKeyRecordS) : ReadsPreKeyFields fs m ↔ PreKeyRecordS.ofFields fs = some m := by
  unfold PreKeyRecordS.ofFields
  constructor
  · rintro ⟨h0, h1, h2⟩
    rw [lastNumber_iff.1 h0, lastBytes_iff.1 h1, lastBytes_iff.1 h2]
  · intro h
    cases h
    exact ⟨lastNumber_iff.2 rfl, lastBytes_iff.2 rfl, lastBytes_iff.2 rfl⟩

theorem readsSignedPreKeyFields_iff (fs : List Field) (m : SignedPreKeyRecordS) : ReadsSignedPreKeyFields fs m ↔ SignedPreKeyRecordS.ofFields fs = some m := by
  unfold SignedPreKeyRecordS.ofFields
  constructor
  · rintro ⟨h0, h1, h2, h3, h4⟩
    rw [lastNumber_iff.1 h0, lastBytes_iff.1 h1, lastBytes_iff.1 h2, lastBytes_iff.1 h3, lastFixed_iff.1 h4]
  · intro h
    cases h
    exact ⟨lastNumber_iff.2 rfl, lastBytes_iff.2 rfl, lastBytes_iff.2 rfl, lastBytes_iff.2 rfl, lastFixed_iff.2 rfl⟩

theorem readsChain_iff (fs : List Field) (m : ChainS) : ReadsChain fs m ↔ ChainS.ofFields fs = some m := by
  unfold ChainS.ofFields
  constructor
  · rintro ⟨h0, h1, h2, h3⟩
    rw [(merged_iff readsChainKey_iff).1 h2, (repeated_iff readsMessageKey_iff).1 h3]
    simp only [Option.bind_eq_bind, Option.bind_some]
    rw [lastBytes_iff.1 h0, lastBytes_iff.1 h1]
  · intro h
    obtain ⟨e2, g2, h⟩ := Option.bind_eq_some_iff.1 h
    obtain ⟨e3, g3, h⟩ := Option.bind_eq_some_iff.1 h
    cases h
    exact ⟨lastBytes_iff.2 rfl, lastBytes_iff.2 rfl, (merged_iff readsChainKey_iff).2 g2, (repeated_iff readsMessageKey_iff).2 g3⟩

theorem readsState_iff (fs : List Field) (m : SessionS) : ReadsState fs m ↔ SessionS.ofFields fs = some m := by
  unfold SessionS.ofFields
  constructor
  · rintro ⟨h0, h1, h2, h3, h4, h5, h6, h7, h8, h9, h10, h11, h12⟩
    rw [(merged_iff readsChain_iff).1 h5, (repeated_iff readsChain_iff).1 h6, (merged_iff readsPendingExchange_iff).1 h7, (merged_iff readsPendingPreKey_iff).1 h8]
    simp only [Option.bind_eq_bind, Option.bind_some]
    rw [lastNumber_iff.1 h0, lastBytes_iff.1 h1, lastBytes_iff.1 h2, lastBytes_iff.1 h3, lastNumber_iff.1 h4, lastNumber_iff.1 h9, lastNumber_iff.1 h10, lastBool_iff.1 h11, lastBytes_iff.1 h12]
  · intro h
    obtain ⟨e5, g5, h⟩ := Option.bind_eq_some_iff.1 h
    obtain ⟨e6, g6, h⟩ := Option.bind_eq_some_iff.1 h
    obtain ⟨e7, g7, h⟩ := Option.bind_eq_some_iff.1 h
    obtain ⟨e8, g8, h⟩ := Option.bind_eq_some_iff.1 h
    cases h
    exact ⟨lastNumber_iff.2 rfl, lastBytes_iff.2 rfl, lastBytes_iff.2 rfl, lastBytes_iff.2 rfl, lastNumber_iff.2 rfl, (merged_iff readsChain_iff).2 g5, (repeated_iff readsChain_iff).2 g6, (merged_iff readsPendingExchange_iff).2 g7, (merged_iff readsPendingPreKey_iff).2 g8, lastNumber_iff.2 rfl, lastNumber_iff.2 rfl, lastBool_iff.2 rfl, lastBytes_iff.2 rfl⟩

theorem readsSenderState_iff (fs : List Field) (m : SenderKeyStateS) : ReadsSenderState fs m ↔ SenderKeyStateS.ofFields fs = some m := by
  unfold SenderKeyStateS.ofFields
  constructor
  · rintro ⟨h0, h1, h2, h3⟩
    rw [(merged_iff readsSeed_iff).1 h1, (merged_iff readsSigningKey_iff).1 h2, (repeated_iff readsSeed_iff).1 h3]
    simp only [Option.bind_eq_bind, Option.bind_some]
    rw [lastNumber_iff.1 h0]
  · intro h
    obtain ⟨e1, g1, h⟩ := Option.bind_eq_some_iff.1 h
    obtain ⟨e2, g2, h⟩ := Option.bind_eq_some_iff.1 h
    obtain ⟨e3, g3, h⟩ := Option.bind_eq_some_iff.1 h
    cases h
    exact ⟨lastNumber_iff.2 rfl, (merged_iff readsSeed_iff).2 g1, (merged_iff readsSigningKey_iff).2 g2, (repeated_iff readsSeed_iff).2 g3⟩

theorem readsRecordFields_iff (fs : List Field) (r : Option SessionS × List SessionS) :
    ReadsRecordFields fs r ↔ RecordS.ofFields fs = some { currentSession := r.1, previousSessions := r.2 } := by
  unfold RecordS.ofFields
  constructor
  · rintro ⟨h0, h1⟩
    rw [(merged_iff readsState_iff).1 h0, (repeated_iff readsState_iff).1 h1]
    rfl
  · intro h
    obtain ⟨e0, g0, h⟩ := Option.bind_eq_some_iff.1 h
    obtain ⟨e1, g1, h⟩ := Option.bind_eq_some_iff.1 h
    obtain ⟨rfl, rfl⟩ := RecordS.mk.inj (Option.some.inj h)
    exact ⟨(merged_iff readsState_iff).2 g0, (repeated_iff readsState_iff).2 g1⟩

theorem holds_iff {α : Type} {R : List Field → α → Prop} {o : List Field → Option α}
    (ho : ∀ fs a, R fs a ↔ o fs = some a) (bs : Bytes) (a : α) : Holds R bs a ↔ parseWith o bs = .ok a := by
  unfold parseWith
  constructor
  · rintro ⟨fs, h1, h2⟩
    rw [(decFields_iff bs fs).2 h1]
    simp only [(ho _ _).1 h2]
  · intro h
    split at h
    · cases h
    · rename_i fs hfs
      split at h
      · cases h
      · rename_i b hb
        cases h
        exact ⟨fs, (decFields_iff bs fs).1 hfs, (ho _ _).2 hb⟩

theorem parse_error {α : Type} {o : List Field → Option α} {bs : Bytes} {e : Err} (h : parseWith o bs = .error e) :
    e = .decodeError := by
  unfold parseWith at h
  split at h
  · cases h; rfl
  · split at h
    · cases h; rfl
    · cases h

theorem not_holds_iff {α : Type} {R : List Field → α → Prop} {o : List Field → Option α}
    (ho : ∀ fs a, R fs a ↔ o fs = some a) (bs : Bytes) :
    (∀ a, ¬ Holds R bs a) ↔ parseWith o bs = .error .decodeError := by
  constructor
  · intro h
    cases hp : parseWith o bs with
    | ok a => exact absurd ((holds_iff ho bs a).2 hp) (h a)
    | error e => rw [parse_error hp]
  · intro h a ha
    rw [(holds_iff ho bs a).1 ha] at h
    cases h

/-- **C62.** What every byte string is read as as a session record. -/
theorem C62_session_read (bs : Bytes) (r : Except Err SessionRecord) :
    SessionRecord.ofSerialized bs = r ↔ ReadsSessionRecord bs r := by
  have key : ∀ cur prev, Holds ReadsRecordFields bs (cur, prev) ↔
      parseWith RecordS.ofFields bs = .ok { currentSession := cur, previousSessions := prev } := by
    intro cur prev
    constructor
    · rintro ⟨fs, h1, h2⟩
      rw [parse_items h1, (readsRecordFields_iff fs _).1 h2]
    · intro h
      obtain ⟨fs, h1, h2⟩ := (holds_iff (R := fun fs a => RecordS.ofFields fs = some a) (fun _ _ => Iff.rfl) bs _).2 h
      exact ⟨fs, h1, (readsRecordFields_iff fs _).2 h2⟩
  constructor
  · rintro rfl
    unfold SessionRecord.ofSerialized
    split
    · rename_i h; subst h; exact .empty
    · rename_i h
      cases hp : parseWith RecordS.ofFields bs with
      | error e =>
        obtain rfl := parse_error hp
        refine .bad fun r hr => ?_
        rw [(key r.1 r.2).1 hr] at hp
        cases hp
      | ok m =>
        obtain ⟨cur, prev⟩ := m
        cases cur with
        | none => exact .noCurrent ((key _ _).2 hp) h
        | some c => exact .record ((key _ _).2 hp) h
  · intro h
    unfold SessionRecord.ofSerialized
    cases h with
    | empty => rfl
    | record h hb => rw [if_neg hb, (key _ _).1 h]; rfl
    | noCurrent h hb => rw [if_neg hb, (key _ _).1 h]; rfl
    | bad h =>
      rw [if_neg]
      · cases hp : parseWith RecordS.ofFields bs with
        | error e => rw [parse_error hp]; rfl
        | ok m => exact absurd ((key _ _).2 hp) (h _)
      · rintro rfl
        exact h (none, []) ((key _ _).2 rfl)

/-- What every byte string is read as as a sender key record. -/
theorem C62_sender_key_read (bs : Bytes) (r : Except Err SenderKeyRecord) :
    SenderKeyRecord.ofSerialized bs = r ↔ ReadsSenderKeyRecord bs r := by
  have key : ∀ l, Holds (Repeated 1 ReadsSenderState) bs l ↔
      parseWith SenderKeyRecordS.ofFields bs = .ok { senderKeyStates := l } := by
    intro l
    constructor
    · rintro ⟨fs, h1, h2⟩
      rw [parse_items h1]
      unfold SenderKeyRecordS.ofFields
      rw [(repeated_iff readsSenderState_iff).1 h2]
      rfl
    · intro h
      obtain ⟨fs, h1, h2⟩ := (holds_iff (R := fun fs a => SenderKeyRecordS.ofFields fs = some a) (fun _ _ => Iff.rfl) bs _).2 h
      obtain ⟨e, g, h2⟩ := Option.bind_eq_some_iff.1 h2
      obtain rfl := SenderKeyRecordS.mk.inj (Option.some.inj h2)
      exact ⟨fs, h1, (repeated_iff readsSenderState_iff).2 g⟩
  have hval : SenderKeyRecord.ofSerialized bs =
      (parseWith SenderKeyRecordS.ofFields bs).map fun m => { senderKeyStates := m.senderKeyStates } := by
    unfold SenderKeyRecord.ofSerialized
    split
    · rename_i h; subst h; rfl
    · cases parseWith SenderKeyRecordS.ofFields bs <;> rfl
  rw [hval]
  constructor
  · rintro rfl
    cases hp : parseWith SenderKeyRecordS.ofFields bs with
    | error e =>
      obtain rfl := parse_error hp
      refine .bad fun l hl => ?_
      rw [(key l).1 hl] at hp
      cases hp
    | ok m => exact .record ((key m.senderKeyStates).2 hp)
  · intro h
    cases h with
    | record h => rw [(key _).1 h]; rfl
    | bad h =>
      cases hp : parseWith SenderKeyRecordS.ofFields bs with
      | error e => rw [parse_error hp]; rfl
      | ok m => exact absurd ((key m.senderKeyStates).2 hp) (h _)

theorem no_items_nil : ¬ ∀ fs, ¬ Items [] fs := fun h => h [] .nil

/-- What every byte string is read as as a one-time prekey. -/
theorem C62_prekey_read (bs : Bytes) (r : Except Err PreKeyRecord) :
    PreKeyRecord.ofSerialized bs = r ↔ ReadsPreKeyRecord bs r := by
  have key := holds_iff readsPreKeyFields_iff bs
  constructor
  · rintro rfl
    unfold PreKeyRecord.ofSerialized
    split
    · rename_i h; subst h; exact .empty
    · rename_i h
      rcases items_or bs with ⟨fs, hi⟩ | hi
      · rw [parse_items hi]
        exact .record h ⟨fs, hi, (readsPreKeyFields_iff fs _).2 rfl⟩
      · rw [parse_notFields hi]
        exact .bad hi
  · intro h
    unfold PreKeyRecord.ofSerialized
    cases h with
    | empty => rfl
    | record hb h => rw [if_neg hb]; exact (key _).1 h
    | bad h => rw [if_neg (by rintro rfl; exact no_items_nil h)]; exact parse_notFields h

/-- What every byte string is read as as a signed prekey. -/
theorem C62_signed_prekey_read (bs : Bytes) (r : Except Err SignedPreKeyRecord) :
    SignedPreKeyRecord.ofSerialized bs = r ↔ ReadsSignedPreKeyRecord bs r := by
  have key := holds_iff readsSignedPreKeyFields_iff bs
  constructor
  · rintro rfl
    unfold SignedPreKeyRecord.ofSerialized
    split
    · rename_i h; subst h; exact .empty
    · rename_i h
      rcases items_or bs with ⟨fs, hi⟩ | hi
      · rw [parse_items hi]
        exact .record h ⟨fs, hi, (readsSignedPreKeyFields_iff fs _).2 rfl⟩
      · rw [parse_notFields hi]
        exact .bad hi
  · intro h
    unfold SignedPreKeyRecord.ofSerialized
    cases h with
    | empty => rfl
    | record hb h => rw [if_neg hb]; exact (key _).1 h
    | bad h => rw [if_neg (by rintro rfl; exact no_items_nil h)]; exact parse_notFields h

/-- The key pair of a stored prekey, with these two fields. -/
theorem storedPair (pub priv : Option Bytes) :
    (Blank pub → Curve.decodePoint (pub.getD []) = .error .indexError) ∧
    (NotKey pub → Curve.decodePoint (pub.getD []) = .error .invalidKey) ∧
    (∀ k, KeyOf pub k → Curve.decodePoint (pub.getD []) = .ok k) ∧ Curve.decodePrivatePoint (priv.getD []) = priv.getD [] := by
  refine ⟨fun h => by rw [(blank_iff _).1 h]; rfl, fun h => (notKey_iff _).1 h, fun k h => KeyOf_iff.1 h, rfl⟩

/-- What a one-time prekey says that has been read from storage, field by field: an absent id is 0, an absent private key is empty;
without a public key, or with one of another type, there is no key pair. -/
theorem C62_prekey_values (bs : Bytes) (hb : bs ≠ []) (fs : List Field) (hi : Items bs fs) (id : Option Nat) (pub priv : Option Bytes)
    (h1 : LastNumber 1 fs id) (h2 : LastBytes 2 fs pub) (h3 : LastBytes 3 fs priv) :
    ∃ r, PreKeyRecord.ofSerialized bs = .ok r ∧ PreKeyRecord.getId r = id.getD 0 ∧
      (∀ k, KeyOf pub k → PreKeyRecord.getKeyPair r = .ok ⟨k, priv.getD []⟩) ∧
      (Blank pub → PreKeyRecord.getKeyPair r = .error .indexError) ∧ (NotKey pub → PreKeyRecord.getKeyPair r = .error .invalidKey) := by
  refine ⟨⟨id, pub, priv⟩, (C62_prekey_read bs _).2 (.record hb ⟨fs, hi, h1, h2, h3⟩), rfl, fun k hk => ?_, fun hk => ?_, fun hk => ?_⟩ <;>
    unfold PreKeyRecord.getKeyPair
  · rw [(storedPair pub priv).2.2.1 k hk]; rfl
  · rw [(storedPair pub priv).1 hk]; rfl
  · rw [(storedPair pub priv).2.1 hk]; rfl

/-- The same for a signed prekey, with the timestamp and the signature. -/
theorem C62_signed_prekey_values (bs : Bytes) (hb : bs ≠ []) (fs : List Field) (hi : Items bs fs) (id time : Option Nat)
    (pub priv sig : Option Bytes) (h1 : LastNumber 1 fs id) (h2 : LastBytes 2 fs pub) (h3 : LastBytes 3 fs priv)
    (h4 : LastBytes 4 fs sig) (h5 : LastFixed 5 fs time) :
    ∃ r, SignedPreKeyRecord.ofSerialized bs = .ok r ∧ SignedPreKeyRecord.getId r = id.getD 0 ∧
      SignedPreKeyRecord.getTimestamp r = time.getD 0 ∧ SignedPreKeyRecord.getSignature r = sig.getD [] ∧
      (∀ k, KeyOf pub k → SignedPreKeyRecord.getKeyPair r = .ok ⟨k, priv.getD []⟩) ∧
      (Blank pub → SignedPreKeyRecord.getKeyPair r = .error .indexError) ∧
      (NotKey pub → SignedPreKeyRecord.getKeyPair r = .error .invalidKey) := by
  refine ⟨⟨id, pub, priv, sig, time⟩, (C62_signed_prekey_read bs _).2 (.record hb ⟨fs, hi, h1, h2, h3, h4, h5⟩), rfl, rfl, rfl,
    fun k hk => ?_, fun hk => ?_, fun hk => ?_⟩ <;> unfold SignedPreKeyRecord.getKeyPair
  · rw [(storedPair pub priv).2.2.1 k hk]; rfl
  · rw [(storedPair pub priv).1 hk]; rfl
  · rw [(storedPair pub priv).2.1 hk]; rfl

/-- What every byte string is read as as an identity key pair. -/
theorem C62_identity_read (bs : Bytes) (r : Except Err KeyPair) :
    IdentityKeyPair.ofSerialized bs = r ↔ ReadsIdentity bs r := by
  have sound : ∀ r, ReadsIdentity bs r → IdentityKeyPair.ofSerialized bs = r := by
    intro r h
    unfold IdentityKeyPair.ofSerialized
    cases h with
    | empty => rfl
    | bad h =>
      rw [if_neg (by rintro rfl; exact no_items_nil h), parse_notFields h]
      rfl
    | noKey hb hi h1 hk =>
      rw [if_neg hb, parse_items hi]
      simp only [IdentityKeyPairS.ofFields, ok_bind, lastBytes_get h1]
      rw [(blank_iff _).1 hk]
      rfl
    | badKey hb hi h1 hk =>
      rw [if_neg hb, parse_items hi]
      simp only [IdentityKeyPairS.ofFields, ok_bind, lastBytes_get h1]
      rw [(notKey_iff _).1 hk]
      rfl
    | pair hi h1 h2 hk =>
      rw [if_neg, parse_items hi]
      · simp only [IdentityKeyPairS.ofFields, ok_bind, lastBytes_get h1, lastBytes_get h2]
        rw [KeyOf_iff.1 hk]
        rfl
      · rintro rfl
        have hf := (decFields_iff [] _).2 hi
        cases Option.some.inj hf
        obtain ⟨x, rfl, _⟩ := hk
        obtain ⟨a, b, hab, _⟩ := h1
        cases a <;> cases hab
  refine ⟨?_, sound r⟩
  rintro rfl
  by_cases hb : bs = []
  · subst hb; exact .empty
  · rcases items_or bs with ⟨fs, hi⟩ | hi
    · obtain ⟨pub, h1⟩ := lastBytes_exists 1 fs
      obtain ⟨priv, h2⟩ := lastBytes_exists 2 fs
      have : ∃ r, ReadsIdentity bs r := by
        rcases key_cases pub with hk | hk | ⟨k, hk⟩
        · exact ⟨_, .noKey hb hi h1 hk⟩
        · exact ⟨_, .badKey hb hi h1 hk⟩
        · exact ⟨_, .pair hi h1 h2 hk⟩
      obtain ⟨r, hr⟩ := this
      rw [sound r hr]
      exact hr
    · rw [sound _ (.bad hi)]
      exact .bad hi

/-! ## Examples -/

/-- A prekey of which only the private key has been stored: id 0, no key pair. -/
example : ∃ r, PreKeyRecord.ofSerialized [0x1A, 1, 9] = .ok r ∧ PreKeyRecord.getId r = 0 ∧
    PreKeyRecord.getKeyPair r = .error .indexError := by
  have hi : Items [0x1A, 1, 9] [⟨3, .len [9]⟩] :=
    .cons (s := [0x1A, 1, 9]) (.plain (.len (t := [0x1A]) (l := [1]) (b := [9]) ⟨by decide, .last (by decide), by decide, by decide, by decide⟩
      ⟨by decide, _, .last (by decide), rfl⟩)) .nil
  obtain ⟨r, h1, h2, _, h3, _⟩ := C62_prekey_values _ (by decide) _ hi none none (some [9]) (fun n h => by simp at h) (fun n h => by simp at h)
    ⟨[], [], rfl, fun c h => by cases h⟩
  exact ⟨r, h1, h2, h3 (.inl rfl)⟩

/-- A record whose current state has been acknowledged once, written byte for byte; the hypotheses are met. -/
example :
    let s : SessionState := { sessionVersion := some 3, rootKey := some [7, 8], previousCounter := some 300
                              senderChain := some { senderRatchetKey := some [5, 1], chainKey := some ⟨some 2, some [9]⟩ }
                              pendingPreKey := some ⟨some 1, some [6], some (-1)⟩, needsRefresh := some true }
    let r : SessionRecord := { sessionState := s, previousStates := [{}] }
    r.Ok ∧ (storedRecord r).length < 2 ^ 64 ∧ storedRecord r =
      [0x0A, 42, 0x08, 3, 0x22, 2, 7, 8, 0x28, 172, 2, 0x32, 11, 0x0A, 2, 5, 1, 0x1A, 5, 0x08, 2, 0x12, 1, 9,
        0x4A, 16, 0x08, 1, 0x12, 1, 6, 0x18, 255, 255, 255, 255, 255, 255, 255, 255, 255, 1, 0x60, 1, 0x12, 0] := by
  intro s r
  have hb : storedRecord r =
      [0x0A, 42, 0x08, 3, 0x22, 2, 7, 8, 0x28, 172, 2, 0x32, 11, 0x0A, 2, 5, 1, 0x1A, 5, 0x08, 2, 0x12, 1, 9,
        0x4A, 16, 0x08, 1, 0x12, 1, 6, 0x18, 255, 255, 255, 255, 255, 255, 255, 255, 255, 1, 0x60, 1, 0x12, 0] := by
    simp [r, s, storedRecord, storedState, storedChain, storedChainKey, storedPendingPreKey, opt, each, bytesField, numField,
      boolField, signedField, leb]
  have he : SessionS.Ok {} := by
    refine ⟨OptLt.none, OptLt.none, ?_, ?_, ?_, ?_, OptLt.none, OptLt.none⟩ <;> intro a ha <;> cases ha
  refine ⟨⟨⟨OptLt.some (by omega), OptLt.some (by omega), ?_, ?_, ?_, ?_, OptLt.none, OptLt.none⟩, ?_⟩, ?_, hb⟩
  · intro a ha
    cases ha
    refine ⟨?_, fun b hb => by cases hb⟩
    intro a ha
    cases ha
    exact ⟨OptLt.some (by omega)⟩
  · intro a ha; cases ha
  · intro a ha; cases ha
  · intro a ha
    cases ha
    refine ⟨OptLt.some (by omega), ?_⟩
    intro i hi
    cases hi
    omega
  · intro a ha
    cases List.mem_singleton.1 ha
    exact he
  · rw [hb]; decide

/-- A state spread over two fields is one state. -/
example : ReadsSessionRecord [0x0A, 2, 0x08, 3, 0x12, 0, 0x0A, 2, 0x28, 9] (.ok
    { fresh := false, sessionState := { sessionVersion := some 3, previousCounter := some 9 }, previousStates := [{}] }) :=
  (C62_session_read _ _).1 (by decide +kernel)

/-- A state cut short is refused. -/
example : ReadsSessionRecord [0x0A, 3, 0x08, 3] (.error .decodeError) := (C62_session_read _ _).1 (by decide +kernel)

/-- Archived states without a current one. -/
example : ReadsSessionRecord [0x12, 2, 0x08, 3] (.ok
    { fresh := false, sessionState := {}, previousStates := [{ sessionVersion := some 3 }] }) :=
  (C62_session_read _ _).1 (by decide +kernel)

/-- A chain whose key is not a message: the whole record is refused. -/
example : ReadsSessionRecord [0x0A, 5, 0x32, 3, 0x1A, 1, 0x08] (.error .decodeError) :=
  (C62_session_read _ _).1 (by decide +kernel)

example : ReadsSenderKeyRecord [0x0A, 8, 0x08, 5, 0x12, 4, 0x08, 2, 0x12, 0] (.ok
    { senderKeyStates := [{ senderKeyId := some 5, senderChainKey := some ⟨some 2, some []⟩ }] }) :=
  (C62_sender_key_read _ _).1 (by decide +kernel)

example : ReadsSignedPreKeyRecord [0x08, 22, 0x29, 1, 2, 0, 0, 0, 0, 0, 1] (.ok
    { id := some 22, timestamp := some (1 + 2 * 256 + 2 ^ 56) }) :=
  (C62_signed_prekey_read _ _).1 (by decide +kernel)

example : ReadsPreKeyRecord [0x08, 31, 0x12, 1, 5, 0x08, 32] (.ok { id := some 32, publicKey := some [5] }) :=
  (C62_prekey_read _ _).1 (by decide +kernel)

example : ReadsIdentity [0x12, 1, 5] (.error .indexError) := (C62_identity_read _ _).1 (by decide +kernel)

example : ReadsIdentity [0x0A, 2, 5, 9, 0x12, 1, 7] (.ok ⟨[9], [7]⟩) := (C62_identity_read _ _).1 (by decide +kernel)

end Axolotl
