import Verif.Spec.GroupMemory
import Verif.Props.MessageSize
import Verif.Props.InMemory
import Verif.Props.GroupDelivery
import Verif.Props.ByteStore

/-!
# C67: the size of what a group store holds, and the group store in memory
-/

namespace Axolotl
open Spec Wire
section
variable [C : Crypto]

/-- A key kept for a skipped iteration. -/
def FullSeed (k : SenderSeedS) : Prop := ∃ i x, k = { iteration := some i, seed := some x } ∧ x.length = 32

structure SlimSender (s : SenderKeyStateS) : Prop where
  chain : ∃ k, s.senderChainKey = some k ∧ FullSeed k
  signing : ∃ pub priv, s.senderSigningKey = some { pub := some pub, priv := priv } ∧ pub.length = 33 ∧ Short 32 priv
  seeds : ∀ k ∈ s.senderMessageKeys, FullSeed k
  few : s.senderMessageKeys.length ≤ iterationOf s

omit C in
theorem slimSender_chain {s : SenderKeyStateS} (h : SlimSender s) : (chainKeyOf s).length = 32 := by
  obtain ⟨k, h1, i, x, rfl, h2⟩ := h.chain
  unfold chainKeyOf
  rw [h1]
  exact h2

theorem slimSender_key (hC : C.Lawful) {s s' : SenderKeyStateS} {i : Nat} {seed : Bytes} (h : GroupKey s i seed s')
    (hs : SlimSender s) : SlimSender s' := by
  cases h with
  | @kept a b k h1 h2 h3 h4 =>
    refine ⟨hs.chain, hs.signing, ?_, ?_⟩
    · intro e he
      apply hs.seeds e
      rw [h2]
      rcases List.mem_append.1 he with h | h
      · exact List.mem_append_left _ h
      · exact List.mem_append_right _ (List.mem_cons_of_mem _ h)
    · have := hs.few
      rw [h2] at this
      simp only [List.length_append, List.length_cons] at this ⊢
      show a.length + b.length ≤ iterationOf s
      omega
  | ahead h1 h2 =>
    refine ⟨⟨_, rfl, _, _, rfl, chainAt_32 hC.hmac_len (slimSender_chain hs) _⟩, hs.signing, ?_, ?_⟩
    · intro e he
      rcases List.mem_append.1 he with h | h
      · exact hs.seeds e h
      · obtain ⟨j, _, rfl⟩ := List.mem_map.1 h
        exact ⟨_, _, rfl, hC.hmac_len _ _⟩
    · show List.length (_ ++ _) ≤ i + 1
      have := hs.few
      rw [List.length_append, List.length_map, List.length_range]
      omega

theorem slimSender_does (hC : C.Lawful) {g : GroupStore} (hg : ∀ n, ∀ s ∈ (g n).senderKeyStates, SlimSender s) {c : GroupCall}
    (hc : GroupSized c) (hk : GroupKeys32 c) {o : GOutcome GroupReply} (h : GroupDoes g c o) :
    ∀ n, ∀ s ∈ (groupStored g c.name o n).senderKeyStates, SlimSender s := by
  intro n s hs
  unfold groupStored at hs
  split at hs
  · rename_i hn
    subst hn
    cases h with
    | sendNothing | sendUnsigned | sendLast | readNothing | readOther | readUnknown | readShort | readNoSignature
    | readForged | readAgain | readLast | readGarbage | processBad | createKnown | createBad => exact hg _ s hs
    | @sent n' _ _ t rest _ _ ht hl _ _ =>
      have hold := hg n' t (by rw [ht]; simp)
      rcases List.mem_cons.1 hs with rfl | hs
      · refine ⟨⟨_, rfl, _, _, rfl, hC.hmac_len _ _⟩, hold.signing, hold.seeds, ?_⟩
        have := hold.few
        show _ ≤ iterationOf t + 1
        exact Nat.le_trans this (by omega)
      · exact hg n' s (by rw [ht]; exact List.mem_cons_of_mem _ hs)
    | @read n' _ _ _ x y t t' _ _ _ hm hl hst hkk hv hkey hpt =>
      have hmem : ∀ z ∈ x ++ t :: y, SlimSender z := fun z hz => hg n' z (by rw [hst.split]; exact hz)
      have hs : s ∈ x ++ t' :: y := hs
      rcases List.mem_append.1 hs with hs | hs
      · exact hmem s (List.mem_append_left _ hs)
      · rcases List.mem_cons.1 hs with rfl | hs
        · exact slimSender_key hC hkey (hmem t (by simp))
        · exact hmem s (by simp [hs])
    | @processed n' m h1 h2 =>
      have hs : s ∈ (g n').senderKeyStates ++ [addedState m] := hs
      rcases List.mem_append.1 hs with hs | hs
      · exact hg n' s hs
      · rw [List.mem_singleton.1 hs]
        refine ⟨⟨_, rfl, _, _, rfl, hk.1⟩, ⟨_, _, rfl, ?_, short_none⟩, (by intro e he; cases he), Nat.zero_le _⟩
        rw [List.length_cons, hk.2]
    | @created n' rnd t h0 h1 ht =>
      have hs : s ∈ [t] := hs
      rw [List.mem_singleton.1 hs, ht]
      have g1 := hC.genPriv_len _ hc.2
      refine ⟨⟨_, rfl, _, _, rfl, hk⟩, ⟨_, _, rfl, ?_, short_some (by omega)⟩, (by intro e he; cases he), Nat.zero_le _⟩
      rw [List.length_cons, drawn_len hC g1]
  · exact hg n s hs

/-- A history of group calls: sizes as Python guarantees them, and keys of 32 bytes. -/
def OrdinaryGroup (cs : List GroupCall) : Prop := ∀ c ∈ cs, GroupSized c ∧ GroupKeys32 c

theorem slimSender (hC : C.Lawful) (cs : List GroupCall) (hcs : OrdinaryGroup cs) :
    ∀ n, ∀ s ∈ (GroupCall.after GroupStore.empty cs n).senderKeyStates, SlimSender s := by
  have key : ∀ (cs : List GroupCall) (g : GroupStore), GroupReached g → (∀ n, ∀ s ∈ (g n).senderKeyStates, SlimSender s) →
      OrdinaryGroup cs → ∀ n, ∀ s ∈ (GroupCall.after g cs n).senderKeyStates, SlimSender s := by
    intro cs
    induction cs with
    | nil => intro g _ hf _; exact hf
    | cons c cs ih =>
      intro g hg hf hcs
      obtain ⟨o, ho⟩ := groupDoes_exists hC hg c
      obtain ⟨hc, hk⟩ := hcs c (List.mem_cons_self ..)
      refine ih (c.next g) ?_ ?_ (fun d hd => hcs d (List.mem_cons_of_mem _ hd))
      · rw [next_stored, groupDoes_run hC hg hc ho]
        exact groupDoes_sane hC hg hc ho
      · rw [next_stored, groupDoes_run hC hg hc ho]
        exact slimSender_does hC hf hc hk ho
  exact key cs _ (fun n s hs => by cases hs) (fun n s hs => by cases hs) hcs

omit C in
theorem senderRecords_ok [Crypto] (cs : List GroupCall) : ∀ g : GroupStore, (∀ n, (g n).Ok) → ∀ n, (GroupCall.after g cs n).Ok := by
  induction cs with
  | nil => exact fun g h => h
  | cons c cs ih => exact fun g h => ih (c.next g) fun n => recordStep_ok (h n) (next_record g c n)

/-! ## Sizes -/

omit C in
theorem seed_size {k : SenderSeedS} (h : FullSeed k) (hok : k.Ok) :
    36 ≤ (storedSeed k).length ∧ (storedSeed k).length ≤ 40 := by
  obtain ⟨i, x, rfl, hx⟩ := h
  have h1 : (numField 0x08 i).length ≤ 6 := numField_le (hok.iteration i rfl)
  have h2 : 2 ≤ (numField 0x08 i).length := by
    unfold numField
    have := leb_pos i
    rw [List.length_cons]; omega
  have h3 : (bytesField 0x12 x).length = 34 := by rw [bytesField_size, hx]; decide
  show 36 ≤ (numField 0x08 i ++ bytesField 0x12 x).length ∧ (numField 0x08 i ++ bytesField 0x12 x).length ≤ 40
  rw [List.length_append]
  omega

omit C in
theorem seedField_size {k : SenderSeedS} {t : UInt8} (h : FullSeed k) (hok : k.Ok) :
    38 ≤ (bytesField t (storedSeed k)).length ∧ (bytesField t (storedSeed k)).length ≤ 42 := by
  obtain ⟨h1, h2⟩ := seed_size h hok
  rw [bytesField_length, leb_small (by omega)]
  simp only [List.length_cons, List.length_nil]
  omega

omit C in
theorem senderState_size {s : SenderKeyStateS} (h : SlimSender s) (hok : s.Ok) :
    38 * s.senderMessageKeys.length ≤ (storedSenderState s).length ∧
    (storedSenderState s).length ≤ 119 + 42 * s.senderMessageKeys.length := by
  have g1 := opt_num (t := 0x08) hok.senderKeyId
  have g2 : (opt (fun k => bytesField 0x12 (storedSeed k)) s.senderChainKey).length ≤ 42 := by
    obtain ⟨k, h1, h2⟩ := h.chain
    refine opt_le fun a ha => ?_
    obtain rfl := Option.some.inj (h1.symm.trans ha)
    exact (seedField_size h2 (hok.senderChainKey _ ha)).2
  have g3 : (opt (fun k => bytesField 0x1A (storedSigningKey k)) s.senderSigningKey).length ≤ 71 := by
    obtain ⟨pub, priv, h1, h2, h3⟩ := h.signing
    refine opt_le fun a ha => ?_
    obtain rfl := Option.some.inj (h1.symm.trans ha)
    refine bytesField_small (n := 69) ?_ (by omega)
    have q1 : (bytesField 0x0A pub).length = 35 := by rw [bytesField_size, h2]; decide
    have q2 := opt_bytes (t := 0x12) h3 (by omega)
    show (bytesField 0x0A pub ++ opt (bytesField 0x12) priv).length ≤ 69
    rw [List.length_append]
    omega
  have g4 : (each (fun k => bytesField 0x22 (storedSeed k)) s.senderMessageKeys).length ≤ 42 * s.senderMessageKeys.length := by
    rw [← sum_const]
    exact each_le fun k hk => (seedField_size (h.seeds k hk) (hok.senderMessageKeys k hk)).2
  have g5 : 38 * s.senderMessageKeys.length ≤ (each (fun k => bytesField 0x22 (storedSeed k)) s.senderMessageKeys).length := by
    rw [← sum_const]
    exact each_ge fun k hk => (seedField_size (h.seeds k hk) (hok.senderMessageKeys k hk)).1
  unfold storedSenderState
  simp only [List.length_append]
  omega

omit C in
theorem senderStateField_size {s : SenderKeyStateS} {t : UInt8} (h : SlimSender s) (hok : s.Ok) :
    38 * s.senderMessageKeys.length ≤ (bytesField t (storedSenderState s)).length ∧
    (bytesField t (storedSenderState s)).length ≤ 126 + 42 * s.senderMessageKeys.length := by
  obtain ⟨h1, h2⟩ := senderState_size h hok
  have h3 := h.few
  have h4 := iterationOf_lt hok
  have h5 := leb_upto (n := (storedSenderState s).length) (f := 6) (by omega) (by omega)
  rw [bytesField_length]
  omega

omit C in
theorem senderRecord_size {r : SenderKeyRecord} (h : ∀ s ∈ r.senderKeyStates, SlimSender s) (hok : r.Ok) :
    38 * keptSeeds r ≤ (storedSenderKeys r).length ∧
    (storedSenderKeys r).length ≤ 126 * r.senderKeyStates.length + 42 * keptSeeds r := by
  unfold storedSenderKeys keptSeeds
  constructor
  · have h1 : (r.senderKeyStates.map fun s => 0 + 38 * s.senderMessageKeys.length).sum =
        0 * r.senderKeyStates.length + 38 * (r.senderKeyStates.map fun s => s.senderMessageKeys.length).sum :=
      sum_affine r.senderKeyStates (fun s => s.senderMessageKeys.length) 0 38
    have h2 : (r.senderKeyStates.map fun s => 0 + 38 * s.senderMessageKeys.length).sum ≤
        (each (fun s => bytesField 0x0A (storedSenderState s)) r.senderKeyStates).length :=
      each_ge fun s hs => by
        have := (senderStateField_size (t := 0x0A) (h s hs) (hok s hs)).1
        omega
    omega
  · rw [← sum_affine]
    exact each_le fun s hs => (senderStateField_size (h s hs) (hok s hs)).2

omit C in
theorem stored_each {α : Type} {n : Nat} {tag : UInt8} {t : α → List Field} {w : α → Bytes} {v : List α}
    (hn : n * 8 + 2 < 128 ∧ tag = UInt8.ofNat (n * 8 + 2)) (hv : ∀ a ∈ v, (w a).length < 2 ^ 64)
    (ht : ∀ a ∈ v, (w a).length < 2 ^ 64 → encFields (t a) = w a) :
    encFields (putRep n t v) = each (fun a => bytesField tag (w a)) v := by
  obtain ⟨hn, rfl⟩ := hn
  induction v with
  | nil => rfl
  | cons a v ih =>
    have ha := hv a (List.mem_cons_self ..)
    show encFields (putBytes n (some (encFields (t a))) ++ putRep n t v) = _
    rw [encFields_append, ih (fun b hb => hv b (List.mem_cons_of_mem _ hb)) (fun b hb => ht b (List.mem_cons_of_mem _ hb)),
      ht a (List.mem_cons_self ..) ha, encFields_bytes hn ha]
    rfl

omit C in
theorem senderRecord_bytes {r : SenderKeyRecord} (h : ∀ s ∈ r.senderKeyStates, SlimSender s) (hok : r.Ok) :
    r.serialize = storedSenderKeys r := by
  refine stored_each (by decide) (fun s hs => ?_) fun a ha hb => storedSenderState_eq (hok a ha) hb
  have h1 := (senderState_size (h s hs) (hok s hs)).2
  have h3 := (h s hs).few
  have h4 := iterationOf_lt (hok s hs)
  omega

/-- **C67.** In every history, a stored group record takes at least 38 bytes for every key of a skipped iteration, and at most
42 for each and 126 for every state. -/
theorem C67_size (hC : C.Lawful) (cs : List GroupCall) (hcs : OrdinaryGroup cs) (n : SenderKeyName) :
    let r := GroupCall.after GroupStore.empty cs n
    38 * keptSeeds r ≤ r.serialize.length ∧ r.serialize.length ≤ 126 * r.senderKeyStates.length + 42 * keptSeeds r := by
  have h := slimSender hC cs hcs n
  have hok := senderRecords_ok cs GroupStore.empty (fun _ s hs => by cases hs) n
  intro r
  rw [senderRecord_bytes h hok]
  exact senderRecord_size h hok

/-! ## Growth -/

theorem senderStates_le (cs : List GroupCall) (n : SenderKeyName) : ∀ g : GroupStore,
    (GroupCall.after g cs n).senderKeyStates.length ≤ (g n).senderKeyStates.length + cs.length := by
  induction cs with
  | nil => exact fun g => Nat.le_refl _
  | cons c cs ih =>
    intro g
    have h1 := ih (c.next g)
    have h2 := (C45_growth_partial g c n).1
    show (GroupCall.after (c.next g) cs n).senderKeyStates.length ≤ _
    rw [List.length_cons]
    omega

omit C in
theorem keptSeeds_le {r : SenderKeyRecord} (h : ∀ s ∈ r.senderKeyStates, SlimSender s) (hok : r.Ok) :
    keptSeeds r ≤ 4294967296 * r.senderKeyStates.length := by
  unfold keptSeeds
  obtain ⟨l⟩ := r
  show (l.map fun s => s.senderMessageKeys.length).sum ≤ 4294967296 * l.length
  replace h : ∀ s ∈ l, SlimSender s := h
  replace hok : ∀ s ∈ l, SenderKeyStateS.Ok s := hok
  induction l with
  | nil => exact Nat.le_refl _
  | cons s l ih =>
    have h1 := ih (fun x hx => h x (List.mem_cons_of_mem _ hx)) (fun x hx => hok x (List.mem_cons_of_mem _ hx))
    have h2 := (h s (List.mem_cons_self ..)).few
    have h3 := iterationOf_lt (hok s (List.mem_cons_self ..))
    simp only [List.map_cons, List.sum_cons, List.length_cons] at h1 ⊢
    omega

/-- **C67.** After any number of calls, a group record takes at most 180,388,626,558 bytes for each of them. -/
theorem C67_growth (hC : C.Lawful) (cs : List GroupCall) (hcs : OrdinaryGroup cs) (n : SenderKeyName) :
    (GroupCall.after GroupStore.empty cs n).serialize.length ≤ (126 + 42 * 2 ^ 32) * cs.length := by
  have h := slimSender hC cs hcs n
  have hok := senderRecords_ok cs GroupStore.empty (fun _ s hs => by cases hs) n
  have h1 := (C67_size hC cs hcs n).2
  have h2 := keptSeeds_le h hok
  have h3 := senderStates_le cs n GroupStore.empty
  have h4 : (GroupStore.empty n).senderKeyStates.length = 0 := rfl
  omega

omit C in
theorem keptSeeds_ge {r : SenderKeyRecord} {s : SenderKeyStateS} (h : s ∈ r.senderKeyStates) :
    s.senderMessageKeys.length ≤ keptSeeds r := by
  unfold keptSeeds
  obtain ⟨l⟩ := r
  replace h : s ∈ l := h
  show _ ≤ (l.map fun s => s.senderMessageKeys.length).sum
  induction l with
  | nil => cases h
  | cons t l ih =>
    simp only [List.map_cons, List.sum_cons]
    rcases List.mem_cons.1 h with rfl | h
    · exact Nat.le_add_right _ _
    · exact Nat.le_trans (ih h) (Nat.le_add_left _ _)

/-- **C67.** One message is enough: whoever holds the signing key of a state can, at any time and with one message, make the
record take 38 bytes for every iteration up to any 32-bit number. -/
theorem C67_one_message (hC : C.Lawful) (cs : List GroupCall) (hcs : OrdinaryGroup cs) (n : SenderKeyName) (id : Nat)
    (s : SenderKeyStateS) (hs : stateFor (GroupCall.after GroupStore.empty cs n) id = some s) (priv : ECPriv)
    (hpriv : C.Generated priv) (hpub : (s.senderSigningKey.getD {}).pub = some (5 :: C.genPub priv)) (hid : id < 2 ^ 32)
    (i : Nat) (hi : iterationOf s ≤ i) (hfit : i + 1 < 2 ^ 32) (pt rand : Bytes) (hpt : pt.length < 2 ^ 62)
    (hrand : rand.length = 64) :
    ∃ bs, ((GroupCall.decrypt n bs).run (GroupCall.after GroupStore.empty cs)).result = .ok (.bytes pt) ∧
      38 * (i - iterationOf s) ≤ (GroupCall.after GroupStore.empty (cs ++ [.decrypt n bs]) n).serialize.length := by
  obtain ⟨ct, m, _, _, _, _, _, h1, s', h2, _, h3⟩ := C42_any_distance_accepted hC (GroupCall.after GroupStore.empty cs) n id s hs
    priv hpriv hpub hid i hi hfit pt rand hpt hrand
  have hafter : GroupCall.after GroupStore.empty (cs ++ [.decrypt n m.serialized]) =
      (GroupCall.decrypt n m.serialized).next (GroupCall.after GroupStore.empty cs) := by
    unfold GroupCall.after
    rw [List.foldl_append]
    rfl
  refine ⟨m.serialized, ?_, ?_⟩
  · unfold GroupCall.run GroupCall.mapG
    simp only [h1]
  · have hord : OrdinaryGroup (cs ++ [.decrypt n m.serialized]) := by
      intro c hc
      rcases List.mem_append.1 hc with hc | hc
      · exact hcs c hc
      · rw [List.mem_singleton.1 hc]
        exact ⟨trivial, trivial⟩
    have h4 := (C67_size hC _ hord n).1
    have h5 : s' ∈ (GroupCall.after GroupStore.empty (cs ++ [.decrypt n m.serialized]) n).senderKeyStates := by
      rw [hafter]
      exact List.mem_of_find?_eq_some h2
    have h6 := keptSeeds_ge h5
    have h7 : (pending s').length = s'.senderMessageKeys.length := List.length_map _
    omega

/-! ## Stores -/

omit C in
theorem ordinaryGroup_take {cs : List GroupCall} (h : OrdinaryGroup cs) (k : Nat) : OrdinaryGroup (cs.take k) :=
  fun c hc => h c (List.mem_of_mem_take hc)

theorem smallGroups (hC : C.Lawful) (cs : List GroupCall) (hcs : OrdinaryGroup cs) (hN : cs.length ≤ 2 ^ 26) :
    SmallGroups GroupStore.empty cs := by
  intro k n
  have h1 := C67_growth hC _ (ordinaryGroup_take hcs k) n
  have h2 : (cs.take k).length ≤ 2 ^ 26 := by rw [List.length_take]; omega
  omega

/-- **C67.** A store that keeps bytes makes no difference to any ordinary history of up to 2^26 calls: the size condition of
C50 is then met. -/
theorem C67_bytes (hC : C.Lawful) (cs : List GroupCall) (hcs : OrdinaryGroup cs) (hN : cs.length ≤ 2 ^ 26) :
    GroupCall.repliesB GroupStore.empty.toBytes cs = GroupCall.replies GroupStore.empty cs ∧
    ∀ n, SenderKeyRecord.ofSerialized (GroupCall.afterB GroupStore.empty.toBytes cs n) =
      .ok (GroupCall.after GroupStore.empty cs n) := by
  obtain ⟨h1, _, h3⟩ := C50_groups cs GroupStore.empty (fun _ s hs => by cases hs) (smallGroups hC cs hcs hN)
  exact ⟨h1, h3⟩

theorem groupRun_local (g g' : GroupStore) (c : GroupCall) (h : g c.name = g' c.name) : c.run g = c.run g' := by
  cases c with
  | encrypt n pt rand =>
    have h : g n = g' n := h
    unfold GroupCall.run GroupCipher.encrypt
    simp only [h]
  | decrypt n b =>
    have h : g n = g' n := h
    unfold GroupCall.run GroupCipher.decrypt
    simp only [h]
  | process n m =>
    have h : g n = g' n := h
    unfold GroupCall.run GroupSessionBuilder.process
    simp only [h]
  | create n rnd =>
    have h : g n = g' n := h
    unfold GroupCall.run GroupSessionBuilder.create
    simp only [h]

/-- The store in memory holds these records. -/
structure MemHolds (m : MemSenderKeys) (g : GroupStore) : Prop where
  distinct : DistinctKeys m
  same : ∀ n, (m.get? n).getD {} = g n

omit C in
theorem memHolds_load {m : MemSenderKeys} {g : GroupStore} (h : MemHolds m g) (n : SenderKeyName)
    (hok : (g n).Ok) (hlen : (g n).serialize.length < 2 ^ 64) : m.loadSenderKey n = .ok (g n) := by
  unfold MemSenderKeys.loadSenderKey
  have h1 := h.same n
  cases h2 : m.get? n with
  | none =>
    rw [h2] at h1
    exact congrArg Except.ok h1
  | some r =>
    rw [h2] at h1
    have h1 : r = g n := h1
    subst h1
    exact C07_sender_key_record_roundtrip _ hok hlen

theorem memHolds_run {m : MemSenderKeys} {g : GroupStore} (h : MemHolds m g) (c : GroupCall)
    (hok : (g c.name).Ok) (hlen : (g c.name).serialize.length < 2 ^ 64) :
    (c.runMem m).1 = (c.run g).result ∧ MemHolds (c.runMem m).2 (c.next g) := by
  have h1 := memHolds_load h c.name hok hlen
  have h2 : c.run (fun _ => g c.name) = c.run g := groupRun_local _ _ c rfl
  unfold GroupCall.runMem
  simp only [h1, h2]
  refine ⟨trivial, ?_⟩
  unfold GroupCall.next GOutcome.final
  cases (c.run g).stored with
  | none => exact h
  | some r =>
    refine ⟨dict_set_distinct m h.distinct _ _, fun n => ?_⟩
    show ((m.set c.name r).get? n).getD {} = if n = c.name then r else g n
    rw [dict_get_set]
    unfold upd
    split
    · rfl
    · exact h.same n

/-- **C67.** The library's sender key store in memory, which serialises a record whenever it is loaded, gives the same replies
as a store of records in every ordinary history of up to 2^26 calls, and holds the same records under distinct names; each of
them loads again. -/
theorem C67_store (hC : C.Lawful) (cs : List GroupCall) (hcs : OrdinaryGroup cs) (hN : cs.length ≤ 2 ^ 26) :
    GroupCall.repliesMem [] cs = GroupCall.replies GroupStore.empty cs ∧
    DistinctKeys (GroupCall.afterMem [] cs) ∧
    ∀ n, (GroupCall.afterMem [] cs).loadSenderKey n = .ok (GroupCall.after GroupStore.empty cs n) := by
  have key : ∀ (cs : List GroupCall) (m : MemSenderKeys) (g : GroupStore), MemHolds m g → (∀ n, (g n).Ok) → SmallGroups g cs →
      GroupCall.repliesMem m cs = GroupCall.replies g cs ∧ MemHolds (GroupCall.afterMem m cs) (GroupCall.after g cs) := by
    intro cs
    induction cs with
    | nil => exact fun m g h _ _ => ⟨rfl, h⟩
    | cons c cs ih =>
      intro m g h hok hs
      obtain ⟨h1, h2⟩ := memHolds_run h c (hok _) (hs 0 _)
      obtain ⟨h3, h4⟩ := ih _ _ h2 (fun n => recordStep_ok (hok n) (next_record g c n)) (fun k n => hs (k + 1) n)
      refine ⟨?_, h4⟩
      show (c.runMem m).1 :: GroupCall.repliesMem (c.runMem m).2 cs = (c.run g).result :: GroupCall.replies (c.next g) cs
      rw [h1, h3]
  have hsmall := smallGroups hC cs hcs hN
  obtain ⟨h1, h2⟩ := key cs [] GroupStore.empty ⟨List.nodup_nil, fun _ => rfl⟩ (fun _ s hs => by cases hs) hsmall
  refine ⟨h1, h2.distinct, fun n => memHolds_load h2 n (senderRecords_ok cs _ (fun _ s hs => by cases hs) n) ?_⟩
  have := hsmall cs.length n
  rw [List.take_length] at this
  exact this

end

/-! ## Non-vacuity -/

section
attribute [local instance] toy
open Example Spec

theorem Example.grpHistory_ordinary : OrdinaryGroup grpHistory := by
  have h : grpHistory.all (fun c => match c with
      | .encrypt _ pt _ => decide (pt.length < 1000)
      | .process _ m => decide (m.chainKey.length = 32) && decide (m.signatureKey.length = 32)
      | .create _ rnd => decide (rnd.senderKey.length = 32) && decide (rnd.signSeed.length = 32)
      | .decrypt _ _ => true) = true := by decide +kernel
  intro c hc
  have := List.all_eq_true.1 h c hc
  cases c with
  | encrypt n pt rand =>
    simp only [decide_eq_true_eq] at this
    exact ⟨(by show pt.length < 2 ^ 62; omega), trivial⟩
  | decrypt n b => exact ⟨trivial, trivial⟩
  | process n m =>
    simp only [Bool.and_eq_true, decide_eq_true_eq] at this
    exact ⟨(by show m.chainKey.length < 2 ^ 62; omega), this⟩
  | create n rnd =>
    simp only [Bool.and_eq_true, decide_eq_true_eq] at this
    exact ⟨⟨by omega, this.2⟩, this.1⟩

/-- `C67_store` and the others apply to the group history of C61. -/
example : GroupCall.repliesMem [] grpHistory = GroupCall.replies GroupStore.empty grpHistory :=
  (C67_store toy_lawful grpHistory grpHistory_ordinary (by decide +kernel)).1

/-- What it answers, on the store in memory. -/
example : (GroupCall.repliesMem [] grpHistory).map (fun x => match x with | .ok (.bytes b) => some b.length | .ok _ => none | .error _ => some 0) =
    [some 0, none, some 87, none, some 2, some 0, some 0, some 0, some 0, some 0] := by decide +kernel

/-- `C67_size`: states, keys kept and bytes as a member learns a sender key, skips a message, learns the key again and gets
the skipped message. -/
example : (List.range 5).map (fun k =>
      let r := GroupCall.after GroupStore.empty (([.process grp grpDist, .decrypt grp (grpMsg 1), .process grp grpDist,
        .decrypt grp (grpMsg 0)] : List GroupCall).take k) grp
      (r.senderKeyStates.length, keptSeeds r, r.serialize.length)) =
    [(0, 0, 0), (1, 0, 79), (1, 1, 117), (2, 1, 196), (2, 0, 158)] := by decide +kernel

/-- `C67_one_message`: one message makes the record of this group grow by 38 megabytes. -/
example : ∃ bs, ((GroupCall.decrypt grp bs).run (GroupCall.after GroupStore.empty [.create grp grpRand])).result =
      .ok (.bytes [1, 2, 3]) ∧
    38000000 ≤ (GroupCall.after GroupStore.empty ([.create grp grpRand] ++ [.decrypt grp bs]) grp).serialize.length := by
  have hord : OrdinaryGroup [.create grp grpRand] := by
    intro c hc
    rw [List.mem_singleton.1 hc]
    exact ⟨⟨by decide +kernel, by decide +kernel⟩, (by decide +kernel : grpRand.senderKey.length = 32)⟩
  have h0 : (stateFor (GroupCall.after GroupStore.empty [.create grp grpRand] grp) 77).map
      (fun s => (iterationOf s, (s.senderSigningKey.getD {}).pub)) = some (0, some (5 :: toy.genPub (key 92))) := by decide +kernel
  obtain ⟨s, h1, h2⟩ := Option.map_eq_some_iff.1 h0
  obtain ⟨h2, h3⟩ := Prod.mk.inj h2
  obtain ⟨bs, h4, h5⟩ := C67_one_message toy_lawful [.create grp grpRand] hord grp 77 s h1 (key 92) (toy_generated _ (by decide +kernel)) h3
    (by omega) 1000000 (by omega) (by omega) [1, 2, 3] (List.replicate 64 3) (by decide) (by decide)
  exact ⟨bs, h4, by omega⟩

end
end Axolotl
