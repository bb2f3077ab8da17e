import Verif.Proofs.Renewal
import Verif.Props.GroupForge

/-!
# C102: renewing sender keys

A record can hold states for several keys of a name.  Each key goes on as in C72, as if the name had no other; a new key keeps out
whoever has only old ones; but the members go on accepting messages under the old ones.
-/

namespace Axolotl
section
variable [C : Crypto]
open Spec ByteUtil
variable {M : Type} [DecidableEq M]

/-! ## From one key to the record -/

theorem view_decrypt {g g' : GroupStore} {n : SenderKeyName} {id : Nat} (h : g' n = { senderKeyStates := statesOf id (g n) })
    {b : Bytes} (hb : messageKeyId b = some id) (hne : (g' n).senderKeyStates ≠ []) :
    (GroupCipher.decrypt g n b).result = (GroupCipher.decrypt g' n b).result ∧
    (GroupCall.decrypt n b).next g' n = { senderKeyStates := statesOf id ((GroupCall.decrypt n b).next g n) } := by
  obtain ⟨m, h1, h2⟩ := messageKeyId_some hb
  have hne' : statesOf id (g n) ≠ [] := by rw [h] at hne; exact hne
  rcases decrypt_only h1 h2 hne' with ⟨e, r1, r2⟩ | ⟨pt, r', r1, r2, _⟩
  · have e1 : GroupCipher.decrypt g n b = ⟨none, GroupCipher.wrapInvalid (.error e)⟩ := by unfold GroupCipher.decrypt; rw [r1]
    have e2 : GroupCipher.decrypt g' n b = ⟨none, GroupCipher.wrapInvalid (.error e)⟩ := by unfold GroupCipher.decrypt; rw [h, r2]
    refine ⟨by rw [e1, e2], ?_⟩
    rw [next_decrypt_error (g := g) (by rw [e1]), next_decrypt_error (g := g') (by rw [e2]), h]
  · have e1 : GroupCipher.decrypt g n b = ⟨some r', .ok pt⟩ := by unfold GroupCipher.decrypt; rw [r1]
    have e2 : GroupCipher.decrypt g' n b = ⟨some { senderKeyStates := statesOf id r' }, .ok pt⟩ := by
      unfold GroupCipher.decrypt; rw [h, r2]
    refine ⟨by rw [e1, e2], ?_⟩
    rw [next_decrypt (g := g) (r := r') (by rw [e1]),
      next_decrypt (g := g') (r := { senderKeyStates := statesOf id r' }) (by rw [e2])]

/-- What is accepted with one key is under it. -/
theorem view_accepts {g g' : GroupStore} {n : SenderKeyName} {id : Nat} (h : g' n = { senderKeyStates := statesOf id (g n) })
    {b pt : Bytes} (hb : (GroupCipher.decrypt g' n b).result = .ok pt) :
    messageKeyId b = some id ∧ (g' n).senderKeyStates ≠ [] := by
  obtain ⟨msg, s, j, _, _, _, p1, p2, _⟩ := GroupCipher.decrypt_ok hb
  have hmem : s ∈ (g' n).senderKeyStates := List.mem_of_find?_eq_some (SenderKeyRecord.findState_ok p2).2.1
  have hsid : s.senderKeyId.getD 0 = msg.keyId := by
    have := List.find?_some (SenderKeyRecord.findState_ok p2).2.1
    simpa using this
  refine ⟨?_, List.ne_nil_of_mem hmem⟩
  rw [h] at hmem
  have := (List.mem_filter.1 hmem).2
  rw [messageKeyId_of p1, ← hsid]
  simpa using this

theorem view_refuses {g g' : GroupStore} {n : SenderKeyName} {id : Nat} (h : g' n = { senderKeyStates := statesOf id (g n) })
    {b : Bytes} (hb : messageKeyId b = some id) {e : Err} (hne : (g' n).senderKeyStates ≠ [])
    (he : GroupCipher.decrypt g' n b = ⟨none, .error e⟩) : GroupCipher.decrypt g n b = ⟨none, .error e⟩ := by
  have h1 := (view_decrypt h hb hne).1
  rw [he] at h1
  have h2 := GroupCipher.decrypt_error h1
  cases hd : GroupCipher.decrypt g n b with
  | mk s r =>
    rw [hd] at h1 h2
    rw [show s = none from h2, show r = .error e from h1]

omit C in
theorem heard_ofKey {m : M} {n : SenderKeyName} {id : Nat} {log : RoomLog M} {d : SenderKeyDistributionMessage} :
    d ∈ heardBy m n (ofKey n id log) ↔ d ∈ heardBy m n log ∧ d.id = id := by
  unfold heardBy ofKey
  rw [List.mem_filterMap, List.mem_filterMap]
  constructor
  · rintro ⟨e, he, hx⟩
    obtain ⟨he, hab⟩ := List.mem_filter.1 he
    refine ⟨⟨e, he, hx⟩, ?_⟩
    split at hx
    · rename_i h1 h2
      unfold About at hab
      rw [h1, h2] at hab
      split at hx
      · cases hx
        simp at hab
        exact hab.2
      · cases hx
    · cases hx
  · rintro ⟨⟨e, he, hx⟩, hid⟩
    refine ⟨e, List.mem_filter.2 ⟨he, ?_⟩, hx⟩
    split at hx
    · rename_i h1 h2
      unfold About
      rw [h1, h2]
      split at hx
      · rename_i hn
        cases hx
        simp [hn.2, hid]
      · cases hx
    · cases hx

omit C in
/-- What has been read under one key, in order. -/
theorem read_ofKey (m : M) (n : SenderKeyName) (id : Nat) (log : RoomLog M) :
    readBy m n (ofKey n id log) = (readBy m n log).filter fun p => messageKeyId p.1 = some id := by
  induction log with
  | nil => rfl
  | cons e log ih =>
    have h1 : readBy m n (e :: log) = readBy m n [e] ++ readBy m n log := by
      rw [← List.singleton_append]; unfold readBy; rw [List.filterMap_append]
    have h2 : ofKey n id (e :: log) = ofKey n id [e] ++ ofKey n id log := by
      rw [← List.singleton_append]; unfold ofKey; rw [List.filter_append]
    have h3 : readBy m n (ofKey n id [e] ++ ofKey n id log) = readBy m n (ofKey n id [e]) ++ readBy m n (ofKey n id log) := by
      unfold readBy; rw [List.filterMap_append]
    rw [h1, h2, h3, List.filter_append, ih]
    congr 1
    have h4 : ofKey n id [e] = if About n id e then [e] else [] := by
      unfold ofKey
      cases h : About n id e <;> simp [h]
    rw [h4]
    cases hr : readBy m n [e] with
    | nil => split <;> first | exact hr | rfl
    | cons p l =>
      unfold readBy at hr
      rw [List.filterMap_cons, List.filterMap_nil] at hr
      split at hr
      · cases hr
      · rename_i q hq
        cases hr
        split at hq
        · rename_i n' b pt e1 e2
          split at hq
          · rename_i hn
            cases hq
            have ha : About n id e = decide (messageKeyId b = some id) := by
              unfold About
              rw [e1, e2]
              simp [hn.2]
            rw [ha]
            by_cases hb : messageKeyId b = some id
            · rw [if_pos (by simp [hb]), List.filter_cons_of_pos (by simp [hb])]
              unfold readBy
              rw [List.filterMap_cons, e1, e2]
              simp [hn]
            · rw [if_neg (by simp [hb]), List.filter_cons_of_neg (by simp [hb])]
              rfl
          · cases hq
        · cases hq

/-! ## C102 -/

/-- **C102.** As far as the members can see, each safe key of a name is the only one: what has happened with it, and what the members'
records hold for it, is what can come about in a group where names are not given new keys (C72), whatever others have been able to sign
and compute with other keys of the name. -/
theorem C102_each (hC : C.Lawful) (owner : SenderKeyName → M) (safe : SenderKeyName → Nat → Prop) (S : M → GroupStore) (log : RoomLog M)
    (h : RenewReach owner safe S log)
    (n : SenderKeyName) (id : Nat) (hsafe : safe n id) :
    ∃ V, RoomReach owner V (ofKey n id log) ∧ ∀ m, m ≠ owner n → V m n = { senderKeyStates := statesOf id (S m n) } := by
  obtain ⟨V, hV⟩ := (h.inv hC n).view id hsafe
  exact ⟨V, hV.reach, hV.member⟩

/-- **C102.** Every message and announcement is under some key, so nothing that succeeds falls outside. -/
theorem C102_some_key (hC : C.Lawful) (owner : SenderKeyName → M) (safe : SenderKeyName → Nat → Prop) (S : M → GroupStore) (log : RoomLog M)
    (h : RenewReach owner safe S log)
    (n : SenderKeyName) : (∀ x ∈ sentUnder n log, ∃ id, x ∈ sentUnder n (ofKey n id log)) ∧
      (∀ d, Announced n log d → ∃ k, AnnouncedAt n (ofKey n d.id log) k d) ∧
      ∀ m, ∀ d ∈ heardBy m n log, d ∈ heardBy m n (ofKey n d.id log) := by
  refine ⟨fun x hx => ?_, fun d hd => announced_ofKey hd, fun m d hd => heard_ofKey.2 ⟨hd, rfl⟩⟩
  obtain ⟨_, d, _, hid⟩ := (h.inv hC n).sent x hx
  exact ⟨d.id, sent_ofKey.2 ⟨hx, hid⟩⟩

/-- **C102.** Assuming less about other keys changes nothing. -/
theorem C102_weaken (owner : SenderKeyName → M) (safe safe' : SenderKeyName → Nat → Prop) (S : M → GroupStore) (log : RoomLog M)
    (h : RenewReach owner safe S log) (hs : ∀ n id, safe' n id → safe n id) : RenewReach owner safe' S log := by
  induction h with
  | start => exact .start
  | @call S log m c _ ha ih =>
    refine .call m c ih ?_
    cases c with
    | decrypt n b => exact fun x id h1 h2 h3 => ha x id h1 h2 (hs n id h3)
    | create n rnd => exact ha
    | process n d => exact ha
    | encrypt n pt rand => exact ha
  | renew n rnd _ h1 h2 h3 h4 ih => exact .renew n rnd ih h1 h2 h3 h4

/-- **C102.** A member reads every message sent under a key after the announcement of this key that it took up first, in any order,
whatever other keys the name has had before or since. -/
theorem C102_read (hC : C.Lawful) (owner : SenderKeyName → M) (safe : SenderKeyName → Nat → Prop) (S : M → GroupStore) (log : RoomLog M)
    (h : RenewReach owner safe S log)
    (n : SenderKeyName) (id : Nat) (hsafe : safe n id) (m : M) (hm : m ≠ owner n) (d : SenderKeyDistributionMessage)
    (rest : List SenderKeyDistributionMessage) (hd : heardBy m n (ofKey n id log) = d :: rest) (k : Nat)
    (hk : AnnouncedAt n (ofKey n id log) k d) (i : Nat) (x : GroupSent) (hx : (sentUnder n (ofKey n id log))[i]? = some x) (hi : k ≤ i)
    (hnew : ∀ p ∈ readBy m n log, ¬ SameBody p.1 x.bytes) :
    (GroupCipher.decrypt (S m) n x.bytes).result = .ok x.plaintext := by
  obtain ⟨V, hV, hm'⟩ := C102_each hC owner safe S log h n id hsafe
  have key := C72_read hC owner V _ hV n m hm d rest hd k hk i x hx hi fun p hp => by
    rw [read_ofKey] at hp
    exact hnew p (List.mem_filter.1 hp).1
  obtain ⟨q1, q2⟩ := view_accepts (hm' m hm) key
  rw [(view_decrypt (hm' m hm) q1 q2).1]
  exact key

/-- **C102.** A message from before the announcement that the member took up first for the key is a duplicate. -/
theorem C102_before (hC : C.Lawful) (owner : SenderKeyName → M) (safe : SenderKeyName → Nat → Prop) (S : M → GroupStore) (log : RoomLog M)
    (h : RenewReach owner safe S log)
    (n : SenderKeyName) (id : Nat) (hsafe : safe n id) (m : M) (hm : m ≠ owner n) (d : SenderKeyDistributionMessage)
    (rest : List SenderKeyDistributionMessage) (hd : heardBy m n (ofKey n id log) = d :: rest) (k : Nat)
    (hk : AnnouncedAt n (ofKey n id log) k d) (i : Nat) (x : GroupSent) (hx : (sentUnder n (ofKey n id log))[i]? = some x) (hi : i < k) :
    GroupCipher.decrypt (S m) n x.bytes = ⟨none, .error .duplicateMessage⟩ := by
  obtain ⟨V, hV, hm'⟩ := C102_each hC owner safe S log h n id hsafe
  have key := C72_before hC owner V _ hV n m hm d rest hd k hk i x hx hi
  refine view_refuses (hm' m hm) (sent_ofKey.1 (List.mem_of_getElem? hx)).2 (fun q => ?_) key
  unfold GroupCipher.decrypt GroupCipher.decryptWithRecord at key
  rw [if_pos ((isEmpty_iff _).2 q)] at key
  cases key

theorem Spec.RenewReach.sent_long (hC : C.Lawful) {owner : SenderKeyName → M} {safe : SenderKeyName → Nat → Prop} {S : M → GroupStore} {log : RoomLog M}
    (h : RenewReach owner safe S log) {n : SenderKeyName} {x : GroupSent} (hx : x ∈ sentUnder n log) :
    64 < x.bytes.length ∧ ∃ msg, SenderKeyMessage.parse x.bytes = .ok msg := by
  obtain ⟨hl, d, _, hid⟩ := (h.inv hC n).sent x hx
  obtain ⟨msg, h1, _⟩ := messageKeyId_some hid
  exact ⟨hl, msg, h1⟩

/-- **C102.** What a member reads, genuine or not, is under a key of which it has taken up an announcement. -/
theorem C102_told (hC : C.Lawful) (owner : SenderKeyName → M) (safe : SenderKeyName → Nat → Prop) (S : M → GroupStore) (log : RoomLog M)
    (h : RenewReach owner safe S log) (n : SenderKeyName) (m : M) (hm : m ≠ owner n) (p : Bytes × Bytes) (hp : p ∈ readBy m n log) :
    ∃ d ∈ heardBy m n log, messageKeyId p.1 = some d.id ∧ Announced n log d := by
  have app : ∀ (l l' : RoomLog M), readBy m n (l ++ l') = readBy m n l ++ readBy m n l' := by
    intro l l'; unfold readBy; rw [List.filterMap_append]
  suffices ∃ d ∈ heardBy m n log, messageKeyId p.1 = some d.id by
    obtain ⟨d, h1, h2⟩ := this
    exact ⟨d, h1, h2, (h.inv hC n).told m d h1⟩
  induction h with
  | start => cases hp
  | @call S log m' c h ha ih =>
    rw [log_heard_append]
    rw [app] at hp
    rcases List.mem_append.1 hp with hp | hp
    · obtain ⟨d, h1, h2⟩ := ih hp
      exact ⟨d, List.mem_append_left _ h1, h2⟩
    · unfold readBy at hp
      obtain ⟨e, he, hx⟩ := List.mem_filterMap.1 hp
      rw [List.mem_singleton.1 he] at hx
      split at hx
      · rename_i n' b pt h1 h2
        simp only at h1 h2
        subst h1
        split at hx
        · rename_i hn
          obtain ⟨hn1, rfl⟩ := hn
          simp only at hn1
          subst hn1
          cases hx
          rw [run_decrypt] at h2
          unfold GroupCall.mapG at h2
          cases hr : (GroupCipher.decrypt (S m') n' b).result with
          | error e => rw [hr] at h2; cases h2
          | ok q =>
            obtain ⟨msg, s, j, s', _, _, p1, p2, _⟩ := GroupCipher.decrypt_ok hr
            obtain ⟨hmem, hsid⟩ : s ∈ (S m' n').senderKeyStates ∧ s.senderKeyId.getD 0 = msg.keyId := by
              have hf := SenderKeyRecord.findState_ok p2
              refine ⟨List.mem_of_find?_eq_some hf.2.1, ?_⟩
              have := List.find?_some hf.2.1
              simpa using this
            apply Classical.byContradiction
            intro hno
            have hnil := ((h.inv hC n').held m' hm msg.keyId).2 fun d hd hid =>
              hno ⟨d, List.mem_append_left _ hd, by rw [hid]; exact messageKeyId_of p1⟩
            have : s ∈ statesOf msg.keyId (S m' n') := List.mem_filter.2 ⟨hmem, by simp [hsid]⟩
            rw [hnil] at this
            cases this
        · cases hx
      · cases hx
  | @renew S log n' rnd h _ _ _ _ ih =>
    rw [log_heard_append]
    rw [app] at hp
    rcases List.mem_append.1 hp with hp | hp
    · obtain ⟨d, h1, h2⟩ := ih hp
      exact ⟨d, List.mem_append_left _ h1, h2⟩
    · unfold readBy at hp
      obtain ⟨e, he, hx⟩ := List.mem_filterMap.1 hp
      rw [List.mem_singleton.1 he] at hx
      cases hx

/-- What has been read parses. -/
theorem Spec.RenewReach.read_parses {owner : SenderKeyName → M} {safe : SenderKeyName → Nat → Prop} {S : M → GroupStore} {log : RoomLog M}
    (h : RenewReach owner safe S log) {m : M} {n : SenderKeyName} {p : Bytes × Bytes} (hp : p ∈ readBy m n log) :
    ∃ msg, SenderKeyMessage.parse p.1 = .ok msg := by
  have app : ∀ (l l' : RoomLog M), readBy m n (l ++ l') = readBy m n l ++ readBy m n l' := by
    intro l l'; unfold readBy; rw [List.filterMap_append]
  induction h with
  | start => cases hp
  | @call S log m' c h ha ih =>
    rw [app] at hp
    rcases List.mem_append.1 hp with hp | hp
    · exact ih hp
    · unfold readBy at hp
      obtain ⟨e, he, hx⟩ := List.mem_filterMap.1 hp
      rw [List.mem_singleton.1 he] at hx
      split at hx
      · rename_i n' b pt h1 h2
        simp only at h1 h2
        subst h1
        split at hx
        · cases hx
          rw [run_decrypt] at h2
          unfold GroupCall.mapG at h2
          cases hr : (GroupCipher.decrypt (S m') n' b).result with
          | error e => rw [hr] at h2; cases h2
          | ok q =>
            obtain ⟨msg, _, _, _, _, _, p1, _⟩ := GroupCipher.decrypt_ok hr
            exact ⟨msg, p1⟩
        · cases hx
      · cases hx
  | @renew S log n' rnd h _ _ _ _ ih =>
    rw [app] at hp
    rcases List.mem_append.1 hp with hp | hp
    · exact ih hp
    · unfold readBy at hp
      obtain ⟨e, he, hx⟩ := List.mem_filterMap.1 hp
      rw [List.mem_singleton.1 he] at hx
      cases hx

/-- **C102.** Whatever a member reads under a safe key was sent by the owner of the name, with this plaintext, and the member had
processed an announcement of this key made before the message; the owner reads nothing under it. -/
theorem C102_genuine (hC : C.Lawful) (owner : SenderKeyName → M) (safe : SenderKeyName → Nat → Prop) (S : M → GroupStore) (log : RoomLog M)
    (h : RenewReach owner safe S log) (n : SenderKeyName) (id : Nat) (hsafe : safe n id) (m : M) (p : Bytes × Bytes)
    (hp : p ∈ readBy m n log) (hid : messageKeyId p.1 = some id) :
    m ≠ owner n ∧ ∃ (i k : Nat) (x : GroupSent) (d : SenderKeyDistributionMessage) (rest : List SenderKeyDistributionMessage),
      (sentUnder n (ofKey n id log))[i]? = some x ∧ SameBody p.1 x.bytes ∧ p.2 = x.plaintext ∧
      heardBy m n (ofKey n id log) = d :: rest ∧ AnnouncedAt n (ofKey n id log) k d ∧ k ≤ i := by
  obtain ⟨V, hV, _⟩ := C102_each hC owner safe S log h n id hsafe
  have hp' : p ∈ readBy m n (ofKey n id log) := by
    rw [read_ofKey]
    exact List.mem_filter.2 ⟨hp, by simp [hid]⟩
  exact C72_genuine hC owner V _ hV n m p hp'

/-- **C102.** Nothing is read twice: what has been read under a safe key is a duplicate from then on, also after later renewals. -/
theorem C102_again (hC : C.Lawful) (owner : SenderKeyName → M) (safe : SenderKeyName → Nat → Prop) (S : M → GroupStore) (log : RoomLog M)
    (h : RenewReach owner safe S log) (n : SenderKeyName) (id : Nat) (hsafe : safe n id) (m : M) (p : Bytes × Bytes)
    (hp : p ∈ readBy m n log) (x : GroupSent) (hx : x ∈ sentUnder n (ofKey n id log)) (hpx : SameBody p.1 x.bytes) :
    GroupCipher.decrypt (S m) n x.bytes = ⟨none, .error .duplicateMessage⟩ := by
  obtain ⟨hx', hxid⟩ := sent_ofKey.1 hx
  obtain ⟨hl, mx, hmx⟩ := h.sent_long hC hx'
  obtain ⟨msg, hmsg⟩ := h.read_parses hp
  have hid : messageKeyId p.1 = some id := by
    rw [messageKeyId_of hmsg, (hpx.symm.parse hl hmx hmsg).1, ← messageKeyId_of hmx, hxid]
  obtain ⟨V, hV, hm'⟩ := C102_each hC owner safe S log h n id hsafe
  have hp' : p ∈ readBy m n (ofKey n id log) := by
    rw [read_ofKey]
    exact List.mem_filter.2 ⟨hp, by simp [hid]⟩
  have hm := (C102_genuine hC owner safe S log h n id hsafe m p hp hid).1
  have key := C72_again hC owner V _ hV n m p hp' x hx hpx
  refine view_refuses (hm' m hm) hxid (fun q => ?_) key
  unfold GroupCipher.decrypt GroupCipher.decryptWithRecord at key
  rw [if_pos ((isEmpty_iff _).2 q)] at key
  cases key

omit C in
theorem pairwise_classes {α β : Type} [DecidableEq β] (f : α → Option β) (R : α → α → Prop) : ∀ (l : List α),
    (∀ b, (l.filter fun a => f a = some b).Pairwise R) → (∀ a ∈ l, ∃ b, f a = some b) →
    (∀ a ∈ l, ∀ a' ∈ l, f a ≠ f a' → R a a') → l.Pairwise R
  | [], _, _, _ => .nil
  | a :: l, h1, h2, h3 => by
    refine List.pairwise_cons.2 ⟨fun a' ha' => ?_, pairwise_classes f R l (fun b => ?_) (fun x hx => h2 x (List.mem_cons_of_mem _ hx))
      (fun x hx y hy => h3 x (List.mem_cons_of_mem _ hx) y (List.mem_cons_of_mem _ hy))⟩
    · by_cases hf : f a = f a'
      · obtain ⟨b, hb⟩ := h2 a List.mem_cons_self
        have := h1 b
        rw [List.filter_cons_of_pos (by simp [hb])] at this
        exact (List.pairwise_cons.1 this).1 a' (List.mem_filter.2 ⟨ha', by simp [← hf, hb]⟩)
      · exact h3 a List.mem_cons_self a' (List.mem_cons_of_mem _ ha') hf
    · have := h1 b
      rw [List.filter_cons] at this
      split at this
      · exact (List.pairwise_cons.1 this).2
      · exact this

/-- **C102.** No two of the things a member has read are the same message under a safe key. -/
theorem C102_once (hC : C.Lawful) (owner : SenderKeyName → M) (safe : SenderKeyName → Nat → Prop) (S : M → GroupStore) (log : RoomLog M)
    (h : RenewReach owner safe S log) (n : SenderKeyName) (m : M) :
    (readBy m n log).Pairwise fun p q => ∀ id, messageKeyId p.1 = some id → safe n id → ¬ SameBody p.1 q.1 := by
  refine pairwise_classes (fun p => messageKeyId p.1) _ _ (fun id => ?_) (fun p hp => ?_) (fun p hp q hq hne id hid hsafe hs => hne ?_)
  · by_cases hsafe : safe n id
    · obtain ⟨V, hV, _⟩ := C102_each hC owner safe S log h n id hsafe
      have := C72_once hC owner V _ hV n m
      rw [read_ofKey] at this
      exact this.imp fun q _ _ _ => q
    · refine List.Pairwise.imp_of_mem (R := fun _ _ => True) ?_ (List.pairwise_of_forall fun _ _ => trivial)
      intro p q hp _ _ id' hid' hsafe'
      have := (List.mem_filter.1 hp).2
      simp only [decide_eq_true_eq] at this
      rw [this] at hid'
      cases hid'
      exact absurd hsafe' hsafe
  · obtain ⟨msg, hmsg⟩ := h.read_parses hp
    exact ⟨_, messageKeyId_of hmsg⟩
  · obtain ⟨mp, hmp⟩ := h.read_parses hp
    obtain ⟨mq, hmq⟩ := h.read_parses hq
    obtain ⟨_, i, _, x, _, _, hx, hb, _⟩ := C102_genuine hC owner safe S log h n id hsafe m p hp hid
    have hl := (h.sent_long hC (sent_ofKey.1 (List.mem_of_getElem? hx)).1).1
    rw [messageKeyId_of hmp, messageKeyId_of hmq, (hs.parse (by rw [hb.length]; exact hl) hmp hmq).1]

omit C in
theorem statesOf_none {id : Nat} {r : SenderKeyRecord} (h : statesOf id r = []) : r.getStateById id = .error .invalidKeyId := by
  rcases findState_filter id r.senderKeyStates with ⟨e, h1, _⟩ | ⟨s, j, h1, h2, _⟩
  · have := (SenderKeyRecord.findState_error h1).1
    subst this
    exact h1
  · have h : r.senderKeyStates.filter (fun s => s.senderKeyId.getD 0 == id) = [] := h
    rw [h] at h2
    cases h2

theorem decrypt_no_key {g : GroupStore} {n : SenderKeyName} {id : Nat} {b : Bytes} (hb : messageKeyId b = some id)
    (h : statesOf id (g n) = []) :
    GroupCipher.decrypt g n b = ⟨none, .error (if (g n).senderKeyStates = [] then .noSession else .invalidMessage)⟩ := by
  obtain ⟨msg, h1, h2⟩ := messageKeyId_some hb
  unfold GroupCipher.decrypt GroupCipher.decryptWithRecord
  by_cases he : (g n).senderKeyStates = []
  · rw [if_pos ((isEmpty_iff _).2 he), if_pos he]
    rfl
  · rw [if_neg (fun q => he ((isEmpty_iff _).1 q)), if_neg he]
    simp only [h1, ok_bind, h2, statesOf_none h]
    rfl

/-- A member has states for a name exactly if it has processed an announcement. -/
theorem Spec.RenewReach.states_iff (hC : C.Lawful) {owner : SenderKeyName → M} {safe : SenderKeyName → Nat → Prop} {S : M → GroupStore} {log : RoomLog M}
    (h : RenewReach owner safe S log) (n : SenderKeyName) (m : M) (hm : m ≠ owner n) :
    (S m n).senderKeyStates = [] ↔ heardBy m n log = [] := by
  have hheld := (h.inv hC n).held m hm
  constructor
  · intro q
    cases hh : heardBy m n log with
    | nil => rfl
    | cons d rest =>
      refine absurd rfl ((hheld d.id).1 ?_ d (by rw [hh]; simp))
      unfold statesOf
      rw [q]; rfl
  · intro q
    cases hs : (S m n).senderKeyStates with
    | nil => rfl
    | cons s l =>
      exfalso
      have := (hheld (s.senderKeyId.getD 0)).2 (by rw [q]; intro d hd; cases hd)
      have hmem : s ∈ statesOf (s.senderKeyId.getD 0) (S m n) := List.mem_filter.2 ⟨by rw [hs]; simp, by simp⟩
      rw [this] at hmem
      cases hmem

/-- **C102.** A member who has not processed an announcement of a key reads nothing that is sent under it, whatever other keys of the
name it has, and nothing is stored. -/
theorem C102_unheard (hC : C.Lawful) (owner : SenderKeyName → M) (safe : SenderKeyName → Nat → Prop) (S : M → GroupStore) (log : RoomLog M)
    (h : RenewReach owner safe S log)
    (n : SenderKeyName) (id : Nat) (m : M) (hm : m ≠ owner n) (hd : heardBy m n (ofKey n id log) = []) (b : Bytes)
    (hb : messageKeyId b = some id) : GroupCipher.decrypt (S m) n b =
      ⟨none, .error (if heardBy m n log = [] then .noSession else .invalidMessage)⟩ := by
  have hnil : statesOf id (S m n) = [] := by
    refine ((h.inv hC n).held m hm id).2 fun d hd' hid => ?_
    have := heard_ofKey.2 ⟨hd', hid⟩
    rw [hd] at this
    cases this
  rw [decrypt_no_key hb hnil]
  by_cases q : heardBy m n log = []
  · rw [if_pos q, if_pos ((h.states_iff hC n m hm).2 q)]
  · rw [if_neg q, if_neg (fun r => q ((h.states_iff hC n m hm).1 r))]

omit C [DecidableEq M] in
/-- There is one last announcement. -/
theorem last_unique {n : SenderKeyName} {log : RoomLog M} {d d' : SenderKeyDistributionMessage} (h : LastAnnounced n log d)
    (h' : LastAnnounced n log d') : d = d' := by
  obtain ⟨pre, e, post, rnd, d0, h1, h2, h3, h4, h5⟩ := h
  obtain ⟨pre', e', post', rnd', d0', h1', h2', h3', h4', h5'⟩ := h'
  rw [h1] at h1'
  rcases List.append_eq_append_iff.1 h1' with ⟨as, q1, q2⟩ | ⟨as, q1, q2⟩
  · cases as with
    | nil =>
      cases q2
      rw [h3] at h3'
      cases h3'
      exact Except.ok.inj (h4.symm.trans h4')
    | cons a as =>
      obtain ⟨rfl, q3⟩ := List.cons.inj q2
      exact absurd ⟨e', by rw [q3]; simp, rnd', d0', h2', h3', h4'⟩ (h5 d')
  · cases as with
    | nil =>
      cases q2
      rw [h3] at h3'
      cases h3'
      exact Except.ok.inj (h4.symm.trans h4')
    | cons a as =>
      obtain ⟨rfl, q3⟩ := List.cons.inj q2
      exact absurd ⟨e, by rw [q3]; simp, rnd, d0, h2, h3, h4⟩ (h5' d)

theorem Spec.RenewReach.current (hC : C.Lawful) {owner : SenderKeyName → M} {safe : SenderKeyName → Nat → Prop} {S : M → GroupStore} {log : RoomLog M}
    (h : RenewReach owner safe S log) {n : SenderKeyName} {d : SenderKeyDistributionMessage} (hd : LastAnnounced n log d) :
    ∃ s, S (owner n) n = { senderKeyStates := [s] } ∧ s.senderKeyId.getD 0 = d.id ∧
      (safe n d.id → ∃ V, RoomReach owner V (ofKey n d.id log) ∧ V (owner n) n = S (owner n) n) ∧
      ∃ k, AnnouncedAt n (ofKey n d.id log) k d := by
  rcases (h.inv hC n).own with ⟨_, q⟩ | ⟨s, q1, _, d', q2, q3⟩
  · exact absurd (last_announced hd) (q d)
  · rw [last_unique q2 hd] at q3
    refine ⟨s, q1, q3.symm, fun hsafe => ?_, announced_ofKey (last_announced hd)⟩
    obtain ⟨V, hV⟩ := (h.inv hC n).view d.id hsafe
    exact ⟨V, hV.reach, hV.current s q1 q3.symm⟩

/-- **C102.** The owner's own messages are not read by the owner: they are duplicates, or under a key the owner no longer has. -/
theorem C102_owner (hC : C.Lawful) (owner : SenderKeyName → M) (safe : SenderKeyName → Nat → Prop) (S : M → GroupStore) (log : RoomLog M)
    (h : RenewReach owner safe S log)
    (n : SenderKeyName) (d : SenderKeyDistributionMessage) (hd : LastAnnounced n log d) (x : GroupSent) (hx : x ∈ sentUnder n log)
    (hsafe : messageKeyId x.bytes = some d.id → safe n d.id) :
    GroupCipher.decrypt (S (owner n)) n x.bytes =
      ⟨none, .error (if messageKeyId x.bytes = some d.id then .duplicateMessage else .invalidMessage)⟩ := by
  obtain ⟨s, h1, h2, hV, k, h5⟩ := h.current hC hd
  by_cases q : messageKeyId x.bytes = some d.id
  · obtain ⟨V, h3, h4⟩ := hV (hsafe q)
    rw [if_pos q, ← decrypt_congr h4]
    exact C72_owner hC owner V _ h3 n x (sent_ofKey.2 ⟨hx, q⟩)
  · rw [if_neg q]
    obtain ⟨_, d', _, hid⟩ := (h.inv hC n).sent x hx
    rw [decrypt_no_key hid (by
      unfold statesOf
      rw [h1, List.filter_cons_of_neg, List.filter_nil]
      simp only [h2, beq_iff_eq]
      intro r
      exact q (by rw [r]; exact hid)), h1]
    rw [if_neg (by simp)]

/-- **C102.** The owner can always send, under the key announced last; the messages under a key are numbered from 0. -/
theorem C102_send (hC : C.Lawful) (owner : SenderKeyName → M) (safe : SenderKeyName → Nat → Prop) (S : M → GroupStore) (log : RoomLog M)
    (h : RenewReach owner safe S log)
    (n : SenderKeyName) (d : SenderKeyDistributionMessage) (hd : LastAnnounced n log d) (hsafe : safe n d.id)
    (hroom : (sentUnder n (ofKey n d.id log)).length + 1 < 2 ^ 32) (pt rand : Bytes) (hpt : pt.length < 2 ^ 62)
    (hrand : rand.length = 64) :
    ∃ b msg, (GroupCipher.encrypt (S (owner n)) n pt rand).result = .ok b ∧ SenderKeyMessage.parse b = .ok msg ∧ msg.keyId = d.id ∧
      msg.iteration = (sentUnder n (ofKey n d.id log)).length := by
  obtain ⟨s, h1, h2, hV, k, h5⟩ := h.current hC hd
  obtain ⟨V, h3, h4⟩ := hV hsafe
  obtain ⟨b, hb⟩ := C72_send hC owner V _ h3 n k d h5 hroom pt rand hpt hrand
  rw [encrypt_congr h4] at hb
  obtain ⟨s', msg, p1, p2, p3, p4, _⟩ := encrypt_parses hC hpt hrand hb
  obtain ⟨d0, q⟩ := h3.running hC h5
  obtain ⟨s1, q1, q2⟩ := q.own
  rw [h4] at q1
  have hs : s' = s1 := Option.some.inj (p1.symm.trans q1)
  have hs' : s' = s := by rw [h1] at p1; exact (Option.some.inj p1).symm
  refine ⟨b, msg, hb, p2, ?_, ?_⟩
  · rw [p3, hs', h2]
  · rw [p4, hs, q2.pos]

/-- **C102.** Only the owner of a name can send under it. -/
theorem C102_only_owner (hC : C.Lawful) (owner : SenderKeyName → M) (safe : SenderKeyName → Nat → Prop) (S : M → GroupStore) (log : RoomLog M)
    (h : RenewReach owner safe S log)
    (n : SenderKeyName) (m : M) (hm : m ≠ owner n) (pt rand b : Bytes) (hpt : pt.length < 2 ^ 62) (hrand : rand.length = 64) :
    (GroupCipher.encrypt (S m) n pt rand).result ≠ .ok b := by
  intro hb
  obtain ⟨s, msg, p1, _, _, _, _, p4, _⟩ := encrypt_parses hC hpt hrand hb
  rw [(h.inv hC n).priv m hm s (by
    unfold sendingState at p1
    exact List.mem_of_mem_head? p1)] at p4
  cases p4

/-- Nothing is held for a key that has not been announced. -/
theorem Spec.RenewReach.not_yet (hC : C.Lawful) {owner : SenderKeyName → M} {safe : SenderKeyName → Nat → Prop} {S : M → GroupStore} {log : RoomLog M}
    (h : RenewReach owner safe S log) {n : SenderKeyName} {id : Nat} (hid : ∀ d, Announced n log d → d.id ≠ id) :
    (∀ m, statesOf id (S m n) = []) ∧ sentUnder n (ofKey n id log) = [] := by
  refine ⟨fun m => ?_, ?_⟩
  · by_cases hm : m = owner n
    · subst hm
      rcases (h.inv hC n).own with ⟨q, _⟩ | ⟨s, q1, _, d, q2, q3⟩
      · rw [q]; rfl
      · unfold statesOf
        rw [q1, List.filter_cons_of_neg, List.filter_nil]
        simp only [beq_iff_eq]
        intro r
        exact hid d (last_announced q2) (q3.trans r)
    · exact ((h.inv hC n).held m hm id).2 fun d hd => hid d ((h.inv hC n).told m d hd)
  · cases hq : sentUnder n (ofKey n id log) with
    | nil => rfl
    | cons x l =>
      obtain ⟨h1, h2⟩ := sent_ofKey.1 (show x ∈ sentUnder n (ofKey n id log) by rw [hq]; simp)
      obtain ⟨_, d, h3, h4⟩ := (h.inv hC n).sent x h1
      rw [h4] at h2
      exact absurd (Option.some.inj h2) (hid d h3)

/-- **C102.** A renewal succeeds: the new key is announced, no message has been sent under it, and nobody else has a state for it. -/
theorem C102_renew (hC : C.Lawful) (owner : SenderKeyName → M) (safe : SenderKeyName → Nat → Prop) (S : M → GroupStore) (log : RoomLog M)
    (h : RenewReach owner safe S log)
    (n : SenderKeyName) (rnd : GroupSessionBuilder.CreateRand) (hs : rnd.senderKey.length = 32) (hg : rnd.signSeed.length = 32)
    (hk : rnd.keyId < 2 ^ 32) (hnew : ∀ d, Announced n log d → d.id ≠ rnd.keyId) :
    ∃ d, ((GroupCall.create n rnd).run (emptied (S (owner n)) n)).result = .ok (.distribution d) ∧
      SenderKeyDistributionMessage.parse d.serialized = .ok d ∧ d.id = rnd.keyId ∧
      (GroupCall.create n rnd).next (emptied (S (owner n)) n) n = { senderKeyStates := [createdState rnd] } ∧
      LastAnnounced n (log ++ [⟨owner n, .create n rnd, ((GroupCall.create n rnd).run (emptied (S (owner n)) n)).result⟩]) d ∧
      sentUnder n (ofKey n rnd.keyId (log ++ [⟨owner n, .create n rnd, .ok (.distribution d)⟩])) = [] ∧
      ∀ m, m ≠ owner n → statesOf rnd.keyId (S m n) = [] := by
  obtain ⟨d, q1, q2, q3, q4⟩ := created_announced hC (g := emptied (S (owner n)) n) (n := n) (rnd := rnd)
    (by simp [emptied, GroupStore.store]) hk hs hg
  refine ⟨d, q1, q2, q3, q4, ?_, ?_, fun m _ => (h.not_yet hC hnew).1 m⟩
  · refine ⟨log, _, [], rnd, d, rfl, rfl, q1, q2, fun d' hd => ?_⟩
    obtain ⟨_, hx, _⟩ := hd
    cases hx
  · rw [ofKey_snoc, log_sent_append, (h.not_yet hC hnew).2]
    split
    · rw [List.nil_append]
      exact sent_silent _ _ _ _ (fun _ _ q => by cases q)
    · rfl

/-! ## Theft -/

/-- **C102.** An attacker reads the records of the members in `T` at some moment, has announcements of a key and sees all messages
before and after this moment.  They can read a message under this key exactly if it was sent after an announcement they have, or the
record of one of these members opens it, going by what the member has done with this key; the owner's record opens nothing of a key
that has been replaced. -/
theorem C102_theft (hC : C.Lawful) (owner : SenderKeyName → M) (safe : SenderKeyName → Nat → Prop) (S S' : M → GroupStore)
    (log more : RoomLog M) (h : RenewReach owner safe S log) (h' : RenewReach owner safe S' (log ++ more)) (n : SenderKeyName) (id : Nat)
    (hsafe : safe n id)
    (T : M → Prop) (intercepted texts : Nat → Prop) (headers : Nat → Bytes) (d : SenderKeyDistributionMessage)
    (hd : AnnouncedAt n (ofKey n id log) 0 d) (i : Nat) (x : GroupSent)
    (hx : (sentUnder n (ofKey n id (log ++ more)))[i]? = some x) (ht : ¬ texts i) :
    GDerives ((groupTheft n (onlyKey n id S) T intercepted texts).Has headers (sentUnder n (ofKey n id (log ++ more))).length)
        (.text i) ↔
      (∃ k ≤ i, intercepted k) ∨
      ∃ m, (T m ∧ (m = owner n → ∃ e, LastAnnounced n log e ∧ e.id = id)) ∧ Exposes owner n (ofKey n id log) m i x.bytes := by
  obtain ⟨V, hV⟩ := (h.inv hC n).view id hsafe
  obtain ⟨V', hV'⟩ := (h'.inv hC n).view id hsafe
  have happ : ofKey n id (log ++ more) = ofKey n id log ++ ofKey n id more := by unfold ofKey; rw [List.filter_append]
  have hr' := hV'.reach
  rw [happ] at hr' hx ⊢
  have hstates : ∀ P : SenderKeyState → Prop,
      (∃ m s, T m ∧ s ∈ (onlyKey n id S m n).senderKeyStates ∧ P s) ↔
      ∃ m s, (T m ∧ (m = owner n → ∃ e, LastAnnounced n log e ∧ e.id = id)) ∧ s ∈ (V m n).senderKeyStates ∧ P s := by
    intro P
    have honly : ∀ m, (onlyKey n id S m n).senderKeyStates = statesOf id (S m n) := fun m => by unfold onlyKey; rw [if_pos rfl]
    constructor
    · rintro ⟨m, s, h1, h2, h3⟩
      rw [honly] at h2
      by_cases hm : m = owner n
      · subst hm
        obtain ⟨h2, hid⟩ := List.mem_filter.1 h2
        simp only [beq_iff_eq] at hid
        rcases (h.inv hC n).own with ⟨q, _⟩ | ⟨s', q1, _, e, q2, q3⟩
        · rw [q] at h2; cases h2
        · have hs : s = s' := by rw [q1] at h2; exact List.mem_singleton.1 h2
          subst hs
          refine ⟨owner n, s, ⟨h1, fun _ => ⟨e, q2, q3.trans hid⟩⟩, ?_, h3⟩
          rw [hV.current s q1 hid, q1]
          exact List.mem_singleton.2 rfl
      · exact ⟨m, s, ⟨h1, fun q => absurd q hm⟩, by rw [hV.member m hm]; exact h2, h3⟩
    · rintro ⟨m, s, ⟨h1, hc⟩, h2, h3⟩
      refine ⟨m, s, h1, ?_, h3⟩
      rw [honly]
      by_cases hm : m = owner n
      · subst hm
        obtain ⟨e, r1, r2⟩ := hc rfl
        rcases (h.inv hC n).own with ⟨_, q⟩ | ⟨s', q1, _, e', q2, q3⟩
        · exact absurd (last_announced r1) (q e)
        · have hid : s'.senderKeyId.getD 0 = id := by rw [← q3, last_unique q2 r1, r2]
          rw [hV.current s' q1 hid, q1] at h2
          have hs : s = s' := List.mem_singleton.1 h2
          subst hs
          exact List.mem_filter.2 ⟨by rw [q1]; exact List.mem_singleton.2 rfl, by simp [hid]⟩
      · rw [hV.member m hm] at h2
        exact h2
  have he : groupTheft n (onlyKey n id S) T intercepted texts =
      groupTheft n V (fun m => T m ∧ (m = owner n → ∃ e, LastAnnounced n log e ∧ e.id = id)) intercepted texts := by
    unfold groupTheft
    rw [GLeak.mk.injEq]
    exact ⟨funext fun k => propext (or_congr Iff.rfl (hstates _)), funext fun k => propext (hstates _), propext (hstates _), rfl⟩
  rw [he]
  exact C90_theft hC owner V V' _ _ hV.reach hr' n _ intercepted texts headers d hd i x hx ht

/-- **C102.** A renewal shuts everybody out: the records of all members and of the owner from before it, with all announcements of the
older keys, reveal no message, no message key and not the signing key of the new one; the only signatures under the new key that can be
computed are those seen. -/
theorem C102_healing (hC : C.Lawful) (owner : SenderKeyName → M) (safe : SenderKeyName → Nat → Prop) (S : M → GroupStore) (log : RoomLog M)
    (h : RenewReach owner safe S log) (n : SenderKeyName) (id : Nat) (hnew : ∀ d, Announced n log d → d.id ≠ id)
    (T : M → Prop) (texts : Nat → Prop) (headers : Nat → Bytes) (count : Nat) :
    (∀ i, GDerives ((groupTheft n (onlyKey n id S) T (fun _ => False) texts).Has headers count) (.text i) ↔ texts i) ∧
    (∀ i, ¬ GDerives ((groupTheft n (onlyKey n id S) T (fun _ => False) texts).Has headers count) (.keys i)) ∧
    (∀ i, ¬ GDerives ((groupTheft n (onlyKey n id S) T (fun _ => False) texts).Has headers count) (.chain i)) ∧
    ¬ GDerives ((groupTheft n (onlyKey n id S) T (fun _ => False) texts).Has headers count) .signing ∧
    ∀ t, GDerives ((groupTheft n (onlyKey n id S) T (fun _ => False) texts).Has headers count) (.sig t) ↔
      ∃ i < count, t = .body i (headers i) := by
  have hnone : ∀ m, (onlyKey n id S m n).senderKeyStates = [] := fun m => by
    unfold onlyKey
    rw [if_pos rfl]
    exact (h.not_yet hC hnew).1 m
  obtain ⟨e1, e2, e3, e4, e5⟩ := C90_exact (groupTheft n (onlyKey n id S) T (fun _ => False) texts) headers count
  have hch : ∀ k, ¬ (groupTheft n (onlyKey n id S) T (fun _ => False) texts).chains k := by
    rintro k (q | ⟨m, s, _, q, _⟩)
    · exact q
    · rw [hnone m] at q; cases q
  have hrd : ∀ i, ¬ (groupTheft n (onlyKey n id S) T (fun _ => False) texts).reads i := by
    rintro i (⟨m, s, _, q, _⟩ | ⟨k, _, q⟩)
    · rw [hnone m] at q; cases q
    · exact hch k q
  have hsg : ¬ (groupTheft n (onlyKey n id S) T (fun _ => False) texts).signing := by
    rintro ⟨m, s, _, q, _⟩
    rw [hnone m] at q; cases q
  refine ⟨fun i => ?_, fun i q => hrd i ((e2 i).1 q), fun i q => ?_, fun q => hsg (e4.1 q), fun t => ?_⟩
  · rw [e1 i]
    exact ⟨fun q => q.resolve_right fun r => hrd i r.2, .inl⟩
  · obtain ⟨k, _, q⟩ := (e3 i).1 q
    exact hch k q
  · rw [e5 t]
    exact ⟨fun q => q.resolve_right fun r => hsg r.1, .inl⟩

/-- **C102.** A renewal takes nothing back: whoever has the signing key and the keys of a message of an old key of the name goes on
sending as its owner.  They compute a message number `i` under the old key with a text of their own; each member accepts it who took up
an announcement of the old key made before and has not read message `i` of it, whichever keys it has taken up since; and refuses the
one of the owner afterwards. -/
theorem C102_no_revocation (hC : C.Lawful) (owner : SenderKeyName → M) (safe : SenderKeyName → Nat → Prop) (S : M → GroupStore) (log : RoomLog M)
    (h : RenewReach owner safe S log) (n : SenderKeyName) (id : Nat) (hsafe : safe n id) (m : M) (hm : m ≠ owner n) (dm : SenderKeyDistributionMessage)
    (rest : List SenderKeyDistributionMessage) (hdm : heardBy m n (ofKey n id log) = dm :: rest) (d : SenderKeyDistributionMessage)
    (hd : AnnouncedAt n (ofKey n id log) 0 d) (p : ECPriv) (hp : C.Generated p) (hpub : C.genPub p = d.signatureKey)
    (rand : Bytes → Bytes) (hrand : ∀ x, (rand x).length = 64) (headers : Nat → Bytes) (l : GLeak) (hsig : l.signing) (i : Nat)
    (hreads : l.reads i) (hi : dm.iteration ≤ i) (hfit : i + 1 < 2 ^ 32)
    (hnew : ∀ x, (sentUnder n (ofKey n id log))[i]? = some x → ∀ q ∈ readBy m n log, ¬ SameBody q.1 x.bytes)
    (text : Bytes) (ht : text.length < 2 ^ 62) :
    ∃ header, GDerives (l.Has headers (sentUnder n (ofKey n id log)).length) (GTerm.forged i header text) ∧
      (GroupCipher.decrypt (S m) n ((GTerm.forged i header text).value d.chainKey p (saidUnder n (ofKey n id log)) rand)).result =
        .ok text ∧
      ∀ x, (sentUnder n (ofKey n id log))[i]? = some x →
        GroupCipher.decrypt ((GroupCall.decrypt n
            ((GTerm.forged i header text).value d.chainKey p (saidUnder n (ofKey n id log)) rand)).next (S m)) n x.bytes =
          ⟨none, .error .duplicateMessage⟩ := by
  obtain ⟨V, hV, hm'⟩ := C102_each hC owner safe S log h n id hsafe
  obtain ⟨header, h1, h2, h3⟩ := C96_forge hC owner V _ hV n m hm dm rest hdm d hd p hp hpub rand hrand headers l hsig i hreads hi hfit
    (fun x hx q hq => hnew x hx q (by rw [read_ofKey] at hq; exact (List.mem_filter.1 hq).1)) text ht
  obtain ⟨q1, q2⟩ := view_accepts (hm' m hm) h2
  obtain ⟨q3, q4⟩ := view_decrypt (hm' m hm) q1 q2
  refine ⟨header, h1, by rw [q3]; exact h2, fun x hx => ?_⟩
  refine view_refuses q4 (sent_ofKey.1 (List.mem_of_getElem? hx)).2 (fun r => ?_) (h3 x hx)
  have := h3 x hx
  unfold GroupCipher.decrypt GroupCipher.decryptWithRecord at this
  rw [if_pos ((isEmpty_iff _).2 r)] at this
  cases this

end

/-! ## Non-vacuity: a renewal over the toy primitives -/

section
attribute [local instance] toy
open Example Spec

/-- The owner's second key. -/
def Example.newRand : GroupSessionBuilder.CreateRand := ⟨78, key 93, key 94⟩
def Example.newDist : SenderKeyDistributionMessage :=
  match (GroupSessionBuilder.create GroupStore.empty grp newRand).result with
  | .ok d => d
  | .error _ => ⟨[], 0, 0, [], []⟩
def Example.newMsg : Bytes :=
  match (GroupCipher.encrypt ((GroupCall.create grp newRand).next GroupStore.empty) grp [5] grpSig).result with
  | .ok b => b
  | .error _ => []

/-- Members 1 and 2 take up the first key; member 1 reads a message, another is sent; the owner (member 0) renews; only member 1 takes up
the new key and reads a message under it. -/
def Example.renewCalls : List ((Nat × GroupCall) ⊕ GroupSessionBuilder.CreateRand) :=
  [.inl (0, .create grp grpRand), .inl (1, .process grp grpDist), .inl (2, .process grp grpDist), .inl (0, .encrypt grp [1] grpSig),
   .inl (1, .decrypt grp (grpMsg 0)), .inl (0, .encrypt grp [2, 2] grpSig), .inr newRand, .inl (1, .process grp newDist),
   .inl (0, .encrypt grp [5] grpSig), .inl (1, .decrypt grp newMsg)]

def Example.renewStep (st : (Nat → GroupStore) × RoomLog Nat) : (Nat × GroupCall) ⊕ GroupSessionBuilder.CreateRand →
    (Nat → GroupStore) × RoomLog Nat
  | .inl c => (fun x => if x = c.1 then c.2.next (st.1 c.1) else st.1 x, st.2 ++ [⟨c.1, c.2, (c.2.run (st.1 c.1)).result⟩])
  | .inr rnd => (fun x => if x = 0 then (GroupCall.create grp rnd).next (emptied (st.1 0) grp) else st.1 x,
      st.2 ++ [⟨0, .create grp rnd, ((GroupCall.create grp rnd).run (emptied (st.1 0) grp)).result⟩])

def Example.renewRun (cs : List ((Nat × GroupCall) ⊕ GroupSessionBuilder.CreateRand)) : (Nat → GroupStore) × RoomLog Nat :=
  cs.foldl renewStep (fun _ => GroupStore.empty, [])

def Example.RenewOk (safe : SenderKeyName → Nat → Prop) (st : (Nat → GroupStore) × RoomLog Nat) : (Nat × GroupCall) ⊕ GroupSessionBuilder.CreateRand → Prop
  | .inl c => RenewAllowed roomOwner safe st.2 c.1 c.2 (c.2.run (st.1 c.1)).result
  | .inr rnd => rnd.senderKey.length = 32 ∧ rnd.signSeed.length = 32 ∧ rnd.keyId < 2 ^ 32 ∧
      ∀ d, Announced grp st.2 d → d.id ≠ rnd.keyId

theorem Example.renewRun_reach (safe : SenderKeyName → Nat → Prop) (cs : List ((Nat × GroupCall) ⊕ GroupSessionBuilder.CreateRand))
    (h : ∀ i (hi : i < cs.length), RenewOk safe (renewRun (cs.take i)) cs[i]) (i : Nat) (hi : i ≤ cs.length) :
    RenewReach roomOwner safe (renewRun (cs.take i)).1 (renewRun (cs.take i)).2 := by
  induction i with
  | zero => exact .start
  | succ i ih =>
    have hok := h i (by omega)
    have ih := ih (by omega)
    have e : renewRun (cs.take (i + 1)) = renewStep (renewRun (cs.take i)) cs[i] := by
      rw [List.take_succ_eq_append_getElem (by omega)]
      unfold renewRun
      rw [List.foldl_append]
      rfl
    rw [e]
    cases hc : cs[i] with
    | inl c =>
      rw [hc] at hok
      exact RenewReach.call c.1 c.2 ih hok
    | inr rnd =>
      rw [hc] at hok
      exact RenewReach.renew grp rnd ih hok.1 hok.2.1 hok.2.2.1 hok.2.2.2

theorem Example.announcedAt_announced {log : RoomLog Nat} {n : SenderKeyName} {k : Nat} {d : SenderKeyDistributionMessage}
    (h : AnnouncedAt n log k d) : Announced n log d := by
  obtain ⟨pre, e, post, rnd, d0, h1, h2, h3, h4, _⟩ := h
  exact ⟨e, by rw [h1]; simp, rnd, d0, h2, h3, h4⟩

theorem Example.unused_id {log : RoomLog Nat} {n : SenderKeyName} {id : Nat} (h : log.all (fun e => !About n id e) = true)
    (d : SenderKeyDistributionMessage) (hd : Announced n log d) : d.id ≠ id := by
  rintro rfl
  obtain ⟨e, he, q⟩ := hd
  have h1 := About.announced (⟨e, List.mem_singleton.2 rfl, q⟩ : Announced n [e] d)
  have h2 := List.all_eq_true.1 h e he
  rw [h1] at h2
  cases h2

theorem Example.renew_run (safe : SenderKeyName → Nat → Prop) (i : Nat) (hi : i ≤ 10) :
    RenewReach roomOwner safe (renewRun (renewCalls.take i)).1 (renewRun (renewCalls.take i)).2 := by
  refine renewRun_reach safe renewCalls (fun i hi => ?_) i hi
  have hi : i < 10 := hi
  have : i = 0 ∨ i = 1 ∨ i = 2 ∨ i = 3 ∨ i = 4 ∨ i = 5 ∨ i = 6 ∨ i = 7 ∨ i = 8 ∨ i = 9 := by omega
  rcases this with rfl | rfl | rfl | rfl | rfl | rfl | rfl | rfl | rfl | rfl
  · exact ⟨rfl, by decide +kernel, by decide +kernel⟩
  · exact ⟨by decide +kernel, announcedAt_announced (announced_index 0 0 (by decide +kernel))⟩
  · exact ⟨by decide +kernel, announcedAt_announced (announced_index 0 0 (by decide +kernel))⟩
  · exact ⟨by decide +kernel, by decide +kernel⟩
  · intro x _ _ _ _
    have hmem : (⟨grp, [1], grpMsg 0⟩ : GroupSent) ∈ sentUnder grp (renewRun (renewCalls.take 4)).2 := by decide +kernel
    exact ⟨_, hmem, sameBody_refl (by decide +kernel)⟩
  · exact ⟨by decide +kernel, by decide +kernel⟩
  · exact ⟨by decide +kernel, by decide +kernel, by decide +kernel, unused_id (by decide +kernel)⟩
  · exact ⟨by decide +kernel, announcedAt_announced (k := 2) (announced_index 6 2 (by decide +kernel))⟩
  · exact ⟨by decide +kernel, by decide +kernel⟩
  · intro x _ _ _ _
    have hmem : (⟨grp, [5], newMsg⟩ : GroupSent) ∈ sentUnder grp (renewRun (renewCalls.take 9)).2 := by decide +kernel
    exact ⟨_, hmem, sameBody_refl (by decide +kernel)⟩

theorem Example.renew_reach (safe : SenderKeyName → Nat → Prop) : RenewReach roomOwner safe (renewRun renewCalls).1 (renewRun renewCalls).2 :=
  renew_run safe 10 (Nat.le_refl _)

/-- All keys are safe. -/
def Example.allSafe : SenderKeyName → Nat → Prop := fun _ _ => True

theorem Example.last_index {log : RoomLog Nat} {n : SenderKeyName} {d : SenderKeyDistributionMessage} (i : Nat)
    (h : (match log[i]? with
      | some ⟨_, .create n' _, .ok (.distribution d0)⟩ => decide (n' = n ∧
          (SenderKeyDistributionMessage.parse d0.serialized).toOption = some d)
      | _ => false) = true)
    (h' : (log.drop (i + 1)).all (fun e => match e.call with
      | .create .. => false
      | _ => true) = true) : LastAnnounced n log d := by
  cases he : log[i]? with
  | none => rw [he] at h; cases h
  | some e =>
    rw [he] at h
    obtain ⟨m, c, r⟩ := e
    cases c with
    | create n' rnd =>
      cases r with
      | error e => cases h
      | ok r =>
        cases r with
        | distribution d0 =>
          obtain ⟨rfl, h1⟩ := of_decide_eq_true h
          obtain ⟨hi, hget⟩ := List.getElem?_eq_some_iff.1 he
          refine ⟨log.take i, ⟨m, .create n' rnd, .ok (.distribution d0)⟩, log.drop (i + 1), rnd, d0, ?_, rfl, rfl, ?_, ?_⟩
          · rw [← hget, ← List.drop_eq_getElem_cons hi, List.take_append_drop]
          · cases hp : SenderKeyDistributionMessage.parse d0.serialized with
            | error e => rw [hp] at h1; cases h1
            | ok x => rw [hp] at h1; cases h1; rfl
          · rintro d' ⟨x, hx, rnd', _, hc, _⟩
            have := List.all_eq_true.1 h' x hx
            rw [hc] at this
            cases this
        | bytes b => cases h
        | done => cases h
    | _ => cases h

theorem Example.renew_last : LastAnnounced grp (renewRun renewCalls).2 newDist := last_index 6 (by decide +kernel) (by decide +kernel)

/-- What has happened with each key, and with no other. -/
example : (sentUnder grp (ofKey grp 77 (renewRun renewCalls).2)).map (·.plaintext) = [[1], [2, 2]] ∧
    (sentUnder grp (ofKey grp 78 (renewRun renewCalls).2)).map (·.plaintext) = [[5]] ∧
    heardBy 1 grp (ofKey grp 77 (renewRun renewCalls).2) = [grpDist] ∧ heardBy 1 grp (ofKey grp 78 (renewRun renewCalls).2) = [newDist] ∧
    heardBy 2 grp (ofKey grp 78 (renewRun renewCalls).2) = [] ∧ readBy 1 grp (renewRun renewCalls).2 = [(grpMsg 0, [1]), (newMsg, [5])] ∧
    (ofKey grp 79 (renewRun renewCalls).2).length = 0 ∧ messageKeyId newMsg = some 78 := by decide +kernel

/-- `C102_read`, `C102_again`, `C102_unheard`: after the renewal member 1 still reads the second message under the old key; the message
it has read is a duplicate; member 2, who has only the old key, refuses the new message, and member 3 has no session. -/
example : (GroupCipher.decrypt ((renewRun renewCalls).1 1) grp (grpMsg 1)).result = .ok [2, 2] ∧
    GroupCipher.decrypt ((renewRun renewCalls).1 1) grp newMsg = ⟨none, .error .duplicateMessage⟩ ∧
    GroupCipher.decrypt ((renewRun renewCalls).1 2) grp newMsg = ⟨none, .error .invalidMessage⟩ ∧
    GroupCipher.decrypt ((renewRun renewCalls).1 3) grp newMsg = ⟨none, .error .noSession⟩ := by
  refine ⟨?_, ?_, ?_, ?_⟩
  · refine C102_read toy_lawful roomOwner allSafe _ _ (renew_reach _) grp 77 trivial 1 (by decide) grpDist [] (by decide +kernel) 0
      (announced_index 0 0 (by decide +kernel)) 1 ⟨grp, [2, 2], grpMsg 1⟩ (by decide +kernel) (by decide) ?_
    intro p hp
    have hr : readBy 1 grp (renewRun renewCalls).2 = [(grpMsg 0, [1]), (newMsg, [5])] := by decide +kernel
    rw [hr] at hp
    intro h
    have := h.body
    rcases List.mem_cons.1 hp with rfl | hp
    · revert this; decide +kernel
    · rw [List.mem_singleton.1 hp] at this
      revert this; decide +kernel
  · refine C102_again toy_lawful roomOwner allSafe _ _ (renew_reach _) grp 78 trivial 1 (newMsg, [5]) (by decide +kernel) ⟨grp, [5], newMsg⟩ (by decide +kernel)
      (sameBody_refl (by decide +kernel))
  · exact C102_unheard toy_lawful roomOwner allSafe _ _ (renew_reach _) grp 78 2 (by decide) (by decide +kernel) newMsg (by decide +kernel)
  · exact C102_unheard toy_lawful roomOwner allSafe _ _ (renew_reach _) grp 78 3 (by decide) (by decide +kernel) newMsg (by decide +kernel)

/-- `C102_renew`, `C102_healing`: the state before the renewal, in which the key with id 78 has not been announced. -/
example (headers : Nat → Bytes) : ¬ GDerives ((groupTheft grp (onlyKey grp 78 (renewRun (renewCalls.take 6)).1) (fun _ => True)
      (fun _ => False) (fun _ => False)).Has headers 1) (.text 0) ∧
    ((renewRun (renewCalls.take 6)).1 0 grp).senderKeyStates.length = 1 ∧
    ((renewRun (renewCalls.take 6)).1 1 grp).senderKeyStates.length = 1 := by
  refine ⟨fun q => ?_, by decide +kernel, by decide +kernel⟩
  exact ((C102_healing toy_lawful roomOwner allSafe _ _ (renew_run _ 6 (by decide)) grp 78 (unused_id (by decide +kernel)) (fun _ => True)
    (fun _ => False) headers 1).1 0).1 q

/-- `C102_theft`: after the renewal member 2's record opens the second message under the old key; that of the owner does not. -/
example (headers : Nat → Bytes) :
    GDerives ((groupTheft grp (onlyKey grp 77 (renewRun renewCalls).1) (· = 2) (fun _ => False) (fun _ => False)).Has headers 2)
      (.text 1) ∧
    ¬ GDerives ((groupTheft grp (onlyKey grp 77 (renewRun renewCalls).1) (· = 0) (fun _ => False) (fun _ => False)).Has headers 2)
      (.text 1) := by
  have hd : AnnouncedAt grp (ofKey grp 77 (renewRun renewCalls).2) 0 grpDist := announced_index 0 0 (by decide +kernel)
  have hx : (sentUnder grp (ofKey grp 77 ((renewRun renewCalls).2 ++ [])))[1]? = some ⟨grp, [2, 2], grpMsg 1⟩ := by decide +kernel
  have hlen : (sentUnder grp (ofKey grp 77 ((renewRun renewCalls).2 ++ []))).length = 2 := by decide +kernel
  have key : ∀ T : Nat → Prop, _ := fun T => C102_theft toy_lawful roomOwner allSafe _ _ _ [] (renew_reach _)
    (by rw [List.append_nil]; exact renew_reach _) grp 77 trivial T (fun _ => False) (fun _ => False) headers grpDist hd 1 _ hx (fun q => q)
  rw [hlen] at key
  constructor
  · refine (key (· = 2)).2 (.inr ⟨2, ⟨rfl, fun q => absurd q (by decide)⟩, ?_⟩)
    unfold Exposes
    rw [if_neg (by decide)]
    refine ⟨grpDist, [], by decide +kernel, .inl ⟨by decide +kernel, ?_⟩⟩
    have hr : readBy 2 grp (ofKey grp 77 (renewRun renewCalls).2) = [] := by decide +kernel
    rw [hr]
    intro p hp
    cases hp
  · intro q
    rcases (key (· = 0)).1 q with ⟨_, _, q⟩ | ⟨m, ⟨hm, hc⟩, _⟩
    · exact q
    · obtain ⟨e, h1, h2⟩ := hc hm
      rw [last_unique h1 renew_last] at h2
      revert h2
      decide +kernel

/-- `C102_send`, `C102_owner`: the owner sends under the new key; its messages under the new key are duplicates to it, those under the old
one are under a key it does not have any more. -/
example : (∃ b msg, (GroupCipher.encrypt ((renewRun renewCalls).1 0) grp [7] grpSig).result = .ok b ∧
      SenderKeyMessage.parse b = .ok msg ∧ msg.keyId = newDist.id ∧ msg.iteration = 1) ∧
    GroupCipher.decrypt ((renewRun renewCalls).1 0) grp newMsg = ⟨none, .error .duplicateMessage⟩ ∧
    GroupCipher.decrypt ((renewRun renewCalls).1 0) grp (grpMsg 0) = ⟨none, .error .invalidMessage⟩ := by
  refine ⟨?_, ?_, ?_⟩
  · obtain ⟨b, msg, h1, h2, h3, h4⟩ := C102_send toy_lawful roomOwner allSafe _ _ (renew_reach _) grp newDist renew_last trivial (by decide +kernel) [7]
      grpSig
      (by decide) (by decide)
    refine ⟨b, msg, h1, h2, h3, ?_⟩
    rw [h4]
    decide +kernel
  · have := C102_owner toy_lawful roomOwner allSafe _ _ (renew_reach _) grp newDist renew_last ⟨grp, [5], newMsg⟩ (by decide +kernel)
      (fun _ => trivial)
    rw [if_pos (by decide +kernel)] at this
    exact this
  · have := C102_owner toy_lawful roomOwner allSafe _ _ (renew_reach _) grp newDist renew_last ⟨grp, [1], grpMsg 0⟩ (by decide +kernel)
      (fun _ => trivial)
    rw [if_neg (by decide +kernel)] at this
    exact this

/-- `C102_no_revocation`: whoever has stolen the owner's record before the renewal gets member 1, who has taken up the new key, to accept
a message of theirs as number 40 of the old one. -/
example (headers : Nat → Bytes) :
    ∃ header, GDerives ((⟨(· = 2), fun _ => False, True, fun _ => False⟩ : GLeak).Has headers
        (sentUnder grp (ofKey grp 77 (renewRun renewCalls).2)).length) (GTerm.forged 40 header [9]) ∧
      (GroupCipher.decrypt ((renewRun renewCalls).1 1) grp ((GTerm.forged 40 header [9]).value grpDist.chainKey (key 92)
        (saidUnder grp (ofKey grp 77 (renewRun renewCalls).2)) (fun _ => grpSig))).result = .ok [9] := by
  have hd : AnnouncedAt grp (ofKey grp 77 (renewRun renewCalls).2) 0 grpDist := announced_index 0 0 (by decide +kernel)
  have hlen : (sentUnder grp (ofKey grp 77 (renewRun renewCalls).2)).length = 2 := by decide +kernel
  obtain ⟨header, h1, h2, _⟩ := C102_no_revocation toy_lawful roomOwner allSafe _ _ (renew_reach _) grp 77 trivial 1 (by decide) grpDist []
    (by decide +kernel) grpDist hd (key 92) ⟨by decide +kernel, grpRand.signSeed, by decide +kernel⟩ (by decide +kernel)
    (fun _ => grpSig) (fun _ => by decide +kernel) headers ⟨(· = 2), fun _ => False, True, fun _ => False⟩ trivial 40
    (.inr ⟨2, by decide, rfl⟩) (by decide +kernel) (by decide)
    (fun x hx => by
      have := (List.getElem?_eq_some_iff.1 hx).1
      omega) [9] (by decide)
  exact ⟨header, h1, h2⟩

/-- Whoever stole the owner's record before the renewal goes on sending with it. -/
def Example.thiefMsg : Bytes :=
  match (GroupCipher.encrypt ((renewRun (renewCalls.take 6)).1 0) grp [9] grpSig).result with
  | .ok b => b
  | .error _ => []

theorem Example.thief_reach : RenewReach roomOwner (fun _ id => id = 78) (renewRun (renewCalls ++ [.inl (1, .decrypt grp thiefMsg)])).1
    (renewRun (renewCalls ++ [.inl (1, .decrypt grp thiefMsg)])).2 := by
  have e : renewRun (renewCalls ++ [.inl (1, .decrypt grp thiefMsg)]) =
      renewStep (renewRun renewCalls) (.inl (1, .decrypt grp thiefMsg)) := by
    unfold renewRun
    rw [List.foldl_append]
    rfl
  rw [e]
  refine RenewReach.call 1 (.decrypt grp thiefMsg) (renew_reach _) fun x id _ h1 h2 => ?_
  have h3 : messageKeyId thiefMsg = some 77 := by decide +kernel
  rw [h3, h2] at h1
  cases h1

/-- Member 1 reads the thief's message as the owner's, so the old key is not safe; what C102 says of the new one still holds:
the message it has read under it is a duplicate, and was the owner's. -/
example : readBy 1 grp (renewRun (renewCalls ++ [.inl (1, .decrypt grp thiefMsg)])).2 =
      [(grpMsg 0, [1]), (newMsg, [5]), (thiefMsg, [9])] ∧
    GroupCipher.decrypt ((renewRun (renewCalls ++ [.inl (1, .decrypt grp thiefMsg)])).1 1) grp newMsg =
      ⟨none, .error .duplicateMessage⟩ := by
  refine ⟨by decide +kernel, ?_⟩
  exact C102_again toy_lawful roomOwner _ _ _ thief_reach grp 78 rfl 1 (newMsg, [5]) (by decide +kernel) ⟨grp, [5], newMsg⟩
    (by decide +kernel) (sameBody_refl (by decide +kernel))

/-- A new key with the id of an old one. -/
def Example.sameIdRand : GroupSessionBuilder.CreateRand := ⟨77, key 93, key 94⟩
def Example.sameIdDist : SenderKeyDistributionMessage :=
  match (GroupSessionBuilder.create GroupStore.empty grp sameIdRand).result with
  | .ok d => d
  | .error _ => ⟨[], 0, 0, [], []⟩
def Example.sameIdMsg : Bytes :=
  match (GroupCipher.encrypt ((GroupCall.create grp sameIdRand).next GroupStore.empty) grp [5] grpSig).result with
  | .ok b => b
  | .error _ => []

/-- **C102.** The id of the new key has to be a new one.  It is false without that that a member reads what is sent after an announcement
it has taken up: if the new key has the id of the old one, a member who has taken up both refuses what is sent under the new one. -/
theorem C102_same_id : ¬ ∀ (g : GroupStore) (n : SenderKeyName) (rnd : GroupSessionBuilder.CreateRand) (d : SenderKeyDistributionMessage)
    (pt rand b : Bytes), (GroupSessionBuilder.create GroupStore.empty n rnd).result = .ok d →
    (GroupCipher.encrypt ((GroupCall.create n rnd).next GroupStore.empty) n pt rand).result = .ok b →
    (GroupCipher.decrypt ((GroupCall.process n d).next g) n b).result = .ok pt := by
  intro h
  have := h ((GroupCall.process grp grpDist).next GroupStore.empty) grp sameIdRand sameIdDist [5] grpSig sameIdMsg
    (by decide +kernel) (by decide +kernel)
  revert this
  decide +kernel

end
end Axolotl
