import Verif.Proofs.Sessions
import Verif.Props.Verdict

/-! # C70: any number of sessions between two parties -/

namespace Axolotl
section
variable [C : Crypto]
open SessionState SessionBuilder RatchetingSession
open Spec

/-! ## When other sessions refuse a message -/

theorem reads_any_seed (hC : C.Lawful) {s s1 : SessionState} {m : WhisperMessage} {seed seed' : Bytes} {x y : List ChainS} {c : ChainS}
    (h : Reads s m seed s1 x c y) (hseed : seed'.length = 32) : ∃ s2, Reads s m seed' s2 x c y := by
  cases h.opened with
  | known h1 h2 => exact ⟨_, h.session, h.version, .known h1 h2, h.chain⟩
  | ratchet g1 g2 g3 g4 =>
    obtain ⟨_, hl⟩ := hC.dh_size _ _ _ g4
    obtain ⟨d, hd⟩ := hC.dh_total (C.genPriv seed') m.senderRatchetKey (hC.genPriv_len _ hseed) hl
    exact ⟨_, h.session, h.version, .ratchet g1 g2 g3 hd, ⟨h.chain.split, h.chain.key, h.chain.first⟩⟩

/-- Whether a state refuses a message does not depend on the randomness. -/
theorem refused_any_seed (hC : C.Lawful) {s : SessionState} (hs : Sane s) {m : WhisperMessage} {seed seed' : Bytes}
    (hseed : seed'.length = 32) (h : SessionCipher.decryptWithSessionState s m seed = .error .invalidMessage) :
    SessionCipher.decryptWithSessionState s m seed' = .error .invalidMessage := by
  rw [← verdict_iff hC hs] at h ⊢
  cases h with
  | empty h => exact .empty h
  | version h1 h2 => exact .version h1 h2
  | tooFar h1 h2 =>
    obtain ⟨_, h1⟩ := reads_any_seed hC h1 hseed
    exact .tooFar h1 h2
  | badMac h1 h2 h3 h4 h5 =>
    obtain ⟨_, h1⟩ := reads_any_seed hC h1 hseed
    exact .badMac h1 h2 h3 h4 h5

/-- A message that does not authenticate in a state, and whose ratchet key is new to it, is refused. -/
theorem foreign_refused (hC : C.Lawful) {s : SessionState} (hs : Sane s) {m : WhisperMessage} (h : Foreign s m) {seed : Bytes}
    (hseed : seed.length = 32) : SessionCipher.decryptWithSessionState s m seed = .error .invalidMessage := by
  have hnew : ∀ {s1 x c y}, Reads s m seed s1 x c y → position c = 0 := by
    intro s1 x c y hr
    have hmem : c ∈ s1.receiverChains := by rw [hr.chain.split]; simp
    have hk := hr.chain.key
    cases hr.opened with
    | known _ _ => exact absurd hk (h.unknown c hmem)
    | ratchet g1 g2 g3 g4 =>
      rcases List.mem_append.1 (List.mem_of_mem_drop hmem) with h1 | h1
      · exact absurd hk (g1 c h1)
      · obtain rfl := List.mem_singleton.1 h1
        rfl
  obtain ⟨v, hv⟩ := verdict_exists hC hs m seed
  have hd := (verdict_iff hC hs m seed v).1 hv
  cases hv with
  | empty _ => exact hd
  | version _ _ => exact hd
  | noAgreement h1 _ _ h4 =>
    obtain ⟨d, hd'⟩ := h.agreement _ h1
    rcases h4 with h4 | h4
    · rw [hd'] at h4; cases h4
    · obtain ⟨_, hl⟩ := hC.dh_size _ _ _ hd'
      obtain ⟨d2, hd2⟩ := hC.dh_total (C.genPriv seed) m.senderRatchetKey (hC.genPriv_len _ hseed) hl
      rw [hd2] at h4; cases h4
  | used h1 h2 _ => rw [hnew h1] at h2; cases h2
  | tooFar _ _ => exact hd
  | last h1 h2 h3 h4 => rw [hnew h1] at h3; omega
  | badMac _ _ _ _ _ => exact hd
  | badBody h1 h2 h3 h4 h5 _ => exact absurd h5 (h.forged _ _ _ _ _ _ (messageKey_of_yields h1 h2) h3 h4)
  | plaintext ha =>
    cases ha with
    | intro a1 a2 a3 a4 a5 a6 a7 a8 a9 a10 _ _ =>
      exact absurd a10 (h.forged _ _ _ _ _ _ (messageKey_of_yields ⟨a1, a2, a3, ⟨a4, a5, a6⟩⟩ a7) a8 a9)

/-- What the parties do are calls of the library. -/
theorem pair_calls {addr : Bool → Address} {p0 p : Pair} (h : PairSteps addr p0 p) (b : Bool) :
    ∃ cs, p.world b = Call.after (p0.world b) cs := by
  have one : ∀ (q : Pair) (cs : List Call) (a : Bool) (w' : World), q.world b = Call.after (p0.world b) cs →
      (w' = q.world a ∨ ∃ c : Call, w' = c.next (q.world a)) → ∃ cs, upd q.world a w' b = Call.after (p0.world b) cs := by
    intro q cs a w' h1 h2
    by_cases hab : b = a
    · subst hab
      rw [upd_same]
      rcases h2 with h2 | ⟨c, h2⟩
      · exact ⟨cs, by rw [h2, h1]⟩
      · refine ⟨cs ++ [c], ?_⟩
        rw [h2, h1]
        unfold Call.after
        rw [List.foldl_append]
        rfl
    · rw [upd_other _ _ hab]
      exact ⟨cs, h1⟩
  induction h with
  | refl => exact ⟨[], rfl⟩
  | @step q q' _ hs ih =>
    obtain ⟨cs, ih⟩ := ih
    cases hs with
    | start h1 h2 h3 h4 h5 h6 h7 => exact one q cs _ _ ih (Or.inr ⟨.processBundle _ _ _ _, rfl⟩)
    | send h1 h2 h3 h4 => exact one q cs _ _ ih (Or.inr ⟨.encrypt _ _, rfl⟩)
    | other h1 h2 h3 => exact one q cs _ _ ih (Or.inr ⟨_, rfl⟩)
    | deliver h1 h2 h3 h4 h5 h6 h7 h8 =>
      refine one q cs _ _ ih ?_
      unfold receive
      split
      · split
        · exact Or.inr ⟨.decryptPkmsg _ _ _ _, rfl⟩
        · exact Or.inl rfl
      · split
        · exact Or.inr ⟨.decryptMsg _ _ _ _, rfl⟩
        · exact Or.inl rfl

theorem pair_sane (hC : C.Lawful) {addr : Bool → Address} {p0 p : Pair} (h : PairSteps addr p0 p) {b : Bool}
    (hw : (p0.world b).NoSessions) : ∀ s ∈ statesAt (p.world b) (addr b), Sane s := by
  obtain ⟨cs, hcs⟩ := pair_calls h b
  intro s hs
  unfold statesAt at hs
  split at hs
  · cases hs
  · rename_i r hr
    rw [hcs] at hr
    obtain ⟨h1, h2⟩ := sane hC _ hw cs _ r hr
    rcases List.mem_cons.1 hs with rfl | hs
    · exact h1
    · exact h2 s hs

/-! ## The theorems -/

/-- **C70**, delivery.  Two parties with any number of sessions, whoever started them: a message that was sent in one of them, not
yet accepted and within the limits decrypts to the plaintext that was encrypted, and its session becomes the one the receiver
uses; a message accepted before is refused as a duplicate, leaving all sessions and prekeys as they were.  If the receiver has
already joined the session, the session must not have been dropped from its record (see `C70_survives`), and the other sessions
must refuse the message (see `C70_refused`). -/
theorem C70_delivery (hC : C.Lawful) {addr : Bool → Address} {p0 p : Pair} (h0 : PairStart addr p0) (h : PairSteps addr p0 p)
    {b : Bool} {k i : Nat} {t : Talk} {c : Ciphertext} {pt seed : Bytes} {seeds : Nat → Bytes} (ht : p.talks[k]? = some t)
    (hi : (t.sent (!b))[i]? = some (c, pt))
    (hheld : t.joined b → (∃ s ∈ statesAt (p.world b) (addr b), ofBase t.baseKey s) ∧
      RefusedElsewhere (statesAt (p.world b) (addr b)) t.baseKey c.inner)
    (hseed : seed.length = 32) (hseeds : ∀ j, (seeds j).length = 32) (hfresh : ∀ x, drawn seed seeds x → ¬ p.keys x) :
    let o := receive (p.world b) (addr b) c.getType c.serialize seed seeds
    (i ∉ t.accepted b → t.inLimits b (header c) → o.result = .ok pt ∧
      ∃ s l, statesAt (o.final (p.world b)) (addr b) = s :: l ∧ ofBase t.baseKey s) ∧
    (i ∈ t.accepted b → t.remembered b (header c) → o.result = .error .duplicateMessage ∧
      (o.final (p.world b)).sessions = (p.world b).sessions ∧ (o.final (p.world b)).preKeys = (p.world b).preKeys) := by
  have hinv := pair_steps hC h (pair_begin h0)
  have ht' := hinv.talk t (List.mem_of_getElem? ht)
  intro o
  constructor
  · intro hin hl
    exact (ht'.deliver hC hi (fun _ => hl) (fun x => absurd x hin) hheld hseed hseeds hfresh (hinv.trusted b) (hinv.self b)
      (hinv.pub b)).2.1 hin
  · intro hin hr
    exact (ht'.deliver hC hi (fun x => absurd hin x) (fun _ => hr) hheld hseed hseeds hfresh (hinv.trusted b) (hinv.self b)
      (hinv.pub b)).2.2.1 hin

/-- **C70**, separation.  Delivering a message of one session leaves the states of every other session in the record as they
are, unless the record is full. -/
theorem C70_undisturbed (hC : C.Lawful) {addr : Bool → Address} {p0 p : Pair} (h0 : PairStart addr p0) (h : PairSteps addr p0 p)
    {b : Bool} {k j i : Nat} {t u : Talk} {c : Ciphertext} {pt seed : Bytes} {seeds : Nat → Bytes} (ht : p.talks[k]? = some t)
    (hu : p.talks[j]? = some u) (hjk : j ≠ k) (hi : (t.sent (!b))[i]? = some (c, pt))
    (hl : i ∉ t.accepted b → t.inLimits b (header c)) (hr : i ∈ t.accepted b → t.remembered b (header c))
    (hheld : t.joined b → (∃ s ∈ statesAt (p.world b) (addr b), ofBase t.baseKey s) ∧
      RefusedElsewhere (statesAt (p.world b) (addr b)) t.baseKey c.inner)
    (hseed : seed.length = 32) (hseeds : ∀ j, (seeds j).length = 32) (hfresh : ∀ x, drawn seed seeds x → ¬ p.keys x)
    (hroom : (statesAt (p.world b) (addr b)).length ≤ 40) (s : SessionState) (hs : ofBase u.baseKey s) :
    s ∈ statesAt ((receive (p.world b) (addr b) c.getType c.serialize seed seeds).final (p.world b)) (addr b) ↔
      s ∈ statesAt (p.world b) (addr b) := by
  have hinv := pair_steps hC h (pair_begin h0)
  obtain ⟨_, _, _, lv⟩ := (hinv.talk t (List.mem_of_getElem? ht)).deliver hC hi hl hr hheld hseed hseeds hfresh (hinv.trusted b)
    (hinv.self b) (hinv.pub b)
  have hk := lv.kept (by split <;> omega) u.baseKey (fun e => hjk (nodup_at hinv.bases hu ht e))
  have hm : ∀ l, s ∈ mine u.baseKey l ↔ s ∈ l := by
    intro l
    unfold mine
    rw [List.mem_filter]
    simp [hs]
  rw [← hm, hk, hm]

/-- **C70**, survival.  As long as there are at most 41 states, counting those of the beginning, every party still has every
session that it joined. -/
theorem C70_survives (hC : C.Lawful) {addr : Bool → Address} {p0 p : Pair} (h0 : PairStart addr p0) (h : PairSteps addr p0 p)
    {b : Bool} (hn : (statesAt (p0.world b) (addr b)).length + p.talks.length ≤ 41) {t : Talk} (ht : t ∈ p.talks)
    (hj : t.joined b) : ∃ s ∈ statesAt (p.world b) (addr b), ofBase t.baseKey s := by
  have hinv := pair_steps hC h (pair_begin h0)
  have hc : joinedCount p.talks b ≤ p.talks.length := List.countP_le_length
  have := hinv.alive b (by omega) t ht hj
  cases hm : mine t.baseKey (statesAt (p.world b) (addr b)) with
  | nil => exact absurd hm this
  | cons s l =>
    have hs : s ∈ mine t.baseKey (statesAt (p.world b) (addr b)) := by rw [hm]; exact List.mem_cons_self ..
    unfold mine at hs
    rw [List.mem_filter] at hs
    exact ⟨s, hs.1, by simpa using hs.2⟩

/-- **C70**, one state each.  No session is in a record twice. -/
theorem C70_once (hC : C.Lawful) {addr : Bool → Address} {p0 p : Pair} (h0 : PairStart addr p0) (h : PairSteps addr p0 p)
    {b : Bool} {t : Talk} (ht : t ∈ p.talks) {i j : Nat} {s s' : SessionState} (hi : (statesAt (p.world b) (addr b))[i]? = some s)
    (hj : (statesAt (p.world b) (addr b))[j]? = some s') (hs : ofBase t.baseKey s) (hs' : ofBase t.baseKey s') : i = j := by
  have hinv := pair_steps hC h (pair_begin h0)
  have hle := (hinv.talk t ht).mine_le b
  generalize statesAt (p.world b) (addr b) = l at *
  rcases Nat.lt_trichotomy i j with hlt | hlt | hlt
  · exact absurd hle (Nat.not_le.2 (two_mine hs hs' l hlt hi hj))
  · exact hlt
  · exact absurd hle (Nat.not_le.2 (two_mine hs' hs l hlt hj hi))

/-- **C70**, other sessions.  A message is refused by the other sessions if it is foreign to them: its ratchet key is new there,
and its MAC is not valid under the keys that they derive. -/
theorem C70_refused (hC : C.Lawful) {addr : Bool → Address} {p0 p : Pair} (h : PairSteps addr p0 p) {b : Bool}
    (hw : (p0.world b).NoSessions) {k : ECPub} {m : WhisperMessage}
    (hf : ∀ s ∈ statesAt (p.world b) (addr b), ¬ ofBase k s → Foreign s m) :
    RefusedElsewhere (statesAt (p.world b) (addr b)) k m := by
  intro s hs hk seed hseed
  exact foreign_refused hC (pair_sane hC h hw s hs) (hf s hs hk) hseed

/-- **C70**, sending.  A party sends in the session it used last: the one it started or accepted a message in, whichever was
later.  Only a send counter at its last value stops it. -/
theorem C70_sending (hC : C.Lawful) {addr : Bool → Address} {p0 p : Pair} (h0 : PairStart addr p0) (h : PairSteps addr p0 p)
    {b : Bool} {k : Nat} (hk : p.current b = some k) :
    ∃ t r, p.talks[k]? = some t ∧ (p.world b).sessions (addr b) = some r ∧ ofBase t.baseKey r.sessionState ∧
      ∀ pt : Bytes, pt.length < 2 ^ 62 → ((∃ c, (SessionCipher.encrypt (p.world b) (addr b) pt).result = .ok c) ↔
        ∃ s k, r.sessionState.senderChain = some s ∧ s.chainKey = some k ∧ (k.index.getD 0) + 1 < 2 ^ 32) := by
  have hinv := pair_steps hC h (pair_begin h0)
  obtain ⟨t, s, l, q1, q2, q3⟩ := hinv.current b k hk
  obtain ⟨r, hr⟩ : ∃ r, (p.world b).sessions (addr b) = some r := by
    unfold statesAt at q2
    split at q2
    · cases q2
    · exact ⟨_, by assumption⟩
  rw [statesAt_some hr] at q2
  injection q2 with q2 q4
  subst q2
  refine ⟨t, r, q1, hr, q3, ?_⟩
  intro pt hpt
  obtain ⟨hd, g, L, hg, ho⟩ := (hinv.talk t (List.mem_of_getElem? q1)).isOpen hr q3
  have ha : (convOf addr t).addr (side t b) = addr b := by
    show addr (side t (side t b)) = _
    rw [side_side]
  constructor
  · rintro ⟨c, hc⟩
    rw [← ha] at hc
    have hl := ho.limit hc
    obtain ⟨r', z1, z2, _⟩ := ho
    rw [ha, hr] at z1
    obtain rfl := Option.some.inj z1
    exact ⟨_, _, z2.sender, rfl, hl⟩
  · rintro ⟨s, k, z1, z2, z3⟩
    have hn : k.index.getD 0 = g.n (side t b) := by
      obtain ⟨r', y1, y2, _⟩ := ho
      rw [ha, hr] at y1
      obtain rfl := Option.some.inj y1
      rw [y2.sender] at z1
      obtain rfl := Option.some.inj z1
      obtain rfl := Option.some.inj z2
      rfl
    rw [hn] at z3
    obtain ⟨c, r', e1, _⟩ := ho.encrypt hg.ginv (fun _ => rfl) (fun _ => hg.hdr) hC z3 hpt
    rw [ha] at e1
    exact ⟨c, by rw [e1]⟩

end

/-! ## Non-vacuity: both parties start a session at the same time -/

section
attribute [local instance] toy
open Example Spec

instance (t : Talk) (b : Bool) (h : ECPub × Nat) : Decidable (t.inLimits b h) := by
  unfold Talk.inLimits Spec.retained; infer_instance
instance (t : Talk) (b : Bool) (h : ECPub × Nat) : Decidable (t.remembered b h) := by
  unfold Talk.remembered Spec.retained; infer_instance

def pairAddr (b : Bool) : Address := if b then bobAddr else aliceAddr

def alicePreKey : PreKeyRecord := match PreKeyRecord.mk' 61 (Example.pair 61) with | .ok r => r | .error _ => {}
def aliceSignedPreKey : SignedPreKeyRecord :=
  match SignedPreKeyRecord.mk' 62 1000 (Example.pair 62) (Toy.tag (key 1) (5 :: key 62)) with
  | .ok r => r
  | .error _ => {}

/-- Alice, with prekeys. -/
def pairAlice : World :=
  { alice0 with preKeys := fun i => if i = 61 then some alicePreKey else none,
                signedPreKeys := fun i => if i = 62 then some aliceSignedPreKey else none }

def aliceBundle : PreKeyBundle :=
  { registrationId := 11, deviceId := 1, preKeyId := 61, preKey := some (key 61), signedPreKeyId := 62,
    signedPreKey := some (key 62), signedPreKeySignature := Toy.tag (key 1) (5 :: key 62), identityKey := key 1 }

def pair0 : Pair :=
  { world := fun b => if b then pairAlice else bob0, talks := [], current := fun _ => none, keys := fun _ => False }

theorem pair_example_start : PairStart pairAddr pair0 where
  none := rfl
  nothing := fun _ => rfl
  self := by
    intro b
    cases b
    · exact ⟨⟨by decide +kernel, by decide +kernel, toy_generated _ (by decide +kernel)⟩, by decide +kernel⟩
    · exact ⟨⟨by decide +kernel, by decide +kernel, toy_generated _ (by decide +kernel)⟩, by decide +kernel⟩
  trusting := by
    intro b saved h
    cases b
    all_goals
      show tofu saved _ _ = true
      unfold tofu
      rcases h with h | h
      · rw [h]
      · rw [h]; simp
  saved := by intro b; cases b <;> exact Or.inl rfl

/-- Alice starts a session. -/
def pair1 : Pair :=
  { world := upd pair0.world true
      ((SessionBuilder.processPreKeyBundle (pair0.world true) (pairAddr true) bobBundle (key 41) (key 42)).final (pair0.world true)),
    talks := pair0.talks ++ [⟨true, toy.genPub (toy.genPriv (key 41)), (Example.pair 22).pub, 31, fun _ => [], fun _ => []⟩],
    current := upd pair0.current true (some pair0.talks.length),
    keys := fun k => pair0.keys k ∨ k = (Example.pair 22).pub ∨ k = toy.genPub (toy.genPriv (key 42)) }

/-- Bob starts one, not knowing of it. -/
def pair2 : Pair :=
  { world := upd pair1.world false
      ((SessionBuilder.processPreKeyBundle (pair1.world false) (pairAddr false) aliceBundle (key 43) (key 44)).final (pair1.world false)),
    talks := pair1.talks ++ [⟨false, toy.genPub (toy.genPriv (key 43)), (Example.pair 62).pub, 61, fun _ => [], fun _ => []⟩],
    current := upd pair1.current false (some pair1.talks.length),
    keys := fun k => pair1.keys k ∨ k = (Example.pair 62).pub ∨ k = toy.genPub (toy.genPriv (key 44)) }

theorem pair_step1 : PairStep pairAddr pair0 pair1 := by
  refine PairStep.start (b := true) (spkId := 22) (otk := Example.pair 31) contact_example.published (by simp [pair0]) rfl rfl ?_
    (by simp [pair0]) (by decide)
  intro a s hs
  cases a <;> cases hs

theorem alice_published : Published (pair1.world true) aliceBundle 62 (Example.pair 62) (some (61, Example.pair 61)) := by
  refine ⟨by decide +kernel, ⟨by decide +kernel, by decide +kernel, toy_generated _ (by decide +kernel)⟩, rfl, rfl, by decide +kernel,
    ⟨aliceSignedPreKey, by decide +kernel, by decide +kernel, by decide +kernel⟩,
    ⟨by decide +kernel, by decide +kernel, toy_generated _ (by decide +kernel)⟩, by decide +kernel, rfl, ?_, by decide +kernel, by decide +kernel⟩
  intro p hp
  injection hp with hp
  subst hp
  exact ⟨rfl, by decide +kernel, ⟨alicePreKey, by decide +kernel, by decide +kernel, by decide +kernel⟩,
    ⟨by decide +kernel, by decide +kernel, toy_generated _ (by decide +kernel)⟩⟩

theorem pair_step2 : PairStep pairAddr pair1 pair2 := by
  refine PairStep.start (b := false) (spkId := 62) (otk := Example.pair 61) alice_published (by decide +kernel) rfl rfl ?_
    (by decide +kernel) (by decide)
  intro a
  cases a
  · intro s hs; cases hs
  · decide +kernel

/-- A pair with a list of the keys generated so far. -/
def Followed (q : Pair × List ECPub) : Prop := PairSteps pairAddr pair0 q.1 ∧ ∀ x, q.1.keys x → x ∈ q.2

def pairSend (q : Pair × List ECPub) (b : Bool) (pt : Bytes) : Option (Pair × List ECPub) :=
  match q.1.current b with
  | none => none
  | some k => match q.1.talks[k]? with
    | none => none
    | some t => match (SessionCipher.encrypt (q.1.world b) (pairAddr b) pt).result with
      | .error _ => none
      | .ok c => if pt.length < 2 ^ 62 then
          some ({ q.1 with
            world := upd q.1.world b ((SessionCipher.encrypt (q.1.world b) (pairAddr b) pt).final (q.1.world b)),
            talks := q.1.talks.set k { t with sent := upd t.sent b (t.sent b ++ [(c, pt)]) } }, q.2)
        else none

/-- One seed shows whether the other sessions refuse. -/
def refusedCheck (l : List SessionState) (k : ECPub) (m : WhisperMessage) : Bool :=
  l.all fun s => decide (ofBase k s) || decide (SessionCipher.decryptWithSessionState s m (key 0) = .error .invalidMessage)

def heldCheck (q : Pair × List ECPub) (t : Talk) (b : Bool) (m : WhisperMessage) : Bool :=
  decide (t.joined b) → ((statesAt (q.1.world b) (pairAddr b)).any fun s => decide (ofBase t.baseKey s)) &&
    refusedCheck (statesAt (q.1.world b) (pairAddr b)) t.baseKey m

def pairDeliver (q : Pair × List ECPub) (b : Bool) (k i : Nat) (seed : Bytes) : Option (Pair × List ECPub) :=
  match q.1.talks[k]? with
  | none => none
  | some t => match (t.sent (!b))[i]? with
    | none => none
    | some (c, _) =>
      if (i ∉ t.accepted b → t.inLimits b (header c)) ∧ (i ∈ t.accepted b → t.remembered b (header c)) ∧
          heldCheck q t b c.inner = true ∧ seed.length = 32 ∧ toy.genPub (toy.genPriv seed) ∉ q.2 then
        some ({
          world := upd q.1.world b
            ((receive (q.1.world b) (pairAddr b) c.getType c.serialize seed (fun _ => seed)).final (q.1.world b)),
          talks := q.1.talks.set k { t with
            accepted := upd t.accepted b (if i ∈ t.accepted b then t.accepted b else t.accepted b ++ [i]) },
          current := if i ∈ t.accepted b then q.1.current else upd q.1.current b (some k),
          keys := fun x => q.1.keys x ∨ drawn seed (fun _ => seed) x }, toy.genPub (toy.genPriv seed) :: q.2)
      else none

theorem heldCheck_ok {q : Pair × List ECPub} (hq : Followed q) {t : Talk} {b : Bool} {m : WhisperMessage}
    (h : heldCheck q t b m = true) (hj : t.joined b) : (∃ s ∈ statesAt (q.1.world b) (pairAddr b), ofBase t.baseKey s) ∧
      RefusedElsewhere (statesAt (q.1.world b) (pairAddr b)) t.baseKey m := by
  unfold heldCheck at h
  simp only [hj, decide_true, forall_const, Bool.and_eq_true, List.any_eq_true, decide_eq_true_eq] at h
  refine ⟨h.1, ?_⟩
  intro s hs hk seed hseed
  have hr := h.2
  unfold refusedCheck at hr
  rw [List.all_eq_true] at hr
  have := hr s hs
  simp only [hk, decide_false, Bool.false_or, decide_eq_true_eq] at this
  refine refused_any_seed toy_lawful (pair_sane toy_lawful hq.1 ?_ s hs) hseed this
  cases b <;> exact fun _ => rfl

theorem pairSend_ok {q q' : Pair × List ECPub} {b : Bool} {pt : Bytes} (hq : Followed q) (h : pairSend q b pt = some q') :
    Followed q' := by
  unfold pairSend at h
  split at h
  · cases h
  · rename_i k hk
    split at h
    · cases h
    · rename_i t ht
      split at h
      · cases h
      · rename_i c hc
        split at h
        · rename_i hl
          rw [← Option.some.inj h]
          exact ⟨hq.1.step (PairStep.send hk ht hl hc), hq.2⟩
        · cases h

theorem pairDeliver_ok {q q' : Pair × List ECPub} {b : Bool} {k i : Nat} {seed : Bytes} (hq : Followed q)
    (h : pairDeliver q b k i seed = some q') : Followed q' := by
  unfold pairDeliver at h
  split at h
  · cases h
  · rename_i t ht
    split at h
    · cases h
    · rename_i c pt hc
      split at h
      · rename_i hcond
        obtain ⟨h1, h2, h3, h4, h5⟩ := hcond
        rw [← Option.some.inj h]
        have hd : ∀ x, drawn seed (fun _ => seed) x → x = toy.genPub (toy.genPriv seed) := by
          rintro x (e | ⟨_, e⟩) <;> exact e
        refine ⟨hq.1.step (PairStep.deliver ht hc h1 h2 (heldCheck_ok hq h3) h4 (fun _ => h4) ?_), ?_⟩
        · intro x hx hkx
          rw [hd x hx] at hkx
          exact h5 (hq.2 _ hkx)
        · rintro x (hx | hx)
          · exact List.mem_cons_of_mem _ (hq.2 x hx)
          · rw [hd x hx]; exact List.mem_cons_self ..
      · cases h

/-- Both send in the session they started; both messages arrive, so each party changes to the session of the other; both send
twice more, and the last message of each arrives, twice. -/
def pairRun : Option (Pair × List ECPub) :=
  ((pairSend (pair2, [(Example.pair 22).pub, toy.genPub (toy.genPriv (key 42)), (Example.pair 62).pub,
      toy.genPub (toy.genPriv (key 44))]) true [104, 105]).bind fun q =>
    (pairSend q false [121, 111]).bind fun q =>
    (pairDeliver q false 0 0 (key 51)).bind fun q => (pairDeliver q true 1 0 (key 52)).bind fun q =>
    (pairSend q true [1]).bind fun q => (pairSend q true [2]).bind fun q =>
    (pairSend q false [3]).bind fun q => (pairSend q false [4]).bind fun q =>
    (pairDeliver q false 1 1 (key 53)).bind fun q => (pairDeliver q true 0 1 (key 54)).bind fun q =>
    (pairDeliver q false 1 1 (key 55)).bind fun q => pairDeliver q true 0 1 (key 56))

theorem pairRun_ok {q : Pair × List ECPub} (h : pairRun = some q) : Followed q := by
  unfold pairRun at h
  simp only [Option.bind_eq_some_iff] at h
  obtain ⟨a1, h1, a2, h2, a3, h3, a4, h4, a5, h5, a6, h6, a7, h7, a8, h8, a9, h9, a10, h10, a11, h11, h12⟩ := h
  have h0 : Followed (pair2, [(Example.pair 22).pub, toy.genPub (toy.genPriv (key 42)), (Example.pair 62).pub,
      toy.genPub (toy.genPriv (key 44))]) := by
    refine ⟨(PairSteps.refl.step pair_step1).step pair_step2, ?_⟩
    rintro x ((h | rfl | rfl) | rfl | rfl)
    · cases h
    all_goals simp
  exact pairDeliver_ok (pairDeliver_ok (pairDeliver_ok (pairDeliver_ok (pairSend_ok (pairSend_ok (pairSend_ok (pairSend_ok
    (pairDeliver_ok (pairDeliver_ok (pairSend_ok (pairSend_ok h0 h1) h2) h3) h4) h5) h6) h7) h8) h9) h10) h11) h12

/-- In the end each party is back in the session it started; message 0 of the other session is still to come, message 1 is
accepted and remembered; the session is held and the message refused by the other one; a new key is at hand. -/
def pairCheck (q : Pair × List ECPub) : Bool :=
  decide (q.1.current true = some 0) && decide (q.1.current false = some 1) &&
  [(true, 0), (false, 1)].all fun x =>
    match q.1.talks[x.2]? with
    | none => false
    | some t => t.accepted x.1 == [1] && decide (t.joined x.1) &&
      ((t.sent (!x.1))[0]?.any fun m => decide (t.inLimits x.1 (header m.1)) && heldCheck q t x.1 m.1.inner) &&
      ((t.sent (!x.1))[1]?.any fun m => decide (t.remembered x.1 (header m.1)) && heldCheck q t x.1 m.1.inner) &&
      decide (toy.genPub (toy.genPriv (key 57)) ∉ q.2)

theorem pairRun_check : pairRun.any pairCheck = true := by decide +kernel

/-- The hypotheses of C70 are met. -/
example : ∃ q, PairStart pairAddr pair0 ∧ Followed q ∧ pairCheck q = true := by
  have h := pairRun_check
  cases hr : pairRun with
  | none => rw [hr] at h; cases h
  | some q => rw [hr] at h; exact ⟨q, pair_example_start, pairRun_ok hr, h⟩

end
end Axolotl
