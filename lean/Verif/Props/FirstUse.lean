import Verif.Proofs.FirstUse

/-! # C97: first conversations -/

namespace Axolotl
section
variable [C : Crypto]
open SessionState SessionBuilder RatchetingSession
open Spec (Net Conv Step Start header AStep ASteps Attack Recorded Term KeyName Leak Derives Named Tagged Offered OfferedFirst OfferedLeft
  spkName Computed Crafted CraftedSetup Craft Composed ComposedSetup Compose Outside CStep CSteps FStep FSteps Verifies SetUp Chainless
  FirstUse First Leftover)

/-! ## How they begin -/

/-- **C97, by a bundle.** If neither side had a session before, and both applications trust on first use, then the conversation that
the bundle of the one begins is a first one. -/
theorem C97_bundle (hC : C.Lawful) {wA wB : World} {ab ba : Address} {b : PreKeyBundle} {spkId otId : Nat} {spk otk : KeyPair}
    {baseSeed ratchetSeed : Bytes} {keys : List ECPub} (hA : Spec.GoodSelf wA) (hB : Spec.Published wB b spkId spk (some (otId, otk)))
    (htr : wA.isTrusted ab.1 b.identityKey = true) (h1 : baseSeed.length = 32) (h2 : ratchetSeed.length = 32)
    (hpA : FirstUse wA) (hpB : FirstUse wB) (hnA : ∀ r, wA.sessions ab = some r → ∀ s ∈ Spec.states r, Chainless s)
    (hnB : ∀ r, wB.sessions ba = some r → ∀ s ∈ Spec.states r, Chainless s) :
    First
      { addr := fun s => if s then ab else ba, start := fun s => if s then [spk.pub] else [], waits := true, preKeyId := some otId }
      { world := fun s => if s then (SessionBuilder.processPreKeyBundle wA ab b baseSeed ratchetSeed).final wA else wB,
        sent := fun _ => [], accepted := fun _ => [], keys := keys } := by
  obtain ⟨secrets, s0, _, e2, _⟩ := bundle_forward hC hA hB htr h1 h2
  refine ⟨fun s => ?_, fun s hj => ?_, fun s r hj hr => ?_, fun s r hr x hx => ?_⟩
  · cases s
    · exact hpB
    · have hfix : Fixed wA ((processPreKeyBundle wA ab b baseSeed ratchetSeed).final wA) := fixed_applyAll _ _
      show FirstUse ((processPreKeyBundle wA ab b baseSeed ratchetSeed).final wA)
      unfold FirstUse
      rw [hfix.policy]
      exact hpA
  · cases s
    · exact absurd rfl (hj rfl rfl)
    · show ((processPreKeyBundle wA ab b baseSeed ratchetSeed).final wA).identities ab.1 = some wB.identityKeyPair.pub
      rw [e2, ← hB.identity]
      simp [Outcome.final, World.applyAll, World.apply, upd]
  · cases s
    · exact hnB r hr _ (List.mem_cons_self ..)
    · exact absurd (fun _ h => by cases h) hj
  · cases s
    · exact hnB r hr _ (List.mem_cons_of_mem _ hx)
    · have hr' : ((processPreKeyBundle wA ab b baseSeed ratchetSeed).final wA).sessions ab = some r := hr
      rw [e2] at hr'
      simp only [Outcome.final, World.applyAll, World.apply, upd, List.foldl, if_true, Option.some.injEq] at hr'
      subst hr'
      exact archived_chainless hnA hx

theorem kem_record {w : World} {a : Address} {m : KeyExchangeMessage} {rnd : InitiateRand} {r : SessionRecord} {k : ECPub}
    {res : Res (Option KeyExchangeMessage)} (h : processKeyExchangeMessage w a m rnd = ⟨[.session a r, .identity a.1 k], res⟩)
    (hn : ∀ r, w.sessions a = some r → ∀ s ∈ Spec.states r, Chainless s) {s : SessionState} (hs : s ∈ r.previousStates) : Chainless s := by
  have hw : ∃ s', r = (archiveUnlessFresh (w.loadSession a)).setState s' := by
    have hm : Write.session a r ∈ (processKeyExchangeMessage w a m rnd).writes := by rw [h]; exact List.mem_cons_self ..
    have hw' : (processKeyExchangeMessage w a m rnd).writes = [.session a r, .identity a.1 k] := by rw [h]
    unfold processKeyExchangeMessage at hm hw'
    split at hm
    · cases hm
    · rename_i h1
      rw [if_neg h1] at hw'
      split at hm
      · rename_i h2
        rw [if_pos h2] at hw'
        obtain ⟨_, p, s', _, _, _, _, e⟩ := processInitiate_writes hm
        rw [e] at hw'
        exact ⟨s', (Write.session.inj (List.cons.inj hw').1).2.symm⟩
      · rename_i h2
        rw [if_neg h2] at hw'
        obtain ⟨_, _, _, p, s', _, _, _, _, _, _, _, e⟩ := processResponse_writes hm
        rw [e] at hw'
        exact ⟨s', (Write.session.inj (List.cons.inj hw').1).2.symm⟩
  obtain ⟨s', rfl⟩ := hw
  exact archived_chainless hn hs

/-- After we have asked for a key exchange there is still no session. -/
theorem ask_chainless {w : World} {a : Address} {rnd : Nat} {bs rs ss : Bytes}
    (hn : ∀ r, w.sessions a = some r → ∀ s ∈ Spec.states r, Chainless s) :
    ∀ r, ((processInitKeyExchangeMessage w a rnd bs rs ss).final w).sessions a = some r → ∀ s ∈ Spec.states r, Chainless s := by
  intro r hr
  cases hw : (processInitKeyExchangeMessage w a rnd bs rs ss).writes with
  | nil =>
    unfold Outcome.final at hr
    rw [hw] at hr
    exact hn r hr
  | cons x xs =>
    obtain ⟨s, e1, e2⟩ := initKeyExchange_writes (x := x) (by rw [hw]; exact List.mem_cons_self ..)
    unfold Outcome.final at hr
    rw [e2] at hr
    simp only [World.applyAll, World.apply, upd, List.foldl, if_true, Option.some.injEq] at hr
    subst hr
    have hl := chainless_load hn
    intro s' hs'
    rcases List.mem_cons.1 hs' with rfl | hs'
    · unfold setPendingKeyExchange at e1
      obtain ⟨q, _, e1⟩ := bind_eq_ok.1 e1
      have := hl _ (List.mem_cons_self ..)
      rw [← Except.ok.inj e1]
      exact this
    · exact hl _ (List.mem_cons_of_mem _ hs')

/-- **C97, by a key exchange.** The same for a conversation that a key exchange begins. -/
theorem C97_exchange (hC : C.Lawful) {wA wB : World} {ab ba : Address} {rnd : Nat} {bs rs ss : Bytes}
    {rndB rndA : SessionBuilder.InitiateRand} {ask answer : KeyExchangeMessage} {lt : Bool} {start : Bool → List ECPub} {keys : List ECPub}
    (hke : Spec.KeyExchange wA wB ab ba rnd bs rs ss rndB rndA)
    (hpend : ∀ r, wB.sessions ba = some r → r.sessionState.pendingKeyExchange = none)
    (hask : (SessionBuilder.processInitKeyExchangeMessage wA ab rnd bs rs ss).result = .ok ask)
    (hans : (SessionBuilder.processKeyExchangeMessage wB ba ask rndB).result = .ok (some answer))
    (hpA : FirstUse wA) (hpB : FirstUse wB) (hnA : ∀ r, wA.sessions ab = some r → ∀ s ∈ Spec.states r, Chainless s)
    (hnB : ∀ r, wB.sessions ba = some r → ∀ s ∈ Spec.states r, Chainless s) :
    First
      { addr := fun s => if s = lt then ab else ba, start := start, waits := false, preKeyId := none }
      { world := fun s =>
          if s = lt then
            (SessionBuilder.processKeyExchangeMessage
              ((SessionBuilder.processInitKeyExchangeMessage wA ab rnd bs rs ss).final wA) ab answer rndA).final
              ((SessionBuilder.processInitKeyExchangeMessage wA ab rnd bs rs ss).final wA)
          else (SessionBuilder.processKeyExchangeMessage wB ba ask rndB).final wB,
        sent := fun _ => [], accepted := fun _ => [], keys := keys } := by
  obtain ⟨ask', answer', rA, rB, secrets, q1, q2, q3, q4, q5, q6⟩ := exchange_run hC hke hpend
  rw [hask] at q1
  obtain rfl : ask = ask' := Except.ok.inj q1
  rw [q3] at hans
  obtain rfl : answer' = answer := Option.some.inj (Except.ok.inj hans)
  let w1 := (processInitKeyExchangeMessage wA ab rnd bs rs ss).final wA
  let w2 := (processKeyExchangeMessage w1 ab answer' rndA).final w1
  let w3 := (processKeyExchangeMessage wB ba ask rndB).final wB
  have f1 : Fixed wA w1 := fixed_applyAll _ _
  have f2 : Fixed w1 w2 := fixed_applyAll _ _
  have f3 : Fixed wB w3 := fixed_applyAll _ _
  have i2 : w2.identities ab.1 = some wB.identityKeyPair.pub := by
    show ((processKeyExchangeMessage w1 ab answer' rndA).final w1).identities _ = _
    rw [q5]; simp [Outcome.final, World.applyAll, World.apply, upd]
  have i3 : w3.identities ba.1 = some wA.identityKeyPair.pub := by
    show ((processKeyExchangeMessage wB ba ask rndB).final wB).identities _ = _
    rw [q3]; simp [Outcome.final, World.applyAll, World.apply, upd]
  have s2 : w2.sessions ab = some rA := by
    show ((processKeyExchangeMessage w1 ab answer' rndA).final w1).sessions _ = _
    rw [q5]; simp [Outcome.final, World.applyAll, World.apply, upd]
  have s3 : w3.sessions ba = some rB := by
    show ((processKeyExchangeMessage wB ba ask rndB).final wB).sessions _ = _
    rw [q3]; simp [Outcome.final, World.applyAll, World.apply, upd]
  show First { addr := fun s => if s = lt then ab else ba, start := start, waits := false, preKeyId := none }
    { world := fun s => if s = lt then w2 else w3, sent := fun _ => [], accepted := fun _ => [], keys := keys }
  refine ⟨fun s => ?_, fun s _ => ?_, fun s r hj _ => absurd (fun h => by cases h) hj, fun s r hr x hx => ?_⟩
  · show FirstUse (if s = lt then w2 else w3)
    unfold FirstUse
    split
    · rw [f2.policy, f1.policy]; exact hpA
    · rw [f3.policy]; exact hpB
  · show (if s = lt then w2 else w3).identities (if s = lt then ab else ba).1 =
      some (if (!s) = lt then w2 else w3).identityKeyPair.pub
    by_cases hs : s = lt
    · have hns : (!s) ≠ lt := by subst hs; cases s <;> simp
      rw [if_pos hs, if_pos hs, if_neg hns, i2, f3.pair]
    · have hns : (!s) = lt := by cases s <;> cases lt <;> simp_all
      rw [if_neg hs, if_neg hs, if_pos hns, i3, f2.pair, f1.pair]
  · have hr' : (if s = lt then w2 else w3).sessions (if s = lt then ab else ba) = some r := hr
    by_cases hs : s = lt
    · rw [if_pos hs, if_pos hs, s2] at hr'
      obtain rfl := Option.some.inj hr'
      exact kem_record q5 (ask_chainless hnA) hx
    · rw [if_neg hs, if_neg hs, s3] at hr'
      obtain rfl := Option.some.inj hr'
      exact kem_record q3 hnB hx

/-! ## What is in the records -/

theorem asteps_clean (hC : C.Lawful) {cv : Conv} {n0 n : Net} (h0 : Start cv n0) (hf : First cv n0) (h : ASteps cv n0 n) : Clean cv n := by
  induction h with
  | refl => exact First.clean hf
  | @step m m' hm hs ih =>
    obtain ⟨⟨ids, hid, hc⟩, _⟩ := asteps_inv hC hm (start_ainv hC h0)
    cases hs with
    | honest hs => exact step_clean hC hid hc ih hs
    | attack h1 h2 h3 h4 h5 h6 => exact attack_clean hC hid hc ih h1 h2 h3 h4 h5 h6 _

/-- **C97, the records.** At every moment of a first conversation with an attacker: whoever has the session has the peer's identity
key saved and trusts no other for that name; as long as side `b` waits, nothing in its record has a chain; and every other state in a
record has no chain, or is one that a message wrapped into another setup message has left behind. -/
theorem C97_records (hC : C.Lawful) {cv : Conv} {n0 n : Net} (h0 : Start cv n0) (hf : First cv n0) (h : ASteps cv n0 n) (b : Bool) :
    (n.joined cv b → (n.world b).identities (cv.addr b).1 = some (n.world (!b)).identityKeyPair.pub ∧
      ∀ k, (n.world b).isTrusted (cv.addr b).1 k = true → k = (n.world (!b)).identityKeyPair.pub) ∧
    (∀ r, ¬ n.joined cv b → (n.world b).sessions (cv.addr b) = some r → ∀ s ∈ Spec.states r, Chainless s) ∧
    ∀ r, (n.world b).sessions (cv.addr b) = some r → ∀ s ∈ r.previousStates, Chainless s ∨ Leftover cv n b s := by
  have hcl := asteps_clean hC h0 hf h
  refine ⟨fun hj => ⟨hcl.saved b hj, fun k hk => ?_⟩, fun r => hcl.before b r, fun r => hcl.previous b r⟩
  rcases hcl.policy b _ _ _ hk with e | e
  · rw [hcl.saved b hj] at e; cases e
  · rw [hcl.saved b hj] at e; exact (Option.some.inj e).symm

theorem chainless_rejects {s : SessionState} (h : Chainless s) (m : WhisperMessage) : Spec.Rejects m s := by
  refine ⟨fun hs => ?_, ?_⟩
  · rw [h.1] at hs; cases hs
  · rintro ⟨k, them, me, body, hk, _⟩
    cases hk with
    | stored hc => rw [h.2] at hc; cases hc
    | ahead hc => rw [h.2] at hc; cases hc
    | ratchet hc => rw [h.1] at hc; cases hc

/-- **C97, the keys that count.** Every MAC key under which a message may verify on a state that was left behind is that of one of
the terms `OfferedLeft`: it comes from the agreement of the peer's identity key with a signed prekey of ours. -/
theorem C97_offered (hC : C.Lawful) {cv : Conv} {n0 n : Net} (h0 : Start cv n0) (h : ASteps cv n0 n) {key : KeyName → Bytes}
    {top spkId : Nat} (hn : Named key top spkId cv n) {b : Bool} {s : SessionState} (hs : Leftover cv n b s) {eph : ECPub} {k : Nat} {x : Bytes}
    (hx : Spec.MacKey s eph k x) : ∃ M, OfferedLeft spkId cv b k M ∧ M.value key (fun _ _ => []) = x := by
  obtain ⟨_, _, _, _, hgood, _, _⟩ := craft_moment hC h0 h
  have hkid : ∀ b, (key (.identity b)).length = 32 := by
    intro b
    have := (hgood b).priv
    rw [hn.describes.identity b] at this
    exact this
  obtain ⟨pks, m, hid, ⟨signed, spk, otk, okm, lr, h1, h2, h3, h4, ⟨d1, d2, d3, d4, e1, e2, e3, e4, rfl⟩, h6, rfl⟩, _⟩ := hs
  have hspk := hn.signed b _ _ _ h1 h2
  cases hx with
  | stored h => cases h
  | ahead h => cases h
  | @ratchet c secret hc hd =>
    obtain rfl := Option.some.inj hc
    replace hd : C.dh spk.priv eph = some secret := hd
    have hl := (hC.dh_size _ _ _ e1).1
    rw [hn.describes.identity] at hid
    rw [hid, hspk] at e1
    rw [hspk] at hl e3 hd
    have e1' : C.dh (key (.identity !b)) (C.genPub (key (spkName cv spkId b m.signedPreKeyId))) = some d1 := by
      obtain ⟨s, g1, g2⟩ := hC.dh_comm _ _ hl (hkid (!b))
      rw [e1] at g1
      rw [g2, ← g1]
    refine ⟨_, .stray (i := m.signedPreKeyId) (rest := d2 ++ d3 ++ d4) (d := secret), ?_⟩
    have hroot : (Term.otherRoot (.agree (.identity !b) (spkName cv spkId b m.signedPreKeyId)) (d2 ++ d3 ++ d4)).value key (fun _ _ => []) =
        (Spec.hkdf [] (List.replicate 32 0xFF ++ d1 ++ d2 ++ d3 ++ d4) Spec.textInfo 64).take 32 := by
      unfold Term.otherRoot
      rw [value_block, (hkdf64 hC.hmac_len [] _ Spec.textInfo).1]
      simp only [Term.value, Term.noSalt]
      rw [e1']
      simp [List.append_assoc]
    show _ = Spec.macKeyOf (Spec.chainAt (Spec.ratchetChain
      ((Spec.hkdf [] (List.replicate 32 0xFF ++ d1 ++ d2 ++ d3 ++ d4) Spec.textInfo 64).take 32) secret) _)
    rw [← hroot]
    exact value_macFrom hC (value_ratchet hC (root_value_len hC _ _ _) rfl) _

/-- **C97, forged messages for a state that was left behind.** Whatever has leaked: if a computed message verifies on such a state,
then the attacker has the peer's identity key or the signed prekey that the state was set up with. -/
theorem C97_leftover {cv : Conv} {n : Net} {key : KeyName → Bytes} {top spkId : Nat} {l : Leak} {b : Bool} {s : SessionState}
    {m : WhisperMessage} (hm : Computed key (l.Sees cv.setup (Tagged key top n)) (OfferedLeft spkId cv b m.counter) s m)
    (hv : Verifies s m) : ∃ i, l.owns (.identity !b) ∨ l.owns (spkName cv spkId b i) := by
  obtain ⟨body, t, c1, c2, c3⟩ := hm
  obtain ⟨M, y, them, me, d1, rfl, _, _, _⟩ := c3 hv
  obtain ⟨spk, ot, hs, _⟩ := setup_eq cv
  rw [hs] at c2
  cases d1 with
  | @stray i rest d => exact ⟨i, (sees_otherMac _ _ _ _ _).1 (sees_stray_hmac used_otherRoot c2)⟩

/-! ## The attackers are the same -/

/-- **C97, from less to C95.** In a first conversation, whatever an attacker delivers who computes meets the assumptions of C95 about
older sessions and about trust. -/
theorem C97_craft (hC : C.Lawful) {cv : Conv} {n0 n : Net} (h0 : Start cv n0) (hf : First cv n0) (h : ASteps cv n0 n)
    {key : KeyName → Bytes} {top spkId : Nat} {l : Leak} {b : Bool} (ho : Outside l cv spkId b)
    {type : Nat} {bytes : Bytes} (hc : Compose key top spkId cv n l b type bytes) : Craft key top spkId cv n l b type bytes := by
  have hcl := asteps_clean hC h0 hf h
  have hcur : ∀ m, Composed key top spkId cv n l b m → Crafted key top cv n l b m := by
    intro m hm
    refine ⟨hm.computed, hm.limits, fun r hj hr => chainless_rejects (hcl.before b r hj hr _ (List.mem_cons_self ..)) m, fun r hr s hs => ?_⟩
    rcases hcl.previous b r hr s hs with hx | hx
    · exact chainless_rejects hx m
    · refine ⟨fun _ => ?_, fun hv => ?_⟩
      · obtain ⟨_, _, _, hsu, _⟩ := hx
        exact setUp_version hsu
      · obtain ⟨spk, ot, _, hkind⟩ := setup_eq cv
        obtain ⟨i, hi⟩ := C97_leftover (hm.leftover r s hr hs hx) hv
        exact (outside_none ho hkind).2.2 i hi
  unfold Compose at hc
  unfold Craft
  split
  · rename_i ht
    rw [if_pos ht] at hc
    intro m hm
    have hm' := hc m hm
    refine ⟨hcur _ hm'.inner, fun htr => ?_, hm'.setup⟩
    by_cases hj : n.joined cv b
    · exact ((C97_records hC h0 hf h b).1 hj).2 _ htr
    · exact hm'.contact hj htr
  · rename_i ht
    rw [if_neg ht] at hc
    exact fun m hm => hcur m (hc m hm)

theorem craft_compose {cv : Conv} {n : Net} {key : KeyName → Bytes} {top spkId : Nat} {l : Leak} {b : Bool} {type : Nat} {bytes : Bytes}
    (hc : Craft key top spkId cv n l b type bytes) : Compose key top spkId cv n l b type bytes := by
  have hcur : ∀ m, Crafted key top cv n l b m → Composed key top spkId cv n l b m := fun m hm =>
    ⟨hm.computed, hm.limits, fun r s hr hs _ => computed_noise (hm.previous r hr s hs).2⟩
  unfold Craft at hc
  unfold Compose
  split
  · rename_i ht
    rw [if_pos ht] at hc
    exact fun m hm => ⟨hcur _ (hc m hm).inner, fun _ => (hc m hm).pinned, (hc m hm).setup⟩
  · rename_i ht
    rw [if_neg ht] at hc
    exact fun m hm => hcur m (hc m hm)

/-- **C97, the attackers are the same.** The first conversations with an attacker of whom nothing is assumed about older sessions,
and nothing about trust after the first contact, are exactly those of C95. -/
theorem C97_steps (hC : C.Lawful) {cv : Conv} {n0 n : Net} (h0 : Start cv n0) (hf : First cv n0) : FSteps cv n0 n ↔ CSteps cv n0 n := by
  constructor
  · intro h
    induction h with
    | refl => exact .refl
    | step _ hs ih =>
      cases hs with
      | honest hs => exact ih.step (.honest hs)
      | compose h1 h2 h3 h4 h5 h6 h7 h8 =>
        exact ih.step (.craft h1 h2 (C97_craft hC h0 hf ((C95_steps hC h0).1 ih) h2 h3) h4 h5 h6 h7 h8)
  · intro h
    induction h with
    | refl => exact .refl
    | step _ hs ih =>
      cases hs with
      | honest hs => exact ih.step (.honest hs)
      | craft h1 h2 h3 h4 h5 h6 h7 h8 => exact ih.step (.compose h1 h2 (craft_compose h3) h4 h5 h6 h7 h8)

/-- **C97, what is accepted.** Then side `b` accepts only messages of the peer, each at most once. -/
theorem C97_only_sent (hC : C.Lawful) {cv : Conv} {n0 n : Net} (h0 : Start cv n0) (hf : First cv n0) (h : FSteps cv n0 n)
    {key : KeyName → Bytes} {top spkId : Nat} (hn : Named key top spkId cv n) {l : Leak} {b : Bool} (ho : Outside l cv spkId b) {type : Nat}
    {bytes seed : Bytes} {seeds : Nat → Bytes} (hc : Compose key top spkId cv n l b type bytes) (hs1 : seed.length = 32)
    (hs2 : (seeds 0).length = 32) (hf1 : C.genPub (C.genPriv seed) ∉ n.keys) (hf2 : C.genPub (C.genPriv (seeds 0)) ∉ n.keys) {pt : Bytes}
    (hok : (Spec.receive (n.world b) (cv.addr b) type bytes seed seeds).result = .ok pt) :
    ∃ (i : Nat) (c : Ciphertext), (n.sent (!b))[i]? = some (c, pt) ∧ i ∉ n.accepted b ∧
      Spec.InnerBytes type bytes c.inner.serialized :=
  have h' := (C97_steps hC h0 hf).1 h
  C95_only_sent hC h0 h' hn ho (C97_craft hC h0 hf ((C95_steps hC h0).1 h') ho hc) hs1 hs2 hf1 hf2 hok

/-- **C97, messages get through.** And however they interfere, messages are delivered as without them. -/
theorem C97_conversation (hC : C.Lawful) {cv : Conv} {n0 n : Net} (h0 : Start cv n0) (hf : First cv n0) (h : FSteps cv n0 n)
    {b : Bool} {i : Nat} {c : Ciphertext} {pt : Bytes} (hi : (n.sent (!b))[i]? = some (c, pt))
    {seed : Bytes} (hseed : seed.length = 32) (hfresh : C.genPub (C.genPriv seed) ∉ n.keys) (seeds : Nat → Bytes) :
    let o := Spec.receive (n.world b) (cv.addr b) c.getType c.serialize seed seeds
    (i ∉ n.accepted b → n.inLimits cv b (header c) → o.result = .ok pt) ∧
    (i ∈ n.accepted b → n.remembered cv b (header c) →
      o.result = .error .duplicateMessage ∧ (o.final (n.world b)).sessions = (n.world b).sessions ∧
      (o.final (n.world b)).preKeys = (n.world b).preKeys) :=
  C95_conversation hC h0 ((C97_steps hC h0 hf).1 h) hi hseed hfresh seeds

end

/-! ## Non-vacuity: the run of C86 -/

section
attribute [local instance] toy
open Example
open Spec (Net Conv Start ASteps FSteps Named First FirstUse Leftover Chainless)

theorem tofu_firstUse {w : World} (h : w.policy = tofu) : FirstUse w := by
  intro saved name key hk
  rw [h] at hk
  unfold tofu at hk
  cases hs : saved name with
  | none => exact Or.inl rfl
  | some k =>
    rw [hs] at hk
    exact Or.inr (congrArg some (by simpa using hk))

/-- The conversation of Alice and Bob is their first. -/
theorem act_first : First convCv act0 := by
  have hp := contact_example.published
  exact C97_bundle toy_lawful (wA := alice0) (wB := bobTwo) (ab := bobAddr) (ba := aliceAddr) (b := bobBundle) (spkId := 22)
    (otId := 31) (spk := pair 22) (otk := pair 31) (baseSeed := key 41) (ratchetSeed := key 42)
    contact_example.self
    ⟨hp.identity, hp.goodIdentity, hp.signedKey, hp.signedId, hp.signedRange, hp.signedStored, hp.goodSigned, hp.signature,
      hp.oneTime, (by
        intro p h
        obtain ⟨h1, h2, h3, h4⟩ := hp.oneTimeStored p h
        obtain rfl := Option.some.inj h
        exact ⟨h1, h2, h3, h4⟩), hp.registration, hp.registrationRange⟩
    contact_example.trustA rfl rfl (tofu_firstUse rfl) (tofu_firstUse rfl) (fun r hr => by cases hr) (fun r hr => by cases hr)

/-- Bob's record holds a state with a chain besides the session. -/
def leftCheck (n : Net) : Bool :=
  ((n.world false).sessions aliceAddr).any fun r => r.previousStates.any fun s => s.senderChain.isSome

theorem actRun_left : actRun.any leftCheck = true := by decide +kernel

/-- The run of C86, in which the attacker wraps a message of Alice into a setup message of their own and tries another identity key:
it is one with an attacker of C97, and it leaves a state behind in Bob's record. -/
example : ∃ n, Start convCv act0 ∧ First convCv act0 ∧ FSteps convCv act0 n ∧ n.accepted false = [1, 0] ∧ n.accepted true = [0] ∧
    (∃ key top spkId, Named key top spkId convCv n) ∧
    ∃ r, (n.world false).sessions aliceAddr = some r ∧ ∃ s ∈ r.previousStates, Leftover convCv n false s := by
  obtain ⟨n, hn, hc⟩ := (Option.any_eq_true _ _).1 actRun_check
  unfold actCheck at hc
  simp only [Bool.and_eq_true, beq_iff_eq] at hc
  have hl := actRun_left
  rw [hn, Option.any_some] at hl
  obtain ⟨r, hr, hl⟩ := (Option.any_eq_true _ _).1 hl
  obtain ⟨s, hs, hl⟩ := List.any_eq_true.1 hl
  obtain ⟨key, top, spkId, _, h⟩ := C95_names toy_lawful act_start (actRun_steps hn)
  refine ⟨n, act_start, act_first, (C97_steps toy_lawful act_start act_first).2 ((C95_steps toy_lawful act_start).2 (actRun_steps hn)),
    hc.1.1.1, hc.1.1.2, ⟨key, top, spkId, h⟩, r, hr, s, hs, ?_⟩
  rcases (C97_records toy_lawful act_start act_first (actRun_steps hn) false).2.2 r hr s hs with hx | hx
  · rw [hx.1] at hl; cases hl
  · exact hx

/-- A first conversation may also begin with a key exchange. -/
example : ∃ cv n, Start cv n ∧ First cv n ∧ cv.waits = false := by
  obtain ⟨ask, answer, _, _, _, q1, _, q3, _⟩ := exchange_run toy_lawful exchange_example exchange_example_pending
  exact ⟨_, _, Start.exchange (lt := true) exchange_example exchange_example_pending q1 (by rw [q3])
    (by decide +kernel) rfl rfl (by decide +kernel),
    C97_exchange toy_lawful (lt := true) exchange_example exchange_example_pending q1 (by rw [q3]) (tofu_firstUse rfl) (tofu_firstUse rfl)
      (fun r hr => by cases hr) (fun r hr => by cases hr), rfl⟩

end
end Axolotl
