import Verif.Spec.Takeover
import Verif.Props.Restore
import Verif.Props.Forge

/-! # C99: whoever has the session record has the session -/

namespace Axolotl
section
variable [C : Crypto]
open Spec (Net Conv Start ASteps Attack header Readable Carries InnerBytes)

omit C in
theorem moved_self {cv : Conv} {b : Bool} {a : Address} : (cv.moved b a).addr b = a := upd_same ..

omit C in
theorem moved_peer {cv : Conv} {b x : Bool} {a : Address} (h : x ≠ b) : (cv.moved b a).addr x = cv.addr x := upd_other _ _ h

omit C in
theorem moved_world {n : Net} {b x : Bool} {w : World} (h : x ≠ b) : (n.moved b w).world x = n.world x := upd_other _ _ h

theorem ginv_moved {v : Kdf} {cv : Conv} {ids : Bool → ECPub} {n : Net} {g : Ghost v} (h : GInv cv ids n g) (b : Bool) (a : Address) (w : World) :
    GInv (cv.moved b a) ids (n.moved b w) g :=
  ⟨h.idsLen, h.nonempty, h.lo, h.hi, h.nlt, h.good, h.next, h.inj, h.keys, h.ep, h.seen, h.index, h.missing, h.nodup, h.msg, h.tags, h.valid⟩

theorem winv_moved {v : Kdf} {cv : Conv} {ids : Bool → ECPub} {hd : PkHeader} {n : Net} {g : Ghost v} (h : WInv cv ids hd n g)
    (hid : ∀ b, (n.world b).identityKeyPair.pub = ids b) {b : Bool} {a : Address} {w : World} (hj : n.joined cv b)
    (hc : Carries cv n b a w) : WInv (cv.moved b a) ids hd (n.moved b w) g := by
  have hopen : Open cv ids hd g b (n.world b) := by
    rcases h.sides b with ho | ⟨rfl, q⟩
    · exact ho
    · exact absurd q.accepted (hj q.waits rfl)
  have hmoved : Open (cv.moved b a) ids hd g b ((n.moved b w).world b) := by
    obtain ⟨r, q1, q2, q3, q4⟩ := hopen
    refine ⟨r, ?_, q2, q3, q4⟩
    show (upd n.world b w b).sessions (upd cv.addr b a b) = _
    rw [upd_same, upd_same, hc.record]
    exact q1
  have hwait : Waiting cv ids hd n g → Waiting (cv.moved b a) ids hd (n.moved b w) g := by
    intro q
    obtain rfl : b = true := by
      cases b with
      | true => rfl
      | false => exact absurd q.accepted (hj q.waits rfl)
    have e1 : (n.moved true w).world false = n.world false := moved_world (by simp)
    have e2 : (cv.moved true a).addr false = cv.addr false := moved_peer (by simp)
    obtain ⟨r, q1, q2⟩ := q.announcing
    refine ⟨q.waits, q.accepted, q.silent, q.none', q.announced, ⟨r, ?_, q2⟩, ?_, ?_, ?_, ?_, ?_⟩
    · show (upd n.world true w true).sessions (upd cv.addr true a true) = _
      rw [upd_same, upd_same, hc.record]
      exact q1
    · rw [e1]; exact q.identity
    · rw [e1]; exact q.self
    · rw [e1, e2]; exact q.new
    · rw [e1]; exact q.reg
    · rw [e1]; exact q.keys
  refine ⟨h.v3, h.hdr, h.wire, fun hwt => ?_, fun x => ?_, fun hwt hacc => hwait (h.waiting hwt hacc)⟩
  · cases b with
    | true =>
      show Spec.Trusting (upd n.world true w false).policy (upd cv.addr true a false).1 _ ∧ _
      have e1 : (n.moved true w).world false = n.world false := moved_world (by simp)
      have e2 : (cv.moved true a).addr false = cv.addr false := moved_peer (by simp)
      rw [e1, e2, upd_other _ _ (by simp), upd_other _ _ (by simp)]
      exact h.trust hwt
    | false =>
      have := hc.trust rfl hwt
      rw [hid] at this
      show Spec.Trusting (upd n.world false w false).policy (upd cv.addr false a false).1 _ ∧
        ((upd n.world false w false).identities (upd cv.addr false a false).1 = none ∨
          (upd n.world false w false).identities (upd cv.addr false a false).1 = some (ids true))
      rw [upd_same, upd_same]
      exact this
  · by_cases hx : x = b
    · subst hx; exact Or.inl hmoved
    · have e1 : (n.moved b w).world x = n.world x := upd_other _ _ hx
      have e2 : (cv.moved b a).addr x = cv.addr x := moved_peer hx
      rcases h.sides x with ho | ⟨e, q⟩
      · refine Or.inl ?_
        unfold Open at ho ⊢
        rw [e1, e2]
        exact ho
      · exact Or.inr ⟨e, hwait q⟩

omit C in
theorem moved_identity {cv : Conv} {ids : Bool → ECPub} {n : Net} (hid : ∀ b, (n.world b).identityKeyPair.pub = ids b) {b : Bool} {a : Address}
    {w : World} (hc : Carries cv n b a w) (x : Bool) : ((n.moved b w).world x).identityKeyPair.pub = ids x := by
  show (upd n.world b w x).identityKeyPair.pub = _
  by_cases hx : x = b
  · subst hx; rw [upd_same, hc.identity]; exact hid x
  · rw [upd_other _ _ hx]; exact hid x

theorem moved_ainv (hC : C.Lawful) {cv : Conv} {n0 n : Net} (h0 : Start cv n0) (h : ASteps cv n0 n) {b : Bool} (hj : n.joined cv b)
    {a : Address} {w : World} (hc : Carries cv n b a w) : AInv (cv.moved b a) (n.moved b w) := by
  obtain ⟨⟨ids, hid, hd, g, hg, hw⟩, hnd⟩ := asteps_inv hC h (start_ainv hC h0)
  exact ⟨⟨ids, moved_identity hid hc, hd, g, ginv_moved hg b a w, winv_moved hw hid hj hc⟩, hnd⟩

/-- **C99, the session goes on.** In a conversation, attacked or not, the record of a side is put into another store, together with
nothing but the public identity key.  From then on the owner of that store takes the place of the side: every message in either
direction, from before or after, is decrypted to what was encrypted, once, however the network interferes. -/
theorem C99_continues (hC : C.Lawful) {cv : Conv} {n0 n m : Net} (h0 : Start cv n0) (h : ASteps cv n0 n) {b : Bool} (hj : n.joined cv b)
    {a : Address} {w : World} (hc : Carries cv n b a w) (hm : ASteps (cv.moved b a) (n.moved b w) m) :
    Readable (cv.moved b a) m ∧ ∀ x, (m.accepted x).Nodup := by
  obtain ⟨⟨ids, _, hcv⟩, hnd⟩ := asteps_inv hC hm (moved_ainv hC h0 h hj hc)
  refine ⟨?_, hnd⟩
  intro x i c pt seed seeds hi hseed hfresh o
  constructor
  · intro ha hl
    exact (conv_deliver_at hC hcv seeds hi (fun _ => hl) (fun y => absurd y ha) hseed hfresh).2.1 ha
  · intro ha hr
    exact (conv_deliver_at hC hcv seeds hi (fun y => absurd ha y) (fun _ => hr) hseed hfresh).2.2 ha

/-- **C99, sending.** They can send as the side could. -/
theorem C99_can_send (hC : C.Lawful) {cv : Conv} {n0 n m : Net} (h0 : Start cv n0) (h : ASteps cv n0 n) {b : Bool} (hj : n.joined cv b)
    {a : Address} {w : World} (hc : Carries cv n b a w) (hm : ASteps (cv.moved b a) (n.moved b w) m) {x : Bool} (hx : m.joined cv x)
    {r : SessionRecord} (hr : (m.world x).sessions ((cv.moved b a).addr x) = some r) {pt : Bytes} (hpt : pt.length < 2 ^ 62) :
    (∃ c, (SessionCipher.encrypt (m.world x) ((cv.moved b a).addr x) pt).result = .ok c) ↔
      ∃ s k, r.sessionState.senderChain = some s ∧ s.chainKey = some k ∧ (k.index.getD 0) + 1 < 2 ^ 32 := by
  obtain ⟨⟨ids, _, hcv⟩, _⟩ := asteps_inv hC hm (moved_ainv hC h0 h hj hc)
  exact conv_can_send hC hcv hx hr hpt

/-- **C99, forging.** Nor is anything else accepted in the conversation that goes on: what the network makes up is refused, unless it
carries the bytes of a message of the other side that was not accepted before. -/
theorem C99_only_sent (hC : C.Lawful) {cv : Conv} {n0 n m : Net} (h0 : Start cv n0) (h : ASteps cv n0 n) {b : Bool} (hj : n.joined cv b)
    {a : Address} {w : World} (hc : Carries cv n b a w) (hm : ASteps (cv.moved b a) (n.moved b w) m) {x : Bool} {type : Nat}
    {bytes seed : Bytes} {seeds : Nat → Bytes} (ha : Attack (cv.moved b a) m x type bytes) (hs1 : seed.length = 32)
    (hs2 : (seeds 0).length = 32) (hf1 : C.genPub (C.genPriv seed) ∉ m.keys) (hf2 : C.genPub (C.genPriv (seeds 0)) ∉ m.keys) {pt : Bytes}
    (hok : (Spec.receive (m.world x) ((cv.moved b a).addr x) type bytes seed seeds).result = .ok pt) :
    ∃ (i : Nat) (c : Ciphertext), (m.sent (!x))[i]? = some (c, pt) ∧ i ∉ m.accepted x ∧ InnerBytes type bytes c.inner.serialized :=
  (attack_recorded hC (asteps_inv hC hm (moved_ainv hC h0 h hj hc)) ha hs1 hs2 hf1 hf2).1 pt hok

/-- Two ways on from the same moment; a message of the one is read in the other. -/
theorem fork_read (hC : C.Lawful) {ids : Bool → ECPub} {hd : PkHeader} {cv cv' : Conv} {n1 m n : Net} {g1 gm gn : Ghost .v3} (hcv : cv'.waits = cv.waits)
    (hgm : GInv cv ids m gm) (hwm : WInv cv ids hd m gm) (hem : g1.Extends n1.keys gm)
    (hgn : GInv cv' ids n gn) (hwn : WInv cv' ids hd n gn) (hen : g1.Extends n1.keys gn) {x : Bool} (hopen : n.joined cv' x) {i : Nat}
    {c : Ciphertext} {pt : Bytes} (hi : (m.sent (!x))[i]? = some (c, pt)) (hold : (header c).1 ∈ n1.keys) {seed : Bytes}
    (hseed : seed.length = 32) (seeds : Nat → Bytes) :
    let o := Spec.receive (n.world x) (cv'.addr x) c.getType c.serialize seed seeds
    (header c ∉ n.log x → n.inLimits cv' x (header c) → o.result = .ok pt) ∧
    (header c ∈ n.log x → n.remembered cv' x (header c) →
      o.result = .error .duplicateMessage ∧ (o.final (n.world x)).sessions = (n.world x).sessions ∧
      (o.final (n.world x)).preKeys = (n.world x).preKeys) := by
  intro o
  obtain ⟨t, k, l1, l2, l3, l4⟩ := hgm.locate hi
  have hj : 2 * t + off x ≤ g1.top := hem.old l2 (by rw [l3] at hold; exact hold)
  rw [hem.same _ hj, ← hen.same _ hj] at l3 l4
  have hwire : WireOk cv' ids hd (!x) c := by
    have := hwm.wire _ _ _ _ hi
    unfold WireOk at this ⊢
    rw [hcv]
    exact this
  rcases hwn.sides x with ⟨r, q1, q2, q3, q4⟩ | ⟨rfl, q⟩
  rotate_left
  · exact absurd q.accepted (hopen q.waits rfl)
  obtain ⟨ws, hws, hrec⟩ := Open.receive_eq (b := x) (hd := hd) (ids := ids) q1
    (fun e y => ⟨q2.version, q4 e y⟩) (by rintro rfl y; exact hwn.trusted y) hwire seed seeds
  obtain ⟨r1, r2⟩ := hgn.reads hC q2 (Nat.le_trans hj hen.top) l4 hseed
  rw [l3]
  constructor
  · intro ha hl
    obtain ⟨s', e⟩ := r1 ha hl
    rw [dwsr_forward (r := { r with fresh := false }) seeds e] at hrec
    show (Spec.receive _ _ _ _ _ _).result = _
    rw [hrec]
  · intro ha hl
    have e := r2 ha hl
    rw [dwsr_duplicate (r := { r with fresh := false }) seeds e] at hrec
    simp only at hrec
    show (Spec.receive _ _ _ _ _ _).result = _ ∧ ((Spec.receive _ _ _ _ _ _).final _).sessions = _ ∧
      ((Spec.receive _ _ _ _ _ _).final _).preKeys = _
    rw [hrec]
    refine ⟨rfl, ?_⟩
    show ((n.world x).applyAll ws).sessions = _ ∧ ((n.world x).applyAll ws).preKeys = _
    rcases hws with rfl | ⟨_, _, rfl⟩ <;> exact ⟨rfl, rfl⟩

/-- **C99, two who go on.** The side that the record was taken from goes on as well.  What it writes (moment `k`), under a ratchet key
that existed when the record was taken, reaches the peer, who has gone on with the other one (moment `m`): the peer refuses it as a
duplicate if it has accepted a message with the same ratchet key and number, and otherwise, within the limits, reads it too.  The
same holds for what the other one writes, if the peer has gone on with the side itself. -/
theorem C99_fork (hC : C.Lawful) {cv : Conv} {n0 n m k : Net} (h0 : Start cv n0) (h : ASteps cv n0 n) {b : Bool} (hj : n.joined cv b)
    {a : Address} {w : World} (hc : Carries cv n b a w) (hm : ASteps (cv.moved b a) (n.moved b w) m) (hk : ASteps cv n k) {x : Bool} {i : Nat}
    {c : Ciphertext} {pt seed : Bytes} (hold : (header c).1 ∈ n.keys) (hseed : seed.length = 32) (seeds : Nat → Bytes) :
    ((k.sent (!x))[i]? = some (c, pt) → m.joined cv x →
      let o := Spec.receive (m.world x) ((cv.moved b a).addr x) c.getType c.serialize seed seeds
      (header c ∉ m.log x → m.inLimits cv x (header c) → o.result = .ok pt) ∧
      (header c ∈ m.log x → m.remembered cv x (header c) →
        o.result = .error .duplicateMessage ∧ (o.final (m.world x)).sessions = (m.world x).sessions ∧
        (o.final (m.world x)).preKeys = (m.world x).preKeys)) ∧
    ((m.sent (!x))[i]? = some (c, pt) → k.joined cv x →
      let o := Spec.receive (k.world x) (cv.addr x) c.getType c.serialize seed seeds
      (header c ∉ k.log x → k.inLimits cv x (header c) → o.result = .ok pt) ∧
      (header c ∈ k.log x → k.remembered cv x (header c) →
        o.result = .error .duplicateMessage ∧ (o.final (k.world x)).sessions = (k.world x).sessions ∧
        (o.final (k.world x)).preKeys = (k.world x).preKeys)) := by
  obtain ⟨⟨ids, hid, hd, g, hg, hw⟩, _⟩ := asteps_inv hC h (start_ainv hC h0)
  obtain ⟨⟨⟨gk, hgk, hwk, hek⟩, _⟩, _⟩ := asteps_from hC hid ⟨⟨g, hg, hw, .refl n.keys g⟩, fun _ h => h⟩ hk
  obtain ⟨⟨⟨gm, hgm, hwm, hem⟩, _⟩, _⟩ := asteps_from hC (moved_identity hid hc)
    ⟨⟨g, ginv_moved hg b a w, winv_moved hw hid hj hc, .refl n.keys g⟩, fun _ h => h⟩ hm
  exact ⟨fun hi hx => fork_read (cv := cv) (cv' := cv.moved b a) hC rfl hgk hwk hek hgm hwm hem hx hi hold hseed seeds,
    fun hi hx => fork_read (cv := cv.moved b a) (cv' := cv) hC rfl hgm hwm hem hgk hwk hek hx hi hold hseed seeds⟩

/-- What is encrypted depends on the record only. -/
theorem encrypt_record {w w' : World} {a a' : Address} (h : w'.sessions a' = w.sessions a) (pt : Bytes) :
    (SessionCipher.encrypt w' a' pt).result = (SessionCipher.encrypt w a pt).result := by
  have hl : w'.loadSession a' = w.loadSession a := by unfold World.loadSession; rw [h]
  unfold SessionCipher.encrypt
  rw [hl]
  dsimp only
  generalize SessionCipher.encryptWithState (w.loadSession a).sessionState pt = e
  cases e <;> rfl

/-- **C99, the same message.** The two encrypt a plaintext to the same bytes, and different plaintexts with the same ratchet key,
number and message key; so whichever of the two messages comes second is the one that is refused (`C99_fork`). -/
theorem C99_same {cv : Conv} {n : Net} {b : Bool} {a : Address} {w : World} (hc : Carries cv n b a w) {pt pt' : Bytes}
    {c c' : Ciphertext} (h : (SessionCipher.encrypt (n.world b) (cv.addr b) pt).result = .ok c)
    (h' : (SessionCipher.encrypt w a pt').result = .ok c') :
    (pt = pt' → c = c') ∧ header c' = header c ∧ ∃ key iv, AES.encrypt key iv pt = .ok c.inner.ciphertext ∧
      AES.encrypt key iv pt' = .ok c'.inner.ciphertext := by
  rw [encrypt_record hc.record] at h'
  refine ⟨?_, C92_same_key h h'⟩
  rintro rfl
  rw [h] at h'
  exact Except.ok.inj h'

end

/-! ## Non-vacuity: a run over the toy primitives -/

section
attribute [local instance] toy
open Example
open Spec (Net Conv Start header ASteps Carries)

/-- A store with no prekeys, no saved identities and another private key. -/
def otherStore (pub : ECPub) (a : Address) (r : Option SessionRecord) : World :=
  { identityKeyPair := ⟨pub, key 99⟩, registrationId := 77, policy := tofu, identities := fun _ => none,
    sessions := fun x => if x = a then r else none, preKeys := fun _ => none, signedPreKeys := fun _ => none }

def mallory : Address := ("anything", 7)

def taken (n : Net) (b : Bool) : World :=
  otherStore (n.world b).identityKeyPair.pub mallory ((n.world b).sessions (convCv.addr b))

theorem taken_carries (n : Net) (b : Bool) : Carries convCv n b mallory (taken n b) where
  record := by simp [taken, otherStore]
  identity := rfl
  trust := fun _ _ => ⟨by
    intro saved h
    show tofu saved _ _ = true
    unfold tofu
    rcases h with h | h
    · rw [h]
    · rw [h]; simp, Or.inl rfl⟩

/-- After `actRun`, Mallory, who has taken Alice's record, writes to Bob, who reads it and replies; Mallory reads the reply. -/
def takenRun (n : Net) : Option Net :=
  (convSend (convCv.moved true mallory) (n.moved true (taken n true)) true [109]).bind fun m =>
    (convDeliver (convCv.moved true mallory) m false 2 (key 80)).bind fun m =>
    (convSend (convCv.moved true mallory) m false [98]).bind fun m =>
    convDeliver (convCv.moved true mallory) m true 1 (key 81)

theorem takenRun_steps {n m : Net} (h : takenRun n = some m) :
    ASteps (convCv.moved true mallory) (n.moved true (taken n true)) m := by
  unfold takenRun at h
  simp only [Option.bind_eq_some_iff] at h
  obtain ⟨a1, h1, a2, h2, a3, h3, h4⟩ := h
  exact (((ASteps.refl.step (.honest (convSend_step h1))).step (.honest (convDeliver_step h2))).step
    (.honest (convSend_step h3))).step (.honest (convDeliver_step h4))

/-- Meanwhile Alice writes twice. -/
def ownerRun (n : Net) : Option Net :=
  (convSend convCv n true [97]).bind fun k => convSend convCv k true [99]

theorem ownerRun_steps {n k : Net} (h : ownerRun n = some k) : ASteps convCv n k := by
  obtain ⟨a, h1, h2⟩ := Option.bind_eq_some_iff.1 h
  exact (ASteps.refl.step (.honest (convSend_step h1))).step (.honest (convSend_step h2))

/-- Mallory and Bob have read each other's message; both messages of Alice are under a key from before the theft; the first one has
the header of Mallory's message and the second one has not, and is within Bob's limits. -/
def takenCheck (n m k : Net) : Bool :=
  m.accepted false == [1, 0, 2] && m.accepted true == [0, 1] &&
  ((k.sent true)[2]?.any fun c => decide ((header c.1).1 ∈ n.keys) && decide (header c.1 ∈ m.log false) &&
    decide (m.remembered convCv false (header c.1))) &&
  ((k.sent true)[3]?.any fun c => decide ((header c.1).1 ∈ n.keys) && decide (header c.1 ∉ m.log false) &&
    decide (m.inLimits convCv false (header c.1)))

theorem taken_check : actRun.any (fun n => (takenRun n).any fun m => (ownerRun n).any fun k => takenCheck n m k) = true := by
  decide +kernel

/-- The hypotheses of C99 are met, and of both cases of `C99_fork`. -/
example : ∃ n m k, Start convCv act0 ∧ ASteps convCv act0 n ∧ n.joined convCv true ∧ Carries convCv n true mallory (taken n true) ∧
    ASteps (convCv.moved true mallory) (n.moved true (taken n true)) m ∧ ASteps convCv n k ∧ m.joined convCv false ∧ takenCheck n m k = true := by
  have h := taken_check
  obtain ⟨n, hr, h⟩ := (Option.any_eq_true _ _).1 h
  obtain ⟨m, hm, h⟩ := (Option.any_eq_true _ _).1 h
  obtain ⟨k, hk, h⟩ := (Option.any_eq_true _ _).1 h
  refine ⟨n, m, k, act_start, actRun_steps hr, fun _ e => by simp at e, taken_carries n true, takenRun_steps hm, ownerRun_steps hk, ?_, h⟩
  intro _ _
  simp only [takenCheck, Bool.and_eq_true, beq_iff_eq] at h
  rw [h.1.1.1]; simp

/-- Bob's record in another store: Bob on a new device reads on and replies. -/
example : ∃ n m, Start convCv act0 ∧ ASteps convCv act0 n ∧ n.joined convCv false ∧ Carries convCv n false mallory (taken n false) ∧
    ASteps (convCv.moved false mallory) (n.moved false (taken n false)) m ∧ m.accepted false = [1, 0, 2] ∧ m.accepted true = [0, 1] := by
  have h : actRun.any (fun n => decide (n.accepted false ≠ []) && ((convSend (convCv.moved false mallory) (n.moved false (taken n false)) true [97]).bind
      fun m => (convDeliver (convCv.moved false mallory) m false 2 (key 80)).bind fun m =>
      (convSend (convCv.moved false mallory) m false [98]).bind fun m =>
      convDeliver (convCv.moved false mallory) m true 1 (key 81)).any fun m =>
        decide (m.accepted false = [1, 0, 2]) && decide (m.accepted true = [0, 1])) = true := by decide +kernel
  obtain ⟨n, hr, h⟩ := (Option.any_eq_true _ _).1 h
  simp only [Bool.and_eq_true, decide_eq_true_eq] at h
  obtain ⟨hj, h⟩ := h
  obtain ⟨m, hm, h⟩ := (Option.any_eq_true _ _).1 h
  simp only [Bool.and_eq_true, decide_eq_true_eq] at h
  simp only [Option.bind_eq_some_iff] at hm
  obtain ⟨a1, h1, a2, h2, a3, h3, h4⟩ := hm
  exact ⟨n, m, act_start, actRun_steps hr, fun _ _ => hj, taken_carries n false,
    (((ASteps.refl.step (.honest (convSend_step h1))).step (.honest (convDeliver_step h2))).step
      (.honest (convSend_step h3))).step (.honest (convDeliver_step h4)), h⟩

end
end Axolotl
