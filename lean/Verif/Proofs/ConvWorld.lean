import Verif.Proofs.Conversation
import Verif.Props.Builder
import Verif.Props.PreKeys

/-! Conversations: what the stores of both sides hold. -/

namespace Axolotl
section
variable [C : Crypto]
open SessionState SessionBuilder RatchetingSession
open Spec (GoodPair Net Conv header)

variable {v : Kdf}

/-- The stored session of side `b` continues the conversation. -/
def Open (cv : Conv) (ids : Bool → ECPub) (hd : PkHeader) (g : Ghost v) (b : Bool) (w : World) : Prop :=
  ∃ r, w.sessions (cv.addr b) = some r ∧
    Party (ids b) (ids !b) (g.E (g.e b)) (g.n b) (last5 (g.full b)) r.sessionState ∧
    (r.sessionState.pendingPreKey = none ∨ (b = true ∧ cv.waits = true ∧ Announcing hd r.sessionState)) ∧
    (b = false → cv.waits = true → r.sessionState.aliceBaseKey = some (Curve.serializePoint hd.baseKey))

/-- Side `false` has not yet received the setup message. -/
structure Waiting (cv : Conv) (ids : Bool → ECPub) (hd : PkHeader) (net : Net) (g : Ghost v) : Prop where
  waits : cv.waits = true
  accepted : net.accepted false = []
  silent : net.sent false = []
  none' : g.full false = []
  announced : ∀ (i : Nat) (c : Ciphertext) (pt : Bytes), (net.sent true)[i]? = some (c, pt) → ∃ p, c = Ciphertext.preKey p
  announcing : ∃ r, (net.world true).sessions (cv.addr true) = some r ∧ Announcing hd r.sessionState
  identity : GoodPair (net.world false).identityKeyPair
  self : (net.world false).identityKeyPair.pub = ids false
  new : ∀ r, (net.world false).sessions (cv.addr false) = some r → ¬ Spec.knowsBaseKey r 3 hd.baseKey
  reg : 0 ≤ (net.world false).registrationId ∧ (net.world false).registrationId < 2 ^ 32
  keys : ∃ spk otk otId secrets, cv.preKeyId = some otId ∧ hd.preKeyId = some otId ∧ g.E 0 = ⟨spk.priv, spk.pub, setupRoot secrets, setupChain secrets⟩ ∧
    Spec.HoldsSigned (net.world false) hd.signedPreKeyId spk ∧ GoodPair spk ∧
    Spec.HoldsPreKey (net.world false) otId otk ∧ GoodPair otk ∧
    bobSecrets
      { ourIdentityKey := (net.world false).identityKeyPair, ourSignedPreKey := spk, ourRatchetKey := spk,
        ourOneTimePreKey := some otk, theirIdentityKey := ids true, theirBaseKey := hd.baseKey } = .ok secrets

/-- How a message looks on the wire. -/
def WireOk (cv : Conv) (ids : Bool → ECPub) (hd : PkHeader) (b : Bool) (c : Ciphertext) : Prop :=
  (∃ m, c = .whisper m ∧ WhisperMessage.parse m.serialized = .ok m) ∨
  (b = true ∧ cv.waits = true ∧ ∃ m p p', c = .preKey p ∧ Announces hd (ids true) m p p')

structure WInv (cv : Conv) (ids : Bool → ECPub) (hd : PkHeader) (net : Net) (g : Ghost v) : Prop where
  v3 : cv.waits = true → v = .v3
  hdr : cv.waits = true → hd.Ok
  wire : ∀ (b : Bool) (i : Nat) (c : Ciphertext) (pt : Bytes), (net.sent b)[i]? = some (c, pt) → WireOk cv ids hd b c
  trust : cv.waits = true → Spec.Trusting (net.world false).policy (cv.addr false).1 (ids true) ∧
    ((net.world false).identities (cv.addr false).1 = none ∨
      (net.world false).identities (cv.addr false).1 = some (ids true))
  sides : ∀ b, Open cv ids hd g b (net.world b) ∨ (b = false ∧ Waiting cv ids hd net g)
  waiting : cv.waits = true → net.accepted false = [] → Waiting cv ids hd net g

/-- A moment of a conversation between the owners of these identity keys. -/
def ConvAt (v : Kdf) (ids : Bool → ECPub) (cv : Conv) (net : Net) : Prop :=
  ∃ (hd : PkHeader) (g : Ghost v), GInv cv ids net g ∧ WInv cv ids hd net g

/-- The same, at some moment after the one that `g0` and `keys0` describe. -/
def ConvFrom (hd : PkHeader) (keys0 : List ECPub) (g0 : Ghost v) (ids : Bool → ECPub) (cv : Conv) (net : Net) : Prop :=
  (∃ g : Ghost v, GInv cv ids net g ∧ WInv cv ids hd net g ∧ g0.Extends keys0 g) ∧ ∀ x ∈ keys0, x ∈ net.keys

theorem ConvAt.here {ids : Bool → ECPub} {cv : Conv} {net : Net} (h : ConvAt v ids cv net) :
    ∃ (hd : PkHeader) (g0 : Ghost v), ConvFrom hd net.keys g0 ids cv net := by
  obtain ⟨hd, g, h1, h2⟩ := h
  exact ⟨hd, g, ⟨g, h1, h2, .refl _ _⟩, fun _ h => h⟩

theorem ConvFrom.now {hd : PkHeader} {keys0 : List ECPub} {g0 : Ghost v} {ids : Bool → ECPub} {cv : Conv} {net : Net}
    (h : ConvFrom hd keys0 g0 ids cv net) : ConvAt v ids cv net := by
  obtain ⟨⟨g, h1, h2, _⟩, _⟩ := h
  exact ⟨hd, g, h1, h2⟩

def ConvInv (cv : Conv) (net : Net) : Prop :=
  ∃ (v : Kdf) (ids : Bool → ECPub), (cv.waits = true → ∀ b, (net.world b).identityKeyPair.pub = ids b) ∧ ConvAt v ids cv net

/-! ## Sending -/

omit C in
theorem upd_same {α β : Type} [DecidableEq α] (f : α → β) (a : α) (v : β) : upd f a v a = v := by
  unfold upd; rw [if_pos rfl]

omit C in
theorem upd_other {α β : Type} [DecidableEq α] (f : α → β) {a b : α} (v : β) (h : b ≠ a) : upd f a v b = f b := by
  unfold upd; rw [if_neg h]

omit C in
theorem final_identity {α : Type} (o : Outcome α) (w : World) : (o.final w).identityKeyPair = w.identityKeyPair :=
  applyAll_other.2.1

omit C in
theorem upd_identity {w : Bool → World} {b : Bool} {w' : World} {ids : Bool → ECPub} (h : ∀ a, (w a).identityKeyPair.pub = ids a)
    (hb : w'.identityKeyPair = (w b).identityKeyPair) (a : Bool) : (upd w b w' a).identityKeyPair.pub = ids a := by
  by_cases hab : a = b
  · subst hab
    rw [upd_same, hb]
    exact h a
  · rw [upd_other _ _ hab]
    exact h a

/-- What encryption does on an open side. -/
theorem Open.encrypt {cv : Conv} {ids : Bool → ECPub} {hd : PkHeader} {g : Ghost v} {b : Bool} {w : World} {net : Net}
    (h : Open cv ids hd g b w) (hg : GInv cv ids net g) (hv : cv.waits = true → v = .v3) (hd' : cv.waits = true → hd.Ok) (hC : C.Lawful)
    (hn : g.n b + 1 < 2 ^ 32) {pt : Bytes} (hpt : pt.length < 2 ^ 62) :
    ∃ c r', SessionCipher.encrypt w (cv.addr b) pt = ⟨[.session (cv.addr b) r'], .ok c⟩ ∧
      WireOk cv ids hd b c ∧ Genuine (ids b) (ids !b) (g.E (g.e b)) (g.n b) pt c.inner ∧
      Party (ids b) (ids !b) (g.E (g.e b)) (g.n b + 1) (last5 (g.full b)) r'.sessionState ∧
      (r'.sessionState.pendingPreKey = none ∨ (b = true ∧ cv.waits = true ∧ Announcing hd r'.sessionState)) ∧
      (b = false → cv.waits = true → r'.sessionState.aliceBaseKey = some (Curve.serializePoint hd.baseKey)) ∧
      ((∃ r, w.sessions (cv.addr b) = some r ∧ Announcing hd r.sessionState) →
        (∃ p, c = .preKey p) ∧ Announcing hd r'.sessionState) := by
  obtain ⟨r, h1, h2, h3, h4⟩ := h
  have hx := hg.good _ (hg.lo b)
  have unique : (∃ q, w.sessions (cv.addr b) = some q ∧ Announcing hd q.sessionState) → Announcing hd r.sessionState := by
    rintro ⟨q, q1, q2⟩
    rw [h1] at q1
    rw [Option.some.inj q1]
    exact q2
  rcases h3 with h3 | ⟨rfl, h3, h5⟩
  · obtain ⟨m, s', e1, e2, e3, e4, e5, e6⟩ := send_whisper hC (hg.idsLen b) (hg.idsLen !b) h2 hx hn pt hpt h3
    refine ⟨_, _, encrypt_forward h1 e1, Or.inl ⟨m, rfl, e2⟩, e3, e4, Or.inl e5, ?_, ?_⟩
    · intro x y
      show s'.aliceBaseKey = _
      rw [e6]; exact h4 x y
    · intro hx
      rw [(unique hx).pending] at h3
      cases h3
  · obtain rfl := hv h3
    obtain ⟨m, p, p', s', e1, e2, e3, e4, e5, e6, e7⟩ :=
      send_prekey hC (hg.idsLen true) (hg.idsLen !true) h2 hx hn pt hpt (hd' h3) h5
    refine ⟨_, _, encrypt_forward h1 e1, Or.inr ⟨rfl, h3, m, p, p', rfl, e2⟩, ?_, e5, Or.inr ⟨rfl, h3, e6⟩, ?_,
      fun _ => ⟨⟨p, rfl⟩, e6⟩⟩
    · show Genuine _ _ _ _ _ p.message
      rw [e2.message]; exact e4
    · intro x; cases x

/-- Encryption succeeds exactly while the counter is below the last value. -/
theorem Open.limit {cv : Conv} {ids : Bool → ECPub} {hd : PkHeader} {g : Ghost v} {b : Bool} {w : World}
    (h : Open cv ids hd g b w) {pt : Bytes} {c : Ciphertext}
    (hc : (SessionCipher.encrypt w (cv.addr b) pt).result = .ok c) : g.n b + 1 < 2 ^ 32 := by
  obtain ⟨r, h1, h2, h3, h4⟩ := h
  have hload : w.loadSession (cv.addr b) = { r with fresh := false } := by unfold World.loadSession; rw [h1]
  unfold SessionCipher.encrypt at hc
  rw [hload] at hc
  simp only at hc
  cases he : SessionCipher.encryptWithState r.sessionState pt with
  | error e => rw [he] at hc; cases hc
  | ok x =>
    obtain ⟨c', s'⟩ := x
    obtain ⟨_, _, _, _, _, _, _, _, _, _, _, _, _, h, _⟩ := SessionCipher.ews_ok he
    rw [h2.sendIndex] at h
    exact h

theorem conv_send_from (hC : C.Lawful) {hd : PkHeader} {keys0 : List ECPub} {g0 : Ghost v} {ids : Bool → ECPub} {cv : Conv} {n : Net}
    (h : ConvFrom hd keys0 g0 ids cv n) {b : Bool} {pt : Bytes} {c : Ciphertext}
    (h1 : cv.waits = true → b = false → n.accepted false ≠ []) (h2 : pt.length < 2 ^ 62)
    (h3 : (SessionCipher.encrypt (n.world b) (cv.addr b) pt).result = .ok c) :
    ConvFrom hd keys0 g0 ids cv { n with
      world := upd n.world b ((SessionCipher.encrypt (n.world b) (cv.addr b) pt).final (n.world b)),
      sent := upd n.sent b (n.sent b ++ [(c, pt)]) } := by
  obtain ⟨⟨g, hg, hw, hext⟩, hkeys⟩ := h
  rcases hw.sides b with ho | ⟨hb, hwt⟩
  rotate_left
  · exact absurd hwt.accepted (h1 hwt.waits hb)
  have hlim := ho.limit h3
  obtain ⟨c', r', e1, e2, e3, e4, e5, e6, e7⟩ := ho.encrypt hg hw.v3 hw.hdr hC hlim h2
  rw [e1] at h3
  obtain rfl : c' = c := Except.ok.inj h3
  have hwb : (SessionCipher.encrypt (n.world b) (cv.addr b) pt).final (n.world b) =
      (n.world b).apply (.session (cv.addr b) r') := by rw [e1]; rfl
  have hsess : ((n.world b).apply (.session (cv.addr b) r')).sessions (cv.addr b) = some r' := by
    simp [World.apply, upd]
  have hpol : ((n.world b).apply (.session (cv.addr b) r')).policy = (n.world b).policy ∧
      ((n.world b).apply (.session (cv.addr b) r')).identities = (n.world b).identities := ⟨rfl, rfl⟩
  refine ⟨⟨_, hg.send e3 hlim rfl rfl rfl, ?_, hext.top, hext.same, hext.fresh⟩, hkeys⟩
  rw [hwb]
  have hsent : ∀ (a : Bool) (i : Nat) (x : Ciphertext) (p : Bytes), (upd n.sent b (n.sent b ++ [(c', pt)]) a)[i]? = some (x, p) →
      (n.sent a)[i]? = some (x, p) ∨ (a = b ∧ x = c' ∧ p = pt) := by
    intro a i x p hx
    by_cases hab : a = b
    · subst hab
      rw [upd_same] at hx
      rcases List.mem_append.1 (List.mem_of_getElem? hx) with hm | hm
      · by_cases hl : i < (n.sent a).length
        · rw [List.getElem?_append_left hl] at hx
          exact Or.inl hx
        · rw [List.getElem?_append_right (by omega)] at hx
          have := List.mem_of_getElem? hx
          rw [List.mem_singleton] at this
          injection this with h1 h2
          exact Or.inr ⟨rfl, h1, h2⟩
      · rw [List.mem_singleton] at hm
        injection hm with h1 h2
        exact Or.inr ⟨rfl, h1, h2⟩
    · rw [upd_other _ _ hab] at hx
      exact Or.inl hx
  have hwait : ∀ tag, b = true → Waiting cv ids hd n g → Waiting cv ids hd { n with
      world := upd n.world b ((n.world b).apply (.session (cv.addr b) r')),
      sent := upd n.sent b (n.sent b ++ [(c', pt)]) } { g with n := upd g.n b (g.n b + 1), tag := tag } := by
    rintro tag rfl q
    have hab : false ≠ true := by simp
    refine ⟨q.waits, q.accepted, ?_, q.none', ?_, ?_, ?_, ?_, ?_, ?_, ?_⟩
    · simp only [upd_other _ _ hab]; exact q.silent
    · intro i x p hx
      rcases hsent true i x p hx with hx | ⟨_, rfl, _⟩
      · exact q.announced i x p hx
      · exact (e7 q.announcing).1
    · exact ⟨r', by simp only [upd_same]; exact hsess, (e7 q.announcing).2⟩
    all_goals simp only [upd_other _ _ hab]
    · exact q.identity
    · exact q.self
    · exact q.new
    · exact q.reg
    · exact q.keys
  refine ⟨hw.v3, hw.hdr, ?_, ?_, ?_, ?_⟩
  · intro a i x p hx
    rcases hsent a i x p hx with hx | ⟨rfl, rfl, rfl⟩
    · exact hw.wire a i x p hx
    · exact e2
  · intro hwt
    obtain ⟨t1, t2⟩ := hw.trust hwt
    by_cases hb : false = b
    · subst hb; simp only [upd_same]; exact ⟨t1, t2⟩
    · simp only [upd_other _ _ hb]; exact ⟨t1, t2⟩
  · intro a
    by_cases hab : a = b
    · subst hab
      left
      refine ⟨r', by simp only [upd_same]; exact hsess, ?_, e5, e6⟩
      simp only [upd_same]
      exact e4
    · rcases hw.sides a with ⟨r, q1, q2, q3, q4⟩ | ⟨rfl, q⟩
      · left
        refine ⟨r, by simp only [upd_other _ _ hab]; exact q1, ?_, q3, q4⟩
        simp only [upd_other _ _ hab]
        exact q2
      · right
        obtain rfl : b = true := by cases b with | true => rfl | false => exact absurd rfl hab
        exact ⟨rfl, hwait _ rfl q⟩
  · intro hwt hacc
    cases b with
    | false => exact absurd hacc (h1 hwt rfl)
    | true => exact hwait _ rfl (hw.waiting hwt hacc)

theorem conv_send_at (hC : C.Lawful) {ids : Bool → ECPub} {cv : Conv} {n : Net} (h : ConvAt v ids cv n) {b : Bool} {pt : Bytes} {c : Ciphertext}
    (h1 : cv.waits = true → b = false → n.accepted false ≠ []) (h2 : pt.length < 2 ^ 62)
    (h3 : (SessionCipher.encrypt (n.world b) (cv.addr b) pt).result = .ok c) :
    ConvAt v ids cv { n with
      world := upd n.world b ((SessionCipher.encrypt (n.world b) (cv.addr b) pt).final (n.world b)),
      sent := upd n.sent b (n.sent b ++ [(c, pt)]) } := by
  obtain ⟨hd, g0, h⟩ := h.here
  exact (conv_send_from hC h h1 h2 h3).now

/-! ## Other calls -/

theorem conv_send (hC : C.Lawful) {cv : Conv} {n : Net} (h : ConvInv cv n) {b : Bool} {pt : Bytes} {c : Ciphertext}
    (h1 : cv.waits = true → b = false → n.accepted false ≠ []) (h2 : pt.length < 2 ^ 62)
    (h3 : (SessionCipher.encrypt (n.world b) (cv.addr b) pt).result = .ok c) :
    ConvInv cv { n with
      world := upd n.world b ((SessionCipher.encrypt (n.world b) (cv.addr b) pt).final (n.world b)),
      sent := upd n.sent b (n.sent b ++ [(c, pt)]) } := by
  obtain ⟨v, ids, hid, h⟩ := h
  exact ⟨v, ids, fun hw => upd_identity (hid hw) (final_identity _ _), conv_send_at hC h h1 h2 h3⟩

/-- What a store may become in between. -/
theorem conv_world_from {hd : PkHeader} {keys0 : List ECPub} {g0 : Ghost v} {ids : Bool → ECPub} {cv : Conv} {n : Net} (h : ConvFrom hd keys0 g0 ids cv n) {b : Bool} {w' : World} {keys : List ECPub}
    (h1 : w'.sessions (cv.addr b) = (n.world b).sessions (cv.addr b))
    (h2 : w'.identities (cv.addr b).1 = (n.world b).identities (cv.addr b).1 ∨
      (cv.waits = true → b = false → w'.identities (cv.addr b).1 = some (ids true)))
    (h3 : b = false → ∀ i, cv.preKeyId = some i → w'.preKeys i = (n.world b).preKeys i)
    (c1 : w'.signedPreKeys = (n.world b).signedPreKeys) (c2 : w'.identityKeyPair = (n.world b).identityKeyPair)
    (c3 : w'.registrationId = (n.world b).registrationId) (c4 : w'.policy = (n.world b).policy)
    (hk : ∀ x ∈ n.keys, x ∈ keys) :
    ConvFrom hd keys0 g0 ids cv { n with world := upd n.world b w', keys := keys } := by
  obtain ⟨⟨g, hg, hw, hext⟩, hkeys⟩ := h
  have hwait : Waiting cv ids hd n g → Waiting cv ids hd { n with world := upd n.world b w', keys := keys } g := by
    intro q
    refine ⟨q.waits, q.accepted, q.silent, q.none', q.announced, ?_, ?_, ?_, ?_, ?_, ?_⟩
    · obtain ⟨r, r1, r2⟩ := q.announcing
      refine ⟨r, ?_, r2⟩
      by_cases hab : true = b
      · subst hab; simp only [upd_same]; rw [h1]; exact r1
      · simp only [upd_other _ _ hab]; exact r1
    all_goals
      by_cases hab : false = b
      · subst hab
        simp only [upd_same]
        first
          | rw [c2]; exact q.identity
          | rw [c2]; exact q.self
          | rw [h1]; exact q.new
          | rw [c3]; exact q.reg
          | obtain ⟨spk, otk, otId, secrets, k1, k2, k3, k4, k5, k6, k7, k8⟩ := q.keys
            refine ⟨spk, otk, otId, secrets, k1, k2, k3, ?_, k5, ?_, k7, ?_⟩
            · unfold Spec.HoldsSigned; rw [c1]; exact k4
            · unfold Spec.HoldsPreKey; rw [h3 rfl otId k1]; exact k6
            · rw [c2]; exact k8
      · simp only [upd_other _ _ hab]
        first
          | exact q.identity
          | exact q.self
          | exact q.new
          | exact q.reg
          | exact q.keys
  refine ⟨⟨g, hg.same rfl rfl hk, ⟨hw.v3, hw.hdr, hw.wire, ?_, ?_, fun a b => hwait (hw.waiting a b)⟩, hext⟩, fun x hx => hk x (hkeys x hx)⟩
  · intro hwt
    obtain ⟨t1, t2⟩ := hw.trust hwt
    by_cases hb : false = b
    · subst hb
      simp only [upd_same]
      rw [c4]
      refine ⟨t1, ?_⟩
      rcases h2 with h2 | h2
      · rw [h2]; exact t2
      · exact Or.inr (h2 hwt rfl)
    · simp only [upd_other _ _ hb]; exact ⟨t1, t2⟩
  · intro a
    rcases hw.sides a with ⟨r, q1, q2⟩ | ⟨rfl, q⟩
    · left
      refine ⟨r, ?_, q2⟩
      by_cases hab : a = b
      · subst hab; simp only [upd_same]; rw [h1]; exact q1
      · simp only [upd_other _ _ hab]; exact q1
    · exact Or.inr ⟨rfl, hwait q⟩

theorem conv_world {ids : Bool → ECPub} {cv : Conv} {n : Net} (h : ConvAt v ids cv n) {b : Bool} {w' : World} {keys : List ECPub}
    (h1 : w'.sessions (cv.addr b) = (n.world b).sessions (cv.addr b))
    (h2 : w'.identities (cv.addr b).1 = (n.world b).identities (cv.addr b).1 ∨
      (cv.waits = true → b = false → w'.identities (cv.addr b).1 = some (ids true)))
    (h3 : b = false → ∀ i, cv.preKeyId = some i → w'.preKeys i = (n.world b).preKeys i)
    (c1 : w'.signedPreKeys = (n.world b).signedPreKeys) (c2 : w'.identityKeyPair = (n.world b).identityKeyPair)
    (c3 : w'.registrationId = (n.world b).registrationId) (c4 : w'.policy = (n.world b).policy)
    (hk : ∀ x ∈ n.keys, x ∈ keys) :
    ConvAt v ids cv { n with world := upd n.world b w', keys := keys } := by
  obtain ⟨hd, g0, h⟩ := h.here
  exact (conv_world_from h h1 h2 h3 c1 c2 c3 c4 hk).now

theorem conv_other_from {hd : PkHeader} {keys0 : List ECPub} {g0 : Ghost v} {ids : Bool → ECPub} {cv : Conv} {n : Net} (h : ConvFrom hd keys0 g0 ids cv n) {b : Bool} {call : Call}
    (h1 : (call.next (n.world b)).sessions (cv.addr b) = (n.world b).sessions (cv.addr b))
    (h2 : (call.next (n.world b)).identities (cv.addr b).1 = (n.world b).identities (cv.addr b).1 ∨
      (cv.waits = true → (call.next (n.world b)).identities (cv.addr b).1 = some (ids !b)))
    (h3 : b = false → ∀ i, cv.preKeyId = some i → (call.next (n.world b)).preKeys i = (n.world b).preKeys i) :
    ConvFrom hd keys0 g0 ids cv { n with world := upd n.world b (call.next (n.world b)) } := by
  obtain ⟨_, _, c1, c2, c3, c4⟩ := C30_isolation (n.world b) call
  exact conv_world_from h h1 (h2.imp id (by rintro q hw rfl; exact q hw)) h3 c1 c2 c3 c4 fun _ hx => hx

theorem conv_other_at {ids : Bool → ECPub} {cv : Conv} {n : Net} (h : ConvAt v ids cv n) {b : Bool} {call : Call}
    (h1 : (call.next (n.world b)).sessions (cv.addr b) = (n.world b).sessions (cv.addr b))
    (h2 : (call.next (n.world b)).identities (cv.addr b).1 = (n.world b).identities (cv.addr b).1 ∨
      (cv.waits = true → (call.next (n.world b)).identities (cv.addr b).1 = some (ids !b)))
    (h3 : b = false → ∀ i, cv.preKeyId = some i → (call.next (n.world b)).preKeys i = (n.world b).preKeys i) :
    ConvAt v ids cv { n with world := upd n.world b (call.next (n.world b)) } := by
  obtain ⟨_, _, c1, c2, c3, c4⟩ := C30_isolation (n.world b) call
  exact conv_world h h1 (h2.imp id (by rintro q hw rfl; exact q hw)) h3 c1 c2 c3 c4 fun _ hx => hx

theorem conv_other {cv : Conv} {n : Net} (h : ConvInv cv n) {b : Bool} {call : Call}
    (h1 : (call.next (n.world b)).sessions (cv.addr b) = (n.world b).sessions (cv.addr b))
    (h2 : (call.next (n.world b)).identities (cv.addr b).1 = (n.world b).identities (cv.addr b).1 ∨
      (call.next (n.world b)).identities (cv.addr b).1 = some (n.world (!b)).identityKeyPair.pub)
    (h3 : b = false → ∀ i, cv.preKeyId = some i → (call.next (n.world b)).preKeys i = (n.world b).preKeys i) :
    ConvInv cv { n with world := upd n.world b (call.next (n.world b)) } := by
  obtain ⟨v, ids, hid, h⟩ := h
  refine ⟨v, ids, fun hw => upd_identity (hid hw) (C30_isolation _ call).2.2.2.1, conv_other_at h h1 ?_ h3⟩
  exact h2.imp id fun q hw => by rw [← hid hw (!b)]; exact q

/-! ## Receiving -/

/-- On an open side every message of the conversation is tried on the stored session. -/
theorem Open.receive_exact {cv : Conv} {ids : Bool → ECPub} {hd : PkHeader} {b : Bool} {w : World} {r : SessionRecord}
    {c : Ciphertext} (h1 : w.sessions (cv.addr b) = some r)
    (h2 : b = false → cv.waits = true → r.sessionState.sessionVersion = some 3 ∧
      r.sessionState.aliceBaseKey = some (Curve.serializePoint hd.baseKey))
    (ht : b = false → cv.waits = true → w.isTrusted (cv.addr false).1 (ids true) = true)
    (hc : WireOk cv ids hd (!b) c) (seed : Bytes) (seeds : Nat → Bytes) :
    ∃ ws : List Write, ((c.getType = 2 ∧ ws = []) ∨
        (c.getType = 3 ∧ b = false ∧ cv.waits = true ∧ ws = [.identity (cv.addr b).1 (ids true)])) ∧
      Spec.receive w (cv.addr b) c.getType c.serialize seed seeds =
        match SessionCipher.decryptWithSessionRecord { r with fresh := false } c.inner seed seeds with
        | .error e => ⟨ws, .error e⟩
        | .ok (pt, r') => ⟨ws ++ [.session (cv.addr b) r'], .ok pt⟩ := by
  have hload : w.loadSession (cv.addr b) = { r with fresh := false } := by unfold World.loadSession; rw [h1]
  rcases hc with ⟨m, rfl, hm⟩ | ⟨hb, hwt, m, p, p', rfl, hp⟩
  · refine ⟨[], Or.inl ⟨rfl, rfl⟩, ?_⟩
    unfold Spec.receive Ciphertext.getType Ciphertext.serialize Ciphertext.inner
    simp only
    rw [if_neg (by decide), hm]
    simp only
    unfold SessionCipher.decryptMsg
    rw [hload]
    have hcs : w.containsSession (cv.addr b) = true := by unfold World.containsSession; rw [h1]; rfl
    rw [hcs]
    simp only [Bool.not_true, Bool.false_eq_true, if_false]
    cases SessionCipher.decryptWithSessionRecord { r with fresh := false } m seed seeds with
    | error e => rfl
    | ok x => rfl
  · obtain rfl : b = false := by cases b with | false => rfl | true => cases hb
    refine ⟨[.identity (cv.addr false).1 (ids true)], Or.inr ⟨rfl, rfl, hwt, rfl⟩, ?_⟩
    obtain ⟨v1, v2⟩ := h2 rfl hwt
    unfold Spec.receive Ciphertext.getType Ciphertext.serialize Ciphertext.inner
    simp only
    rw [if_pos (by rfl), hp.parse]
    simp only
    have hk : (w.loadSession (cv.addr false)).hasSessionState p'.version (Curve.serializePoint p'.baseKey) = true := by
      rw [hload, hasSessionState_iff, hp.version, hp.bk]
      refine ⟨r.sessionState, ?_, ?_, ?_⟩
      · exact List.mem_cons_self ..
      · rw [v1]; rfl
      · rw [v2]; rfl
    have hv : processV3 w (w.loadSession (cv.addr false)) p' = .ok ({ r with fresh := false }, none) := by
      unfold processV3
      rw [if_pos hk, hload]
    rw [pkmsg_eq (by rw [hp.ik]; exact ht rfl hwt) hv seed seeds, hp.message', hp.message, hp.ik]
    cases SessionCipher.decryptWithSessionRecord { r with fresh := false } m seed seeds with
    | error e => rfl
    | ok x => simp

theorem Open.receive_eq {cv : Conv} {ids : Bool → ECPub} {hd : PkHeader} {b : Bool} {w : World} {r : SessionRecord}
    {c : Ciphertext} (h1 : w.sessions (cv.addr b) = some r)
    (h2 : b = false → cv.waits = true → r.sessionState.sessionVersion = some 3 ∧
      r.sessionState.aliceBaseKey = some (Curve.serializePoint hd.baseKey))
    (ht : b = false → cv.waits = true → w.isTrusted (cv.addr false).1 (ids true) = true)
    (hc : WireOk cv ids hd (!b) c) (seed : Bytes) (seeds : Nat → Bytes) :
    ∃ ws : List Write, (ws = [] ∨ (b = false ∧ cv.waits = true ∧ ws = [.identity (cv.addr b).1 (ids true)])) ∧
      Spec.receive w (cv.addr b) c.getType c.serialize seed seeds =
        match SessionCipher.decryptWithSessionRecord { r with fresh := false } c.inner seed seeds with
        | .error e => ⟨ws, .error e⟩
        | .ok (pt, r') => ⟨ws ++ [.session (cv.addr b) r'], .ok pt⟩ := by
  obtain ⟨ws, h | h, e⟩ := Open.receive_exact h1 h2 ht hc seed seeds
  · exact ⟨ws, Or.inl h.2, e⟩
  · exact ⟨ws, Or.inr h.2, e⟩

/-- Trust lasts as long as no other key is saved. -/
theorem WInv.trusted {cv : Conv} {ids : Bool → ECPub} {hd : PkHeader} {net : Net} {g : Ghost v}
    (h : WInv cv ids hd net g) (hw : cv.waits = true) :
    (net.world false).isTrusted (cv.addr false).1 (ids true) = true := by
  obtain ⟨h1, h2⟩ := h.trust hw
  exact h1 _ h2

/-- The world part of the invariant after a delivery to side `b` on which its session continued. -/
theorem WInv.after {cv : Conv} {ids : Bool → ECPub} {hd : PkHeader} {net : Net} {g g' : Ghost v} {b : Bool}
    (h : WInv cv ids hd net g) {w' : World} {acc : Bool → List Nat} {keys : List ECPub}
    (hopen : Open cv ids hd g' b w')
    (hother : ∀ a, a ≠ b → g'.E (g'.e a) = g.E (g.e a) ∧ g'.n a = g.n a ∧ g'.full a = g.full a)
    (hpol : w'.policy = (net.world b).policy)
    (hidn : w'.identities (cv.addr b).1 = (net.world b).identities (cv.addr b).1 ∨
      w'.identities (cv.addr b).1 = some (ids true))
    (hb : b = true → ¬ Waiting cv ids hd net g) (hacc : cv.waits = true → acc false ≠ []) :
    WInv cv ids hd { net with world := upd net.world b w', accepted := acc, keys := keys } g' := by
  refine ⟨h.v3, h.hdr, h.wire, ?_, ?_, fun a b => absurd b (hacc a)⟩
  · intro hwt
    obtain ⟨t1, t2⟩ := h.trust hwt
    by_cases hb : false = b
    · subst hb
      simp only [upd_same]
      rw [hpol]
      refine ⟨t1, ?_⟩
      rcases hidn with e | e
      · rw [e]; exact t2
      · exact Or.inr e
    · simp only [upd_other _ _ hb]; exact ⟨t1, t2⟩
  · intro a
    by_cases hab : a = b
    · subst hab
      left
      simp only [upd_same]
      exact hopen
    · rcases h.sides a with ⟨r, q1, q2, q3⟩ | ⟨rfl, q⟩
      · left
        obtain ⟨o1, o2, o3⟩ := hother a hab
        refine ⟨r, by simp only [upd_other _ _ hab]; exact q1, ?_, q3⟩
        rw [o1, o2, o3]
        exact q2
      · cases b with
        | false => exact absurd rfl hab
        | true => exact absurd q (hb rfl)

/-- The setup message arrives, in a prekey message with the header of the setup. -/
theorem conv_first_from (hC : C.Lawful) {keys0 : List ECPub} {g0 : Ghost .v3} {ids : Bool → ECPub} {cv : Conv} {n : Net}
    {hd : PkHeader} {g : Ghost .v3} (hext : g0.Extends keys0 g) (hkeys : ∀ x ∈ keys0, x ∈ n.keys) (hg : GInv cv ids n g)
    (hw : WInv cv ids hd n g) (q : Waiting cv ids hd n g) {i : Nat} {c : Ciphertext} {pt seed : Bytes}
    (hi : (n.sent true)[i]? = some (c, pt)) (hl : n.inLimits cv false (header c)) (hseed : seed.length = 32)
    (hfresh : C.genPub (C.genPriv seed) ∉ n.keys) {m : PreKeyWhisperMessage} (f1 : m.version = 3) (f2 : m.registrationId < 2 ^ 32)
    (f3 : m.preKeyId = hd.preKeyId) (f4 : m.signedPreKeyId = hd.signedPreKeyId) (f5 : m.baseKey = hd.baseKey)
    (f6 : m.identityKey = ids true) (f7 : m.message = c.inner) (seeds : Nat → Bytes) :
    (SessionCipher.decryptPkmsg (n.world false) (cv.addr false) m seed seeds).result = .ok pt ∧
    ConvFrom hd keys0 g0 ids cv { n with
      world := upd n.world false
        ((SessionCipher.decryptPkmsg (n.world false) (cv.addr false) m seed seeds).final (n.world false)),
      accepted := upd n.accepted false (n.accepted false ++ [i]),
      keys := C.genPub (C.genPriv seed) :: n.keys } := by
  obtain ⟨t, k, h1, h2, h3, h4⟩ := hg.locate (b := false) hi
  rw [q.none'] at h1
  obtain rfl : t = 0 := by simpa using h1
  have htop : g.top = 2 * (g.full false).length + off false := by
    have a1 := hg.hi false
    have a2 := hg.e_succ false
    rw [q.none'] at a2 ⊢
    simp only [List.length_nil, off] at *
    omega
  have htop1 : g.top = 1 := by rw [htop, q.none']; rfl
  have e1 : 2 * 0 + off false = g.top := by rw [htop1]; rfl
  rw [e1] at h3 h4
  have hgE := hg.good g.top (Nat.le_refl _)
  have hz := nextEpoch_good hC (g.E g.top) hseed
  have hyz := nextEpoch_next hC hgE hseed
  have hns := hg.not_in_seen (b := false) (by omega)
  rw [← htop] at hns
  have h0 : Spec.nextCounter (n.log false) (g.E g.top).pub = 0 := nextCounter_absent fun x hx => hns (mem_log_seen hx)
  have hk : k ≤ 2000 := by
    have := hl.2
    rw [h3, h0] at this
    omega
  obtain ⟨spk, otk, otId, secrets, k1, k2, k3, k4, k5, k6, k7, k8⟩ := q.keys
  have hnx : (epoch0 spk secrets).Next (g.E g.top) := by
    rw [show epoch0 spk secrets = g.E 0 from k3.symm, htop1]
    exact hg.next 0 (by omega)
  obtain ⟨r', s', t1, t2, t3, t4, t5⟩ := first_receive hC (w := n.world false) (a := cv.addr false) (m := m)
    (spk := spk) (otk := some otk) (secrets := secrets) (y := g.E g.top) (z := nextEpoch (g.E g.top) seed) (k := k)
    (pt := pt) (seed := seed) q.identity (by rw [f6]; exact hg.idsLen true) (by rw [f6]; exact hw.trusted q.waits)
    (by
      rintro ⟨r, hr, hk⟩
      rw [f1, f5] at hk
      exact q.new r hr hk)
    (by rw [f4]; exact k4) k5
    (by rw [f3, k2]; exact ⟨otk, rfl, k6, k7⟩)
    (by rw [f6, f5]; exact k8) q.reg f2 hgE hnx
    (by
      rw [f6, f7, q.self]
      exact h4)
    hk rfl rfl hyz seeds
  refine ⟨by rw [t1], ⟨_, hg.recvNew (b := false) hi htop h3 hz hyz hfresh rfl rfl rfl, ?_,
    hext.trans (Ghost.extends_new hfresh ..) hkeys⟩, fun x hx => List.mem_cons_of_mem _ (hkeys x hx)⟩
  have hfin : ∀ (u : Option Nat), ((n.world false).applyAll ([.identity (cv.addr false).1 m.identityKey] ++
        [.session (cv.addr false) r'] ++ (u.map Write.removePreKey).toList)).sessions (cv.addr false) = some r' ∧
      ((n.world false).applyAll ([.identity (cv.addr false).1 m.identityKey] ++
        [.session (cv.addr false) r'] ++ (u.map Write.removePreKey).toList)).identities (cv.addr false).1 =
        some m.identityKey := by
    intro u
    cases u <;> simp [World.applyAll, World.apply, upd]
  rw [t1]
  unfold Outcome.final
  simp only
  refine hw.after ?_ ?_ applyAll_other.2.2.2 (Or.inr ?_) (by intro x; cases x) (fun _ => by rw [upd_same]; simp)
  · refine ⟨r', (hfin _).1, ?_, Or.inl ?_, ?_⟩
    · have hfb : (upd g.full false (g.full false ++ [⟨g.E g.top, k + 1, List.range' 0 k⟩]) false) =
          [⟨g.E g.top, k + 1, List.range' 0 k⟩] := by rw [upd_same, q.none']; rfl
      unfold Ghost.e
      simp only
      rw [hfb, upd_same, t2]
      have : 2 * [(⟨g.E g.top, k + 1, List.range' 0 k⟩ : Recv _)].length + off false - 1 = g.top + 1 := by
        rw [htop1]; rfl
      rw [this, upd_same]
      rw [q.self, f6] at t3
      exact t3
    · rw [t2]; exact t5
    · intro _ _
      rw [t2, t4, f5]
  · intro a hab
    unfold Ghost.e
    simp only
    rw [upd_other _ _ hab, upd_other _ _ hab]
    refine ⟨?_, rfl, rfl⟩
    rw [upd_other]
    have := hg.lo a
    unfold Ghost.e at this
    omega
  · rw [(hfin _).2, f6]

theorem conv_first (hC : C.Lawful) {ids : Bool → ECPub} {cv : Conv} {n : Net}
    {hd : PkHeader} {g : Ghost .v3} (hg : GInv cv ids n g)
    (hw : WInv cv ids hd n g) (q : Waiting cv ids hd n g) {i : Nat} {c : Ciphertext} {pt seed : Bytes}
    (hi : (n.sent true)[i]? = some (c, pt)) (hl : n.inLimits cv false (header c)) (hseed : seed.length = 32)
    (hfresh : C.genPub (C.genPriv seed) ∉ n.keys) {m : PreKeyWhisperMessage} (f1 : m.version = 3) (f2 : m.registrationId < 2 ^ 32)
    (f3 : m.preKeyId = hd.preKeyId) (f4 : m.signedPreKeyId = hd.signedPreKeyId) (f5 : m.baseKey = hd.baseKey)
    (f6 : m.identityKey = ids true) (f7 : m.message = c.inner) (seeds : Nat → Bytes) :
    (SessionCipher.decryptPkmsg (n.world false) (cv.addr false) m seed seeds).result = .ok pt ∧
    ConvAt .v3 ids cv { n with
      world := upd n.world false
        ((SessionCipher.decryptPkmsg (n.world false) (cv.addr false) m seed seeds).final (n.world false)),
      accepted := upd n.accepted false (n.accepted false ++ [i]),
      keys := C.genPub (C.genPriv seed) :: n.keys } := by
  obtain ⟨h1, h2⟩ := conv_first_from hC (.refl n.keys g) (fun _ h => h) hg hw q hi hl hseed hfresh f1 f2 f3 f4 f5 f6 f7 seeds
  exact ⟨h1, h2.now⟩

/-- **Delivery.**  A new message is decrypted; one accepted before is refused, and changes nothing but possibly
the saved identity. -/
theorem conv_deliver_from (hC : C.Lawful) {hd : PkHeader} {keys0 : List ECPub} {g0 : Ghost v} {ids : Bool → ECPub} {cv : Conv} {n : Net}
    (h : ConvFrom hd keys0 g0 ids cv n) {b : Bool} {i : Nat} {c : Ciphertext}
    {pt seed : Bytes} (seeds : Nat → Bytes) (hi : (n.sent (!b))[i]? = some (c, pt))
    (hl : i ∉ n.accepted b → n.inLimits cv b (header c)) (hr : i ∈ n.accepted b → n.remembered cv b (header c))
    (hseed : seed.length = 32) (hfresh : C.genPub (C.genPriv seed) ∉ n.keys) :
    ConvFrom hd keys0 g0 ids cv { n with
      world := upd n.world b
        ((Spec.receive (n.world b) (cv.addr b) c.getType c.serialize seed seeds).final (n.world b)),
      accepted := upd n.accepted b (if i ∈ n.accepted b then n.accepted b else n.accepted b ++ [i]),
      keys := C.genPub (C.genPriv seed) :: n.keys } ∧
    (i ∉ n.accepted b → (Spec.receive (n.world b) (cv.addr b) c.getType c.serialize seed seeds).result = .ok pt) ∧
    (i ∈ n.accepted b →
      (Spec.receive (n.world b) (cv.addr b) c.getType c.serialize seed seeds).result = .error .duplicateMessage ∧
      ((Spec.receive (n.world b) (cv.addr b) c.getType c.serialize seed seeds).final (n.world b)).sessions =
        (n.world b).sessions ∧
      ((Spec.receive (n.world b) (cv.addr b) c.getType c.serialize seed seeds).final (n.world b)).preKeys =
        (n.world b).preKeys) := by
  obtain ⟨⟨g, hg, hw, hext⟩, hkeys⟩ := h
  have hwire := hw.wire _ _ _ _ hi
  rcases hw.sides b with ⟨r, q1, q2, q3, q4⟩ | ⟨rfl, q⟩
  · have hnw : b = true → ¬ Waiting cv ids hd n g := by
      rintro rfl q
      have := q.silent
      simp only [Bool.not_true] at hi
      rw [this] at hi
      cases hi
    have hkeep : ∀ l, l ≠ [] → cv.waits = true → upd n.accepted b l false ≠ [] := by
      intro l hne hwt
      cases b with
      | false => rw [upd_same]; exact hne
      | true =>
        rw [upd_other _ _ (by simp)]
        exact fun e => hnw rfl (hw.waiting hwt e)
    obtain ⟨ws, hws, hrec⟩ := Open.receive_eq (b := b) (hd := hd) (ids := ids) q1 (fun x y => ⟨by obtain rfl := hw.v3 y; exact q2.version, q4 x y⟩)
      (by rintro rfl y; exact hw.trusted y) hwire seed seeds
    have hfinal : ∀ (ws2 : List Write), (∀ x k, Write.identity x k ∉ ws2) →
        ((n.world b).applyAll (ws ++ ws2)).identities (cv.addr b).1 = (n.world b).identities (cv.addr b).1 ∨
        ((n.world b).applyAll (ws ++ ws2)).identities (cv.addr b).1 = some (ids true) := by
      intro ws2 h2
      rcases hws with rfl | ⟨_, _, rfl⟩
      · left
        exact applyAll_identities fun k hk => h2 _ k hk
      · right
        have := applyAll_identities (ws := ws2) (w := (n.world b).apply (.identity (cv.addr b).1 (ids true)))
          (n := (cv.addr b).1) fun k hk => h2 _ k hk
        show (((n.world b).apply (.identity (cv.addr b).1 (ids true))).applyAll ws2).identities _ = _
        rw [this]
        simp [World.apply, upd]
    by_cases ha : i ∈ n.accepted b
    · rw [if_pos ha]
      have hdup := hg.again hC q2 hi ha (hr ha) seed
      rw [dwsr_duplicate (r := { r with fresh := false }) seeds hdup] at hrec
      simp only at hrec
      have hsame : ((n.world b).applyAll ws).sessions = (n.world b).sessions ∧
          ((n.world b).applyAll ws).preKeys = (n.world b).preKeys ∧
          ((n.world b).applyAll ws).policy = (n.world b).policy := by
        rcases hws with rfl | ⟨_, _, rfl⟩ <;> exact ⟨rfl, rfl, rfl⟩
      have hf : (Spec.receive (n.world b) (cv.addr b) c.getType c.serialize seed seeds).final (n.world b) =
          (n.world b).applyAll ws := by rw [hrec]; rfl
      refine ⟨⟨⟨g, hg.same rfl ?_ (fun x hx => List.mem_cons_of_mem _ hx), ?_, hext⟩, fun x hx => List.mem_cons_of_mem _ (hkeys x hx)⟩,
        fun x => absurd ha x, fun _ => ?_⟩
      · simp only
        funext a
        unfold upd
        split
        · rename_i e; rw [e]
        · rfl
      · rw [hf]
        refine hw.after ?_ (fun _ _ => ⟨rfl, rfl, rfl⟩) hsame.2.2 ?_ hnw (hkeep _ (List.ne_nil_of_mem ha))
        · exact ⟨r, by rw [hsame.1]; exact q1, q2, q3, q4⟩
        · have := hfinal [] (by simp)
          rw [List.append_nil] at this
          exact this
      · rw [hf]
        exact ⟨by rw [hrec], hsame.1, hsame.2.1⟩
    · rw [if_neg ha]
      obtain ⟨s', g', d1, d2, d3, d5, d4⟩ := hg.receive hC q2 hi ha (hl ha) hseed hfresh
      rw [dwsr_forward (r := { r with fresh := false }) seeds d1] at hrec
      simp only at hrec
      have hf : (Spec.receive (n.world b) (cv.addr b) c.getType c.serialize seed seeds).final (n.world b) =
          (n.world b).applyAll (ws ++ [.session (cv.addr b) ({ r with fresh := false }.setState s')]) := by
        rw [hrec]; rfl
      refine ⟨⟨⟨g', d4 _ rfl rfl rfl, ?_, hext.trans d5 hkeys⟩, fun x hx => List.mem_cons_of_mem _ (hkeys x hx)⟩,
        fun _ => by rw [hrec], fun x => absurd x ha⟩
      rw [hf]
      obtain ⟨p1, _, p3⟩ := dwss_same d1
      refine hw.after ?_ d3 applyAll_other.2.2.2 (hfinal _ (by simp)) hnw (hkeep _ (by simp))
      refine ⟨{ r with fresh := false }.setState s', ?_, d2, Or.inl p3, ?_⟩
      · rcases hws with rfl | ⟨_, _, rfl⟩ <;> simp [World.applyAll, World.apply, upd]
      · intro x y
        show s'.aliceBaseKey = _
        rw [← q4 x y]
        exact p1.2.2.2.1
  · obtain rfl := hw.v3 q.waits
    have ha : i ∉ n.accepted false := by rw [q.accepted]; simp
    rw [if_neg ha]
    obtain ⟨spk, otk, otId, secrets, k1, k2, k3, k4, k5, k6, k7, k8⟩ := q.keys
    obtain ⟨p, rfl⟩ := q.announced i c pt hi
    rcases hwire with ⟨m, hm, _⟩ | ⟨_, _, m, p0, p', hp0, hp⟩
    · cases hm
    obtain rfl : p = p0 := Ciphertext.preKey.inj hp0
    have hrec : Spec.receive (n.world false) (cv.addr false) (Ciphertext.preKey p).getType (Ciphertext.preKey p).serialize seed seeds =
        SessionCipher.decryptPkmsg (n.world false) (cv.addr false) p' seed seeds := by
      unfold Spec.receive Ciphertext.getType Ciphertext.serialize
      simp only
      rw [if_pos (by rfl), hp.parse]
    rw [hrec]
    obtain ⟨t1, t2⟩ := conv_first_from hC hext hkeys hg hw q hi (hl ha) hseed hfresh hp.version (by rw [hp.reg]; exact (hw.hdr q.waits).reg)
      (by rw [hp.pk, k2]; rfl) hp.spk hp.bk hp.ik (by rw [hp.message']; exact hp.message.symm) seeds
    exact ⟨t2, fun _ => t1, fun x => absurd x ha⟩

theorem conv_deliver_at (hC : C.Lawful) {ids : Bool → ECPub} {cv : Conv} {n : Net} (h : ConvAt v ids cv n) {b : Bool} {i : Nat} {c : Ciphertext}
    {pt seed : Bytes} (seeds : Nat → Bytes) (hi : (n.sent (!b))[i]? = some (c, pt))
    (hl : i ∉ n.accepted b → n.inLimits cv b (header c)) (hr : i ∈ n.accepted b → n.remembered cv b (header c))
    (hseed : seed.length = 32) (hfresh : C.genPub (C.genPriv seed) ∉ n.keys) :
    ConvAt v ids cv { n with
      world := upd n.world b
        ((Spec.receive (n.world b) (cv.addr b) c.getType c.serialize seed seeds).final (n.world b)),
      accepted := upd n.accepted b (if i ∈ n.accepted b then n.accepted b else n.accepted b ++ [i]),
      keys := C.genPub (C.genPriv seed) :: n.keys } ∧
    (i ∉ n.accepted b → (Spec.receive (n.world b) (cv.addr b) c.getType c.serialize seed seeds).result = .ok pt) ∧
    (i ∈ n.accepted b →
      (Spec.receive (n.world b) (cv.addr b) c.getType c.serialize seed seeds).result = .error .duplicateMessage ∧
      ((Spec.receive (n.world b) (cv.addr b) c.getType c.serialize seed seeds).final (n.world b)).sessions =
        (n.world b).sessions ∧
      ((Spec.receive (n.world b) (cv.addr b) c.getType c.serialize seed seeds).final (n.world b)).preKeys =
        (n.world b).preKeys) := by
  obtain ⟨hd, g0, h⟩ := h.here
  obtain ⟨h1, h2⟩ := conv_deliver_from hC h seeds hi hl hr hseed hfresh
  exact ⟨h1.now, h2⟩

/-- **Delivery.**  A new message is decrypted; one accepted before is refused, and changes nothing but possibly
the saved identity. -/
theorem conv_deliver (hC : C.Lawful) {cv : Conv} {n : Net} (h : ConvInv cv n) {b : Bool} {i : Nat} {c : Ciphertext}
    {pt seed : Bytes} (seeds : Nat → Bytes) (hi : (n.sent (!b))[i]? = some (c, pt))
    (hl : i ∉ n.accepted b → n.inLimits cv b (header c)) (hr : i ∈ n.accepted b → n.remembered cv b (header c))
    (hseed : seed.length = 32) (hfresh : C.genPub (C.genPriv seed) ∉ n.keys) :
    ConvInv cv { n with
      world := upd n.world b
        ((Spec.receive (n.world b) (cv.addr b) c.getType c.serialize seed seeds).final (n.world b)),
      accepted := upd n.accepted b (if i ∈ n.accepted b then n.accepted b else n.accepted b ++ [i]),
      keys := C.genPub (C.genPriv seed) :: n.keys } ∧
    (i ∉ n.accepted b → (Spec.receive (n.world b) (cv.addr b) c.getType c.serialize seed seeds).result = .ok pt) ∧
    (i ∈ n.accepted b →
      (Spec.receive (n.world b) (cv.addr b) c.getType c.serialize seed seeds).result = .error .duplicateMessage ∧
      ((Spec.receive (n.world b) (cv.addr b) c.getType c.serialize seed seeds).final (n.world b)).sessions =
        (n.world b).sessions ∧
      ((Spec.receive (n.world b) (cv.addr b) c.getType c.serialize seed seeds).final (n.world b)).preKeys =
        (n.world b).preKeys) := by
  obtain ⟨v, ids, hid, h⟩ := h
  obtain ⟨h1, h2⟩ := conv_deliver_at hC h seeds hi hl hr hseed hfresh
  exact ⟨⟨v, ids, fun hw => upd_identity (hid hw) (final_identity _ _), h1⟩, h2⟩
end
end Axolotl
