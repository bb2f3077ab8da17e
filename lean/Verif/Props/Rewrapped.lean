import Verif.Props.Findings
import Verif.Props.Sessions

/-!
# C84: the fields of a prekey message outside its inner message are not authenticated

A prekey message carries a registration id, prekey ids and a base key around a session message.  The MAC of the session message
does not cover them.
-/

namespace Axolotl
section
variable [C : Crypto]
open SessionState SessionBuilder RatchetingSession
open Spec (ofBase statesAt)

/-- The stores without the session record for `a`. -/
def Spec.without (w : World) (a : Address) : World := { w with sessions := upd w.sessions a none }

theorem processV3_empty {w w' : World} (h1 : w'.signedPreKeys = w.signedPreKeys) (h2 : w'.preKeys = w.preKeys)
    (h3 : w'.identityKeyPair = w.identityKeyPair) (h4 : w'.registrationId = w.registrationId) {r r' : SessionRecord}
    {m : PreKeyWhisperMessage} (hr : r.hasSessionState m.version (Curve.serializePoint m.baseKey) = false)
    (hr' : r'.hasSessionState m.version (Curve.serializePoint m.baseKey) = false)
    (he : (archiveUnlessFresh r).sessionState = {}) (he' : (archiveUnlessFresh r').sessionState = {}) :
    processV3 w r m = (processV3 w' r' m).map fun x => ((archiveUnlessFresh r).setState x.1.sessionState, x.2) := by
  have e1 : w'.loadSignedPreKey m.signedPreKeyId = w.loadSignedPreKey m.signedPreKeyId := by
    unfold World.loadSignedPreKey
    rw [h1]
  have e2 : ∀ i, w'.loadPreKey i = w.loadPreKey i := by
    intro i
    unfold World.loadPreKey
    rw [h2]
  unfold processV3
  rw [hr, hr', if_neg (by simp), if_neg (by simp), e1]
  simp only [e2, h3, h4, he, he']
  cases w.loadSignedPreKey m.signedPreKeyId with
  | error e => rfl
  | ok spk =>
    simp only [ok_bind]
    cases SignedPreKeyRecord.getKeyPair spk with
    | error e => rfl
    | ok kp =>
      simp only [ok_bind]
      have tail : ∀ (p : BobParameters) (u : Option Nat),
          (do
            let s ← initializeSessionAsBob {} p
            let s ← s.setLocalRegistrationId w.registrationId
            let s ← s.setRemoteRegistrationId m.registrationId
            Except.ok ((archiveUnlessFresh r).setState (s.setAliceBaseKey (Curve.serializePoint m.baseKey)), u)) =
          (do
            let s ← initializeSessionAsBob {} p
            let s ← s.setLocalRegistrationId w.registrationId
            let s ← s.setRemoteRegistrationId m.registrationId
            Except.ok ((archiveUnlessFresh r').setState (s.setAliceBaseKey (Curve.serializePoint m.baseKey)), u) :
              Res (SessionRecord × Option Nat)).map
            fun x => ((archiveUnlessFresh r).setState x.1.sessionState, x.2) := by
        intro p u
        cases initializeSessionAsBob {} p with
        | error e => rfl
        | ok s =>
          simp only [ok_bind]
          cases s.setLocalRegistrationId w.registrationId with
          | error e => rfl
          | ok s =>
            simp only [ok_bind]
            cases s.setRemoteRegistrationId m.registrationId with
            | error e => rfl
            | ok s => rfl
      cases m.preKeyId with
      | none => exact tail _ _
      | some i =>
        dsimp only
        generalize (if i ≠ Medium.MAX_VALUE then some i else none) = u
        cases w.loadPreKey i with
        | error e => rfl
        | ok pk =>
          simp only [ok_bind]
          cases PreKeyRecord.getKeyPair pk with
          | error e => rfl
          | ok k => exact tail _ _

/-- **C84**, a base key that we know.  Only the identity key and the inner message count: whatever registration id and prekey ids
the message names, the result is that of its inner message alone, and the only other effect is that the identity key is saved. -/
theorem C84_known (w : World) (a : Address) (r : SessionRecord) (hr : w.sessions a = some r) (m : PreKeyWhisperMessage)
    (hk : Spec.knowsBaseKey r m.version m.baseKey) (ht : w.isTrusted a.1 m.identityKey = true) (seed : Bytes)
    (seeds : Nat → Bytes) :
    let o := SessionCipher.decryptMsg w a m.message seed seeds
    SessionCipher.decryptPkmsg w a m seed seeds = ⟨.identity a.1 m.identityKey :: o.writes, o.result⟩ := by
  intro o
  have hc : w.containsSession a = true := by
    unfold World.containsSession
    rw [hr]
    rfl
  have hv := processV3_known (m := m) hr hk
  have ho : o = Outcome.ofRes (do
      let x ← SessionCipher.decryptWithSessionRecord (w.loadSession a) m.message seed seeds
      .ok ([.session a x.2], x.1)) := by
    show SessionCipher.decryptMsg w a m.message seed seeds = _
    unfold SessionCipher.decryptMsg
    rw [hc]
    rfl
  rcases decryptPkmsg_cases w a m seed seeds with ⟨h, _⟩ | ⟨_, ⟨e, h, _⟩ | ⟨r1, u, e, h, hd, h'⟩ | ⟨r1, u, pt, r2, h, hd, h'⟩⟩
  · rw [ht] at h; cases h
  · rw [hv] at h; cases h
  · rw [hv] at h
    obtain ⟨rfl, rfl⟩ := Prod.mk.inj (Except.ok.inj h)
    rw [h', ho, hd]
    rfl
  · rw [hv] at h
    obtain ⟨rfl, rfl⟩ := Prod.mk.inj (Except.ok.inj h)
    rw [h', ho, hd]
    rfl

/-- **C84**, a base key that we do not know.  Somebody takes a message that we would accept from a peer, and wraps it into a prekey
message with a base key of their own and the ids of our prekeys.  On its own, without our session, this prekey message is refused
(the session that it sets up does not fit the message).  But we accept it, with the same plaintext: the one-time prekey it names is
deleted, and a state for the made-up base key is put into our record. -/
theorem C84_rewrapped (w : World) (a : Address) (r : SessionRecord) (hr : w.sessions a = some r)
    (hroom : r.previousStates.length < 40) (m : PreKeyWhisperMessage) (hnew : ¬ Spec.knowsBaseKey r m.version m.baseKey)
    (seed : Bytes) (seeds : Nat → Bytes)
    (hbad : SessionCipher.decryptPkmsg (Spec.without w a) a m seed seeds =
      ⟨[.identity a.1 m.identityKey], .error .invalidMessage⟩)
    (pt : Bytes)
    (hgood : (SessionCipher.decryptMsg w a m.message (seeds 0) (fun i => seeds (i + 1))).result = .ok pt) :
    let o := SessionCipher.decryptMsg w a m.message (seeds 0) (fun i => seeds (i + 1))
    let o' := SessionCipher.decryptPkmsg w a m seed seeds
    o'.result = .ok pt ∧
    (∃ s junk rest, ofBase m.baseKey junk ∧ statesAt (o.final w) a = s :: rest ∧ statesAt (o'.final w) a = s :: junk :: rest) ∧
    (∀ i, m.preKeyId = some i → i ≠ 2 ^ 24 - 1 → (o'.final w).preKeys i = none) := by
  intro o o'
  have hload : w.loadSession a = { r with fresh := false } := by
    unfold World.loadSession
    rw [hr]
  have hload0 : (Spec.without w a).loadSession a = {} := by
    unfold World.loadSession Spec.without
    simp [upd]
  have hk : (w.loadSession a).hasSessionState m.version (Curve.serializePoint m.baseKey) = false := by
    cases hk : (w.loadSession a).hasSessionState m.version (Curve.serializePoint m.baseKey) with
    | false => rfl
    | true =>
      obtain ⟨r', h1, h2⟩ := (loaded_known w a m).1 hk
      rw [hr] at h1
      obtain rfl := Option.some.inj h1
      exact absurd h2 hnew
  have hk0 : ({} : SessionRecord).hasSessionState m.version (Curve.serializePoint m.baseKey) = false := by
    cases hk : ({} : SessionRecord).hasSessionState m.version (Curve.serializePoint m.baseKey) with
    | false => rfl
    | true =>
      rw [← hload0] at hk
      obtain ⟨r', h1, h2⟩ := (loaded_known (Spec.without w a) a m).1 hk
      simp [Spec.without, upd] at h1
  have harch : archiveUnlessFresh (w.loadSession a) =
      { sessionState := {}, previousStates := r.sessionState :: r.previousStates, fresh := false } := by
    rw [hload]
    unfold archiveUnlessFresh SessionRecord.archiveCurrentState SessionRecord.promoteState
    simp only [Bool.not_false, if_true]
    rw [if_neg (by
      show ¬ (r.sessionState :: r.previousStates).length > 40
      rw [List.length_cons]
      omega)]
  rcases decryptPkmsg_cases (Spec.without w a) a m seed seeds with
    ⟨_, h⟩ | ⟨ht, ⟨e, _, h⟩ | ⟨rn, u, e, hv, hd, h⟩ | ⟨r1, u, pt, r2, _, _, h⟩⟩
  · rw [hbad] at h; cases h
  · rw [hbad] at h; cases h
  rotate_left
  · rw [hbad] at h; cases h
  rw [hbad] at h
  obtain rfl : Err.invalidMessage = e := by
    injection h with _ h
    injection h
  replace ht : w.isTrusted a.1 m.identityKey = true := ht
  rw [hload0] at hv
  -- the state that is set up
  obtain ⟨hofb, hu⟩ : ofBase m.baseKey rn.sessionState ∧ u = (match m.preKeyId with
      | none => none
      | some id => if id ≠ Medium.MAX_VALUE then some id else none) := by
    rcases processV3_ok hv with ⟨h, _⟩ | ⟨_, spk, kp, ot, s0, s1, s2, _, _, _, _, q1, q2, q3, q4, q5⟩
    · rw [hk0] at h; cases h
    · refine ⟨?_, q5⟩
      simp only at q4
      rw [q4]
      exact ⟨(created_shape (.bob q1 q2 q3)).1, rfl⟩
  have hjunk : SessionCipher.decryptWithSessionState rn.sessionState m.message seed = .error .invalidMessage := by
    unfold SessionCipher.decryptWithSessionRecord at hd
    split at hd
    · cases hd
    · assumption
    · rename_i hd'
      rw [hd', Except.error.inj hd]
  have hv' : processV3 w (w.loadSession a) m =
      .ok (⟨false, rn.sessionState, r.sessionState :: r.previousStates⟩, u) := by
    rw [processV3_empty (w := w) (w' := Spec.without w a) (r' := {}) rfl rfl rfl rfl hk hk0 (by rw [harch]) rfl, hv, harch]
    rfl
  -- the message on its own
  have hc : w.containsSession a = true := by
    unfold World.containsSession
    rw [hr]
    rfl
  have ho : o = Outcome.ofRes (do
      let x ← SessionCipher.decryptWithSessionRecord (w.loadSession a) m.message (seeds 0) (fun i => seeds (i + 1))
      .ok ([.session a x.2], x.1)) := by
    show SessionCipher.decryptMsg w a m.message _ _ = _
    unfold SessionCipher.decryptMsg
    rw [hc]
    rfl
  replace hgood : o.result = .ok pt := hgood
  rw [ho] at hgood
  obtain ⟨x, hx, hx'⟩ := bind_eq_ok.1 (Outcome.ofRes_ok hgood)
  obtain ⟨pt', r'⟩ := x
  obtain rfl : pt' = pt := by
    have := Except.ok.inj hx'
    injection this
  have hof : o.final w = w.applyAll [.session a r'] := by
    rw [ho, hx]
    rfl
  -- the wrapped message
  obtain ⟨r'', hdw, hst⟩ : ∃ r'', SessionCipher.decryptWithSessionRecord
      ⟨false, rn.sessionState, r.sessionState :: r.previousStates⟩ m.message seed seeds =
        .ok (pt', r'') ∧ r''.sessionState = r'.sessionState ∧ r''.previousStates = rn.sessionState :: r'.previousStates := by
    unfold SessionCipher.decryptWithSessionRecord
    simp only [hjunk]
    rw [hload] at hx
    rcases dwsr_ok hx with ⟨s, h1, h2⟩ | ⟨h0, k, p, s, hp, h1, hb, h2⟩
    · have := tryPrevious_decides (r := ⟨false, rn.sessionState, r.sessionState :: r.previousStates⟩) (seeds := seeds) (.ok (pt', s)) (by simp) (r.sessionState :: r.previousStates) 0 0 rfl
        (fun j q hj => absurd hj (Nat.not_lt_zero _)) h1
      rw [this]
      refine ⟨_, rfl, ?_⟩
      rw [h2]
      unfold SessionRecord.promoteState
      simp only [List.eraseIdx_zero, List.tail_cons, Nat.add_zero]
      rw [if_neg (by
        show ¬ (rn.sessionState :: r.previousStates).length > 40
        rw [List.length_cons]
        omega)]
      exact ⟨rfl, rfl⟩
    · have hk := List.getElem?_eq_some_iff.1 hp
      have hlen : (r.previousStates.eraseIdx k).length < 39 := by
        have h1 : k < r.previousStates.length := hk.1
        rw [List.length_eraseIdx_of_lt h1]
        omega
      have := tryPrevious_decides (r := ⟨false, rn.sessionState, r.sessionState :: r.previousStates⟩) (seeds := seeds) (.ok (pt', s)) (by simp) (r.sessionState :: r.previousStates) 0 (k + 1)
        (by simpa using hp)
        (fun j q hj hq => by
          cases j with
          | zero =>
            obtain rfl := Option.some.inj hq
            exact h0
          | succ j =>
            have := hb j q (by omega) (by simpa using hq)
            rw [Nat.zero_add]
            exact this)
        (by rw [Nat.zero_add]; exact h1)
      rw [this]
      refine ⟨_, rfl, ?_⟩
      rw [h2]
      unfold SessionRecord.promoteState
      simp only [Nat.zero_add, List.eraseIdx_cons_succ]
      rw [if_neg (by
        show ¬ (rn.sessionState :: r.sessionState :: r.previousStates.eraseIdx k).length > 40
        rw [List.length_cons, List.length_cons]
        omega), if_neg (by
        show ¬ (r.sessionState :: r.previousStates.eraseIdx k).length > 40
        rw [List.length_cons]
        omega)]
      simp
  have ho' : o' = ⟨[.identity a.1 m.identityKey, .session a r''] ++ (u.map Write.removePreKey).toList, .ok pt'⟩ := by
    rcases decryptPkmsg_cases w a m seed seeds with ⟨h, _⟩ | ⟨_, ⟨e, h, _⟩ | ⟨r1, u1, e, h, hd, h'⟩ | ⟨r1, u1, pt, r2, h, hd, h'⟩⟩
    · rw [ht] at h; cases h
    · rw [hv'] at h; cases h
    · rw [hv'] at h
      obtain ⟨rfl, rfl⟩ := Prod.mk.inj (Except.ok.inj h)
      rw [hdw] at hd
      cases hd
    · rw [hv'] at h
      obtain ⟨rfl, rfl⟩ := Prod.mk.inj (Except.ok.inj h)
      rw [hdw] at hd
      obtain ⟨rfl, rfl⟩ := Prod.mk.inj (Except.ok.inj hd)
      exact h'
  refine ⟨by rw [ho'], ⟨r'.sessionState, rn.sessionState, r'.previousStates, hofb, ?_, ?_⟩, ?_⟩
  · rw [hof]
    simp [statesAt, World.applyAll, World.apply, upd]
  · rw [ho']
    cases u <;> simp [statesAt, Outcome.final, World.applyAll, World.apply, upd, hst.1, hst.2]
  · intro i hi hne
    have hu' : u = some i := by
      rw [hu, hi]
      exact if_pos hne
    rw [ho', hu']
    simp [Outcome.final, World.applyAll, World.apply, upd]
end

/-! ### Example: Alice's third message in somebody's wrapping -/
namespace Example
attribute [local instance] toy
open Spec

def wrapMsg : WhisperMessage :=
  match (SessionCipher.encrypt alice3 bobAddr [9, 8, 7]).result with | .ok c => c.inner | .error _ => noMessage

/-- Bob, who has published another one-time prekey. -/
def wrapBob : World := { bob2 with preKeys := fun i => if i = 33 then some bobPreKey else none }

/-- The message that somebody makes of it. -/
def wrapPk : PreKeyWhisperMessage :=
  match PreKeyWhisperMessage.create 3 99 (some 33) 22 (key 66) (key 1) wrapMsg with | .ok m => m | .error _ => firstPk

/-- It goes over the wire. -/
example : (PreKeyWhisperMessage.parse wrapPk.serialized).map (fun m => (m.preKeyId, m.baseKey, m.message)) =
    .ok (some 33, key 66, wrapMsg) := by decide +kernel

theorem wrap_session : (wrapBob.sessions aliceAddr).isSome = true := by decide +kernel

def wrapRecord : SessionRecord := (wrapBob.sessions aliceAddr).getD {}

theorem wrap_record : wrapBob.sessions aliceAddr = some wrapRecord := by
  unfold wrapRecord
  have := wrap_session
  generalize wrapBob.sessions aliceAddr = x at *
  cases x with
  | none => cases this
  | some r => rfl

theorem wrap_unknown : ¬ Spec.knowsBaseKey wrapRecord wrapPk.version wrapPk.baseKey := by
  intro h
  have : (wrapBob.loadSession aliceAddr).hasSessionState wrapPk.version (Curve.serializePoint wrapPk.baseKey) = true :=
    (loaded_known wrapBob aliceAddr wrapPk).2 ⟨_, wrap_record, h⟩
  revert this
  decide +kernel

theorem wrap_alone : SessionCipher.decryptPkmsg (Spec.without wrapBob aliceAddr) aliceAddr wrapPk (key 51) (fun _ => key 52) =
    ⟨[.identity aliceAddr.1 wrapPk.identityKey], .error .invalidMessage⟩ := by
  have h1 : (SessionCipher.decryptPkmsg (Spec.without wrapBob aliceAddr) aliceAddr wrapPk (key 51) (fun _ => key 52)).writes =
    [.identity aliceAddr.1 wrapPk.identityKey] := by decide +kernel
  have h2 : (SessionCipher.decryptPkmsg (Spec.without wrapBob aliceAddr) aliceAddr wrapPk (key 51) (fun _ => key 52)).result =
    .error .invalidMessage := by decide +kernel
  generalize SessionCipher.decryptPkmsg (Spec.without wrapBob aliceAddr) aliceAddr wrapPk (key 51) (fun _ => key 52) = o at h1 h2
  cases o
  simp only at h1 h2
  rw [h1, h2]

/-- The prekey that nobody used is deleted. -/
example : let o' := SessionCipher.decryptPkmsg wrapBob aliceAddr wrapPk (key 51) (fun _ => key 52)
    o'.result = .ok [9, 8, 7] ∧ (wrapBob.preKeys 33).isSome = true ∧ (o'.final wrapBob).preKeys 33 = none := by
  have h := C84_rewrapped wrapBob aliceAddr wrapRecord wrap_record (by decide +kernel) wrapPk wrap_unknown (key 51) (fun _ => key 52)
    wrap_alone [9, 8, 7] (by decide +kernel)
  exact ⟨h.1, by decide +kernel, h.2.2 33 (by decide +kernel) (by decide)⟩

/-- A known base key: the first message again, its inner message replaced by a later one and its ids by others. -/
def wrapKnown : PreKeyWhisperMessage := { firstPk with message := wrapMsg, preKeyId := some 33, signedPreKeyId := 5 }

theorem wrap_known : Spec.knowsBaseKey wrapRecord wrapKnown.version wrapKnown.baseKey := by
  obtain ⟨r, h1, h2⟩ := (loaded_known wrapBob aliceAddr wrapKnown).1 (by decide +kernel)
  rw [wrap_record] at h1
  obtain rfl := Option.some.inj h1
  exact h2

example : (SessionCipher.decryptPkmsg wrapBob aliceAddr wrapKnown (key 51) (fun _ => key 52)).result = .ok [9, 8, 7] := by
  rw [C84_known wrapBob aliceAddr wrapRecord wrap_record wrapKnown wrap_known (by decide +kernel)]
  decide +kernel

end Example
end Axolotl
