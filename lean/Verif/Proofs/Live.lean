import Verif.Model.Live
import Verif.Proofs.Basic
import Verif.Proofs.Shape

/-! # Calls on record objects: what they return and what they leave behind -/

namespace Axolotl
section

attribute [local irreducible] chkU32 chkI32

namespace Obj
variable {σ α β : Type}

theorem bind_run (x : Obj σ α) (f : α → Obj σ β) (s : σ) :
    (x >>= f) s = match x s with
      | (.ok a, s') => f a s'
      | (.error e, s') => (.error e, s') := rfl
theorem lift_bind_ok {a : α} (f : α → Obj σ β) (s : σ) : ((lift (.ok a) : Obj σ α) >>= f) s = f a s := rfl
theorem lift_bind_error {e : Err} (f : α → Obj σ β) (s : σ) : ((lift (.error e) : Obj σ α) >>= f) s = (.error e, s) := rfl
theorem bind_assoc {γ : Type} (x : Obj σ α) (f : α → Obj σ β) (g : β → Obj σ γ) :
    x >>= f >>= g = x >>= fun a => f a >>= g := by
  funext s
  simp only [bind_run]
  cases h : x s with
  | mk r s' => cases r <;> rfl

theorem get_bind (f : σ → Obj σ β) (s : σ) : ((get : Obj σ σ) >>= f) s = f s s := rfl
theorem modify_bind (g : σ → σ) (f : Unit → Obj σ β) (s : σ) : ((modify g : Obj σ Unit) >>= f) s = f () (g s) := rfl

end Obj

variable [C : Crypto]
namespace InUse

/-- The record object with another current state. -/
def withState (l : InUse) (s : SessionState) : InUse := { l with obj := l.obj.setState s }

omit C in
theorem withState_withState (l : InUse) (s s' : SessionState) : (l.withState s).withState s' = l.withState s' := rfl
omit C in
theorem withState_self (l : InUse) : l.withState l.obj.sessionState = l := rfl

/-- Running `x` sets the current state to what `v` says; if `v` raises, so does `x`, and only the current state may have
changed. -/
def Sets {α : Type} (x : Obj InUse α) (l : InUse) (v : Res (α × SessionState)) : Prop :=
  match v with
  | .ok (a, s) => x l = (.ok a, l.withState s)
  | .error e => ∃ s, x l = (.error e, l.withState s)

omit C in
theorem Sets.lift_bind {α β : Type} {r : Res α} {f : α → Obj InUse β} {l : InUse} {g : α → Res (β × SessionState)}
    (h : ∀ a, r = .ok a → Sets (f a) l (g a)) : Sets (Obj.lift r >>= f) l (r >>= g) := by
  cases r with
  | error e => exact ⟨l.obj.sessionState, rfl⟩
  | ok a => exact h a rfl

omit C in
theorem Sets.lift_ok {α β : Type} {a : α} {f : α → Obj InUse β} {l : InUse} {v : Res (β × SessionState)} :
    Sets (Obj.lift (.ok a) >>= f) l v = Sets (f a) l v := rfl

omit C in
theorem Sets.state_bind {β : Type} {f : SessionState → Obj InUse β} {l : InUse} {v : Res (β × SessionState)} :
    Sets (state >>= f) l v = Sets (f l.obj.sessionState) l v := rfl

omit C in
theorem Sets.of_withState {α : Type} {x : Obj InUse α} {l : InUse} {s : SessionState} {v : Res (α × SessionState)}
    (h : Sets x (l.withState s) v) : Sets (fun _ => x (l.withState s)) l v := by
  unfold Sets at h ⊢
  split
  · simpa [withState_withState] using h
  · simpa [withState_withState] using h

omit C in
theorem Sets.assign_bind {β : Type} {g : SessionState → SessionState} {f : Unit → Obj InUse β} {l : InUse}
    {v : Res (β × SessionState)} (h : Sets (f ()) (l.withState (g l.obj.sessionState)) v) : Sets (assign g >>= f) l v :=
  h.of_withState

omit C in
theorem Sets.bind {α β : Type} {x : Obj InUse α} {f : α → Obj InUse β} {l : InUse} {v : Res (α × SessionState)}
    {g : α × SessionState → Res (β × SessionState)} (h : Sets x l v)
    (h' : ∀ a s, v = .ok (a, s) → Sets (f a) (l.withState s) (g (a, s))) : Sets (x >>= f) l (v >>= g) := by
  cases v with
  | error e =>
    obtain ⟨s, hs⟩ := h
    exact ⟨s, by rw [Obj.bind_run, hs]⟩
  | ok p =>
    obtain ⟨a, s⟩ := p
    have h : x l = (.ok a, l.withState s) := h
    have h2 := h' a s rfl
    have : (x >>= f) l = f a (l.withState s) := by rw [Obj.bind_run, h]
    show Sets (x >>= f) l (g (a, s))
    unfold Sets at h2 ⊢
    split
    · rename_i hg
      rw [hg] at h2
      rw [this]; exact h2
    · rename_i e hg
      rw [hg] at h2
      obtain ⟨s', hs'⟩ := h2
      exact ⟨s', by rw [this]; exact hs'⟩

/-- A result of a setter, as a result without value. -/
def unit (r : Res SessionState) : Res (Unit × SessionState) := r.map fun s => ((), s)

omit C in
theorem unit_eq_bind (r : Res SessionState) : unit r = r >>= fun s => .ok ((), s) := by cases r <;> rfl

omit C in
theorem sets_addReceiverChain (l : InUse) (k : ECPub) (ck : ChainKey) :
    Sets (addReceiverChain k ck) l (unit (l.obj.sessionState.addReceiverChain k ck)) := by
  unfold addReceiverChain
  rw [Sets.state_bind, unit_eq_bind]
  exact Sets.lift_bind fun s _ => rfl

omit C in
theorem sets_assignChainKey (l : InUse) (ck : ChainKey) :
    Sets (assignChainKey ck) l (unit (l.obj.sessionState.setSenderChainKey ck)) := by
  unfold assignChainKey SessionState.setSenderChainKey assignChain
  refine Sets.assign_bind ?_
  cases chkU32 ck.index with
  | error e => exact ⟨_, rfl⟩
  | ok i => exact rfl

omit C in
theorem sets_setSenderChain (l : InUse) (kp : KeyPair) (ck : ChainKey) :
    Sets (setSenderChain kp ck) l (unit (l.obj.sessionState.setSenderChain kp ck)) := by
  unfold setSenderChain SessionState.setSenderChain assignChain
  refine Sets.assign_bind (Sets.assign_bind ?_)
  have h := sets_assignChainKey ((l.withState { l.obj.sessionState with senderChain := some { l.obj.sessionState.senderChainD with
    senderRatchetKey := some (Curve.serializePoint kp.pub) } }).withState { l.obj.sessionState with senderChain := some { l.obj.sessionState.senderChainD with
    senderRatchetKey := some (Curve.serializePoint kp.pub), senderRatchetKeyPrivate := some kp.priv } }) ck
  unfold SessionState.setSenderChainKey at h
  cases hc : chkU32 ck.index with
  | error e => rw [hc] at h; exact h
  | ok i => rw [hc] at h; exact h

omit C in
theorem sets_setUnacknowledged (l : InUse) (i : Option Int) (j : Int) (k : ECPub) :
    Sets (setUnacknowledgedPreKeyMessage i j k) l (unit (l.obj.sessionState.setUnacknowledgedPreKeyMessage i j k)) := by
  unfold setUnacknowledgedPreKeyMessage SessionState.setUnacknowledgedPreKeyMessage
  cases chkI32 j with
  | error e => exact ⟨_, rfl⟩
  | ok spk =>
    rw [Sets.lift_ok]
    refine Sets.assign_bind (Sets.assign_bind ?_)
    cases i with
    | none => exact rfl
    | some i =>
      dsimp only
      cases chkU32 i with
      | error e => exact ⟨_, rfl⟩
      | ok i => exact rfl

omit C in
theorem sets_setLocalRegistrationId (l : InUse) (i : Int) :
    Sets (setLocalRegistrationId i) l (unit (l.obj.sessionState.setLocalRegistrationId i)) := by
  unfold setLocalRegistrationId SessionState.setLocalRegistrationId
  cases chkU32 i with
  | error e => exact ⟨_, rfl⟩
  | ok i => exact rfl

omit C in
theorem sets_setRemoteRegistrationId (l : InUse) (i : Int) :
    Sets (setRemoteRegistrationId i) l (unit (l.obj.sessionState.setRemoteRegistrationId i)) := by
  unfold setRemoteRegistrationId SessionState.setRemoteRegistrationId
  cases chkU32 i with
  | error e => exact ⟨_, rfl⟩
  | ok i => exact rfl

omit C in
theorem unit_bind (r : Res SessionState) (g : SessionState → Res SessionState) :
    unit (r >>= g) = unit r >>= fun p => unit (g p.2) := by
  cases r <;> rfl

omit C in
theorem unit_lift_bind {α : Type} (r : Res α) (g : α → Res SessionState) : unit (r >>= g) = r >>= fun a => unit (g a) := by
  cases r <;> rfl

theorem sets_asAlice (l : InUse) (p : AliceParameters) (seed : Bytes) :
    Sets (initializeSessionAsAlice p seed) l (unit (RatchetingSession.initializeSessionAsAlice l.obj.sessionState p seed)) := by
  unfold initializeSessionAsAlice RatchetingSession.initializeSessionAsAlice
  refine Sets.assign_bind (Sets.assign_bind (Sets.assign_bind ?_))
  dsimp only
  rw [unit_lift_bind]
  refine Sets.lift_bind fun secrets _ => ?_
  rw [unit_lift_bind]
  refine Sets.lift_bind fun chain _ => ?_
  rw [unit_bind]
  refine Sets.bind (sets_addReceiverChain _ _ _) fun _ s _ => ?_
  rw [unit_bind]
  refine Sets.bind (sets_setSenderChain _ _ _) fun _ s _ => ?_
  exact rfl

theorem sets_asBob (l : InUse) (p : BobParameters) :
    Sets (initializeSessionAsBob p) l (unit (RatchetingSession.initializeSessionAsBob l.obj.sessionState p)) := by
  unfold initializeSessionAsBob RatchetingSession.initializeSessionAsBob
  refine Sets.assign_bind (Sets.assign_bind (Sets.assign_bind ?_))
  dsimp only
  rw [unit_lift_bind]
  refine Sets.lift_bind fun secrets _ => ?_
  rw [unit_bind]
  refine Sets.bind (sets_setSenderChain _ _ _) fun _ s _ => ?_
  exact rfl

theorem sets_initialize (l : InUse) (p : SymmetricParameters) (seed : Bytes) :
    Sets (initializeSession p seed) l (unit (RatchetingSession.initializeSession l.obj.sessionState p seed)) := by
  unfold initializeSession RatchetingSession.initializeSession
  rw [unit_lift_bind]
  refine Sets.lift_bind fun b _ => ?_
  cases b
  · exact sets_asBob l _
  · exact sets_asAlice l _ _

/-! ## The calls -/

/-- The record with the former current state archived, unless the record is fresh. -/
abbrev archived (r : SessionRecord) : SessionRecord := SessionBuilder.archiveUnlessFresh r

/-- What a call that failed has left of the record. -/
def Left (r r' : SessionRecord) : Prop := r' = r ∨ ∃ s, r' = (archived r).setState s

/-- Running `x` makes the record what `v` says; if `v` raises, so does `x`, and the record is `Left`. -/
def Makes {α : Type} (x : Obj InUse α) (l : InUse) (v : Res (α × SessionRecord)) : Prop :=
  match v with
  | .ok (a, r) => x l = (.ok a, { l with obj := r })
  | .error e => ∃ r, Left l.obj r ∧ x l = (.error e, { l with obj := r })

omit C in
theorem Makes.lift_bind {α β : Type} {r : Res α} {f : α → Obj InUse β} {l : InUse} {g : α → Res (β × SessionRecord)}
    (h : ∀ a, r = .ok a → Makes (f a) l (g a)) : Makes (Obj.lift r >>= f) l (r >>= g) := by
  cases r with
  | error e => exact ⟨l.obj, .inl rfl, rfl⟩
  | ok a => exact h a rfl

omit C in
/-- After archiving, only the current state is set. -/
theorem Makes.archive {α : Type} {x : Obj InUse α} {l : InUse} {v : Res (α × SessionState)}
    (h : Sets x { l with obj := archived l.obj } v) :
    Makes (archiveUnlessFresh >>= fun _ => x) l (v.map fun p => (p.1, (archived l.obj).setState p.2)) := by
  cases v with
  | error e =>
    obtain ⟨s, hs⟩ := h
    exact ⟨_, .inr ⟨s, rfl⟩, hs⟩
  | ok p => exact h

/-- Stores in which no record object is marked as fresh. -/
def unfresh (w : World) : World := { w with sessions := fun a => (w.sessions a).map fun r => { r with fresh := false } }

/-- The record for this address, if there is one, is not marked as fresh. -/
def Clear (w : World) (a : Address) : Prop := ∀ r, w.sessions a = some r → r.fresh = false

omit C in
theorem load_clear {w : World} {a : Address} (h : Clear w a) : w.loadSession a = (load w a).obj := by
  unfold World.loadSession load
  cases hr : w.sessions a with
  | none => rfl
  | some r =>
    have := h r hr
    cases r
    simp only at this
    subst this
    rfl

omit C in
theorem load_state (w : World) (a : Address) : (w.loadSession a).sessionState = (load w a).obj.sessionState := by
  unfold World.loadSession load
  cases w.sessions a <;> rfl

/-- A call on the object, compared to a call on a copy: same result; same stores, up to the mark; or else the call failed
before it stored the record, and the object is `L`. -/
def Agrees {α : Type} (y : Res α × InUse) (w : World) (a : Address) (o : Outcome α) (L : SessionRecord → SessionRecord → Prop) :
    Prop :=
  y.1 = o.result ∧ (unfresh (y.2.finish a) = unfresh (o.final w) ∨
    (∃ e, o.result = .error e) ∧ (o.final w).sessions = w.sessions ∧ ∃ r, L (load w a).obj r ∧
      y.2.finish a = { o.final w with sessions := if (w.sessions a).isSome then upd w.sessions a (some r) else w.sessions })

omit C in
theorem Agrees.failed {α : Type} {w : World} {a : Address} {r : SessionRecord} {e : Err} {L : SessionRecord → SessionRecord → Prop}
    (h : L (load w a).obj r) : Agrees (.error e, { load w a with obj := r }) w a (⟨[], .error e⟩ : Outcome α) L :=
  ⟨rfl, .inr ⟨⟨e, rfl⟩, rfl, r, h, rfl⟩⟩

omit C in
theorem load_self (w : World) (a : Address) : { load w a with obj := (load w a).obj } = load w a := rfl

/-- What a failed encryption has left: all as it was, or the counter was at its last value, and only the chain key advanced. -/
def EncryptLeft (r r' : SessionRecord) : Prop :=
  r' = r ∨ ∃ k, r.sessionState.getSenderChainKey = .ok k ∧ 2 ^ 32 ≤ k.index + 1 ∧
    r' = r.setState { r.sessionState with senderChain := some { r.sessionState.senderChainD with
      chainKey := some { r.sessionState.senderChainD.chainKey.getD {} with key := some k.getNextChainKey.key } } }


omit C in
theorem unfresh_upd (w : World) (a : Address) (r r' : SessionRecord) (h : { r with fresh := false } = { r' with fresh := false }) :
    unfresh { w with sessions := upd w.sessions a (some r) } = unfresh { w with sessions := upd w.sessions a (some r') } := by
  unfold unfresh
  congr 1
  funext x
  unfold upd
  dsimp only
  split
  · exact congrArg some h
  · rfl

/-- The last steps of `encrypt`. -/
theorem encrypt_end (w : World) (a : Address) (k : ChainKey) (c : Ciphertext)
    (h : (load w a).obj.sessionState.getSenderChainKey = .ok k) :
    Agrees ((assignChainKey k.getNextChainKey >>= fun _ => storeSession >>= fun _ => Obj.pure c) (load w a)) w a
      (Outcome.ofRes ((((load w a).obj.sessionState.setSenderChainKey k.getNextChainKey >>= fun s => .ok (c, s)) :
        Res (Ciphertext × SessionState)) >>= fun r => .ok ([Write.session a ((w.loadSession a).setState r.2)], r.1))) EncryptLeft := by
  unfold SessionState.setSenderChainKey assignChainKey
  cases h7 : chkU32 k.getNextChainKey.index with
  | error e =>
    refine Agrees.failed (Or.inr ⟨k, h, ?_, rfl⟩)
    with_unfolding_all unfold chkU32 at h7
    split at h7
    · cases h7
    · have : k.getNextChainKey.index = k.index + 1 := rfl
      omega
  | ok i =>
    refine ⟨rfl, Or.inl ?_⟩
    refine unfresh_upd w a _ _ ?_
    unfold load World.loadSession
    cases w.sessions a <;> rfl

theorem encrypt_agrees (w : World) (a : Address) (pt : Bytes) :
    Agrees (InUse.encrypt pt (load w a)) w a (SessionCipher.encrypt w a pt) EncryptLeft := by
  unfold SessionCipher.encrypt SessionCipher.encryptWithState InUse.encrypt
  simp only
  rw [load_state]
  show Agrees ((Obj.lift (load w a).obj.sessionState.getSenderChainKey >>= _) (load w a)) _ _ _ _
  cases h1 : (load w a).obj.sessionState.getSenderChainKey with
  | error e => exact Agrees.failed (.inl rfl)
  | ok k =>
    rw [Obj.lift_bind_ok]
    simp only [ok_bind]
    cases h2 : (load w a).obj.sessionState.getSenderRatchetKey with
    | error e => exact Agrees.failed (.inl rfl)
    | ok k2 =>
      rw [Obj.lift_bind_ok]
      simp only [ok_bind]
      cases h3 : AES.encrypt k.getMessageKeys.cipherKey k.getMessageKeys.iv pt with
      | error e => exact Agrees.failed (.inl rfl)
      | ok body =>
        rw [Obj.lift_bind_ok]
        simp only [ok_bind]
        cases h4 : (load w a).obj.sessionState.getLocalIdentityKey with
        | error e => exact Agrees.failed (.inl rfl)
        | ok me =>
          rw [Obj.lift_bind_ok]
          simp only [ok_bind]
          cases h5 : (load w a).obj.sessionState.getRemoteIdentityKey with
          | error e => exact Agrees.failed (.inl rfl)
          | ok them =>
            rw [Obj.lift_bind_ok]
            simp only [ok_bind]
            cases h6 : WhisperMessage.create (load w a).obj.sessionState.getSessionVersion k.getMessageKeys.macKey k2 k.index
              (load w a).obj.sessionState.getPreviousCounter body me them with
            | error e => exact Agrees.failed (.inl rfl)
            | ok m =>
              rw [Obj.lift_bind_ok]
              simp only [ok_bind]
              cases hu : (load w a).obj.sessionState.hasUnacknowledgedPreKeyMessage with
              | false =>
                simp only [Bool.false_eq_true, if_false]
                rw [Obj.lift_bind_ok]
                exact encrypt_end w a k _ h1
              | true =>
                simp only [if_true]
                cases h8 : (load w a).obj.sessionState.getUnacknowledgedPreKeyMessageItems with
                | error e => exact Agrees.failed (.inl rfl)
                | ok items =>
                  simp only [ok_bind]
                  cases h9 : PreKeyWhisperMessage.create (load w a).obj.sessionState.getSessionVersion
                    (load w a).obj.sessionState.getLocalRegistrationId items.preKeyId items.signedPreKeyId items.baseKey me m with
                  | error e => exact Agrees.failed (.inl rfl)
                  | ok pm =>
                    simp only [ok_bind]
                    rw [Obj.lift_bind_ok]
                    exact encrypt_end w a k _ h1


theorem tryPrevious_fresh (r : SessionRecord) (f : Bool) (m : WhisperMessage) (seeds : Nat → Bytes) (l : List SessionState) (i : Nat) :
    SessionCipher.tryPrevious { r with fresh := f } m seeds l i =
      (SessionCipher.tryPrevious r m seeds l i).map fun p => (p.1, { p.2 with fresh := f }) := by
  induction l generalizing i with
  | nil => rfl
  | cons p l ih =>
    conv => lhs; unfold SessionCipher.tryPrevious
    conv => rhs; unfold SessionCipher.tryPrevious
    split
    · rfl
    · exact ih _
    · rfl

/-- Decrypting does not look at the mark. -/
theorem decryptRecord_fresh (r : SessionRecord) (f : Bool) (m : WhisperMessage) (seed : Bytes) (seeds : Nat → Bytes) :
    SessionCipher.decryptWithSessionRecord { r with fresh := f } m seed seeds =
      (SessionCipher.decryptWithSessionRecord r m seed seeds).map fun p => (p.1, { p.2 with fresh := f }) := by
  unfold SessionCipher.decryptWithSessionRecord
  simp only
  split
  · rfl
  · exact tryPrevious_fresh ..
  · rfl

omit C in
theorem load_mark (w : World) (a : Address) :
    ∃ f, w.loadSession a = { (load w a).obj with fresh := f } := by
  unfold World.loadSession load
  cases w.sessions a with
  | none => exact ⟨true, rfl⟩
  | some r => exact ⟨false, rfl⟩

theorem decryptMsg_agrees (w : World) (a : Address) (m : WhisperMessage) (seed : Bytes) (seeds : Nat → Bytes) :
    Agrees (InUse.decryptMsg m seed seeds (load w a)) w a (SessionCipher.decryptMsg w a m seed seeds) (fun r r' => r' = r) := by
  unfold SessionCipher.decryptMsg InUse.decryptMsg World.containsSession
  rw [Obj.get_bind]
  show Agrees ((if (!(w.sessions a).isSome) = true then _ else _ : Obj InUse Bytes) (load w a)) _ _ _ _
  cases hs : (w.sessions a).isSome with
  | false => exact Agrees.failed rfl
  | true =>
    simp only [Bool.not_true, Bool.false_eq_true, if_false]
    unfold InUse.decryptWithSessionRecord
    simp only [Obj.bind_assoc, Obj.get_bind]
    obtain ⟨f, hf⟩ := load_mark w a
    rw [hf, decryptRecord_fresh (load w a).obj f]
    cases SessionCipher.decryptWithSessionRecord (load w a).obj m seed seeds with
    | error e => exact Agrees.failed rfl
    | ok p => exact ⟨rfl, Or.inl (unfresh_upd w a _ _ rfl)⟩

/-- The steps of `processV3` that set up a session, on the state. -/
def v3State (w : World) (m : PreKeyWhisperMessage) (spk : KeyPair) (ot : Option KeyPair) (s : SessionState) : Res SessionState := do
  let s ← RatchetingSession.initializeSessionAsBob s
    { theirBaseKey := m.baseKey, theirIdentityKey := m.identityKey,
      ourIdentityKey := w.identityKeyPair, ourSignedPreKey := spk,
      ourRatchetKey := spk, ourOneTimePreKey := ot }
  let s ← s.setLocalRegistrationId w.registrationId
  let s ← s.setRemoteRegistrationId m.registrationId
  .ok (s.setAliceBaseKey (Curve.serializePoint m.baseKey))

omit C in
theorem Makes.get_bind {β : Type} {f : InUse → Obj InUse β} {l : InUse} {v : Res (β × SessionRecord)} :
    Makes (Obj.get >>= f) l v = Makes (f l) l v := rfl

omit C in
theorem bind_assoc_res {α β γ : Type} (r : Res α) (f : α → Res β) (g : β → Res γ) :
    r >>= f >>= g = r >>= fun a => f a >>= g := by cases r <;> rfl

omit C in
theorem map_res_bind {α β γ : Type} (r : Res α) (f : α → Res β) (g : β → γ) : (r >>= f).map g = r >>= fun a => (f a).map g := by
  cases r <;> rfl

theorem sets_v3 {α : Type} (l : InUse) (m : PreKeyWhisperMessage) (w : World) (spk : KeyPair) (ot : Option KeyPair) (x : α) :
    Sets (do
      initializeSessionAsBob
        { theirBaseKey := m.baseKey, theirIdentityKey := m.identityKey,
          ourIdentityKey := w.identityKeyPair, ourSignedPreKey := spk,
          ourRatchetKey := spk, ourOneTimePreKey := ot }
      setLocalRegistrationId w.registrationId
      setRemoteRegistrationId m.registrationId
      assign fun s => s.setAliceBaseKey (Curve.serializePoint m.baseKey)
      Obj.pure x) l ((v3State w m spk ot l.obj.sessionState).map fun s => (x, s)) := by
  unfold v3State
  have e : ∀ (r : Res SessionState) (g : SessionState → Res SessionState),
      (r >>= g).map (fun s => (x, s)) = unit r >>= fun p => (g p.2).map fun s => (x, s) := by
    intro r g; cases r <;> rfl
  rw [e]
  refine Sets.bind (sets_asBob _ _) fun _ s _ => ?_
  rw [e]
  refine Sets.bind (sets_setLocalRegistrationId _ _) fun _ s _ => ?_
  rw [e]
  refine Sets.bind (sets_setRemoteRegistrationId _ _) fun _ s _ => ?_
  exact rfl

/-- `processV3` on the object makes it what `processV3` says. -/
theorem makes_v3 (l : InUse) (m : PreKeyWhisperMessage) :
    Makes (InUse.processV3 m) l ((SessionBuilder.processV3 l.world l.obj m).map fun p => (p.2, p.1)) := by
  unfold InUse.processV3 SessionBuilder.processV3
  rw [Makes.get_bind]
  cases hk : l.obj.hasSessionState m.version (Curve.serializePoint m.baseKey) with
  | true => exact rfl
  | false =>
    simp only [Bool.false_eq_true, if_false]
    rw [map_res_bind]
    refine Makes.lift_bind fun spk _ => ?_
    rw [map_res_bind]
    refine Makes.lift_bind fun kp _ => ?_
    have hend : ∀ ot : Option KeyPair, Makes (do
        archiveUnlessFresh
        initializeSessionAsBob
          { theirBaseKey := m.baseKey, theirIdentityKey := m.identityKey,
            ourIdentityKey := l.world.identityKeyPair, ourSignedPreKey := kp,
            ourRatchetKey := kp, ourOneTimePreKey := ot }
        setLocalRegistrationId l.world.registrationId
        setRemoteRegistrationId m.registrationId
        assign fun s => s.setAliceBaseKey (Curve.serializePoint m.baseKey)
        Obj.pure (match m.preKeyId with
          | none => none
          | some id => if id ≠ Medium.MAX_VALUE then some id else none)) l
        ((do
          let s ← v3State l.world m kp ot (archived l.obj).sessionState
          .ok ((archived l.obj).setState s, (match m.preKeyId with
          | none => none
          | some id => if id ≠ Medium.MAX_VALUE then some id else none)) : Res (SessionRecord × Option Nat)).map fun p => (p.2, p.1)) := by
      intro ot
      have := Makes.archive (sets_v3 (α := Option Nat) { l with obj := archived l.obj } m l.world kp ot (match m.preKeyId with
          | none => none
          | some id => if id ≠ Medium.MAX_VALUE then some id else none))
      cases hv : v3State l.world m kp ot (archived l.obj).sessionState with
      | error e => rw [hv] at this; exact this
      | ok s => rw [hv] at this; exact this
    unfold v3State at hend
    simp only [bind_assoc_res] at hend
    cases hp : m.preKeyId with
    | none =>
      rw [hp] at hend
      exact hend none
    | some id =>
      rw [hp] at hend
      dsimp only
      cases l.world.loadPreKey id with
      | error e => exact ⟨l.obj, .inl rfl, rfl⟩
      | ok pk =>
        simp only [ok_bind]
        cases PreKeyRecord.getKeyPair pk with
        | error e => exact ⟨l.obj, .inl rfl, rfl⟩
        | ok kp' => exact hend (some kp')

omit C in
/-- A call whose first part makes the record. -/
theorem Makes.agrees {α β : Type} {x : Obj InUse α} {f : α → Obj InUse β} {w : World} {a : Address} {v : Res (α × SessionRecord)}
    {o : Outcome β} {L : SessionRecord → SessionRecord → Prop} (h : Makes x (load w a) v)
    (hL : ∀ r r', Left r r' → L r r') (he : ∀ e, v = .error e → o = ⟨[], .error e⟩)
    (hok : ∀ b r, v = .ok (b, r) → Agrees (f b { load w a with obj := r }) w a o L) :
    Agrees ((x >>= f) (load w a)) w a o L := by
  cases v with
  | error e =>
    obtain ⟨r, hr, hx⟩ := h
    rw [he e rfl, Obj.bind_run, hx]
    exact Agrees.failed (hL _ _ hr)
  | ok p =>
    have h : x (load w a) = (.ok p.1, { load w a with obj := p.2 }) := h
    rw [Obj.bind_run, h]
    exact hok p.1 p.2 rfl

/-- The steps of `processPreKeyBundle` that set up a session, on the state. -/
def bundleState (w : World) (b : PreKeyBundle) (spk : ECPub) (baseSeed ratchetSeed : Bytes) (s : SessionState) : Res SessionState := do
  let s ← RatchetingSession.initializeSessionAsAlice s
    { ourBaseKey := Curve.generateKeyPair baseSeed, ourIdentityKey := w.identityKeyPair,
      theirIdentityKey := b.identityKey, theirSignedPreKey := spk,
      theirRatchetKey := spk, theirOneTimePreKey := b.preKey } ratchetSeed
  let s ← s.setUnacknowledgedPreKeyMessage (b.preKey.map fun _ => b.preKeyId) b.signedPreKeyId (Curve.generateKeyPair baseSeed).pub
  let s ← s.setLocalRegistrationId w.registrationId
  let s ← s.setRemoteRegistrationId b.registrationId
  .ok (s.setAliceBaseKey (Curve.serializePoint (Curve.generateKeyPair baseSeed).pub))

theorem sets_bundle (l : InUse) (w : World) (b : PreKeyBundle) (spk : ECPub) (baseSeed ratchetSeed : Bytes) :
    Sets (do
      initializeSessionAsAlice
        { ourBaseKey := Curve.generateKeyPair baseSeed, ourIdentityKey := w.identityKeyPair,
          theirIdentityKey := b.identityKey, theirSignedPreKey := spk,
          theirRatchetKey := spk, theirOneTimePreKey := b.preKey } ratchetSeed
      setUnacknowledgedPreKeyMessage (b.preKey.map fun _ => b.preKeyId) b.signedPreKeyId (Curve.generateKeyPair baseSeed).pub
      setLocalRegistrationId w.registrationId
      setRemoteRegistrationId b.registrationId
      assign fun s => s.setAliceBaseKey (Curve.serializePoint (Curve.generateKeyPair baseSeed).pub)) l
      (unit (bundleState w b spk baseSeed ratchetSeed l.obj.sessionState)) := by
  unfold bundleState
  rw [unit_bind]
  refine Sets.bind (sets_asAlice _ _ _) fun _ s _ => ?_
  rw [unit_bind]
  refine Sets.bind (sets_setUnacknowledged _ _ _ _) fun _ s _ => ?_
  rw [unit_bind]
  refine Sets.bind (sets_setLocalRegistrationId _ _) fun _ s _ => ?_
  rw [unit_bind]
  refine Sets.bind (sets_setRemoteRegistrationId _ _) fun _ s _ => ?_
  exact rfl

omit C in
/-- Storing the record and saving an identity end the call as the writes say. -/
theorem stored_agrees {β : Type} {w : World} {a : Address} {r r' : SessionRecord} {n : String} {k : ECPub} {x : Res β}
    {L : SessionRecord → SessionRecord → Prop} (h : { r with fresh := false } = { r' with fresh := false }) :
    Agrees (x, { world := w.apply (.identity n k), kept := true, obj := r }) w a ⟨[.session a r', .identity n k], x⟩ L := by
  refine ⟨rfl, Or.inl ?_⟩
  exact unfresh_upd { w with identities := upd w.identities n (some k) } a _ _ h

theorem bundle_agrees {w : World} {a : Address} (h : Clear w a) (b : PreKeyBundle) (baseSeed ratchetSeed : Bytes) :
    Agrees (InUse.processPreKeyBundle a b baseSeed ratchetSeed (load w a)) w a
      (SessionBuilder.processPreKeyBundle w a b baseSeed ratchetSeed) Left := by
  unfold InUse.processPreKeyBundle SessionBuilder.processPreKeyBundle
  rw [Obj.get_bind, load_clear h]
  show Agrees ((if (!w.isTrusted a.1 b.identityKey) = true then _ else _ : Obj InUse Unit) (load w a)) _ _ _ _
  cases w.isTrusted a.1 b.identityKey with
  | false => exact Agrees.failed (.inl rfl)
  | true =>
    simp only [Bool.not_true, Bool.false_eq_true, if_false]
    cases b.signedPreKey with
    | none => exact Agrees.failed (.inl rfl)
    | some spk =>
      dsimp only
      cases Curve.verifySignature b.identityKey (Curve.serializePoint spk) b.signedPreKeySignature with
      | error e => exact Agrees.failed (.inl rfl)
      | ok ok =>
        rw [Obj.lift_bind_ok]
        simp only [ok_bind]
        cases ok with
        | false => exact Agrees.failed (.inl rfl)
        | true =>
          simp only [Bool.not_true, Bool.false_eq_true, if_false]
          have hm := Makes.archive (l := load w a) (sets_bundle { load w a with obj := archived (load w a).obj } w b spk baseSeed ratchetSeed)
          have hag := Makes.agrees (f := fun _ => storeSession >>= fun _ => saveIdentity a.1 b.identityKey)
            (o := Outcome.ofRes (bundleState w b spk baseSeed ratchetSeed (archived (load w a).obj).sessionState >>= fun s =>
              .ok ([.session a ((archived (load w a).obj).setState s), .identity a.1 b.identityKey], ())))
            (L := Left) hm (fun _ _ h => h) ?_ ?_
          · simp only [Obj.bind_assoc] at hag
            unfold bundleState at hag
            simp only [bind_assoc_res, ok_bind] at hag
            exact hag
          · intro e he
            dsimp only at he ⊢
            cases hb : bundleState w b spk baseSeed ratchetSeed (archived (load w a).obj).sessionState with
            | error e' => rw [hb] at he; cases he; rfl
            | ok s => rw [hb] at he; cases he
          · intro u r he
            dsimp only at he ⊢
            cases hb : bundleState w b spk baseSeed ratchetSeed (archived (load w a).obj).sessionState with
            | error e' => rw [hb] at he; cases he
            | ok s =>
              rw [hb] at he
              cases he
              exact stored_agrees rfl

/-- What a failed prekey message has left: what `process` has left, or made. -/
def PkLeft (w : World) (m : PreKeyWhisperMessage) (r r' : SessionRecord) : Prop :=
  Left r r' ∨ ∃ id, SessionBuilder.processV3 w r m = .ok (r', id)

theorem pkmsg_agrees {w : World} {a : Address} (h : Clear w a) (m : PreKeyWhisperMessage) (seed : Bytes) (seeds : Nat → Bytes) :
    Agrees (InUse.decryptPkmsg a m seed seeds (load w a)) w a (SessionCipher.decryptPkmsg w a m seed seeds) (PkLeft w m) := by
  unfold InUse.decryptPkmsg SessionCipher.decryptPkmsg InUse.process SessionBuilder.process
  simp only [Obj.bind_assoc]
  rw [Obj.get_bind, load_clear h]
  show Agrees (((if (!w.isTrusted a.1 m.identityKey) = true then _ else _ : Obj InUse (Option Nat)) >>= _) (load w a)) _ _ _ _
  cases w.isTrusted a.1 m.identityKey with
  | false => exact Agrees.failed (.inl (.inl rfl))
  | true =>
    simp only [Bool.not_true, Bool.false_eq_true, if_false, Obj.bind_assoc]
    refine Makes.agrees (makes_v3 (load w a) m) (fun _ _ h => .inl h) ?_ ?_
    · intro e he
      change (SessionBuilder.processV3 w (load w a).obj m).map _ = _ at he
      cases hb : SessionBuilder.processV3 w (load w a).obj m with
      | error e' => rw [hb] at he; cases he; rfl
      | ok p => rw [hb] at he; cases he
    · intro id r he
      change (SessionBuilder.processV3 w (load w a).obj m).map _ = _ at he
      cases hb : SessionBuilder.processV3 w (load w a).obj m with
      | error e' => rw [hb] at he; cases he
      | ok p =>
        rw [hb] at he
        cases he
        dsimp only
        unfold InUse.decryptWithSessionRecord
        simp only [Obj.bind_assoc]
        show Agrees ((Obj.lift (SessionCipher.decryptWithSessionRecord p.1 m.message seed seeds) >>= _)
          ({ load w a with world := w.apply (.identity a.1 m.identityKey), obj := p.1 } : InUse)) _ _ _ _
        cases hd : SessionCipher.decryptWithSessionRecord p.1 m.message seed seeds with
        | error e =>
          refine ⟨rfl, Or.inr ⟨⟨e, rfl⟩, rfl, p.1, .inr ⟨p.2, hb⟩, rfl⟩⟩
        | ok q =>
          rw [Obj.lift_bind_ok]
          cases hi : p.2 with
          | none => exact ⟨rfl, Or.inl rfl⟩
          | some id => exact ⟨rfl, Or.inl rfl⟩

omit C in
/-- Storing the record, saving the identity and building the answer. -/
theorem reply_end {β γ : Type} (w : World) (a : Address) (r : SessionRecord) (n : String) (k : ECPub) (x : Res β)
    (g : β → SessionState → Res γ) :
    Agrees ((storeSession >>= fun _ => saveIdentity n k >>= fun _ => Obj.lift x >>= fun sig => state >>= fun s =>
        Obj.lift (g sig s) >>= fun y => Obj.pure (some y)) { load w a with obj := r }) w a
      ⟨[.session a r, .identity n k], x >>= fun sig => g sig r.sessionState >>= fun y => .ok (some y)⟩ Left := by
  cases x with
  | error e => exact stored_agrees rfl
  | ok sig =>
    show Agrees ((Obj.lift (g sig r.sessionState) >>= fun y => Obj.pure (some y))
      ({ world := w.apply (.identity n k), kept := true, obj := r } : InUse)) w a
      ⟨[.session a r, .identity n k], g sig r.sessionState >>= fun y => .ok (some y)⟩ Left
    cases g sig r.sessionState with
    | error e => exact stored_agrees rfl
    | ok y => exact stored_agrees rfl

/-- The last steps of `processInitiate`. -/
theorem initiate_end (w : World) (a : Address) (m : KeyExchangeMessage) (rnd : SessionBuilder.InitiateRand) (flags : Nat)
    (p : SymmetricParameters) :
    Agrees ((archiveUnlessFresh >>= fun _ => initializeSession p rnd.sendSeed >>= fun _ => storeSession >>= fun _ =>
      saveIdentity a.1 m.identityKey >>= fun _ =>
      Obj.lift (Curve.calculateSignature rnd.sigRand p.ourIdentityKey.priv (Curve.serializePoint p.ourBaseKey.pub)) >>= fun sig =>
      state >>= fun s => Obj.lift (KeyExchangeMessage.create s.getSessionVersion m.sequence flags
        p.ourBaseKey.pub sig p.ourRatchetKey.pub p.ourIdentityKey.pub) >>= fun resp => Obj.pure (some resp)) (load w a)) w a
      (match (RatchetingSession.initializeSession (archived (load w a).obj).sessionState p rnd.sendSeed >>= fun s =>
          .ok ((archived (load w a).obj).setState s, flags, p) : Res (SessionRecord × Nat × SymmetricParameters)) with
      | .error e => ⟨[], .error e⟩
      | .ok (r, flags, p) =>
        ⟨[.session a r, .identity a.1 m.identityKey], do
          let sig ← Curve.calculateSignature rnd.sigRand p.ourIdentityKey.priv
            (Curve.serializePoint p.ourBaseKey.pub)
          let resp ← KeyExchangeMessage.create r.sessionState.getSessionVersion m.sequence flags
            p.ourBaseKey.pub sig p.ourRatchetKey.pub p.ourIdentityKey.pub
          .ok (some resp)⟩) Left := by
  rw [← Obj.bind_assoc]
  refine Makes.agrees (Makes.archive (sets_initialize _ p rnd.sendSeed)) (fun _ _ h => h) ?_ ?_
  · intro e he
    dsimp only at he ⊢
    cases hb : RatchetingSession.initializeSession (archived (load w a).obj).sessionState p rnd.sendSeed with
    | error e' => rw [hb] at he; cases he; rfl
    | ok s => rw [hb] at he; cases he
  · intro u r he
    dsimp only at he ⊢
    cases hb : RatchetingSession.initializeSession (archived (load w a).obj).sessionState p rnd.sendSeed with
    | error e' => rw [hb] at he; cases he
    | ok s =>
      rw [hb] at he
      cases he
      exact reply_end w a _ _ _ _ _

theorem initiate_agrees {w : World} {a : Address} (h : Clear w a) (m : KeyExchangeMessage) (rnd : SessionBuilder.InitiateRand) :
    Agrees (InUse.processInitiate a m rnd (load w a)) w a (SessionBuilder.processInitiate w a m rnd) Left := by
  unfold InUse.processInitiate SessionBuilder.processInitiate SessionBuilder.processInitiateState
  rw [Obj.get_bind, load_clear h]
  dsimp only
  cases Curve.verifySignature m.identityKey (Curve.serializePoint m.baseKey) m.baseKeySignature with
  | error e => exact Agrees.failed (.inl rfl)
  | ok ok =>
    rw [Obj.lift_bind_ok]
    simp only [ok_bind]
    cases ok with
    | false => exact Agrees.failed (.inl rfl)
    | true =>
      simp only [Bool.not_true, Bool.false_eq_true, if_false]
      cases hp : (load w a).obj.sessionState.hasPendingKeyExchange with
      | false =>
        simp only [Bool.not_false, if_true]
        rw [Obj.lift_bind_ok]
        exact initiate_end w a m rnd _ _
      | true =>
        simp only [Bool.not_true, Bool.false_eq_true, if_false]
        cases (load w a).obj.sessionState.getPendingKeyExchangeIdentityKey with
        | error e => exact Agrees.failed (.inl rfl)
        | ok ik =>
          simp only [ok_bind]
          cases (load w a).obj.sessionState.getPendingKeyExchangeBaseKey with
          | error e => exact Agrees.failed (.inl rfl)
          | ok bk =>
            simp only [ok_bind]
            cases (load w a).obj.sessionState.getPendingKeyExchangeRatchetKey with
            | error e => exact Agrees.failed (.inl rfl)
            | ok rk =>
              simp only [ok_bind]
              rw [Obj.lift_bind_ok]
              exact initiate_end w a m rnd _ _

theorem response_agrees {w : World} {a : Address} (h : Clear w a) (m : KeyExchangeMessage) (sendSeed : Bytes) :
    Agrees (InUse.processResponse a m sendSeed (load w a)) w a (SessionBuilder.processResponse w a m sendSeed) Left := by
  unfold InUse.processResponse SessionBuilder.processResponse
  rw [load_clear h]
  dsimp only
  show Agrees ((if (!(load w a).obj.sessionState.hasPendingKeyExchange ||
    (load w a).obj.sessionState.getPendingKeyExchangeSequence != m.sequence) = true then _ else _ : Obj InUse (Option KeyExchangeMessage)) (load w a)) _ _ _ _
  cases (!(load w a).obj.sessionState.hasPendingKeyExchange ||
    (load w a).obj.sessionState.getPendingKeyExchangeSequence != m.sequence) with
  | true =>
    simp only [if_true]
    cases m.isResponseForSimultaneousInitiate with
    | false => exact Agrees.failed (.inl rfl)
    | true =>
      refine ⟨rfl, Or.inl ?_⟩
      show unfresh ((load w a).finish a) = unfresh w
      unfold load finish
      dsimp only
      cases hs : w.sessions a with
      | none => rfl
      | some r =>
        simp only [Option.isSome_some, if_true, Option.getD_some]
        congr 1
        cases w
        congr 1
        funext x
        unfold upd
        split
        · rename_i hx; rw [hx]; exact hs.symm
        · rfl
  | false =>
    simp only [Bool.false_eq_true, if_false]
    cases (load w a).obj.sessionState.getPendingKeyExchangeBaseKey with
    | error e => exact Agrees.failed (.inl rfl)
    | ok bk =>
      rw [Obj.lift_bind_ok]
      simp only [ok_bind]
      cases (load w a).obj.sessionState.getPendingKeyExchangeRatchetKey with
      | error e => exact Agrees.failed (.inl rfl)
      | ok rk =>
        rw [Obj.lift_bind_ok]
        simp only [ok_bind]
        cases (load w a).obj.sessionState.getPendingKeyExchangeIdentityKey with
        | error e => exact Agrees.failed (.inl rfl)
        | ok ik =>
          rw [Obj.lift_bind_ok]
          simp only [ok_bind]
          rw [← Obj.bind_assoc]
          refine Makes.agrees (Makes.archive (sets_initialize _ _ sendSeed)) (fun _ _ h => h) ?_ ?_
          · intro e he
            dsimp only at he ⊢
            revert he
            cases RatchetingSession.initializeSession (archived (load w a).obj).sessionState
              { ourBaseKey := bk, ourRatchetKey := rk, ourIdentityKey := ik, theirBaseKey := m.baseKey,
                theirRatchetKey := m.ratchetKey, theirIdentityKey := m.identityKey } sendSeed with
            | error e' => intro he; cases he; rfl
            | ok s => intro he; cases he
          · intro u r he
            dsimp only at he ⊢
            revert he
            cases RatchetingSession.initializeSession (archived (load w a).obj).sessionState
              { ourBaseKey := bk, ourRatchetKey := rk, ourIdentityKey := ik, theirBaseKey := m.baseKey,
                theirRatchetKey := m.ratchetKey, theirIdentityKey := m.identityKey } sendSeed with
            | error e' => intro he; cases he
            | ok s =>
              intro he
              cases he
              simp only [ok_bind]
              cases Curve.verifySignature m.identityKey (Curve.serializePoint m.baseKey) m.baseKeySignature with
              | error e => exact Agrees.failed (.inr ⟨s, rfl⟩)
              | ok ok =>
                rw [Obj.lift_bind_ok]
                simp only [ok_bind]
                cases ok with
                | false => exact Agrees.failed (.inr ⟨s, rfl⟩)
                | true => exact stored_agrees rfl

theorem keyExchange_agrees {w : World} {a : Address} (h : Clear w a) (m : KeyExchangeMessage) (rnd : SessionBuilder.InitiateRand) :
    Agrees (InUse.processKeyExchangeMessage a m rnd (load w a)) w a (SessionBuilder.processKeyExchangeMessage w a m rnd) Left := by
  unfold InUse.processKeyExchangeMessage SessionBuilder.processKeyExchangeMessage
  rw [Obj.get_bind]
  show Agrees ((if (!w.isTrusted a.1 m.identityKey) = true then _ else _ : Obj InUse (Option KeyExchangeMessage)) (load w a)) _ _ _ _
  cases w.isTrusted a.1 m.identityKey with
  | false => exact Agrees.failed (.inl rfl)
  | true =>
    simp only [Bool.not_true, Bool.false_eq_true, if_false]
    cases m.isInitiate with
    | false => exact response_agrees h m _
    | true => exact initiate_agrees h m rnd

theorem init_agrees (w : World) (a : Address) (n : Nat) (s1 s2 s3 : Bytes) :
    Agrees (InUse.processInitKeyExchangeMessage n s1 s2 s3 (load w a)) w a
      (SessionBuilder.processInitKeyExchangeMessage w a n s1 s2 s3) (fun r r' => r' = r) := by
  unfold InUse.processInitKeyExchangeMessage SessionBuilder.processInitKeyExchangeMessage
  rw [Obj.get_bind]
  dsimp only
  rw [load_state]
  show Agrees ((Obj.lift (Curve.calculateSignature s3 w.identityKeyPair.priv (Curve.serializePoint (Curve.generateKeyPair s1).pub)) >>= _)
    (load w a)) _ _ _ _
  cases Curve.calculateSignature s3 w.identityKeyPair.priv (Curve.serializePoint (Curve.generateKeyPair s1).pub) with
  | error e => exact Agrees.failed rfl
  | ok sig =>
    rw [Obj.lift_bind_ok]
    simp only [ok_bind]
    show Agrees ((Obj.lift ((load w a).obj.sessionState.setPendingKeyExchange (n + 1) (Curve.generateKeyPair s1) (Curve.generateKeyPair s2)
      w.identityKeyPair) >>= _) (load w a)) _ _ _ _
    cases (load w a).obj.sessionState.setPendingKeyExchange (n + 1) (Curve.generateKeyPair s1) (Curve.generateKeyPair s2)
      w.identityKeyPair with
    | error e => exact Agrees.failed rfl
    | ok s =>
      rw [Obj.lift_bind_ok]
      simp only [ok_bind]
      refine ⟨rfl, Or.inl (unfresh_upd w a _ _ ?_)⟩
      obtain ⟨f, hf⟩ := load_mark w a
      rw [hf]
      rfl

omit C in
theorem map_run {α β : Type} (f : α → β) (x : Obj InUse α) (l : InUse) : (x.map f) l = ((x l).1.map f, (x l).2) := by
  unfold Obj.map Obj.bind
  cases h : x l with
  | mk r s => cases r <;> rfl

omit C in
theorem Agrees.map {α β : Type} {f : α → β} {y : Res α × InUse} {w : World} {a : Address} {o : Outcome α}
    {L : SessionRecord → SessionRecord → Prop} (h : Agrees y w a o L) :
    Agrees (y.1.map f, y.2) w a (Call.mapOutcome f o) L := by
  obtain ⟨h1, h2⟩ := h
  obtain ⟨ws, res⟩ := o
  refine ⟨?_, ?_⟩
  · show y.1.map f = _
    rw [h1]
    cases res <;> rfl
  · rcases h2 with h2 | ⟨⟨e, he⟩, h3, h4⟩
    · exact .inl h2
    · refine .inr ⟨⟨e, ?_⟩, h3, h4⟩
      have he : res = .error e := he
      rw [he]; rfl

omit C in
theorem Agrees.obj_map {α β : Type} {f : α → β} {x : Obj InUse α} {l : InUse} {w : World} {a : Address} {o : Outcome α}
    {L : SessionRecord → SessionRecord → Prop} (h : Agrees (x l) w a o L) : Agrees ((x.map f) l) w a (Call.mapOutcome f o) L := by
  rw [map_run]; exact h.map

omit C in
theorem Agrees.mono {α : Type} {y : Res α × InUse} {w : World} {a : Address} {o : Outcome α}
    {L L' : SessionRecord → SessionRecord → Prop} (h : Agrees y w a o L) (hL : ∀ r r', L r r' → L' r r') :
    Agrees y w a o L' := by
  obtain ⟨h1, h2⟩ := h
  refine ⟨h1, ?_⟩
  rcases h2 with h2 | ⟨he, h3, r, hr, h4⟩
  · exact .inl h2
  · exact .inr ⟨he, h3, r, hL _ _ hr, h4⟩

/-- What a failed call has left of the record. -/
def CallLeft (w : World) : Call → SessionRecord → SessionRecord → Prop
  | .encrypt .. => EncryptLeft
  | .decryptMsg .. | .initKeyExchange .. => fun r r' => r' = r
  | .decryptPkmsg _ m _ _ => PkLeft w m
  | .processBundle .. | .processKeyExchange .. => Left

theorem call_agrees {w : World} {c : Call} (h : Clear w c.addr) :
    Agrees (c.live (load w c.addr)) w c.addr (c.run w) (CallLeft w c) := by
  cases c with
  | encrypt a p => exact (encrypt_agrees w a p).obj_map
  | decryptMsg a m s ss => exact (decryptMsg_agrees w a m s ss).obj_map
  | decryptPkmsg a m s ss => exact (pkmsg_agrees h m s ss).obj_map
  | processBundle a b s1 s2 => exact (bundle_agrees h b s1 s2).obj_map
  | processKeyExchange a m r => exact (keyExchange_agrees h m r).obj_map
  | initKeyExchange a n s1 s2 s3 => exact (init_agrees w a n s1 s2 s3).obj_map

/-! ## The mark on a record object does not matter for the other calls -/

omit C in
theorem loadSession_unfresh (w : World) (a : Address) : (unfresh w).loadSession a = w.loadSession a := by
  unfold World.loadSession unfresh
  dsimp only
  cases w.sessions a <;> rfl

omit C in
theorem contains_unfresh (w : World) (a : Address) : (unfresh w).containsSession a = w.containsSession a := by
  unfold World.containsSession unfresh
  dsimp only
  cases w.sessions a <;> rfl

theorem run_unfresh (w : World) (c : Call) : c.run (unfresh w) = c.run w := by
  cases c with
  | encrypt a p =>
    show Call.mapOutcome _ (SessionCipher.encrypt _ _ _) = Call.mapOutcome _ (SessionCipher.encrypt _ _ _)
    unfold SessionCipher.encrypt
    rw [loadSession_unfresh]
  | decryptMsg a m s ss =>
    show Call.mapOutcome _ (SessionCipher.decryptMsg _ _ _ _ _) = Call.mapOutcome _ (SessionCipher.decryptMsg _ _ _ _ _)
    unfold SessionCipher.decryptMsg
    rw [loadSession_unfresh, contains_unfresh]
  | decryptPkmsg a m s ss =>
    show Call.mapOutcome _ (SessionCipher.decryptPkmsg _ _ _ _ _) = Call.mapOutcome _ (SessionCipher.decryptPkmsg _ _ _ _ _)
    unfold SessionCipher.decryptPkmsg
    rw [loadSession_unfresh]
    rfl
  | processBundle a b s1 s2 =>
    show Call.mapOutcome _ (SessionBuilder.processPreKeyBundle _ _ _ _ _) = Call.mapOutcome _ (SessionBuilder.processPreKeyBundle _ _ _ _ _)
    unfold SessionBuilder.processPreKeyBundle
    rw [loadSession_unfresh]
    rfl
  | processKeyExchange a m r =>
    show Call.mapOutcome _ (SessionBuilder.processKeyExchangeMessage _ _ _ _) = Call.mapOutcome _ (SessionBuilder.processKeyExchangeMessage _ _ _ _)
    unfold SessionBuilder.processKeyExchangeMessage SessionBuilder.processInitiate SessionBuilder.processInitiateState
      SessionBuilder.processResponse
    rw [loadSession_unfresh]
    rfl
  | initKeyExchange a n s1 s2 s3 =>
    show Call.mapOutcome _ (SessionBuilder.processInitKeyExchangeMessage _ _ _ _ _ _) = Call.mapOutcome _ (SessionBuilder.processInitKeyExchangeMessage _ _ _ _ _ _)
    unfold SessionBuilder.processInitKeyExchangeMessage
    rw [loadSession_unfresh]
    rfl

omit C in
theorem unfresh_apply (w : World) (x : Write) : unfresh ((unfresh w).apply x) = unfresh (w.apply x) := by
  have hs : ∀ f : Address → Option SessionRecord, (fun a => (((f a).map fun r => { r with fresh := false }).map
      fun r : SessionRecord => { r with fresh := false })) = fun a => (f a).map fun r => { r with fresh := false } := by
    intro f; funext a; cases f a <;> rfl
  cases x with
  | session a r =>
    unfold unfresh World.apply
    dsimp only
    congr 1
    funext y
    unfold upd
    split
    · rfl
    · exact congrFun (hs w.sessions) y
  | identity n k =>
    unfold unfresh World.apply
    dsimp only
    rw [hs]
  | removePreKey i =>
    unfold unfresh World.apply
    dsimp only
    rw [hs]

omit C in
theorem unfresh_applyAll (w w' : World) (h : unfresh w = unfresh w') (ws : List Write) :
    unfresh (w.applyAll ws) = unfresh (w'.applyAll ws) := by
  induction ws generalizing w w' with
  | nil => exact h
  | cons x ws ih =>
    refine ih _ _ ?_
    rw [← unfresh_apply w, h, unfresh_apply]

/-- Calls for which the mark on the record object does not matter and which leave nothing behind when they fail: sending while
the counter is not exhausted, receiving, starting a key exchange; and setting up the first session. -/
def Quiet (w : World) : Call → Prop
  | .encrypt a _ => ∀ k, (w.loadSession a).sessionState.getSenderChainKey = .ok k → k.index + 1 < 2 ^ 32
  | .decryptMsg .. | .initKeyExchange .. => True
  | .decryptPkmsg a m _ _ => w.sessions a = none ∨ (w.loadSession a).hasSessionState m.version (Curve.serializePoint m.baseKey) = true
  | .processBundle a .. | .processKeyExchange a .. => w.sessions a = none

omit C in
theorem finish_load (w w' : World) (a : Address) (h : w'.sessions = w.sessions) :
    { w' with sessions := if (w.sessions a).isSome then upd w.sessions a (some (load w a).obj) else w.sessions } = w' := by
  have : (if (w.sessions a).isSome then upd w.sessions a (some (load w a).obj) else w.sessions) = w'.sessions := by
    rw [h]
    unfold load
    cases hs : w.sessions a with
    | none => rfl
    | some r =>
      simp only [Option.isSome_some, if_true, Option.getD_some]
      funext x
      unfold upd
      split
      · rename_i hx; rw [hx, hs]
      · rfl
  rw [this]

omit C in
/-- A call that leaves the record as it is when it fails has the effects of a call on a copy. -/
theorem Agrees.same {α : Type} {y : Res α × InUse} {w : World} {a : Address} {o : Outcome α}
    {L : SessionRecord → SessionRecord → Prop} (h : Agrees y w a o L)
    (hL : w.sessions a = none ∨ ∀ r', L (load w a).obj r' → r' = (load w a).obj) :
    y.1 = o.result ∧ unfresh (y.2.finish a) = unfresh (o.final w) := by
  obtain ⟨h1, h2⟩ := h
  refine ⟨h1, ?_⟩
  rcases h2 with h2 | ⟨_, h3, r, hr, h4⟩
  · exact h2
  · rw [h4]
    rcases hL with hn | hL
    · rw [hn]
      simp only [Option.isSome_none, Bool.false_eq_true, if_false]
      rw [← h3]
    · rw [hL r hr, finish_load w _ a h3]

theorem pkmsg_known (w : World) (a : Address) (m : PreKeyWhisperMessage) (seed : Bytes) (seeds : Nat → Bytes)
    (h : (w.loadSession a).hasSessionState m.version (Curve.serializePoint m.baseKey) = true) :
    Agrees (InUse.decryptPkmsg a m seed seeds (load w a)) w a (SessionCipher.decryptPkmsg w a m seed seeds) (fun r r' => r' = r) := by
  obtain ⟨f, hf⟩ := load_mark w a
  have h' : (load w a).obj.hasSessionState m.version (Curve.serializePoint m.baseKey) = true := by
    rw [hf] at h; exact h
  unfold InUse.decryptPkmsg SessionCipher.decryptPkmsg InUse.process SessionBuilder.process
  simp only [Obj.bind_assoc]
  rw [Obj.get_bind]
  show Agrees (((if (!w.isTrusted a.1 m.identityKey) = true then _ else _ : Obj InUse (Option Nat)) >>= _) (load w a)) _ _ _ _
  cases w.isTrusted a.1 m.identityKey with
  | false => exact Agrees.failed rfl
  | true =>
    simp only [Bool.not_true, Bool.false_eq_true, if_false, Obj.bind_assoc]
    unfold SessionBuilder.processV3 InUse.processV3
    rw [h]
    simp only [Obj.bind_assoc]
    rw [Obj.get_bind, h']
    simp only [if_true]
    unfold InUse.decryptWithSessionRecord
    simp only [Obj.bind_assoc]
    show Agrees ((Obj.lift (SessionCipher.decryptWithSessionRecord (load w a).obj m.message seed seeds) >>= _)
      ({ load w a with world := w.apply (.identity a.1 m.identityKey) } : InUse)) _ _ _ _
    rw [hf, decryptRecord_fresh (load w a).obj f]
    cases hd : SessionCipher.decryptWithSessionRecord (load w a).obj m.message seed seeds with
    | error e => exact ⟨rfl, Or.inr ⟨⟨e, rfl⟩, rfl, (load w a).obj, rfl, rfl⟩⟩
    | ok q =>
      rw [Obj.lift_bind_ok]
      exact ⟨rfl, Or.inl (unfresh_upd { w with identities := upd w.identities a.1 (some m.identityKey) } a _ _ rfl)⟩

omit C in
theorem clear_none {w : World} {a : Address} (h : w.sessions a = none) : Clear w a := by
  intro r hr; rw [h] at hr; cases hr

theorem quiet_agrees {w : World} {c : Call} (h : Quiet w c) :
    (c.runLive w).1 = (c.run w).result ∧ unfresh (c.runLive w).2 = unfresh ((c.run w).final w) := by
  unfold Call.runLive
  cases c with
  | encrypt a p =>
    refine Agrees.same (L := EncryptLeft) ((encrypt_agrees w a p).obj_map) (.inr ?_)
    rintro r' (rfl | ⟨k, hk, hlt, _⟩)
    · rfl
    · have := h k (by rw [load_state]; exact hk)
      omega
  | decryptMsg a m s ss =>
    exact Agrees.same (L := fun r r' => r' = r) ((decryptMsg_agrees w a m s ss).obj_map) (.inr fun _ h => h)
  | decryptPkmsg a m s ss =>
    rcases h with h | h
    · exact Agrees.same (L := PkLeft w m) ((pkmsg_agrees (clear_none h) m s ss).obj_map) (.inl h)
    · exact Agrees.same (L := fun r r' => r' = r) ((pkmsg_known w a m s ss h).obj_map) (.inr fun _ h => h)
  | processBundle a b s1 s2 =>
    exact Agrees.same (L := Left) ((bundle_agrees (clear_none h) b s1 s2).obj_map) (.inl h)
  | processKeyExchange a m r =>
    exact Agrees.same (L := Left) ((keyExchange_agrees (clear_none h) m r).obj_map) (.inl h)
  | initKeyExchange a n s1 s2 s3 =>
    exact Agrees.same (L := fun r r' => r' = r) ((init_agrees w a n s1 s2 s3).obj_map) (.inr fun _ h => h)

omit C in
theorem none_unfresh (w : World) (a : Address) : (unfresh w).sessions a = none ↔ w.sessions a = none := by
  unfold unfresh
  dsimp only
  cases w.sessions a <;> simp

omit C in
theorem quiet_unfresh {w w' : World} (h : unfresh w = unfresh w') {c : Call} (hq : Quiet w c) : Quiet w' c := by
  have hl : ∀ a, w'.loadSession a = w.loadSession a := fun a => by
    rw [← loadSession_unfresh w', ← h, loadSession_unfresh]
  have hn : ∀ a, w.sessions a = none → w'.sessions a = none := fun a hs => by
    rw [← none_unfresh, ← h, none_unfresh]; exact hs
  cases c with
  | encrypt a p => intro k hk; exact hq k (by rw [← hl]; exact hk)
  | decryptMsg a m s ss => trivial
  | decryptPkmsg a m s ss =>
    rcases hq with hq | hq
    · exact .inl (hn _ hq)
    · exact .inr (by rw [hl]; exact hq)
  | processBundle a b s1 s2 => exact hn _ hq
  | processKeyExchange a m r => exact hn _ hq
  | initKeyExchange a n s1 s2 s3 => trivial

/-- Every call of the history is `Quiet` when it is made, on stores that copy. -/
def AllQuiet : World → List Call → Prop
  | _, [] => True
  | w, c :: cs => Quiet w c ∧ AllQuiet (c.next w) cs

theorem history_agrees (cs : List Call) : ∀ w w', unfresh w = unfresh w' → AllQuiet w' cs →
    Call.repliesLive w cs = Call.replies w' cs ∧ unfresh (Call.afterLive w cs) = unfresh (Call.after w' cs) := by
  induction cs with
  | nil => intro w w' h _; exact ⟨rfl, h⟩
  | cons c cs ih =>
    intro w w' h hq
    obtain ⟨h1, h2⟩ := quiet_agrees (quiet_unfresh h.symm hq.1)
    have hr : c.run w = c.run w' := by rw [← run_unfresh w, h, run_unfresh]
    rw [hr] at h1 h2
    have h3 : unfresh (c.runLive w).2 = unfresh (c.next w') := h2.trans (unfresh_applyAll _ _ h _)
    obtain ⟨h4, h5⟩ := ih _ _ h3 hq.2
    refine ⟨?_, h5⟩
    show (c.runLive w).1 :: _ = (c.run w').result :: _
    rw [h1, h4]

/-! ## Record objects made by the library stay marked as fresh -/

/-- The record is marked as fresh and has no archived states; the session store is `S`. -/
def New (S : Address → Option SessionRecord) (l : InUse) : Prop :=
  l.obj.fresh = true ∧ l.obj.previousStates = [] ∧ l.world.sessions = S

/-- `x` keeps the record `New`, whatever happens. -/
def KeepsNew {α : Type} (x : Obj InUse α) : Prop := ∀ S l, New S l → New S (x l).2

omit C in
theorem KeepsNew.bind {α β : Type} {x : Obj InUse α} {f : α → Obj InUse β} (hx : KeepsNew x) (hf : ∀ a, KeepsNew (f a)) :
    KeepsNew (x >>= f) := by
  intro S l hl
  have h := hx S l hl
  rw [Obj.bind_run]
  cases hy : x l with
  | mk r s =>
    rw [hy] at h
    cases r with
    | error e => exact h
    | ok a => exact hf a S s h

omit C in
theorem keepsNew_lift {α : Type} (r : Res α) : KeepsNew (Obj.lift r) := fun _ _ h => h
omit C in
theorem keepsNew_pure {α : Type} (a : α) : KeepsNew (Obj.pure a) := fun _ _ h => h
omit C in
theorem keepsNew_get : KeepsNew (Obj.get : Obj InUse InUse) := fun _ _ h => h
omit C in
theorem keepsNew_state : KeepsNew state := fun _ _ h => h
omit C in
theorem keepsNew_assign (f : SessionState → SessionState) : KeepsNew (assign f) := fun _ _ h => h
omit C in
theorem keepsNew_store : KeepsNew storeSession := fun _ _ h => h
omit C in
theorem keepsNew_identity (n : String) (k : ECPub) : KeepsNew (saveIdentity n k) := fun _ _ h => h
omit C in
theorem keepsNew_remove (i : Nat) : KeepsNew (removePreKey i) := fun _ _ h => h

omit C in
theorem archived_new {r : SessionRecord} (h : r.fresh = true) : archived r = r := by
  unfold archived SessionBuilder.archiveUnlessFresh
  rw [h]; rfl

omit C in
theorem keepsNew_archive : KeepsNew archiveUnlessFresh := by
  intro S l h
  show New S { l with obj := archived l.obj }
  rw [archived_new h.1]
  exact h

omit C in
theorem Sets.keepsNew {α : Type} {x : Obj InUse α} (h : ∀ l, ∃ v, Sets x l v) : KeepsNew x := by
  intro S l hl
  obtain ⟨v, hv⟩ := h l
  cases v with
  | error e =>
    obtain ⟨s, hs⟩ := hv
    rw [hs]
    exact hl
  | ok p =>
    have hv : x l = (.ok p.1, l.withState p.2) := hv
    rw [hv]
    exact hl

theorem tryPrevious_new {r : SessionRecord} {m : WhisperMessage} {seed : Bytes} {seeds : Nat → Bytes} {pt : Bytes} {r' : SessionRecord}
    (hp : r.previousStates = []) (h : SessionCipher.decryptWithSessionRecord r m seed seeds = .ok (pt, r')) :
    ∃ s, SessionCipher.decryptWithSessionState r.sessionState m seed = .ok (pt, s) ∧ r' = r.setState s := by
  unfold SessionCipher.decryptWithSessionRecord at h
  split at h
  · rename_i pt' s hs
    cases h
    exact ⟨s, hs, rfl⟩
  · rw [hp] at h; cases h
  · cases h

theorem keepsNew_decrypt (m : WhisperMessage) (seed : Bytes) (seeds : Nat → Bytes) :
    KeepsNew (decryptWithSessionRecord m seed seeds) := by
  intro S l h
  unfold decryptWithSessionRecord
  rw [Obj.get_bind]
  cases hd : SessionCipher.decryptWithSessionRecord l.obj m seed seeds with
  | error e => exact h
  | ok p =>
    obtain ⟨s, _, hs⟩ := tryPrevious_new h.2.1 hd
    show New S { l with obj := p.2 }
    rw [hs]
    exact h

theorem keepsNew_asBob (p : BobParameters) : KeepsNew (initializeSessionAsBob p) := Sets.keepsNew fun l => ⟨_, sets_asBob l p⟩
theorem keepsNew_asAlice (p : AliceParameters) (s : Bytes) : KeepsNew (initializeSessionAsAlice p s) :=
  Sets.keepsNew fun l => ⟨_, sets_asAlice l p s⟩
theorem keepsNew_initialize (p : SymmetricParameters) (s : Bytes) : KeepsNew (initializeSession p s) :=
  Sets.keepsNew fun l => ⟨_, sets_initialize l p s⟩
omit C in
theorem keepsNew_chainKey (k : ChainKey) : KeepsNew (assignChainKey k) := Sets.keepsNew fun l => ⟨_, sets_assignChainKey l k⟩
omit C in
theorem keepsNew_unack (i : Option Int) (j : Int) (k : ECPub) : KeepsNew (setUnacknowledgedPreKeyMessage i j k) :=
  Sets.keepsNew fun l => ⟨_, sets_setUnacknowledged l i j k⟩
omit C in
theorem keepsNew_local (i : Int) : KeepsNew (setLocalRegistrationId i) := Sets.keepsNew fun l => ⟨_, sets_setLocalRegistrationId l i⟩
omit C in
theorem keepsNew_remote (i : Int) : KeepsNew (setRemoteRegistrationId i) := Sets.keepsNew fun l => ⟨_, sets_setRemoteRegistrationId l i⟩

omit C in
theorem keepsNew_ite {α : Type} {b : Prop} [Decidable b] {x y : Obj InUse α} (hx : KeepsNew x) (hy : KeepsNew y) :
    KeepsNew (if b then x else y) := by split <;> assumption

theorem keepsNew_v3 (m : PreKeyWhisperMessage) : KeepsNew (processV3 m) := by
  unfold processV3
  refine keepsNew_get.bind fun l => keepsNew_ite (keepsNew_pure _) ?_
  exact (keepsNew_lift _).bind fun _ => (keepsNew_lift _).bind fun _ => (keepsNew_lift _).bind fun _ => keepsNew_archive.bind fun _ =>
    (keepsNew_asBob _).bind fun _ => (keepsNew_local _).bind fun _ => (keepsNew_remote _).bind fun _ => (keepsNew_assign _).bind fun _ =>
    keepsNew_pure _

theorem keepsNew_call (c : Call) : KeepsNew c.live := by
  have hmap : ∀ {α : Type} {x : Obj InUse α} (f : α → Reply), KeepsNew x → KeepsNew (x.map f) :=
    fun f h => KeepsNew.bind h fun _ => keepsNew_pure _
  cases c with
  | encrypt a p =>
    refine hmap _ ?_
    unfold encrypt
    refine keepsNew_state.bind fun s => (keepsNew_lift _).bind fun _ => (keepsNew_lift _).bind fun _ => (keepsNew_lift _).bind fun _ =>
      (keepsNew_lift _).bind fun _ => (keepsNew_lift _).bind fun _ => (keepsNew_lift _).bind fun _ => (keepsNew_lift _).bind fun _ =>
      (keepsNew_chainKey _).bind fun _ => keepsNew_store.bind fun _ => keepsNew_pure _
  | decryptMsg a m s ss =>
    refine hmap _ ?_
    unfold decryptMsg
    exact keepsNew_get.bind fun l => keepsNew_ite (keepsNew_lift _) ((keepsNew_decrypt _ _ _).bind fun _ => keepsNew_store.bind fun _ =>
      keepsNew_pure _)
  | decryptPkmsg a m s ss =>
    refine hmap _ ?_
    unfold decryptPkmsg process
    refine KeepsNew.bind (keepsNew_get.bind fun l => keepsNew_ite (keepsNew_lift _) ((keepsNew_v3 m).bind fun _ =>
      (keepsNew_identity _ _).bind fun _ => keepsNew_pure _)) fun u => (keepsNew_decrypt _ _ _).bind fun _ => keepsNew_store.bind fun _ => ?_
    cases u with
    | none => exact keepsNew_pure _
    | some id => exact (keepsNew_remove id).bind fun _ => keepsNew_pure _
  | processBundle a b s1 s2 =>
    refine hmap _ ?_
    unfold processPreKeyBundle
    refine keepsNew_get.bind fun l => keepsNew_ite (keepsNew_lift _) ?_
    cases b.signedPreKey with
    | none => exact keepsNew_lift _
    | some spk =>
      exact (keepsNew_lift _).bind fun _ => keepsNew_ite (keepsNew_lift _) (keepsNew_archive.bind fun _ => (keepsNew_asAlice _ _).bind fun _ =>
        (keepsNew_unack _ _ _).bind fun _ => (keepsNew_local _).bind fun _ => (keepsNew_remote _).bind fun _ =>
        (keepsNew_assign _).bind fun _ => keepsNew_store.bind fun _ => keepsNew_identity _ _)
  | processKeyExchange a m r =>
    refine hmap _ ?_
    unfold processKeyExchangeMessage
    refine keepsNew_get.bind fun l => keepsNew_ite (keepsNew_lift _) (keepsNew_ite ?_ ?_)
    · unfold processInitiate
      refine keepsNew_get.bind fun l => (keepsNew_lift _).bind fun _ => keepsNew_ite (keepsNew_lift _) ((keepsNew_lift _).bind fun _ => ?_)
      exact keepsNew_archive.bind fun _ => (keepsNew_initialize _ _).bind fun _ => keepsNew_store.bind fun _ =>
        (keepsNew_identity _ _).bind fun _ => (keepsNew_lift _).bind fun _ => keepsNew_state.bind fun _ => (keepsNew_lift _).bind fun _ =>
        keepsNew_pure _
    · unfold processResponse
      refine keepsNew_state.bind fun st => keepsNew_ite (keepsNew_ite (keepsNew_lift _) (keepsNew_pure _)) ?_
      exact (keepsNew_lift _).bind fun _ => (keepsNew_lift _).bind fun _ => (keepsNew_lift _).bind fun _ => keepsNew_archive.bind fun _ =>
        (keepsNew_initialize _ _).bind fun _ => (keepsNew_lift _).bind fun _ => keepsNew_ite (keepsNew_lift _)
          (keepsNew_store.bind fun _ => (keepsNew_identity _ _).bind fun _ => keepsNew_pure _)
  | initKeyExchange a n s1 s2 s3 =>
    refine hmap _ ?_
    unfold processInitKeyExchangeMessage
    exact keepsNew_get.bind fun l => (keepsNew_lift _).bind fun _ => (keepsNew_lift _).bind fun _ => (keepsNew_assign _).bind fun _ =>
      keepsNew_store.bind fun _ => keepsNew_lift _

/-- No record object has been archived in, and all are marked as fresh. -/
def AllNew (w : World) : Prop := ∀ a r, w.sessions a = some r → r.fresh = true ∧ r.previousStates = []

theorem allNew_call {w : World} (h : AllNew w) (c : Call) : AllNew (c.runLive w).2 := by
  have hl : New w.sessions (load w c.addr) := by
    unfold New load
    cases hs : w.sessions c.addr with
    | none => exact ⟨rfl, rfl, rfl⟩
    | some r => exact ⟨(h _ r hs).1, (h _ r hs).2, rfl⟩
  obtain ⟨h1, h2, h3⟩ := keepsNew_call c _ _ hl
  intro a r hr
  change (finish (c.live (load w c.addr)).2 c.addr).sessions a = some r at hr
  unfold finish at hr
  dsimp only at hr
  rw [h3] at hr
  split at hr
  · unfold upd at hr
    split at hr
    · cases hr; exact ⟨h1, h2⟩
    · exact h a r hr
  · exact h a r hr

theorem allNew_after (cs : List Call) : ∀ {w : World}, AllNew w → AllNew (Call.afterLive w cs) := by
  induction cs with
  | nil => exact fun h => h
  | cons c cs ih => exact fun h => ih (allNew_call h c)

/-! ## A second session on such a record -/

theorem bundleState_base {w : World} {b : PreKeyBundle} {spk : ECPub} {s1 s2 : Bytes} {s s' : SessionState}
    (h : bundleState w b spk s1 s2 s = .ok s') : s'.aliceBaseKey = some (Curve.serializePoint (Curve.generateKeyPair s1).pub) := by
  unfold bundleState at h
  obtain ⟨_, _, h⟩ := bind_eq_ok.1 h
  obtain ⟨_, _, h⟩ := bind_eq_ok.1 h
  obtain ⟨_, _, h⟩ := bind_eq_ok.1 h
  obtain ⟨_, _, h⟩ := bind_eq_ok.1 h
  cases h
  rfl

theorem bundle_shape {l l' : InUse} {a : Address} {b : PreKeyBundle} {s1 s2 : Bytes} {u : Unit}
    (h : processPreKeyBundle a b s1 s2 l = (.ok u, l')) :
    ∃ spk s, b.signedPreKey = some spk ∧ bundleState l.world b spk s1 s2 (archived l.obj).sessionState = .ok s ∧
      l' = { world := l.world.apply (.identity a.1 b.identityKey), kept := true, obj := (archived l.obj).setState s } := by
  unfold processPreKeyBundle at h
  rw [Obj.get_bind] at h
  cases ht : l.world.isTrusted a.1 b.identityKey with
  | false => rw [ht] at h; cases h
  | true =>
    rw [ht] at h
    simp only [Bool.not_true, Bool.false_eq_true, if_false] at h
    cases hspk : b.signedPreKey with
    | none => rw [hspk] at h; cases h
    | some spk =>
      rw [hspk] at h
      dsimp only at h
      revert h
      cases Curve.verifySignature b.identityKey (Curve.serializePoint spk) b.signedPreKeySignature with
      | error e => intro h; cases h
      | ok ok =>
        rw [Obj.lift_bind_ok]
        cases ok with
        | false => intro h; cases h
        | true =>
          simp only [Bool.not_true, Bool.false_eq_true, if_false]
          intro h
          have hm := Makes.archive (l := l) (sets_bundle { l with obj := archived l.obj } l.world b spk s1 s2)
          have e : (do
              archiveUnlessFresh
              initializeSessionAsAlice
                { ourBaseKey := Curve.generateKeyPair s1, ourIdentityKey := l.world.identityKeyPair,
                  theirIdentityKey := b.identityKey, theirSignedPreKey := spk,
                  theirRatchetKey := spk, theirOneTimePreKey := b.preKey } s2
              setUnacknowledgedPreKeyMessage (b.preKey.map fun _ => b.preKeyId) b.signedPreKeyId (Curve.generateKeyPair s1).pub
              setLocalRegistrationId l.world.registrationId
              setRemoteRegistrationId b.registrationId
              assign fun s => s.setAliceBaseKey (Curve.serializePoint (Curve.generateKeyPair s1).pub)
              storeSession
              saveIdentity a.1 b.identityKey : Obj InUse Unit) = (do
              (do
                archiveUnlessFresh
                initializeSessionAsAlice
                  { ourBaseKey := Curve.generateKeyPair s1, ourIdentityKey := l.world.identityKeyPair,
                    theirIdentityKey := b.identityKey, theirSignedPreKey := spk,
                    theirRatchetKey := spk, theirOneTimePreKey := b.preKey } s2
                setUnacknowledgedPreKeyMessage (b.preKey.map fun _ => b.preKeyId) b.signedPreKeyId (Curve.generateKeyPair s1).pub
                setLocalRegistrationId l.world.registrationId
                setRemoteRegistrationId b.registrationId
                assign fun s => s.setAliceBaseKey (Curve.serializePoint (Curve.generateKeyPair s1).pub))
              storeSession
              saveIdentity a.1 b.identityKey) := by
            simp only [Obj.bind_assoc]
          rw [e, Obj.bind_run] at h
          cases hb : bundleState l.world b spk s1 s2 (archived l.obj).sessionState with
          | error e' =>
            rw [hb] at hm
            obtain ⟨r, _, hr⟩ := hm
            rw [hr] at h
            cases h
          | ok s =>
            rw [hb] at hm
            have hm : _ = _ := hm
            rw [hm] at h
            refine ⟨spk, s, rfl, hb, ?_⟩
            exact (congrArg Prod.snd h).symm

theorem pkmsg_shape {l l' : InUse} {a : Address} {m : PreKeyWhisperMessage} {seed : Bytes} {seeds : Nat → Bytes} {pt : Bytes}
    (h : decryptPkmsg a m seed seeds l = (.ok pt, l')) :
    ∃ r id r', SessionBuilder.processV3 l.world l.obj m = .ok (r, id) ∧
      SessionCipher.decryptWithSessionRecord r m.message seed seeds = .ok (pt, r') ∧ l'.kept = true ∧ l'.obj = r' := by
  unfold decryptPkmsg process at h
  simp only [Obj.bind_assoc] at h
  rw [Obj.get_bind] at h
  split at h
  · cases h
  · simp only [Obj.bind_assoc] at h
    have hm := makes_v3 l m
    cases hv : SessionBuilder.processV3 l.world l.obj m with
    | error e =>
      rw [hv] at hm
      obtain ⟨r, _, hr⟩ := hm
      rw [Obj.bind_run, hr] at h
      cases h
    | ok p =>
      rw [hv] at hm
      have hm : processV3 m l = (.ok p.2, { l with obj := p.1 }) := hm
      rw [Obj.bind_run, hm] at h
      dsimp only at h
      unfold decryptWithSessionRecord at h
      simp only [Obj.bind_assoc] at h
      change (Obj.lift (SessionCipher.decryptWithSessionRecord p.1 m.message seed seeds) >>= _)
        ({ l with world := l.world.apply (.identity a.1 m.identityKey), obj := p.1 } : InUse) = _ at h
      cases hd : SessionCipher.decryptWithSessionRecord p.1 m.message seed seeds with
      | error e => rw [hd] at h; cases h
      | ok q =>
        rw [hd, Obj.lift_bind_ok] at h
        obtain ⟨r, id⟩ := p
        cases id with
        | none =>
          cases h
          exact ⟨r, none, q.2, rfl, hd, rfl, rfl⟩
        | some id =>
          cases h
          exact ⟨r, some id, q.2, rfl, hd, rfl, rfl⟩

theorem v3_base {w : World} {r r' : SessionRecord} {m : PreKeyWhisperMessage} {id : Option Nat}
    (hp : r.previousStates = []) (hf : r.fresh = true) (hn : r.hasSessionState m.version (Curve.serializePoint m.baseKey) = false)
    (h : SessionBuilder.processV3 w r m = .ok (r', id)) :
    r'.previousStates = [] ∧ r'.sessionState.aliceBaseKey = some (Curve.serializePoint m.baseKey) := by
  unfold SessionBuilder.processV3 at h
  rw [hn] at h
  simp only [Bool.false_eq_true, if_false] at h
  obtain ⟨_, _, h⟩ := bind_eq_ok.1 h
  obtain ⟨_, _, h⟩ := bind_eq_ok.1 h
  have key : ∀ (x : SessionState), r' = (archived r).setState (x.setAliceBaseKey (Curve.serializePoint m.baseKey)) →
      r'.previousStates = [] ∧ r'.sessionState.aliceBaseKey = some (Curve.serializePoint m.baseKey) := by
    intro x hx
    rw [archived_new hf] at hx
    rw [hx]
    exact ⟨hp, rfl⟩
  split at h
  all_goals
    first
    | obtain ⟨_, _, h⟩ := bind_eq_ok.1 h
      obtain ⟨_, _, h⟩ := bind_eq_ok.1 h
      obtain ⟨_, _, h⟩ := bind_eq_ok.1 h
      obtain ⟨_, _, h⟩ := bind_eq_ok.1 h
      obtain ⟨_, _, h⟩ := bind_eq_ok.1 h
      obtain ⟨_, _, h⟩ := bind_eq_ok.1 h
      cases h
      exact key _ rfl
    | obtain ⟨_, _, h⟩ := bind_eq_ok.1 h
      obtain ⟨_, _, h⟩ := bind_eq_ok.1 h
      obtain ⟨_, _, h⟩ := bind_eq_ok.1 h
      obtain ⟨_, _, h⟩ := bind_eq_ok.1 h
      cases h
      exact key _ rfl

omit C in
theorem obj_map_ok {α β : Type} {f : α → β} {x : Obj InUse α} {l l' : InUse} {y : β} (h : (x.map f) l = (.ok y, l')) :
    ∃ a, x l = (.ok a, l') ∧ f a = y := by
  rw [map_run] at h
  cases hx : x l with
  | mk r s =>
    rw [hx] at h
    cases r with
    | error e => cases h
    | ok a => cases h; exact ⟨a, rfl, rfl⟩

omit C in
theorem load_new {w : World} (h : AllNew w) (a : Address) : (load w a).obj.fresh = true ∧ (load w a).obj.previousStates = [] := by
  unfold load
  cases hs : w.sessions a with
  | none => exact ⟨rfl, rfl⟩
  | some r => exact h a r hs

omit C in
theorem finish_kept {l : InUse} (a : Address) (h : l.kept = true) : (l.finish a).sessions a = some l.obj := by
  unfold finish
  dsimp only
  rw [if_pos h]
  unfold upd
  rw [if_pos rfl]

/-- The base key of the session in the record, if it knows no other. -/
def Only (r : SessionRecord) (k : Bytes) : Prop := r.previousStates = [] ∧ r.sessionState.aliceBaseKey = some k

omit C in
theorem Only.knows {r : SessionRecord} {k k' : Bytes} {v : Nat} (h : Only r k) (hk : r.hasSessionState v k' = true) : k' = k := by
  unfold SessionRecord.hasSessionState SessionRecord.stateMatches SessionState.getAliceBaseKey at hk
  rw [h.1, h.2] at hk
  simp only [List.any_nil, Bool.or_false, Bool.and_eq_true, beq_iff_eq, Option.getD_some] at hk
  exact hk.2

/-- A bundle overwrites the session in the record. -/
theorem bundle_new {w : World} {a : Address} {b : PreKeyBundle} {s1 s2 : Bytes} {x : Reply} (h : AllNew w)
    (hok : ((Call.processBundle a b s1 s2).runLive w).1 = .ok x) :
    ∃ r, ((Call.processBundle a b s1 s2).runLive w).2.sessions a = some r ∧ Only r (Curve.serializePoint (Curve.generateKeyPair s1).pub) := by
  unfold Call.runLive at hok ⊢
  dsimp only at hok ⊢
  obtain ⟨u, hu, _⟩ := obj_map_ok (x := processPreKeyBundle a b s1 s2) (Prod.ext hok rfl)
  obtain ⟨spk, s, _, hb, hl⟩ := bundle_shape hu
  have hl : ((Call.processBundle a b s1 s2).live (load w a)).2 = _ := hl
  refine ⟨_, finish_kept a ?_, ?_⟩
  · show (((Call.processBundle a b s1 s2).live (load w a)).2).kept = true
    rw [hl]
  · show Only (((Call.processBundle a b s1 s2).live (load w a)).2).obj _
    rw [hl]
    refine ⟨?_, bundleState_base hb⟩
    show (archived (load w a).obj).previousStates = []
    rw [archived_new (load_new h a).1]
    exact (load_new h a).2

/-- So does a prekey message of another session. -/
theorem pkmsg_new {w : World} {a : Address} {m : PreKeyWhisperMessage} {seed : Bytes} {seeds : Nat → Bytes} {x : Reply} (h : AllNew w)
    (hn : (w.loadSession a).hasSessionState m.version (Curve.serializePoint m.baseKey) = false)
    (hok : ((Call.decryptPkmsg a m seed seeds).runLive w).1 = .ok x) :
    ∃ r, ((Call.decryptPkmsg a m seed seeds).runLive w).2.sessions a = some r ∧ Only r (Curve.serializePoint m.baseKey) := by
  unfold Call.runLive at hok ⊢
  dsimp only at hok ⊢
  obtain ⟨u, hu, _⟩ := obj_map_ok (x := decryptPkmsg a m seed seeds) (Prod.ext hok rfl)
  obtain ⟨r, id, r', h1, h2, h3, h4⟩ := pkmsg_shape hu
  refine ⟨r', ?_, ?_⟩
  · rw [← h4]; exact finish_kept a h3
  · have hn' : (load w a).obj.hasSessionState m.version (Curve.serializePoint m.baseKey) = false := by
      obtain ⟨f, hf⟩ := load_mark w a
      rw [hf] at hn; exact hn
    obtain ⟨h5, h6⟩ := v3_base (load_new h a).2 (load_new h a).1 hn' h1
    obtain ⟨s, h7, h8⟩ := tryPrevious_new h5 h2
    rw [h8]
    refine ⟨h5, ?_⟩
    rw [← h6]
    exact (dwss_same h7).1.2.2.2.1

end InUse
end
end Axolotl
