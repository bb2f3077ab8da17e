import Verif.Proofs.Live

/-! # Group calls on record objects -/

namespace Axolotl
section
attribute [local irreducible] chkU32 chkI32
variable [C : Crypto]
namespace LiveGroup

/-- Running `x` on a state gives what `v` says; if `v` raises, so does `x`. -/
def Gives {α : Type} (x : Obj SenderKeyState α) (s : SenderKeyState) (v : Res (α × SenderKeyState)) : Prop :=
  match v with
  | .ok (a, s') => x s = (.ok a, s')
  | .error e => ∃ s', x s = (.error e, s')

omit C in
theorem Gives.get_bind {β : Type} {f : SenderKeyState → Obj SenderKeyState β} {s : SenderKeyState} {v : Res (β × SenderKeyState)} :
    Gives (Obj.get >>= f) s v = Gives (f s) s v := rfl

theorem gives_skipLoop (k : Nat) : ∀ (c : SenderChainKey) (s : SenderKeyState),
    Gives (skipLoop k c) s ((GroupCipher.skipLoop k s c).map fun p => (p.2, p.1)) := by
  induction k with
  | zero => intro c s; exact rfl
  | succ k ih =>
    intro c s
    unfold skipLoop GroupCipher.skipLoop
    rw [Gives.get_bind]
    cases SenderKeyState.addSenderMessageKey s c.getSenderMessageKey with
    | error e => exact ⟨s, rfl⟩
    | ok s' => exact ih c.getNext s'

omit C in
theorem Gives.bind {α β : Type} {x : Obj SenderKeyState α} {f : α → Obj SenderKeyState β} {s : SenderKeyState}
    {v : Res (α × SenderKeyState)} {g : α × SenderKeyState → Res (β × SenderKeyState)} (h : Gives x s v)
    (h' : ∀ a s', v = .ok (a, s') → Gives (f a) s' (g (a, s'))) : Gives (x >>= f) s (v >>= g) := by
  cases v with
  | error e =>
    obtain ⟨s', hs⟩ := h
    exact ⟨s', by rw [Obj.bind_run, hs]⟩
  | ok p =>
    obtain ⟨a, s'⟩ := p
    have h : x s = (.ok a, s') := h
    have h2 := h' a s' rfl
    have hb : (x >>= f) s = f a s' := by rw [Obj.bind_run, h]
    show Gives (x >>= f) s (g (a, s'))
    unfold Gives at h2 ⊢
    rw [hb]
    exact h2

omit C in
/-- The values of `getSenderKey`, with the state as the second component. -/
theorem swap_bind {α β γ : Type} (v : Res (α × β)) (g : α → β → Res α) (k : β → γ) :
    (v >>= fun r => g r.1 r.2 >>= fun s => .ok (k r.2, s)) =
      ((v.map fun p => (p.2, p.1)) >>= fun p => ((g p.2 p.1).map fun s => ((), s)) >>= fun q => .ok (k p.1, q.2)) := by
  cases v with
  | error e => rfl
  | ok p =>
    show (g p.1 p.2 >>= _) = (((g p.1 p.2).map fun s => ((), s)) >>= _)
    cases g p.1 p.2 <;> rfl

omit C in
theorem run_setSenderChainKey (c : SenderChainKey) (s : SenderKeyState) :
    setSenderChainKey c s = match SenderKeyState.setSenderChainKey s c with
      | .ok s' => (.ok (), s')
      | .error e => (.error e, s) := by
  unfold setSenderChainKey
  rw [Obj.get_bind]
  cases SenderKeyState.setSenderChainKey s c <;> rfl

omit C in
theorem gives_setSenderChainKey (c : SenderChainKey) (s : SenderKeyState) :
    Gives (setSenderChainKey c) s ((SenderKeyState.setSenderChainKey s c).map fun s => ((), s)) := by
  have h := run_setSenderChainKey c s
  cases hs : SenderKeyState.setSenderChainKey s c with
  | error e => rw [hs] at h; exact ⟨s, h⟩
  | ok s' => rw [hs] at h; exact h

theorem gives_getSenderKey (s : SenderKeyState) (i : Nat) : Gives (getSenderKey i) s (GroupCipher.getSenderKey s i) := by
  unfold getSenderKey GroupCipher.getSenderKey
  rw [Gives.get_bind]
  dsimp only
  split
  · split
    · cases SenderKeyState.removeSenderMessageKey s i with
      | mk k s' =>
        cases k with
        | none => exact ⟨s, rfl⟩
        | some k => exact rfl
    · exact ⟨s, rfl⟩
  · split
    · exact ⟨s, rfl⟩
    · have e := swap_bind (GroupCipher.skipLoop (i - (SenderKeyState.getSenderChainKey s).iteration) s (SenderKeyState.getSenderChainKey s))
        (fun s c => SenderKeyState.setSenderChainKey s c.getNext) SenderChainKey.getSenderMessageKey
      rw [e]
      refine Gives.bind (gives_skipLoop _ _ _) fun c s' _ => ?_
      exact Gives.bind (gives_setSenderChainKey _ _) fun _ s' _ => rfl

omit C in
theorem replace_first {r : SenderKeyRecord} {s : SenderKeyState} (h : r.getFirstState = .ok s) : r.replace 0 s = r := by
  unfold SenderKeyRecord.getFirstState at h
  obtain ⟨l⟩ := r
  cases l with
  | nil => cases h
  | cons x l => cases h; rfl

omit C in
theorem atState_last {r : SenderKeyRecord} {st : SenderKeyState} (h : r.getFirstState = .ok st) {x : Obj SenderKeyState Unit}
    {v : Res SenderKeyState} (hx : x st = match v with
      | .ok s' => (.ok (), s')
      | .error e => (.error e, st)) (m : SenderKeyMessage) :
    (atState 0 st x >>= fun _ => Obj.pure m.serialized) r =
      match (v >>= fun st => .ok (m, r.replace 0 st) : Res (SenderKeyMessage × SenderKeyRecord)) with
      | .ok (m, r') => (.ok m.serialized, r')
      | .error e => (.error e, r) := by
  have hy : (atState 0 st x >>= fun _ => Obj.pure m.serialized) r = match x st with
      | (.ok _, s') => (.ok m.serialized, r.replace 0 s')
      | (.error e, s') => (.error e, r.replace 0 s') := by
    rw [Obj.bind_run]
    unfold atState
    cases x st with
    | mk a s' => cases a <;> rfl
  rw [hy, hx]
  cases v with
  | error e =>
    show (_, r.replace 0 st) = _
    rw [replace_first h]
    rfl
  | ok s' => rfl

omit C in
/-- The last steps of `encrypt`. -/
theorem encrypt_last {r : SenderKeyRecord} {st : SenderKeyState} (h : r.getFirstState = .ok st) (c : SenderChainKey) (m : SenderKeyMessage) :
    (atState 0 st (setSenderChainKey c) >>= fun _ => Obj.pure m.serialized) r =
      match (SenderKeyState.setSenderChainKey st c >>= fun st => .ok (m, r.replace 0 st) : Res (SenderKeyMessage × SenderKeyRecord)) with
      | .ok (m, r') => (.ok m.serialized, r')
      | .error e => (.error e, r) :=
  atState_last h (run_setSenderChainKey c st) m

theorem encrypt_run (r : SenderKeyRecord) (pt rand : Bytes) :
    encrypt pt rand r = match GroupCipher.encryptWithRecord r pt rand with
      | .ok (m, r') => (.ok m.serialized, r')
      | .error e => (.error e, r) := by
  unfold encrypt GroupCipher.encryptWithRecord
  rw [Obj.get_bind]
  cases hf : r.getFirstState with
  | error e => rfl
  | ok st =>
    rw [Obj.lift_bind_ok]
    simp only [ok_bind]
    cases AES.encrypt (SenderKeyState.getSenderChainKey st).getSenderMessageKey.cipherKey
        (SenderKeyState.getSenderChainKey st).getSenderMessageKey.iv pt with
    | error e => rfl
    | ok ct =>
      rw [Obj.lift_bind_ok]
      simp only [ok_bind]
      cases SenderKeyMessage.create (SenderKeyState.getKeyId st) (SenderKeyState.getSenderChainKey st).getSenderMessageKey.iteration ct
          (SenderKeyState.getSigningKeyPrivate st) rand with
      | error e => rfl
      | ok m =>
        rw [Obj.lift_bind_ok]
        simp only [ok_bind]
        exact encrypt_last hf _ m

/-- The message is one that the record's state for it accepts as signed. -/
def Signed (r : SenderKeyRecord) (b : Bytes) (i : Nat) : Prop :=
  ∃ m st pub, SenderKeyMessage.parse b = .ok m ∧ r.getStateById m.keyId = .ok (st, i) ∧
    SenderKeyState.getSigningKeyPublic st = .ok pub ∧ m.verifySignature pub = .ok ()

theorem decrypt_run (r : SenderKeyRecord) (b : Bytes) :
    match GroupCipher.decryptWithRecord r b with
      | .ok (pt, r') => decrypt b r = (.ok pt, r')
      | .error e => ∃ r', decrypt b r = (.error e, r') ∧ (r' = r ∨ ∃ i s, Signed r b i ∧ r' = r.replace i s) := by
  unfold decrypt GroupCipher.decryptWithRecord
  simp only [Obj.get_bind]
  cases he : r.isEmpty with
  | true => exact ⟨r, rfl, .inl rfl⟩
  | false =>
    simp only [Bool.false_eq_true, if_false]
    cases hm : SenderKeyMessage.parse b with
    | error e => exact ⟨r, rfl, .inl rfl⟩
    | ok m =>
      simp only [ok_bind, Obj.lift_bind_ok]
      cases hst : r.getStateById m.keyId with
      | error e => exact ⟨r, rfl, .inl rfl⟩
      | ok st =>
        simp only [ok_bind, Obj.lift_bind_ok]
        cases hpub : SenderKeyState.getSigningKeyPublic st.1 with
        | error e => exact ⟨r, rfl, .inl rfl⟩
        | ok pub =>
          simp only [ok_bind, Obj.lift_bind_ok]
          cases hsig : m.verifySignature pub with
          | error e => exact ⟨r, rfl, .inl rfl⟩
          | ok u =>
            simp only [ok_bind, Obj.lift_bind_ok]
            have hs : Signed r b st.2 := ⟨m, st.1, pub, hm, hst, hpub, hsig⟩
            have hg := gives_getSenderKey st.1 m.iteration
            cases hk : GroupCipher.getSenderKey st.1 m.iteration with
            | error e =>
              rw [hk] at hg
              obtain ⟨s', hs'⟩ := hg
              refine ⟨r.replace st.2 s', ?_, .inr ⟨st.2, s', hs, rfl⟩⟩
              rw [Obj.bind_run]
              unfold atState
              rw [hs']
            | ok k =>
              rw [hk] at hg
              have hg : getSenderKey m.iteration st.1 = (.ok k.1, k.2) := hg
              simp only [ok_bind]
              rw [Obj.bind_run]
              unfold atState
              rw [hg]
              dsimp only
              cases hp : GroupCipher.getPlainText k.1.iv k.1.cipherKey m.ciphertext with
              | error e => exact ⟨r.replace st.2 k.2, rfl, .inr ⟨st.2, k.2, hs, rfl⟩⟩
              | ok pt => exact rfl

omit C in
theorem store_self (g : GroupStore) (n : SenderKeyName) : g.store n (g n) = g := by
  funext x
  unfold GroupStore.store
  split
  · rename_i h; rw [h]
  · rfl

/-- A failed decryption of a signed message. -/
def Spoiled (g : GroupStore) : GroupCall → Prop
  | .decrypt n b => (∃ i, Signed (g n) b i) ∧ ∃ e, GroupCipher.decryptWithRecord (g n) b = .error e
  | _ => False

omit C in
theorem mapG_result {α β : Type} (f : α → β) (o : GOutcome α) : (GroupCall.mapG f o).result = o.result.map f := by
  unfold GroupCall.mapG
  cases o.result <;> rfl

omit C in
theorem mapG_final {α β : Type} (f : α → β) (o : GOutcome α) (g : GroupStore) (n : SenderKeyName) :
    (GroupCall.mapG f o).final g n = o.final g n := rfl

theorem call_agrees (g : GroupStore) (c : GroupCall) :
    (c.runLive g).1 = (c.run g).result ∧ ((c.runLive g).2 = c.next g ∨ Spoiled g c ∧ ∃ r, (c.runLive g).2 = g.store c.name r) := by
  cases c with
  | encrypt n pt rand =>
    unfold GroupCall.runLive GroupCall.next GroupCall.run GroupCipher.encrypt
    dsimp only
    rw [encrypt_run, mapG_result]
    generalize GroupCipher.encryptWithRecord (g n) pt rand = x
    cases x with
    | error e => exact ⟨rfl, .inl (store_self g n)⟩
    | ok p => exact ⟨rfl, .inl rfl⟩
  | decrypt n b =>
    have h := decrypt_run (g n) b
    have hsp : ∀ i e, Signed (g n) b i → GroupCipher.decryptWithRecord (g n) b = .error e → Spoiled g (.decrypt n b) :=
      fun i e h1 h2 => ⟨⟨i, h1⟩, e, h2⟩
    unfold GroupCall.runLive GroupCall.next GroupCall.run GroupCipher.decrypt
    dsimp only
    rw [mapG_result]
    revert hsp h
    generalize GroupCipher.decryptWithRecord (g n) b = x
    generalize decrypt b (g n) = y
    intro h hsp
    cases x with
    | error e =>
      obtain ⟨r', h1, h2⟩ := h
      rw [h1]
      refine ⟨rfl, ?_⟩
      rcases h2 with rfl | ⟨i, s, hs, rfl⟩
      · exact .inl (store_self g n)
      · exact .inr ⟨hsp i e hs rfl, _, rfl⟩
    | ok p =>
      have h : y = (.ok p.1, p.2) := h
      rw [h]
      exact ⟨rfl, .inl rfl⟩
  | process n m => exact ⟨(mapG_result _ _).symm, .inl (mapG_final _ _ g n).symm⟩
  | create n rnd => exact ⟨(mapG_result _ _).symm, .inl (mapG_final _ _ g n).symm⟩

/-- No call of the history is a failed decryption of a signed message. -/
def Unspoiled : GroupStore → List GroupCall → Prop
  | _, [] => True
  | g, c :: cs => ¬ Spoiled g c ∧ Unspoiled (c.next g) cs

theorem history_agrees (cs : List GroupCall) : ∀ g, Unspoiled g cs →
    GroupCall.repliesLive g cs = GroupCall.replies g cs ∧ GroupCall.afterLive g cs = GroupCall.after g cs := by
  induction cs with
  | nil => intro g _; exact ⟨rfl, rfl⟩
  | cons c cs ih =>
    intro g h
    obtain ⟨h1, h2⟩ := call_agrees g c
    have h2 : (c.runLive g).2 = c.next g := by
      rcases h2 with h2 | h2
      · exact h2
      · exact absurd h2.1 h.1
    obtain ⟨h3, h4⟩ := ih _ h.2
    refine ⟨?_, ?_⟩
    · show (c.runLive g).1 :: GroupCall.repliesLive (c.runLive g).2 cs = _
      rw [h1, h2, h3]
      rfl
    · show GroupCall.afterLive (c.runLive g).2 cs = _
      rw [h2, h4]
      rfl

end LiveGroup
end
end Axolotl
