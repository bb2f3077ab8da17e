import Verif.Proofs.Interleave
import Verif.Example
import Verif.Props.GroupCalls

/-!
# C68: calls that overlap

The library takes no locks.  Calls that have no stored value in common may overlap freely; calls that have one may not.
-/

namespace Axolotl
section
variable [C : Crypto]
open Spec

/-- Written as single store accesses, and running alone, a call makes the changes and gives the result that the rest of the model says. -/
theorem C68_alone (w : World) (c : Call) : Prog.alone (M := Stores) w c.prog = ((c.run w).writes, (c.run w).result) := prog_alone w c

/-- The same for group calls. -/
theorem C68_alone_group (g : GroupStore) (c : GroupCall) :
    Prog.alone (M := SenderKeys) g c.prog = ((c.run g).stored.toList.map fun r => (c.name, r), (c.run g).result) := groupProg_alone g c

omit C in
theorem pairwise_threads {α β : Type} {R : α → α → Prop} {S : β → β → Prop} {f : α → β} (h : ∀ a b, R a b → S (f a) (f b)) {l : List α}
    (hl : l.Pairwise R) : (l.map f).Pairwise S := List.pairwise_map.2 (hl.imp fun {a b} hab => h a b hab)

theorem serial_calls : ∀ (ts : List (List Call)) (w : World), LocalPolicy w →
    ts.Pairwise (fun cs ds => ∀ c ∈ cs, ∀ d ∈ ds, CallsApart c d) →
    (ts.map Call.thread).foldl (fun (s : World) p => Stores.applyAll s (Prog.alone (M := Stores) s p).1) w = Call.after w ts.flatten ∧
    Call.replies w ts.flatten = (ts.map (Call.replies w)).flatten := by
  intro ts
  induction ts with
  | nil => exact fun w _ _ => ⟨rfl, rfl⟩
  | cons cs ts ih =>
    intro w hw hpair
    obtain ⟨h1, h2⟩ := List.pairwise_cons.1 hpair
    obtain ⟨ws, ha, hb⟩ := thread_alone cs w
    have hw' : LocalPolicy (Call.after w cs) := hb ▸ invariant_applyAll (M := Stores) (I := LocalPolicy) localPolicy_apply hw ws
    obtain ⟨e1, e2⟩ := ih (Call.after w cs) hw' h2
    have happ : ∀ (cs ds : List Call) (w : World), Call.after w (cs ++ ds) = Call.after (Call.after w cs) ds ∧
        Call.replies w (cs ++ ds) = Call.replies w cs ++ Call.replies (Call.after w cs) ds := by
      intro cs ds
      induction cs with
      | nil => exact fun w => ⟨rfl, rfl⟩
      | cons c cs ihc => exact fun w => ⟨(ihc (c.next w)).1, congrArg _ (ihc (c.next w)).2⟩
    have hstep : Stores.applyAll w (Prog.alone (M := Stores) w (Call.thread cs)).1 = Call.after w cs := by
      have : (Prog.alone (M := Stores) w (Call.thread cs)).1 = ws := congrArg Prod.fst ha
      exact (congrArg (Stores.applyAll w) this).trans hb
    refine ⟨?_, ?_⟩
    · rw [List.flatten_cons, (happ cs ts.flatten w).1]
      refine Eq.trans ?_ e1
      show ((ts.map Call.thread).foldl _ (Stores.applyAll w (Prog.alone (M := Stores) w (Call.thread cs)).1) : World) = _
      rw [hstep]
    · rw [List.flatten_cons, (happ cs ts.flatten w).2, e2, List.map_cons, List.flatten_cons]
      congr 2
      apply List.map_congr_left
      intro ds hds
      have hsame := alone_same (M := Stores) localPolicy_apply (threads_independent (h1 ds hds)) hw
      obtain ⟨_, q1, _⟩ := thread_alone ds (Call.after w cs)
      obtain ⟨_, q2, _⟩ := thread_alone ds w
      have q1' := (congrArg (fun s => Prog.alone (M := Stores) s (Call.thread ds)) hstep).trans q1
      have := (q1'.symm.trans (hsame.trans q2))
      exact Except.ok.inj (congrArg Prod.snd this)

/-- Threads make calls, each call apart from the calls of the other threads: different addresses, different names where both deal with
identities, different one-time prekeys.  Then, however the scheduler switches between their store accesses, every call of every thread
gives what it gives when its thread runs alone; and stores and replies are those of running the threads one after the other. -/
theorem C68_apart {w w' : World} {ts : List (List Call)} {rs : List (Res (List (Res Reply)))} (hp : LocalPolicy w)
    (ht : ts.Pairwise fun cs ds => ∀ c ∈ cs, ∀ d ∈ ds, CallsApart c d) (h : Finished (M := Stores) w (ts.map Call.thread) w' rs) :
    rs = ts.map (fun cs => .ok (Call.replies w cs)) ∧ w' = Call.after w ts.flatten ∧
      (ts.map (Call.replies w)).flatten = Call.replies w ts.flatten := by
  have hpair := pairwise_threads (f := Call.thread) (S := Independent (M := Stores) LocalPolicy) (fun cs ds h => threads_independent h) ht
  obtain ⟨h1, h2⟩ := runs_independent (M := Stores) localPolicy_apply h hp hpair rs rfl
  obtain ⟨h3, h4⟩ := serial_calls ts w hp ht
  refine ⟨?_, ?_, h4.symm⟩
  · rw [h1, List.map_map]
    apply List.map_congr_left
    intro cs _
    obtain ⟨_, ha, _⟩ := thread_alone cs w
    exact congrArg Prod.snd ha
  · exact h2.trans ((serial_same (M := Stores) localPolicy_apply _ w hp hpair).symm.trans h3)

theorem serial_group_calls : ∀ (ts : List (List GroupCall)) (g : GroupStore),
    ts.Pairwise (fun cs ds => ∀ c ∈ cs, ∀ d ∈ ds, c.name ≠ d.name) →
    (ts.map GroupCall.thread).foldl (fun (s : GroupStore) p => SenderKeys.applyAll s (Prog.alone (M := SenderKeys) s p).1) g =
      GroupCall.after g ts.flatten ∧
    GroupCall.replies g ts.flatten = (ts.map (GroupCall.replies g)).flatten := by
  intro ts
  induction ts with
  | nil => exact fun g _ => ⟨rfl, rfl⟩
  | cons cs ts ih =>
    intro g hpair
    obtain ⟨h1, h2⟩ := List.pairwise_cons.1 hpair
    obtain ⟨ws, ha, hb⟩ := groupThread_alone cs g
    obtain ⟨e1, e2⟩ := ih (GroupCall.after g cs) h2
    have happ : ∀ (cs ds : List GroupCall) (g : GroupStore), GroupCall.after g (cs ++ ds) = GroupCall.after (GroupCall.after g cs) ds ∧
        GroupCall.replies g (cs ++ ds) = GroupCall.replies g cs ++ GroupCall.replies (GroupCall.after g cs) ds := by
      intro cs ds
      induction cs with
      | nil => exact fun g => ⟨rfl, rfl⟩
      | cons c cs ihc => exact fun g => ⟨(ihc (c.next g)).1, congrArg _ (ihc (c.next g)).2⟩
    have hstep : SenderKeys.applyAll g (Prog.alone (M := SenderKeys) g (GroupCall.thread cs)).1 = GroupCall.after g cs := by
      have : (Prog.alone (M := SenderKeys) g (GroupCall.thread cs)).1 = ws := congrArg Prod.fst ha
      exact (congrArg (SenderKeys.applyAll g) this).trans hb
    refine ⟨?_, ?_⟩
    · rw [List.flatten_cons, (happ cs ts.flatten g).1]
      refine Eq.trans ?_ e1
      show ((ts.map GroupCall.thread).foldl _ (SenderKeys.applyAll g (Prog.alone (M := SenderKeys) g (GroupCall.thread cs)).1) : GroupStore) = _
      rw [hstep]
    · rw [List.flatten_cons, (happ cs ts.flatten g).2, e2, List.map_cons, List.flatten_cons]
      congr 2
      apply List.map_congr_left
      intro ds hds
      have hsame := alone_same (M := SenderKeys) (fun _ _ h => h) (groupThreads_independent (h1 ds hds)) (s := g) trivial
      obtain ⟨_, q1, _⟩ := groupThread_alone ds (GroupCall.after g cs)
      obtain ⟨_, q2, _⟩ := groupThread_alone ds g
      have q1' := (congrArg (fun s => Prog.alone (M := SenderKeys) s (GroupCall.thread ds)) hstep).trans q1
      have := (q1'.symm.trans (hsame.trans q2))
      exact Except.ok.inj (congrArg Prod.snd this)

/-- Group calls on different sender key names may overlap freely. -/
theorem C68_groups {g g' : GroupStore} {ts : List (List GroupCall)} {rs : List (Res (List (Res GroupReply)))}
    (ht : ts.Pairwise fun cs ds => ∀ c ∈ cs, ∀ d ∈ ds, c.name ≠ d.name)
    (h : Finished (M := SenderKeys) g (ts.map GroupCall.thread) g' rs) :
    rs = ts.map (fun cs => .ok (GroupCall.replies g cs)) ∧ g' = GroupCall.after g ts.flatten ∧
      (ts.map (GroupCall.replies g)).flatten = GroupCall.replies g ts.flatten := by
  have hpair := pairwise_threads (f := GroupCall.thread) (S := Independent (M := SenderKeys) fun _ => True)
    (fun cs ds h => groupThreads_independent h) ht
  obtain ⟨h1, h2⟩ := runs_independent (M := SenderKeys) (I := fun _ => True) (fun _ _ h => h) h trivial hpair rs rfl
  obtain ⟨h3, h4⟩ := serial_group_calls ts g ht
  refine ⟨?_, ?_, h4.symm⟩
  · rw [h1, List.map_map]
    apply List.map_congr_left
    intro cs _
    obtain ⟨_, ha, _⟩ := groupThread_alone cs g
    exact congrArg Prod.snd ha
  · exact h2.trans ((serial_same (M := SenderKeys) (I := fun _ => True) (fun _ _ h => h) _ g trivial hpair).symm.trans h3)

omit C in
/-- Nothing blocks: whatever has happened so far, all threads can go on to their ends. -/
theorem C68_finishes {M : Machine} {α : Type} {s s' : M.State} {ps ps' : List (Prog M α)} (h : Interleaved s ps s' ps') :
    ∃ (s'' : M.State) (rs : List (Res α)), Interleaved s' ps' s'' (rs.map .done) ∧ Finished s ps s'' rs := by
  obtain ⟨s'', rs, h'⟩ := runs_finish ps' s' []
  exact ⟨s'', rs, h', runs_trans h h'⟩

/-- An overlapped `encrypt`, `decryptMsg` or `processInitKeyExchangeMessage` gives what it gives, alone, in the stores as they were at
one moment of the run, whatever else is running. -/
theorem C68_moment {w w' : World} {ps : List (Prog Stores Reply)} {rs : List (Res Reply)} (h : Finished (M := Stores) w ps w' rs)
    {i : Nat} {c : Call} {r : Res Reply} (hc : match c with | .encrypt .. | .decryptMsg .. | .initKeyExchange .. => True | _ => False)
    (hp : ps[i]? = some c.prog) (hr : rs[i]? = some r) :
    ∃ (m : World) (qs : List (Prog Stores Reply)), Interleaved (M := Stores) w ps m qs ∧ Interleaved (M := Stores) m qs w' (rs.map .done) ∧
      (c.run m).result = r := by
  have hm : c.prog.Momentary := by
    cases c with
    | encrypt a p => exact encrypt_momentary a p
    | decryptMsg a m s ss => exact decryptMsg_momentary a m s ss
    | initKeyExchange a n s1 s2 s3 => exact init_momentary a n s1 s2 s3
    | _ => exact hc.elim
  obtain ⟨m, qs, r1, r2, r3⟩ := runs_moment h i c.prog r hp (by rw [List.getElem?_map, hr]; rfl) hm
  exact ⟨m, qs, r1, r2, (congrArg Prod.snd (prog_alone m c)).symm.trans r3⟩

/-- The same for every group call. -/
theorem C68_moment_group {g g' : GroupStore} {ps : List (Prog SenderKeys GroupReply)} {rs : List (Res GroupReply)}
    (h : Finished (M := SenderKeys) g ps g' rs) {i : Nat} {c : GroupCall} {r : Res GroupReply}
    (hp : ps[i]? = some c.prog) (hr : rs[i]? = some r) :
    ∃ (m : GroupStore) (qs : List (Prog SenderKeys GroupReply)), Interleaved (M := SenderKeys) g ps m qs ∧
      Interleaved (M := SenderKeys) m qs g' (rs.map .done) ∧ (c.run m).result = r := by
  obtain ⟨m, qs, r1, r2, r3⟩ := runs_moment h i c.prog r hp (by rw [List.getElem?_map, hr]; rfl) (groupProg_momentary c)
  exact ⟨m, qs, r1, r2, (congrArg Prod.snd (groupProg_alone m c)).symm.trans r3⟩

/-- Any calls can overlap so that each of them gives what it gives alone, and their changes are made one call after the other. -/
theorem C68_snapshot (w : World) (cs : List Call) :
    Finished (M := Stores) w (cs.map Call.prog) (w.applyAll (cs.flatMap fun c => (c.run w).writes)) (cs.map fun c => (c.run w).result) := by
  have h := runs_snapshot (M := Stores) (cs.map Call.prog) (by
    intro p hp
    obtain ⟨c, _, rfl⟩ := List.mem_map.1 hp
    exact prog_asksFirst c) w
  rw [List.map_map, List.flatMap_map] at h
  have e1 : (cs.map ((fun p => (Prog.alone (M := Stores) w p).2) ∘ Call.prog)) = cs.map fun c => (c.run w).result :=
    List.map_congr_left fun c _ => congrArg Prod.snd (prog_alone w c)
  have e2 : (fun c : Call => (Prog.alone (M := Stores) w c.prog).1) = fun c => (c.run w).writes :=
    funext fun c => congrArg Prod.fst (prog_alone w c)
  rw [e1, e2] at h
  exact h

/-- The same for group calls. -/
theorem C68_snapshot_group (g : GroupStore) (cs : List GroupCall) :
    Finished (M := SenderKeys) g (cs.map GroupCall.prog)
      (SenderKeys.applyAll g (cs.flatMap fun c => (c.run g).stored.toList.map fun r => (c.name, r)))
      (cs.map fun c => (c.run g).result) := by
  have h := runs_snapshot (M := SenderKeys) (cs.map GroupCall.prog) (by
    intro p hp
    obtain ⟨c, _, rfl⟩ := List.mem_map.1 hp
    exact groupProg_asksFirst c) g
  rw [List.map_map, List.flatMap_map] at h
  have e1 : (cs.map ((fun p => (Prog.alone (M := SenderKeys) g p).2) ∘ GroupCall.prog)) = cs.map fun c => (c.run g).result :=
    List.map_congr_left fun c _ => congrArg Prod.snd (groupProg_alone g c)
  have e2 : (fun c : GroupCall => (Prog.alone (M := SenderKeys) g c.prog).1) =
      fun c => (c.run g).stored.toList.map fun r => (c.name, r) :=
    funext fun c => congrArg Prod.fst (groupProg_alone g c)
  rw [e1, e2] at h
  exact h

/-- So a message that is accepted is accepted by any number of overlapping calls ... -/
theorem C68_accepted_often (w : World) (a : Address) (m : WhisperMessage) (seed : Bytes) (seeds : Nat → Bytes) {pt : Bytes}
    (h : (SessionCipher.decryptMsg w a m seed seeds).result = .ok pt) (n : Nat) :
    ∃ w', Finished (M := Stores) w (List.replicate n (Call.prog (.decryptMsg a m seed seeds))) w' (List.replicate n (.ok (.plaintext pt))) := by
  have hs := C68_snapshot w (List.replicate n (.decryptMsg a m seed seeds))
  rw [List.map_replicate, List.map_replicate] at hs
  have : ((Call.decryptMsg a m seed seeds).run w).result = .ok (.plaintext pt) := by
    simp only [Call.run, Call.mapOutcome, h]
  rw [this] at hs
  exact ⟨_, hs⟩

/-- ... and two overlapping calls of `encrypt` can both use the message keys that the session has reached. -/
theorem C68_keys_reused (w : World) (a : Address) (p1 p2 : Bytes) {c1 c2 : Ciphertext}
    (h1 : (SessionCipher.encrypt w a p1).result = .ok c1) (h2 : (SessionCipher.encrypt w a p2).result = .ok c2) :
    ∃ w', Finished (M := Stores) w [Call.prog (.encrypt a p1), Call.prog (.encrypt a p2)] w' [.ok (.ciphertext c1), .ok (.ciphertext c2)] := by
  have hs := C68_snapshot w [.encrypt a p1, .encrypt a p2]
  have e1 : ((Call.encrypt a p1).run w).result = .ok (.ciphertext c1) := by simp only [Call.run, Call.mapOutcome, h1]
  have e2 : ((Call.encrypt a p2).run w).result = .ok (.ciphertext c2) := by simp only [Call.run, Call.mapOutcome, h2]
  simp only [List.map_cons, List.map_nil, e1, e2] at hs
  exact ⟨_, hs⟩

end

section Examples
open Example Spec
attribute [local instance] toy

/-- Trust on first use asks for the saved identity only. -/
theorem local_alice0 : LocalPolicy alice0 := by
  intro s s' n k e
  show tofu s n k = tofu s' n k
  simp only [tofu, e]

theorem local_alice2 : LocalPolicy alice2 :=
  invariant_applyAll (M := Stores) (I := LocalPolicy) localPolicy_apply
    (invariant_applyAll (M := Stores) (I := LocalPolicy) localPolicy_apply local_alice0 _) _

/-- `C68_apart` for all calls is false: a message can be accepted by two overlapping calls, and by no two calls one after the other. -/
theorem C68_serial_false : ¬ ∀ (w w' : World) (c d : Call) (r1 r2 : Res Reply), LocalPolicy w →
    Finished (M := Stores) w [c.prog, d.prog] w' [r1, r2] → Call.replies w [c, d] = [r1, r2] ∨ Call.replies w [d, c] = [r2, r1] := by
  intro h
  have hres : (SessionCipher.decryptMsg alice2 bobAddr replyMsg (key 43) (fun _ => key 44)).result = .ok [121, 111] := by decide +kernel
  obtain ⟨w', hf⟩ := C68_accepted_often alice2 bobAddr replyMsg (key 43) (fun _ => key 44) hres 2
  have hsecond : ((Call.replies alice2 [.decryptMsg bobAddr replyMsg (key 43) (fun _ => key 44),
      .decryptMsg bobAddr replyMsg (key 43) (fun _ => key 44)]).map Except.toBool) = [true, false] := by decide +kernel
  have := h alice2 w' _ _ _ _ local_alice2 hf
  rcases this with h1 | h1 <;> · rw [h1] at hsecond; cases hsecond

/-- Two overlapping calls of `encrypt` give different ciphertexts for the same position of the same chain. -/
example : ∃ w' c1 c2, Finished (M := Stores) alice1 [Call.prog (.encrypt bobAddr [1]), Call.prog (.encrypt bobAddr [2])] w'
      [.ok (.ciphertext c1), .ok (.ciphertext c2)] ∧ c1.inner.counter = c2.inner.counter ∧
      c1.inner.senderRatchetKey = c2.inner.senderRatchetKey ∧ c1.inner.ciphertext ≠ c2.inner.ciphertext := by
  have key : ∀ r1 r2 : Res Ciphertext, (match r1, r2 with
      | .ok c1, .ok c2 => decide (c1.inner.counter = c2.inner.counter ∧ c1.inner.senderRatchetKey = c2.inner.senderRatchetKey ∧
          c1.inner.ciphertext ≠ c2.inner.ciphertext)
      | _, _ => false) = true → ∃ c1 c2, r1 = .ok c1 ∧ r2 = .ok c2 ∧ c1.inner.counter = c2.inner.counter ∧
        c1.inner.senderRatchetKey = c2.inner.senderRatchetKey ∧ c1.inner.ciphertext ≠ c2.inner.ciphertext := by
    intro r1 r2 h
    cases r1 with
    | error e => cases h
    | ok c1 =>
      cases r2 with
      | error e => cases h
      | ok c2 => exact ⟨c1, c2, rfl, rfl, of_decide_eq_true h⟩
  obtain ⟨c1, c2, h1, h2, h3⟩ := key (SessionCipher.encrypt alice1 bobAddr [1]).result (SessionCipher.encrypt alice1 bobAddr [2]).result
    (by decide +kernel)
  obtain ⟨w', hf⟩ := C68_keys_reused alice1 bobAddr [1] [2] h1 h2
  exact ⟨w', c1, c2, hf, h3⟩

/-- Two threads of Alice: one sets up a session with Bob and sends a message, the other asks Carol for a key exchange. -/
def Example.bobThread : List Call := [.processBundle bobAddr bobBundle (key 41) (key 42), .encrypt bobAddr [104, 105]]
def Example.carolThread : List Call := [.initKeyExchange ("carol", 1) 7 (key 61) (key 62) (List.replicate 64 9)]

theorem apart_threads : [bobThread, carolThread].Pairwise fun cs ds => ∀ c ∈ cs, ∀ d ∈ ds, CallsApart c d := by
  refine List.pairwise_cons.2 ⟨?_, List.pairwise_singleton ..⟩
  intro ds hds c hc d hd
  rw [List.mem_singleton] at hds
  subst hds
  rw [carolThread, List.mem_singleton] at hd
  subst hd
  have hn : c.addr = bobAddr ∧ preKeyNamed c = none := by
    rcases List.mem_cons.1 hc with rfl | hc
    · exact ⟨rfl, rfl⟩
    · rw [List.mem_singleton] at hc
      subst hc
      exact ⟨rfl, rfl⟩
  refine ⟨?_, fun _ h => h.elim, fun i h => ?_⟩
  · rw [hn.1]
    decide
  · rw [hn.2] at h
    cases h

/-- They have a run, `C68_apart` applies to it, and every call of it succeeds. -/
example : ∃ w' rs, Finished (M := Stores) alice0 ([bobThread, carolThread].map Call.thread) w' rs ∧
    rs = [bobThread, carolThread].map (fun cs => .ok (Call.replies alice0 cs)) ∧ w' = Call.after alice0 [bobThread, carolThread].flatten := by
  obtain ⟨w', rs, _, h⟩ := C68_finishes (M := Stores) (s := alice0) (ps := [bobThread, carolThread].map Call.thread) .stop
  have := C68_apart local_alice0 apart_threads h
  exact ⟨w', rs, h, this.1, this.2.1⟩

example : ([bobThread, carolThread].map fun cs => (Call.replies alice0 cs).map Except.toBool) = [[true, true], [true]] := by decide +kernel

/-- Threads on two sender keys. -/
example : ∃ g' rs, Finished (M := SenderKeys) GroupStore.empty
    ([[GroupCall.create grp grpRand, .encrypt grp [1] (List.replicate 64 3)], [.create grpCopy grpRand]].map GroupCall.thread) g' rs ∧
    rs = [[GroupCall.create grp grpRand, .encrypt grp [1] (List.replicate 64 3)], [.create grpCopy grpRand]].map
      (fun cs => .ok (GroupCall.replies GroupStore.empty cs)) := by
  obtain ⟨g', rs, _, h⟩ := C68_finishes (M := SenderKeys) (s := GroupStore.empty)
    (ps := [[GroupCall.create grp grpRand, .encrypt grp [1] (List.replicate 64 3)], [.create grpCopy grpRand]].map GroupCall.thread) .stop
  refine ⟨g', rs, h, (C68_groups ?_ h).1⟩
  have : grp ≠ grpCopy := by decide
  simpa [GroupCall.name] using this

/-- `C68_moment`: in the run of two overlapping `decryptMsg`. -/
example : ∃ (w' m : World) (qs : List (Prog Stores Reply)), Interleaved (M := Stores) alice2
    (List.replicate 2 (Call.prog (.decryptMsg bobAddr replyMsg (key 43) (fun _ => key 44)))) m qs ∧
    ((Call.decryptMsg bobAddr replyMsg (key 43) (fun _ => key 44)).run m).result = .ok (.plaintext [121, 111]) ∧
    Interleaved (M := Stores) m qs w' [.done (.ok (.plaintext [121, 111])), .done (.ok (.plaintext [121, 111]))] := by
  have hres : (SessionCipher.decryptMsg alice2 bobAddr replyMsg (key 43) (fun _ => key 44)).result = .ok [121, 111] := by decide +kernel
  obtain ⟨w', hf⟩ := C68_accepted_often alice2 bobAddr replyMsg (key 43) (fun _ => key 44) hres 2
  obtain ⟨m, qs, h1, h2, h3⟩ := C68_moment hf (i := 1) (c := .decryptMsg bobAddr replyMsg (key 43) (fun _ => key 44)) trivial rfl rfl
  exact ⟨w', m, qs, h1, h3, h2⟩

end Examples
end Axolotl
