import Verif.Proofs.Locked
import Verif.Props.Interleave
import Verif.Props.NoReuse
import Verif.Props.PreKeys
import Verif.Props.Builder
import Verif.Props.Concurrent

/-!
# C104: locks make overlapping calls safe

The library takes no locks (C68).  If the application begins a call only when it is apart from every call in progress, every run is one in
which the calls are made one after the other, in the order in which they return.
-/

namespace Axolotl
section
variable [C : Crypto]
open Spec

theorem serially_calls (w : World) (cs : List Call) : serially (M := Stores) Call.prog w cs = Call.after w cs := by
  induction cs generalizing w with
  | nil => rfl
  | cons c cs ih =>
    have h1 : serially (M := Stores) Call.prog w (c :: cs) = serially (M := Stores) Call.prog (c.next w) cs := by
      show serially (M := Stores) Call.prog (Stores.applyAll w (Prog.alone (M := Stores) w c.prog).1) cs = _
      have : (Prog.alone (M := Stores) w c.prog).1 = (c.run w).writes := congrArg Prod.fst (prog_alone w c)
      exact congrArg (fun ws => serially (M := Stores) Call.prog (Stores.applyAll w ws) cs) this
    exact h1.trans (ih _)

theorem serially_group (g : GroupStore) (cs : List GroupCall) :
    serially (M := SenderKeys) GroupCall.prog g cs = GroupCall.after g cs := by
  induction cs generalizing g with
  | nil => rfl
  | cons c cs ih =>
    have hn : SenderKeys.applyAll g ((c.run g).stored.toList.map fun r => (c.name, r)) = c.next g := by
      unfold GroupCall.next GOutcome.final
      cases (c.run g).stored <;> rfl
    have h1 : serially (M := SenderKeys) GroupCall.prog g (c :: cs) = serially (M := SenderKeys) GroupCall.prog (c.next g) cs := by
      show serially (M := SenderKeys) GroupCall.prog (SenderKeys.applyAll g (Prog.alone (M := SenderKeys) g c.prog).1) cs = _
      have : (Prog.alone (M := SenderKeys) g c.prog).1 = (c.run g).stored.toList.map fun r => (c.name, r) :=
        congrArg Prod.fst (groupProg_alone g c)
      exact congrArg (fun s => serially (M := SenderKeys) GroupCall.prog s cs)
        ((congrArg (SenderKeys.applyAll g) this).trans hn)
    exact h1.trans (ih _)

theorem replies_at (w : World) (cs : List Call) (i : Nat) :
    (Call.replies w cs)[i]? = cs[i]?.map fun c => (c.run (Call.after w (cs.take i))).result := by
  induction cs generalizing w i with
  | nil => rfl
  | cons c cs ih =>
    cases i with
    | zero => rfl
    | succ i => exact ih (c.next w) i

theorem group_replies_at (g : GroupStore) (cs : List GroupCall) (i : Nat) :
    (GroupCall.replies g cs)[i]? = cs[i]?.map fun c => (c.run (GroupCall.after g (cs.take i))).result := by
  induction cs generalizing g i with
  | nil => rfl
  | cons c cs ih =>
    cases i with
    | zero => rfl
    | succ i => exact ih (c.next g) i

/-- **C104.** Sessions: a call begins only when no call in progress is for the same address, none that deals with identities is for the
same name (if this one deals with them too), and none names the same one-time prekey. Then all replies are those of making the
calls one after the other in the order in which they returned; and so are the stores, when no call is in progress. -/
theorem C104_serial {w w' : World} {running : List (Call × Prog Stores Reply)} {fin : List (Call × Res Reply)} (hp : LocalPolicy w)
    (h : Locked (M := Stores) Call.prog CallsApart w w' running fin) :
    Call.replies w (fin.map Prod.fst) = fin.map Prod.snd ∧ (running = [] → w' = Call.after w (fin.map Prod.fst)) := by
  obtain ⟨⟨u, hu, hinv⟩, hg⟩ := locked_inv (M := Stores) localPolicy_apply prog_within (fun c d => apart_symm)
    (fun c d => apart_harmless) hp h
  refine ⟨?_, fun he => ?_⟩
  · apply List.ext_getElem?
    intro i
    rw [replies_at, List.getElem?_map, List.getElem?_map]
    cases hi : fin[i]? with
    | none => rfl
    | some e =>
      have := hg i e.1 e.2 hi
      rw [serially_calls] at this
      simp only [Option.map_some]
      rw [← List.map_take, ← this]
      exact congrArg some (congrArg Prod.snd (prog_alone _ e.1)).symm
  · subst he
    rw [List.map_eq_nil_iff] at hu
    subst hu
    have := hinv.state
    rw [serially_calls] at this
    exact this

/-- **C104.** Groups: a call begins only when no call in progress is for the same sender key name. -/
theorem C104_serial_group {g g' : GroupStore} {running : List (GroupCall × Prog SenderKeys GroupReply)}
    {fin : List (GroupCall × Res GroupReply)} (h : Locked (M := SenderKeys) GroupCall.prog (fun c d => c.name ≠ d.name) g g' running fin) :
    GroupCall.replies g (fin.map Prod.fst) = fin.map Prod.snd ∧ (running = [] → g' = GroupCall.after g (fin.map Prod.fst)) := by
  have hh : ∀ c d : GroupCall, c.name ≠ d.name →
      Harmless (M := SenderKeys) (fun _ => True) (GroupCall.footprint (· = c.name)) (GroupCall.footprint (· = d.name)) := by
    intro c d hne
    constructor
    · intro g x q _ hx hq
      replace hx : x.1 = c.name := hx
      replace hq : q = d.name := hq
      exact if_neg (by rw [hx, hq]; exact hne.symm)
    · intro g x y _ hx hy
      replace hx : x.1 = c.name := hx
      replace hy : y.1 = d.name := hy
      exact upd_comm _ (by rw [hx, hy]; exact hne) _ _
  obtain ⟨⟨u, hu, hinv⟩, hg⟩ := locked_inv (M := SenderKeys) (I := fun _ => True) (foot := fun c => GroupCall.footprint (· = c.name))
    (fun _ _ h => h) (fun c => groupProg_within c rfl) (fun c d h => h.symm) hh trivial h
  refine ⟨?_, fun he => ?_⟩
  · apply List.ext_getElem?
    intro i
    rw [group_replies_at, List.getElem?_map, List.getElem?_map]
    cases hi : fin[i]? with
    | none => rfl
    | some e =>
      have := hg i e.1 e.2 hi
      rw [serially_group] at this
      simp only [Option.map_some]
      rw [← List.map_take, ← this]
      exact congrArg some (congrArg Prod.snd (groupProg_alone _ e.1)).symm
  · subst he
    rw [List.map_eq_nil_iff] at hu
    subst hu
    have := hinv.state
    rw [serially_group] at this
    exact this

omit C in
/-- **C104.** Nothing blocks: whatever is in progress can return. -/
theorem C104_finishes {M : Machine} {κ α : Type} {prog : κ → Prog M α} {apart : κ → κ → Prop} {s0 : M.State} :
    ∀ (running : List (κ × Prog M α)) {s : M.State} {fin : List (κ × Res α)}, Locked prog apart s0 s running fin →
      ∃ s' more, Locked prog apart s0 s' [] (fin ++ more) ∧ more.map Prod.fst = running.map Prod.fst := by
  intro running
  induction running with
  | nil => exact fun h => ⟨_, [], by rw [List.append_nil]; exact h, rfl⟩
  | cons e running ih =>
    obtain ⟨c, p⟩ := e
    intro s fin h
    induction p generalizing s with
    | done r =>
      obtain ⟨s', more, h1, h2⟩ := ih (Locked.leave (a := []) h)
      refine ⟨s', (c, r) :: more, ?_, by rw [List.map_cons, List.map_cons, h2]⟩
      rw [List.append_assoc] at h1
      exact h1
    | ask q k ihp => exact ihp _ (Locked.ask (a := []) h)
    | change x k ihp => exact ihp (Locked.change (a := []) h)

omit C in
/-- **C104.** Every history of calls one after the other is such a run. -/
theorem C104_any {M : Machine} {κ α : Type} (prog : κ → Prog M α) (apart : κ → κ → Prop) (s0 : M.State) (cs : List κ) :
    ∃ s fin, Locked prog apart s0 s [] fin ∧ fin.map Prod.fst = cs := by
  suffices h : ∀ (cs : List κ) (s : M.State) (fin : List (κ × Res α)), Locked prog apart s0 s [] fin →
      ∃ s' fin', Locked prog apart s0 s' [] fin' ∧ fin'.map Prod.fst = fin.map Prod.fst ++ cs from by
    obtain ⟨s', fin', h1, h2⟩ := h cs s0 [] .start
    exact ⟨s', fin', h1, h2⟩
  intro cs
  induction cs with
  | nil => exact fun s fin h => ⟨s, fin, h, by rw [List.append_nil]⟩
  | cons c cs ih =>
    intro s fin h
    obtain ⟨s1, more, h1, h2⟩ := C104_finishes [(c, prog c)] (Locked.enter c h fun d hd => by cases hd)
    obtain ⟨s2, fin', h3, h4⟩ := ih s1 _ h1
    refine ⟨s2, fin', h3, ?_⟩
    rw [h4, List.map_append, h2, List.append_assoc]
    rfl

theorem headers_sent (w : World) (cs : List Call) : headersOf (cs.zip (Call.replies w cs)) = (sentMessages w cs).map Prod.snd := by
  induction cs generalizing w with
  | nil => rfl
  | cons c cs ih =>
    have hz : (c :: cs).zip (Call.replies w (c :: cs)) = (c, (c.run w).result) :: cs.zip (Call.replies (c.next w) cs) := rfl
    rw [hz]
    unfold sentMessages
    rw [List.map_append, ← ih (c.next w)]
    unfold headersOf
    rw [List.filterMap_cons]
    dsimp only
    have hno : ∀ {α : Type} (f : α → Reply) (o : Outcome α), (∀ x c, f x ≠ .ciphertext c) →
        ∀ c, (Call.mapOutcome f o).result ≠ .ok (.ciphertext c) := by
      intro α f o hf c h
      unfold Call.mapOutcome at h
      cases ho : o.result with
      | error e => rw [ho] at h; cases h
      | ok x => rw [ho] at h; exact hf x c (Except.ok.inj h)
    have skip : (∀ m, (c.run w).result ≠ .ok (.ciphertext m)) → headerOf (c.run w).result = none := by
      intro h
      unfold headerOf
      split
      · exact absurd ‹_› (h _)
      · rfl
    cases c with
    | encrypt a pt =>
      have e1 : ((Call.encrypt a pt).run w).result = match (SessionCipher.encrypt w a pt).result with
          | .ok m => .ok (.ciphertext m) | .error e => .error e := by
        simp only [Call.run, Call.mapOutcome]
        cases (SessionCipher.encrypt w a pt).result <;> rfl
      simp only [e1]
      cases (SessionCipher.encrypt w a pt).result <;> rfl
    | decryptMsg a m s ss => rw [skip (hno _ _ fun x c h => by cases h)]; rfl
    | decryptPkmsg a m s ss => rw [skip (hno _ _ fun x c h => by cases h)]; rfl
    | processBundle a b s1 s2 => rw [skip (hno _ _ fun x c h => by cases h)]; rfl
    | processKeyExchange a m r => rw [skip (hno _ _ fun x c h => by cases h)]; rfl
    | initKeyExchange a n s1 s2 s3 => rw [skip (hno _ _ fun x c h => by cases h)]; rfl

/-- **C104.** So, what fails without locks (C33): any number of threads writing, reading and setting up sessions never use a header, hence
a message key, for two messages; as in C15, if ratchet keys are drawn once and no key exchange is asked for. -/
theorem C104_headers (hC : C.Lawful) {w w' : World} {running : List (Call × Prog Stores Reply)} {fin : List (Call × Res Reply)}
    (hp : LocalPolicy w) (hw : w.NoSessions) (h : Locked (M := Stores) Call.prog CallsApart w w' running fin)
    (hseeds : ∀ e ∈ fin, SeedsOk e.1) (hno : ∀ e ∈ fin, ∀ a q bs rs ss, e.1 ≠ .initKeyExchange a q bs rs ss)
    (hdrawn : DrawnOnce (fun _ => False) (fin.map Prod.fst)) : (headersOf fin).Nodup := by
  have hfin : fin = (fin.map Prod.fst).zip (Call.replies w (fin.map Prod.fst)) := by
    rw [(C104_serial hp h).1, List.zip_map', List.map_id']
  rw [hfin, headers_sent]
  refine C15_random_partial hC w hw _ ?_ ?_ hdrawn
  · intro c hc
    obtain ⟨e, he, rfl⟩ := List.mem_map.1 hc
    exact hseeds e he
  · intro c hc
    obtain ⟨e, he, rfl⟩ := List.mem_map.1 hc
    exact hno e he

/-- **C104.** And no group message is accepted by two calls, whatever overlaps under the lock (without it: C68). -/
theorem C104_once_group {g' : GroupStore} {running : List (GroupCall × Prog SenderKeys GroupReply)}
    {fin : List (GroupCall × Res GroupReply)}
    (h : Locked (M := SenderKeys) GroupCall.prog (fun c d => c.name ≠ d.name) GroupStore.empty g' running fin) {i j : Nat}
    {n : SenderKeyName} {b : Bytes} {x y : GroupReply} (hi : fin[i]? = some (.decrypt n b, .ok x)) (hj : fin[j]? = some (.decrypt n b, .ok y)) :
    i = j := by
  have hs := (C104_serial_group h).1
  have hat : ∀ (k : Nat) (c : GroupCall) (r : Res GroupReply), fin[k]? = some (c, r) →
      (c.run (GroupCall.after GroupStore.empty ((fin.take k).map Prod.fst))).result = r := by
    intro k c r hk
    have e := congrArg (fun l => l[k]?) hs
    simp only [group_replies_at, List.getElem?_map, hk, Option.map_some, Option.some.injEq, ← List.map_take] at e
    exact e
  have key : ∀ (i j : Nat) (x y : GroupReply), i < j → fin[i]? = some (.decrypt n b, .ok x) → fin[j]? = some (.decrypt n b, .ok y) → False := by
    intro i j x y hlt hi hj
    have h1 := hat i _ _ hi
    have h2 := hat j _ _ hj
    have hacc : ∃ pt, (GroupCipher.decrypt (GroupCall.after GroupStore.empty ((fin.take i).map Prod.fst)) n b).result = .ok pt := by
      cases hr : (GroupCipher.decrypt (GroupCall.after GroupStore.empty ((fin.take i).map Prod.fst)) n b).result with
      | ok pt => exact ⟨pt, rfl⟩
      | error e =>
        have h1 : (GroupCall.mapG GroupReply.bytes (GroupCipher.decrypt (GroupCall.after GroupStore.empty ((fin.take i).map Prod.fst)) n b)).result
          = .ok x := h1
        unfold GroupCall.mapG at h1
        simp only [hr] at h1
        cases h1
    obtain ⟨pt, hacc⟩ := hacc
    have hsplit : (fin.take j).map Prod.fst = (fin.take i).map Prod.fst ++ .decrypt n b :: ((fin.take j).drop (i + 1)).map Prod.fst := by
      have hlen : i < (fin.take j).length := by
        obtain ⟨hl, _⟩ := List.getElem?_eq_some_iff.1 hj
        rw [List.length_take]
        omega
      have hget : (fin.take j)[i] = (.decrypt n b, .ok x) := by
        rw [List.getElem_take]
        exact (List.getElem?_eq_some_iff.1 hi).2
      have : fin.take j = fin.take i ++ (.decrypt n b, .ok x) :: (fin.take j).drop (i + 1) := by
        have h3 := (List.take_append_drop i (fin.take j)).symm
        rw [List.take_take, Nat.min_eq_left (Nat.le_of_lt hlt), List.drop_eq_getElem_cons hlen, hget] at h3
        exact h3
      conv => lhs; rw [this]
      rw [List.map_append, List.map_cons]
    rw [hsplit] at h2
    have h3 := C40_no_replay _ (((fin.take j).drop (i + 1)).map Prod.fst) n b pt hacc
    have h2 : (GroupCall.mapG GroupReply.bytes (GroupCipher.decrypt _ n b)).result = .ok y := h2
    rw [h3] at h2
    cases h2
  rcases Nat.lt_trichotomy i j with hlt | he | hgt
  · exact (key i j x y hlt hi hj).elim
  · exact he
  · exact (key j i y x hgt hj hi).elim

/-- **C104.** The one-time prekeys belong under the lock: if two first messages from different peers that name the same one-time prekey are
each acceptable, they can both be accepted when the calls overlap, and not when one returns before the other begins. -/
theorem C104_prekey_race (w : World) (a b : Address) (m n : PreKeyWhisperMessage) (s t : Bytes) (ss tt : Nat → Bytes) (id : Nat)
    {pa pb : Bytes} (hab : a ≠ b) (hm : m.preKeyId = some id) (hn : n.preKeyId = some id) (hlast : id ≠ 0xFFFFFF)
    (ha : (SessionCipher.decryptPkmsg w a m s ss).result = .ok pa) (hka : ¬ alreadyKnown w a m)
    (hb : (SessionCipher.decryptPkmsg w b n t tt).result = .ok pb) (hkb : ¬ alreadyKnown w b n) :
    (∃ w', Finished (M := Stores) w [Call.prog (.decryptPkmsg a m s ss), Call.prog (.decryptPkmsg b n t tt)] w'
      [.ok (.plaintext pa), .ok (.plaintext pb)]) ∧
    ∃ e, (SessionCipher.decryptPkmsg ((SessionCipher.decryptPkmsg w a m s ss).final w) b n t tt).result = .error e := by
  constructor
  · have hs := C68_snapshot w [.decryptPkmsg a m s ss, .decryptPkmsg b n t tt]
    have e1 : ((Call.decryptPkmsg a m s ss).run w).result = .ok (.plaintext pa) := by simp only [Call.run, Call.mapOutcome, ha]
    have e2 : ((Call.decryptPkmsg b n t tt).run w).result = .ok (.plaintext pb) := by simp only [Call.run, Call.mapOutcome, hb]
    simp only [List.map_cons, List.map_nil, e1, e2] at hs
    exact ⟨_, hs⟩
  · refine (C27_consumed_refused _ b n t tt id hn ?_ ?_).1
    · rcases C27_only_the_named w a m s ss id with ⟨h, _⟩ | ⟨_, h⟩
      · exact h
      · exact absurd ⟨⟨pa, ha⟩, hka, hm, hlast⟩ h
    · have hsame : ((SessionCipher.decryptPkmsg w a m s ss).final w).sessions b = w.sessions b := (C30_isolation w (.decryptPkmsg a m s ss)).1 b hab.symm
      intro hk
      apply hkb
      unfold alreadyKnown at hk ⊢
      rw [hsame] at hk
      exact hk

/-! ## C33 for any number of calls -/

variable {ι : Type} [DecidableEq ι]

theorem overlapping_one_by_one (a : Address) (text : ι → Bytes) : ∀ (ts : List ι) (w : World) (seen : ι → World),
    (∀ e ∈ overlapping a text w seen (ts.flatMap fun t => [.load t, .store t]), ∃ c, e.2 = .ok c) →
    (∀ e ∈ overlapping a text w seen (ts.flatMap fun t => [.load t, .store t]), ∀ c, e.2 = .ok c →
      Spec.sendCounter (w.loadSession a).sessionState ≤ c.inner.counter) ∧
    (overlapping a text w seen (ts.flatMap fun t => [.load t, .store t])).Pairwise
      fun e e' => ∀ c c', e.2 = .ok c → e'.2 = .ok c' → c.inner.counter < c'.inner.counter := by
  intro ts
  induction ts with
  | nil => exact fun w seen _ => ⟨fun e he => (nomatch he), .nil⟩
  | cons t ts ih =>
    intro w seen hok
    have e0 : overlapping a text w seen ((t :: ts).flatMap fun t => [.load t, .store t]) =
        (t, (SessionCipher.encrypt w a (text t)).result) ::
          overlapping a text ((SessionCipher.encrypt w a (text t)).final w) (upd seen t w) (ts.flatMap fun t => [.load t, .store t]) := by
      show overlapping a text w seen (.load t :: .store t :: ts.flatMap fun t => [.load t, .store t]) = _
      simp only [overlapping, upd, if_true]
    rw [e0] at hok ⊢
    obtain ⟨c, hc⟩ := hok _ (List.mem_cons_self ..)
    obtain ⟨h1, h2⟩ := ih _ _ fun e he => hok e (List.mem_cons_of_mem _ he)
    obtain ⟨r', hw, hcnt, _, hcnt', _⟩ := C16_encrypt w a _ c hc
    have hload : ((SessionCipher.encrypt w a (text t)).final w).loadSession a = { r' with fresh := false } := by
      unfold Outcome.final
      rw [hw]
      simp [World.loadSession, World.applyAll, World.apply, upd]
    have hlow : ∀ e ∈ overlapping a text ((SessionCipher.encrypt w a (text t)).final w) (upd seen t w)
        (ts.flatMap fun t => [.load t, .store t]), ∀ c', e.2 = .ok c' → c.inner.counter < c'.inner.counter := by
      intro e he c' hc'
      have := h1 e he c' hc'
      rw [hload, show ({ r' with fresh := false } : SessionRecord).sessionState = r'.sessionState from rfl, hcnt'] at this
      rw [hcnt]
      omega
    refine ⟨?_, List.pairwise_cons.2 ⟨?_, h2⟩⟩
    · intro e he c' hc'
      rcases List.mem_cons.1 he with rfl | he
      · rw [hc] at hc'
        cases hc'
        rw [hcnt]
        exact Nat.le_refl _
      · have := hlow e he c' hc'
        rw [hcnt] at this
        omega
    · intro e he c1 c' h3 hc'
      rw [hc] at h3
      cases h3
      exact hlow e he c' hc'

omit C in
theorem filter_own {l : List (StoreAccess ι)} (x : StoreAccess ι) :
    (x :: l).filter (fun y => y.thread = x.thread) = x :: l.filter (fun y => y.thread = x.thread) :=
  List.filter_cons_of_pos (decide_eq_true rfl)

omit C in
theorem filter_load {l : List (StoreAccess ι)} (t : ι) :
    (.load t :: l).filter (fun y => y.thread = t) = .load t :: l.filter (fun y => y.thread = t) := filter_own (.load t)

omit C in
theorem filter_store {l : List (StoreAccess ι)} (t : ι) :
    (.store t :: l).filter (fun y => y.thread = t) = .store t :: l.filter (fun y => y.thread = t) := filter_own (.store t)

omit C in
theorem skip_load {l : List (StoreAccess ι)} {u t : ι} (h : u ≠ t) :
    (.load u :: l).filter (fun y => y.thread = t) = l.filter (fun y => y.thread = t) :=
  List.filter_cons_of_neg (fun h' => h (of_decide_eq_true h'))

omit C in
theorem skip_store {l : List (StoreAccess ι)} {u t : ι} (h : u ≠ t) :
    (.store u :: l).filter (fun y => y.thread = t) = l.filter (fun y => y.thread = t) :=
  List.filter_cons_of_neg (fun h' => h (of_decide_eq_true h'))

/-- A call that has loaded and not stored gives what it gives in the stores that it loaded from. -/
theorem overlapping_pending (a : Address) (text : ι → Bytes) (t : ι) : ∀ (l : List (StoreAccess ι)) (w : World) (seen : ι → World),
    l.filter (fun x => x.thread = t) = [.store t] → (t, (SessionCipher.encrypt (seen t) a (text t)).result) ∈ overlapping a text w seen l := by
  intro l
  induction l with
  | nil => intro w seen h; cases h
  | cons x l ih =>
    intro w seen h
    cases x with
    | load v =>
      by_cases hv : v = t
      · subst hv
        rw [filter_load] at h
        cases h
      · rw [skip_load hv] at h
        have := ih w (upd seen v w) h
        rw [upd_elsewhere _ (fun he => hv he.symm)] at this
        exact this
    | store v =>
      by_cases hv : v = t
      · subst hv
        exact List.mem_cons_self ..
      · rw [skip_store hv] at h
        exact List.mem_cons_of_mem _ (ih _ seen h)

omit C in
theorem filter_one_by_one (ts : List ι) (t : ι) :
    (ts.flatMap fun t => [StoreAccess.load t, .store t]).filter (fun x => x.thread = t) = [] ∧ t ∉ ts ∨
    ∃ rest, (ts.flatMap fun t => [StoreAccess.load t, .store t]).filter (fun x => x.thread = t) = .load t :: .store t :: rest := by
  induction ts with
  | nil => exact .inl ⟨rfl, by simp⟩
  | cons u ts ih =>
    have e0 : ((u :: ts).flatMap fun t => [StoreAccess.load t, .store t]) = .load u :: .store u :: ts.flatMap fun t => [.load t, .store t] := rfl
    rw [e0]
    by_cases hu : u = t
    · subst hu
      right
      exact ⟨_, by rw [filter_load, filter_store]⟩
    · rw [skip_load hu, skip_store hu]
      rcases ih with ⟨h1, h2⟩ | h
      · exact .inl ⟨h1, by simp [h2, Ne.symm hu]⟩
      · exact .inr h

omit C in
/-- Calls that do not run one by one: at some point two have loaded, one directly after the other, and neither has stored. -/
theorem overlap_somewhere (l : List (StoreAccess ι)) (hl : Accesses l) : OneByOne l ∨
    ∃ (ts : List ι) (t u : ι) (rest : List (StoreAccess ι)), t ≠ u ∧ l = (ts.flatMap fun t => [.load t, .store t]) ++ .load t :: .load u :: rest ∧
      rest.filter (fun x => x.thread = t) = [.store t] ∧ rest.filter (fun x => x.thread = u) = [.store u] := by
  suffices h : ∀ (n : Nat) (ts : List ι) (rest : List (StoreAccess ι)), rest.length ≤ n →
      l = (ts.flatMap fun t => [.load t, .store t]) ++ rest → OneByOne l ∨
      ∃ (ts : List ι) (t u : ι) (rest : List (StoreAccess ι)), t ≠ u ∧ l = (ts.flatMap fun t => [.load t, .store t]) ++ .load t :: .load u :: rest ∧
        rest.filter (fun x => x.thread = t) = [.store t] ∧ rest.filter (fun x => x.thread = u) = [.store u] from
    h l.length [] l (Nat.le_refl _) rfl
  intro n
  induction n with
  | zero =>
    intro ts rest hn he
    cases rest with
    | nil => exact .inl ⟨ts, by rw [he, List.append_nil]⟩
    | cons x r => simp at hn
  | succ n ih =>
    intro ts rest hn he
    -- what is left of the accesses of a call that is not among those that are through
    have hleft : ∀ t, (rest.filter (fun x => x.thread = t) = [] ∨ rest.filter (fun x => x.thread = t) = [.load t, .store t]) := by
      intro t
      have := hl t
      rw [he, List.filter_append] at this
      rcases filter_one_by_one ts t with ⟨h1, _⟩ | ⟨r, h1⟩
      · rw [h1, List.nil_append] at this
        exact this
      · rw [h1] at this
        rcases this with h | h
        · cases h
        · left
          simp only [List.cons_append, List.cons.injEq, true_and] at h
          exact (List.append_eq_nil_iff.1 h).2
    cases rest with
    | nil => exact .inl ⟨ts, by rw [he, List.append_nil]⟩
    | cons x r =>
      have hx := hleft x.thread
      rw [filter_own] at hx
      have hx : x = .load x.thread ∧ r.filter (fun y => y.thread = x.thread) = [.store x.thread] := by
        rcases hx with h | h
        · cases h
        · exact List.cons.inj h
      cases x with
      | store t => cases hx.1
      | load t =>
        have hr : r.filter (fun y => y.thread = t) = [.store t] := hx.2
        cases r with
        | nil => cases hr
        | cons y r =>
          cases y with
          | store u =>
            have hut : u = t := by
              refine Decidable.byContradiction fun hne => ?_
              have := hleft u
              rw [skip_load (Ne.symm hne), filter_store] at this
              rcases this with h | h <;> cases h
            subst hut
            refine ih (ts ++ [u]) r (by simp at hn; omega) ?_
            rw [he, List.flatMap_append, List.append_assoc]
            rfl
          | load u =>
            have hut : t ≠ u := by
              rintro rfl
              rw [filter_load] at hr
              cases hr
            refine .inr ⟨ts, t, u, r, hut, he, ?_, ?_⟩
            · rw [skip_load (Ne.symm hut)] at hr
              exact hr
            · have := hleft u
              rw [skip_load hut, filter_load] at this
              rcases this with h | h
              · cases h
              · exact (List.cons.inj h).2

theorem overlapping_after (a : Address) (text : ι → Bytes) : ∀ (l l' : List (StoreAccess ι)) (w : World) (seen : ι → World),
    ∃ w' seen', ∀ e ∈ overlapping a text w' seen' l', e ∈ overlapping a text w seen (l ++ l') := by
  intro l
  induction l with
  | nil => exact fun l' w seen => ⟨w, seen, fun e he => he⟩
  | cons x l ih =>
    intro l' w seen
    cases x with
    | load t => exact ih l' w (upd seen t w)
    | store t =>
      obtain ⟨w', seen', h⟩ := ih l' ((SessionCipher.encrypt (seen t) a (text t)).final w) seen
      exact ⟨w', seen', fun e he => List.mem_cons_of_mem _ (h e he)⟩

/-- **C33, for any number of calls: it is false for every session and every overlap.** However many `encrypt` calls there are, if any two of them
overlap, two of them use the same ratchet key, the same counter, the same cipher key and the same IV. -/
theorem C33_many_overlap_reuses (w w0 : World) (a : Address) (text : ι → Bytes) (l : List (StoreAccess ι)) (hl : Accesses l)
    (hok : ∀ e ∈ overlapping a text w (fun _ => w0) l, ∃ c, e.2 = .ok c) (hover : ¬ OneByOne l) :
    ∃ t u c c', t ≠ u ∧ (t, .ok c) ∈ overlapping a text w (fun _ => w0) l ∧ (u, .ok c') ∈ overlapping a text w (fun _ => w0) l ∧
      c'.inner.counter = c.inner.counter ∧ c'.inner.senderRatchetKey = c.inner.senderRatchetKey ∧
      ∃ key iv, AES.encrypt key iv (text t) = .ok c.inner.ciphertext ∧ AES.encrypt key iv (text u) = .ok c'.inner.ciphertext := by
  rcases overlap_somewhere l hl with h | ⟨ts, t, u, rest, hne, he, ht, hu⟩
  · exact absurd h hover
  obtain ⟨w', seen, hsub⟩ := overlapping_after a text (ts.flatMap fun t => [.load t, .store t]) (.load t :: .load u :: rest) w (fun _ => w0)
  rw [← he] at hsub
  have m1 := hsub _ (overlapping_pending a text t rest w' (upd (upd seen t w') u w') ht)
  have m2 := hsub _ (overlapping_pending a text u rest w' (upd (upd seen t w') u w') hu)
  have e1 : upd (upd seen t w') u w' t = w' := by
    rw [upd_elsewhere _ hne]
    exact if_pos rfl
  have e2 : upd (upd seen t w') u w' u = w' := if_pos rfl
  rw [e1] at m1
  rw [e2] at m2
  obtain ⟨c, hc⟩ := hok _ m1
  obtain ⟨c', hc'⟩ := hok _ m2
  dsimp only at hc hc'
  rw [hc] at m1
  rw [hc'] at m2
  obtain ⟨_, _, hcnt, hkey, _⟩ := C16_encrypt w' a _ c hc
  obtain ⟨_, _, hcnt2, hkey2, _⟩ := C16_encrypt w' a _ c' hc'
  rw [hkey] at hkey2
  obtain ⟨key, iv, hk⟩ := encrypt_key w' a
  exact ⟨t, u, c, c', hne, m1, m2, by rw [hcnt, hcnt2], (Except.ok.inj hkey2).symm, key, iv, hk _ _ hc, hk _ _ hc'⟩

omit C in
theorem pairwise_two {β : Type} {R : β → β → Prop} : ∀ {l : List β}, l.Pairwise R → ∀ {x y : β}, x ∈ l → y ∈ l → x ≠ y → R x y ∨ R y x := by
  intro l h
  induction h with
  | nil => intro x y hx; cases hx
  | cons h1 _ ih =>
    intro x y hx hy hne
    rcases List.mem_cons.1 hx with rfl | hx'
    · rcases List.mem_cons.1 hy with rfl | hy'
      · exact absurd rfl hne
      · exact .inl (h1 y hy')
    · rcases List.mem_cons.1 hy with rfl | hy'
      · exact .inr (h1 x hx')
      · exact ih hx' hy' hne

/-- **C33 (partial), for any number of calls.** Whatever the order of their accesses, no two of them share a header exactly if no two overlap.
The full statement has no such condition. -/
theorem C33_many_exact_partial (w w0 : World) (a : Address) (text : ι → Bytes) (l : List (StoreAccess ι)) (hl : Accesses l)
    (hok : ∀ e ∈ overlapping a text w (fun _ => w0) l, ∃ c, e.2 = .ok c) :
    (overlapping a text w (fun _ => w0) l).Pairwise (fun e e' => ∀ c c', e.2 = .ok c → e'.2 = .ok c' →
      (c.inner.senderRatchetKey, c.inner.counter) ≠ (c'.inner.senderRatchetKey, c'.inner.counter)) ↔ OneByOne l := by
  constructor
  · intro hp
    refine Classical.byContradiction fun hover => ?_
    obtain ⟨t, u, c, c', hne, m1, m2, h1, h2, _⟩ := C33_many_overlap_reuses w w0 a text l hl hok hover
    rcases pairwise_two hp m1 m2 (fun h => hne (congrArg Prod.fst h)) with h | h
    · exact h c c' rfl rfl (by rw [h1, h2])
    · exact h c' c rfl rfl (by rw [h1, h2])
  · rintro ⟨ts, rfl⟩
    refine (overlapping_one_by_one a text ts w _ hok).2.imp fun {e e'} h c c' hc hc' heq => ?_
    have := h c c' hc hc'
    injection heq with _ heq
    omega

end

section
attribute [local instance] toy
open Example Spec

/-! ## Non-vacuity -/

/-- `C33_many_exact_partial`, `C33_many_overlap_reuses`: three calls, of which the last two overlap. -/
def Example.threeCalls : List (StoreAccess Nat) := [.load 0, .store 0, .load 1, .load 2, .store 2, .store 1]
def Example.threeTexts : Nat → Bytes := fun i => [UInt8.ofNat i, 7]

theorem Example.threeCalls_accesses : Accesses threeCalls := by
  intro t
  by_cases h0 : t = 0
  · subst h0; exact .inr (by decide)
  by_cases h1 : t = 1
  · subst h1; exact .inr (by decide)
  by_cases h2 : t = 2
  · subst h2; exact .inr (by decide)
  left
  unfold threeCalls
  rw [skip_load (Ne.symm h0), skip_store (Ne.symm h0), skip_load (Ne.symm h1), skip_load (Ne.symm h2), skip_store (Ne.symm h2),
    skip_store (Ne.symm h1)]
  rfl

theorem Example.threeCalls_overlap : ¬ OneByOne threeCalls := by
  rintro ⟨ts, h⟩
  match ts with
  | [] => cases h
  | [_] => cases h
  | [_, _] => cases h
  | [_, _, _] => simp [threeCalls] at h
  | _ :: _ :: _ :: _ :: _ => simp [threeCalls] at h

example : (overlapping bobAddr threeTexts alice1 (fun _ => alice1) threeCalls).map
    (fun e => (e.1, e.2.toOption.map fun c => c.inner.counter)) = [(0, some 0), (2, some 1), (1, some 1)] := by decide +kernel

example : (∀ e ∈ overlapping bobAddr threeTexts alice1 (fun _ => alice1) threeCalls, ∃ c, e.2 = .ok c) ∧ Accesses threeCalls ∧ ¬ OneByOne threeCalls := by
  refine ⟨?_, threeCalls_accesses, threeCalls_overlap⟩
  have h : (overlapping bobAddr threeTexts alice1 (fun _ => alice1) threeCalls).all (fun e => e.2.toBool) = true := by decide +kernel
  intro e he
  have := List.all_eq_true.1 h e he
  cases hr : e.2 with
  | ok c => exact ⟨c, rfl⟩
  | error x => rw [hr] at this; cases this

/-- `C104_serial`: Alice sets up a session with Bob while a key exchange with Carol is asked for; both are in progress at once. -/
theorem Example.two_underway : Locked (M := Stores) Call.prog CallsApart alice0 alice0
    [(.initKeyExchange ("carol", 1) 7 (key 61) (key 62) (List.replicate 64 9),
        Call.prog (.initKeyExchange ("carol", 1) 7 (key 61) (key 62) (List.replicate 64 9))),
      (.processBundle bobAddr bobBundle (key 41) (key 42), Call.prog (.processBundle bobAddr bobBundle (key 41) (key 42)))] [] := by
  refine .enter _ (.enter _ .start fun d hd => by cases hd) fun d hd => ?_
  rw [List.mem_singleton] at hd
  subst hd
  exact ⟨by decide, fun h => h.elim, fun i h => by cases h⟩

example : ∃ w' fin, Locked (M := Stores) Call.prog CallsApart alice0 w' [] fin ∧ fin.map Prod.fst =
      [.initKeyExchange ("carol", 1) 7 (key 61) (key 62) (List.replicate 64 9), .processBundle bobAddr bobBundle (key 41) (key 42)] ∧
    (fin.map fun e => e.2.toBool) = [true, true] := by
  obtain ⟨w', more, h1, h2⟩ := C104_finishes _ two_underway
  refine ⟨w', _, h1, by rw [List.nil_append, h2]; rfl, ?_⟩
  have hs := (C104_serial local_alice0 h1).1
  rw [List.nil_append, h2] at hs
  have : (Call.replies alice0 [.initKeyExchange ("carol", 1) 7 (key 61) (key 62) (List.replicate 64 9),
    .processBundle bobAddr bobBundle (key 41) (key 42)]).map Except.toBool = [true, true] := by decide +kernel
  rw [List.nil_append]
  have e : (more.map fun e => e.2.toBool) = (more.map Prod.snd).map Except.toBool := by rw [List.map_map]; rfl
  rw [e, ← hs]
  exact this

/-- `C104_headers`, `C104_any`: a run with five messages to two peers. -/
example : ∃ w' fin, Locked (M := Stores) Call.prog CallsApart alice0 w' [] fin ∧ (headersOf fin).Nodup ∧ (headersOf fin).length = 5 := by
  obtain ⟨w', fin, h1, h2⟩ := C104_any (M := Stores) Call.prog CallsApart alice0 sendCalls
  have hmem : ∀ e ∈ fin, e.1 ∈ sendCalls := fun e he => h2 ▸ List.mem_map_of_mem he
  refine ⟨w', fin, h1, C104_headers toy_lawful local_alice0 (fun _ => rfl) h1 ?_ ?_ ?_, ?_⟩
  · intro e he
    have hc := hmem e he
    simp only [sendCalls, List.mem_cons, List.not_mem_nil, or_false] at hc
    rcases hc with h | h | h | h | h | h | h | h <;> rw [h] <;> simp [SeedsOk, key]
  · intro e he
    have hc := hmem e he
    simp only [sendCalls, List.mem_cons, List.not_mem_nil, or_false] at hc
    rcases hc with h | h | h | h | h | h | h | h <;> rw [h] <;> simp
  · rw [h2]
    simp only [sendCalls, DrawnOnce, Drawn, toy_draw]
    refine ⟨by simp, by simp, by simp, ?_, by simp, by simp, ?_, by simp, trivial⟩
    all_goals
      intro k hk hold
      first
      | (rcases hk with rfl | hk <;> simp_all [key])
      | (subst hk; simp_all [key])
  · have hfin : fin = sendCalls.zip (Call.replies alice0 sendCalls) := by
      rw [← h2, (C104_serial local_alice0 h1).1, List.zip_map', List.map_id']
    rw [hfin, headers_sent]
    decide +kernel

/-- `C104_once_group`: the message is read once; a second call gives an error. -/
example : ∃ g' fin, Locked (M := SenderKeys) GroupCall.prog (fun c d => c.name ≠ d.name) GroupStore.empty g' [] fin ∧
    (fin.map fun e => e.2.toBool) = [true, true, false] := by
  obtain ⟨g', fin, h1, h2⟩ := C104_any (M := SenderKeys) GroupCall.prog (fun c d => c.name ≠ d.name) GroupStore.empty
    [.process grp grpDist, .decrypt grp (grpMsg 1), .decrypt grp (grpMsg 1)]
  refine ⟨g', fin, h1, ?_⟩
  have hs := (C104_serial_group h1).1
  rw [h2] at hs
  have e : (fin.map fun e => e.2.toBool) = (fin.map Prod.snd).map Except.toBool := by rw [List.map_map]; rfl
  rw [e, ← hs]
  decide +kernel

/-- `C104_prekey_race`: Alice's first message, delivered as from two addresses at once. -/
example : (∃ w', Finished (M := Stores) bob0 [Call.prog (.decryptPkmsg aliceAddr firstPk (key 51) (fun _ => key 52)),
      Call.prog (.decryptPkmsg ("carol", 1) firstPk (key 53) (fun _ => key 54))] w' [.ok (.plaintext [104, 105]), .ok (.plaintext [104, 105])]) ∧
    ∃ e, (SessionCipher.decryptPkmsg ((SessionCipher.decryptPkmsg bob0 aliceAddr firstPk (key 51) (fun _ => key 52)).final bob0) ("carol", 1) firstPk
      (key 53) (fun _ => key 54)).result = .error e :=
  C104_prekey_race bob0 aliceAddr ("carol", 1) firstPk firstPk (key 51) (key 53) (fun _ => key 52) (fun _ => key 54) 31 (by decide)
    (by decide +kernel) (by decide +kernel) (by decide) (by decide +kernel) (fun ⟨_, h, _⟩ => by cases h) (by decide +kernel)
    (fun ⟨_, h, _⟩ => by cases h)

end
end Axolotl
