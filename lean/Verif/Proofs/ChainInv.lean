import Verif.Proofs.Shape
import Verif.Spec.Receive

/-! Receive chains of reachable states are well formed, and how decryption changes them. -/

namespace Axolotl
open SessionState Spec

theorem decode_good {c : ChainS} {k : Bytes} (h : c.senderRatchetKey = some (5 :: k)) (hk : k.length = 32) :
    Curve.decodePoint (c.senderRatchetKey.getD []) = .ok k := by
  rw [h]
  exact decodePoint_serializePoint (k := k) (by omega)

/-- On well-formed chains, the library's lookup is the plain one. -/
theorem findChain_good {key : ECPub} : ∀ {cs : List ChainS} (i : Nat), (∀ c ∈ cs, GoodChain c) →
    (findChain key cs i).map (fun o => o.map Prod.fst) =
      .ok (cs.find? fun c => c.senderRatchetKey == some (5 :: key)) := by
  intro cs
  induction cs with
  | nil => intro i _; rfl
  | cons a cs ih =>
    intro i h
    obtain ⟨k, hk, hl⟩ := (h a (List.mem_cons_self ..)).key
    unfold findChain
    rw [decode_good hk hl, ok_bind, List.find?_cons]
    by_cases hkk : k = key
    · subst hkk
      rw [if_pos rfl, hk]
      simp [Except.map]
    · rw [if_neg hkk, hk]
      have : (some (5 :: k) == some (5 :: key)) = false := by simp [hkk]
      rw [this]
      exact ih (i + 1) fun c hc => h c (List.mem_cons_of_mem _ hc)

theorem recvChain_of_found {s : SessionState} (hs : ∀ c ∈ s.receiverChains, GoodChain c) {key : ECPub} {c : ChainS}
    {j : Nat} (h : getReceiverChain s key = .ok (some (c, j))) : recvChain s key = some c := by
  have := findChain_good (key := key) 0 hs
  unfold getReceiverChain at h
  rw [h] at this
  exact (Except.ok.inj this).symm

theorem recvChain_of_absent {s : SessionState} (hs : ∀ c ∈ s.receiverChains, GoodChain c) {key : ECPub}
    (h : getReceiverChain s key = .ok none) : recvChain s key = none := by
  have := findChain_good (key := key) 0 hs
  unfold getReceiverChain at h
  rw [h] at this
  exact (Except.ok.inj this).symm

theorem found_of_recvChain {s : SessionState} (hs : ∀ c ∈ s.receiverChains, GoodChain c) {key : ECPub} {c : ChainS}
    (h : recvChain s key = some c) : ∃ j, getReceiverChain s key = .ok (some (c, j)) := by
  have := findChain_good (key := key) 0 hs
  unfold recvChain at h
  rw [h] at this
  unfold getReceiverChain
  cases hf : findChain key s.receiverChains 0 with
  | error e => rw [hf] at this; cases this
  | ok o =>
    rw [hf] at this
    cases o with
    | none => cases this
    | some p =>
      obtain ⟨c', j⟩ := p
      have h' := Except.ok.inj this
      simp only [Option.map_some, Option.some.injEq] at h'
      subst h'
      exact ⟨j, rfl⟩

theorem absent_of_recvChain {s : SessionState} (hs : ∀ c ∈ s.receiverChains, GoodChain c) {key : ECPub}
    (h : recvChain s key = none) : getReceiverChain s key = .ok none := by
  have := findChain_good (key := key) 0 hs
  unfold recvChain at h
  rw [h] at this
  unfold getReceiverChain
  cases hf : findChain key s.receiverChains 0 with
  | error e => rw [hf] at this; cases this
  | ok o =>
    rw [hf] at this
    cases o with
    | none => rfl
    | some p => cases this

theorem takeKey_split {n : Nat} : ∀ {l : List MessageKeyS} {e : MessageKeyS} {rest : List MessageKeyS},
    takeKey n l = some (e, rest) →
    ∃ a b, l = a ++ e :: b ∧ rest = a ++ b ∧ e.index.getD 0 = n ∧ ∀ x ∈ a, x.index.getD 0 ≠ n := by
  intro l
  induction l with
  | nil => intro e rest h; simp [takeKey] at h
  | cons a l ih =>
    intro e rest h
    unfold takeKey at h
    split at h
    · rename_i ha
      replace h := Option.some.inj h
      injection h with h1 h2
      subst h1; subst h2
      exact ⟨[], l, rfl, rfl, ha, by simp⟩
    · rename_i ha
      cases ht : takeKey n l with
      | none => rw [ht] at h; cases h
      | some p =>
        obtain ⟨e', rest'⟩ := p
        rw [ht] at h
        replace h := Option.some.inj h
        injection h with h1 h2
        simp only at h1 h2
        subst h1; subst h2
        obtain ⟨x, y, h1, h2, h3, h4⟩ := ih ht
        refine ⟨a :: x, y, by rw [h1]; rfl, by rw [h2]; rfl, h3, ?_⟩
        intro z hz
        rcases List.mem_cons.1 hz with rfl | hz
        · exact ha
        · exact h4 z hz

theorem takeKey_none_iff {n : Nat} {l : List MessageKeyS} :
    takeKey n l = none ↔ n ∉ l.map fun e => e.index.getD 0 := by
  have := SessionCipher.takeKey_any (counter := n) (l := l)
  constructor
  · intro h hn
    rw [h] at this
    obtain ⟨e, he, hi⟩ := List.mem_map.1 hn
    have : (l.any fun e => e.index.getD 0 == n) = true := List.any_eq_true.2 ⟨e, he, by simp [hi]⟩
    simp_all
  · intro h
    cases ht : takeKey n l with
    | none => rfl
    | some p =>
      exfalso
      rw [ht] at this
      obtain ⟨e, he, hi⟩ := List.any_eq_true.1 this
      exact h (List.mem_map.2 ⟨e, he, by simpa using hi⟩)

section
variable [C : Crypto]

theorem skipped_counters (ck : ChainKey) (n : Nat) :
    (skipped ck n).map (fun e => e.index.getD 0) = (List.range n).map fun i => ck.index + i := by
  unfold skipped
  rw [List.map_map]
  apply List.map_congr_left
  intro i _
  simp [entryOf, ChainKey.iter_index]

/-- The two things decryption does to a well-formed chain. -/
theorem goodChain_take {c : ChainS} (hc : GoodChain c) {n : Nat} {e : MessageKeyS} {rest : List MessageKeyS}
    (h : takeKey n c.messageKeys = some (e, rest)) : GoodChain { c with messageKeys := rest } := by
  obtain ⟨a, b, h1, h2, h3, h4⟩ := takeKey_split h
  have hs : (storedCounters { c with messageKeys := rest }).Sublist (storedCounters c) := by
    unfold storedCounters
    simp only
    rw [h1, h2]
    apply List.Sublist.map
    exact (List.append_sublist_append_left a).2 (List.sublist_cons_self e b)
  exact ⟨hc.key, hc.chain, fun n hn => hc.below n (hs.subset hn), hc.distinct.sublist hs⟩

theorem position_chainKeyOf {c : ChainS} {kdf : Kdf} : (chainKeyOf kdf c).index = position c := by
  unfold chainKeyOf position
  cases c.chainKey <;> rfl

theorem key_chainKeyOf {c : ChainS} {kdf : Kdf} : (chainKeyOf kdf c).key = chainKeyBytes c := by
  unfold chainKeyOf chainKeyBytes
  cases c.chainKey <;> rfl

theorem goodChain_ahead {c : ChainS} (hc : GoodChain c) {ck : ChainKey} (hi : ck.index = position c) {n : Nat}
    (hn : ck.index ≤ n) (hb : n + 1 < 2 ^ 32) {k : Bytes} :
    GoodChain { c with messageKeys := c.messageKeys ++ skipped ck (n - ck.index),
                       chainKey := some { key := some k, index := some (n + 1) } } := by
  have hst : ∀ m, m ∈ storedCounters
      { c with messageKeys := c.messageKeys ++ skipped ck (n - ck.index),
               chainKey := some { key := some k, index := some (n + 1) } } →
      m ∈ storedCounters c ∨ (ck.index ≤ m ∧ m < n) := by
    intro m hm
    unfold storedCounters at hm
    simp only [List.map_append, skipped_counters, List.mem_append, List.mem_map, List.mem_range] at hm
    rcases hm with hm | ⟨i, hi, rfl⟩
    · left; exact List.mem_map.2 hm
    · right; omega
  refine ⟨hc.key, ⟨k, n + 1, rfl, hb⟩, ?_, ?_⟩
  · intro m hm
    show m < n + 1
    rcases hst m hm with h | h
    · have := hc.below m h; omega
    · omega
  · show ((c.messageKeys ++ skipped ck (n - ck.index)).map fun e => e.index.getD 0).Nodup
    rw [List.map_append, skipped_counters, List.nodup_append]
    refine ⟨hc.distinct, ?_, ?_⟩
    · rw [← List.range'_eq_map_range]; exact List.nodup_range'
    · intro a ha b hb
      obtain ⟨i, _, rfl⟩ := List.mem_map.1 hb
      have := hc.below a ha
      omega

omit C in
theorem keys_set {cs : List ChainS} {j : Nat} {c c' : ChainS} (h : cs[j]? = some c)
    (hk : c'.senderRatchetKey = c.senderRatchetKey) :
    (cs.set j c').map (fun c => c.senderRatchetKey) = cs.map fun c => c.senderRatchetKey := by
  rw [List.map_set]
  obtain ⟨hj, hj'⟩ := List.getElem?_eq_some_iff.1 h
  rw [hk, ← hj']
  have : (cs[j]).senderRatchetKey = (cs.map fun c => c.senderRatchetKey)[j]'(by simpa using hj) := by simp
  rw [this, List.set_getElem_self]

omit C in
theorem goodChains_set {s : SessionState} (hs : GoodChains s) {j : Nat} {c c' : ChainS}
    (h : s.receiverChains[j]? = some c) (hk : c'.senderRatchetKey = c.senderRatchetKey) (hc' : GoodChain c') :
    GoodChains (setChainAt s j c') := by
  refine ⟨?_, ?_⟩
  · intro x hx
    rcases List.mem_or_eq_of_mem_set hx with h1 | rfl
    · exact hs.good x h1
    · exact hc'
  · show ((s.receiverChains.set j c').map fun c => c.senderRatchetKey).Nodup
    rw [keys_set h hk]
    exact hs.keys

omit C in
theorem goodChain_mkChain {eph : ECPub} {ck : ChainKey} (he : eph.length = 32) (hi : ck.index < 2 ^ 32) :
    GoodChain (mkChain eph ck) :=
  ⟨⟨eph, rfl, he⟩, ⟨_, _, rfl, hi⟩, by intro n hn; simp [storedCounters, mkChain] at hn,
    by simp [storedCounters, mkChain]⟩

omit C in
theorem goodChains_push {s : SessionState} (hs : GoodChains s) {eph : ECPub} {ck : ChainKey} (he : eph.length = 32)
    (hi : ck.index < 2 ^ 32) (ha : getReceiverChain s eph = .ok none) {s' : SessionState}
    (h' : s'.receiverChains = pushChain s.receiverChains (mkChain eph ck)) : GoodChains s' := by
  have habs := recvChain_of_absent hs.good ha
  unfold recvChain at habs
  rw [List.find?_eq_none] at habs
  have hall : GoodChains { s with receiverChains := s.receiverChains ++ [mkChain eph ck] } := by
    refine ⟨?_, ?_⟩
    · intro c hc
      rcases List.mem_append.1 hc with h | h
      · exact hs.good c h
      · rw [List.mem_singleton.1 h]; exact goodChain_mkChain he hi
    · simp only [List.map_append, List.map_cons, List.map_nil]
      rw [List.nodup_append]
      refine ⟨hs.keys, by simp, ?_⟩
      intro a ha b hb
      obtain ⟨c, hc, rfl⟩ := List.mem_map.1 ha
      rw [List.mem_singleton.1 hb]
      have := habs c hc
      intro he
      apply this
      rw [he]
      simp [mkChain, Curve.serializePoint, Curve.DJB_TYPE]
  have hsub : (s'.receiverChains).Sublist (s.receiverChains ++ [mkChain eph ck]) := by
    rw [h']
    unfold pushChain
    split
    · exact List.drop_sublist _ _
    · exact List.Sublist.refl _
  exact ⟨fun c hc => hall.good c (hsub.subset hc), hall.keys.sublist (hsub.map _)⟩

omit C in
theorem goodChains_congr {s s' : SessionState} (h : s'.receiverChains = s.receiverChains) (hs : GoodChains s) :
    GoodChains s' := ⟨by rw [h]; exact hs.good, by rw [h]; exact hs.keys⟩

theorem dh_of_createChain {r : RootKey} {p : ECPub} {k : KeyPair} {x : RootKey × ChainKey}
    (h : r.createChain p k = .ok x) : ∃ sec, C.dh k.priv p = some sec := by
  obtain ⟨sec, hs, _⟩ := RootKey.createChain_ok h
  refine ⟨sec, ?_⟩
  unfold Curve.calculateAgreement at hs
  split at hs
  · rename_i x hx; rw [hx]; exact congrArg some (Except.ok.inj hs)
  · cases hs

/-- The chains after a successful decryption, before and after looking at the message counter. -/
theorem gocck_good (hC : C.Lawful) {s : SessionState} (hs : GoodChains s) {eph : ECPub} {seed : Bytes} {ck : ChainKey}
    {s1 : SessionState} (h : SessionCipher.getOrCreateChainKey s eph seed = .ok (ck, s1)) :
    GoodChains s1 ∧ ∃ c j, getReceiverChain s1 eph = .ok (some (c, j)) ∧ ck.index = position c ∧
      ck.key = chainKeyBytes c ∧
      ((s1 = s ∧ recvChain s eph = some c) ∨
       (recvChain s eph = none ∧ position c = 0 ∧ c.messageKeys = [] ∧
        s1.receiverChains = pushChain s.receiverChains c ∧ c.senderRatchetKey = some (5 :: eph))) := by
  rcases SessionCipher.gocck_ok h with ⟨c, j, kdf, hf, _, hck, rfl⟩ | ⟨kdf, our, rk1, rk2, sck, hf, _, _, h1, h2, rfl⟩
  · exact ⟨hs, c, j, hf, by rw [hck, position_chainKeyOf], by rw [hck, key_chainKeyOf],
      Or.inl ⟨rfl, recvChain_of_found hs.good hf⟩⟩
  · obtain ⟨sec, hsec⟩ := dh_of_createChain h1
    have he := (hC.dh_size _ _ _ hsec).2
    obtain ⟨_, _, _, _, hi⟩ := RootKey.createChain_ok h1
    simp only at hi
    obtain ⟨j, hj⟩ := findChain_pushChain (ck := ck) (by omega) hf
    refine ⟨goodChains_push hs he (by omega) hf rfl, mkChain eph ck, j, hj, rfl, rfl,
      Or.inr ⟨recvChain_of_absent hs.good hf, hi, rfl, rfl, rfl⟩⟩

theorem goodChains_dwss (hC : C.Lawful) {s : SessionState} (hs : GoodChains s) {m : WhisperMessage} {seed : Bytes}
    {pt : Bytes} {s' : SessionState} (h : SessionCipher.decryptWithSessionState s m seed = .ok (pt, s')) :
    GoodChains s' := by
  obtain ⟨_, _, ck, s1, mk, s2, _, _, h1, h2, _, _, _, _, h5⟩ := SessionCipher.dwss_ok h
  obtain ⟨hs1, c, j, hf, hi, _, _⟩ := gocck_good hC hs h1
  obtain ⟨c2, j2, hf2, h2⟩ := SessionCipher.gocmk_ok h2
  rw [hf] at hf2
  have e := Option.some.inj (Except.ok.inj hf2)
  injection e with e1 e2
  subst e1; subst e2
  have hj := (findChain_some hf).2.1
  rw [Nat.sub_zero] at hj
  have hc := hs1.good c (List.mem_of_getElem? hj)
  subst h5
  rcases h2 with ⟨_, e, rest, ht, _, rfl⟩ | ⟨hn, _, hb, _, c', rfl, rfl⟩
  · have := goodChains_set (c' := { c with messageKeys := rest }) hs1 hj rfl (goodChain_take hc ht)
    exact goodChains_congr (s := setChainAt s1 j _) rfl this
  · have hg := goodChain_ahead hc hi hn hb (k := (ck.iter (m.counter - ck.index + 1)).key)
    have := goodChains_set hs1 hj (by rfl) hg
    exact goodChains_congr (s := setChainAt s1 j _) rfl this

/-- Receive chains of every reachable state are well formed. -/
theorem goodChains_inv (hC : C.Lawful) : StateInv GoodChains where
  empty := ⟨by simp, by simp⟩
  created := by
    intro s h
    obtain ⟨_, _, _, _, _, _, h, _⟩ := created_shape h
    rcases h with h | ⟨eph, ck, h, k, sec, hd⟩
    · exact ⟨by rw [h]; simp, by rw [h]; simp⟩
    · refine ⟨?_, by rw [h]; simp⟩
      rw [h]
      intro c hc
      rw [List.mem_singleton.1 hc]
      exact goodChain_mkChain (hC.dh_size _ _ _ hd).2 (by simp)
  encrypt := by
    intro s pt c s' hs h
    exact goodChains_congr (ews_same h).2.2.2.1 hs
  decrypt := fun s m seed pt s' hs h => goodChains_dwss hC hs h
  pending := by
    intro s q a b c s' hs h
    rw [(setPending_ok h).2]; exact ⟨hs.good, hs.keys⟩

/-! ## How decryption changes the chain of a key -/

omit C in
theorem recvChain_congr {s s' : SessionState} (h : s'.receiverChains = s.receiverChains) (key : ECPub) :
    recvChain s' key = recvChain s key := by
  unfold recvChain
  rw [h]

omit C in
/-- Replacing the chain of one key. -/
theorem recvChain_set {s : SessionState} (hs : GoodChains s) {eph : ECPub} {j : Nat} {c c' : ChainS}
    (h : getReceiverChain s eph = .ok (some (c, j))) (hk : c'.senderRatchetKey = c.senderRatchetKey)
    (hc' : GoodChain c') :
    recvChain (setChainAt s j c') eph = some c' ∧
    ∀ key, key ≠ eph → recvChain (setChainAt s j c') key = recvChain s key := by
  have hj := findChain_some h
  rw [Nat.sub_zero] at hj
  have hgood := goodChains_set hs hj.2.1 hk hc'
  refine ⟨recvChain_of_found (j := j) hgood.good (findChain_set (c' := c') h hk), ?_⟩
  intro key hne
  have := findChain_set_ne (key := key) (i := 0) hj.2.1 hk
    (by rw [hj.2.2]; intro he; exact hne (Except.ok.inj he).symm)
  have h1 := findChain_good (key := key) 0 hgood.good
  have h2 := findChain_good (key := key) 0 hs.good
  unfold recvChain
  apply Except.ok.inj (ε := Err)
  rw [← h1, ← h2]
  exact congrArg (Except.map fun o => o.map Prod.fst) this

omit C in
/-- Adding a chain: other keys keep theirs, except the oldest when there are five. -/
theorem recvChain_push {s s' : SessionState} (hs : GoodChains s) {eph : ECPub} {c : ChainS}
    (h : s'.receiverChains = pushChain s.receiverChains c) (hc : c.senderRatchetKey = some (5 :: eph)) :
    ∀ key, key ≠ eph → recvChain s' key = recvChain s key ∨ recvChain s' key = none := by
  intro key hne
  have hno : (c.senderRatchetKey == some (5 :: key)) = false := by rw [hc]; simp [Ne.symm hne]
  unfold recvChain
  rw [h]
  unfold pushChain
  split
  · cases hcs : s.receiverChains with
    | nil => right; rfl
    | cons a cs =>
      have hkeys := hs.keys
      rw [hcs] at hkeys
      simp only [List.cons_append, List.drop_succ_cons, List.drop_zero]
      rw [List.find?_append, List.find?_cons, List.find?_cons, hno]
      simp only [List.find?_nil, Option.or_none]
      by_cases ha : (a.senderRatchetKey == some (5 :: key)) = true
      · right
        rw [List.find?_eq_none]
        intro x hx hx'
        simp only [List.map_cons, List.nodup_cons] at hkeys
        apply hkeys.1
        rw [List.mem_map]
        refine ⟨x, hx, ?_⟩
        rw [beq_iff_eq] at ha hx'
        rw [ha, hx']
      · left
        simp only [Bool.not_eq_true] at ha
        rw [ha]
  · left
    rw [List.find?_append, List.find?_cons, hno]
    simp

/-- What a successful decryption did to the receive chains. -/
theorem dwss_view (hC : C.Lawful) {s : SessionState} (hs : GoodChains s) {m : WhisperMessage} {seed : Bytes}
    {pt : Bytes} {s' : SessionState} (h : SessionCipher.decryptWithSessionState s m seed = .ok (pt, s')) :
    ∃ c c', recvChain s' m.senderRatchetKey = some c' ∧
      (recvChain s m.senderRatchetKey = some c ∨
        (recvChain s m.senderRatchetKey = none ∧ position c = 0 ∧ c.messageKeys = [])) ∧
      ((m.counter < position c ∧ position c' = position c ∧
          ∃ a b e, c.messageKeys = a ++ e :: b ∧ c'.messageKeys = a ++ b ∧ e.index.getD 0 = m.counter) ∨
       (position c ≤ m.counter ∧ m.counter ≤ position c + 2000 ∧ position c' = m.counter + 1 ∧
          ∃ ck : ChainKey, ck.index = position c ∧ ck.key = chainKeyBytes c ∧
            c'.messageKeys = c.messageKeys ++ skipped ck (m.counter - position c))) ∧
      ∀ key, key ≠ m.senderRatchetKey → recvChain s' key = recvChain s key ∨ recvChain s' key = none := by
  obtain ⟨_, _, ck, s1, mk, s2, _, _, h1, h2, _, _, _, _, h5⟩ := SessionCipher.dwss_ok h
  obtain ⟨hs1, c, j, hf, hi, hkey, hwas⟩ := gocck_good hC hs h1
  obtain ⟨c2, j2, hf2, h2⟩ := SessionCipher.gocmk_ok h2
  rw [hf] at hf2
  have e := Option.some.inj (Except.ok.inj hf2)
  injection e with e1 e2
  subst e1; subst e2
  have hj := (findChain_some hf).2.1
  rw [Nat.sub_zero] at hj
  have hc := hs1.good c (List.mem_of_getElem? hj)
  subst h5
  have hold : recvChain s m.senderRatchetKey = some c ∨
        (recvChain s m.senderRatchetKey = none ∧ position c = 0 ∧ c.messageKeys = []) := by
    rcases hwas with ⟨_, h⟩ | ⟨h, h', h'', _⟩
    · exact Or.inl h
    · exact Or.inr ⟨h, h', h''⟩
  have hothers : ∀ key, key ≠ m.senderRatchetKey → recvChain s1 key = recvChain s key ∨ recvChain s1 key = none := by
    rcases hwas with ⟨rfl, h⟩ | ⟨_, _, _, h, h'⟩
    · intro key _; exact Or.inl rfl
    · exact recvChain_push hs h h'
  rcases h2 with ⟨hlt, e, rest, ht, _, rfl⟩ | ⟨hn, hw, hb, _, c', hc', rfl⟩
  · obtain ⟨a, b, t1, t2, t3, _⟩ := takeKey_split ht
    obtain ⟨v1, v2⟩ := recvChain_set (c' := { c with messageKeys := rest }) hs1 hf rfl (goodChain_take hc ht)
    refine ⟨c, { c with messageKeys := rest }, v1, hold,
      Or.inl ⟨by omega, rfl, a, b, e, t1, t2, t3⟩, ?_⟩
    intro key hne
    have := v2 key hne
    rw [show recvChain (clearUnacknowledgedPreKeyMessage (setChainAt s1 j _)) key = recvChain (setChainAt s1 j _) key
      from rfl, this]
    exact hothers key hne
  · have hg := goodChain_ahead hc hi hn hb (k := (ck.iter (m.counter - ck.index + 1)).key)
    rw [← hc'] at hg
    obtain ⟨v1, v2⟩ := recvChain_set (c' := c') hs1 hf (by rw [hc']) hg
    refine ⟨c, c', v1, hold, Or.inr ⟨by omega, by omega, by rw [hc']; rfl, ck, hi, hkey, by rw [hc', hi]⟩, ?_⟩
    intro key hne
    have := v2 key hne
    rw [show recvChain (clearUnacknowledgedPreKeyMessage (setChainAt s1 j _)) key = recvChain (setChainAt s1 j _) key
      from rfl, this]
    exact hothers key hne

end
end Axolotl
