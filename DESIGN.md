# Design

A Lean 4 model of the python-axolotl library (`/repo/axolotl`) and proofs of the properties in
`properties.jsonl`.  `MANIFEST.json` maps each property to the theorems.

## Layout

| Path (under `lean/Verif/`) | Content |
| --- | --- |
| `Model/*.lean` | The model, function by function; each definition cites the Python lines. |
| `Spec/*.lean` | Small specifications that do not use model helpers (RFC 5869, "delivered once", ...). |
| `Real/` | Reference implementations of the primitives, the proof that they are lawful, and the fixed values of the project's tests. |
| `Toy.lean` | A concrete lawful instance of the crypto interface for non-vacuity examples and counter-examples. |
| `Example.lean` | A concrete conversation between two parties on the toy instance, used by the `example`s. |
| `Proofs/*.lean` | Helper lemmas. |
| `Props/*.lean` | The property theorems `C01_...`, with `example`s showing their hypotheses are met. |

## Trusted base

* Lean's kernel, version 4.33.0.  Theorems depend at most on the axioms `propext`,
  `Classical.choice` and `Quot.sound`.  There is no `sorry`, no `native_decide`/`bv_decide`, no own axiom.
* The hand translation from Python to the definitions in `Model/` (nothing is extracted mechanically).
* External libraries are parameters (`class Crypto`): HMAC-SHA256, X25519, XEdDSA, and the AES block
  function.  Nothing is assumed about them except in theorems that take the hypothesis
  `Crypto.Lawful` (output sizes, Diffie-Hellman commutativity on 32-byte keys, keys of exactly that size accepted, signatures made with generated keys verify and only 64-byte strings can, signing works only with 32-byte private keys,
  AES blocks have 16 bytes and AES decrypts what it encrypts).  `Verif/Real/` proves `Lawful` of reference implementations of these four (`real`, `real_lawful`, C77), so the hypothesis holds of the primitives the library is used with; `Toy.lean` has a small instance for examples that must be computed.
* What is trusted about the primitives is therefore that `Verif/Real/` computes what `hmac`/`hashlib`, `cryptography` and `axolotl_curve25519` compute.  The sources of these are not in the repository; the definitions follow FIPS 180-4, RFC 2104, FIPS 197, RFC 7748 and the structure of the extension's signature code.  `Real/Vectors.lean` evaluates the model with `real` on every fixed value in the project's tests (three HKDF values, a chain key, a root key, a session, an agreement, a signature), and on values printed in FIPS 197, FIPS 180-4 and RFC 4231.  This found one difference: the extension's scalar multiplication does not set the five fixed bits of the scalar as RFC 7748 does (the private key in test_rootkey.py does not have them set, and only the multiple by the number as it stands gives the public key and the result in that test); `generatePrivateKey` sets them.  Signing is modelled for keys below 2^255, as all generated keys are; larger ones are outside what the extension's code supports.
* Protobuf: the wire format (varints, tags, wire types, merging of duplicate sub-messages, unknown
  fields, groups) is modelled in `Model/Wire.lean` from the protobuf specification and the field
  tables of the two `.proto` files; the `protobuf` package itself is not in the repository. The
  nesting limit some builds of the package have (100 groups inside each other) is not modelled.
  CBC mode and PKCS7 are modelled concretely in `Model/Aes.lean`.

### Modelled

`util/byteutil.py`, `util/medium.py`, `util/keyhelper.py`, `kdf/*`, `ecc/*`, `identitykey*.py`,
`protocol/*`, `ratchet/*`, `state/sessionstate.py`, `state/sessionrecord.py`, `state/*prekey*.py`,
`sessioncipher.py`, `sessionbuilder.py`, `groups/**`, `axolotladdress.py`, and the in-memory stores
of `tests/` as the reference behaviour of the store interfaces.

### Not modelled

* Logging, exception messages and `__str__` methods other than the two used as store keys.
* Python 2 branches (the model follows Python 3), object identity, `bytes` vs `bytearray`
  (except where it makes a call fail: C82).
* Arguments of the wrong Python type.
* Probability and computational hardness: no theorem says an adversary cannot forge or decrypt.
  Randomness is an explicit argument, so theorems hold for every value of it.
* `fingerprint` helpers, `curve` key types other than `DJB_TYPE` (there are none), `fixed64` overflow on
  timestamps beyond the range check.
* Unknown protobuf fields are dropped on parsing; the real library would write them back.
* Store implementations that lose writes without raising, or share objects between addresses. (Stores that raise are in C69; stores that return the object they keep are in C71.)

## Modelling decisions

* A Python call that may raise is a value in `Except Err`.  An API call that touches stores returns an
  `Outcome`: the list of store writes in program order, and the result.  The stores after the call are
  the fold of the writes, crash states are folds of prefixes.  No modelled call reads a cell it has
  written, so reading from the initial stores is exact.
* Mutating methods return the new value.  Python copies a session state before trying to decrypt with it
  (`SessionState(other)`), so value semantics is faithful: a failed attempt drops the copy.
* Loops are structural recursions; no fuel appears except in the protobuf decoder, where the input
  length bounds the number of fields, and varints, where ten bytes are the format's own limit.

## Properties

"Lawful" means the theorem takes `Crypto.Lawful` as hypothesis.

| Id | How it is modelled and proved |
| --- | --- |
| C01 | `AES.encrypt/decrypt`; induction over blocks, PKCS7 case analysis; Lawful. |
| C02–C05 | `create`/`parse` of each message; round-trip of the wire format by induction. C03 is false for an absent prekey id: counterexample and `_partial`. |
| C06, C07 | Round-trip of nested protobuf structures under in-range predicates that the library maintains. |
| C08 | Case analysis of every error path. False for session, prekey and key-exchange messages (protobuf `DecodeError`, `IndexError` escape): counterexamples; exact set of escaping exceptions proved. |
| C09 | Case analysis on the version byte for arbitrary bodies. |
| C10 | False beyond 32-byte keys: trailing bytes are ignored and short keys accepted; counterexamples and `_partial`. |
| C11 | Spec: RFC 5869 from `hmac`. Equality up to 127 blocks by induction; false from block 128 on (`chr(i).encode()` is two bytes): counterexample with the toy hash. |
| C12, C13 | Both sides' secrets by `dh_comm`; then composition with wire and cipher round-trips; Lawful. C13 is false for bundles without a one-time prekey (the receiver reads prekey id 0 and raises `InvalidKeyId`): counterexample and `_partial`. |
| C14 | Antisymmetry of the signed-word comparison; then as C12; Lawful. |
| C15 | Invariant over histories of calls: sent pairs are below the current counter of the current chain or belong to other ratchet keys. False in full: a replayed key exchange answer restores an old session; `_partial` for parties that draw new ratchet keys and none of whose key exchange requests is answered twice (in particular for parties that send none). |
| C16, C17 | Direct, over all states. |
| C18 | False: the identity is saved before the MAC is checked; counterexample; `_partial` for sessions and prekeys. |
| C19 | `Spec/Receive.lean`: a session followed through calls (`KeptSession`), positions and stored counters of its receive chains. Invariant "consumed" preserved by all operations. |
| C20 | `Spec/Schedule.lean`: one party's ciphertexts delivered in any order, with repeats. The verdicts are exactly those of a set of seen positions; induction over schedules; Lawful. |
| C21 | Direct, with exact set of stored keys after the call. |
| C22 | Invariant over all reachable worlds. |
| C23 | Per-message and per-call bound of 2000 proved. The only bound for a chain is the counter width: fewer than 2^32 keys (`C23_bound`), and a peer that skips can make it store 2000·N keys for every N that the counter allows (`C23_grows`, `C23_no_small_bound`). |
| C24–C31 | Decision logic over all worlds and messages. |
| C32 | Prefixes of the write list. The last clause is false (prekey stays after a crash between the two writes): counterexample; the rest `_partial`. |
| C33 | False: load/load/store/store schedule; theorem exhibiting the reuse for every session. `_partial`: over all schedules of two calls, headers differ exactly when the calls do not overlap. |
| C34–C36 | Direct. |
| C37 | `Spec/Conversation.lean`: two parties and a network that reorders, drops and duplicates. Two-party ratchet invariant, induction over schedules; Lawful. |
| C38, C40, C43 | `Spec/Group.lean`: histories of group calls on one store. Step relation on sender-key states (`Proofs/GroupSteps.lean`), invariants by induction over histories; C43's no-rewind as a bisimulation. |
| C39 | Direct. `AssertionError` on the empty byte string: counterexample; `_partial` for non-empty input. |
| C41 | Sender and member histories, any schedule of deliveries mixed with other calls. The member's other calls must not accept bytes for that key id (`NoForgery`): unforgeability cannot be proved of abstract signatures. |
| C42 | False (the test subtracts the wrong way round): theorem that any distance is accepted. |
| C44 | Direct. |
| C45 | False: for every `N` a record with `N` states. |
| C46 | Hash part proved; injectivity of the serialised name false: counterexample; `_partial` if the group ids, or the sender names, contain no colon. |
| C47, C48 | Arithmetic; C48 signature part Lawful. |
| C49 | Direct. |
| C52 | Split at the last `;`. |
| C51 | State transformation lemmas relating two runs with different seeds (`Proofs/SeedFree.lean`); Lawful. |
| C53 | `Spec/Format.lean` writes the formats with literal tag bytes and LEB128; unfolding of the constructors; Lawful. Version-3 sessions, plaintexts below 2^62 bytes. |
| C54 | CBC stated block by block with indices; induction over blocks; keys from the schedule in `Spec/Session.lean`, `Spec/Group.lean`; Lawful. |
| C50 | Refinement between byte stores and record stores over histories. Assumes prekeys made by their constructors and no stored record of 2^64 bytes or more. |
| C55 | `Spec/Ratchet.lean` gives the transition as an inductive relation on stored values (`Accepts`), without the model's setters; both directions: success implies `Accepts` (for the current or an archived state), and `Accepts` of the current state implies success. Reachable stores; Lawful. |
| C56 | Same file: the initial states as literal values, `Exchanged` for the role decided by the order of base keys as eight signed big-endian words. Unfolding of setup; reachable stores (only for the bound on archived states). |
| C57 | Invariant over all calls on every stored state (both identities) and every pending exchange; the identity saved by a call is the one its session carries. Does not survive a crash inside `processPreKeyBundle`, which stores the session before the identity (`C57_crash_false`). |
| C58 | `Spec/Verdict.lean` lists every outcome of one state (`Verdict`) and of a record (`RecordVerdict`); the code's outcome equals it in both directions, so the relation is total and single-valued. Needs the invariants of reachable states (`Sane`). Reachable stores; Lawful. |
| C59 | `Spec/Calls.lean` lists every outcome of every session call (`Does`) and of a history (`Runs`); `c.run w = o ↔ Does w c o` in every reachable store, and a history runs as the list says. `Sized` records what Python guarantees: plaintexts below 2^62 bytes, 32 random bytes per key. Our own identity key has 32 bytes. Lawful. |
| C60 | `Spec/Grammar.lean`: the protobuf wire format as inductive relations on byte strings, and what each message class reads a string as, case by case. The fuel-driven parser is proved equal to the grammar (`decFields_iff`) by induction on the grammar and on the fuel; `Reads… bs r ↔ parse bs = r`, so the relations are total and single-valued. |
| C61 | `Spec/GroupCalls.lean` lists every outcome of every group call (`GroupDoes`) and of a history (`GroupRuns`); `c.run g = o ↔ GroupDoes g c o` in every store reached from the empty one. Invariant: the numbers of each state fit the storage format, its signing key can be read, its chain key has a sane size. `GroupSized` records what Python guarantees. Lawful. |
| C62 | `Spec/Storage.lean`: the bytes of each record with literal tags (`stored…`), and what every byte string is read as (`Reads…`: last values, merged and repeated sub-messages, over the grammar of C60). Writing is proved equal for records whose numbers fit their fields and whose size is below 2^64; reading is an equivalence for all byte strings. |
| C63 | `Spec/Application.lean`: histories whose steps are calls or store operations of the application (`StoreOp`, `Step`). Every store operation keeps or deletes a session, so the invariants of C15, C22, C23, C55, C57 carry over; the history relation of C59 and the byte stores of C50 are extended by the new steps. Putting back a saved session is not a step: `C63_restored_session` shows what it breaks. Lawful where C59 and C15 are. |
| C64 | Invariant `SlimState` (sizes of all byte strings in a state), preserved by every case of `Does`: every public key in a state went through a successful agreement, so it has 32 bytes. Sizes of the bytes of C62 by arithmetic; lower bound and growth from C23. Lawful. |
| C65 | `Model/InMemory.lean`: the stores under axolotl/tests, method by method, a dictionary as a list in insertion order (Python 3.7 or later; under Python 2 `keys()` copies, and `deleteAllSessions` works). `Spec/InMemory.lean`: the relation `Amounts` turns a history on the store into one of C63; it is total and unique. Dictionary lemmas give one step, induction the history, C64 the records. `C65_deleteAll_false` shows the session that stays. Lawful. |
| C66 | `Spec/MessageSize.lean`: lengths as arithmetic, `numberSize n = log2 n / 7 + 1`. Invariant `OwnKeys`: every public key of our own in a state has 32 bytes (prekeys made by the constructors, as in C50). Then the bytes of C53/C58 are counted. `C66_overhead_false` holds for every session, not for one witness. Lawful. |
| C67 | `Spec/GroupMemory.lean`: a group call on the store in memory is load, work, store. Invariant `SlimSender`: 32-byte chain key and seeds, a 33-byte public key, no more seeds than the iteration reached. The bytes of C62 are then counted state by state; `C67_one_message` uses C42. The store in memory is related to the store of records by the dictionary lemmas of C65 and the round trip of C07, whose size condition C67_growth gives. Lawful. |
| C68 | `Model/Steps.lean` writes every call as a program of single store accesses in the order of the Python code; `Spec/Interleave.lean` lets any thread make the next access. Refinement: a program alone does what the function of the model does (`C68_alone`), so the rest of the model is the sequential case. General theory of programs over any stores: footprints, commutation of independent changes, programs that ask before they change (snapshot runs), programs settled at one moment. C68_serial_false shows that the provision cannot be dropped. C33 is the case of two `encrypt` in full detail. |
| C69 | `Spec/Fault.lean`: a run of a program of C68 in which one access raises. Since every call makes its loads before its changes (`prog_asksFirst`), the changes left behind are a prefix; the rest follows from C32 and from counting the writes of each call. The exception is assumed to be of a class the library does not catch, which holds for every class but its own InvalidKey and InvalidKeyId. |
| C70 | `Spec/Sessions.lean`: any number of sessions, started by either party, each with its ghost history; the invariant of C37 (one conversation) for each of them, over the state with its base key, wherever that state is in the record. `C70_delivery` supposes that the session has not been dropped (`C70_survives`) and that the other sessions refuse the message (`RefusedElsewhere`); `C70_refused` reduces the latter to an unforgeability statement about single MACs. Only bundles with a one-time prekey are covered, since the others fail (C13). Lawful. |
| C71 | `Model/Live.lean` writes the calls as programs that change the record object step by step (a state monad in which an exception keeps the changes made so far), in the order of the Python code; `fresh` is the object's attribute, true until it is reloaded from bytes. Refinement: each step of the program against the function of the rest of the model, which returns a new record (`Sets`, `Makes`, `Agrees` in `Proofs/Live.lean`); induction over histories up to the attribute. `C71_store_matters`, `C71_failure_matters` and `C71_group_failure_matters` show what does differ. |
| C72 | `Spec/Room.lean`: members with a store each and a log of calls; `RoomAllowed` is the environment: only the owner of a name creates its key, announcements are processed as they were made (they travel in pairwise sessions), and unforgeability as a condition on the run: bytes that are accepted have the body of a message that was sent. Invariant per name (`RoomInv`): either nothing has happened, or there is one sender key `d0` such that the owner's state is `d0` advanced by the number of messages sent, the `i`-th message is genuine at iteration `i`, every announcement describes `d0` at its number, and each member either holds nothing or holds the chain from its first announcement with exactly the unread keys. The member part reuses `MemberHolds` of C41. |
| C73 | `Model/Helpers.lean`, `Spec/Helpers.lean`: `HexOf` relates text and bytes digit by digit (digits given by two tables, the model by character ranges); `bigEndian` is the value of bytes; `Content`/`NoContent` say what an argument of `combine` stands for. |
| C74 | False as stated (`C74_false`): the first byte of the array must be the type byte too. `C74_exact`/`C74_errors` give the behaviour for every non-negative offset, `C74_offset_partial` the case where the array begins with the type byte, `C74_minus_one` the odd case of offset -1. |
| C75 | `SmallerKey` of `Spec/Ratchet.lean` (first differing signed word). |
| C76 | Versions and flags by division and remainder; parsing by the grammar of C60. |
| C77 | `Verif/Real/`: reference implementations, evaluated by the kernel. Primality by Pratt certificates; the Montgomery ladder and the point arithmetic of the signatures against the group law of Mathlib's Weierstrass curves; the order of the base point by computing that multiple; then the signature equation. `Spec.curve`, `Spec.Stands` in `Props/Primitives.lean` state the result with Mathlib's notions only. Keys received that are not on the curve (but on its twist) are not covered by `C77_received`. |
| C78 | False (`C78_false`): the key 0 is accepted and gives the secret 0 (`C78_zero`), so a first message with two such keys makes a session without any secret (`C78_first_message`). For keys that were generated it holds, exactly (`C78_honest_partial`). |
| C79 | The proofs behind C37 carry the key derivation as a parameter (`Epoch v`, `Party`, `Ghost v`), so they serve both versions; `Spec.Start2` is a matching pair of version-2 states. Findings: the MAC of version 2 does not cover the identities (`C79_unbound`), and if the setup message of a version-2 session is still outstanding, `encrypt` makes prekey messages that every reader refuses (`C79_setup_lost`). |
| C80 | Two runs on stores that differ in one secret (`Spec/Erasure.lean`) end in the same stores if the values derived from the secret that must be kept agree; from the exact transitions of C55 and C61. For a whole conversation from the invariant of C37. The session read with must be the current one and nothing archived (`storing`): archived states keep their keys until forty newer ones are there. Finding: the state archived when a key exchange of our own completes still has the pending exchange with the private base key, from which the new session can be computed again (`C80_exchange_kept`). |
| C81 | The identity is written before the inner message is looked at (`decryptPkmsg_cases`), the key agreement cannot fail on 32-byte keys, so the write happens; then C57. `Props/Findings.lean` also turns the single counterexamples to C11, C13 and C15 into theorems about all runs of their kind: beyond 4064 bytes a right output of the key derivation is an HMAC collision (and with SHA-256 itself 4096 bytes are wrong), after a bundle without one-time prekey every message ever sent is refused, and every answer to a key exchange that is accepted twice gives the same keys again. |
| C82 | `Model/Objects.lean` adds to a distribution message whether its chain key is a `bytearray`; only `create` makes such an object. Trusted: a protobuf `bytes` field raises `TypeError` when a `bytearray` is assigned (the constructor of the message converts with `bytes(...)` for that reason). |
| C83 | The builders as records of optional keys, the calls as data; the fold over the calls has in each field the last value passed (`lastSet`, reverse induction). The library's uses, written call by call, are equal to the functions of the model. |
| C84 | A finding, stated for all stores. The session that the made-up base key sets up does not depend on the record (`processV3_empty`), so it refuses the message as it does without our record; the state that used to be current is now archived and accepts it (`tryPrevious_decides`). |
| C85 | A finding. Setting up a session as recipient uses the base key only through agreements (`bobSecrets_same`) and remembers its bytes, and deciding on a message does not look at the remembered bytes (`accepts_base`), so the set-up state accepts the message again. `C85_top_bit` is about the X25519 of `Verif/Real`, which (like `curve25519-donna`'s `fexpand`) drops the highest bit; that this is what the installed extension does is part of the trusted base. |
| C86 | `Verif/Spec/Active.lean` adds attacker deliveries to the conversations of C37. That MACs cannot be forged is a hypothesis on each delivered message (`Unforged`, in terms of the MAC keys that a state offers, `MacKey`), not an axiom; it is decided by computation for the example run (`attackB`). The hypothesis `setup` asks for the same base key byte for byte: a setup message with its base key rewritten (C85) is outside C86, and C85_denial shows what it does. The attacker may use the prekey ids of others (C84), so prekeys may be lost; what is kept is the conversation. |
| C87 | `Verif/Spec/System.lean`: the parties are any type with decidable equality, each has one `World`. A conversation step changes the world of one party; the proof shows that every other conversation of this party sees it as an `other` step of C37 (`Separate`, `Builds`). Two parties may also have several conversations under different addresses (devices). A conversation starts with calls that decrypt no prekey message. |
| C88 | `Verif/Spec/Society.lean`: `SysStep` of C87 (now with an event saying what was sent or received) and the group calls of C72 interleaved. `enc` is any function. That nobody forges signatures is the condition of `RoomAllowed` on `decrypt` and stays an assumption. |
| C89 | `Verif/Spec/Secrecy.lean`: terms, what can be derived from terms, and which terms a session state holds (`theft` reads the state by its public keys and counters). `Describes` says that the terms evaluate to the real bytes of the states and messages, so the symbolic statement is about this code's key schedule. Symbolic means: different terms are taken to be independent, except that an agreement can be computed from either private key; collisions and guessing are outside. The attacker only listens after the theft (C82-C88 treat active ones). Archived states are not counted as stolen; after a key exchange such a state keeps the private base key (`C80_exchange_kept`), which part (4) shows to matter. |
| C90 | `Verif/Spec/GroupSecrecy.lean`: terms for one sender-key name, `groupTheft` reads the stolen records by the counters in them, `Exposes` says which messages they open in terms of the log only (announcements taken up, messages read). `GroupDescribes` says that the terms evaluate to the real bytes. Executions are those of C72 (`RoomReach`): announcements arrive as made and nobody forges signatures; what the attacker gets is passive. Forward secrecy in its plain form is false: a member who processes a second announcement of a key it has keeps the second state, whose chain key is never advanced since lookups find the first (`senderkeyrecord.py:29-42`); `C90_forward_false` is the concrete case, `C90_forward` the theorem without such members. |
| C91 | `Verif/Spec/Deniable.lean` writes each side's session with the other side's private keys (`forgedInitiator`, `forgedRecipient`; explicit programs, because a mere existence statement would be trivially true). `C91_initiator`/`C91_recipient` from the exact states of C56 and commutativity of the agreement; calls in a session look only at its record (`session_calls`). For transcripts the party has no older session at the address, since archived sessions could also read messages. `C91_rewrite` from C55: the acceptance relation mentions the message only through its header, MAC and body. For group messages see C90 (5). |
| C92 | `Verif/Spec/Restore.lean`: `Mixed` describes the moment with one side from the backup and the peer from later, `Readable` is what C37 promises at a moment. `C92_unheard` by replaying only the peer's steps. `C92_fork`: both continuations share the ghost epochs up to the backup, and ratchet keys generated later are not among the keys of the backup (`Ghost.Extends`), so a message under an old key is genuine in both. `C92_healed`: the messages under forgotten keys form a suffix (`restore_cut`) and are cut off by `C92_unheard`; then the invariant of C37 is re-established after the read (`restore_turn`). `C92_stuck` is a run over the toy primitives: the condition cannot be dropped; the general reason is C89 (healing): a backup is no better than stolen state. |
| C93 | `Verif/Spec/GroupBackup.lean`: a `Room` has the stores, the whole log and each store's own log; `BackupReach` keeps all earlier rooms, to which a member may return. Invariant per name (`BState`): not created in any room so far, or one sender key `d0` for all rooms; the owner's state is treated like a member's (`Keeps`, split off from `Holds`), because after a restore the owner can decrypt its own messages and so move its sending chain; `LastUsed` gives that no number is left out. Restoring takes the member's part of the invariant from the earlier room. |
| C94 | `Verif/Spec/Content.lean`: `SameOutside` compares two ciphertexts except for body and MAC, `Retold` two moments of a conversation. `Verif/Proofs/Content.lean`: `Like` relates two results (both succeed with related values, or the same exception) and is pushed through the `do` blocks of `encrypt`; for receiving, both runs satisfy one invariant (`ConvFrom` of C41 with the same setup), so the same current session accepts both messages, and what it becomes depends on the header only (`dwss_content`). Groups as a whole (`Verif/Spec/GroupContent.lean`, `Verif/Props/GroupContent.lean`): `RoomRetold` relates two logs entry by entry; the second run is built along the first (`C94_group_retold`, induction on `RoomReach`), each accepted message replaced by the message of the same number in the second run, which C72 says is accepted too. Refused calls are kept as they are. |
| C95 | `Verif/Spec/Forge.lean`: terms for the MAC keys a state offers (`Offered`, `OfferedFirst`), what the attacker has (`Leak.Sees`), and `Computed`. The assumption on HMAC is the clause of `Computed` that says a computed MAC verifies on no accident: if the eight bytes verify, then the term they were computed as is an HMAC term under an offered key, over the bytes that are to be covered. It is a hypothesis on each attacker message, not an axiom; C95_steps shows that it excludes nothing which C86 allows, and allows nothing else. A base key rewritten as in C85 gives the same bytes by another term, so it counts as an accident here too. The hypotheses `before` and `previous` (other states in the record reject) and the limits of C37 are as in C86. `Verif/Proofs/Forge.lean` finds what can be derived (`Learnt` is closed under computing); `Verif/Proofs/Craft.lean` finds the term of each MAC key of the model's sessions. |
| C96 | `Verif/Spec/GroupForge.lean`. The assumption on signatures is `GroupCrafted`: if the signature of the bytes verifies, a signature of what it covers is among what the attacker can compute; it need not be the same signature, since 64 bytes can often be changed without the check noticing. It is a hypothesis on each attacker message, not an axiom. Announcements still arrive by a channel that nobody can write to (C88 derives this one). |
| C97 | `Verif/Spec/FirstUse.lean`. `Chainless` also covers the state with which a record begins and a pending key exchange. That the record holds nothing else is not an invariant: a genuine session message in a made-up prekey envelope leaves the state set up by that envelope behind, hence `Leftover`. The only assumption on trust that remains (`ComposedSetup.contact`) is for the answering side before the first contact, where trust on first use accepts any key. |
| C98 | `Verif/Spec/RecordTheft.lean`. The proofs of C89 were split so that they hold along anything that carries the invariant of a conversation on (`Along`), which both kinds of execution do. `LeftSpells` names every secret field of a state that was left behind. The other agreements of its setup are given to the attacker as plain bytes (`rest`), which only makes the attacker stronger. Healing after a theft assumes, as C86 does, that no forged MAC verifies: C95 says who can forge, and a thief of a current state can until the ratchet has moved on. |
| C99 | `Verif/Spec/Takeover.lean`. `Carries` says what the other store has; `moved` puts it in the place of the side, and all that is said of the conversation after that is said with the predicates of C37 and C86. The public identity key is kept the same because the statements about a conversation name the identity keys of its two sides; the private one may differ, since no step of an existing session needs it. The owner of Bob's record has to trust Alice's identity key, since her prekey messages are checked against it for as long as she sends them. |
| C100 | `Verif/Spec/EndToEnd.lean`. The two attackers of C95 and C96 put into the society of C88, and the thefts of C89/C98 and C90 put together: an announcement counts as intercepted if the message of a conversation that carries it can be read by `Derives`. The names of the keys (`Named`) are given for each conversation on its own. What is missing: the attacker does not forge with session states they have stolen (C99 says what they could do then). |
| C101 | `Verif/Spec/Recovery.lean`. `Timed` fixes the names at both moments and numbers the ratchet keys in the order in which they are seen; such names exist (`C101_names`). `Leak.UpTo` is any leak up to the moment of the theft, `C101_theft` says that reading session states is one. From there the classification of offered MAC keys of C95: the next chain and stray keys hang on root keys out of reach, and the receive chains are the last five seen. Between the theft and recovery the stolen keys are not used to forge against the side in question (a thief who does so before takes over the session, C99). Findings: receive chains for old ratchet keys are kept, with their chain keys, until five newer ones have come, so healing of authenticity takes six round trips where healing of secrecy takes one. |
| C102 | `Verif/Spec/Renewal.lean`. `RenewReach` is `RoomReach` of C72 with a further step, the renewal, and with the assumption that what is accepted was sent only for messages under the keys in `safe`. `ofKey` is the part of the log that is about one key of a name, `statesOf` the states a record holds for an id. The invariant gives for each safe key a room of C72 in which the other keys do not occur. An owner does not process announcements for the own name. Findings: a member's record keeps the states of all keys it has ever taken up, in the order in which it took them up, and goes on accepting messages under each, so a renewal after a theft protects what is sent from then on but does not stop forgeries under the old key; and since states are looked up by id from the front, a new key with an old id is shadowed by the old one. |
| C103 | `Verif/Spec/RenewalForge.lean`: `RenewCraftReach` is `RenewReach` of C102 with the assumption about accepted messages replaced by the attacker of C96, per key: what is delivered under a safe key is computed without this key's signing key (`GroupCrafted`); what is delivered under others is any bytes. `Unannounced log` are the keys announced after the moment of the theft; `GLeak.both` joins two leaks. As in C102 announcements are taken up unaltered (they travel over pairwise sessions), and random values of a renewal are fresh, which the symbolic terms express by the new chain key and signing key being atoms that no earlier record contains. |
| C104 | `Verif/Spec/Locked.lean`: `Locked` is a run in which calls enter, make single store accesses (`Verif/Model/Steps.lean`), and leave; entering requires being `CallsApart` (C68) from all calls in progress. The trust policy asks only for the identity saved under the name in question (`LocalPolicy`). The proof is a commutation argument: the stores are at all times those after the returned calls, with the changes made so far by the calls in progress, which commute. `StoreAccess`, `overlapping`, `OneByOne` give C33 for any number of calls (`C33_many_exact_partial`, `C33_many_overlap_reuses`). |
| C105 | `Verif/Spec/Removal.lean` joins the society of C100 with the renewals of C102/C103 (`RSocietyStep`); `KeyOpened` is `GroupOpened` for one key of a name, `NotSentTo` says who is left out. The library has no notion of group membership: a member is removed by renewing the key (an empty record and `create`) and not sending the announcement to them. As C102_no_revocation shows, members who remain still accept messages under the old key. |
| C106 | `Verif/Spec/FirstSociety.lean`: `Composes` is the attacker of C97 for one conversation of many; `FirstStarts` says that a conversation which begins with an event is a first one; `FirstReachBy`, `FSocietyReach` are the systems and societies. As in C87 an attacker's delivery must not use up a one-time prekey that another conversation needs (`C87_interference` shows that they can). |
| C107 | `Verif/Spec/TheftSociety.lean`: `ThiefCrafts` is the attacker of C87 or one who uses what leaked at the theft (`Leak.UpTo`) against a side that has `Recovered` as in C101; `TSocietyReach` is what comes of a society after the theft, in which the keys announced since (`Unannounced` then) are the safe ones of C105. Against sides that have not recovered nothing is claimed, as C101 shows that they do accept forgeries; so the thief makes none there. `Mended` is about the place of a message in the order of the ratchet keys; `C107_mended` and `C107_mended_accepted` give it from what can be seen. |
| C108 | `Verif/Model/Work.lean` writes the calls once more over any monad with the primitives as operations (`Prims`), so nothing can be computed without them; `C108_same` proves that the counted program is the model's. `Verif/Spec/Work.lean` has the counting monad and the bound `mostWork`. Calls of primitives are counted, each as one: the length of the data given to HMAC, parsing, copying and storing are not. The counted program does not share work between states, as the code does not. |
| C109 | As C108, for `Work.groupRun`. `C109_no_limit` follows from `C42_false`: the check that should limit the distance compares the wrong way round (axolotl/groups/groupcipher.py:74-75). The signature is checked before the chain is stepped, so only those who have the signing key can cause this work (`C109_forgery`). |
| C110 | `Verif/Spec/Trace.lean` on the program of C108 (`Work.run`), with the primitives `tracing`, which note each use in order. `MacThenDecrypt` and `SignatureFirst` say what comes before what. `MacFrom` and `MacTo` say which keys are right for the MAC, in sessions of version 2 and 3. `C110_unverified` and `C110_unverified_first` state the consequence with `Rejects` and `Verifies` of `Verif/Spec/Active.lean`; `C110_unverified_version2` states it for version 2 with `Verifies2`. `C110_response` is about axolotl/sessionbuilder.py:191-227, where `initializeSession` comes before the check of the signature; nothing is stored if the signature is wrong (C26). Only uses of primitives are ordered; comparisons and parsing are not in the trace. |
| C111 | `Verif/Spec/Timing.lean`: `callKinds` is the trace of C110 without the arguments. `C111_receive` ties `receiveCall` to `receive` in `Verif/Spec/Conversation.lean`. Only the kinds of the primitives and their order are compared: the running time of a primitive on its arguments, comparisons (`!=` on the MAC in whispermessage.py is not constant-time), parsing and the padding check are outside the trace. |
| C112 | `Verif/Spec/Draws.lean`: `draws` is the random bytes in a trace of C110, `randomness w c` those given to the call, in order. It is also a check of the model: randomness is an argument of the call in the model and drawn where it is used in the code, and the claim says that one argument stands for at most one draw. What keyhelper.py draws (identity, pre keys, ids, the sequence number of a key exchange) and the random id and chain key of a new sender key go through no traced primitive and are not counted. |
| C113 | `Verif/Spec/Signing.lean`: `Signs` and `GroupSigns` say which `calcSig` may be in the traces of C110. `groupSigner` reads from a history of group calls, without any stores, which key signs for a name. The last part is a finding: key exchange messages and bundles sign the same 33 bytes with the same key, with nothing to tell the two apart (`C113_interchangeable`). Whoever uses such a bundle can be answered only with the private base key, so this by itself gives an attacker nothing but sessions that the owner cannot read. `KeyHelper.generateSignedPreKey` also signs with the identity key (C48); it is a call of the application and not in the traces. |
| C114 | `Verif/Spec/Agreements.lean`: `MakesAgreement` says which `dh` may be in the traces of C110. Two things in it are weaker than one may expect, because the code is: the one-time prekey of a bundle and the ratchet key of a key exchange are covered by no signature, and for a reply to a key exchange the agreements come before its signature is checked (C110). |
| C115 | `Verif/Spec/Ciphering.lean`: `Checks`, `Enciphers` and `Opens`, and the same for groups, say which `verifySig`, `aesEnc` and `aesDec` may be in the traces of C110. With C112 (random bytes), C113 (signatures made) and C114 (agreements) this leaves only the uses of HMAC without such a list. `SendsUnder` and `OpensUnder` name the keys for versions 2 and 3; in a session of another version nothing is encrypted or decrypted. A group message shorter than a signature, if one could be parsed, would be split in some way that is left open. |
| C116 | `Verif/Spec/Hashing.lean`: `Hashes` and `GroupHashes` say which `hmac` may be in the traces of C110, in terms of HKDF as in RFC 5869 (`HkdfUse`: the extraction and the blocks), of chain keys (`ChainUse`), and of the agreements of C114. With C112 to C115 every primitive now has such a list. `SendsWith` and `ReadsWith` choose between version 3 and version 2 (`HkdfUse2`, `ChainUse2`, `SendUse2`, `ReadUse2`); in a session of another version nothing is hashed (`C116_other_versions` states this for sending). The bytes under the MAC of a message that is sent are those of `sessionMessage` if the ciphertext is shorter than 2^63 bytes; a message that is read and shorter than a MAC, if there were one, would be split in some way that is left open. |
| C117 | `Verif/Spec/Steps.lean` writes the sequences down with `++`, in terms of HKDF as in RFC 5869 (or with the numbering of version 2), of CBC and of the agreements; C112 to C116 say what may be in a trace, this says what the trace is. For calls that succeed; for reading by an archived state the steps of the states tried before are left open (each is bounded by C112 to C116). |
