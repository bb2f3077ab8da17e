{"id": "C01", "title": "Message body cipher round-trips", "statement": "Decrypting what the message cipher produced with the same key and IV returns exactly the bytes that were encrypted, for every plaintext length including empty and exact block multiples; the ciphertext is always strictly longer than the plaintext, at most 16 bytes longer, and a whole number of 16-byte blocks. Keys that are not 16/24/32 bytes or IVs that are not 16 bytes are always refused.", "quantifier": "every key, every IV, every plaintext of any length", "why_tests_cant": "The padding boundary and block chaining cover unboundedly many lengths and contents.", "anchors": ["axolotl/sessioncipher.py:AESCipher"]}
{"id": "C02", "title": "A session message survives the wire", "statement": "Serialising a message produced by the sender and parsing the bytes on the other side yields a message with the same version, ratchet key, counter, previous counter and ciphertext, and with the same bytes for MAC verification.", "quantifier": "every version 2..3, 32-byte ratchet key, uint32 counters, non-empty ciphertext, MAC key and pair of identity keys", "why_tests_cant": "Varint and length-prefix boundaries depend on every field value; the space is infinite.", "anchors": ["axolotl/protocol/whispermessage.py:WhisperMessage.__init__", "axolotl/util/byteutil.py:ByteUtil.split"]}
{"id": "C03", "title": "A session-establishing message survives the wire", "statement": "Serialising a prekey message and parsing it yields the same registration id, one-time prekey id (including its absence), signed prekey id, base key, identity key and inner message.", "quantifier": "every registration id, optional prekey id, signed prekey id in uint32 range, all 32-byte keys, every inner message", "why_tests_cant": "Presence/absence and all integer widths must be covered together.", "anchors": ["axolotl/protocol/prekeywhispermessage.py:PreKeyWhisperMessage.__init__"]}
{"id": "C04", "title": "A key-exchange message survives the wire", "statement": "Serialising a key-exchange message and parsing it yields the same sequence number, flags, base key, signature, ratchet key and identity key; sequence numbers and flags never bleed into each other.", "quantifier": "every sequence below 2^27, every flag value below 32, all 32-byte keys, every signature", "why_tests_cant": "The sequence and flags share one packed integer, so all pairs of values matter.", "anchors": ["axolotl/protocol/keyexchangemessage.py:KeyExchangeMessage.__init__"]}
{"id": "C05", "title": "Group messages and key distribution messages survive the wire", "statement": "Serialising and parsing a group message keeps key id, iteration and ciphertext, and its signature still verifies with the sender's public signing key; serialising and parsing a key distribution message keeps id, iteration, chain key and signing key.", "quantifier": "every uint32 key id and iteration, every ciphertext, chain key, signing key and signature randomness", "why_tests_cant": "All field widths and contents, and the signature boundary, would have to be tried.", "anchors": ["axolotl/protocol/senderkeymessage.py:SenderKeyMessage", "axolotl/protocol/senderkeydistributionmessage.py:SenderKeyDistributionMessage"]}
{"id": "C06", "title": "A stored session reloads as the same session", "statement": "Serialising a session record and loading it back gives a record with the same current state and the same archived states in the same order, for every record the library can produce.", "quantifier": "every session record whose integer fields are in range, with any number of archived states, chains and stored message keys", "why_tests_cant": "Nested repeated structures of unbounded size; a single lost presence bit changes behaviour later.", "anchors": ["axolotl/state/sessionrecord.py:SessionRecord.serialize", "axolotl/state/sessionrecord.py:SessionRecord.__init__", "axolotl/protobuf/LocalStorageProtocol.proto"]}
{"id": "C07", "title": "Stored keys and sender keys reload unchanged", "statement": "Serialising and reloading a one-time prekey, signed prekey, identity key pair or sender-key record gives back the same ids, key pairs, signature, timestamp and chain states.", "quantifier": "every id, 64-bit timestamp, key pair, signature and every list of sender key states with in-range integers", "why_tests_cant": "Unbounded nested data and all integer widths.", "anchors": ["axolotl/state/prekeyrecord.py:PreKeyRecord", "axolotl/state/signedprekeyrecord.py:SignedPreKeyRecord", "axolotl/identitykeypair.py:IdentityKeyPair", "axolotl/groups/state/senderkeyrecord.py:SenderKeyRecord"]}
{"id": "C08", "title": "Parsers reject garbage with a protocol exception", "statement": "Parsing an arbitrary byte string as any of the five message types either succeeds or raises one of the protocol's own exceptions (invalid message, invalid key, invalid version, legacy message); no other exception escapes.", "quantifier": "every byte string, every message type", "why_tests_cant": "The input space is all byte strings; fuzzing can only sample it.", "anchors": ["axolotl/protocol/whispermessage.py", "axolotl/protocol/prekeywhispermessage.py", "axolotl/protocol/keyexchangemessage.py", "axolotl/protocol/senderkeymessage.py", "axolotl/protocol/senderkeydistributionmessage.py"]}
{"id": "C09", "title": "Only supported protocol versions are accepted", "statement": "A byte string whose version nibble is outside the supported range never parses: session messages parse only with version 2 or 3, prekey, key-exchange, group and distribution messages only with version 3, and the version reported by the parsed object is the one on the wire.", "quantifier": "every byte string", "why_tests_cant": "Quantifies over all possible message bodies, not only over the 16 nibble values.", "anchors": ["axolotl/protocol/whispermessage.py:30-34", "axolotl/protocol/prekeywhispermessage.py:25-29", "axolotl/protocol/keyexchangemessage.py:37-41", "axolotl/util/byteutil.py:highBitsToInt"]}
{"id": "C10", "title": "Public keys encode and decode faithfully", "statement": "Decoding an encoded 32-byte public key returns it; every byte string that decodes is exactly the encoding of the key returned, so two different encodings never denote the same key.", "quantifier": "every 32-byte key, every byte string", "why_tests_cant": "All byte strings of all lengths.", "anchors": ["axolotl/ecc/curve.py:Curve.decodePoint", "axolotl/ecc/djbec.py:DjbECPublicKey.serialize"]}
{"id": "C11", "title": "Key derivation is HKDF", "statement": "For every key, salt, info and output length up to 255 blocks the version-3 key derivation returns exactly RFC 5869 HKDF-SHA256 output of exactly the requested length.", "quantifier": "every input key material, salt, info and output length up to 8160", "why_tests_cant": "Known-answer tests fix a handful of vectors and lengths.", "anchors": ["axolotl/kdf/hkdf.py:HKDF.expand", "axolotl/kdf/hkdf.py:HKDF.deriveSecrets", "axolotl/kdf/hkdfv3.py"]}
{"id": "C12", "title": "Session setup from a prekey bundle agrees on both sides", "statement": "When one party processes a bundle published by the other and the other processes the resulting first message, both hold the same root key material and the receiver's first chain is the sender's first chain, with or without a one-time prekey.", "quantifier": "every pair of identity keys, prekeys, signed prekeys and every choice of the random keys", "why_tests_cant": "Universal over all keys and randomness; tests use a few generated keys.", "anchors": ["axolotl/ratchet/ratchetingsession.py:RatchetingSession.initializeSessionAsAlice", "axolotl/ratchet/ratchetingsession.py:RatchetingSession.initializeSessionAsBob", "axolotl/sessionbuilder.py:SessionBuilder.processPreKeyBundle", "axolotl/sessionbuilder.py:SessionBuilder.processV3"]}
{"id": "C13", "title": "First contact works end to end", "statement": "If the sender processes the recipient's published bundle, encrypts any plaintext and ships the bytes, then the recipient, whose stores hold the corresponding keys, decrypts them to that plaintext, ends up with a session for the sender and has removed the one-time prekey.", "quantifier": "every plaintext, every key material and randomness, every prior content of both parties' stores", "why_tests_cant": "Universal over plaintexts, keys, randomness and pre-existing sessions.", "anchors": ["axolotl/sessioncipher.py:SessionCipher.encrypt", "axolotl/sessioncipher.py:SessionCipher.decryptPkmsg", "axolotl/sessionbuilder.py:SessionBuilder.process"]}
{"id": "C14", "title": "The two sides of a key exchange take opposite roles and agree", "statement": "After a key-exchange initiate/response both parties derive the same root key and matching chains, whatever the relative order of their base keys, provided the base keys differ.", "quantifier": "every pair of distinct base keys, all identity and ratchet keys, every randomness", "why_tests_cant": "The role choice compares keys as signed words; all orderings matter.", "anchors": ["axolotl/ratchet/ratchetingsession.py:RatchetingSession.initializeSession", "axolotl/ratchet/ratchetingsession.py:RatchetingSession.isAlice", "axolotl/ecc/djbec.py:DjbECPublicKey.__lt__"]}
{"id": "C15", "title": "A message key is never used for two messages", "statement": "Over the whole life of a session, no two messages returned by encrypt carry the same (ratchet key, counter) pair, whatever decrypts, failed calls and new-session events happen in between, as long as generated ratchet keys are distinct and calls do not overlap.", "quantifier": "every finite history of encrypt and decrypt calls with arbitrary (also hostile) incoming messages", "why_tests_cant": "The property is about all histories of unbounded length, with adversarial input.", "anchors": ["axolotl/sessioncipher.py:SessionCipher.encrypt", "axolotl/sessioncipher.py:SessionCipher.getOrCreateChainKey", "axolotl/state/sessionstate.py:SessionState.setSenderChain"]}
{"id": "C16", "title": "Encrypt uses consecutive counters and saves before returning", "statement": "Each successful encrypt returns a message whose counter is the session's current send counter, advances the stored counter by exactly one, changes nothing else in the stored state, and has stored the session before the message is returned; a failed encrypt stores nothing.", "quantifier": "every stored session state, every plaintext", "why_tests_cant": "All states including the uint32 limit; crash points between store and return.", "anchors": ["axolotl/sessioncipher.py:SessionCipher.encrypt"]}
{"id": "C17", "title": "A rejected session message changes nothing", "statement": "If decrypting a session message raises any exception, every store (sessions, prekeys, identities) is exactly as before the call.", "quantifier": "every store content, every message (including forged ones), every exception path", "why_tests_cant": "All failure points inside the ratchet with partially advanced chains.", "anchors": ["axolotl/sessioncipher.py:SessionCipher.decryptMsg", "axolotl/sessioncipher.py:SessionCipher.decryptWithSessionRecord"]}
{"id": "C18", "title": "A rejected prekey message changes nothing", "statement": "If decrypting a prekey message raises any exception, every store (sessions, prekeys, saved identities) is exactly as before the call.", "quantifier": "every store content, every prekey message, every exception path", "why_tests_cant": "All failure points, including forged messages that fail only at the MAC.", "anchors": ["axolotl/sessioncipher.py:SessionCipher.decryptPkmsg", "axolotl/sessionbuilder.py:SessionBuilder.process"]}
{"id": "C19", "title": "An accepted message is never accepted again", "statement": "After a session message has been decrypted, presenting it again raises DuplicateMessage and changes nothing, also after any further traffic on that session, as long as its receive chain is retained.", "quantifier": "every session state, every accepted message, every finite history of further encrypts and decrypts", "why_tests_cant": "Histories of unbounded length.", "anchors": ["axolotl/sessioncipher.py:SessionCipher.getOrCreateMessageKeys", "axolotl/state/sessionstate.py:SessionState.removeMessageKeys"]}
{"id": "C20", "title": "Messages of one chain may arrive in any order", "statement": "If a sender encrypts any number of messages on one chain, the receiver decrypts each of them to its plaintext at its first delivery, in whatever order they arrive, with losses and duplicates, provided no jump exceeds 2000; every duplicate is answered with DuplicateMessage.", "quantifier": "every number of messages, every delivery schedule with drops and duplicates", "why_tests_cant": "Exponentially many schedules of unbounded length.", "anchors": ["axolotl/sessioncipher.py:SessionCipher.getOrCreateMessageKeys", "axolotl/state/sessionstate.py:SessionState.setMessageKeys", "axolotl/state/sessionstate.py:SessionState.removeMessageKeys"]}
{"id": "C21", "title": "The future-message window is exactly 2000", "statement": "A message whose counter is at most 2000 ahead of the receive chain is not refused for being too far ahead and leaves exactly the skipped counters decryptable; one that is 2001 or more ahead is refused with InvalidMessage and no change.", "quantifier": "every chain position and counter", "why_tests_cant": "Boundary for every chain index, with up to 2000 stored keys.", "anchors": ["axolotl/sessioncipher.py:175"]}
{"id": "C22", "title": "Stored sessions stay bounded in chains and archives", "statement": "In every state reachable from empty stores a session state never has more than 5 receive chains and a record never more than 40 archived states.", "quantifier": "every finite history of all library calls with arbitrary messages and keys", "why_tests_cant": "Reachability over unbounded histories.", "anchors": ["axolotl/state/sessionstate.py:SessionState.addReceiverChain", "axolotl/state/sessionrecord.py:SessionRecord.promoteState"]}
{"id": "C23", "title": "Stored skipped-message keys stay bounded", "statement": "There is a fixed bound on the number of skipped-message keys kept in one receive chain, whatever messages arrive; a single message adds at most 2000.", "quantifier": "every history of accepted messages", "why_tests_cant": "Growth over unbounded histories.", "anchors": ["axolotl/state/sessionstate.py:SessionState.setMessageKeys", "axolotl/sessioncipher.py:SessionCipher.getOrCreateMessageKeys"]}
{"id": "C24", "title": "An untrusted identity changes nothing", "statement": "If the application's trust callback rejects the presented identity key, processing a bundle, a key-exchange message or a prekey message raises UntrustedIdentity and leaves every store unchanged.", "quantifier": "every trust policy, every store content, every bundle/message", "why_tests_cant": "Arbitrary policies and stores.", "anchors": ["axolotl/sessionbuilder.py:41", "axolotl/sessionbuilder.py:92", "axolotl/sessionbuilder.py:135"]}
{"id": "C25", "title": "A bundle is only used with a valid signed prekey", "statement": "Processing a bundle stores a session only if the bundle has a signed prekey whose signature verifies under the bundle's identity key; otherwise an exception is raised and nothing is stored.", "quantifier": "every bundle, every store content", "why_tests_cant": "Every bundle, including adversarial ones.", "anchors": ["axolotl/sessionbuilder.py:SessionBuilder.processPreKeyBundle"]}
{"id": "C26", "title": "A key-exchange message is only used with a valid signature", "statement": "Processing a key-exchange message, initiate or response, writes to a store only if the base key signature verifies under the message's identity key.", "quantifier": "every message and store content", "why_tests_cant": "Every message, including adversarial ones; the response path verifies late.", "anchors": ["axolotl/sessionbuilder.py:SessionBuilder.processInitiate", "axolotl/sessionbuilder.py:SessionBuilder.processResponse"]}
{"id": "C27", "title": "One-time prekeys are consumed exactly once", "statement": "A prekey message that sets up a session and decrypts removes exactly the one-time prekey it names (never the last-resort id 0xFFFFFF) and no other; any other outcome removes no prekey.", "quantifier": "every store content and prekey message", "why_tests_cant": "All outcomes over all messages.", "anchors": ["axolotl/sessioncipher.py:91", "axolotl/sessionbuilder.py:83"]}
{"id": "C28", "title": "A repeated prekey message creates no second session", "statement": "Processing a prekey message whose base key already belongs to the current or an archived session leaves the list of sessions as it is, needs no prekey from the store and removes none; it is decrypted with the existing session.", "quantifier": "every record and prekey message", "why_tests_cant": "All archived positions and histories.", "anchors": ["axolotl/state/sessionrecord.py:SessionRecord.hasSessionState", "axolotl/sessionbuilder.py:58"]}
{"id": "C29", "title": "The initiator announces the session until it is answered", "statement": "After processing a bundle, every message encrypted is a prekey message carrying the same base key and prekey ids until the first message is decrypted on that session; after that, every message is an ordinary one.", "quantifier": "every number of messages before and after the first reply", "why_tests_cant": "Unbounded message counts.", "anchors": ["axolotl/sessioncipher.py:50", "axolotl/sessioncipher.py:145"]}
{"id": "C30", "title": "Peers are isolated from each other", "statement": "A call made for one peer address never changes the stored session of another address, nor the saved identity of another name, nor any signed prekey or the local identity.", "quantifier": "every call, every message, every pair of addresses", "why_tests_cant": "Frame property over all inputs.", "anchors": ["axolotl/sessioncipher.py:SessionCipher", "axolotl/sessionbuilder.py:SessionBuilder"]}
{"id": "C31", "title": "A key-exchange response must match the pending request", "statement": "A key-exchange response is only used if a key exchange is pending for that peer with the same sequence number; otherwise nothing is stored, and StaleKeyExchange is raised unless the response is flagged simultaneous.", "quantifier": "every response message, every store content", "why_tests_cant": "All stored states and messages.", "anchors": ["axolotl/sessionbuilder.py:SessionBuilder.processResponse"]}
{"id": "C32", "title": "A crash in the middle of a call is recoverable", "statement": "If the process dies between any two store writes of a call, the session store holds either the old or the new record; if it dies before the session is stored, delivering the same prekey message again gives the same plaintext; if it dies after, the one-time prekey is still removed on redelivery.", "quantifier": "every call, every crash point", "why_tests_cant": "All crash points over all inputs.", "anchors": ["axolotl/sessioncipher.py:SessionCipher.decryptPkmsg", "axolotl/sessionbuilder.py:SessionBuilder.processPreKeyBundle"]}
{"id": "C33", "title": "Concurrent encrypts never share a key", "statement": "If two encrypt calls for the same peer run concurrently against the same store, the two messages use different message keys, whatever the interleaving of their loads and stores.", "quantifier": "every interleaving", "why_tests_cant": "All schedules.", "anchors": ["axolotl/sessioncipher.py:35", "axolotl/sessioncipher.py:59"]}
{"id": "C34", "title": "Accepted messages are authenticated", "statement": "A session message is only accepted if its last eight bytes are the truncated HMAC, under a MAC key of a session with that peer, of all preceding bytes together with both identity keys; a group message only if its last 64 bytes verify as a signature of all preceding bytes under the stored signing key.", "quantifier": "every byte string, every stored state", "why_tests_cant": "All forgeries.", "anchors": ["axolotl/protocol/whispermessage.py:WhisperMessage.verifyMac", "axolotl/protocol/senderkeymessage.py:SenderKeyMessage.verifySignature"]}
{"id": "C35", "title": "A session only accepts its own version", "statement": "A session message whose version differs from that of every stored session state of the peer is refused with InvalidMessage and changes nothing; sessions set up by the library are always version 3.", "quantifier": "every message, every record", "why_tests_cant": "All records and messages.", "anchors": ["axolotl/sessioncipher.py:130"]}
{"id": "C36", "title": "Old sessions stay usable and no session is lost", "statement": "When a message decrypts with an archived session, that session becomes current, the former current one is archived first in the list, and all others stay in order; when a new session is set up, the former current one is archived; nothing is lost except the oldest beyond 40.", "quantifier": "every record, every message", "why_tests_cant": "All positions in all records.", "anchors": ["axolotl/sessioncipher.py:112", "axolotl/state/sessionrecord.py:SessionRecord.promoteState"]}
{"id": "C37", "title": "A whole conversation decrypts", "statement": "Starting from a freshly agreed session, in any interleaving of both parties' encrypts and deliveries in which the network reorders, drops and duplicates messages, each message still within the retention limits decrypts at its first delivery to the plaintext that was sent.", "quantifier": "every interleaving of both parties' actions and of the network, unbounded length", "why_tests_cant": "Unbounded interleavings of two stateful parties and a hostile scheduler.", "anchors": ["axolotl/sessioncipher.py:SessionCipher", "axolotl/ratchet/rootkey.py:RootKey.createChain"]}
{"id": "C38", "title": "Group senders never reuse an iteration", "statement": "Successive group encrypts for one sender key carry strictly consecutive iterations under the same key id; across any history of encrypt, create, process and decrypt calls no two messages with the same key id carry the same iteration.", "quantifier": "every finite history of group calls", "why_tests_cant": "Unbounded histories.", "anchors": ["axolotl/groups/groupcipher.py:GroupCipher.encrypt", "axolotl/groups/groupsessionbuilder.py:GroupSessionBuilder.create"]}
{"id": "C39", "title": "A rejected group message changes nothing", "statement": "If group decrypt or encrypt raises any exception the sender-key store is unchanged, and the exception is one of NoSession, InvalidMessage, DuplicateMessage, or a ValueError from signing or integer range.", "quantifier": "every store content, every byte string", "why_tests_cant": "All failure points and inputs.", "anchors": ["axolotl/groups/groupcipher.py:GroupCipher.decrypt"]}
{"id": "C40", "title": "An accepted group message is never accepted again", "statement": "After a group message has been decrypted, presenting it again at any later time raises DuplicateMessage and changes nothing, whatever other group messages and key distributions for that sender key were processed in between.", "quantifier": "every stored state, every finite history", "why_tests_cant": "Unbounded histories.", "anchors": ["axolotl/groups/groupcipher.py:GroupCipher.getSenderKey", "axolotl/groups/state/senderkeyrecord.py:SenderKeyRecord.addSenderKeyState"]}
{"id": "C41", "title": "Group messages may arrive in any order", "statement": "If a member processes a sender's key distribution message, each message the sender encrypts afterwards decrypts to its plaintext at its first delivery, in any order, with drops and duplicates; duplicates are answered with DuplicateMessage.", "quantifier": "every number of messages, every delivery schedule", "why_tests_cant": "Exponentially many schedules of unbounded length.", "anchors": ["axolotl/groups/groupcipher.py:GroupCipher", "axolotl/groups/groupsessionbuilder.py:GroupSessionBuilder"]}
{"id": "C42", "title": "Group messages too far in the future are refused", "statement": "A group message whose iteration is more than 2000 ahead of the stored chain is refused with InvalidMessage and stores nothing.", "quantifier": "every chain position and iteration", "why_tests_cant": "All chain positions.", "anchors": ["axolotl/groups/groupcipher.py:75"]}
{"id": "C43", "title": "Key distribution is forward-only", "statement": "A member who joins from a distribution message created at iteration n can decrypt no message with a smaller iteration; processing the same distribution message again later does not rewind an existing chain.", "quantifier": "every iteration, every history", "why_tests_cant": "Unbounded histories.", "anchors": ["axolotl/groups/groupsessionbuilder.py:GroupSessionBuilder.process", "axolotl/groups/state/senderkeyrecord.py:SenderKeyRecord.getSenderKeyState"]}
{"id": "C44", "title": "Creating a group session is idempotent", "statement": "Calling create when a sender key exists changes nothing and returns a distribution message for the current chain position; otherwise it stores exactly one new state at iteration 0 whose distribution message is returned. Encrypting before create raises NoSession.", "quantifier": "every store content and randomness", "why_tests_cant": "All store contents.", "anchors": ["axolotl/groups/groupsessionbuilder.py:GroupSessionBuilder.create", "axolotl/groups/groupcipher.py:GroupCipher.encrypt"]}
{"id": "C45", "title": "Sender-key records stay bounded", "statement": "There is a fixed bound on the number of sender-key states kept for one sender, whatever distribution messages are processed.", "quantifier": "every history of distribution messages", "why_tests_cant": "Unbounded histories.", "anchors": ["axolotl/groups/state/senderkeyrecord.py:SenderKeyRecord.addSenderKeyState"]}
{"id": "C46", "title": "Sender-key names identify senders", "statement": "Equal sender-key names hash equally, and two sender-key names with the same serialised form are the same name.", "quantifier": "every pair of group ids, names and device ids, every string hash function", "why_tests_cant": "All pairs of strings.", "anchors": ["axolotl/groups/senderkeyname.py:SenderKeyName", "axolotl/axolotladdress.py:AxolotlAddress"]}
{"id": "C47", "title": "Generated prekey ids are valid and distinct", "statement": "Generating prekeys yields exactly the requested number of records, with ids between 1 and 0xFFFFFE that never equal the reserved last-resort id, consecutive with wrap-around, and pairwise distinct as long as no more than 0xFFFFFE are requested.", "quantifier": "every start id and count", "why_tests_cant": "Sixteen million ids and arbitrary starts.", "anchors": ["axolotl/util/keyhelper.py:KeyHelper.generatePreKeys"]}
{"id": "C48", "title": "Generated ids and signed prekeys are usable", "statement": "Registration ids lie between 1 and 16380 (or 2147483646 in extended range) and fit the wire fields; a generated signed prekey carries a signature that the other side's bundle check accepts.", "quantifier": "every random draw, key and timestamp", "why_tests_cant": "All random draws.", "anchors": ["axolotl/util/keyhelper.py:KeyHelper.generateRegistrationId", "axolotl/util/keyhelper.py:KeyHelper.generateSignedPreKey"]}
{"id": "C49", "title": "Calls without a session fail cleanly", "statement": "Decrypting a session message from a peer without a session raises NoSession; encrypting to a peer without a session raises an exception; neither changes any store.", "quantifier": "every store content, message and plaintext", "why_tests_cant": "All messages and plaintexts.", "anchors": ["axolotl/sessioncipher.py:70", "axolotl/sessioncipher.py:31"]}
{"id": "C50", "title": "Behaviour does not depend on reloading", "statement": "Running the library against stores that keep serialised bytes gives the same return values, exceptions and stored sessions as against stores that keep the records, over any history of calls.", "quantifier": "every finite history of calls", "why_tests_cant": "Unbounded histories with a reload between any two calls.", "anchors": ["axolotl/tests/inmemorysessionstore.py:InMemorySessionStore", "axolotl/state/sessionrecord.py:SessionRecord"]}
{"id": "C52", "title": "Printed addresses identify addresses", "statement": "Two protocol addresses with the same printed form name;device are equal, whatever characters the names contain, and equal addresses hash equally.", "quantifier": "every pair of names and device ids, every string hash function", "why_tests_cant": "All pairs of strings.", "anchors": ["axolotl/axolotladdress.py:AxolotlAddress.__str__", "axolotl/axolotladdress.py:AxolotlAddress.__hash__"]}
{"id": "C51", "title": "Receiver randomness does not matter", "statement": "Whether a message is accepted, with which plaintext or exception, does not depend on the random bytes the receiver draws while processing it. Group messages made with different signature randomness differ in the signature only.", "quantifier": "every state, message and pair of random draws", "why_tests_cant": "All values of 32 random bytes.", "anchors": ["axolotl/sessioncipher.py:SessionCipher.decryptMsg", "axolotl/sessioncipher.py:SessionCipher.decryptPkmsg", "axolotl/groups/groupcipher.py:GroupCipher.encrypt"]}
{"id": "C53", "title": "Exact bytes on the wire", "statement": "Every byte the library sends is determined by the published formats: version byte 0x33, the protobuf fields with their numbers in order, keys prefixed by 5, the 8-byte MAC over both identities and the message, the 64-byte signature; for session, prekey, key exchange, group and distribution messages.", "quantifier": "every state, plaintext and randomness", "why_tests_cant": "Tests only check that the library can read what it wrote itself.", "anchors": ["axolotl/protocol/whispermessage.py:WhisperMessage", "axolotl/protocol/prekeywhispermessage.py:PreKeyWhisperMessage", "axolotl/protocol/keyexchangemessage.py:KeyExchangeMessage", "axolotl/protocol/senderkeymessage.py:SenderKeyMessage", "axolotl/protocol/senderkeydistributionmessage.py:SenderKeyDistributionMessage"]}
{"id": "C54", "title": "Body cipher and its keys", "statement": "Message bodies are AES-CBC with PKCS7 padding, block by block, under the cipher key and IV that the key schedule assigns to the position in the header, both when sending and when reading, for sessions and groups.", "quantifier": "every state, plaintext and ciphertext", "why_tests_cant": "All lengths and positions; a cipher that is its own inverse passes round-trip tests.", "anchors": ["axolotl/sessioncipher.py:AESCipher", "axolotl/groups/groupcipher.py:GroupCipher.getPlainText", "axolotl/groups/groupcipher.py:GroupCipher.getCipherText"]}
{"id": "C55", "title": "The state after a message is read", "statement": "Reading a message replaces the session state by exactly the one the double ratchet prescribes: under a known ratchet key only the receive chain it belongs to moves (keys of skipped messages are kept, a kept key is used up); under a new one the root key, the new receive chain, the new sending chain with a freshly drawn key pair, the previous counter and the limit of five receive chains are as prescribed. The acknowledged prekey is forgotten and everything else stays. Conversely every message the current state should accept is accepted.", "quantifier": "every reachable store, every message and randomness", "why_tests_cant": "The state space is unbounded and tests look at plaintexts, not at the stored state, so a wrong field shows up much later or only against another implementation.", "anchors": ["axolotl/sessioncipher.py:SessionCipher.decryptWithSessionState", "axolotl/sessioncipher.py:SessionCipher.getOrCreateChainKey", "axolotl/sessioncipher.py:SessionCipher.getOrCreateMessageKeys", "axolotl/state/sessionstate.py:SessionState"]}
{"id": "C56", "title": "The state that setup creates", "statement": "Processing a bundle, a first prekey message, a key exchange request or a response stores exactly the session state that the key agreement prescribes: both identities, version 3, root key, first chains, ratchet keys, registration ids, base key and the prekeys to announce; the sessions that were there are archived newest first, and the presented identity key is saved. In a key exchange the side with the smaller base key takes the initiator's role.", "quantifier": "every reachable store, every bundle, message and randomness", "why_tests_cant": "Two parties running the same wrong code agree with each other; all stores and all key values.", "anchors": ["axolotl/sessionbuilder.py:SessionBuilder.processPreKeyBundle", "axolotl/sessionbuilder.py:SessionBuilder.processV3", "axolotl/sessionbuilder.py:SessionBuilder.processInitiate", "axolotl/sessionbuilder.py:SessionBuilder.processResponse", "axolotl/ratchet/ratchetingsession.py:RatchetingSession", "axolotl/ecc/djbec.py:DjbECPublicKey"]}
{"id": "C57", "title": "Pinned identities", "statement": "If the application only trusts the saved identity key of a name (trust on first use), then no sequence of calls changes a saved key; every stored session of every device of that name, current or archived, is between our identity and the saved one; and every plaintext returned came with a MAC over both. Trust is asked only when a session is set up: sending and reading in an existing session do not consult it.", "quantifier": "every reachable store, every call sequence, every pinning trust callback", "why_tests_cant": "All interleavings of setups, key exchanges and messages of several devices; a single path that skips the check breaks it.", "anchors": ["axolotl/sessionbuilder.py:SessionBuilder", "axolotl/sessioncipher.py:SessionCipher", "axolotl/tests/inmemoryidentitykeystore.py:InMemoryIdentityKeyStore.isTrustedIdentity"]}
{"id": "C58", "title": "The outcome of reading a message, in every case", "statement": "For every session message offered to a stored session, decryptMsg has exactly one outcome, and it is the one a table in terms of stored values gives: the current state decides unless it refuses with InvalidMessageException, then the archived states are asked newest first. A state says: no session, other version, no agreement with the new ratchet key, key already used, more than 2000 ahead, position not a 32-bit number, MAC wrong, body not an encryption, or the plaintext with the exact next state. Any other exception is impossible, and a refusal writes nothing. A ValueError for the body needs a correct MAC under a key the session offers.", "quantifier": "every reachable store, every address, every message, all randomness", "why_tests_cant": "Tests look at one refusal at a time; which refusal wins when several apply, and that no further exception exists, is a statement about all states and messages.", "anchors": ["axolotl/sessioncipher.py:SessionCipher.decryptMsg", "axolotl/sessioncipher.py:SessionCipher.decryptWithSessionRecord", "axolotl/sessioncipher.py:SessionCipher.decryptWithSessionState", "axolotl/sessioncipher.py:SessionCipher.getOrCreateChainKey", "axolotl/sessioncipher.py:SessionCipher.getOrCreateMessageKeys"]}
{"id": "C59", "title": "The session API, in every case", "statement": "Each of the six session calls (encrypt, decryptMsg, decryptPkmsg, processPreKeyBundle, processKeyExchangeMessage, processInitKeyExchangeMessage), made in any state the API can reach, writes to the stores exactly what a list of cases in terms of stored values, key agreements, signatures and MACs says, in that order, and returns or raises exactly what it says: the bytes of the message sent, the session state set up, the position in the archive, which identity is saved, which prekey is removed, and which exception is raised when. The cases exclude each other and leave nothing out, so a whole history is determined by them.", "quantifier": "every start without sessions, every call sequence, every call with arbitrary message objects and bundles, all randomness", "why_tests_cant": "A test observes a few calls in a few states; that no state makes a call write something else, write in another order or raise something else quantifies over all histories and all inputs.", "anchors": ["axolotl/sessioncipher.py:SessionCipher", "axolotl/sessionbuilder.py:SessionBuilder", "axolotl/ratchet/ratchetingsession.py:RatchetingSession", "axolotl/state/sessionstate.py:SessionState", "axolotl/state/sessionrecord.py:SessionRecord"]}
{"id": "C60", "title": "Which bytes are messages", "statement": "For each of the five wire messages, every byte string is read as exactly what a list of cases over the protobuf grammar says: version nibble, fields in any order with repeats and unknown fields and groups, last occurrence counting, numbers cut to 32 bits, absent or empty content, keys of another type. The result is the attributes of the message object, or the exception named. A session message that is accepted is a version byte, at least six bytes of fields and eight bytes of MAC.", "quantifier": "every byte string", "why_tests_cant": "The set of byte strings is infinite; fuzzing samples it, and says nothing about the strings that were not tried or about which exception the others raise.", "anchors": ["axolotl/protocol/whispermessage.py:WhisperMessage.__init__", "axolotl/protocol/prekeywhispermessage.py:PreKeyWhisperMessage.__init__", "axolotl/protocol/keyexchangemessage.py:KeyExchangeMessage.__init__", "axolotl/protocol/senderkeymessage.py:SenderKeyMessage.__init__", "axolotl/protocol/senderkeydistributionmessage.py:SenderKeyDistributionMessage.__init__", "axolotl/util/byteutil.py:ByteUtil.split", "axolotl/protobuf/WhisperTextProtocol.proto"]}
{"id": "C61", "title": "Every group call, in every case", "statement": "After any history of group calls, each call of the group API stores and returns exactly what a list of cases says: which sender key is used, which bytes are sent, which state a message belongs to, in which order key id, signature, iteration and padding are checked, which exception each failure raises, which seeds are kept, and what an announcement contains. A failing call stores nothing. A whole history runs exactly as the list of cases says.", "quantifier": "every history of create, process, encrypt and decrypt calls from an empty store, every next call, all argument bytes and random choices", "why_tests_cant": "Calls, messages and histories are unbounded; tests cover a handful of successful exchanges and two failures, and do not say that the cases are exhaustive or exclude each other.", "anchors": ["axolotl/groups/groupcipher.py:GroupCipher.encrypt", "axolotl/groups/groupcipher.py:GroupCipher.decrypt", "axolotl/groups/groupcipher.py:GroupCipher.getSenderKey", "axolotl/groups/groupsessionbuilder.py:GroupSessionBuilder.process", "axolotl/groups/groupsessionbuilder.py:GroupSessionBuilder.create", "axolotl/protocol/senderkeymessage.py:SenderKeyMessage.verifySignature", "axolotl/groups/state/senderkeyrecord.py:SenderKeyRecord.getSenderKeyState"]}
{"id": "C62", "title": "Storage formats, byte for byte", "statement": "Session records, sender key records, one-time prekeys, signed prekeys and identity key pairs are stored as exactly the bytes of the published protobuf schema: listed tags in listed order, absent fields left out, states and chains nested. Conversely every byte string is read as exactly one thing: the listed content (last value of a field counts, occurrences of a nested message are merged, wrong wire types and unknown fields are ignored), a fresh record for the empty string where that is allowed, or the listed exception. A prekey read from storage says what its fields say: an absent id or timestamp is 0, an absent signature or private key is empty, and without a public key, or with one of another type, there is no key pair.", "quantifier": "every record whose numbers fit their field types; every byte string", "why_tests_cant": "Round-trip tests cannot notice a format change made on both sides, and never feed truncated, reordered, merged or foreign records.", "anchors": ["axolotl/protobuf/LocalStorageProtocol.proto", "axolotl/state/sessionrecord.py:SessionRecord.serialize", "axolotl/state/sessionrecord.py:SessionRecord.__init__", "axolotl/groups/state/senderkeyrecord.py:SenderKeyRecord.serialize", "axolotl/groups/state/senderkeyrecord.py:SenderKeyRecord.__init__", "axolotl/state/prekeyrecord.py:PreKeyRecord", "axolotl/state/signedprekeyrecord.py:SignedPreKeyRecord", "axolotl/identitykeypair.py:IdentityKeyPair"]}
{"id": "C63", "title": "Histories in which the application uses its stores", "statement": "Between calls the application may store and remove prekeys and signed prekeys, save identities, change its trust policy, delete sessions and register anew. Whatever it does, a call does exactly what the case list says; the bounds on archived states, receive chains and stored keys hold; no two messages carry the same ratchet key and counter (if no key is drawn twice and no request answered twice); replays stay refused while the session is kept; every session is with an identity that was trusted when it was set up; a one-time prekey is used at most once per time it was stored, so deleting a session never lets its first message in again; and stores of bytes behave like stores of records. A first message without a one-time prekey is accepted again after the session was deleted, and putting back a saved session reuses headers.", "quantifier": "every history of calls and store operations, of any length, from every start without sessions", "why_tests_cant": "Tests use stores that only the library writes to, in a handful of fixed orders; the failures here need an application action between two particular calls.", "anchors": ["axolotl/state/axolotlstore.py:AxolotlStore", "axolotl/state/prekeystore.py:PreKeyStore", "axolotl/state/signedprekeystore.py:SignedPreKeyStore", "axolotl/state/identitykeystore.py:IdentityKeyStore", "axolotl/state/sessionstore.py:SessionStore", "axolotl/sessioncipher.py:SessionCipher", "axolotl/sessionbuilder.py:SessionBuilder"]}
{"id": "C64", "title": "The size of what is stored", "statement": "A stored session record takes at least 90 bytes for every skipped message key in it and at most 47150 bytes more than 94 bytes for each; a history of N calls leaves at most 47150 + 188000*N bytes per address, and no record ever reaches 2^47 bytes, so the length limits of the format are never met and stores of bytes behave like stores of records in every history. A peer with a session can really make the record grow by 180000 bytes per message.", "quantifier": "every history of calls and store operations, of any length; every address", "why_tests_cant": "Sizes depend on arbitrarily long histories and on adversarial counters; no test stores millions of keys.", "anchors": ["axolotl/state/sessionrecord.py:SessionRecord.serialize", "axolotl/state/sessionstate.py:SessionState.setMessageKeys", "axolotl/state/sessionstate.py:SessionState.addReceiverChain", "axolotl/state/sessionrecord.py:SessionRecord.archiveCurrentState", "axolotl/sessioncipher.py:SessionCipher.getOrCreateMessageKeys"]}
{"id": "C65", "title": "The in-memory stores", "statement": "Run against the in-memory stores of the repository (dictionaries of serialised records), the library gives the replies and leaves the bytes it would with ideal stores of records, whatever the application does with the store's methods in between; loading never fails to parse and finds exactly what was stored. Two methods do not do what their names say: deleteAllSessions deletes at most the session stored first and then raises RuntimeError, and removeSignedPreKey removes nothing and raises TypeError. Deleting a session that is not there raises KeyError; removing a one-time prekey that is not there does nothing. getSubDeviceSessions lists each device with a session once.", "quantifier": "every history of library calls and store methods, of any length, from a new store; every name, address, id and record", "why_tests_cant": "The guarantee is about all interleavings of calls and store methods; the tests never call deleteAllSessions or removeSignedPreKey, and check no dictionary after a call.", "anchors": ["axolotl/tests/inmemorysessionstore.py:InMemorySessionStore", "axolotl/tests/inmemoryprekeystore.py:InMemoryPreKeyStore", "axolotl/tests/inmemorysignedprekeystore.py:InMemorySignedPreKeyStore", "axolotl/tests/inmemoryidentitykeystore.py:InMemoryIdentityKeyStore", "axolotl/tests/inmemoryaxolotlstore.py:InMemoryAxolotlStore.removeSignedPreKey"]}
{"id": "C66", "title": "The length of what is sent", "statement": "The length of every message is a function of the plaintext's length and of the numbers (counters, ids) in the message alone, given byte for byte for session, prekey, group, distribution and key exchange messages. Two plaintexts encrypted in the same state give messages of equal length exactly when they contain the same number of whole 16-byte blocks. A session message is at least 51 bytes longer than its plaintext and, up to a megabyte, at most 76; the constant ENCRYPTED_MESSAGE_OVERHEAD = 53, documented as the worst case, is exceeded by every message whose plaintext has a length of 0 to 12 modulo 16, in every session.", "quantifier": "every history of calls and store operations, every address, every plaintext below 2^62 bytes; every group store", "why_tests_cant": "The claim is about all lengths, all counters and all sessions; no test looks at a message's length.", "anchors": ["axolotl/sessioncipher.py:SessionCipher.encrypt", "axolotl/protocol/ciphertextmessage.py:CiphertextMessage.ENCRYPTED_MESSAGE_OVERHEAD", "axolotl/protocol/whispermessage.py:WhisperMessage.__init__", "axolotl/protocol/prekeywhispermessage.py:PreKeyWhisperMessage.__init__", "axolotl/groups/groupcipher.py:GroupCipher.encrypt", "axolotl/protocol/senderkeydistributionmessage.py:SenderKeyDistributionMessage.__init__", "axolotl/protocol/keyexchangemessage.py:KeyExchangeMessage.__init__"]}
{"id": "C67", "title": "The size of group records, and the group store in memory", "statement": "In every history of group calls, a stored group record takes at least 38 bytes for every key kept for a skipped iteration, and at most 42 bytes for each plus 126 for every sender key state; after N calls it takes at most N * (126 + 42 * 2^32) bytes. One message is enough to reach that order: the holder of a signing key can at any time send one message that is accepted and makes the record take 38 bytes for every iteration up to any 32-bit number. In histories of up to 2^26 calls, a store that keeps bytes, and the library's InMemorySenderKeyStore, which serialises a record each time it is loaded, give exactly the replies and the records of a store of records.", "quantifier": "every history of group calls with 32-byte keys, every group name, every 32-bit iteration", "why_tests_cant": "The sizes range over all histories, and the largest records have 160 gigabytes; tests use a handful of messages.", "anchors": ["axolotl/tests/groups/inmemorysenderkeystore.py:InMemorySenderKeyStore", "axolotl/groups/state/senderkeyrecord.py:SenderKeyRecord.serialize", "axolotl/groups/state/senderkeystate.py:SenderKeyState.addSenderMessageKey", "axolotl/groups/groupcipher.py:GroupCipher.getSenderKey"]}
{"id": "C68", "title": "Calls that overlap", "statement": "The library takes no locks; think of every access to a store as one step. Threads may make any number of session calls, provided that calls of different threads are for different addresses, concern different names where both look at or save an identity, and name different one-time prekeys. Then, however the scheduler switches between steps, every call gives what it gives when its thread runs alone, and replies and stores are those of running the threads one after the other. The same holds for group calls on different sender key names. No call ever blocks. Whatever else is running, an encrypt, a decryptMsg, a processInitKeyExchangeMessage or a group call gives what it would give in the stores of one moment of the run. Without the provision this is all that holds: any calls whatsoever can overlap so that each gives what it gives in the stores before all of them; so one message can be accepted by any number of overlapping calls, and two overlapping calls of encrypt can use the same message keys for different plaintexts.", "quantifier": "all stores, any number of threads, all lists of calls with all arguments, all interleavings of their store accesses", "why_tests_cant": "The number of interleavings grows exponentially with the calls; the tests run one call at a time.", "anchors": ["axolotl/sessioncipher.py:SessionCipher.encrypt", "axolotl/sessioncipher.py:SessionCipher.decryptMsg", "axolotl/sessioncipher.py:SessionCipher.decryptPkmsg", "axolotl/sessionbuilder.py:SessionBuilder.processPreKeyBundle", "axolotl/sessionbuilder.py:SessionBuilder.processKeyExchangeMessage", "axolotl/groups/groupcipher.py:GroupCipher.encrypt", "axolotl/groups/groupcipher.py:GroupCipher.decrypt", "axolotl/groups/groupsessionbuilder.py:GroupSessionBuilder.create"]}
{"id": "C69", "title": "Store operations that fail", "statement": "A store operation may raise an exception of its own. The exception leaves the call, and the changes made are the first of those the call makes otherwise, in order: none if a load failed; else those before the failing store or remove, with or without that one, as the store had it. So each stored session is the old one or the one a successful call stores. Encrypting, decrypting in an established session, asking for a key exchange and all group calls have then done everything or nothing, and can be tried again any number of times without a trace as long as the failing write was not made. A prekey message can be tried again as long as no attempt has stored the session and gives the same plaintext, if the application still trusts the identity it may have saved. A history of group calls with faults here and there has the replies and the final store of the history without the calls whose fault left nothing stored.", "quantifier": "all stores, all calls with all arguments, the fault at any access, with or without its effect; any number of failed attempts; all group histories", "why_tests_cant": "Every access of every call would have to fail in turn, in every state; the tests use stores in memory that never fail.", "anchors": ["axolotl/sessioncipher.py:SessionCipher.encrypt", "axolotl/sessioncipher.py:SessionCipher.decryptMsg", "axolotl/sessioncipher.py:SessionCipher.decryptPkmsg", "axolotl/sessionbuilder.py:SessionBuilder.processPreKeyBundle", "axolotl/groups/groupcipher.py:GroupCipher.encrypt", "axolotl/groups/groupcipher.py:GroupCipher.decrypt"]}
{"id": "C70", "title": "Several sessions between two parties", "statement": "Two parties start sessions with each other as often as they like, from bundles that offer a one-time prekey each; both may do so at the same time; messages of all sessions are lost, repeated and reordered. A message of any of the sessions, not accepted before and within the limits (at most 2000 ahead, its chain not dropped), decrypts to what was encrypted, and its session becomes the one the receiver sends in; a message accepted before is refused as a duplicate and changes nothing but perhaps the saved identity. This holds as long as the session is still in the receiver's record and the other sessions there refuse the message; the latter follows if its ratchet key is new to them and it carries no valid MAC for their keys. Delivering a message leaves all other sessions in the record as they are while the record has at most 40 states; as long as no more than 41 states can have come up, every party keeps every session it joined. No session is in a record twice. A party sends in the session it started or accepted a new message in, whichever was later, and only an exhausted counter can stop it.", "quantifier": "all lawful primitives, all stores at the beginning, any number of sessions, all orders of starting, sending and delivering, and any other calls in between", "why_tests_cant": "The tests try a few fixed interleavings of two simultaneous sessions; the number of sessions, messages and orders is unbounded.", "anchors": ["axolotl/sessioncipher.py:SessionCipher.decryptWithSessionRecord", "axolotl/sessionbuilder.py:SessionBuilder.processV3", "axolotl/sessionbuilder.py:SessionBuilder.processPreKeyBundle", "axolotl/state/sessionrecord.py:SessionRecord.promoteState", "axolotl/state/sessionrecord.py:SessionRecord.archiveCurrentState"]}
{"id": "C71", "title": "Stores that hand out the object they keep", "statement": "A store may return, from loadSession and loadSenderKey, the very object it keeps instead of a copy. If the record object at the address was made from stored bytes, every call has the same result as with a store that copies; if it succeeds the stores are the same too. If it raises an exception, the stores are the same unless the call was an encryption with the send counter at its last value (then only the key of the sending chain has changed) or was one that sets up a session (then the session that was current is in the archive and the current one is whatever was reached). Sending, receiving in a known session, starting a key exchange and setting up the first session give the same results and stores over any history. A store that only ever keeps objects never archives a session: the record object stays marked as new, so every record has the current session only, and a bundle or prekey message for another session discards the previous one. Then a message still on its way in the previous session is rejected, which a store that copies accepts; and after a forged answer to a key exchange, refused with InvalidKeyException, the peer cannot read the next message. For group messages the results are the same and the store as well, unless decryption raised an exception on a message with a valid signature; then the key of the genuine message may be gone.", "quantifier": "all primitives, all stores, all calls, all histories", "why_tests_cant": "The in-memory stores of the tests serialize the session records, so no test runs with shared session objects; the differences only show after a failing call or a second session, and sameness is a statement about all calls on all records.", "anchors": ["axolotl/sessioncipher.py:SessionCipher.encrypt", "axolotl/sessioncipher.py:SessionCipher.decryptPkmsg", "axolotl/sessionbuilder.py:SessionBuilder.processPreKeyBundle", "axolotl/sessionbuilder.py:SessionBuilder.processResponse", "axolotl/state/sessionrecord.py:SessionRecord.isFresh", "axolotl/state/sessionrecord.py:SessionRecord.archiveCurrentState", "axolotl/groups/groupcipher.py:GroupCipher.decrypt"]}
{"id": "C72", "title": "Groups as a whole", "statement": "Take any number of members, each with its own sender-key store, and any number of groups; calls happen in any order, announcements arrive as they were made and in any order or not at all, group messages may be lost, repeated, reordered or made up. Each sender-key name (group and sender) belongs to one member, and nobody else can sign for it. Then: the i-th message sent under a name has iteration i, and all messages under a name have the same key id. A member who first took up an announcement made after k messages reads every message from number k on, whichever others were read before or lost, with the plaintext that was sent; reads each at most once, even if the signature is changed; gets DuplicateMessageException for those already read and for those before number k; and gets NoSessionException for everything if no announcement was taken up. Whatever a member reads was sent by the owner. The owner gets DuplicateMessageException for its own messages. Only the owner can send, and can do so as long as the counter fits 32 bits; it can announce the key again at any time, which states how many messages have been sent and changes nothing.", "quantifier": "all primitives, all sets of members, all groups, all interleavings of calls, all message contents", "why_tests_cant": "The tests run one sender and one receiver through a fixed order; the claim is about every order of sending, announcing, joining and delivering with any number of members.", "anchors": ["axolotl/groups/groupcipher.py:GroupCipher.encrypt", "axolotl/groups/groupcipher.py:GroupCipher.decrypt", "axolotl/groups/groupsessionbuilder.py:GroupSessionBuilder.process", "axolotl/groups/groupsessionbuilder.py:GroupSessionBuilder.create", "axolotl/groups/state/senderkeyrecord.py:SenderKeyRecord.addSenderKeyState"]}
{"id": "C73", "title": "Bytes as text, as integers, joined and split", "statement": "decodeHex gives the bytes that the text denotes in hexadecimal, in either case, and raises ValueError for every text that denotes none; what hex() prints is read back. intToByteArray replaces the four bytes at the offset by the integer modulo 2^32, highest byte first, changes nothing else, and raises IndexError, having changed nothing, exactly if there is no room. combine joins what its arguments stand for, or raises the exception for the first that stands for nothing (an int that is no byte: ValueError, a non-empty str: TypeError). split cuts into consecutive parts: combining them gives the part of the array the lengths cover. generateIdentityKeyPair always succeeds with the key pair of the random bytes, although it decodes a leftover literal on the way.", "quantifier": "all texts, arrays, offsets, integers, argument lists, random bytes", "why_tests_cant": "The claims are equivalences over all texts, arrays and integers, with negative integers and short arrays among them; the tests use a handful of values.", "anchors": ["axolotl/util/hexutil.py:HexUtil.decodeHex", "axolotl/util/byteutil.py:ByteUtil.intToByteArray", "axolotl/util/byteutil.py:ByteUtil.combine", "axolotl/util/byteutil.py:ByteUtil.split", "axolotl/util/keyhelper.py:KeyHelper.generateIdentityKeyPair"]}
{"id": "C74", "title": "Decoding a key in the middle of an array", "statement": "decodePoint(array, offset) and IdentityKey(array, offset) give the key that starts at the offset: the same as decoding the array from the offset on.", "quantifier": "all arrays, all offsets", "why_tests_cant": "Every caller passes offset 0, so no test sees that the first byte of the array is checked as well.", "anchors": ["axolotl/ecc/curve.py:Curve.decodePoint", "axolotl/identitykey.py:IdentityKey.__init__"]}
{"id": "C75", "title": "The order of public keys", "statement": "__lt__ and __cmp__ of public keys are defined exactly for keys of 32 bytes and raise struct.error otherwise. They agree with each other and with __eq__, comparing the other way round gives the opposite, and the order (that of the eight big-endian signed words) is a strict total order. So in a key exchange two parties with different base keys always take different roles.", "quantifier": "all byte strings", "why_tests_cant": "Transitivity, totality and agreement are statements about all pairs and triples of keys.", "anchors": ["axolotl/ecc/djbec.py:DjbECPublicKey.__lt__", "axolotl/ecc/djbec.py:DjbECPublicKey.__cmp__"]}
{"id": "C76", "title": "What messages say about themselves", "statement": "isLegacy says of bytes whether reading them as a session message raises LegacyMessageException; reading them as a key exchange message raises it for version 2 too. isInitiate, isResponse and isResponseForSimultaneousInitiate are the three lowest bits of the flags and arrive unchanged with the message, even if the flags do not fit the five bits there are on the wire, in which case the rest of them is merged into the sequence number. The four kinds of messages have the types 2, 3, 4 and 5, and encrypt returns a message of type 3 exactly if the session's prekey message is unanswered, otherwise of type 2.", "quantifier": "all byte strings, all key exchange messages, all session states and plaintexts", "why_tests_cant": "The tests look at a few messages made by the library itself.", "anchors": ["axolotl/protocol/whispermessage.py:WhisperMessage.isLegacy", "axolotl/protocol/keyexchangemessage.py:KeyExchangeMessage.isResponse", "axolotl/protocol/keyexchangemessage.py:KeyExchangeMessage.isInitiate", "axolotl/protocol/ciphertextmessage.py:CiphertextMessage.getType", "axolotl/sessioncipher.py:SessionCipher.encrypt"]}
{"id": "C77", "title": "Keys, agreements and signatures do what the protocol relies on", "statement": "With the actual primitives (HMAC-SHA-256, Curve25519 and its signatures as in axolotl_curve25519, AES): the public key of a private key is the first coordinate of that multiple of the base point, which has prime order; calculateAgreement gives both sides the first coordinate of the multiple by the product of the two private keys; a signature made with calculateSignature verifies under the signer's public key for every private key that is not a multiple of the order, in particular for every generated one; AES decryption inverts encryption. Two generated private keys have the same public key exactly if they are equal or add up to eight times the order.", "quantifier": "all private keys, random bytes, messages, AES keys and blocks", "why_tests_cant": "The tests check one agreement, one signature and fifty random agreements; that the two sides always agree needs the group law of the curve and the primality of its order.", "anchors": ["axolotl/ecc/curve.py:Curve.generateKeyPair", "axolotl/ecc/curve.py:Curve.calculateAgreement", "axolotl/ecc/curve.py:Curve.calculateSignature", "axolotl/ecc/curve.py:Curve.verifySignature", "axolotl/kdf/hkdf.py:HKDF.expand", "axolotl/sessioncipher.py:SessionCipher.getCiphertext"]}
{"id": "C78", "title": "Our private key matters to every agreement", "statement": "Whatever public key is received, calculateAgreement depends on our private key: there are private keys with different secrets.", "quantifier": "all received public keys", "why_tests_cant": "The keys for which it fails are a handful among 2^256, and no test uses them.", "anchors": ["axolotl/ecc/curve.py:Curve.calculateAgreement", "axolotl/ecc/curve.py:Curve.decodePoint", "axolotl/ratchet/ratchetingsession.py:RatchetingSession.initializeSessionAsBob"]}
{"id": "C79", "title": "Stored sessions of version 2 go on working, apart from those of version 3", "statement": "If two stores hold the two ends of a session of version 2 (the version field 2, 0 or missing), then in any conversation from there every message within the limits decrypts once to exactly what was encrypted, a second delivery is refused as a duplicate, either side can go on sending, and no two messages carry the same header. The messages have version byte 0x23, keys from HKDFv2 and a MAC over the message only, so what decryption returns does not depend on the identities in the stored states. A message is only decrypted by a stored state of its own version, so processing a prekey bundle over such a session does not change what happens to its messages. In a session of any version other than 2 and 3 encrypt raises AssertionError and stores nothing.", "quantifier": "all pairs of matching version-2 states, all interleavings of sends, deliveries and other calls, all messages", "why_tests_cant": "The tests create sessions through the library, which makes version 3 only; version 2 is exercised by two fixed key derivation values.", "anchors": ["axolotl/state/sessionstate.py:SessionState.getSessionVersion", "axolotl/kdf/hkdf.py:HKDF.createFor", "axolotl/kdf/hkdfv2.py:HKDFv2", "axolotl/sessioncipher.py:SessionCipher.encrypt", "axolotl/sessioncipher.py:SessionCipher.decryptWithSessionState", "axolotl/protocol/whispermessage.py:WhisperMessage.getMac"]}
{"id": "C80", "title": "Keys that have been used are gone from the stores", "statement": "After encrypt the stores are the same for any two sending chain keys with the same successor, whatever was encrypted. After a message is read along a chain they are the same for any two receive chain keys that agree on the keys of the skipped messages and on the chain key after this message; after a skipped message is read they do not depend on the key that was kept for it; after a ratchet step they do not depend on the root key, private ratchet key and sending chain key before it, except through the new root key and receive chain. In any conversation the keys kept for received messages are exactly those, under the last five ratchet keys of the peer, of messages passed over and not yet accepted. The same holds for sender keys of groups. The limit: a key exchange that we started leaves its private base key in the archived state after the session is established.", "quantifier": "all stores, session states, keys, messages and plaintexts; all interleavings of a conversation", "why_tests_cant": "It compares pairs of runs with different secrets, over all secrets; a test sees one run, and a key left behind does not change what the next calls return.", "anchors": ["axolotl/sessioncipher.py:SessionCipher.encrypt", "axolotl/sessioncipher.py:SessionCipher.getOrCreateChainKey", "axolotl/sessioncipher.py:SessionCipher.getOrCreateMessageKeys", "axolotl/state/sessionstate.py:SessionState.removeMessageKeys", "axolotl/state/sessionstate.py:SessionState.setSenderChain", "axolotl/groups/groupcipher.py:GroupCipher.getSenderKey", "axolotl/groups/state/senderkeystate.py:SenderKeyState.removeSenderMessageKey", "axolotl/sessionbuilder.py:SessionBuilder.processResponse"]}
{"id": "C81", "title": "Anyone can close a name to its owner", "statement": "A finding. If no identity key is saved for a name, a prekey message with any identity key, any base key and any inner message, naming only the recipient's published prekey ids, makes the recipient save that identity key for the name, whether the message is accepted or raises an exception. With a trust callback that sticks to the first key, every later prekey message, bundle and key exchange for any device of that name with another identity key raises UntrustedIdentityException and stores nothing, after any further calls.", "quantifier": "all stores, addresses, messages, randomness, all lawful primitives, all later call sequences", "why_tests_cant": "It says what one unauthenticated message does to all later histories; tests check that a bad message raises, not what is kept.", "anchors": ["axolotl/sessionbuilder.py:SessionBuilder.process", "axolotl/sessioncipher.py:SessionCipher.decryptPkmsg", "axolotl/sessionbuilder.py:SessionBuilder.processPreKeyBundle", "axolotl/sessionbuilder.py:SessionBuilder.processKeyExchangeMessage"]}
{"id": "C82", "title": "A distribution message has to be serialized first", "statement": "A finding. The object GroupSessionBuilder.create returns cannot be given to GroupSessionBuilder.process: in every store and for every name it raises TypeError and nothing is stored, since its chain key is a bytearray, which a protobuf field does not take. Serialized and parsed again, the same message is accepted in every store and appends a state with the sender's id, position, chain key and public key and no private key.", "quantifier": "all stores, names, randomness; for the second part all messages whose public key has 32 bytes and whose chain key is shorter than 2^63 bytes", "why_tests_cant": "The tests serialize and parse the message in between; that this cannot be left out for any record is a statement about all of them.", "anchors": ["axolotl/groups/groupsessionbuilder.py:GroupSessionBuilder.create", "axolotl/groups/groupsessionbuilder.py:GroupSessionBuilder.process", "axolotl/groups/state/senderkeystate.py:SenderKeyState.__init__", "axolotl/protocol/senderkeydistributionmessage.py:SenderKeyDistributionMessage.__init__"]}
{"id": "C83", "title": "Parameter builders", "statement": "For every sequence of setter calls on a builder of Alice's, Bob's or symmetric parameters, in any order, repeated, and with None as an argument: create returns the parameters in which each key is the one passed last, and raises ValueError exactly when a required key was never passed or was None the last time (the one-time prekeys are optional). The library's own uses of the builders never raise and give the parameters the other theorems are about.", "quantifier": "all finite sequences of setter calls; all states, stores and messages for the library's uses", "why_tests_cant": "Tests build parameters in one order, once, completely.", "anchors": ["axolotl/ratchet/aliceaxolotlparameters.py:AliceAxolotlParameters", "axolotl/ratchet/bobaxolotlparamaters.py:BobAxolotlParameters", "axolotl/ratchet/symmetricaxolotlparameters.py:SymmetricAxolotlParameters", "axolotl/ratchet/ratchetingsession.py:RatchetingSession.initializeSession", "axolotl/sessionbuilder.py:SessionBuilder.processV3", "axolotl/sessionbuilder.py:SessionBuilder.processPreKeyBundle"]}
{"id": "C84", "title": "The outer fields of a prekey message are not authenticated", "statement": "A finding. (a) If the base key of a prekey message belongs to a state in our record, decryptPkmsg returns what decryptMsg returns for the inner message and writes the same, plus saveIdentity; registration id and prekey ids do not matter. (b) If the base key is unknown and the message on its own is refused as invalid, but its inner message is one that decryptMsg would accept, decryptPkmsg accepts it with the same plaintext; the one-time prekey it names is removed, and a state for the made-up base key is inserted into the record behind the current one. So a person on the path can take a genuine message and with it delete one-time prekeys and fill the record, without a secret.", "quantifier": "all stores, records with fewer than 40 previous states (for b), messages, randomness", "why_tests_cant": "The tests send prekey messages as the library builds them.", "anchors": ["axolotl/sessioncipher.py:SessionCipher.decryptPkmsg", "axolotl/sessionbuilder.py:SessionBuilder.processV3", "axolotl/sessioncipher.py:SessionCipher.decryptWithSessionRecord", "axolotl/protocol/prekeywhispermessage.py:PreKeyWhisperMessage.__init__"]}
{"id": "C85", "title": "A first message whose base key is written in another way is accepted again", "statement": "A finding. X25519 takes no notice of the highest bit of a public key, but the library compares base keys as bytes to recognise a session it already has. Let a first message that names the last-resort prekey (id 2^24-1, never removed; or no one-time prekey) have been accepted. The same message with its base key replaced by another key that has the same agreements with all private keys is accepted as a new first message, with the same plaintext, after any further calls, as long as the sender is trusted and no state remembers the new bytes. With the real primitives, changing the highest bit of the base key is such a replacement, so the first message of a session can be replayed once without any secret. The unchanged message would be recognised as a duplicate. The changed message can be written as bytes that the parser reads. If the first message names an ordinary one-time prekey and the changed message arrives first, then it is accepted in its place, the one-time prekey is deleted, and the genuine message is refused.", "quantifier": "all crypto instances obeying the laws (and the real one), stores, messages, histories of calls, randomness", "why_tests_cant": "The tests replay messages unchanged and generate base keys in canonical form only.", "anchors": ["axolotl/sessionbuilder.py:SessionBuilder.processV3", "axolotl/state/sessionrecord.py:SessionRecord.hasSessionState", "axolotl/sessioncipher.py:SessionCipher.decryptPkmsg", "axolotl/ecc/djbec.py:DjbECPublicKey.serialize", "axolotl/util/medium.py:Medium.MAX_VALUE"]}
{"id": "C86", "title": "A conversation withstands an attacker on the network who cannot forge a MAC", "statement": "Two parties have a session (after a bundle or a key exchange). Besides what C37 allows (loss, repetition, any order, other calls), an attacker delivers to either side, at any moments, any bytes as a message of either type. Assumed of each of their messages: if its MAC verifies on the session of the conversation, then the peer sent exactly these bytes (and the limits of C37 are kept); it does not verify on other states in the record; the application trusts no other identity key for the peer; and if it verifies on the session it would set up, then it has the base key and prekeys of a setup message of the peer. Then: (1) whatever is accepted has the plaintext of a message which the peer sent and which was not accepted before, whatever it is wrapped in; (2) whatever is refused changes no session and no prekey, and saves no identity key but the peer's own; (3) every message of the peer not yet accepted still decrypts to its plaintext and accepted ones are refused as duplicates, as in C37; (4) both sides can go on sending; (5) no message is accepted twice; (6) any such delivery leads to a next moment of the conversation, so (1)-(5) hold after any number of them.", "quantifier": "all crypto instances obeying the laws, starts, executions of any length with any attacker messages, randomness", "why_tests_cant": "The tests deliver a few hand-made wrong messages; they cannot range over all bytes at all moments of all conversations, nor see that later messages still get through.", "anchors": ["axolotl/sessioncipher.py:SessionCipher.decryptMsg", "axolotl/sessioncipher.py:SessionCipher.decryptPkmsg", "axolotl/sessioncipher.py:SessionCipher.decryptWithSessionRecord", "axolotl/sessionbuilder.py:SessionBuilder.processV3", "axolotl/protocol/whispermessage.py:WhisperMessage.verifyMac", "axolotl/state/sessionrecord.py:SessionRecord.promoteState"]}
{"id": "C87", "title": "Any number of parties talk at the same time without disturbing each other", "statement": "Any number of parties, each with one set of stores, talk with any number of others at the same time, in conversations as in C37 with an attacker as in C86; conversations begin at any moment, and any other calls are made that leave them alone. Two conversations of a party have different addresses, share a name only if the peers have one identity key (two devices of one person), and use different one-time prekeys (except that of last resort). Then: (1) every conversation has gone as it would alone between its two sides; so (2) in each of them every message of the peer not yet accepted decrypts to its plaintext and accepted ones are refused as duplicates; (3) whatever is accepted as coming from the peer of a conversation, even taken from another conversation, was sent by this peer in this conversation and not accepted before; (4) no message is accepted twice; (5) both sides can go on sending; (6) any delivery by the attacker leads to a next moment, provided it uses up no one-time prekey that another conversation needs. (7) The proviso is needed: a genuine message of one peer, wrapped by the attacker into a prekey message that names the prekey in another peer's first message, is accepted, and the latter is refused from then on.", "quantifier": "all crypto instances obeying the laws, sets of parties, executions of any length with any interleaving of conversations, attacker messages, randomness", "why_tests_cant": "The tests have two parties with one conversation each; interference between conversations over shared stores shows only in interleavings of several.", "anchors": ["axolotl/sessioncipher.py:SessionCipher", "axolotl/sessionbuilder.py:SessionBuilder", "axolotl/sessionbuilder.py:SessionBuilder.processV3"]}
{"id": "C88", "title": "Groups whose keys travel in pairwise conversations", "statement": "Parties talk as in C87 with an attacker on the network; they also belong to groups as in C72, and learn the sender keys of others only from announcements that came in a conversation with the owner of the name. The owner writes as announcement for a name only what GroupSessionBuilder.create returned for it; how announcements are written as plaintexts is arbitrary. Nobody can forge signatures of a sender key. Then: (1) whatever is in the inbox of a party as coming from another was sent by it in one of their conversations; (2) the conversations go as in C87 and the groups as in C72, so the channel that nobody can write to, which C72 assumes, is not an assumption; (3) what a member reads under a name was sent by its owner with this plaintext and is read at most once; (4) a member that has processed an announcement reads every later message of the sender it has not yet read; (5) an announcement sent by the owner and not yet delivered can be delivered and processed, and from then on the member reads every message the owner sent from the announced iteration on.", "quantifier": "all crypto instances obeying the laws, sets of parties and names, executions of any length with any interleaving of conversations, group calls and attacker messages, randomness", "why_tests_cant": "The tests hand the distribution message over in memory and never use groups and pairwise sessions together.", "anchors": ["axolotl/groups/groupsessionbuilder.py:GroupSessionBuilder", "axolotl/groups/groupcipher.py:GroupCipher", "axolotl/sessioncipher.py:SessionCipher"]}
{"id": "C89", "title": "What an attacker with stolen keys can read", "statement": "In a symbolic model of the key schedule (every private key, agreement, HMAC and ciphertext is a free term; the attacker records all messages, gets any leaked values and may compute HMACs, agreements and decryptions without end) whose terms evaluate to the actual contents of session states and messages of a conversation: (1) from any leak exactly those plaintexts, MAC keys, root keys, chain keys and private keys can be computed that follow from a leaked message key, chain key at or before it, or root and ratchet keys before it, or the setup keys. (2) Forward secrecy: an attacker who has recorded everything and then steals the current session states of any sides, with all identity keys, the signed prekey and all ratchet keys ever used, can read a message exactly if the state of its recipient is stolen, the recipient has not accepted it, and could still decrypt it. (3) Healing: if all states and every private key leak at one moment but later ratchet keys do not, then no message in an epoch after the next one can be read; a side that has accepted a message under a ratchet key generated after the theft sends only messages that the thief cannot read. (4) The limit: the setup keys of one side with the first ratchet key open all messages under the first ratchet keys, also those accepted; the one-time prekey is gone from the store once the first message has been accepted, unless it has the last-resort id.", "quantifier": "all crypto instances obeying the laws, conversations begun by bundle or key exchange, executions of any length (sends, deliveries in any order, duplicates, other calls), moments of the theft, sets of stolen states, keys and plaintexts, and all computations of the attacker", "why_tests_cant": "Secrecy is a statement about everything an attacker can compute from what leaked; tests only check that the owner can decrypt.", "anchors": ["axolotl/sessioncipher.py:SessionCipher.getOrCreateChainKey", "axolotl/ratchet/rootkey.py:RootKey.createChain", "axolotl/ratchet/chainkey.py:ChainKey", "axolotl/ratchet/ratchetingsession.py:RatchetingSession", "axolotl/state/sessionstate.py:SessionState"]}
{"id": "C90", "title": "Who can read and sign group messages after records or announcements leak", "statement": "In a symbolic model of the sender-key schedule (chain keys, message seeds, HMACs, ciphertexts and signatures are free terms) whose terms evaluate to the actual contents of sender-key records, announcements and messages: (1) from any leak exactly those plaintexts, keys and signatures can be computed that follow from a leaked message seed, a chain key at or before the message, or the signing key. (2) An attacker who reads the stored records of some members at some moment, intercepts some announcements and sees all messages before and after, can read a message exactly if an intercepted announcement was made before it, or the owner's record is stolen and the message was sent later (or the owner has taken up an own announcement made before it), or the record of a member is stolen who took up an announcement made before it and has not read it, or took up another announcement of the same key, made before it, later on. (3) So messages that the stolen members have read stay secret if each of them took up one announcement; the claim is false without this condition, because the state added by the second announcement keeps its chain key forever. (4) There is no healing: a stolen record opens everything sent later. (5) Only the owner's record lets anybody sign.", "quantifier": "all crypto instances obeying the laws, members, groups and executions of any length (sends, announcements, deliveries in any order, injected bytes that do not carry a forged signature), moments of the theft, sets of stolen records, announcements and plaintexts, and all computations of the attacker", "why_tests_cant": "Secrecy is a statement about everything an attacker can compute from what leaked; tests only check that members can decrypt.", "anchors": ["axolotl/groups/groupcipher.py:GroupCipher", "axolotl/groups/groupsessionbuilder.py:GroupSessionBuilder.process", "axolotl/groups/state/senderkeyrecord.py:SenderKeyRecord.addSenderKeyState", "axolotl/groups/ratchet/senderchainkey.py:SenderChainKey", "axolotl/groups/ratchet/sendermessagekey.py:SenderMessageKey"]}
{"id": "C91", "title": "Either side could have written the whole conversation alone", "statement": "(1) After a first contact, the initiator's session is what the owner of the bundle computes from the private keys of the bundle and the initiator's public identity key; the recipient's session after the first message is what the initiator computes from its own private keys and the recipient's public keys. (2) Everything either of them sends and reads in the session from then on, whatever is delivered, is the same, byte for byte, as what comes out of the session written by the other one, in stores with any identity key. (3) Hence whoever has the private keys of a bundle can send its owner a first message as from anybody whose identity key the owner trusts; it is accepted and that identity is saved. (4) In every reachable state: who can read a message has the keys to write one with the same header and any other plaintext, which is accepted in its place with the same effect. (5) The exception are key exchange messages: they carry a signature under the sender's identity key that everybody can check.", "quantifier": "all crypto instances obeying the laws, keys, randomness, plaintexts, stores, sequences of sends and deliveries of any length, and for (4) all reachable stores", "why_tests_cant": "It is an equality between what two different parties can compute, over all keys and all conversations; the tests only run the honest programs.", "anchors": ["axolotl/ratchet/ratchetingsession.py:RatchetingSession", "axolotl/sessionbuilder.py:SessionBuilder.processPreKeyBundle", "axolotl/sessioncipher.py:SessionCipher", "axolotl/protocol/whispermessage.py:WhisperMessage.getMac"]}
{"id": "C92", "title": "Restoring a backup in the middle of a conversation", "statement": "A side of a conversation puts back the stores it had at an earlier moment while its peer has moved on. (1) If the peer has accepted nothing that was sent after the backup, the result is an ordinary moment of the conversation, in which the restored side did nothing since; so everything can be read as in C37, including what the restored side had already read since the backup. (2) What either side wrote under a ratchet key that existed at the backup, in whichever continuation, is refused as a duplicate exactly where a message with the same ratchet key and number was accepted, and otherwise decrypted within the limits: the restored side reads old messages again, and its own new messages are lost when their numbers were used before. (3) What it sends first carries the ratchet key, number, cipher key and IV of what it sent first from that state before. (4) If the peer has seen no ratchet key generated by the restored side after the backup, then once the restored side has read one message of the peer under a ratchet key new to it, the conversation is intact for good, as if the messages sent under forgotten ratchet keys had not been sent. (5) Otherwise the restored side may refuse everything the peer writes from then on (a concrete run).", "quantifier": "all lawful crypto instances, all conversations (C37's: any start, any order, losses, repetitions, other calls), all pairs of moments, either side restored, all later continuations", "why_tests_cant": "Needs two diverging continuations of the same arbitrary history; no finite set of runs covers where the backup and the restore fall relative to the ratchet turns.", "anchors": ["axolotl/sessioncipher.py:SessionCipher.encrypt", "axolotl/sessioncipher.py:SessionCipher.decryptWithSessionState", "axolotl/sessioncipher.py:SessionCipher.getOrCreateChainKey", "axolotl/sessioncipher.py:SessionCipher.getOrCreateMessageKeys"]}
{"id": "C93", "title": "Groups whose members restore backups", "statement": "Groups as in C72 (any members, groups, interleavings; group messages may be lost, reordered, repeated, injected), but any member may put back any earlier state of its sender-key store at any moment and as often as it likes, as long as the backup of a member contains the sender keys that member created. For each store consider what it remembers, i.e. the calls made in its own timeline. (1) Only the owner sends under a name; the next message gets the first number greater than all numbers its store remembers having sent or read, so forgotten numbers are given out again. (2) Messages with one number are encrypted with one key and one IV, so two of them have the same body exactly if they say the same. (3) A member reads every message ever sent, in whichever timeline of the owner, whose number is not before the announcement its store took up first and not used in its store; the owner reads its own messages if its store has forgotten them. (4) A message whose number the store has used is refused as a duplicate and nothing is stored, even if it is a different message; so of two messages with one number a store accepts at most one. (5) Messages numbered before the announcement are refused, and without an announcement everything is. (6) Whatever anyone has ever read was sent by the owner with that plaintext. (7) After a restore a member reads again what it had read since the backup.", "quantifier": "all lawful crypto instances, all member sets, all assignments of names to owners, all histories of calls and restores", "why_tests_cant": "Restores create arbitrarily branching timelines of several members at once; the claims speak of messages from abandoned branches.", "anchors": ["axolotl/groups/groupcipher.py:GroupCipher.encrypt", "axolotl/groups/groupcipher.py:GroupCipher.decrypt", "axolotl/groups/groupcipher.py:GroupCipher.getSenderKey", "axolotl/groups/groupsessionbuilder.py:GroupSessionBuilder.process", "axolotl/groups/groupsessionbuilder.py:GroupSessionBuilder.create"]}
{"id": "C94", "title": "What is said leaves no trace but in the encrypted body", "statement": "(1) On any stores: whether `SessionCipher.encrypt` succeeds, which exception it raises, what it writes to the stores, the kind of the message and every field of it but the encrypted body and the MAC are the same for every plaintext; its length is the same for plaintexts with the same number of whole 16-byte blocks. (2) For every conversation as in C37 (any order of sending, losing, reordering, repeating, other calls) and any other plaintexts, the run with the same events, the same randomness and these plaintexts instead is possible too; at its end all stores of both sides, the accepted messages and the ratchet keys are the very same as in the first run, and message by message the ciphertexts agree on the outside. So stores (and backups of them) do not depend on what was said. (3) From two such moments a delivery has the same effect on the stores, and either returns in each run what was said in it, or is refused as a duplicate in both. (4) Groups: with a generated signing key, success, exception, stored record, key id, iteration and the form of the message do not depend on the plaintext nor on the signature randomness; two accepted messages with the same key id and iteration leave the same record behind. (5) Groups as a whole: for every run of any number of members, groups and messages as in C72 (announcements and messages lost, reordered, repeated, re-signed, garbage arriving, calls refused) and any other plaintexts, the run with the same calls, the same randomness and these plaintexts instead is possible too, and at its end the sender-key stores of all members are the very same as in the first run. Under each name as many messages were sent, with the same key ids and iterations, and as long as each other exactly if the plaintexts take up the same number of 16-byte blocks; the members have processed the same announcements and read the messages of the same numbers in the same order. (6) At two such moments delivering message number i to any member has the same effect on the store, and is either read in each run as what was said in it, or refused with the same exception in both.", "quantifier": "all lawful crypto instances, all stores, all plaintexts; all conversations and all group runs, and all replacements of their plaintexts", "why_tests_cant": "It relates two executions (non-interference), for all pairs of plaintext sequences and all schedules; a test sees one execution at a time.", "anchors": ["axolotl/sessioncipher.py:SessionCipher.encrypt", "axolotl/sessioncipher.py:SessionCipher.decryptMsg", "axolotl/sessioncipher.py:SessionCipher.decryptPkmsg", "axolotl/sessioncipher.py:SessionCipher.decryptWithSessionState", "axolotl/protocol/whispermessage.py:WhisperMessage.__init__", "axolotl/groups/groupcipher.py:GroupCipher.encrypt", "axolotl/groups/groupcipher.py:GroupCipher.decrypt"]}
{"id": "C95", "title": "Who can forge a message: exactly those who can compute a MAC key", "statement": "C86 assumes of each attacker message that it verifies only if the peer sent it; here this follows from how the attacker makes it. The attacker has some leaked values (private keys, root keys, chain keys, message keys), the MACs of all messages sent, and all bytes; they compute with agreement, HMAC, HKDF blocks, joining and splitting. (1) From that they get the MAC key of message k of epoch j iff the leaked values give it by the rules of C89 (the MACs sent do not help); a MAC under it of anything they can compute iff they get the key, or it is the MAC of a message that was sent; the MAC key for a ratchet key of their own iff they get the root key; the MAC key of a setup of their own in the name of the peer iff they have the peer's identity key or our signed prekey. (2) At each moment of a conversation with an attacker every MAC key under which some message may verify - on the session, or on the session that a setup message in the peer's name makes - is one of those in (1). (3) So a computed message that verifies is, byte for byte, one the peer sent, or the attacker can compute one of these keys. (4) An attacker with nothing of the session states, without the keys that give the setup, without the peer's identity key and our signed prekeys (but, for instance, with our identity key and all ratchet keys but the first) satisfies the assumptions of C86: what is accepted was sent by the peer and not accepted before, and messages get through. (5) The conversations with such an attacker are exactly those of C86.", "quantifier": "all crypto instances obeying the laws, starts, executions of any length with any attacker messages, all sets of leaked values", "why_tests_cant": "It is about everything an attacker could compute, in any number of steps, from any leaked values, at any moment of any conversation; a test tries one forgery.", "anchors": ["axolotl/protocol/whispermessage.py:WhisperMessage.verifyMac", "axolotl/protocol/whispermessage.py:WhisperMessage.getMac", "axolotl/sessioncipher.py:SessionCipher.decryptMsg", "axolotl/sessioncipher.py:SessionCipher.decryptPkmsg", "axolotl/sessioncipher.py:SessionCipher.getOrCreateChainKey", "axolotl/sessionbuilder.py:SessionBuilder.processV3", "axolotl/ratchet/ratchetingsession.py:RatchetingSession.initializeSessionAsBob", "axolotl/ratchet/chainkey.py:ChainKey.getMessageKeys", "axolotl/ratchet/rootkey.py:RootKey.createChain"]}
{"id": "C96", "title": "Who can forge a group message: exactly those who have the signing key", "statement": "C72 assumes that nobody but the owner of a name can sign for it; here this follows from what can be computed. The attacker (a member or not) has any chain keys, message keys and plaintexts of the name, and all messages sent; they compute with HMAC, AES, signing, joining and splitting. (1) The messages sent under a name are, byte for byte, what the symbolic terms say. (2) Whatever any member accepts verifies under the signing key in the first announcement. (3) Without the private signing key the only signatures that can be computed are those seen; so bytes that verify only if the attacker can compute a signature of them, and that are accepted, were sent by the owner, up to the signature. (4) So groups with such an attacker satisfy the assumptions of C72 and C90; in particular whatever a member reads was sent by the owner with this plaintext. (5) This holds even if the attacker has the records of all other members, all announcements and all plaintexts. (6) Passing on messages that were sent needs nothing. (7) Conversely, with the signing key and the keys of message i an attacker can compute a message number i with any text; every member that took up an announcement made before and has not read number i accepts it, however far ahead i is, and afterwards refuses the owner's own message i as a duplicate.", "quantifier": "all crypto instances obeying the laws, members, names, owners, executions of any length with any group messages, all sets of leaked values, all computations", "why_tests_cant": "It is about everything an attacker could compute, in any number of steps, from any leaked values, at any moment of any group; a test tries one forgery.", "anchors": ["axolotl/protocol/senderkeymessage.py:SenderKeyMessage.verifySignature", "axolotl/protocol/senderkeymessage.py:SenderKeyMessage.getSignature", "axolotl/groups/groupcipher.py:GroupCipher.decrypt", "axolotl/groups/groupcipher.py:GroupCipher.encrypt", "axolotl/groups/groupcipher.py:GroupCipher.getSenderKey", "axolotl/groups/groupsessionbuilder.py:GroupSessionBuilder.process", "axolotl/groups/groupsessionbuilder.py:GroupSessionBuilder.create"]}
{"id": "C97", "title": "A first conversation needs no assumption about older sessions, nor about trust after the first contact", "statement": "C86 and C95 assume that older sessions in the record reject the attacker's messages and that the application trusts no identity key but the peer's. Here both are derived for two sides that had no session before and whose applications trust on first use (a key is trusted only if no other is saved for the name). (1) A conversation begun by a bundle or by a key exchange between such sides is a first one: no state besides the session has a chain, and whoever has the session has saved the peer's identity key. (2) Along every execution with an attacker: whoever has the session keeps the peer's identity key and trusts no other for that name; while the answering side waits, nothing in its record has a chain; every other state in a record has no chain, or was left behind by a message of the peer which the attacker wrapped into a setup message of their own (C84), set up under the peer's identity key. (3) Every MAC key that such a leftover state offers comes from the agreement of the peer's identity key with a signed prekey of ours, so it can be computed only with one of these two private keys. (4) Therefore first conversations with an attacker who computes, with no assumption on older sessions and none on trust once the session exists, are exactly those of C95: only messages of the peer are accepted, each at most once, and messages get through.", "quantifier": "all crypto instances obeying the laws, stores without a session for the peer, trust policies of the kind described, executions of any length with sends, deliveries, other calls and attacker messages of either type, all leaks that keep the secrets, all computations", "why_tests_cant": "The content of the archive after arbitrary interference is an invariant over all executions, and what can be forged against a leftover state quantifies over all computations.", "anchors": ["axolotl/sessioncipher.py:SessionCipher.decryptPkmsg", "axolotl/sessioncipher.py:SessionCipher.decryptWithSessionRecord", "axolotl/sessionbuilder.py:SessionBuilder.process", "axolotl/sessionbuilder.py:SessionBuilder.processV3", "axolotl/sessionbuilder.py:SessionBuilder.processPreKeyBundle", "axolotl/sessionbuilder.py:SessionBuilder.processKeyExchangeMessage", "axolotl/state/sessionrecord.py:SessionRecord.promoteState", "axolotl/state/sessionrecord.py:SessionRecord.archiveCurrentState"]}
{"id": "C98", "title": "What has been accepted stays secret also from an attacker who interfered, and who steals whole records", "statement": "The secrecy statements of C89 for conversations in which an attacker on the network delivers any bytes (C86, C95, C97), not only listens. (1) If the current session states of any sides are stolen afterwards, with all private keys except the base keys and the one-time prekey of the setup, the thief can read a message exactly if its recipient's state was stolen, has not accepted it, and could still decrypt it. (2) Interference cannot keep a prekey alive: once the answering side has accepted a message, the one-time prekey of the setup is gone from its store (unless it has the last-resort id). (3) The attacker's interference can leave further states in the archive of a record. In a first conversation every archived state has no chain or holds exactly these secrets: the private signed prekey it was set up with, and a root key and chain key that come from the agreement of this prekey with the peer's identity key; a thief who takes whole records, archives included, reads no more than in (1). (4) Healing: whatever has leaked at one moment, messages in ratchet epochs after the next one are secret, and a side that has since accepted a message under a ratchet key generated after the theft sends only messages that the thief cannot read, with an attacker interfering before and after who does not forge with what was stolen.", "quantifier": "all crypto instances obeying the laws, conversations begun by bundle or key exchange, executions of any length with sends, deliveries, other calls and attacker messages, sets of stolen states, leaked keys and plaintexts, all computations", "why_tests_cant": "It quantifies over all interference before a theft and over everything that can be computed from what is stolen.", "anchors": ["axolotl/sessioncipher.py:SessionCipher.decryptPkmsg", "axolotl/sessioncipher.py:SessionCipher.decryptMsg", "axolotl/sessioncipher.py:SessionCipher.decryptWithSessionState", "axolotl/sessionbuilder.py:SessionBuilder.processV3", "axolotl/ratchet/ratchetingsession.py:RatchetingSession.initializeSessionAsBob", "axolotl/state/sessionrecord.py:SessionRecord.archiveCurrentState"]}
{"id": "C99", "title": "Whoever has the session record has the session", "statement": "In a conversation (attacked or not) the session record of one side is put, under any address, into another store that claims the same public identity key and otherwise holds anything: another private identity key, no prekeys, other sessions. (1) From then on the owner of that store takes the side's place: every message in either direction, from before or after, is decrypted to what was encrypted, within the limits and once, whatever the network does, and nothing else is accepted; they can send whenever the side could. So a session can be moved to another device by moving its record, and a thief of the record reads and speaks for its owner although the identity key was not stolen. (2) If the side goes on as well, the next message of the one and of the other are the same bytes if they say the same, and otherwise different plaintexts under the same ratchet key, number, cipher key and IV. (3) What one of them writes under a ratchet key from before the split is refused by the peer as a duplicate, with sessions and prekeys unchanged, exactly if the peer has accepted a message of that ratchet key and number from the other one, and is otherwise read, within the limits. What the peer writes under such a key is read by both.", "quantifier": "all crypto instances obeying the laws, conversations begun by bundle or key exchange, executions of any length with sends, deliveries, other calls and attacker messages, either side, all moments, stores and addresses, all ways on for the owner and for the other one", "why_tests_cant": "It quantifies over all stores that have the record and over all pairs of executions that start from it.", "anchors": ["axolotl/sessioncipher.py:SessionCipher.encrypt", "axolotl/sessioncipher.py:SessionCipher.decryptMsg", "axolotl/sessioncipher.py:SessionCipher.decryptPkmsg", "axolotl/state/sessionrecord.py:SessionRecord", "axolotl/state/sessionstate.py:SessionState"]}
{"id": "C100", "title": "End to end: who can read and who can write a group message", "statement": "Any number of parties hold conversations pairwise and are members of groups whose sender keys are announced in those conversations. An attacker delivers everything and computes what they deliver from all messages and from anything that has leaked, except what C95 and C96 name (session states, enough keys to compute a setup, the sender's identity key and the recipient's signed prekeys; the private signing key of the name). (1) The executions are those of C87 and C88: the assumptions there that nobody forges a MAC or a signature follow; nothing of C88 gets lost, apart from group messages that are refused anyway. So what a member reads under a name was sent by its owner with this plaintext, and each message is read at most once. (2) If at some moment the attacker reads session states and sender-key records of any parties, and has any private keys except base keys and one-time prekeys, and any plaintexts, they can read a group message whose plaintext they were not given exactly if a stolen sender-key record opens it, or some conversation carries an announcement of the name that is not younger than the message and whose plaintext they were given or that a stolen session state still opens: not yet accepted, its chain not dropped. (3) If all announcements have been accepted where session states are stolen, only the sender-key records matter; without any of these, no group message can be read.", "quantifier": "all crypto instances obeying the laws, any set of parties, any number of conversations and groups, all owners and plaintext encodings of announcements, executions of any length, all names, messages and moments, all sets of stolen things", "why_tests_cant": "It is about everything an attacker can compute from what they saw and stole, in all executions of arbitrarily many conversations and groups.", "anchors": ["axolotl/sessioncipher.py:SessionCipher", "axolotl/sessionbuilder.py:SessionBuilder", "axolotl/groups/groupcipher.py:GroupCipher", "axolotl/groups/groupsessionbuilder.py:GroupSessionBuilder"]}
{"id": "C101", "title": "After a theft, once the ratchet has moved on, forgeries are refused again", "statement": "At some moment of a conversation with an attacker, session states of either or both sides leak, and any ratchet keys that exist by then. (1) Nothing computed from that reaches beyond the next ratchet key: no root key and no message key of a later one. (2) Once a side has accepted a message under a ratchet key x that is new since then, a message that the thief computes and that verifies on its session was sent by the peer, or is under x or an earlier ratchet key whose receive chain is still kept (one of the last five). This holds even if the setup and the identity keys have leaked too. (3) Once the side has accepted five more ratchet keys after x, and if the peer's identity key and its own signed prekeys have not leaked, everything the thief can deliver to it meets the assumption of C86: every run from there is one of C86, so nothing is accepted that the peer did not send, nothing twice, and the conversation goes on. (4) This state lasts. (5) Six new keys are needed: there is a run with five in which a message is accepted that was computed from the stolen state.", "quantifier": "all crypto instances obeying the laws, all starts and runs of a conversation with an attacker, all moments of the theft, all leaks up to it, all later moments and all bytes delivered (the run of part 5 is one run)", "why_tests_cant": "It is about everything that can be computed from a stolen state, and about all later runs in which the result is delivered at any time.", "anchors": ["axolotl/sessioncipher.py:SessionCipher.decryptMsg", "axolotl/sessioncipher.py:SessionCipher.getOrCreateChainKey", "axolotl/state/sessionstate.py:SessionState.addReceiverChain", "axolotl/ratchet/rootkey.py:RootKey.createChain"]}
{"id": "C102", "title": "Renewing a group sender key", "statement": "In a group with any number of members, any owner may at any time start over with a new sender key for a name (an empty record and create with an id that has not been used for this name), and members take up announcements of several keys of a name in any order. Keys may be in the hands of attackers who sign messages under them for the owner; call a key safe if that does not happen to it. (1) For each safe key of a name, what happens under it, and what the members' records hold for it, is what can happen in a group in which this is the name's only key (C72), whatever happens with the other keys. So a member reads every message sent under a safe key after the announcement of that key that it took up first, in any order; an older one is a duplicate; what it reads under that key was sent by the owner with this plaintext; nothing is read twice. (2) Whatever a member reads is under a key of which it has taken up an announcement; otherwise nothing is read or stored, and the error is NoSession for a member who has taken up none of the name's keys, InvalidMessage for another. (3) The owner sends under the key announced last, numbered from 0 for each key, and does not read own messages. Nobody else can send under the name. (4) A renewal succeeds. The records of all members and of the owner from before it, with all announcements of the older keys, do not give a message, a message key, a chain key, the signing key or a signature under the new one. After it the owner's record opens nothing of the old keys, and a member's record opens exactly what the member has not yet used of them. (5) A renewal takes nothing back: whoever has the signing key and the message keys of an old key can go on sending as the owner to all members who have taken it up, also those who have the new one. (6) The id of the new key has to be a new one for the name: with the id of the old one, a member who has taken up both refuses the messages under the new one.", "quantifier": "all crypto instances obeying the laws, all member sets, owners, names, choices of safe keys, and all interleavings of create, renewal, process, encrypt and decrypt calls with any arguments (6 is one case)", "why_tests_cant": "Any number of keys, members and messages interleave, and members hold states for several keys at once; a test tries a few orders. That the other keys can be in an attacker's hands is a statement about all bytes the attacker might deliver.", "anchors": ["axolotl/groups/groupsessionbuilder.py:GroupSessionBuilder.create", "axolotl/groups/groupsessionbuilder.py:GroupSessionBuilder.process", "axolotl/groups/groupcipher.py:GroupCipher.decrypt", "axolotl/groups/state/senderkeyrecord.py:SenderKeyRecord.getSenderKeyState", "axolotl/groups/state/senderkeyrecord.py:SenderKeyRecord.addSenderKeyState"]}
{"id": "C103", "title": "After a theft, a new sender key keeps forgers and readers out", "statement": "In a group whose owners may renew sender keys (C102), let an attacker compute, in the symbolic sense of C96, what they deliver. (1) If bytes are accepted under a key whose private signing key the attacker does not have, the owner sent them under this key, up to the signature; so everything C102 says of the safe keys holds against an attacker who does anything at all with the other keys and has anything of the safe ones but the signing key. (2) The records of all members and the owner at some moment, all announcements and all plaintexts do not contain the signing key of a key announced later; nor do the records of the members other than the owner at any time after. (3) So after a theft of everything, bytes computed from it together with the present records of all members other than the owner, all messages, announcements and plaintexts, if accepted under a key announced since, were sent by the owner. What members read under keys announced since the theft was sent by the owner with this plaintext, and is read once, whatever the attacker delivers under the older keys. (4) The stolen records do not help to read messages under a key announced later: together with records of any members at a later time they give a plaintext exactly if those later records or an intercepted announcement of the new key give it.", "quantifier": "all crypto instances obeying the laws, all member sets, owners, names, moments of theft, and all interleavings of create, renewal, process, encrypt and decrypt calls where the attacker's messages under safe keys are what can be computed without their signing keys, and those under other keys any bytes", "why_tests_cant": "That nothing an attacker computes is accepted is a statement about all computations over all stolen data; a test tries a few tampered messages.", "anchors": ["axolotl/groups/groupsessionbuilder.py:GroupSessionBuilder.create", "axolotl/groups/groupcipher.py:GroupCipher.decrypt", "axolotl/protocol/senderkeymessage.py:SenderKeyMessage.verifySignature", "axolotl/groups/state/senderkeyrecord.py:SenderKeyRecord.getSenderKeyState"]}
{"id": "C104", "title": "Locks make overlapping calls safe", "statement": "Calls begin and return at any time and their store accesses interleave arbitrarily, but the application begins a session call only when no call in progress is for the same address, or deals with the identity of the same name (if this one does), or names the same one-time prekey; and a group call only when none in progress is for the same sender key name. Then every call gives what it gives when the calls are made one after the other in the order in which they return, and the stores are those of that history whenever no call is in progress. So everything proved of histories holds of such runs: no header is used for two messages however many threads write (C15), and no group message is accepted by two calls (C40). Nothing blocks, and every history is such a run. The one-time prekey has to be under the lock: two first messages from different peers that name the same one can both be accepted if the calls overlap, and never if they do not. Without locks, among any number of overlapping encrypt calls for one peer two have the same header, key and IV (C33).", "quantifier": "all stores (for session calls: whose answer whether an identity is trusted for a name depends on nothing but what is saved for this name, as in the store of this code), all calls with all arguments, any number of calls in progress, all interleavings of their store accesses with calls beginning and returning", "why_tests_cant": "The interleavings of even a few calls are too many to try, and races show up rarely; serializability is a statement about all of them.", "anchors": ["axolotl/sessioncipher.py:SessionCipher.encrypt", "axolotl/sessioncipher.py:SessionCipher.decryptMsg", "axolotl/sessioncipher.py:SessionCipher.decryptPkmsg", "axolotl/sessionbuilder.py:SessionBuilder.process", "axolotl/groups/groupcipher.py:GroupCipher.encrypt", "axolotl/groups/groupcipher.py:GroupCipher.decrypt"]}
{"id": "C105", "title": "A member left out of a key renewal is locked out of the group", "statement": "The parties talk in pairwise conversations and groups; sender keys are renewed at any time (C102) and their announcements travel as messages in the conversations; the attacker computes what they deliver, in conversations (C95) and in groups (C103). Then the conversations go as in C87 and the groups as in C102. What a member reads under a safe key was sent by the owner with this plaintext, and is read once. A message under a safe key can be read exactly by those who have a record that opens it (the owner's only if the key has not been replaced), or the plaintext of an announcement of this key not younger than the message, or the session states of a party for whom such an announcement waits. So parties to whom nobody has sent an announcement of a key read nothing under it, even together, with all their session states and sender-key records, all ciphertexts of everybody, everybody's private keys but base keys and one-time prekeys, and the plaintexts of everything that is not an announcement of this key; and they do not have its signing key. A party to whom the owner has sent the announcement can receive and process it, and reads every message under the key since it was made, whatever other keys of the name it has.", "quantifier": "all crypto instances obeying the laws, all sets of parties, owners, encodings of announcements, interleavings of conversations, group calls and renewals, all attackers within the symbolic model, all loot, all keys and messages", "why_tests_cant": "That no combination of what removed members hold opens a message is a statement about all computations over all reachable states of many interleaved conversations and groups.", "anchors": ["axolotl/groups/groupsessionbuilder.py:GroupSessionBuilder.create", "axolotl/groups/groupsessionbuilder.py:GroupSessionBuilder.process", "axolotl/groups/groupcipher.py:GroupCipher.encrypt", "axolotl/groups/groupcipher.py:GroupCipher.decrypt", "axolotl/sessioncipher.py:SessionCipher.encrypt", "axolotl/sessioncipher.py:SessionCipher.decryptMsg"]}
{"id": "C106", "title": "First contacts in whole systems need no assumptions about old sessions or later trust", "statement": "Any number of parties talk over shared stores and in groups whose keys are renewed and announced in the conversations, and every conversation begins as the first between its two sides: neither had a session state with a chain for the other, and their applications trust a name's first identity key and no other after it. The attacker computes what they deliver from what they have, with nothing assumed about how older sessions treat it, nor about which identity keys the applications trust once they have their sessions. Then the systems that can come about are just those that the attacker of C87 can bring about among first conversations; every conversation has gone as in C97; whatever is accepted in a conversation was sent in it by the peer and was not accepted before; and the whole with its groups is as in C105, so what is proved there about authenticity, secrecy and removed members holds. A conversation begun from a published bundle between parties without sessions is a first one.", "quantifier": "all crypto instances obeying the laws, all sets of parties, all numbers and interleavings of conversations, group calls and renewals, all attackers within the symbolic model, all reachable states", "why_tests_cant": "It is an induction over all interleavings in which conversations share identity stores and prekeys; a test runs one interleaving and one attacker.", "anchors": ["axolotl/sessionbuilder.py:SessionBuilder.process", "axolotl/sessionbuilder.py:SessionBuilder.processV3", "axolotl/sessioncipher.py:SessionCipher.decryptPkmsg", "axolotl/sessioncipher.py:SessionCipher.decryptMsg", "axolotl/state/sessionrecord.py:SessionRecord.archiveCurrentState", "axolotl/groups/groupcipher.py:GroupCipher.decrypt"]}
{"id": "C107", "title": "A whole society recovers from a theft", "statement": "At one moment somebody takes the session states and the sender-key records of all parties of a society as in C105, with all private ratchet keys generated so far. From then on they compute messages from what they have, for those sides of conversations that have meanwhile accepted messages under six new ratchet keys of the peer, and for groups under every sender key announced before. Then what can come about is what C105 allows if the sender keys announced since count as the safe ones: whatever a recovered side accepts was sent by the peer in this very conversation and not accepted before; what members read under a key announced since was sent by the owner of the name, with this plaintext, and is read once. Each conversation has gone on from where it was. The thief cannot read a group message under a key announced since if the announcements of this key went out in mended messages - those sent after the sender had accepted a message under a new ratchet key of the peer, or accepted under the second new one - or in conversations begun since whose base keys and one-time prekeys they do not have. And they can compute for a recovered side all that the attacker of C87 can deliver.", "quantifier": "all crypto instances obeying the laws, all sets of parties, all histories before the theft, all interleavings of conversations, group calls, renewals and deliveries after it, all sets of stolen things, all reachable states", "why_tests_cant": "It speaks of everything that somebody with all stored states can compute, over all later runs of many conversations and groups at once.", "anchors": ["axolotl/sessioncipher.py:SessionCipher.getOrCreateChainKey", "axolotl/state/sessionstate.py:SessionState.addReceiverChain", "axolotl/ratchet/rootkey.py:RootKey.createChain", "axolotl/groups/groupsessionbuilder.py:GroupSessionBuilder.create", "axolotl/groups/groupcipher.py:GroupCipher.decrypt"]}
{"id": "C108", "title": "The work of every call of the session API", "statement": "Counting how often a call uses each primitive (HMAC, agreement, key generation, signature, signature check, AES block) does not change what it does. Over all histories of the stores, no call does more work than a fixed bound: encrypting 7 HMACs and one AES block per block; reading a message, accepted or not, at most 82 agreements, 41 key pairs and 492533 HMACs (four agreements and three HMACs more for the first kind of message), and AES only once per block of the message; a bundle one signature check, five agreements, six HMACs. For stores with any contents reading costs at most 2 agreements and 12013 HMACs for each state of the record. Nothing is computed for a sender, a bundle or a key exchange message that is not trusted, or without a session. The bound is reached: a message with a ratchet key not seen before and no valid MAC makes every state of the record do a ratchet step and derive all skipped keys up to its counter, before the MAC is looked at.", "quantifier": "all crypto instances (those obeying the laws for the forgery), all initial stores without sessions, all sequences of calls, all last calls; all stores for the bound per state", "why_tests_cant": "It bounds the work for every history and every input, and gives the exact work for all forgeries; a test sees one history and one message.", "anchors": ["axolotl/sessioncipher.py:SessionCipher.decryptMsg", "axolotl/sessioncipher.py:SessionCipher.decryptWithSessionRecord", "axolotl/sessioncipher.py:SessionCipher.getOrCreateMessageKeys", "axolotl/sessionbuilder.py:SessionBuilder.processPreKeyBundle", "axolotl/kdf/hkdf.py:HKDF.expand"]}
{"id": "C109", "title": "The work of every call of the group API", "statement": "Counting does not change what a group call does. Encrypting costs at most 5 HMACs, one signature and one AES block per block; processing a distribution message nothing; creating one key pair. Reading costs at most one signature check, five HMACs for each step from the stored chain up to the message, three more if the key is stored, and AES once per block; bytes that are no message, or under a sender key not known, cost nothing, and a message with a bad signature exactly one signature check. A message ahead that is read costs exactly five HMACs per step. So unlike in sessions there is no limit: for every number (below 2^32) a message of a member exists that costs more and is read.", "quantifier": "all crypto instances (those obeying the laws for the last part), all group stores, all names, all byte strings", "why_tests_cant": "It gives the work for every store and every message as a formula, and shows that no bound exists.", "anchors": ["axolotl/groups/groupcipher.py:GroupCipher.decrypt", "axolotl/groups/groupcipher.py:GroupCipher.getSenderKey", "axolotl/groups/groupcipher.py:GroupCipher.encrypt", "axolotl/groups/groupsessionbuilder.py:GroupSessionBuilder.create"]}
{"id": "C110", "title": "The order in which the primitives are used", "statement": "Writing down each use of a primitive with its arguments does not change a call. What is written down adds up to what C108 and C109 count. Reading a session message of either kind: no block is decrypted before a MAC over two public keys and the received bytes (the sender's and the receiver's identity key, C34) has been computed and equals the last eight bytes of the message; this is the last thing done before the first block, the blocks are decrypted under one key and nothing comes after them. The MAC key is one that a stored state of the peer's record (or the state that the first message sets up) offers for the ratchet key and counter in the message, and the identity keys in the MAC are those of this state. So no message without a right MAC reaches the block cipher and the check of the padding, whichever of the states of the record tries it. A prekey bundle, a message that begins a key exchange and a group message: nothing is done before the check of the signature, and nothing after it if it is wrong. The answer of a key exchange is different: there the signature is checked last, after agreements with the base key in the answer. Writing: the message is encrypted first, then the MAC (in groups the signature) is computed over the bytes sent, then the chain is stepped; which primitives are used depends only on the number of blocks.", "quantifier": "all crypto instances whose HMAC has 32 bytes (for first messages: all lawful ones), all stores, all messages, bundles and byte strings, all plaintexts", "why_tests_cant": "It speaks about the order of internal steps for all stores and all messages, including those refused; a test sees the result only.", "anchors": ["axolotl/sessioncipher.py:SessionCipher.decryptWithSessionState", "axolotl/sessioncipher.py:SessionCipher.decryptWithSessionRecord", "axolotl/sessioncipher.py:SessionCipher.encrypt", "axolotl/sessionbuilder.py:SessionBuilder.processPreKeyBundle", "axolotl/sessionbuilder.py:SessionBuilder.processInitiate", "axolotl/sessionbuilder.py:SessionBuilder.processResponse", "axolotl/groups/groupcipher.py:GroupCipher.decrypt", "axolotl/protocol/whispermessage.py:WhisperMessage.verifyMac"]}
{"id": "C111", "title": "Which primitives are used does not depend on what is said", "statement": "Someone who sees which primitives a call uses, in order and number, learns nothing about the text beyond its number of AES blocks. Writing a session message, on any stores: two plaintexts with the same number of blocks give the same sequence of primitives, also when the call is refused. Reading, in any run of a conversation and in the run in which other words of the same number of blocks are said: receiving the message at the same place uses the same primitives in the same order, whether it is the first message, a later one, one out of order or one already accepted. On any stores with no archived session for the sender, two accepted messages with the same header and number of blocks are read alike. In groups: two successful writes from the same state, and two accepted messages of the same key id and iteration, with the same number of blocks, use the same primitives in the same order; and in any run of a group and the run with other words of the same number of blocks, delivering the message of the same number to any member uses the same primitives in the same order, whether it is read or refused.", "quantifier": "all lawful crypto instances, all stores, all plaintexts, all runs of a conversation or of a group and all other words said in them", "why_tests_cant": "It compares the internal steps of two executions for all pairs of texts and all histories; a test sees the results of a few executions.", "anchors": ["axolotl/sessioncipher.py:SessionCipher.encrypt", "axolotl/sessioncipher.py:SessionCipher.decryptWithSessionState", "axolotl/sessioncipher.py:SessionCipher.decryptMsg", "axolotl/sessioncipher.py:SessionCipher.decryptPkmsg", "axolotl/groups/groupcipher.py:GroupCipher.encrypt", "axolotl/groups/groupcipher.py:GroupCipher.decrypt"]}
{"id": "C112", "title": "Random bytes are used at most once", "statement": "On any stores, a call of the session API takes, for the private keys and signatures it makes, no random bytes but those drawn for it, each at most once and in the order in which the code draws them: none when writing, one key pair per stored state that is tried when reading, a base key and a ratchet key for a bundle, at most three key pairs and a signature to process a key exchange message, two key pairs and a signature to ask for a key exchange. A group call takes random bytes once for a message sent or a sender key made, and none to read or to process a distribution message. So in any history of calls, as long as the random source never repeats itself, no two private keys, no two signatures and no private key and signature are made from the same bytes. Reading takes random bytes only for a ratchet key that is new: when every state of the record has a chain for the key of the message, none are taken, whether the message is accepted or not.", "quantifier": "all crypto instances, all stores, all calls with all arguments, all histories", "why_tests_cant": "It bounds what every execution takes from the random source, over all histories; a test would have to intercept the source and sees a few executions.", "anchors": ["axolotl/sessioncipher.py:SessionCipher.getOrCreateChainKey", "axolotl/sessioncipher.py:SessionCipher.decryptWithSessionRecord", "axolotl/sessionbuilder.py:SessionBuilder.processPreKeyBundle", "axolotl/sessionbuilder.py:SessionBuilder.processInitiate", "axolotl/sessionbuilder.py:SessionBuilder.processResponse", "axolotl/sessionbuilder.py:SessionBuilder.processInitKeyExchangeMessage", "axolotl/ratchet/ratchetingsession.py:RatchetingSession.initializeSessionAsAlice", "axolotl/groups/groupcipher.py:GroupCipher.encrypt", "axolotl/groups/groupsessionbuilder.py:GroupSessionBuilder.create"]}
{"id": "C113", "title": "What is signed, and with which key", "statement": "On any stores, the calls of the session API make signatures only over one of our own public base keys: a new one, when we ask for a key exchange; a new one or that of our pending request, when we answer a request whose signature is right. All other calls sign nothing. The calls of the group API sign only the message that encrypt sends, with the signing key of the state that sends. In any history that begins without sessions, whatever messages, bundles and requests come in, every signature of the session API is made with our identity key over a public key that was made in this history from our own random bytes, so nobody can have something of their choice signed. In any history of group calls that begins without sender keys, every message for a name is signed with the key that the first call that made a state for that name made: the key made from the random bytes of that create, or none at all if a distribution message came first; no later call changes this. What is signed for a session is never what is signed for a group. But the signature on the base key of a key exchange message also passes as one on a signed prekey: a bundle made of the identity key, the base key and the signature of a key exchange message is accepted.", "quantifier": "all crypto instances (lawful ones for histories and groups), all stores, all calls with all arguments, all histories", "why_tests_cant": "It says of every execution with every input what the identity key is used for, and there are no signatures other than the listed ones; a test sees the signatures of a few executions.", "anchors": ["axolotl/sessionbuilder.py:SessionBuilder.processInitiate", "axolotl/sessionbuilder.py:SessionBuilder.processInitKeyExchangeMessage", "axolotl/sessionbuilder.py:SessionBuilder.processPreKeyBundle", "axolotl/ecc/curve.py:Curve.calculateSignature", "axolotl/protocol/senderkeymessage.py:SenderKeyMessage", "axolotl/groups/groupcipher.py:GroupCipher.encrypt"]}
{"id": "C114", "title": "Which agreements are made, between which keys", "statement": "On any stores, the calls of the session API make only these agreements (curve multiplications with a private key). A message whose ratchet key is new to a state: the state's ratchet key and a new one, each with the message's ratchet key. The first message of a session with a trusted identity key and an unknown base key: our identity key with its base key, our signed prekey with its identity, base and ratchet keys, our one-time prekey with its base key, a new ratchet key with its ratchet key. A bundle with a trusted identity key and a right signature on its signed prekey: our identity key with the signed prekey, a new base key with the bundle's identity key, signed prekey and one-time prekey, a new ratchet key with the signed prekey. A key exchange message with a trusted identity key that is either a request with a right signature or a reply to the pending request: our identity key with its base key, our base key with its identity and base keys, a new ratchet key with its ratchet key. So nothing is agreed when writing, when asking for a key exchange, when reading with states that all have a chain for the message, or with anything that comes with an untrusted identity key. The calls of the group API make no agreement. In any history that begins without sessions, whatever comes in, the private key of every agreement is our identity key, one of the prekeys or signed prekeys that were in the stores at the beginning, or one made in this history from our own random bytes.", "quantifier": "all crypto instances, all stores, all calls with all arguments, all histories", "why_tests_cant": "It says of every execution with every input which private key meets which public key, and that there are no others; a test sees the agreements of a few executions, and usually only their results.", "anchors": ["axolotl/ratchet/ratchetingsession.py:RatchetingSession", "axolotl/ratchet/rootkey.py:RootKey.createChain", "axolotl/sessioncipher.py:SessionCipher.getOrCreateChainKey", "axolotl/sessionbuilder.py:SessionBuilder.processV3", "axolotl/sessionbuilder.py:SessionBuilder.processPreKeyBundle", "axolotl/sessionbuilder.py:SessionBuilder.processInitiate", "axolotl/sessionbuilder.py:SessionBuilder.processResponse", "axolotl/ecc/curve.py:Curve.calculateAgreement"]}
{"id": "C115", "title": "Which signatures are checked, and what the block cipher is used for", "statement": "On any stores: the calls of the session API check only the signature on the signed prekey of a bundle and the one on the base key of a key exchange message, each with the identity key that comes with it, and only if that key is trusted. They encrypt blocks only in encrypt: those of AES-CBC for the given text, under the cipher key and with the IV of the next message of the current session, as its version (2 or 3) derives them; in a session of another version nothing is encrypted or decrypted. They decrypt only blocks of the body of the message that is read; under a key that a stored state of its sender, or the state that the message sets up, has for the message's ratchet key and counter. The calls of the group API check only the last 64 bytes of a message over the bytes before them, with the signing key of the state that the message names; they encrypt only the given text, under the key of the next message of the state that sends; and they decrypt only blocks of the body of a message whose signature was right, under the key of its number in the state that it names.", "quantifier": "all lawful crypto instances, all stores, all calls with all arguments", "why_tests_cant": "It says of every execution with every input what is put into the cipher and under which key, and that nothing else is; a test compares the results of a few executions.", "anchors": ["axolotl/sessioncipher.py:SessionCipher.getCiphertext", "axolotl/sessioncipher.py:SessionCipher.getPlaintext", "axolotl/groups/groupcipher.py:GroupCipher.encrypt", "axolotl/groups/groupcipher.py:GroupCipher.decrypt", "axolotl/sessionbuilder.py:SessionBuilder.processPreKeyBundle", "axolotl/sessionbuilder.py:SessionBuilder.processInitiate", "axolotl/sessionbuilder.py:SessionBuilder.processResponse", "axolotl/ecc/curve.py:Curve.verifySignature"]}
{"id": "C116", "title": "What is hashed, and with which key", "statement": "On any stores, the HMACs that the calls of the session API compute are these. encrypt: the constants 1 and 2 under the chain key that is sent with, the derivation of the message's keys from the first of the two, and, under the MAC key of the message, our identity key, the peer's and the bytes of the message (version, ratchet key, counter, previous counter, ciphertext), in version 2 without the identity keys and with the blocks of the derivations numbered from 0; in a session of another version, nothing. Reading a message, for each state that is tried: the same constants and derivations for the chain keys of the chain of the message's ratchet key, from where the chain stands up to the number in the message and not further; if the state has no chain for the ratchet key, the derivations of the two ratchet steps from its root key; and, under a MAC key that the state has for this ratchet key and number, the peer's identity key, ours (neither in version 2) and the bytes of the message before its last eight. Setting up a session, with a trusted identity key, a right signature where there is one, and, for a first message, a base key that is new: the derivation from 32 bytes 255 and the three or four agreements, in their order, and for the side that begins that of the first ratchet step. The calls of the group API: the constants 1 and 2 under chain keys and the derivation of a message's keys; for a message that is read only if its signature is right, and only along the chain up to the number of the message, or for the one kept seed with its number.", "quantifier": "all lawful crypto instances, all stores, all calls with all arguments", "why_tests_cant": "It lists for every execution with every input what is hashed under which key, and says that nothing else is (so that no key is used for a second purpose, and no chain is advanced beyond what the message asks for); tests see results of a few executions, and not what was computed on the way or thrown away.", "anchors": ["axolotl/kdf/hkdf.py:HKDF.deriveSecrets", "axolotl/ratchet/chainkey.py:ChainKey.getMessageKeys", "axolotl/ratchet/chainkey.py:ChainKey.getNextChainKey", "axolotl/ratchet/rootkey.py:RootKey.createChain", "axolotl/ratchet/ratchetingsession.py:RatchetingSession.initializeSession", "axolotl/protocol/whispermessage.py:WhisperMessage.getMac", "axolotl/sessioncipher.py:SessionCipher.getOrCreateMessageKeys", "axolotl/groups/groupcipher.py:GroupCipher.getSenderKey", "axolotl/groups/ratchet/senderchainkey.py:SenderChainKey.getSenderMessageKey"]}
{"id": "C117", "title": "The steps of sending, reading and setting up, one by one", "statement": "On any stores, the uses of the primitives in a call that succeeds are, in their order and with their arguments, exactly these. encrypt in a version-3 session: the HMAC of 1 under the chain key and the derivation of the message's keys, the blocks of the plaintext ciphered in CBC mode, the MAC over the identity keys and the message, the HMAC of 2 under the chain key. In a version-2 session the same, with the derivation of version 2 and a MAC over the message alone. Reading a version-3 message, after the states that were tried in vain: if the state kept the message's keys, nothing before the MAC; if it has the chain, the steps along the chain up to the number of the message and the derivation of the keys; if not, first the agreement and the derivation of the receiving chain, the new ratchet key, the agreement and the derivation of the sending chain; then the MAC, then the blocks of the ciphertext. A version-2 message is read in the same steps, with the derivation of version 2 and a MAC over the message alone. Beginning a session: the check of the signature, the base key, the ratchet key, the three or four agreements in their order, the derivation from them, the agreement and the derivation of the first ratchet step. A first message: nothing if its base key is known, else the three or four agreements and the derivation, and then the steps of reading, of version 3 or 2 as the message it carries. Sending to a group: the HMAC of 1 under the chain key and the derivation of the keys, the blocks of the plaintext, the signature of the message, the HMAC of 2. Reading in a group: the check of the signature, the derivation from the kept seed or the steps along the chain up to the number of the message, the blocks of the ciphertext. Asking for a key exchange, whether it succeeds or not: two key pairs and the signature of the base key. A request for a key exchange: the check of the signature, two key pairs if no exchange is pending, the steps of beginning or of answering (the side with the smaller base key begins), the signature of our base key. The reply to our request: the steps of beginning or of answering, then the check of the signature. Making the keys of a group: one key pair the first time, nothing later.", "quantifier": "all lawful crypto instances, all stores, all arguments of the calls (a text sent to a group shorter than 2^62 bytes), all derived values", "why_tests_cant": "It fixes the whole sequence of primitive operations of every successful execution, with nothing left out and nothing added; tests compare results of a few executions and do not see superfluous, repeated or reordered operations.", "anchors": ["axolotl/sessioncipher.py:SessionCipher.encrypt", "axolotl/sessioncipher.py:SessionCipher.decryptWithSessionState", "axolotl/sessioncipher.py:SessionCipher.getOrCreateChainKey", "axolotl/sessioncipher.py:SessionCipher.getOrCreateMessageKeys", "axolotl/sessionbuilder.py:SessionBuilder.processPreKeyBundle", "axolotl/sessionbuilder.py:SessionBuilder.processV3", "axolotl/ratchet/ratchetingsession.py:RatchetingSession.initializeSessionAsAlice", "axolotl/ratchet/ratchetingsession.py:RatchetingSession.initializeSessionAsBob", "axolotl/ratchet/chainkey.py:ChainKey.getMessageKeys", "axolotl/groups/groupcipher.py:GroupCipher.encrypt", "axolotl/groups/groupcipher.py:GroupCipher.decrypt", "axolotl/groups/groupcipher.py:GroupCipher.getSenderKey", "axolotl/sessionbuilder.py:SessionBuilder.processInitiate", "axolotl/sessionbuilder.py:SessionBuilder.processResponse", "axolotl/sessionbuilder.py:SessionBuilder.processInitKeyExchangeMessage", "axolotl/groups/groupsessionbuilder.py:GroupSessionBuilder.create"]}
