{"id": "C01", "title": "Outer header framing is lossless", "statement": "Writing an outer message header and reading it back from the resulting byte stream returns the same type, packet count, declared length and payload, consumes exactly the bytes written and leaves whatever follows untouched; a stream cut anywhere inside the header is reported as an error and never yields a header.", "quantifier": "every header type, every 32-bit packet count, every payload of at most 65535 bytes, every trailing byte string, every cut point", "why_tests_cant": "The domain is all byte strings; tests exercise a handful of payload lengths and no cut points.", "anchors": ["msg/outer.go: newOuterHeader, write, readOuterHeader"]}
{"id": "C02", "title": "Inner header framing is lossless up to its declared length field", "statement": "Writing an inner header and reading it back returns the same type, More flag and content for every content of at most 65535 bytes; content longer than that is not recovered because the declared length is truncated to 16 bits.", "quantifier": "every inner type, flag and content length, including lengths beyond the 16-bit field", "why_tests_cant": "The failing region starts at 65536 bytes, and the positive claim ranges over all byte strings.", "anchors": ["msg/inner.go: newInnerHeader, write, readInnerHeader"]}
{"id": "C03", "title": "Little-endian integer encoding is a bijection", "statement": "Encoding an unsigned 64-, 16- or 8-bit integer and decoding it returns the integer; decoding any slice of the right length and encoding it returns the slice; any other slice length is refused with a panic rather than decoded.", "quantifier": "all integers of each width and all byte slices", "why_tests_cant": "2^64 inputs.", "anchors": ["encode/convert.go: ToUint64, ToUint16, ToByte8, ToByte2, ToByte1"]}
{"id": "C04", "title": "Pre-header framing is lossless", "statement": "Encrypting-party pre-headers (version, ephemeral key, length-prefixed ciphertext) written to a stream are read back unchanged by the reader, which also returns the protocol version, for every ciphertext that fits the 16-bit length.", "quantifier": "every version byte string, key and header ciphertext", "why_tests_cant": "Unbounded input domain.", "anchors": ["msg/preheader.go: newPreHeader, write, readPreHeader", "msg/first.go: ReadFirstOuterHeader"]}
{"id": "C05", "title": "Both ends of a session derive the same message keys", "statement": "For a shared root key, the n-th sending key computed by the sender equals the n-th receiving key computed by the recipient and vice versa, no matter in how many batches and of which sizes each side generated its keys.", "quantifier": "every pair of identities and session keys, every root key, every sequence of batch sizes on each side, every index", "why_tests_cant": "Batch histories are unbounded and the two sides batch independently.", "anchors": ["msg/keys.go: generateMessageKeys, deriveRootKey", "msg/encrypt.go: rootKeyAgreementSender", "msg/decrypt.go: rootKeyAgreementRecipient"]}
{"id": "C06", "title": "Root key agreement is symmetric and rejects reflected keys", "statement": "If sender and recipient hold matching Diffie-Hellman key pairs, the root keys they derive are equal; if any two of the keys taking part in the agreement coincide, the agreement fails with an error instead of producing a key.", "quantifier": "every key quadruple and previous root key hash", "why_tests_cant": "Algebraic property over all keys.", "anchors": ["msg/keys.go: checkKeys, deriveRootKey", "msg/encrypt.go: rootKeyAgreementSender", "msg/decrypt.go: rootKeyAgreementRecipient", "cipher/curve25519.go: ECDH"]}
{"id": "C07", "title": "A message key is never handed out again once deleted", "statement": "In the session store, after a message key has been deleted every later request for the same session, direction and index fails with the 'message key used' error, whatever other sessions are stored, extended, queried or deleted in between; and a stored, undeleted key is always returned unchanged.", "quantifier": "every finite history of store operations on any number of sessions", "why_tests_cant": "Histories are unbounded.", "anchors": ["msg/session/memstore/memstore.go: StoreSession, GetMessageKey, DelMessageKey"]}
{"id": "C08", "title": "The persistent key store behaves like the in-memory key store", "statement": "Every sequence of session operations gives the same observable answers on the encrypted database store and on the in-memory store; in particular keys added when a session is extended can be retrieved.", "quantifier": "every finite history of store/get/delete operations", "why_tests_cant": "Histories are unbounded; the failing history needs a session extension.", "anchors": ["keydb/session.go: AddSession, GetSession, GetMessageKey, DelMessageKey", "cryptengine/keystore.go", "msg/session/memstore/memstore.go"]}
{"id": "C09", "title": "Every encrypted message has the same size", "statement": "Every successful encryption writes exactly 65536 bytes of output, whatever the content, whether or not it is signed and whether it opens, continues or extends a session.", "quantifier": "every content of at most the maximum content length, every signature choice, every session state", "why_tests_cant": "The content length ranges over 41692 values combined with all states; a single off-by-one leaks message length.", "anchors": ["msg/encrypt.go: Encrypt", "msg/msg.go: MaxContentLength, UnencodedMsgSize, EncodedMsgSize", "msg/padding/padding.go: Generate"]}
{"id": "C10", "title": "A successful decryption has been authenticated", "statement": "Decrypt reports success (a sender identity and optional signature) only if the message authentication code over the packets following the header packet (crypto setup, the two encrypted packets, the header of the HMAC packet) verified under the message key the store holds for the session and index named in the header, and, if the message carries a signature, only if that verified under the sender's key.", "quantifier": "every byte stream and every key store state", "why_tests_cant": "Adversarial inputs cannot be enumerated.", "anchors": ["msg/decrypt.go: Decrypt"]}
{"id": "C11", "title": "Unauthenticated plaintext is not released", "statement": "Content is written to the caller's Writer only if the message authenticates.", "quantifier": "every byte stream", "why_tests_cant": "Needs an adversarial message with valid framing and an invalid MAC; no test looks at the Writer after an error.", "anchors": ["msg/decrypt.go: Decrypt"]}
{"id": "C12", "title": "A message is accepted at most once", "statement": "Presenting the same encrypted message to Decrypt a second time fails, whatever other messages of the session were processed in between.", "quantifier": "every session history, every replayed message", "why_tests_cant": "Replay may happen after an unbounded history.", "anchors": ["msg/decrypt.go: Decrypt", "msg/session/memstore/memstore.go: DelMessageKey, GetMessageKey"]}
{"id": "C13", "title": "One-way sessions never get stuck", "statement": "If a sender keeps sending and every message is delivered in order, the recipient can obtain the message key for every message of the session.", "quantifier": "every number of messages in the session", "why_tests_cant": "The failure appears only after 400 messages in one session.", "anchors": ["msg/decrypt.go: Decrypt (key extension)", "msg/encrypt.go: Encrypt (key extension)", "msg/msg.go: NumOfFutureKeys"]}
{"id": "C14", "title": "A received message cannot force unbounded key generation", "statement": "When a received header names a message index beyond the generated keys, the number of keys the recipient generates is bounded by a constant depending only on the configured maximum message size, or the message is rejected without generating any key.", "quantifier": "every 64-bit message index and every number of already generated keys", "why_tests_cant": "The check is 64-bit arithmetic that can wrap; tests use small counts.", "anchors": ["msg/decrypt.go: Decrypt (key extension)"]}
{"id": "C15", "title": "MIME chunking loses nothing", "statement": "Splitting a MIME message into chunks and decoding and concatenating the chunks in order returns the original body; no chunk exceeds the maximum chunk size; declared counters are consistent.", "quantifier": "every body length and chunk size", "why_tests_cant": "Unbounded lengths and boundary cases at multiples of the chunk size.", "anchors": ["msg/mime/mime.go: EncodeChunks, DecodeChunk, SplitMessage"]}
{"id": "C16", "title": "Identity mapping is canonical", "statement": "Mapping an identity yields a string over the restricted alphabet (none of the confusable characters 0, 1, j in the local part), with exactly one '@', a local part of 3 to 64 characters that neither starts, ends nor repeats separators; mapping a mapped identity changes nothing; and the check 'is mapped' accepts exactly the fixed points.", "quantifier": "every input string", "why_tests_cant": "All strings.", "anchors": ["uid/identity/identity.go: Map, IsMapped, MapPlus, MapLocalpart, MapDomain, Split"]}
{"id": "C17", "title": "A server reply is bound to the submitted UID message", "statement": "Verification of a key server's reply against a submitted UID message succeeds only if the reply contains that very UID message.", "quantifier": "every submitted message and every reply", "why_tests_cant": "Needs a malicious server reply; the honest path never exercises the check.", "anchors": ["uid/uid.go: MessageReply.VerifySrvSig, MessageReply.Decrypt"]}
{"id": "C18", "title": "UID update chains are authenticated by their predecessor", "statement": "A UID message verified against its predecessor has the predecessor's counter plus one and a signature by the predecessor's key; messages produced by Update always verify; along any verified chain the counter strictly increases.", "quantifier": "every chain length", "why_tests_cant": "Chains are unbounded; counter wrap-around is at 2^64.", "anchors": ["uid/uid.go: Update, VerifyUserSig, Check"]}
{"id": "C19", "title": "KeyInit messages are only usable inside their validity window", "statement": "Creating or verifying a KeyInit succeeds only if the validity window is non-empty, not in the past, and not further in the future than the allowed maximum; a KeyInit created now verifies now.", "quantifier": "every notbefore, notafter and current time", "why_tests_cant": "Four time boundaries over 64-bit times.", "anchors": ["uid/keyinit.go: KeyInit, Verify"]}
{"id": "C20", "title": "Hash chain entries split losslessly", "statement": "Splitting a hash chain entry built from its six fields returns these fields; entries of any other length are rejected.", "quantifier": "all field values of the right widths and all strings", "why_tests_cant": "Unbounded domain.", "anchors": ["keyserver/hashchain/hashchain.go: SplitEntry"]}
{"id": "C21", "title": "A validated hash chain is tamper evident", "statement": "If two local hash chains both validate and end in the same hash, they are entry-by-entry identical (assuming the hash is collision free): no earlier entry can be altered, inserted, removed or reordered without detection.", "quantifier": "every pair of chains of any length", "why_tests_cant": "Chains of arbitrary length and arbitrary tampering.", "anchors": ["cryptengine/hashchain.go: validateHashChain"]}
{"id": "C22", "title": "Syncing never rewrites history", "statement": "After a sync with any key server reply, every previously stored hash chain position still reads as before.", "quantifier": "every local chain, every (malicious) server reply, every sequence of syncs", "why_tests_cant": "Malicious replies and unbounded sequences.", "anchors": ["cryptengine/hashchain.go: syncHashChain", "keydb/keydb.go: AddHashChainEntry, GetHashChainEntry"]}
{"id": "C23", "title": "Only verified UIDs of the requested identity enter the key database", "statement": "Searching the hash chain for an identity stores only UID messages that carry a valid self signature, a valid server signature by the then-current key server key, and whose identity is the one searched for.", "quantifier": "every chain and every server behaviour", "why_tests_cant": "Requires adversarial server replies.", "anchors": ["cryptengine/hashchain.go: searchHashChain, verifyServerSig"]}
{"id": "C24", "title": "Mix envelopes round-trip and short input is rejected", "statement": "Decrypting an encrypted envelope with the matching key returns the plaintext; input too short to hold the fixed part is rejected with an error; unknown keys are rejected with an error.", "quantifier": "every plaintext, key pair and byte string", "why_tests_cant": "All byte strings.", "anchors": ["mix/mixcrypt/envelope.go: Encrypt, Decrypt"]}
{"id": "C25", "title": "Receiving from the mix network never panics", "statement": "Processing any received mix message returns a result or an error.", "quantifier": "every byte string after envelope decryption", "why_tests_cant": "Adversarial lengths; 16-bit wrap-around.", "anchors": ["mix/mixcrypt/clientmix.go: ReceiveMessage, ClientMixHeader.Unmarshal"]}
{"id": "C26", "title": "Client-to-mix messages round-trip", "statement": "A message sent through the mix client is parsed by the mix and the final recipient to the same header and body.", "quantifier": "every header and body", "why_tests_cant": "Length prefixes over all lengths.", "anchors": ["mix/mixcrypt/clientmix.go: Marshal, Unmarshal", "mix/mixcrypt/mixclient.go: Send, sendRelay, ReceiveFromMix"]}
{"id": "C27", "title": "Nym addresses round-trip and expire", "statement": "An address created from a template yields, when processed by the mix and by its owner, the original mailbox, delays and nym; parsing rejects an address exactly when it has expired.", "quantifier": "every template, mailbox, nym of at most 32 bytes and time", "why_tests_cant": "Cryptographic compositions and length boundary at 32/33 bytes.", "anchors": ["mix/nymaddr/addr.go: NewAddress, ParseAddress, GetMixData, GetPrivate, GetHeader", "mix/nymaddr/crypt.go"]}
{"id": "C28", "title": "Mix address lists drop exactly the expired addresses", "statement": "After expiry every remaining address is unexpired and every unexpired address remains, in order; appending never removes an unexpired statement.", "quantifier": "every list and time", "why_tests_cant": "Unbounded lists.", "anchors": ["mix/mixaddr/addrlist.go: Expire, Append, AddStatement"]}
{"id": "C29", "title": "Marshalled mix messages round-trip", "statement": "A created outgoing message survives marshalling and unmarshalling, and a message that has already been sent is never handed to SMTP a second time by the same object.", "quantifier": "every message and every sequence of deliveries", "why_tests_cant": "All byte strings and call sequences.", "anchors": ["mix/client/send.go: Marshal, Unmarshal, Deliver"]}
{"id": "C30", "title": "Account RPC retries are bounded and use fresh tokens", "statement": "A mix account operation issues at most four remote calls, stops at the first success, and returns an error otherwise.", "quantifier": "every sequence of server replies", "why_tests_cant": "Schedules of server failures.", "anchors": ["mix/client/accountrpc.go", "serviceguard/client/walletrpc/client.go"]}
{"id": "C31", "title": "Mail line splitting is lossless and bounded", "statement": "Splitting a message body into lines yields lines no longer than the maximum, and removing the inserted line breaks gives back the body.", "quantifier": "every body and every maximum", "why_tests_cant": "All strings and boundary lengths.", "anchors": ["mix/client/io.go: splitMaxLine"]}
{"id": "C32", "title": "Configuration rollback protection", "statement": "Across any sequence of updates, the accepted configuration's signing date never decreases, every accepted configuration carries a valid signature and was signed within the allowed clock difference; failed updates keep the last accepted configuration's date.", "quantifier": "every sequence of server replies and clock values", "why_tests_cant": "Unbounded histories with malicious servers.", "anchors": ["configclient/client.go: Config.Update", "configclient/sortedmap/signedmap.go: Certify"]}
{"id": "C33", "title": "The signed configuration image is unambiguous", "statement": "Two configurations with the same signed byte image have the same key/value pairs and the same date, independently of map iteration order.", "quantifier": "all pairs of configurations whose strings are within the length prefix", "why_tests_cant": "All maps.", "anchors": ["configclient/sortedmap/map.go: Sort, Image, Sign, Verify"]}
{"id": "C34", "title": "Server ordering is a permutation that respects priorities", "statement": "For every randomisation, the server order contains every configured server exactly once, and a server with a smaller priority value precedes servers with larger values.", "quantifier": "every server list and random choice", "why_tests_cant": "All random choices.", "anchors": ["configclient/roundrobin.go: ParseServers, randomize, Order"]}
{"id": "C35", "title": "Configuration update never panics", "statement": "Calling Update any number of times with any server replies returns a result or an error.", "quantifier": "every sequence of calls and replies", "why_tests_cant": "The failure needs a second call after all servers failed.", "anchors": ["configclient/client.go: Config.Update"]}
{"id": "C36", "title": "A wallet token is never held by two parties", "statement": "In the wallet store, between a successful lock of a token and its unlock or deletion, no other lock of the same token succeeds.", "quantifier": "every interleaving of store operations by any number of parties", "why_tests_cant": "Interleavings are unbounded.", "anchors": ["serviceguard/client/walletstore/store.go: LockToken, UnlockToken, GetAndLockToken, CleanLocks"]}
{"id": "C37", "title": "Reissuing respects other parties' locks", "statement": "A reissue of a token that another party holds locked fails without spending the token and without releasing the other party's lock.", "quantifier": "every store state", "why_tests_cant": "Needs a concurrent lock holder.", "anchors": ["serviceguard/client/reissue.go: ReissueToken", "serviceguard/client/walletstore/store.go: LockToken"]}
{"id": "C38", "title": "No token is lost by a crash during reissue", "statement": "If the client crashes at any point of a reissue, after restart the wallet holds the old token or the new token (or the parameters to obtain it).", "quantifier": "every crash point", "why_tests_cant": "Crash points between persistent writes.", "anchors": ["serviceguard/client/reissue.go: ReissueToken", "serviceguard/client/walletstore/store.go: SetToken, DelToken"]}
{"id": "C39", "title": "Stored wallet tokens round-trip", "statement": "Writing a token entry to the wallet store and reading it back returns the same entry.", "quantifier": "every token entry", "why_tests_cant": "All field combinations incl. nil owner and empty parameters.", "anchors": ["serviceguard/client/walletstore/types.go: encodeToken, decodeToken"]}
{"id": "C40", "title": "Wallet authentication tokens verify and bind their content", "statement": "A created authentication token is accepted by the checker with the same key, nonce and counter; tokens of any other size or with a wrong signature are rejected.", "quantifier": "every key, nonce, counter and byte string", "why_tests_cant": "All byte strings.", "anchors": ["serviceguard/common/walletauth/walletauth.go: CreateToken, CheckToken, IsReplay"]}
{"id": "C41", "title": "Key pool lookups return only verified, unexpired keys", "statement": "Every key returned by a key pool lookup was signed by a known verification key or by the pool's own generator, matches the requested id and has not expired, in every reachable state of the pool.", "quantifier": "every history of key loads, registrations and lookups", "why_tests_cant": "Unbounded histories.", "anchors": ["serviceguard/common/keypool/generator.go: Lookup, lookup, loadKey, Current"]}
{"id": "C42", "title": "Signed wallet packets are unambiguous", "statement": "Two reissue packets (or two spend packets) with the same signed image have the same content, and a signature over one kind is never valid for the other.", "quantifier": "all pairs of packets", "why_tests_cant": "All byte strings.", "anchors": ["serviceguard/common/types/types.go: ReissuePacket.Image, SpendPacket.Image"]}
{"id": "C43", "title": "Wallet expiry only deletes unusable tokens", "statement": "Expiring tokens deletes every token whose expiry lies before the safety margin and nothing else.", "quantifier": "every wallet content and time", "why_tests_cant": "Unbounded sets; batches of ten.", "anchors": ["serviceguard/client/walletstore/store.go: ExpireUnusable"]}
{"id": "C44", "title": "Every outgoing message is in exactly one delivery state", "statement": "A message added for sending is at every moment in exactly one of: waiting, queued for delivery exactly once, or sent; once sent it never becomes waiting or queued again.", "quantifier": "every sequence of message database operations", "why_tests_cant": "Unbounded histories.", "anchors": ["msgdb/outqueue.go", "msgdb/messages.go: AddMessage, GetUndeliveredMessage"]}
{"id": "C45", "title": "Outgoing delivery is at-least-once under crashes", "statement": "A message is marked as sent only after its envelope was accepted by the delivery agent; a crash at any point leaves every unsent message waiting or queued, so that later send runs deliver it.", "quantifier": "every crash point and delivery result sequence", "why_tests_cant": "Crash points.", "anchors": ["ctrlengine/msg.go: procOutQueue, msgSend", "msgdb/outqueue.go"]}
{"id": "C46", "title": "Processing the out-queue terminates and keeps order", "statement": "Processing the out-queue attempts entries in the order in which they were queued and always terminates.", "quantifier": "every queue and every sequence of delivery results", "why_tests_cant": "Termination for all schedules.", "anchors": ["ctrlengine/msg.go: procOutQueue", "msgdb/outqueue.go: GetOutQueue"]}
{"id": "C47", "title": "Fetching never loses a message", "statement": "Every message available on the server is eventually stored locally exactly once, even if a fetch run is interrupted at any point and repeated.", "quantifier": "every interruption point and server message list", "why_tests_cant": "Interruption points.", "anchors": ["ctrlengine/msg.go: muteprotoFetch", "msgdb/cache.go", "msgdb/inqueue.go"]}
{"id": "C48", "title": "One undecryptable message does not block the in-queue", "statement": "Processing the in-queue handles every queued message irrespective of messages that cannot be decrypted.", "quantifier": "every queue content", "why_tests_cant": "Adversarial queue heads.", "anchors": ["ctrlengine/msg.go: procInQueue", "msgdb/inqueue.go"]}
{"id": "C49", "title": "The key/value store is a map", "statement": "A value read is the value most recently written for that key, or empty if there was none.", "quantifier": "every sequence of writes and reads", "why_tests_cant": "Unbounded histories.", "anchors": ["msgdb/keyvalue.go: AddValue, GetValue", "keydb/keyvalue.go"]}
{"id": "C50", "title": "Message ID cache trimming keeps newer IDs", "statement": "Removing old IDs from the message ID cache keeps the named ID and everything added after it for the account and does not touch other accounts.", "quantifier": "every cache history", "why_tests_cant": "Unbounded histories.", "anchors": ["msgdb/cache.go: AddMessageIDCache, GetMessageIDCache, RemoveMessageIDCache"]}
{"id": "C51", "title": "Contacts are unique and lists are disjoint", "statement": "For each nym, a contact is stored once with exactly one type; blocked and unblocked listings never share a contact; removing a contact makes it unusable for sending.", "quantifier": "every sequence of contact operations", "why_tests_cant": "Unbounded histories.", "anchors": ["msgdb/contacts.go"]}
{"id": "C52", "title": "The database key survives re-keying", "statement": "After any sequence of successful re-keyings the key file opens with exactly the latest passphrase's derived key and yields the original database key.", "quantifier": "every sequence of passphrases and iteration counts", "why_tests_cant": "Unbounded histories.", "anchors": ["encdb/keyfile.go: writeKeyfile, ReadKeyfile, replaceKeyfile", "encdb/encdb.go: Rekey"]}
{"id": "C53", "title": "Re-keying is atomic with respect to crashes", "statement": "A crash at any point during re-keying leaves a key file that opens with either the old or the new passphrase, and a later re-keying succeeds.", "quantifier": "every crash point", "why_tests_cant": "Crash points between file operations.", "anchors": ["encdb/keyfile.go: replaceKeyfile, writeKeyfile"]}
{"id": "C54", "title": "The text buffer preserves its content", "statement": "Writing out a text buffer reproduces the text it was created from; every cell belongs to exactly one character; line widths are the sum of the character widths.", "quantifier": "every text and every width function", "why_tests_cant": "All texts, including zero-width runes at line starts.", "anchors": ["tui/textbuffer/textbuffer.go: New, parseRow, Write, GetCell, GetChar"]}
{"id": "C55", "title": "The cursor stays on the text", "statement": "After any sequence of cursor operations the cursor is on an existing line and within (or directly behind) it.", "quantifier": "every sequence of operations", "why_tests_cant": "Unbounded histories.", "anchors": ["tui/editor/model.go", "tui/editor/editor.go: SetContent"]}
{"id": "C56", "title": "Digit counting is exact", "statement": "The number of decimal digits reported for an unsigned integer is the number of digits of its decimal representation.", "quantifier": "all 64-bit integers", "why_tests_cant": "2^64 inputs with boundaries at powers of ten.", "anchors": ["util/digits/digits.go: Count"]}
{"id": "C57", "title": "Wallet token polling is bounded", "statement": "Waiting for a wallet token makes a bounded number of attempts, waits at least the configured maximum before giving up, and returns immediately on success.", "quantifier": "every sequence of wallet replies", "why_tests_cant": "Schedules of replies.", "anchors": ["util/wallet/wallet.go: GetToken"]}
{"id": "C58", "title": "Fuzzing flips each single bit and restores the input", "statement": "The fuzzer presents every input that differs from the original in exactly one bit and leaves the original data unchanged afterwards.", "quantifier": "every input", "why_tests_cant": "All byte strings.", "anchors": ["util/fuzzer/fuzzer.go: Fuzz, switchBit"]}
{"id": "C59", "title": "The reported sender is the owner of the verified key", "statement": "When Decrypt succeeds, the sender identity it reports is the identity of the UID message whose key authenticated the message, so nobody else can make a message appear to come from that identity.", "quantifier": "all messages, senders, stores and recipients", "why_tests_cant": "A test checks honest senders; the property is about every message a malicious sender could construct.", "anchors": ["msg/decrypt.go: Decrypt", "msg/header.go: verify, readHeader", "msg/procuid.go"]}
{"id": "C60", "title": "Decrypting never panics", "statement": "For every byte string presented as a message and every reachable session store, Decrypt returns a result or an error.", "quantifier": "all inputs and stores", "why_tests_cant": "The input space is unbounded and the panic depends on combinations of header fields and stored state.", "anchors": ["msg/decrypt.go: Decrypt", "uid/keyentry.go: PublicKey32, PrivateKey32"]}
{"id": "C61", "title": "In-order messages arrive unchanged", "statement": "Two users who exchanged key material send any number of messages (below the limit of C13) in one direction and in order: the recipient never fails, and gets for every message exactly the content, sender identity and signature that was sent.", "quantifier": "all message sequences, contents, signature choices, random choices and batch sizes", "why_tests_cant": "Every message changes both stores; tests cover short scripted conversations only.", "anchors": ["msg/encrypt.go: Encrypt", "msg/decrypt.go: Decrypt", "msg/session/memstore/memstore.go"]}
{"id": "C62", "title": "The header padding makes every header the same length", "statement": "For every session state, nym address, identity and counter values within their limits, the JSON header built for a message has exactly the length the encrypted header requires, so that encryption never fails on the header length.", "quantifier": "all headers within the field limits", "why_tests_cant": "The length depends on all variable-length fields at once, including digits of counters and JSON escaping.", "anchors": ["msg/header.go: newHeader, newHeaderPacket", "util/digits/digits.go: Count", "uid/uid.go: JSON"]}
{"id": "C63", "title": "Message IDs identify the sender", "statement": "The sender parsed from a generated message ID is the sender it was generated for, also if that identity contains dashes, and two generated IDs are equal only if their random parts and senders are equal.", "quantifier": "all senders, random values and dates", "why_tests_cant": "Identities may contain the separator; tests use two fixed identities.", "anchors": ["msg/msgid/msgid.go: Generate, Parse"]}
{"id": "C64", "title": "MIME messages survive writing and parsing", "statement": "Parsing a message written for sending returns the same header, the first line as subject, the same text and the same attachments (base file name, content, type, inline flag).", "quantifier": "all headers, messages and attachment lists", "why_tests_cant": "Tests parse a handful of fixed messages, all with a non-empty first line.", "anchors": ["msg/mime/mime.go: New, Parse, SplitMessage, multipartMIME"]}
{"id": "C65", "title": "Parsing received MIME never panics", "statement": "For every received mail, parsing it as a message or as a chunk returns a result or an error.", "quantifier": "all mails, including truncated and malformed ones", "why_tests_cant": "Malformed inputs are unbounded; tests contain none that break off after the first part.", "anchors": ["msg/mime/mime.go: Parse, DecodeChunk"]}
{"id": "C66", "title": "AES modes round-trip and panic exactly on bad sizes", "statement": "Decrypting a CBC or CTR ciphertext with the key it was made with returns the plaintext; encryption and decryption panic exactly if the key is not 32 bytes, the CBC text is not a multiple of 16 bytes, or the ciphertext is shorter than the 16 byte IV.", "quantifier": "all keys, IVs, plaintexts and ciphertexts", "why_tests_cant": "Tests use a few plaintexts of fixed length.", "anchors": ["cipher/aes256/aes256.go: CBCEncrypt, CBCDecrypt, CTREncrypt, CTRDecrypt"]}
{"id": "C67", "title": "An interrupted database creation can be repeated", "statement": "If creating an encrypted database is interrupted at any point, then creating it again or opening it succeeds.", "quantifier": "all crash points during creation, all passphrases", "why_tests_cant": "Tests never interrupt the creation between its file operations.", "anchors": ["encdb/encdb.go: Create, Open", "encdb/keyfile.go: generateKeyfile"]}
{"id": "C68", "title": "Created UID messages pass the message check", "statement": "Every UID message that Create returns passes Check, the validity test every receiver of UID messages applies.", "quantifier": "all identities, preference levels, escrow flags, mix and nym addresses, last hash chain entries and random values", "why_tests_cant": "Tests create a few messages with one combination of options.", "anchors": ["uid/uid.go: Create, Message.Check"]}
{"id": "C69", "title": "Malformed key server data gives an error, not a crash", "statement": "Decrypting and verifying replies and messages of a key server returns an error for malformed data; it never panics.", "quantifier": "all replies and messages a key server can send", "why_tests_cant": "The set of malformed replies is infinite; tests feed well-formed replies only.", "anchors": ["uid/reply.go: MessageReply.Decrypt, VerifySrvSig", "uid/uid.go: VerifySelfSig, VerifyUserSig", "cryptengine/hashchain.go: syncHashChain"]}
{"id": "C70", "title": "Syncing reproduces an honest server's hash chain", "statement": "If the stored entries of a domain are a prefix of the key server's hash chain, then after a sync with that server the database holds exactly the server's chain for that domain.", "quantifier": "all chains, all stored prefixes, all other domains in the database", "why_tests_cant": "Tests sync a handful of entries from one starting point.", "anchors": ["cryptengine/hashchain.go: syncHashChain", "keydb/hashchain.go: AddHashChainEntry, GetLastHashChainPos"]}
{"id": "C71", "title": "Searching finds the newest registration of an identity", "statement": "After searching the hash chain of an honest key server for an identity, the message the database reports for that identity is the one registered last.", "quantifier": "all hash chains with any number of identities, entries and updates per identity, all earlier search states", "why_tests_cant": "Depends on the whole history of registrations and of earlier partial searches.", "anchors": ["cryptengine/hashchain.go: searchHashChain, lookupHashChain", "keydb/uid.go: AddPublicUID, GetPublicUID"]}
{"id": "C73", "title": "A refused registration can be repeated", "statement": "If registering a nym fails because the key server's reply does not verify, the user can register the nym again later.", "quantifier": "all databases, nyms, server replies and later attempts", "why_tests_cant": "The failure needs a misbehaving server; the damage shows in the next attempt only.", "anchors": ["cryptengine/uid.go: registerUID, updateUID"]}
{"id": "C74", "title": "Deleting a nym removes all its private keys", "statement": "After a nym has been deleted, the key database holds no private key material of it and does not list it.", "quantifier": "all histories of generating, updating and registering nyms before the deletion", "why_tests_cant": "Depends on the history of updates before the deletion.", "anchors": ["cryptengine/uid.go: deleteUID", "keydb/uid.go: DelPrivateUID, GetPrivateIdentities"]}
{"id": "C75", "title": "Sessions start only from keys signed by the recipient", "statement": "The key used to start a session with a recipient comes from a KeyInit message signed with the recipient's signature key.", "quantifier": "all key server replies and all recipients", "why_tests_cant": "The key server is untrusted; tests use an honest one.", "anchors": ["cryptengine/keyinit.go: fetchKeyInit", "cryptengine/encrypt.go: GetPublicKeyEntry"]}
{"id": "C76", "title": "A newer KeyInit message replaces the one in use", "statement": "After a newer KeyInit message has been fetched for a recipient, new sessions with the recipient use it.", "quantifier": "all sequences of key database commands", "why_tests_cant": "Tests fetch one KeyInit message per recipient.", "anchors": ["cryptengine/keyinit.go: fetchKeyInit", "keydb/keyinit.go: AddPublicKeyInit, GetPublicKeyInit"]}
{"id": "C72", "title": "A signature covers every field and messages of different kinds cannot be confused", "statement": "The bytes that are signed (UID message contents, key server entries, KeyInit contents) determine the kind of message and every one of its fields: two different messages, of the same or of different kinds, never have the same signed bytes.", "quantifier": "all pairs of UID message contents, key server entries and KeyInit contents with ASCII strings", "why_tests_cant": "A collision between two encodings can occur for any pair of values.", "anchors": ["uid/uid.go: JSON, CreateReply, VerifySrvSig", "uid/keyinit.go: KeyInit, JSON"]}
{"id": "C77", "title": "Mix messages carry a replay mark", "statement": "A mix that receives the same message twice reports the same uniqueness value both times, with the same expiry; two messages to the same single-use nym address report the same value, so a mix that refuses known values until they expire relays a single-use address at most once before it expires. An address is not usable after its expiry.", "quantifier": "all messages, mixes, nym addresses and times", "why_tests_cant": "The value depends on all key material and address fields; a test sees a few.", "anchors": ["mix/mixcrypt/clientmix.go ReceiveMessage", "mix/nymaddr/addr.go"]}
{"id": "C78", "title": "Mix address statements cannot be altered", "statement": "A statement made by a mix verifies, and no statement with other addresses verifies with the same signature.", "quantifier": "all address lists, keys and altered statements", "why_tests_cant": "It is a claim about all pairs of lists and their signed bytes.", "anchors": ["mix/mixaddr/addrlist.go Statement, Verify, hash, image"]}
{"id": "C79", "title": "Published mix keys stay usable", "statement": "For every unexpired address in the statement a mix publishes, the mix has the matching private key, also after expiry runs and restarts; private keys are refused after their expiry; every key in use is in the newest saved file.", "quantifier": "all histories of adding keys, expiring and restarting with non-decreasing time", "why_tests_cant": "It must hold over all histories and crash points.", "anchors": ["mix/mixaddr/privkey.go AddKey, GetPrivateKey, Expire, Unmarshal, saveKeys"]}
{"id": "C80", "title": "Listing messages is complete or fails", "statement": "ListMessages returns all messages of the server's answer in order, or an error; it does not crash on any answer.", "quantifier": "all answers of the account server", "why_tests_cant": "Answers come from another party and can have any shape.", "anchors": ["mix/client/accountrpc.go listMessages"]}
{"id": "C81", "title": "The CA certificate belongs to the accepted configuration", "statement": "After every successful configuration update the client's CA certificate is the one whose hash the configuration names, and it is unchanged if the configuration names none; an update that fails keeps the certificate the client had.", "quantifier": "every previous state, clock, server order and set of server replies", "why_tests_cant": "It must hold for all combinations of replies of all servers, including those where only some requests fail.", "anchors": ["configclient/client.go: Config.Update, getCACert", "configclient/cahash/hash.go: Hash"]}
{"id": "C82", "title": "Reissuing to a new own key never panics", "statement": "A reissue without a named recipient generates a new key and returns the hash of the new token or an error; it never crashes the client.", "quantifier": "all wallet states, server answers and generated keys", "why_tests_cant": "Holds for every state of the stored entry, including entries in every stage of an earlier reissue.", "anchors": ["serviceguard/client/reissue.go:ReissueToken", "serviceguard/client/walletserver.go:WalletToken", "serviceguard/client/runner.go"]}
{"id": "C83", "title": "The wallet runner can be stopped and never blocks its callers", "statement": "Stopping the runner ends it, starting it twice returns, and setting a new target never waits forever.", "quantifier": "all interleavings of starting, stopping and setting targets", "why_tests_cant": "Schedules of concurrent callers cannot be enumerated by tests.", "anchors": ["serviceguard/client/runner.go:Runner", "serviceguard/client/runner.go:StopRunner", "serviceguard/client/clientlib.go:SetTarget"]}
{"id": "C84", "title": "A signing key ID identifies the key and its attributes", "statement": "Two signing keys with the same key ID have the same point, expiry, usage and signer.", "quantifier": "all pairs of signing keys", "why_tests_cant": "Injectivity ranges over all pairs of byte strings.", "anchors": ["serviceguard/common/signkeys/keys.go:CalcKeyID"]}
{"id": "C85", "title": "The token hash binds key, nonce and owner", "statement": "A token is read back as it was written, and two tokens with the same hash have the same signing key, nonce and owner, so that the issuer's signature cannot be moved to another owner.", "quantifier": "all tokens and pairs of tokens", "why_tests_cant": "Injectivity ranges over all pairs of byte strings.", "anchors": ["serviceguard/common/token/types.go:Hash", "serviceguard/common/token/types.go:Properties", "serviceguard/common/token/types.go:Unmarshal"]}
{"id": "C86", "title": "The wallet balance counts exactly the tokens that can be taken", "statement": "Taking a token succeeds exactly if the balance for usage and owner is positive, hands out the token that expires first, locks it and lowers the balance by one.", "quantifier": "all wallet databases, usages, owners and times", "why_tests_cant": "Ranges over every history of the database.", "anchors": ["serviceguard/client/walletstore/store.go:GetAndLockToken", "serviceguard/client/walletstore/store.go:GetBalance"]}
{"id": "C87", "title": "Cached authentication data survives a restart", "statement": "The authentication token and verification keys written to the wallet are returned after the wallet is opened again.", "quantifier": "all tokens, try counts and key lists", "why_tests_cant": "Ranges over all cache contents and histories of opening and writing.", "anchors": ["serviceguard/client/walletstore/store.go:readCache", "serviceguard/client/walletstore/store.go:writeCache", "serviceguard/client/walletstore/types.go:CacheData"]}
{"id": "C88", "title": "The current signing key has not expired", "statement": "The key that the pool hands out as the current signing key has not expired at the time it is handed out.", "quantifier": "all pools with a generator, all times and histories of generating and loading keys", "why_tests_cant": "Depends on the time between calls and on the history of the pool.", "anchors": ["serviceguard/common/keypool/generator.go:Current"]}
{"id": "C89", "title": "The runner loads tokens exactly when a target asks for it", "statement": "One pass over the fill targets requests at most one token; it requests one only for an owner under the low water mark, or under the high water mark while loading; it requests none only if there is no such owner; water marks are never changed.", "quantifier": "all targets, balances, results of token requests and iteration orders", "why_tests_cant": "Ranges over all maps of targets, their iteration orders and all balances.", "anchors": ["serviceguard/client/runner.go:meetTarget", "serviceguard/client/clientlib.go:Target"]}
{"id": "C90", "title": "Going online loads the verification keys", "statement": "A client that goes online knows the verification keys the key lookup service lists, and keeps the ones it knew; it learns no others.", "quantifier": "all clients, cached keys and answers of the service", "why_tests_cant": "Ranges over all states of the client and all answers of the service.", "anchors": ["serviceguard/client/clientlib.go:GoOnline", "serviceguard/client/clientlib.go:GetVerifyKeys"]}
{"id": "C91", "title": "Signing keys survive storage", "statement": "A signing key written to storage is read back with the same id, point, expiry, usage, signer and signature, and a pool that knows its signer finds it after a restart.", "quantifier": "all signing keys", "why_tests_cant": "A round trip over all keys.", "anchors": ["serviceguard/common/signkeys/keys.go:Marshal", "serviceguard/common/signkeys/keys.go:Unmarshal", "serviceguard/common/keypool/generator.go:Load"]}
{"id": "C92", "title": "Only own, verified, unexpired, new tokens are received", "statement": "A token is received only if it carries the signature of the key it names, that key is signed by a known verification key, has not expired and is for the requested usage, the token belongs to this wallet and was not in the wallet before. It is in the wallet afterwards, and no other token changes.", "quantifier": "all tokens, wallets, key pools, usages and answers of the key lookup service", "why_tests_cant": "Ranges over all byte strings sent as tokens and all states of the wallet.", "anchors": ["serviceguard/client/receive.go:ReceiveToken", "serviceguard/client/verify.go:VerifyToken"]}
{"id": "C93", "title": "Stored signing keys are known after a start", "statement": "A client that is started knows the signing keys that were saved in its key storage before and are still valid.", "quantifier": "all contents of the key storage and all times", "why_tests_cant": "Ranges over all stored keys and histories.", "anchors": ["serviceguard/client/clientlib.go:New", "serviceguard/common/keypool/generator.go:Load", "serviceguard/common/keypool/keydb/keyvalue.go"]}
{"id": "C97", "title": "Deleting a nym removes everything of it and nothing of others", "statement": "Deleting a nym from the message database succeeds whenever the nym exists, and afterwards no contact, account, message or queue entry of that nym remains, while every other nym keeps exactly the same full name, contacts, accounts, messages and queue entries.", "quantifier": "every history of message-database operations, every nym and every other nym", "why_tests_cant": "The deletion relies on cascading foreign keys between seven tables; whether a row of another nym is ever dragged along, or a row blocks the deletion, depends on the whole history of the database.", "anchors": ["msgdb/nym.go:DelNym", "msgdb/msgdb.go:createQueryNyms", "msgdb/msgdb.go:createQueryMessages"]}
{"id": "C98", "title": "A message can be read and deleted only by its nym, and every listed message can be read", "statement": "Reading or deleting a message by number succeeds only for the nym the message belongs to; every message number in a nym's listing can be read by that nym and yields a sender, a recipient and the stored text; deleting removes exactly that message.", "quantifier": "every history of message-database operations, every nym and every message number", "why_tests_cant": "Message numbers are shared by all nyms and reused after deletion, so the claim concerns all interleavings of additions and deletions by all nyms.", "anchors": ["msgdb/msg.go:GetMessage", "msgdb/msg.go:DelMessage", "msgdb/msg.go:GetMsgIDs", "msgdb/msg.go:ReadMessage"]}
{"id": "C99", "title": "Adding a contact keeps the given name and list", "statement": "After 'contact add' succeeds for a contact, looking the contact up yields the full name given with the command (or the stored one if the contact was known) and the list the caller asked for: the white list for a contact the user adds, the gray list for an unknown sender of a received message. Nothing changes for other contacts and nyms.", "quantifier": "all databases reachable by any history of commands, all nyms, contacts, names and lists", "why_tests_cant": "it ranges over all histories and all names; a test looks at one contact", "anchors": ["ctrlengine/contact.go:contactAdd", "ctrlengine/contact.go:add", "ctrlengine/msg.go:procInQueue", "msgdb/contacts.go:AddContact", "msgdb/contacts.go:GetContact"]}
{"id": "C100", "title": "Blocking, unblocking and editing a contact", "statement": "Blocking a contact puts it on the black list and keeps its name, unblocking works exactly for blocked contacts and puts them on the white list with the same name, and editing changes the name only. None of these commands changes what is stored for other contacts or nyms.", "quantifier": "all reachable databases, nyms, contacts and names", "why_tests_cant": "it ranges over all histories of commands", "anchors": ["ctrlengine/contact.go:contactBlock", "ctrlengine/contact.go:contactUnblock", "ctrlengine/contact.go:contactEdit", "msgdb/contacts.go:AddContact"]}
{"id": "C101", "title": "Messages are only addressed to white-listed contacts", "statement": "Adding a message succeeds only if the sender is an own nym and the recipient is a contact on its white list; the message is then stored with exactly the given text, sender, recipient and date as an unsent outgoing message, and no other message is changed.", "quantifier": "all databases, identities and texts", "why_tests_cant": "it ranges over all databases and contact states", "anchors": ["ctrlengine/msg.go:msgAdd", "msgdb/messages.go:AddMessage"]}
{"id": "C102", "title": "Drawing the text ends and shows every character once", "statement": "Drawing the editor ends for every text, cursor and window size; each row shows each character of its line exactly once, in its first column and with its combining runes, and only spaces behind the line; all lines and columns of a text that has been set are drawn.", "quantifier": "every history of editor operations, every text and every width function", "why_tests_cant": "The loop adds the width of a character minus one to the column; it would not end at a cell of width 0. All texts and mixtures of wide, narrow and combining runes.", "anchors": ["tui/editor/view.go: Draw", "tui/editor/model.go: GetCell"]}
{"id": "C103", "title": "An enabled cursor is shown exactly once", "statement": "If the cursor is enabled, not hidden and in view, drawing shows it exactly once, at its coordinates.", "quantifier": "every history of editor operations", "why_tests_cant": "All texts and positions, in particular the second column of wide characters.", "anchors": ["tui/editor/view.go: Draw"]}
{"id": "C104", "title": "Setting the column keeps the row", "statement": "SetCursorX changes only the column of the cursor and SetCursorY only its row.", "quantifier": "every history of editor operations", "why_tests_cant": "Unbounded histories; the view keeps a copy of the coordinates.", "anchors": ["tui/editor/view.go: SetCursorX, SetCursorY, SetCursor"]}
{"id": "C94", "title": "A token is paid for once, and the client recovers", "statement": "A client that asks the wallet server for a token, repeating failed calls, gets one after a bounded number of calls of an honest server, and the server charges once per token the client gets, whichever requests and answers are lost and whenever the client is restarted.", "quantifier": "every state of client and honest server, every sequence of lost requests, lost answers and restarts", "why_tests_cant": "The outcome depends on which of the requests or answers are lost over several calls and on the counter of both sides; the tests talk to a reliable server.", "anchors": ["serviceguard/client/walletrpc/client.go: GetToken, getToken", "serviceguard/client/walletserver.go: getTokenFromWallet", "serviceguard/client/walletstore/store.go: SetAuthToken, GetAuthToken", "serviceguard/common/walletauth/walletauth.go: IsReplay"]}
{"id": "C95", "title": "No answer of a server crashes the client", "statement": "Whatever JSON object or error a wallet, lookup or guard server sends, the calls of the client return a value or an error, and do not panic.", "quantifier": "every answer: every error text, every JSON object with any fields of any types", "why_tests_cant": "The answers of the test servers are well-formed; there are infinitely many others.", "anchors": ["serviceguard/client/walletrpc/client.go: getToken, getBalance", "serviceguard/client/keylookup/impl.go: getKey, GetVerifyList", "serviceguard/client/guardrpc/client.go: GetParams, Spend, Reissue", "serviceguard/common/walletauth/walletauth.go: IsReplay"]}
{"id": "C96", "title": "Verification keys come from the trust root", "statement": "The list of issuer verification keys the client takes over from the lookup service is exactly a list the trust root signed.", "quantifier": "every answer of the lookup service, every list of keys the trust root signed", "why_tests_cant": "The answer comes from a server that may be malicious; no set of tests covers all signed texts and encodings.", "anchors": ["serviceguard/client/keylookup/impl.go: GetVerifyList", "serviceguard/client/clientlib.go: GetVerifyKeys"]}
{"id": "C105", "title": "Tokens due for renewal are renewed", "statement": "As long as an own, renewable token that nobody holds expires within a week, the wallet names a token for renewal, one that expires first; a renewal that was begun is continued.", "quantifier": "every wallet database, every time, every point at which a renewal stopped", "why_tests_cant": "Which tokens are named depends on the combination of lock, state, parameters, owner and expiry of all tokens in the wallet, and on where earlier renewals stopped.", "anchors": ["serviceguard/client/walletstore/store.go: GetExpire, GetInReissue, getExpireQuery, getReissueQuery", "serviceguard/client/reissue.go: ReissueToken"]}
{"id": "C106", "title": "Upkeep is executed once per period", "statement": "After an upkeep command was executed successfully for a user ID it is not executed again for that user ID before its period has passed; a command that failed is not counted as executed and can be repeated at once.", "quantifier": "every history of upkeep calls with any periods, interleaved with any other use of the message database, every behaviour of the account servers and the wallet", "why_tests_cant": "It is a statement about the distance of any two executions in an unbounded history, with arbitrary clock readings below the granularity of the stored time.", "anchors": ["ctrlengine/upkeep.go: checkExecution, upkeepAccounts, upkeepAccountsExecute, upkeepAll", "msgdb/upkeep.go: SetUpkeepAccounts, GetUpkeepAccounts"]}
{"id": "C107", "title": "Accounts are kept paid", "statement": "After a successful run of upkeep accounts every account of the user ID is paid for longer than the requested time; no account is paid for more than once in a run, and only if it needs it; each token that is taken is deleted if it was spent and available again otherwise.", "quantifier": "every set of accounts, every behaviour of the account servers, the wallet and the clock, every point at which a run fails", "why_tests_cant": "A run can fail between any two of its remote calls; what happens then in later runs depends on an unbounded history of lost answers.", "anchors": ["ctrlengine/upkeep.go: upkeepAccountsExecute, upkeepAccounts, upkeepAll", "mix/client/accountrpc.go: PayAccount, AccountStat"]}
{"id": "C108", "title": "Making a user ID settles all tokens", "statement": "When 'uid new' has ended, with success or an error, each payment token it took from the wallet is deleted if a server took it and available again otherwise; no token stays locked and no unspent token is deleted.", "quantifier": "every behaviour of the wallet, the account server, the key server and the mutecrypt process, every point at which a call fails, any number of attempts", "why_tests_cant": "A test plays one conversation with mutecrypt. Which token is settled depends on where, in a conversation with any number of lines, an error occurs.", "anchors": ["ctrlengine/uid.go: uidNew, mutecryptNewUID", "serviceguard/client/wallet: UnlockToken, DelToken"]}
{"id": "C109", "title": "A user ID is made completely or not at all", "statement": "When 'uid new' reports success, the identity is generated, registered at the key server and has a key init message whose address belongs to the account that was paid for, and the message database has the user ID with its account; the first one becomes active. When it does not report success, the message database is unchanged and the command can be repeated.", "quantifier": "every result of every command of mutecrypt (success, any error text, death of the process), every behaviour of the servers, every reachable message database", "why_tests_cant": "Success is inferred from lines that the other process writes, so that it holds only if it does for every order and content of such lines.", "anchors": ["ctrlengine/uid.go: uidNew, mutecryptNewUID", "cryptengine/cryptengine.go: Start", "cryptengine/uid.go: register", "msgdb/nyms.go: AddNym"]}
{"id": "C110", "title": "Deleting a user ID removes all of it", "statement": "When 'uid delete' reports success, the user confirmed it, the user ID is gone from the message database, its key is deleted and all of its accounts, and no others, are closed on their servers. When it fails it can be repeated until it is complete.", "quantifier": "every reachable message database with any number of accounts, every failure of mutecrypt and of the account servers", "why_tests_cant": "The accounts of a user ID are any set, and the deletion can stop between any two of three systems.", "anchors": ["ctrlengine/uid.go: uidDelete, mutecryptDeleteUID", "msgdb/nyms.go: DelNym", "msgdb/accounts.go: GetAccounts"]}
{"id": "C111", "title": "The active user ID exists", "statement": "The user ID shown as active, which commands use when none is given, is one of the user IDs in the message database; one is active as soon as there is any; a switch makes exactly the given user ID active and is refused for unknown ones.", "quantifier": "every history of uid new, edit, switch and delete with any results, interleaved with any other use of the message database", "why_tests_cant": "The active user ID is stored apart from the user IDs, so that the claim is an invariant of all histories.", "anchors": ["ctrlengine/uid.go: uidNew, uidSwitch, uidActive, uidDelete", "ctrlengine/ctrlengine.go: getID"]}
{"id": "C112", "title": "A nym address leads to the mailbox of its account", "statement": "A message of allowed size sent to a nym address that was made for an account, before the address expires, is delivered by the mix to the mailbox of exactly that account on the server the account is on, and the owner who fetches it can open the envelope and gets exactly the message. Mail for an address of another identity is never taken for one's own. Accounts with different keys or servers have different mailboxes.", "quantifier": "every account key, server name, secret, identity, expiry, delay, list of mixes, random choice, message and header", "why_tests_cant": "Address making, relaying and opening are in different programs that derive keys from the mailbox name, which must agree for all names and keys.", "anchors": ["util/nymaddr.go: MailboxAddress, NewNymAddress", "mix/mixcrypt/mixclient.go: Send, ReceiveFromMix", "ctrlengine/msg.go: procInQueue"]}
{"id": "C113", "title": "A database gets the passphrase that was given twice", "statement": "Creating the databases asks for the passphrase twice, changing it asks for the old one and twice for the new one. If the two answers agree, both databases get exactly that passphrase; if they differ, nothing happens. The old passphrase that is tried is the one that was given. This does not depend on how the bytes arrive. Reading a single line returns exactly that line.", "quantifier": "every passphrase, every way in which the input is cut into pieces by the pipe", "why_tests_cant": "The answers are slices of a buffer that is reused by later reads, which depends on their lengths and on the timing of the pipe.", "anchors": ["ctrlengine/db.go: dbCreate, dbRekey, createKeyDB, rekeyKeyDB", "cryptengine/db.go: dbCreate, dbRekey", "util/util.go: Readline"]}
{"id": "C114", "title": "Databases are made completely and rekeyed together", "statement": "Creating the databases succeeds only if both exist afterwards under the passphrase entered, with the configuration and a wallet key whose public half is the one shown; otherwise an error is reported and it can be repeated. Changing the passphrase changes that of both databases or of neither. Whatever commands are run and wherever they are interrupted, stored keys, the wallet key and the configuration are not lost, and the wallet is always started with the key that was made.", "quantifier": "every passphrase input and pipe, every answer of the configuration servers, every failed write or crash point, and every history of commands", "why_tests_cant": "Crash points between the writes of two programs and the state they leave for all later commands cannot be enumerated by tests.", "anchors": ["ctrlengine/db.go: dbCreate, dbRekey, createKeyDB, rekeyKeyDB", "cryptengine/db.go: dbCreate, dbRekey", "ctrlengine/wallet.go: printWalletKey", "ctrlengine/ctrlengine.go: startWallet, decodeWalletKey"]}
{"id": "C115", "title": "Commands run with a recent configuration signed by the built-in key", "statement": "Every command runs with a complete configuration that was fetched within the last 24 hours, or within the last week with --offline, and all settings come from it. What is stored for mutectrl and for the other programs is always signed with the built-in key and is never replaced by an older one. With --offline no server is contacted. A configuration that cannot be used does not replace one that can.", "quantifier": "every answer of the servers, time, crash point and history of commands", "why_tests_cant": "It is a claim about all histories with interruptions between the writes, and about answers of servers that are not under control.", "anchors": ["ctrlengine/ctrlengine.go: getConfig, prepare, loop", "ctrlengine/upkeep.go: upkeepFetchconf, writeConfigFile", "def/def.go: InitMute", "configclient/client.go: Update"]}
{"id": "C116", "title": "Software updates go forward and are possible when they are demanded", "statement": "Commands are refused as outdated exactly if the binary is another version more than 14 days older than the release in the configuration, and an update is announced exactly if it is older by less. Whoever is refused or informed can update. An update only builds a version that a configuration signed with the built-in key names, and never an older one than that which is running. The update command itself is never refused.", "quantifier": "every pair of builds and releases, every configuration and every answer of the servers", "why_tests_cant": "The check and the update compare dates independently of each other; that they agree for all versions and dates is not covered by examples.", "anchors": ["ctrlengine/ctrlengine.go: checkUpdates, prepare", "ctrlengine/upkeep.go: upkeepUpdate"]}
{"id": "C117", "title": "Messages pass between the two programs of a fetch unchanged under every schedule", "statement": "While messages are fetched, the texts and times put into the queue are byte for byte those the server delivered, in the order listed, for every way in which the two programs and their goroutines are scheduled and reads and writes are cut into pieces, also when one of the programs is killed or the database fails. The programs never block each other, every run ends, and a run that reports success has stored every new message. An interrupted run can be repeated.", "quantifier": "every list of messages, cache, pipe capacity, interleaving, chunking of reads and writes, kill and database failure", "why_tests_cant": "The interleavings of two processes and three goroutines and the ways to cut the streams into pieces are unbounded; a test sees a few of them.", "anchors": ["ctrlengine/msg.go: muteprotoFetch", "protoengine/fetch.go: fetch", "util/util.go: Fatal"]}
{"id": "C118", "title": "The web interface serves pages only to whoever knows the passphrase", "statement": "A page of the local web interface is served only for a request that carries the cookie given out by the last successful login, and it is served for every such request. A login succeeds only for the passphrase of the message database; other logins at the same time do not change that. The cookie is not predictable from earlier ones.", "quantifier": "every sequence and interleaving of logins and page requests of any number of clients, every passphrase sent and every cookie", "why_tests_cant": "The state is shared between concurrent requests; the interleavings of logins and page requests are unbounded.", "anchors": ["ctrlengine/app.go: checkCookie, setCookie, login, startApp", "ctrlengine/ctrlengine.go: prepare"]}
{"id": "C119", "title": "An interrupt ends a program in order and the exit status tells whether the command was done", "statement": "A program ends with status 0 exactly if its command was done without an error, and with its database closed. An interrupt at any time ends the program after finitely many of its own steps, whatever the command is doing, and without an interrupt it ends when the command ends; it never hangs.", "quantifier": "every interleaving of the main goroutine, the command and the handler of interrupts, and every number of interrupts at any times", "why_tests_cant": "The order in which the goroutines and interrupts meet is up to the scheduler; the windows are too small to be met by a test.", "anchors": ["cmd/mutectrl/mutectrl.go: main, mutectrlMain", "cmd/mutecrypt/mutecrypt.go: mutecryptMain", "util/interrupt/interrupt.go: AddInterruptHandler, mainInterruptHandler"]}
{"id": "C120", "title": "What the sender records about a message is what happened to it", "statement": "A message is marked as sent only if a mail server accepted exactly the mail made for it, addressed to a mix of the recipient, and if that mix reads the mail in time the owner of the nym address gets exactly the message. A message that was accepted is not sent again. A temporary refusal is repeated later, a token that was refused for good leads to a new envelope, and any other refusal is told to the user and does not keep back other messages.", "quantifier": "every message, envelope, nym address, reply of the mail server and failure of the network, every kill of the delivering program, and every history of the engine including crashes", "why_tests_cant": "The outcome passes through two programs as text; that all replies and failures are told apart, in every history, is not covered by examples.", "anchors": ["protoengine/create.go: create", "protoengine/deliver.go: deliver", "ctrlengine/msg.go: muteprotoDeliver, procOutQueue", "mix/client/send.go: Create, Deliver", "mix/smtpclient/client.go: SendMail, parseError"]}
{"id": "C121", "title": "What is shown of messages is what is stored", "statement": "`msg list` shows one line for every message of the nym, from which its number, direction, state (read or delivered), date, sender, recipient and first line can be read back. `msg read` works exactly for the messages of the nym and prints a mail with the stored parties, the subject and the body; whatever a sender writes, the message cannot add a header, end the headers early, add a line to the list or change a column, and a mail reader shows the subject that was written. Reading marks that message as read and changes nothing else.", "quantifier": "every history of the message database, every message text, every identity and full name", "why_tests_cant": "The text and the identity of a received message are chosen by others; that no text breaks the output is a statement about all texts.", "anchors": ["ctrlengine/msg.go: msgList, msgRead", "msgdb/messages.go: GetMsgIDs, GetMessage, ReadMessage", "msg/mime/mime.go: SplitMessage", "uid/identity/identity.go: Map"]}
{"id": "C122", "title": "Only authentic messages pass from the encryption process to the engine", "statement": "Messages are encrypted and decrypted by a separate mutecrypt process, which writes a decrypted content to its standard output before it has checked the authentication, and reports the sender on its standard error afterwards. Whatever message it is given, wherever it is stopped and with whatever exit status, mutectrl stores only messages whose authentication was checked successfully, with exactly their content and the sender named in the header; forged, cut or unauthenticated content never gets into the inbox. Likewise an encrypted message is put into the out-queue only if the encryption was completed, with everything that was written and the nym address that was determined. A message that can be encrypted and decrypted arrives with its content and its sender, and a message without a key does not block the others.", "quantifier": "all encoded messages (valid or forged), all key databases, all points at which the process may be stopped and all exit statuses, all error texts, all in-queues and histories of the message database, all sender names and nym addresses", "why_tests_cant": "Tests call msg.Encrypt and msg.Decrypt in the same process and with honest peers; the protocol between the processes must be safe for every interruption and for every name a peer may choose.", "anchors": ["cryptengine/decrypt.go:decrypt", "cryptengine/encrypt.go:encrypt", "ctrlengine/msg.go:mutecryptDecrypt", "ctrlengine/msg.go:mutecryptEncrypt", "ctrlengine/msg.go:procInQueue", "util/util.go:Fatal"]}
{"id": "C123", "title": "Key servers are only used for what they said they support, and asked once", "statement": "Whatever the network answers: a command that needs a method of the key server of a domain gets a connection only to the server that gave the newest successful answer to a request for the capabilities of that domain, and only if the answer lists the method. The first such command makes one request, at the configured address of the domain or at the alternate host given to the program over TLS; later ones make none. A failed request changes nothing for later commands. No history makes the program panic. Commands without an alternate host use the configured server of the domain.", "quantifier": "every history of commands that ask for, print or use the capabilities of domains, with arbitrary configurations, certificates and server answers at every step", "why_tests_cant": "The cache is filled and read by many commands in any order with servers that fail or change their answers; tests run one order with one server.", "anchors": ["cryptengine/cache/cache.go:Set", "cryptengine/cache/cache.go:Get", "cryptengine/cache/cache.go:ShowCapabilities", "cryptengine/capabilities.go:getCapabilities", "cryptengine/capabilities.go:showCapabilities"]}
{"id": "C124", "title": "A payment gives the new owner a token everyone accepts", "statement": "A request to reissue a token is only made with an issuer key of the same usage and the same service guard as the old token's key, signed by a known signer and unexpired; it carries exactly the old token, the blinded new token of the named owner and the parameters, signed for the old owner, and is refused if the old token has an owner and no key is given. Whatever the issuer replies, the result is the requested token with a valid signature or an error. With an issuer that works, the reply gives a token that every client who knows the key verifies, with the old usage and the new owner. The new owner is the one named in the call.", "quantifier": "all tokens, keys, parameters, key pools, random bytes and replies; every blind signature scheme that works", "why_tests_cant": "Tests run one payment with one issuer; the guarantees are about every reply of an issuer, every mismatch of parameters and every pending state of the wallet.", "anchors": ["serviceguard/client/packetproto/methods.go:Reissue", "serviceguard/client/packetproto/methods.go:NewToken", "serviceguard/client/packetproto/methods.go:Unblind", "serviceguard/client/packetproto/methods.go:Spend", "serviceguard/client/reissue.go:ReissueToken", "serviceguard/client/verify.go:Verify", "serviceguard/common/types/types.go"]}
{"id": "C125", "title": "A script of mutecrypt commands is executed line by line", "statement": "mutecrypt started without a command reads commands from its command descriptor. Each line is executed exactly once, in the order of the text, with the options mutecrypt was started with, until quit or the end of the text, however the text is cut into pieces on its way; each command is answered by READY.", "quantifier": "every text, every way in which it arrives in pieces, every set of commands and what they do, every set of global options", "why_tests_cant": "The order of execution depends on how a pipe cuts the text into pieces and on lines such as one of blanks; a test sees one text in one cutting.", "anchors": ["cryptengine/cryptengine.go: loop, New", "github.com/urfave/cli v1.20.0 App.Run"]}
{"id": "C126", "title": "A session of the interactive mutectrl shell does what its lines say", "statement": "mutectrl started without a command shows the active user ID and READY before each prompt and executes the lines one after the other, each once and with the global options of the shell; errors are reported and do not end the shell; quit, Ctrl-C and the end of the input end it.", "quantifier": "every sequence of lines, aborts and ends of input, every set of commands and what they do, every set of global options", "why_tests_cant": "The shell calls itself for some lines and passes only some of its options on, so what a line does depends on the lines before it; a test types a few lines.", "anchors": ["ctrlengine/ctrlengine.go: loop, prepare, New", "github.com/urfave/cli v1.20.0 App.Run"]}
{"id": "C127", "title": "The delays asked for are the delays the mix is told", "statement": "Delays given to msg add and uid new are refused if the minimum is below a minute or not below the maximum; otherwise exactly they are stored with the message, passed on, and a message marked as sent was handed to a mix with these delays.", "quantifier": "every text of the two options and every history of the engine", "why_tests_cant": "All integers that Go's flag parser accepts in any base, with conversions between 64 and 32 bits and via decimal text to another process; histories of sending are unbounded.", "anchors": ["ctrlengine/ctrlengine.go: checkDelayArgs", "ctrlengine/msg.go: muteprotoCreate, msgSend", "protoengine/protoengine.go: create command", "def/def.go: MinMinDelay, MinMaxDelay"]}
{"id": "C128", "title": "A message is sent as it was written, also from a mail", "statement": "The text of a message is the file, the standard input or the typed lines, byte by byte. With mail input the recipient and the subject are those of the header of the mail, whatever the case of the field names, the ends of lines and the folding, and the body is unchanged; a mail without recipient is refused.", "quantifier": "every text, every mail with any fields in any order and any body, every state of the database", "why_tests_cant": "All headers, foldings and bodies, in particular bodies which look like headers and fields which occur twice.", "anchors": ["ctrlengine/mail/mail.go: Parse", "ctrlengine/msg.go: msgAdd"]}
{"id": "C129", "title": "The keys of the editor move the cursor where they say", "statement": "With an enabled cursor on the text the arrow keys move by one cell, the page keys by one page, Home to the first and End to the last column of the last line, never off the text; every cell can be reached. No key changes the text, and without a cursor no key moves it.", "quantifier": "every history of editor operations, every text and size of the window", "why_tests_cant": "Unbounded histories and all texts.", "anchors": ["tui/editor/view.go: keyUp, keyDown, keyLeft, keyRight, keyPgUp, keyPgDn, keyHome, keyEnd, SetCursor", "tui/editor/model.go: MoveCursor, limitCursor"]}
{"id": "C130", "title": "A contact is added only after its keys were looked up in a validated chain", "statement": "If `contact add` succeeds for a contact that was unknown, the hash chain of the contact's domain was synced and validated, the key server and the contact were found in it and the contact's key init was fetched, in this order and with these arguments; and if all of this succeeds the contact is added. The dialogue with `mutecrypt` always ends.", "quantifier": "every key database, contact, sequence of answers of the key servers and texts of errors", "why_tests_cant": "The answers of the servers and the texts of their errors are unbounded and adversarial; the dialogue is a protocol of two processes.", "anchors": ["ctrlengine/contact.go: mutecryptAddContact, contactAdd", "cryptengine/cryptengine.go: loop, Start", "cryptengine/hashchain.go: syncHashChain, validateHashChain, searchHashChain", "cryptengine/keyinit.go: fetchKeyInit", "util/jsonclient/jsonclient.go: JSONRPCRequest"]}
{"id": "C131", "title": "A token handed out is locked and belongs to the payee", "statement": "If GetToken(usage, owner) returns a token, that token is in the wallet, locked by this call, of the given usage and, if an owner was named, recorded for that owner; the spendable token that expires first is preferred and then no server is asked. Without a token GetToken returns an error. A token that the wallet server hands out is in the wallet at every later point at which the program can stop, until it is spent.", "quantifier": "all wallets, usages, owners, answers of wallet server and issuer, lock IDs and crash points", "why_tests_cant": "A test sees one wallet and one set of answers; the claim is about every answer of two remote servers and every point at which the program can stop.", "anchors": ["serviceguard/client/clientlib.go:GetToken", "serviceguard/client/walletserver.go:WalletToken", "serviceguard/client/walletstore/store.go:GetAndLockToken", "serviceguard/client/reissue.go:ReissueToken"]}
{"id": "C132", "title": "Accounts are kept per nym and contact exactly as stored", "statement": "After any history of database operations, GetAccount and GetAccountTime for a nym and a contact (or none, for new contacts) give exactly the private key, server, secret and delays given to the AddAccount that succeeded for that pair, and the load and last-message times last set for it; deleting the nym is the only thing that removes it. AddAccount succeeds exactly if the nym and the contact exist and the pair has no account. GetAccounts names every contact with an account exactly once and nothing else.", "quantifier": "all histories of operations on the message database, all identities, keys, servers, secrets, delays and times", "why_tests_cant": "A test runs a few calls; row numbers are reused after deletions, so whether an account can end up with another contact depends on the whole history.", "anchors": ["msgdb/accounts.go:AddAccount", "msgdb/accounts.go:GetAccount", "msgdb/accounts.go:GetAccounts", "msgdb/accounts.go:SetAccountTime", "msgdb/accounts.go:SetAccountLastMsg", "msgdb/nyms.go:DelNym"]}
{"id": "C133", "title": "A mix whose keys are maintained can always be reached and does not pile up keys", "statement": "While Maintain runs, with ticks at most d seconds apart and keys that live at least the interval between new keys plus d, the published statement always has an unexpired address of the mix whose private key the mix has; if ticks are not further apart than new keys, the number of keys kept and published is bounded by the life of a key divided by the interval. GetKeyEntry and GetPrivateKey agree and BoundaryTime gives the first and the last expiry.", "quantifier": "all sequences of ticks of the clock, all configurations, all key lists before the maintainer starts, all moments between ticks", "why_tests_cant": "The invariant holds over unbounded running time and any spacing of ticks; a test observes a few ticks of a fake clock.", "anchors": ["mix/mixaddr/privkey.go:Maintain", "mix/mixaddr/privkey.go:AddKey", "mix/mixaddr/privkey.go:Expire", "mix/mixaddr/privkey.go:GetKeyEntry", "mix/mixaddr/privkey.go:GetBoundaryTime"]}
{"id": "C134", "title": "Addresses are made for keys that the mix has signed; a revocation is reported as the mix answers", "statement": "NewNymAddress makes an address only for an entry of the statement with which the mix answered GetMixKeys, whose key outlives the address, and only if that statement carries a valid signature. RevokeMessage reports success exactly if the mix answers that the message is revoked, and returns the error the mix reports.", "quantifier": "all answers to the requests, all statements, all identities, accounts and parameters of an address", "why_tests_cant": "The answers come from the network and may be forged; tests use one server.", "anchors": ["mix/client/mixrpc.go:GetMixKeys", "mix/client/mixrpc.go:RevokeMessage", "util/nymaddr.go:NewNymAddress"]}
{"id": "C135", "title": "A key entry gives out the keys it was given", "statement": "Whatever sequence of generating keys, setting private keys and reading public keys a key entry goes through, the private key it gives out is the last one that was accepted (a key is accepted if it is the encoding of as many bytes as the entry's function asks for), in the form the function asks for, and asking for one that is not there is a panic and never another key. The public key given out is the one in PUBKEY. A generated entry that is stored as JSON together with the private key it gives out, and read back, holds the same two keys. Entries compare equal exactly if their exported fields agree. A private key that does not belong to the public key, or a public key of the wrong size, should be refused.", "quantifier": "every entry, every sequence of calls, all keys and strings", "why_tests_cant": "The keys are cached in three places with two flags; which of them is read depends on the whole history of calls, and tests only use fresh entries.", "anchors": ["uid/keyentry.go: KeyEntryEqual, InitDHKey, initSigKey, PublicKey32, PrivateKey32, PrivateKey64, PrivateKey, SetPrivateKey", "cipher/curve25519.go: SetPublicKey, SetPrivateKey", "cipher/ed25519.go: SetPublicKey, SetPrivateKey"]}
{"id": "C136", "title": "The private key of every published KeyInit is found", "statement": "After any history of adding and flushing KeyInit messages, the private key of every KeyInit that was added is found under the hash of its public key, the entry returned has that hash and its private key belongs to its public key; a hash of no added KeyInit is answered with \"no key entry\". So a sender whose key database holds KeyInits that the recipient published, in whatever order and however old, encrypts to a key that the recipient can find, and learns the nym address it was published with. A KeyInit counts as added only if the key server signed it.", "quantifier": "every history of calls, every database of private UIDs, all answers of the key server, every database of the sender", "why_tests_cant": "It is about the join of two databases after arbitrary histories, with every possible answer of the server in between.", "anchors": ["cryptengine/keyinit.go: addKeyInit, flushKeyInit", "cryptengine/keystore.go: GetPrivateKeyEntry, GetPublicKeyEntry", "keydb/keydb.go: AddPrivateKeyInit, GetPrivateKeyInit"]}
{"id": "C137", "title": "Updating from source installs the released commit, and a failed attempt can be repeated", "statement": "When 'upkeep update' reports success, all installed programs were built from exactly the commit named in the configuration and name that commit as their release, so that the next update finds them up to date. With local changes nothing is touched. If an attempt fails or is interrupted at any command, no program is ever built from another commit than one that was asked for, and a later attempt of which all commands work succeeds.", "quantifier": "every history of update attempts, each with arbitrary outcomes of the git and go commands (failure, or interruption after part of the work), every commit, branch head and contents of the generated release file", "why_tests_cant": "the outcome depends on the point at which earlier attempts failed and on the state they left in the source directory (detached head, generated file, some of the programs); there are unboundedly many histories, and the commands need a network and a compiler", "anchors": ["ctrlengine/upkeep.go: updateMuteFromSource, upkeepUpdate", "util/git/git.go: Status, Checkout, Pull, GetHead", "util/gotool/gotool.go: Install, Generate", "cmd/mutegenerate/mutegenerate.go: main, commitChanged, printCode"]}
{"id": "C138", "title": "Signing keys that are handed out can be found by those who check tokens", "statement": "Every signing key that the key pool hands out as the current key is in the storages registered with the pool before it is used: whoever shares a storage and knows the signer finds the key, by its id or by loading all keys, until it expires, also after restarts of the issuer and failed writes.", "quantifier": "every history of key generation, saving, restarts and loading, with arbitrary outcomes of each write (done, failed, broken off), every choice of storages, every pool that checks tokens", "why_tests_cant": "the storage tests write and read one key; what is on disk depends on the whole history of writes and on the points at which they fail", "anchors": ["serviceguard/common/keypool/generator.go: Current, SaveKey, WriteKey, RegisterStorage, Load, Lookup", "serviceguard/common/keypool/keydb/dbstorage.go: writeFunc, Fetch, loadFunc", "serviceguard/common/keypool/keydir/filestorage.go: writeKeyToDir, loadKeysFromDir"]}
{"id": "C139", "title": "The programs understand each other's command lines", "statement": "Every call mutectrl makes to mutecrypt or muteproto is taken apart by the program called as it was meant: the program works in the home and log directory of mutectrl with its log level, uses the key server that was named, uses the file descriptors it was given, and does the job the call is for with the identities, domains, tokens, addresses, delays and times passed, whatever bytes these values are (a value that looks like an option is still the value). Every line written to the loop of a running mutecrypt is understood as meant too, if the values in it are words.", "quantifier": "all calls of mutectrl, all values (any bytes; numbers that fit their types), all global options; all lines written to the loop with values that are words", "why_tests_cant": "The values are unbounded strings chosen by users and servers; a test tries a few, and runs the programs apart from each other.", "anchors": ["ctrlengine/msg.go: mutecryptEncrypt, muteprotoCreate, muteprotoFetch", "ctrlengine/uid.go: mutecryptNewUID, mutecryptHashchainSearch, mutecryptDeleteUID", "ctrlengine/contact.go: mutecryptAddContact", "ctrlengine/upkeep.go: mutecryptHashchainSync, mutecryptHashchainValidate", "ctrlengine/db.go: createKeyDB, rekeyKeyDB, mutecryptDBVersion", "cryptengine/cryptengine.go: New, loop", "protoengine/protoengine.go: New", "util/descriptors/descriptors.go: NewTable"]}
{"id": "C140", "title": "Maintenance of the databases keeps their contents and does what it reports", "statement": "Vacuuming a database never changes its contents, whatever fails. A vacuum that reports success leaves no unused pages and the auto-vacuum mode that was asked for; a mode that does not exist is an error and changes nothing; an incremental vacuum works in mode INCREMENTAL only and removes the pages asked for. The command db vacuum of mutectrl compacts the message database and the key database.", "quantifier": "all databases, modes, numbers of pages and failures of the statements", "why_tests_cant": "The statements may fail at any point and the two databases are handled by two programs; tests vacuum one small database without failures.", "anchors": ["encdb/encdb.go: Status, Vacuum, Incremental", "ctrlengine/db.go: dbVacuum, mutecryptDBVacuum, mutecryptDBStatus, mutecryptDBIncremental", "ctrlengine/ctrlengine.go: db commands", "cryptengine/cryptengine.go: db commands"]}
{"id": "C141", "title": "Messages can be sent and received when every run of mutecrypt opens the key database anew", "statement": "Two users who have never communicated, with new key databases, exchange any number of messages in one direction, each encrypted by one run of `mutecrypt encrypt` and decrypted by one run of `mutecrypt decrypt`. Every run succeeds, and each message is decrypted to exactly the content that was sent, attributed to the sender, with the sender's signature: what the runs leave in the database is all that the next run needs.", "quantifier": "all numbers of messages, contents, signature choices, random choices, numbers of future keys and users", "why_tests_cant": "The repository's tests of long conversations use the session store in memory, and its tests of the database stay on one connection; how the two behave together depends on the number of messages, on which rows were inserted last on which connection and on every random choice on the way.", "anchors": ["keydb/session.go: AddSession, GetMessageKey, DelMessageKey, GetSession", "keydb/sessionstate.go: SetSessionState, GetSessionState", "keydb/sessionkey.go: AddSessionKey, DelPrivSessionKey", "cryptengine/keystore.go: StoreSession, GetMessageKey, NumMessageKeys, GetChainKey", "cryptengine/cryptengine.go: Start", "msg/encrypt.go: Encrypt", "msg/decrypt.go: Decrypt"]}
{"id": "C142", "title": "Messages open in whatever order they arrive", "statement": "A user sends any list of messages to somebody they never communicated with; the encoded messages arrive in any order, each of them any number of times (a mailbox that is fetched is decrypted newest first). Each message is decrypted to exactly the content that was sent, with the sender and signature, the first time it is tried; further copies are refused.", "quantifier": "all lists of messages, all random choices of both sides without accidental collisions, all sequences of arrivals with repetitions, all batch sizes", "why_tests_cant": "Tests exchange messages one by one in the order they were sent; the number of arrival orders grows factorially and the refusal depends on how many keys earlier arrivals have caused to be made.", "anchors": ["msg/decrypt.go: Decrypt", "msg/encrypt.go: Encrypt", "msg/keys.go: generateMessageKeys", "msg/session/memstore/memstore.go: StoreSession", "ctrlengine/msg.go: procInQueue"]}
{"id": "C143", "title": "A message goes the whole way from one user to the other", "statement": "Messages that a user sends for the first time to a contact are encrypted by the sending program; each envelope that the mail server of the mix accepted leads, if the mix reads its mail before the address expires, to a mail in the mailbox of the recipient's account; and when the recipient then fetches the mailbox and processes what was fetched, the messages found there, in whatever order the mix sent them on and whichever of them are missing, are all in the recipient's inbox with the sender, the arrival time and exactly the text that was written, nothing else was added to the inbox, nothing waits in the queue, and the user's own outgoing messages are as before.", "quantifier": "all lists of messages, all random choices of sender, mix and recipient, all sets and orders of arrival, all earlier histories of the recipient's database and mailbox", "why_tests_cant": "the claim runs through encryption, envelope, two servers, mailbox, database and decryption, for all texts, orders, losses and histories; tests exercise each program separately with a few messages", "anchors": ["ctrlengine/msg.go: procOutQueue", "ctrlengine/msg.go: msgFetch", "ctrlengine/msg.go: procInQueue", "cryptengine/encrypt.go: encrypt", "cryptengine/decrypt.go: decrypt", "protoengine/create.go: create", "protoengine/fetch.go: fetch", "mix/mixcrypt/clientmix.go: ReceiveMessage", "msgdb/inqueue.go: RemoveInQueue"]}
{"id": "C144", "title": "With the key database, the messages of a first batch open in any order", "statement": "Two users with new key databases have never communicated. One of them sends the other messages, each encrypted by a run of the encryption program of its own that opens the sender's key database. Then, as long as the messages are within the first batch of keys, every run succeeds, and whichever of the messages reach the other user, in whatever order, each run of the decryption program on the other user's key database gives exactly the text that was written, with the sender and the signature; and when the messages travel through mix and mailbox, exactly they are in the recipient's inbox after the next fetch.", "quantifier": "all lists of messages up to the size of a batch of keys, all random choices, all sets and orders of arrival, all earlier histories of the recipient's message database and mailbox", "why_tests_cant": "tests decrypt a fixed conversation in order with sessions in memory; the claim is about the rows the database has between any two processes, for every order and every set of lost messages", "anchors": ["cryptengine/encrypt.go: encrypt", "cryptengine/decrypt.go: decrypt", "keydb/keydb.go: AddSession", "keydb/keydb.go: GetMessageKey", "keydb/keydb.go: DelMessageKey", "keydb/keydb.go: SetSessionState", "msg/decrypt.go: Decrypt", "ctrlengine/msg.go: procInQueue"]}
{"id": "C145", "title": "In a conversation with refreshed sessions every message opens once, in any order, with what was sent", "statement": "Two users who have never communicated, one of whom has the other's KeyInit message, send each other messages in any interleaving, while sessions are refreshed whenever the library decides so. Messages may be given to the recipient at any time, in any order, several times or never. Then sending always succeeds (for the second user as soon as something was received), a message that was not opened before opens with exactly the content, sender and signature it was written with, and a message opened before is refused; otherwise a message is refused only if more than 301 keys would have to be made for its number in its session. The number of a message in its header is the number of messages its sender wrote earlier in the same session.", "quantifier": "all lists of sending and receiving actions of two users, all contents, keys and random choices about new sessions, all orders of arrival, losses and repetitions", "why_tests_cant": "the tests exchange a handful of messages in lock step; whether both sides agree on the keys after any number of session changes with delayed, lost and repeated messages in flight is a statement about all interleavings", "anchors": ["msg/encrypt.go: Encrypt", "msg/decrypt.go: Decrypt", "msg/keys.go: generateMessageKeys", "msg/session/session.go: Store", "msg/session/memstore/memstore.go: MemStore"]}
{"id": "C146", "title": "The session keys of a conversation are refreshed again and again", "statement": "As long as two users keep writing to each other and opening what they receive, new session keys replace the old ones from time to time, so that a key that becomes known only exposes part of the conversation. In particular the key of the KeyInit message, which may have been published long before, is only used until the users have exchanged messages in both directions.", "quantifier": "all conversations in both directions, all random choices about new sessions, all orders in which messages are written and opened", "why_tests_cant": "a test that sees a key change in one exchange cannot tell whether there is an order of messages after which no key ever changes again", "anchors": ["msg/encrypt.go: Encrypt", "msg/decrypt.go: Decrypt", "msg/session/session.go: State"]}
{"id": "C147", "title": "Keys that were used are forgotten", "statement": "At every point of a conversation in which both users send messages in any order and open them in any order, any number of times, with any random choices about new sessions: the key of a message is gone from the sender's store once the message is sent and from the recipient's store once it is opened; and of all the session keys a user has drawn, the store still has the private part only of the one in use (and not even that once the next session is prepared) and of the one announced for the next session. So someone who obtains a user's store later cannot recompute the keys of messages that were exchanged before.", "quantifier": "all lists of sends and opening attempts of two users, all contents, keys and random choices, every point in time", "why_tests_cant": "It is about the state left behind by every possible history; the number of sessions, messages and interleavings is unbounded.", "anchors": ["msg/encrypt.go: Encrypt", "msg/decrypt.go: Decrypt", "msg/decrypt.go: rootKeyAgreementRecipient", "keydb/sessionkey.go: DelPrivSessionKey", "keydb/keydb.go: DelMessageKey"]}
{"id": "C148", "title": "First contacts that cross do no harm", "statement": "Two users who have never communicated, each of whom has the other's KeyInit message, may send each other messages at any time, also both before receiving anything. Messages may be given to the recipient at any time, in any order, several times or never. Then sending always succeeds, every message opens once with exactly the content, sender and signature it was written with, whichever session it belongs to, and a message is refused only if it was opened before or more than 301 keys would have to be made for its number in its session, which is the number of messages its sender wrote earlier in that session. In particular the two users agree on one of the two sessions without losing a message of the other.", "quantifier": "all lists of sending and receiving actions of two users who know each other's KeyInit, all contents, keys and random choices about new sessions, all orders of arrival, losses and repetitions", "why_tests_cant": "whether the two users agree on a session depends on the interleaving of the first messages and answers in both directions, of which there are infinitely many; tests cover the one in which both first messages arrive immediately", "anchors": ["msg/encrypt.go: Encrypt", "msg/decrypt.go: Decrypt", "msg/session/session.go: State", "msg/session/memstore/memstore.go: MemStore"]}
{"id": "C149", "title": "Keys that were used are forgotten when first contacts cross", "statement": "Two users who have never communicated, each of whom has the other's KeyInit message, send each other messages and open them in any order, any number of times; both may write before receiving anything. At every point the key of a message is gone from the sender's store once the message is sent and from the recipient's store once it is opened, and of all the session keys a user has drawn, the store still has the private part only of the one in use and of the one announced for the next session. In particular the session that was given up when the first contacts crossed leaves no private key behind.", "quantifier": "all lists of sends and opening attempts of two users who know each other's KeyInit, all contents, keys and random choices, every point in time", "why_tests_cant": "It is about the state left behind by every possible history, and the session is given up only in some interleavings of the first messages.", "anchors": ["msg/encrypt.go: Encrypt", "msg/decrypt.go: Decrypt", "keydb/sessionkey.go: DelPrivSessionKey", "keydb/keydb.go: DelMessageKey", "msg/session/memstore/memstore.go: MemStore"]}
{"id": "C150", "title": "A conversation can be taken up again after one user starts anew", "statement": "Two users have a session. One of them loses its session data, or asks for a reset with the message status, and writes again from the other's KeyInit message. The other user opens that message and follows it to the new session, so that the answers written afterwards can be opened by the user who started anew.", "quantifier": "all stores and session states of the two users, all identities, all messages with any status, all lists of answers of any length, all random choices", "why_tests_cant": "It depends on the state of the other user's session, on which identity is the smaller one and on what is left in the lost store; tests exercise a fresh pair of users.", "anchors": ["doc/messages.md: Status, Reset", "msg/decrypt.go: Decrypt", "msg/encrypt.go: Encrypt", "msg/header.go: StatusReset"]}
{"id": "C151", "title": "A refused message has no effect on later communication", "statement": "If decrypting an encrypted message reports an error, the two users communicate afterwards as if the message had not arrived. In particular nobody who knows only the public keys of two users can stop one of them from reading what the other writes.", "quantifier": "all pairs of users who have each other's KeyInit message, all inputs to decryption, all keys and header fields somebody else may choose, all lists of later messages of any length, all random choices", "why_tests_cant": "The messages come from an adversary and the effect shows only in later messages; tests decrypt messages that were made by the library and check that damaged ones are refused.", "anchors": ["msg/decrypt.go: Decrypt", "msg/session/memstore/memstore.go: SetSessionState", "msg/header.go: newHeader, readHeader", "msg/encrypt.go: Encrypt"]}
{"id": "C152", "title": "A damaged copy of a message does no harm to the conversation", "statement": "Two users who have never communicated send each other messages and give them to Decrypt in any order, any number of times. In between either of them is given copies of these messages in which everything after the encrypted header is replaced by arbitrary bytes (or cut off), before or after the intact message arrives, possibly as the first thing that arrives at all. Copies that Decrypt refuses have no effect on the rest: every message, including those of which damaged copies arrived, is opened with exactly the content, sender and signature it was sent with, exactly once, and is refused only if it, or a copy of it, was opened before or it is too far from the beginning of its session; the recipient of a damaged first message can answer it. A copy is accepted only if it contains an HMAC made with the key of that message; one that is cut off after the header is always refused.", "quantifier": "all interleavings of sends, deliveries and damaged deliveries in both directions, all replacement bytes, all message contents, all random choices about new sessions", "why_tests_cant": "Decrypt changes the session state and derives message keys before it authenticates the message body; whether what it leaves behind after a refusal is harmless depends on every later message and every interleaving, and the replacement bytes are arbitrary.", "anchors": ["msg/decrypt.go:Decrypt", "msg/encrypt.go:Encrypt", "msg/session/memstore/memstore.go", "msg/keys.go:generateMessageKeys"]}
