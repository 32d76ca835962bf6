{"id": "C01", "title": "Packet round trip", "statement": "If a sender and a receiver hold matching cipher states, then encrypting any contents shorter than 2^24 bytes with any packet type and any AAD gives a packet whose first three bytes make the receiver's decrypt_packet_len return exactly the number of bytes that follow, and decrypting those bytes with the same AAD returns the same packet type and the same contents (after the header byte), leaving the two states matching again.", "quantifier": "every pair of matching cipher states (any key, any counters), every contents of length < 2^24, both packet types, every optional AAD, both build profiles", "why_tests_cant": "Contents, AADs and cipher states are unbounded; tests sample a handful of packets near the start of a session.", "anchors": ["protocol/src/lib.rs: OutboundCipher::encrypt, encrypt_to_vec; InboundCipher::decrypt_packet_len, decrypt", "protocol/src/fschacha20poly1305.rs"]}
{"id": "C02", "title": "Session stream round trip across any number of packets and re-keys", "statement": "Two matching ciphers stay matched for ever: for any sequence of packets encrypted one after another, feeding the concatenated wire bytes to the receiver packet by packet returns exactly the same sequence of (type, contents) in order, no matter how many re-keyings happen on the way, and what is sent in one direction never influences the other direction.", "quantifier": "every finite sequence of (type, contents, aad) of any length, hence any number of re-keyings; every interleaving of the two directions", "why_tests_cant": "Tests run a few hundred packets; the claim is for histories of every length.", "anchors": ["protocol/src/lib.rs: OutboundCipher, InboundCipher, CipherSession", "protocol/src/fschacha20poly1305.rs: rekey, crypt"]}
{"id": "C03", "title": "Only the exact packet is accepted", "statement": "decrypt returns Ok only for the byte string that the peer's cipher, in the state matching the receiver's, would have produced for that very plaintext (header, contents) and that very AAD; every other ciphertext/tag/AAD is rejected with a Decryption error. In particular two different accepted byte strings in one state carry different plaintexts.", "quantifier": "every receiver state, every ciphertext of every length, every AAD", "why_tests_cant": "The set of forged/modified ciphertexts is astronomically large; a test flips a few bits.", "anchors": ["protocol/src/lib.rs: InboundCipher::decrypt, decrypt_in_place", "protocol/src/fschacha20poly1305.rs: FSChaCha20Poly1305::decrypt"]}
{"id": "C04", "title": "A rejected packet leaves the receiver's packet state unchanged", "statement": "If decrypt, decrypt_in_place or decrypt_to_vec returns an error, the inbound cipher is exactly as before the call, so the genuine packet is still accepted afterwards, however many forged packets were tried first; the caller's plaintext buffer never contains plaintext that was not authenticated.", "quantifier": "every state, every sequence of rejected inputs of any length, every buffer", "why_tests_cant": "The number and shape of the rejected attempts is unbounded.", "anchors": ["protocol/src/lib.rs: InboundCipher::decrypt, decrypt_in_place, decrypt_to_vec", "protocol/src/fschacha20poly1305.rs: FSChaCha20Poly1305::decrypt"]}
{"id": "C05", "title": "A failed encrypt has no effect and reports the exact size needed", "statement": "encrypt fails exactly when the output buffer is shorter than encryption_buffer_len(contents length); it then returns BufferTooSmall with that exact length, the buffer and the cipher state are unchanged, and retrying with a buffer of the reported size succeeds and yields the same packet as if the failure never happened.", "quantifier": "every state, contents, buffer and AAD", "why_tests_cant": "All buffer/contents length pairs and all states are needed, tests check two sizes.", "anchors": ["protocol/src/lib.rs: OutboundCipher::encrypt, encryption_buffer_len, Error::BufferTooSmall"]}
{"id": "C06", "title": "Packet layout and buffer frame", "statement": "A successful encrypt writes exactly encryption_buffer_len(n) = n + 20 bytes at the start of the buffer, laid out as 3 length bytes, 1+n encrypted bytes, 16 tag bytes; the written bytes do not depend on the previous content of the buffer, and every byte after them is unchanged.", "quantifier": "every state, contents, AAD, buffer content and buffer length >= n+20", "why_tests_cant": "Requires all buffers, including oversized ones with arbitrary old content.", "anchors": ["protocol/src/lib.rs: OutboundCipher::encrypt, NUM_PACKET_OVERHEAD_BYTES"]}
{"id": "C07", "title": "Nonce uniqueness of the packet cipher", "statement": "In the life of one cipher no (re-key epoch, nonce) pair is ever used for two different packets, no packet nonce is ever repeated at all, and the nonces used for re-keying never coincide with a packet nonce nor with each other; a failed operation never causes a nonce to be reused for a different successful encryption.", "quantifier": "every history of fewer than 2^64 encrypt calls, mixed with any number of failed calls", "why_tests_cant": "Uniqueness is a statement on all pairs of packets of an arbitrarily long history.", "anchors": ["protocol/src/fschacha20poly1305.rs: FSChaCha20Poly1305::nonce, rekey, encrypt"]}
{"id": "C08", "title": "Keystream positions of the length cipher never overlap", "statement": "The three keystream bytes masking a length prefix are never used for another length prefix of the session nor for deriving a key: within one key epoch, distinct packets and the key derivation use pairwise disjoint keystream positions, and distinct epochs use distinct nonces.", "quantifier": "every pair of packets in every history shorter than 2^32 packets", "why_tests_cant": "Pairwise claim over arbitrarily long histories.", "anchors": ["protocol/src/fschacha20poly1305.rs: FSChaCha20::crypt"]}
{"id": "C09", "title": "Packet cipher conforms to BIP-324 FSChaCha20Poly1305", "statement": "The n-th packet of a session (n = 0,1,...) is sealed with nonce LE32(n mod 224) || LE64(n div 224) and with the key obtained from the initial key by exactly n div 224 re-keyings, each new key being the 32 byte AEAD encryption of zeros under the old key with nonce FFFFFFFF || LE64(epoch); the AADs and the contents of the packets have no influence on the key schedule.", "quantifier": "every n < 2^64, every history of contents and AADs", "why_tests_cant": "Test vectors check indices 0,1,223,448,673,999,1024 with a fixed AAD pattern.", "anchors": ["protocol/src/fschacha20poly1305.rs: FSChaCha20Poly1305"]}
{"id": "C10", "title": "Length cipher conforms to BIP-324 FSChaCha20", "statement": "The n-th length prefix is the 3-byte little-endian contents length xored with keystream bytes 3*(n mod 224) .. of the key after n div 224 re-keyings with nonce 00000000 || LE64(n div 224), each new key being keystream bytes 672..703 of the old one.", "quantifier": "every n (number of packets so far)", "why_tests_cant": "Test vectors cover a few indices; the 32-bit packet counter of the code matters only after 2^32 packets, out of reach of tests.", "anchors": ["protocol/src/fschacha20poly1305.rs: FSChaCha20::crypt (chunk_counter: u32)"]}
{"id": "C11", "title": "Announced packet length is bounded for hostile input", "statement": "Whatever three bytes the peer sends, decrypt_packet_len returns a number between 17 and 2^24 + 16, so the rest of a packet always has room for header and tag and a peer can never make the reader allocate more than that.", "quantifier": "every cipher state and every three bytes", "why_tests_cant": "2^24 inputs times all states.", "anchors": ["protocol/src/lib.rs: InboundCipher::decrypt_packet_len", "protocol/src/io.rs: ProtocolReader::read", "protocol/src/futures.rs: ProtocolReader::read"]}
{"id": "C12", "title": "Over-long contents are never mis-framed", "statement": "encrypt / Protocol::write either reject contents that do not fit the 3-byte length field or produce a packet the peer reads back intact.", "quantifier": "every contents length, including 2^24 bytes and more", "why_tests_cant": "Needs the behaviour at and beyond 16 MiB for every content; no test goes there.", "anchors": ["protocol/src/lib.rs: OutboundCipher::encrypt (plaintext_length as u32).to_le_bytes()[0..3]"]}
{"id": "C13", "title": "Packet type header round trip and the BIP-324 ignore bit", "statement": "Writing a packet type and reading it back gives the same type, and a received packet is reported as a decoy exactly when the BIP-324 ignore bit (most significant header bit) is set, whatever the other, reserved, bits are.", "quantifier": "both packet types; all 256 header bytes", "why_tests_cant": "The reserved-bit values are produced by other implementations or future versions; the tests only use 0 and 128.", "anchors": ["protocol/src/lib.rs: PacketType::from_byte, to_byte, DECOY_BYTE", "protocol/src/io.rs: Payload::packet_type"]}
{"id": "C14", "title": "decrypt_to_vec size limits and error classes", "statement": "decrypt_to_vec returns CiphertextTooSmall for every ciphertext that cannot hold header and tag, PacketTooBig exactly when the plaintext would exceed 4000014 bytes, never panics, and otherwise gives the same result as decrypt into an exactly sized buffer.", "quantifier": "every ciphertext of every length, every state", "why_tests_cant": "Boundary on both sides for every state; the tests use one length per side.", "anchors": ["protocol/src/lib.rs: InboundCipher::decrypt_to_vec, decryption_buffer_len, MAX_PACKET_SIZE_FOR_ALLOCATION"]}
{"id": "C15", "title": "The three decryption entry points agree", "statement": "decrypt, decrypt_in_place and decrypt_to_vec accept the same packets, return the same packet type and the same plaintext and leave the same cipher state; decrypt into a larger buffer leaves the bytes after the plaintext unchanged, and into a smaller one fails with BufferTooSmall naming the exact plaintext length.", "quantifier": "every state, ciphertext, AAD and buffer", "why_tests_cant": "Agreement of three functions on all inputs.", "anchors": ["protocol/src/lib.rs: InboundCipher::decrypt, decrypt_in_place, decrypt_to_vec"]}
{"id": "C16", "title": "Handshake agreement between an initiator and a responder", "statement": "If an initiator and a responder on the same network exchange their keys and neither key starts with the network magic, then for any garbage up to 4095 bytes and any decoys (each below the 2^24-byte packet content limit) both handshakes complete, both ends report the same session id, and each end's outbound cipher matches the other end's inbound cipher in both directions.", "quantifier": "every pair of secret keys, every magic, every garbage (<= 4095 bytes, not containing the terminator early), every list of fewer than 2^32-1 decoys, each shorter than 2^24 bytes", "why_tests_cant": "Tests run a handful of random keys and fixed garbage/decoys.", "anchors": ["protocol/src/handshake.rs: Handshake::{send_key,receive_key,send_version,receive_garbage,receive_version}", "protocol/src/lib.rs: CipherSession::new, SessionKeyMaterial::from_ecdh"]}
{"id": "C17", "title": "Session key derivation and role assignment follow BIP-324", "statement": "The session id, the four directional keys and the two garbage terminators are the HKDF-SHA256 expansions with the BIP-324 labels under salt 'bitcoin_v2_shared_secret' || magic of the ECDH secret computed on (initiator key, responder key); the initiator sends with the initiator keys and terminator and receives with the responder ones, the responder the other way round; derivation never fails.", "quantifier": "every key pair, role and magic", "why_tests_cant": "Two roles times all keys and magics; vectors exercise seven.", "anchors": ["protocol/src/lib.rs: SessionKeyMaterial::from_ecdh, CipherSession::new", "protocol/src/handshake.rs: receive_key, send_version"]}
{"id": "C18", "title": "send_key contract", "statement": "send_key fails with TooMuchGarbage exactly when garbage exceeds 4095 bytes, otherwise with BufferTooSmall{send_key_len} exactly when the buffer is shorter than send_key_len(garbage) = 64 + garbage length, otherwise writes the 64-byte public key followed by the garbage and leaves the rest of the buffer unchanged; on error the buffer is unchanged.", "quantifier": "every garbage (or none), every buffer", "why_tests_cant": "All garbage/buffer lengths.", "anchors": ["protocol/src/handshake.rs: send_key, send_key_len, MAX_NUM_GARBAGE_BYTES"]}
{"id": "C19", "title": "V1 detection in receive_key", "statement": "receive_key fails with V1Protocol exactly when the first four bytes of the 64 received bytes equal the configured network magic; otherwise it always succeeds, keeping role, magic and local garbage.", "quantifier": "every 64-byte string, magic, role and local key", "why_tests_cant": "2^512 keys.", "anchors": ["protocol/src/handshake.rs: receive_key"]}
{"id": "C20", "title": "send_version contract", "statement": "send_version fails with BufferTooSmall{send_version_len} exactly when the buffer is shorter than send_version_len(decoys), otherwise writes exactly that many bytes: the local garbage terminator, one decoy packet per decoy in order, then one genuine packet with empty contents, the local garbage being authenticated by the first packet only; later buffer bytes are unchanged.", "quantifier": "every list of fewer than 2^32-1 decoys of any size, every buffer, both roles", "why_tests_cant": "Unbounded decoy lists.", "anchors": ["protocol/src/handshake.rs: send_version, send_version_len"]}
{"id": "C21", "title": "Garbage terminator search is exact", "statement": "receive_garbage reports FoundGarbage with consumed = i + 16 exactly when the remote terminator occurs at offset i <= 4095 of the buffer and at no smaller offset; NeedMoreData exactly when it does not occur and the buffer is shorter than 4111 bytes; NoGarbageTerminator exactly when it does not occur at an offset <= 4095 and the buffer has at least 4111 bytes. The garbage that will be authenticated is exactly the first i bytes.", "quantifier": "every buffer of every length, every terminator", "why_tests_cant": "All buffers including partial and overlapping matches at the limit.", "anchors": ["protocol/src/handshake.rs: receive_garbage, split_garbage"]}
{"id": "C22", "title": "Garbage search is stable under arrival of more bytes", "statement": "Once receive_garbage has answered FoundGarbage or failed on a buffer it gives the same answer on every extension of that buffer, and NeedMoreData can be retried with the returned handshake without loss; hence the way the stream is cut into reads never changes the outcome.", "quantifier": "every buffer, every extension, every segmentation of the stream", "why_tests_cant": "All segmentations of all streams.", "anchors": ["protocol/src/handshake.rs: receive_garbage", "protocol/src/io.rs: handshake_with_initialized loop", "protocol/src/futures.rs: handshake loop"]}
{"id": "C23", "title": "Garbage is authenticated exactly once", "statement": "The bytes received before the terminator are used as AAD of exactly the first packet after the terminator (decoy or version) and of no other packet: the handshake can only proceed past that packet if it was sealed by the peer with exactly those garbage bytes as AAD.", "quantifier": "every garbage, every sequence of decoys and version packets", "why_tests_cant": "All garbage modifications and all numbers of decoys.", "anchors": ["protocol/src/handshake.rs: receive_version (remote_garbage.take())", "protocol/src/handshake.rs: send_version (aad)"]}
{"id": "C24", "title": "Handshake completes only on an authenticated genuine packet", "statement": "receive_version returns Complete exactly when the packet authenticates and is genuine, Decoy exactly when it authenticates and is a decoy (leaving the handshake ready for the next packet), and an error otherwise; any number of decoys may precede the version packet and the contents of the version packet are ignored.", "quantifier": "every state and packet; every number of decoys", "why_tests_cant": "Unbounded number of decoys; all packets.", "anchors": ["protocol/src/handshake.rs: receive_version, VersionResult"]}
{"id": "C25", "title": "I/O handshake does not depend on segmentation and loses no byte", "statement": "The result of io::handshake / futures::handshake depends only on the bytes the peer sends, not on how they are split into reads (or on Pending wake-ups); on success the bytes following the version packet are all still readable, in order and exactly once, from the returned session reader.", "quantifier": "every byte stream and every segmentation of it into reads", "why_tests_cant": "The number of segmentations is exponential in the stream length.", "anchors": ["protocol/src/io.rs: handshake_with_initialized, ProtocolSessionReader", "protocol/src/futures.rs: handshake, ProtocolSessionReader"]}
{"id": "C26", "title": "End-to-end I/O handshake succeeds", "statement": "If an initiator and a responder run the I/O handshake over a reliable byte stream, with any garbage up to 4095 bytes, any decoys of at most 3999997 bytes each and any segmentation, both return Ok with matching ciphers, and everything the peer writes afterwards is left for the session reader.", "quantifier": "all keys, magics, garbages, decoys lists, segmentations, following data", "why_tests_cant": "All combinations of parameters and segmentations.", "anchors": ["protocol/src/io.rs: handshake, Protocol::new", "protocol/src/futures.rs: handshake, Protocol::new"]}
{"id": "C27", "title": "Handshake resource bounds against a hostile peer", "statement": "During the I/O handshake the garbage buffer never exceeds 4366 bytes and no packet buffer larger than 4000014 bytes is allocated, whatever the peer sends and however it is segmented; a peer announcing a longer packet gets PacketTooBig.", "quantifier": "every hostile byte stream and segmentation", "why_tests_cant": "Hostile inputs are unbounded.", "anchors": ["protocol/src/io.rs: handshake_with_initialized", "protocol/src/futures.rs: handshake", "protocol/src/lib.rs: MAX_PACKET_SIZE_FOR_ALLOCATION"]}
{"id": "C28", "title": "Synchronous session delivers exactly what was written", "statement": "Whatever sequence of payloads is written with io::Protocol::write, reading the resulting byte stream under any segmentation (including Interrupted reads) with the peer's io::Protocol::read returns the same payloads (type and contents) in the same order, as long as each contents has at most 4000013 bytes; then a read at end of stream fails with UnexpectedEof.", "quantifier": "every sequence of payloads, every segmentation", "why_tests_cant": "All histories and segmentations.", "anchors": ["protocol/src/io.rs: ProtocolWriter::write, ProtocolReader::read"]}
{"id": "C29", "title": "Every payload write accepts can be read by the peer's read", "statement": "Every payload that Protocol::write accepts (returns Ok) and that fits the 3-byte length field is returned by the peer's Protocol::read, for both the synchronous and the asynchronous API.", "quantifier": "every payload with contents shorter than 2^24 bytes, both APIs", "why_tests_cant": "The discrepancy sits between 4000014 bytes and 16 MiB.", "anchors": ["protocol/src/io.rs: ProtocolReader::read (decrypt_to_vec limit)", "protocol/src/futures.rs: ProtocolReader::read (no limit)", "protocol/src/lib.rs: MAX_PACKET_SIZE_FOR_ALLOCATION"]}
{"id": "C30", "title": "Async read is cancellation safe", "statement": "However often a pending futures::Protocol::read is cancelled (dropped) and restarted, and however the bytes are split and delayed, the sequence of payloads returned by the reads that complete is exactly the sequence the peer sent; no byte is lost or processed twice.", "quantifier": "every schedule of polls, Pending results, segment sizes and cancellation points", "why_tests_cant": "All interleavings of wake-ups and cancellations.", "anchors": ["protocol/src/futures.rs: ProtocolReader::read, DecryptState"]}
{"id": "C31", "title": "Async read after an authentication failure is stuck, never misaligned", "statement": "After futures read fails to authenticate a packet, every later read fails with the same error without consuming further bytes: the reader never resynchronises on attacker-chosen bytes and never returns another payload.", "quantifier": "every state, every later stream and schedule", "why_tests_cant": "Unbounded continuation after the failure.", "anchors": ["protocol/src/futures.rs: ProtocolReader::read"]}
{"id": "C32", "title": "Transient I/O errors do not lose data on the read path", "statement": "A read that fails with an I/O error (timeout, would-block, interrupted) can be retried without losing bytes of the stream.", "quantifier": "every error kind, at every byte position, sync and async", "why_tests_cant": "Every position and kind of error.", "anchors": ["protocol/src/io.rs: ProtocolReader::read (read_exact)", "protocol/src/futures.rs: ProtocolReader::read", "protocol/src/io.rs: handshake_with_initialized (reader.read)"]}
{"id": "C33", "title": "I/O failure classification", "statement": "An I/O error is reported with the RetryV1 suggestion exactly when its kind is ConnectionReset, ConnectionAborted or UnexpectedEof, with Abort otherwise; a peer that closes the connection at any point of the handshake always yields an Io error with RetryV1, never a hang or a success.", "quantifier": "every error kind; every truncation point of every handshake stream", "why_tests_cant": "Every truncation point of every stream.", "anchors": ["protocol/src/io.rs: impl From<io::Error> for ProtocolError, ProtocolError::eof", "protocol/src/futures.rs: handshake"]}
{"id": "C34", "title": "Write emits exactly one packet", "statement": "A successful Protocol::write appends exactly one complete packet to the transport, even if the transport accepts the bytes in arbitrary small pieces or is interrupted; if the transport fails, a prefix of that packet has been appended and nothing else, and the cipher has moved on so that a nonce is never reused.", "quantifier": "every payload, state and transport behaviour", "why_tests_cant": "All partial-write behaviours.", "anchors": ["protocol/src/io.rs: ProtocolWriter::write", "protocol/src/futures.rs: ProtocolWriter::write"]}
{"id": "C35", "title": "A successful write after a failed one is still readable", "statement": "If a write fails because of a transient transport error and a later write returns Ok, the peer can read the later payload.", "quantifier": "every failure point and continuation", "why_tests_cant": "Every failure point.", "anchors": ["protocol/src/io.rs: ProtocolWriter::write", "traffic/src/io.rs: decoy_thread (ignored write errors)", "traffic/src/futures.rs: writer_task"]}
{"id": "C36", "title": "Traffic shaping preserves genuine traffic under every schedule", "statement": "With shaping on, for every interleaving of the application's writes with the background decoy sender, the wire carries a well-formed sequence of whole packets, and removing the decoys from what the peer reads leaves exactly the application's payloads, in order, each once.", "quantifier": "every interleaving of writer and decoy thread/task, every RNG outcome, every configuration", "why_tests_cant": "Thread schedules and random choices cannot be enumerated by tests.", "anchors": ["traffic/src/io.rs: ShapedProtocolWriter::write, decoy_thread", "traffic/src/futures.rs: ShapedProtocolWriter::write, writer_task", "traffic/src/lib.rs: TrafficShaper::{pad,decoy}"]}
{"id": "C37", "title": "Shaper output is always acceptable to a peer", "statement": "Whatever the RNG returns, the garbage chosen for the handshake has at most 4095 bytes, there are at most 3 handshake decoys of 1..1024 bytes each, and padding and cover decoys have 1..1024 bytes; hence shaping can never cause TooMuchGarbage or PacketTooBig. Each strategy of a configuration is the one chosen last for it, and disabled if none was chosen.", "quantifier": "every RNG outcome, every configuration", "why_tests_cant": "All random outcomes.", "anchors": ["traffic/src/lib.rs: TrafficShaper::{handshake,pad,decoy}"]}
{"id": "C38", "title": "Disabled shaping is transparent", "statement": "With the default configuration the shaped protocol puts exactly the same bytes on the wire as the plain protocol: no garbage, no decoys, for every sequence of writes and every number of ticks of the background sender.", "quantifier": "every sequence of writes and ticks, every RNG", "why_tests_cant": "All histories.", "anchors": ["traffic/src/lib.rs: TrafficConfig::default, TrafficShaper", "traffic/src/io.rs", "traffic/src/futures.rs"]}
{"id": "C39", "title": "Traffic statistics are exact under concurrency", "statement": "After any number of concurrent record_read/record_write calls the byte and message totals are the sums (mod 2^64) of all recorded calls, independent of the interleaving; the write/read ratio is None exactly while zero bytes have been read; the time since last activity is never negative.", "quantifier": "every multiset of calls and every interleaving", "why_tests_cant": "All interleavings.", "anchors": ["traffic/src/lib.rs: AtomicTrafficStats"]}
{"id": "C40", "title": "Background decoy sender stops after drop", "statement": "Once the shaped writer is dropped, the background decoy sender stops: it emits at most one more decoy and then terminates.", "quantifier": "every schedule of the background thread/task after the drop", "why_tests_cant": "Termination under all schedules cannot be tested.", "anchors": ["traffic/src/io.rs: Drop for ShapedProtocolWriter, decoy_thread", "traffic/src/futures.rs: writer_task (select! else branch)"]}
{"id": "C41", "title": "Decoys are always recognisable by the peer", "statement": "Every packet the shaper adds is reported to the peer's read with packet type Decoy and every application payload created with Payload::genuine is reported Genuine, so a peer that drops decoys sees exactly the genuine stream.", "quantifier": "every history", "why_tests_cant": "All histories.", "anchors": ["protocol/src/io.rs: Payload::decoy, Payload::genuine, packet_type", "traffic/src/lib.rs: TrafficShaper::{pad,decoy}"]}
{"id": "C42", "title": "Splitting a session does not change its behaviour", "statement": "After into_split (cipher session, protocol or shaped protocol) the two halves behave exactly as before the split, and any interleaving of operations on the two halves gives the same per-direction results as running each direction alone.", "quantifier": "every interleaving of inbound and outbound operations", "why_tests_cant": "All interleavings.", "anchors": ["protocol/src/lib.rs: CipherSession::{inbound,outbound,into_split}", "protocol/src/io.rs: Protocol::into_split, into_inner", "protocol/src/futures.rs: Protocol::into_split"]}
{"id": "C43", "title": "No panic on hostile input", "statement": "No byte sequence received from a peer makes the low-level handshake or the decryption functions, or the I/O wrappers built on them, panic during the first 2^32 - 1 packets, in debug and release builds.", "quantifier": "every byte stream, segmentation and profile, sessions of fewer than 2^32 packets", "why_tests_cant": "All hostile inputs.", "anchors": ["protocol/src/lib.rs", "protocol/src/handshake.rs", "protocol/src/io.rs", "protocol/src/futures.rs", "protocol/src/fschacha20poly1305.rs"]}
{"id": "C44", "title": "Concurrent handshakes never deadlock on unbounded transports", "statement": "Two peers running the I/O handshake concurrently over reliable unbounded streams in opposite directions always finish: in every reachable state in which one of them is not finished some peer can make progress, every schedule is finite, and every maximal schedule ends with both complete.", "quantifier": "every schedule of the two peers and of byte delivery", "why_tests_cant": "All schedules.", "anchors": ["protocol/src/io.rs: handshake_with_initialized", "protocol/src/futures.rs: handshake"]}
{"id": "C45", "title": "Successful shaped write means the payload was transmitted", "statement": "If ShapedProtocol::write returns Ok, a packet carrying that payload has been handed completely to the transport, after at most one padding decoy; if it returns an error, the payload has not been completely handed over.", "quantifier": "every payload, configuration, transport behaviour and interleaving", "why_tests_cant": "All transport failure patterns and schedules.", "anchors": ["traffic/src/io.rs: ShapedProtocolWriter::write", "traffic/src/futures.rs: writer_task, ShapedProtocolWriter::write"]}
{"id": "C46", "title": "Only authentic packets, in order, are delivered", "statement": "Whatever bytes arrive and in whatever pieces, the payloads that reads return are exactly those of consecutive packets of the peer's direction, numbered on from the session's start: with the blocking API a run of successful reads takes exactly those packets off the stream without gap, on a stream of bytes a read succeeds if and only if the next bytes are the next packet, and even after failed reads every payload returned was sealed under the next packet number and occurs later in the stream than the one before; with the async API the delivered packets are a gap-free front of the stream for every sequence of polls and cancellations. For whole sessions the peer's bytes are its handshake transcript followed by the packets read.", "quantifier": "every byte stream, segmentation, transport error and cancellation pattern, every number of reads (packet numbers below 2^32)", "why_tests_cant": "Soundness against all byte streams, not only those a correct peer sends.", "anchors": ["protocol/src/io.rs: ProtocolReader::read", "protocol/src/futures.rs: ProtocolReader::read", "protocol/src/lib.rs: InboundCipher"]}
{"id": "C47", "title": "The handshake accepts exactly the BIP-324 transcripts", "statement": "If the I/O handshake succeeds, the peer's bytes begin with an admissible transcript under the keys derived from the public key at its front: key that does not look like V1, at most 4095 bytes of garbage before the first terminator, decoys and one non-decoy version packet, correctly numbered and with the garbage authenticated by the first packet; the session starts right behind it with the right ciphers and packet numbers. Conversely every admissible transcript is accepted in every segmentation.", "quantifier": "every byte stream below 2^36 bytes, both roles, both APIs; completeness for every reliable transport", "why_tests_cant": "Both directions quantify over all peers, including hostile ones.", "anchors": ["protocol/src/io.rs: handshake, handshake_with_initialized", "protocol/src/futures.rs: handshake", "protocol/src/handshake.rs"]}
{"id": "C48", "title": "What the handshake sends", "statement": "Whatever the peer and the transport do, the bytes written by the I/O handshake are a prefix of our key and garbage, or, once 64 bytes that do not look like V1 have arrived, a prefix of our own transcript under the keys derived from them (all of it on success). A peer that starts with the network magic never gets more than our key and garbage, is never accepted, and over working transports is reported as V1.", "quantifier": "every peer, transport behaviour, role, garbage and list of fewer than 2^32 decoys", "why_tests_cant": "All peers and failure points.", "anchors": ["protocol/src/io.rs: handshake, handshake_with_initialized", "protocol/src/futures.rs: handshake", "protocol/src/handshake.rs: send_key, receive_key, send_version"]}
{"id": "C49", "title": "An attacker on the stream cannot change the order or content of what is read", "statement": "An attacker may drop, repeat, reorder, cut, insert and change bytes of the stream at will, as long as no part of what is delivered opens under a packet number to something the sender did not seal under that number. Then the payloads returned by the reader are always a front part of the payloads sent, in order, whatever errors occur and however often the application reads on after an error.", "quantifier": "every delivered byte stream satisfying the unforgeability condition, every segmentation and error pattern, every number of reads or polls and cancellations, both APIs", "why_tests_cant": "All tampered streams and all schedules; tests try single flips.", "anchors": ["protocol/src/io.rs: ProtocolReader::read", "protocol/src/futures.rs: ProtocolReader::read", "protocol/src/lib.rs: InboundCipher"]}
{"id": "C50", "title": "Cancelling an asynchronous write", "statement": "Dropping the future of write at any await point leaves the writer in a defined state: if it was never polled nothing has happened; otherwise exactly one packet number is used and a prefix of exactly that packet is on the wire, so no packet number is ever used for two payloads. If the whole packet had been taken, later writes are read as usual and the cancelled payload is delivered. If not, the peer never returns any later payload. A future polled to the end does what the uninterrupted write does.", "quantifier": "every sequence of calls, each cancelled after any number of steps, every transport script, fewer than 2^32 packets", "why_tests_cant": "Every cancellation point of every call in a history.", "anchors": ["protocol/src/futures.rs: ProtocolWriter::write", "protocol/src/lib.rs: OutboundCipher::encrypt"]}
{"id": "C51", "title": "The lock of the shaped blocking writer", "statement": "The application's thread and the decoy thread are never both inside their critical sections, and only the holder of the mutex changes the writer or the shaper. After a panic inside a critical section nothing is ever written again, every later write panics at once without hanging, and the writer can still be dropped. There is no deadlock: from every reachable state a write that has begun can be brought to its end; once it holds the lock it returns after finitely many steps of its own thread with the result of the undisturbed write, whatever the other threads do; and while the decoy thread holds the lock, finitely many of its steps release it. Only the wait for the lock is not bounded by the number of steps, as the decoy thread may take it again.", "quantifier": "every schedule of the two threads and the reader, every transport behaviour, configuration and RNG", "why_tests_cant": "All interleavings.", "anchors": ["traffic/src/io.rs: ShapedProtocolWriter::write, Drop, decoy_thread"]}
{"id": "C52", "title": "Cancelled and queued shaped asynchronous writes are still sent", "statement": "A shaped asynchronous write hands its payload to the writer task at its first poll. From then on it is sent exactly once and in the order of the calls, whether its future is cancelled or not and also if the writer is dropped meanwhile; the task cannot even tell that a future was cancelled. A caller that keeps waiting is answered: from every state in which it waits, the task reaches an answer by its own steps.", "quantifier": "every schedule of application and task, every point of cancellation and drop, every reliable transport for the delivery part", "why_tests_cant": "All interleavings and cancellation points.", "anchors": ["traffic/src/futures.rs: ShapedProtocolWriter::write, writer_task"]}
{"id": "C53", "title": "The key exchange on secp256k1", "statement": "What the model assumes of the key exchange is true of secp256k1 with ElligatorSwift. The field size and the group order are primes and the generator has that order. A secret between 1 and n-1 has a public key that is not the point at infinity, and no other secret but its opposite has the same coordinate. Every array of 64 bytes decodes to the coordinate of a point of the curve, so no public key sent by a peer is invalid. Whichever encodings of their public keys the sides send, both compute the BIP-324 tagged hash of the two encodings and of the coordinate of the product of the two secrets with the generator.", "quantifier": "every pair of valid secrets, every encoding of their keys, every 64-byte array", "why_tests_cant": "There are 2^256 secrets and 2^512 encodings; tests try a few.", "anchors": ["protocol/src/handshake.rs: Handshake::new, receive_key", "protocol/src/lib.rs: SessionKeyMaterial::from_ecdh"]}
{"id": "C54", "title": "Telling V1 peers apart, compared with BIP-324", "statement": "A peer is taken for a V1 peer exactly if the bytes it sends begin with the 16 bytes that open a V1 version message, and by then nothing has been sent to it, so that the connection can be continued with V1. The part that holds: every peer that begins like this is reported as V1 in both roles and both APIs, and never gets a session. Not so in the code: keys that share only the first four bytes with the network magic are refused too, own keys of that form are not avoided, and the own key and garbage have been sent before the peer is recognised.", "quantifier": "every network magic, key, role, API, segmentation of the stream and reliable writer", "why_tests_cant": "A random key begins with the magic once in 2^32 connections.", "anchors": ["protocol/src/handshake.rs: receive_key", "protocol/src/io.rs: handshake", "protocol/src/futures.rs: handshake"]}
{"id": "C55", "title": "The statistics account for the wire", "statement": "At every moment of a shaped session the bytes written to the transport are at most the bytes recorded as written plus 20 for each recorded message, whatever fails. On a transport that takes everything they are exactly that much whenever no write is in progress, and a peer that reads them all, with either API, has recorded as read the same messages. The reader records the lengths of the contents it returns and nothing else. A handshake sends exactly 100 bytes and 20 bytes for each decoy more than it records; what is received in a handshake is not recorded. A write that fails is recorded all the same.", "quantifier": "every schedule of the threads or the task, every configuration and random choice, every transport (reliable for the equality)", "why_tests_cant": "All interleavings, failures and random choices.", "anchors": ["traffic/src/lib.rs: TrafficShaper::handshake, decoy, pad", "traffic/src/io.rs: ShapedProtocolReader::read, ShapedProtocolWriter::write, decoy_thread", "traffic/src/futures.rs: ShapedProtocolReader::read, writer_task"]}
{"id": "C56", "title": "When handshakes over bounded buffers finish", "statement": "Two honest peers run the I/O handshake against each other over a transport that holds, in each direction, only so many bytes not read yet, so that a write into a full direction waits. Every schedule is finite. For exactly determined capacities (in terms of the lengths of the first flights and of all flights of both peers) every maximal schedule ends with both handshakes complete and matching ciphers; for all others no schedule completes either handshake. It is enough that one direction holds all that its sender sends. Two peers whose key and garbage exceed the capacity, or whose transcripts exceed it by more than the 64 bytes of the key, deadlock.", "quantifier": "every schedule of the two peers, all capacities, garbage and decoys, both APIs on either side", "why_tests_cant": "All schedules and capacities; a deadlock shows only with buffers smaller than those of a test machine.", "anchors": ["protocol/src/io.rs: handshake_with_initialized", "protocol/src/futures.rs: handshake_with_initialized", "traffic/src/lib.rs: TrafficShaper::handshake"]}
{"id": "C57", "title": "The traffic reveals lengths and moments only", "statement": "Two sessions over the same transport, with the same configuration, random numbers and schedule, in which the application writes payloads of pairwise equal lengths, put the same number of bytes on the wire at every step, record the same statistics and return the same results, for the shaped protocol with its thread, for the one with its task, and for the plain writers. Keys, contents, packet types (genuine or decoy) and what the peer sends have no influence. Conversely the plain writers reveal the lengths exactly: successful writes look the same if and only if the lengths agree.", "quantifier": "all payloads, keys, primitives of the right lengths, transports with short writes and errors, schedules, cancellations, shaper configurations and random choices", "why_tests_cant": "It compares pairs of executions over all contents and schedules (noninterference); no single run shows it.", "anchors": ["protocol/src/lib.rs:616-657", "protocol/src/io.rs:566-573", "protocol/src/futures.rs:477-491", "traffic/src/lib.rs:406-453", "traffic/src/io.rs:185-233", "traffic/src/futures.rs:203-251"]}
{"id": "C58", "title": "What padding hides", "statement": "traffic/README.md claims that padding immediately follows a genuine packet with a decoy, so that observers cannot tell where a message ends, hiding the size of the genuine packet. The part that holds: with padding on, a successful write is one decoy of 1 to 1024 zero bytes and the payload with nothing in between, in total 41 to 1064 bytes more than the payload, and payloads whose lengths differ by at most 1023 can lead to the same total. Not so in the code: the decoy precedes the genuine packet; and the two are written and flushed separately, so that without cover traffic the steps in which the wire grows determine the lengths of all payloads, whatever the schedule, the keys and the random numbers.", "quantifier": "all payloads, schedules, keys, random choices, both APIs", "why_tests_cant": "It relates all pairs of executions with the same visible steps; a test sees one run and has no observer.", "anchors": ["traffic/README.md", "traffic/src/lib.rs:439-453", "traffic/src/io.rs:185-193", "traffic/src/futures.rs:219-236"]}
{"id": "C59", "title": "Every API talks to every API, with the real cryptography", "statement": "Any of the four ends an application can open (io::Protocol, futures::Protocol, the shaped protocol with threads, the shaped protocol with a task), in either role, connects to any of the four ends of an honest peer; whatever the sender writes (payloads of at most 4000013 bytes) is received exactly, in order and once, by the peer's reads, in whatever segmentation the bytes arrive and whatever else the receiving end does meanwhile; between the payloads of a shaped sender there are only its decoys. With ChaCha20-Poly1305 and HKDF-SHA256 of the RFCs and ElligatorSwift over secp256k1 this holds with no assumption about the cryptography.", "quantifier": "all 16 combinations of ends, both roles, all keys, garbage, decoys, payloads, segmentations, schedules and random choices", "why_tests_cant": "Sixteen combinations times all schedules and segmentations; the tests connect equal ends with one message.", "anchors": ["protocol/src/io.rs:453-480", "protocol/src/futures.rs:289-320", "traffic/src/io.rs:110-150", "traffic/src/futures.rs:108-139"]}
{"id": "C60", "title": "What the ratio and the last activity tell", "statement": "write_read_ratio gives, as an f64, the quotient of the bytes written and the bytes read at the moment of the call: finite, with a relative error of at most 2^-51, the nearest f64 while the totals are below 2^53, and above (below) one only if more (less) was written than read. The last activity is the latest time that a finished call saw.", "quantifier": "all totals, all interleavings of the atomic operations of any number of threads with the two loads of the ratio", "why_tests_cant": "2^128 pairs of totals, and all interleavings; rounding errors appear at isolated inputs.", "anchors": ["traffic/src/lib.rs: AtomicTrafficStats::write_read_ratio, update_last_activity"]}
{"id": "C61", "title": "Every API talks to the reference implementation of BIP-324", "statement": "The program in the text of BIP-324 (initialize_v2_transport, v2_enc_packet, v2_receive_packet, complete_handshake and their classes), run by one honest party in either role, and any of the four ends of this library at the other side complete the handshake with each other. The reference implementation receives exactly the contents of the genuine messages the library end sends, in order and without disconnecting; every kind of library end receives exactly the messages, decoys included, that the reference implementation sends. When the reference implementation has the 64 byte key of its peer it has sent its whole part of the handshake, so the two do not wait for each other.", "quantifier": "all four ends, both roles, all keys (but an initiator key that contains the V1 version string), garbage, decoys, payloads up to 4000013 bytes, fewer than 2^32 packets, all segmentations and schedules", "why_tests_cant": "The tests connect the library to itself and compare a few vectors; one test talks to Bitcoin Core with one exchange.", "anchors": ["protocol/src/handshake.rs", "protocol/src/lib.rs", "protocol/src/io.rs:453-480", "protocol/src/futures.rs:289-320", "traffic/src/io.rs:110-150", "traffic/src/futures.rs:108-139"]}
{"id": "C62", "title": "Whatever a peer sends, the library judges it as the reference implementation does, with three exceptions", "statement": "Let a peer that need not be honest send any bytes. After the 64 byte key, every library handshake (both APIs) and the reference implementation of BIP-324 reach a verdict on the bytes so far: wait for more, give up for lack of a garbage terminator, refuse a packet as too long, refuse a packet as forged, or be ready with the number of packets used and the bytes that follow. The verdicts are the same unless the stream is of one of three kinds, and for each of the three they differ: exactly 4111 bytes without a terminator have arrived (the library gives up at once, the reference reads one more byte although no terminator is acceptable any more); after decoys a packet announces more than 3999997 bytes (the library refuses it on its length, the reference waits for it and judges it by its seal); after decoys a packet has the ignore bit and another header bit set (the library takes it for the version packet, the reference for a decoy). Both send the same bytes. Keys are treated alike, except that the library takes any key that begins with the magic for V1, in both roles, and a reference responder refuses a key with the V1 version string after the first four bytes. Once ready, all ends take the same packets in the same order and fail at the same packet; only the blocking reader refuses packets above 4000013 bytes.", "quantifier": "all byte streams in all segmentations, both APIs, both roles, all keys, garbage and decoys of the library's side", "why_tests_cant": "The tests send well formed streams and a few damaged ones; no test compares two implementations on hostile input.", "anchors": ["protocol/src/handshake.rs:228-276", "protocol/src/handshake.rs:438-590", "protocol/src/io.rs:320-420", "protocol/src/io.rs:525-537", "protocol/src/futures.rs:151-260", "protocol/src/futures.rs:400-448"]}
{"id": "C63", "title": "The documented way of driving the handshake without the I/O modules judges streams by BIP-324, but panics on incomplete data", "statement": "Take the loops that the documentation of receive_garbage and receive_version shows as the way to drive the handshake by hand, and run them on a stream that arrives in any pieces. The search for the terminator gives up with NoGarbageTerminator exactly when 4111 bytes without one have come, waits exactly while fewer have, and otherwise finds the first one, with exactly the bytes after it left. The loop over the packets then reaches the verdict that BIP-324 demands of the bytes that came with the terminator: it returns a session standing at the right packet number with exactly the unread bytes left if the version packet is among them, an authentication error if a packet before that is forged, and in the remaining case, in which the peer has done nothing wrong and the packets are merely not complete yet, it panics. There is no limit on the length a packet may announce.", "quantifier": "all streams, all ways of cutting them into pieces, all garbage, all decoys and version packets, both profiles, lawful primitives", "why_tests_cant": "The examples in the documentation are compiled but never run past todo!(); no test drives the handshake by hand in pieces.", "anchors": ["protocol/src/handshake.rs:407-460", "protocol/src/handshake.rs:525-620"]}
{"id": "C64", "title": "into_inner gives back everything there is, except in the middle of a packet of the asynchronous reader", "statement": "After reads that returned payloads, the blocking reader's into_inner returns the transport with exactly the bytes that follow those packets and the cipher for the next packet; after writes that returned Ok, both writers' into_inner return a sink that was given exactly those packets and the cipher for the next packet. The asynchronous reader's into_inner, after any history of polls, cancellations and errors, loses exactly the bytes of the current packet that it has taken from the transport: nothing if it has taken none (then the reader made of the parts is the same reader, in particular right after a read that returned a payload), otherwise that many bytes, and once the length has been taken the cipher has also moved past it. The loss is real: packets of an honest peer that all arrive are then never delivered.", "quantifier": "all histories of reads, cancelled reads and writes, all transports, segmentations and errors", "why_tests_cant": "into_inner is called in no test; the interesting case needs a read dropped in the middle of a packet.", "anchors": ["protocol/src/io.rs:540-542", "protocol/src/io.rs:576-578", "protocol/src/futures.rs:400-453", "protocol/src/futures.rs:494-497"]}
{"id": "C65", "title": "The fuzz targets cannot crash, and one of them never reaches the branch it is for", "statement": "If the secrets drawn from the fuzz targets' fixed seeds are valid and the public keys made of them do not begin with the magic (which depends on the seeds alone), no input makes a fuzz target crash. The receive_key target tries inputs of 64 bytes only; it gets V1Protocol for exactly those that begin with the magic, and success for all others. The receive_garbage target tries inputs of at most 5000 bytes; it finds what precedes the first terminator in input and appended terminator if that is at most 4095 bytes, and gets NoGarbageTerminator otherwise. As it always appends the terminator, the answer NeedMoreData is never reached. A panic inside the library is always a crash of the target.", "quantifier": "all inputs of the fuzzer, all seeds with usable keys, both profiles, lawful primitives", "why_tests_cant": "A fuzzer samples; that no input at all crashes, and that a branch is unreachable, is beyond it.", "anchors": ["fuzz/fuzz_targets/receive_key.rs:12-54", "fuzz/fuzz_targets/receive_garbage.rs:10-66", "protocol/src/handshake.rs:228-276", "protocol/src/handshake.rs:438-486"]}
{"id": "C66", "title": "Every transport and every reacting peer is covered", "statement": "Every execution of the handshake and of a session over a transport that is any state machine (its answers may depend on everything read and written before, it may return errors, fewer bytes than asked for, or block) is the execution over the script that lists the very answers to reads the transport gave (bytes, empty reads, errors, pendings, in order), with the same results and the same bytes written, whatever may follow in the script; so every theorem about scripts is one about all transports. Conversely every script is such a transport, over which the code ends with the result it has on the script, so the two models describe the same executions, and the number of steps one is ready to wait changes nothing else. In particular: if a connection was made and no call failed, everything read is a BIP-324 handshake and the packets of the messages that read returned, in order, followed by what is not used yet, and everything written is our handshake and the packets of what the application wrote, in order, however the peer reacted to what it saw.", "quantifier": "all transports that keep the contracts of Read and Write, all peers, both roles, both APIs, all sequences of calls, for the asynchronous API all sequences of polls", "why_tests_cant": "Tests have fixed peers and in-memory pipes; that a peer which adapts to what it sees can do nothing else is a statement about all strategies.", "anchors": ["protocol/src/io.rs:280-415", "protocol/src/io.rs:525-537", "protocol/src/io.rs:566-573", "protocol/src/futures.rs:151-249", "protocol/src/futures.rs:400-448", "protocol/src/futures.rs:477-491"]}
{"id": "C67", "title": "Forged packets pass for almost no one-time key", "statement": "Draw the Poly1305 one-time keys of the packets of a direction at random, everything else being RFC 8439. An attacker who knows all cipher keys, knows what the sender said, sees everything the sender wrote, and then gives the reader any bytes in any pieces, makes k reads (or polls) deliver something that is not a front part of what was sent for at most the fraction k * (2^23 + 8) / 2^106 of the one-time keys that agree with what was seen. The exception cannot be removed: there is a key for which a packet with a flipped bit is delivered.", "quantifier": "all keys, all sequences of messages shorter than 2^24 bytes, all received bytes and segmentations, all numbers of reads, both APIs, for the asynchronous API all sequences of polls and cancellations", "why_tests_cant": "Tests flip a few bits under a few keys; the claim counts all 2^256 one-time keys of each packet.", "anchors": ["protocol/src/fschacha20poly1305.rs:125-135", "protocol/src/lib.rs:523-586", "protocol/src/io.rs:525-537", "protocol/src/futures.rs:400-448"]}
{"id": "C68", "title": "Cuts between reads do not matter, nor does a BufReader", "statement": "Two transports that give the same bytes with the same failures, ends of file and pendings at the same places, cut into reads in different ways, give the same handshake (same bytes sent, same result or same error) and then the same answers to every sequence of reads, polls and writes. A BufReader of any capacity around any transport, as the documentation recommends, is therefore not observable: what an application sees through it is what it would see without it from a transport giving the same answers, the same bytes are sent, and what the library has still to read is what is in the buffer.", "quantifier": "all transports, all capacities, all cuts, all placements of errors, both roles, both APIs, all sequences of calls or polls", "why_tests_cant": "The example compares the speed of a few fixed loads with and without a BufReader; the claim quantifies over all segmentations and all failures between any two bytes.", "anchors": ["protocol/src/lib.rs:19-26", "protocol/src/lib.rs:57-64", "protocol/src/lib.rs:89-99", "protocol/src/io.rs:280-415", "protocol/src/io.rs:428-537", "protocol/src/futures.rs:151-249", "protocol/src/futures.rs:262-448", "protocol/examples/bufreader.rs:175-190"]}
{"id": "C69", "title": "Both halves at once, plain or shaped, over any transport", "statement": "After into_split the reader and the writer may be used at the same time on one transport, and the shaped protocol's decoy thread or task writes to it as well. Whatever they do after one another, down to single calls of the transport, whatever the transport answers or leaves unanswered, whatever the peer does in between, and wherever asynchronous writes are dropped: the reads give what one reader gives on the bytes that arrived, and the bytes sent are what one writer sends that makes the calls one after the other. So everything received is the handshake of BIP-324, the packets of exactly what read returned, and what is not used yet; everything sent is our handshake and for each write, in order, the beginning of its packet with the next number, all of it if the write got that far; and for the shaped protocol, packets that every peer reads as exactly the payloads written, with decoys in between. Every call of the transport by a write ends it with the transport's error, or (after a successful flush, and only then) with success.", "quantifier": "all transports and peers (any state machine), all interleavings of the calls of both halves, of the threads or the task and of the peer, all points at which writes are dropped, both roles, both APIs, all traffic configurations and random choices", "why_tests_cant": "Tests run one interleaving over an in-memory pipe or a local socket that takes everything at once; the claim quantifies over all interleavings and all answers.", "anchors": ["protocol/src/io.rs:477-537", "protocol/src/io.rs:540-600", "protocol/src/futures.rs:314-448", "traffic/src/io.rs:110-251", "traffic/src/futures.rs:108-289"]}
{"id": "C70", "title": "Which errors each public function reports, and that their texts are distinct and true", "statement": "For every public function that returns a Result, in both crates and both APIs: the classes of error it can report are exactly those of a fixed table, whatever it is given, whatever the transport and the peer do and under every schedule; every row of the table is attained. The lists in the documentation comments agree with the table. Errors of different kinds or with different numbers never have the same text; an I/O error never reads like an internal one, nor one suggestion like the other. 'Need at least n bytes' means that a buffer is refused exactly if it has fewer than n bytes; a ciphertext reported too small has fewer than 17 bytes; after 'more than 4095 bytes of garbage' no terminator within the limit can follow. Following the sources of an error of the I/O modules ends in exactly one error: that of the transport, that of the dependency which failed, or the library's own; an application that looks for an I/O error among them finds one exactly if the transport failed. The text of an error contains the text of its source, except for the type Error, which prints its source in the Debug format; every text of the library ends with a full stop, that of an internal protocol error with two.", "quantifier": "all inputs, states, buffers, transports, peers, schedules, random numbers and texts of the dependencies' errors, both profiles", "why_tests_cant": "Tests check single calls for single errors; that no other error is possible, and that a listed one is impossible, are claims about all calls.", "anchors": ["protocol/src/lib.rs:174-245", "protocol/src/lib.rs:253-290", "protocol/src/io.rs:200-265", "protocol/src/handshake.rs:164-167", "protocol/src/handshake.rs:224-227", "protocol/src/handshake.rs:311-314", "protocol/src/lib.rs:481-622", "protocol/src/io.rs:227-234", "protocol/src/fschacha20poly1305.rs:42-49", "protocol/src/fschacha20poly1305.rs:34-40", "protocol/src/lib.rs:259-268"]}
{"id": "C71", "title": "Two connected parties over channels of limited capacity: what is delivered, and when they block for ever", "statement": "Two parties of the blocking API after their handshakes, over channels that hold a limited number of bytes, where a write blocks while the channel is full and a read blocks while it is empty. At every point of every run, what one party has read is a prefix of what the other has written and no call has failed. Only finitely many steps are possible, with an explicit bound, and every fair schedule comes to a point at which nothing more can be done. If one of the parties reads and writes on two threads (into_split), everything has been delivered at that point, whatever the order of the other party's calls and however small the channels; so too if each of two single-threaded parties reads when the other writes. Two parties that first write everything and then read finish if and only if what one of them writes fits into its channel; otherwise nothing is ever read and both stay in a call of write.", "quantifier": "all payloads, capacities, sizes in which bytes are moved, programs, packets already on the way and schedules, both profiles", "why_tests_cant": "The sizes of socket buffers, the sizes of partial reads and writes and the interleavings of four threads cannot be enumerated; a deadlock shows only for some of them.", "anchors": ["protocol/src/io.rs:477-505", "protocol/src/io.rs:509-595"]}
{"id": "C72", "title": "Two shaped parties over channels of limited capacity: what is delivered, what can always be finished, and how decoys block a connection", "statement": "Two parties of the blocking shaped protocol, each with the application's thread, the decoy thread and a reader, over channels that hold a limited number of bytes. At every point of every run no call has failed, no lock is poisoned, the calls of write return in order, and what is read as genuine is a prefix of what was given to write as genuine. From every point that can be reached, if the peer reads, the two threads of a party can go on until all its calls of write have returned without error, a drop of the writer has ended, and the peer has read every genuine payload. If the peer does not read, then whatever the capacity the decoy thread can fill the channel and block with the lock held, and from then on neither write nor the drop of the writer returns, whatever else happens. Two parties that each read only after their first write has returned can therefore block each other for ever, whatever they write and whatever the capacities.", "quantifier": "all payloads, capacities, sizes in which bytes are moved, configurations, generators, schedules of the threads of both parties, both profiles", "why_tests_cant": "The decoys come at random times and in random sizes, the lock is taken in any order and the channels hold any number of bytes; the blocking shows only when a decoy meets a full channel.", "anchors": ["traffic/src/io.rs:110-150", "traffic/src/io.rs:152-233"]}
{"id": "C73", "title": "When the tests and benchmarks that drive the library by hand pass", "statement": "For all random choices and all messages below 2^24 bytes, hello_world_happy_path passes, and every iteration of the round-trip benchmarks keeps the genuine header and the plaintext, exactly if both secret keys are usable and neither public key begins with the magic. For every conforming peer and every way in which the stream is cut, the handshake of regtest_handshake succeeds exactly if its single read returns everything up to and including the peer's version packet; so it fails with every peer that sends more than 4096 bytes after its key, which BIP-324 allows. If the read returns exactly that, the answer it takes is the peer's next packet, whether or not it is a decoy. Bytes that the read returns beyond the handshake are lost: without another complete packet the test fails. With any peer and any writer, regtest_handshake passes only if the writer has taken everything that a writer takes which never fails, and neither of its two flushes has failed.", "quantifier": "all random keys, magics, messages and plaintexts below 2^24 bytes, numbers of iterations, conforming peers (garbage, decoys, version packets), cuts of the stream, both profiles", "why_tests_cant": "A test says what happened in one run; whether it passes in every run depends on random keys, on the garbage and decoys of the node and on how the network cuts the stream.", "anchors": ["protocol/tests/round_trips.rs:9-151", "protocol/tests/round_trips.rs:314-457", "protocol/benches/cipher_session.rs:9-178"]}
{"id": "C74", "title": "Forward secrecy: what the wire and a stolen cipher state tell about earlier and later packets", "statement": "For every set of packets of a direction, messages of the same lengths put in their place leave the same bytes on the wire and the same states of the ciphers at every moment under primitives that differ only under the keys and nonces of those packets. So no attacker who does not use the key and nonce of a packet can know its type or contents from all packets and the state of the ciphers at any moment. In particular an attacker with the state after j packets who does not use the keys of earlier epochs (of 224 packets) knows nothing about the packets of those epochs but their lengths. The state does not depend on what has been sent, and depends on the first keys only through those of the current epoch. Conversely the state after j packets, with its counters put back, opens with the library's own functions the j mod 224 earlier packets of the current epoch and every later packet, without any key of an earlier epoch.", "quantifier": "all lawful primitives, keys, sequences of fewer than 2^32 messages, sets of hidden packets, moments of theft, attackers (functions of the primitives and of what is seen), both profiles", "why_tests_cant": "It compares pairs of executions under different primitives and quantifies over all attackers.", "anchors": ["protocol/src/fschacha20poly1305.rs:83-116", "protocol/src/fschacha20poly1305.rs:160-178", "protocol/src/lib.rs:616-657"]}
{"id": "C75", "title": "Two asynchronous shaped peers over channels of limited capacity: delivery, and blocking by decoys", "statement": "For two asynchronous shaped parties joined by two channels of any capacities, under every interleaving of calls, polls and drops of `write`, drops of the writer, ticks, steps of the tasks and polls of the readers: no call fails and no task ends; what a party has read as genuine is at every point a prefix of what the other has given to `write` as genuine, in the order of the calls, calls whose future was dropped included; what is still in the queue comes after all that has been read. As long as the peer reads, with a capacity of at least one byte, the task can work off its queue from every reachable state, also after the writer was dropped: then the pending `write` has returned without an error and the peer has read everything. If the peer does not read and decoys are on, ticks alone can fill the channel, whatever its capacity; from then on no `write` returns, everything given to `write` stays in the queue, which grows without bound when futures are dropped and `write` is called again, while the drop of the writer returns at once and leaves the task behind. Two parties that both await their first `write` before they read can therefore wait for each other for ever.", "quantifier": "all lawful primitives, keys, random generators (that draw a decoy now and then, for the blocking part), traffic configurations, capacities, amounts moved per call, schedules, payload sequences of fewer than 2^32 packets, both profiles", "why_tests_cant": "It ranges over all schedules of two applications, two tasks and two readers and over all capacities; absence of any further return is a statement about all continuations.", "anchors": ["traffic/src/futures.rs:108-199", "traffic/src/futures.rs:203-251", "protocol/src/futures.rs:400-448"]}
{"id": "C76", "title": "The unit tests read as statements about all inputs: when each of them passes", "statement": "For the unit tests of handshake.rs, lib.rs, io.rs and the traffic crate and for `regtest_handshake_v1_only`, with all other values in place of the literals and for all keys: `test_handshake` passes exactly if both secret keys are usable and neither public key begins with the magic; `test_handshake_send_key` exactly if its keys are usable; `test_handshake_receive_garbage_buffer` exactly if moreover neither of the parts has 16 bytes or more; `test_handshake_split_garbage` exactly if its key is usable, the fake key does not begin with the magic and the terminator is neither 16 zeros nor 16 times the repeated byte; the V1 test, for all magics and whatever follows them, exactly if its keys are usable; `test_cipher_session`, `test_decrypt_in_place` and `test_fuzz_packets` for all keys, messages of less than 2^24 bytes and fewer than 2^32 rounds; `test_decrypt_min_length` exactly for ciphertexts of less than 17 bytes; `test_decrypt_to_vec_packet_too_big` exactly for more than 4000030 bytes; the AAD test exactly if the sealed bytes can also be produced under the AAD of the receiver; the session reader test for all garbage, decoys and bytes that follow; `test_handshake_packet_too_big_protection` exactly if the decoy has more than 3999997 bytes; the tests of the shaper for all configurations and generators; the test of the statistics exactly if less than 100 ms pass. `regtest_handshake_v1_only` passes exactly if the key is unusable or less than 64 bytes arrive, whatever these are; `test_protocol_drop` never has a protocol to drop.", "quantifier": "all lawful primitives, random bytes, magics, messages, garbage, decoys, AAD, ciphertexts, buffers, generators, clocks, both profiles; the lengths as stated", "why_tests_cant": "Each test runs on a few literals; this says for which inputs it passes and so what it can and cannot detect.", "anchors": ["protocol/src/handshake.rs:597-906", "protocol/src/lib.rs:812-1094", "protocol/src/io.rs:591-734", "traffic/src/lib.rs:475-533", "traffic/src/io.rs:242-250", "protocol/tests/round_trips.rs:601-625"]}
{"id": "C77", "title": "Copies of a cipher: when nonces repeat, and what that shows", "statement": "`OutboundCipher`, `InboundCipher` and `CipherSession` can be cloned. For every program that clones outbound ciphers of one direction and calls `encrypt` on any of them, failed calls included: a successful call yields the BIP-324 packet whose number is the number of packets encrypted by its own cipher before (and, before it was cloned, by the one it is a copy of). No nonce is handed to the AEAD twice exactly if every successful call is made on a copy that took part in all packets before; then the packets are those of one cipher. Otherwise two packets of the program were made with the same keys and nonces, and with the functions of RFC 8439 the xor of the two packets is the xor of their lengths, headers and contents: who knows one message reads the other as far as the first reaches. A copy of the receiving cipher accepts a packet that the original has accepted already.", "quantifier": "all lawful primitives (for the leak: ChaCha20-Poly1305 over any key exchange), keys, programs of fewer than 2^32 steps (2^64 for the nonces), contents, types, AAD, buffers, both profiles", "why_tests_cant": "It ranges over all programs that copy; a repeated nonce does not show in any single output.", "anchors": ["protocol/src/lib.rs:416-420", "protocol/src/lib.rs:590-659", "protocol/src/lib.rs:692-700", "protocol/src/fschacha20poly1305.rs:55-59", "protocol/src/fschacha20poly1305.rs:143-148"]}
{"id": "C78", "title": "What a peer can cost: searches, packets and allocations", "statement": "Whatever a peer sends and however it segments it, a handshake searches for the garbage terminator at most 4096 times and compares at most 8,390,656 windows of 16 bytes; a peer that sends 16 and then 4095 equal bytes one at a time causes exactly that many. The packets a handshake allocates, but the last, have been received in full with their length bytes, so it allocates at most the bytes received plus 4,000,014; it sets no limit on the number of decoys. In a session, one synchronous `read` allocates at most 16,777,232 bytes in all, and an asynchronous reader has at most 33,554,448 bytes for one read, over any number of polls and cancellations; both APIs allocate any size from 17 to 16,777,232 bytes on three unauthenticated bytes, before one byte of the packet has arrived. The synchronous `read` reports `PacketTooBig` only after reading all of a packet of more than 4,000,030 bytes.", "quantifier": "all lawful primitives, keys, roles, garbage, decoys, transports, segmentations, cipher states with room in the length counters (or without overflow checks), both APIs, both profiles", "why_tests_cant": "The cost of a hostile peer is a maximum over all byte streams and segmentations; a test shows the cost of one.", "anchors": ["protocol/src/handshake.rs:430-486", "protocol/src/io.rs:362-414", "protocol/src/io.rs:525-537", "protocol/src/lib.rs:570-586", "protocol/src/futures.rs:205-248", "protocol/src/futures.rs:350-448"]}
{"id": "C79", "title": "Cover traffic in time", "statement": "With a clock that any amount may be added to between steps: the background thread's attempts to send a cover decoy lie at least 100 ms apart, the first at least 100 ms after the start, so there are at most T/100+1 in any interval of T ms; the bytes sent since the start are at most the application's packets, 1044 for the padding of each and 1044 for each 100 ms. Dropping the writer waits at most 100 ms in all for the thread's sleep. The background task's i-th tick is not before 100*i ms after the start, so the totals are the same but for one more decoy; but its ticks are not spaced: when n are due, n decoys can go out in one millisecond. If nothing takes time but the sleep (or the wait for a tick), the attempts are exactly at multiples of 100 ms after the start and the background sender puts bytes on the wire at no other time. Every run with a clock is a run without one and the other way round.", "quantifier": "all schedules with times, generators, configurations, transports, both APIs, both profiles; for the byte totals all lawful primitives", "why_tests_cant": "Rates and totals are claims about all schedules; a test sees one, and cannot stop the scheduler at will.", "anchors": ["traffic/src/io.rs:195-233", "traffic/src/futures.rs:203-251", "traffic/src/lib.rs:93-94"]}
{"id": "C80", "title": "The relaxed atomics: what holds without one order of all operations", "statement": "The statistics and the shutdown flag are accessed with `Ordering::Relaxed`: each variable has its own order of modifications, loads may give old values. When all calls have returned, the five variables have values that some single order of all operations gives too, so the totals are the sums of what was recorded. A load gives at least what the loading thread itself has recorded and at most what is recorded in all. But the ratio can be one that never was: after 100 bytes written and then 10 bytes read, another thread can be told 0/10. The shutdown flag: whatever the schedule and however late the decoy thread sees the store, everything sent, read and returned is as if the writer had been dropped at the moment the thread sees it; from then on the thread sends at most the rest of one decoy and ends, and the drop returns. Nothing bounds the time until then: for every n there is a run with n whole decoys after the drop.", "quantifier": "all threads, calls, modification orders, loads, schedules, generators, transports, both profiles", "why_tests_cant": "x86 shows almost no relaxed behaviour, and no test chooses which stores are seen.", "anchors": ["traffic/src/lib.rs:244-318", "traffic/src/io.rs:195-233"]}
{"id": "C81", "title": "The tests that talk to a peer", "statement": "The ping-pong tests, the regtest tests and the Bitcoin integration tests, as programs over the API: whatever the peer sends after its handshake, each test ends, its verdict depends only on the contents of the packets received (not on their type, on how the bytes are cut into pieces, or on the pauses), and what it has sent by then is its handshake followed by one genuine packet for each message it wrote. The two ping-pong programs run against each other pass, for either flavour of each side; the client passes only when the connection ends right after the pong. The regtest test passes exactly if the first packet is a version message, the integration test exactly if the first two are version and verack and then three pongs come with other messages between them. `test_async_handshake_functions` passes in every schedule exactly if the channel holds 80 bytes, `test_async_protocol_drop` completes its handshake in every schedule exactly if it holds 64, and the too-big test fails as expected exactly if the decoy is longer than 3,999,997 bytes.", "quantifier": "all lawful primitives, keys, garbage and decoys of two honest peers, all packet types and contents, all segmentations with pauses, all codecs, all channel capacities and schedules", "why_tests_cant": "These are the tests: each is one run with one peer and one segmentation, and several need a live bitcoind; what they would accept or reject of other peers cannot be seen by running them.", "anchors": ["protocol/tests/round_trips.rs", "traffic/tests/bitcoin_integration.rs", "protocol/src/io.rs", "protocol/src/futures.rs"]}
{"id": "C82", "title": "How often the transport is read, with and without a BufReader", "statement": "Without a BufReader a session makes at least two calls of the transport's read that give bytes for every payload it delivers (up to the 255 bytes that may have come with the garbage, so at most 85 calls fewer), on any transport and whatever else is called; when the bytes have arrived it makes exactly two. Through a BufReader of cap bytes a whole connection makes at most one such call per cap bytes received and one for each piece in which they arrived, however it ends; when the bytes have arrived the number is a function of the payload sizes: never more than without, and for payloads that fit in the buffer the number of full buffers their packets take. In the example's three scenarios that is 1,458 instead of 200,000, 281 instead of 200,000, and 5,000 instead of 6,000. The example's server sends exactly the packets of its scenario.", "quantifier": "all lawful primitives, sessions, transports (lower bound), scripts with pauses, errors and interruptions (upper bound), buffer sizes, payload sizes, interleavings of reads and writes", "why_tests_cant": "The example measures time on one machine and one TCP stack; a run does not say how many calls other segmentations, sizes or buffers cost, nor that the count cannot be exceeded.", "anchors": ["protocol/examples/bufreader.rs", "protocol/src/lib.rs:19-99", "protocol/src/io.rs", "protocol/src/futures.rs"]}
{"id": "C83", "title": "What is left to chance between honest peers", "statement": "Two parties that use the library with valid keys that do not begin with the magic, garbage of at most 4095 bytes and acceptable decoys complete the handshake, over any reliable byte stream and with either API, unless a garbage terminator occurs in its garbage before its place. Of all pairs of terminators at most a fraction of (bytes of garbage) / 2^128 does, so less than one in 2^115; only without garbage is there none. Of all 64-byte keys exactly one in 2^32 is refused as the beginning of a V1 connection, where the 16 bytes of BIP-324 would make it one in 2^128.", "quantifier": "every network magic, pair of secret keys, garbage and decoys; every pair of 16-byte terminators, every 64-byte key; both APIs, every segmentation and reliable writer", "why_tests_cant": "The bad terminators are too rare to be met and too many to be listed.", "anchors": ["protocol/src/handshake.rs: receive_garbage", "protocol/src/handshake.rs: split_garbage", "protocol/src/handshake.rs: receive_key", "protocol/src/io.rs: handshake", "protocol/src/futures.rs: handshake"]}
{"id": "C84", "title": "Writers that keep bytes back", "statement": "Over a writer that keeps bytes back until it is flushed, as BufWriter does, nothing hangs and nothing is lost: the library never reads while bytes of its own are kept back, so a peer that waits for all of them changes nothing; when the handshake or all the writes so far have succeeded, nothing is kept back, and what has left is the own side of the handshake and the packets of the writes, in order. If the packets of a series of writes fit into the buffer of a BufWriter together, then errors of the transport that pass do no harm: the packets are all kept in order whatever each write returned, and the next write that succeeds makes all of them leave. When they do not fit, a failed write makes all later packets unreadable.", "quantifier": "every transport, every writer on top of it that keeps the bytes it took in order and has given all of them away after a successful flush, every BufWriter capacity; both APIs; every sequence of reads and writes; every failure", "why_tests_cant": "The tests write to sockets and duplex pipes, for which flush does nothing, so that they would pass without any flush; the transient failures and the capacities cannot be listed.", "anchors": ["protocol/src/io.rs: handshake", "protocol/src/io.rs: ProtocolWriter::write", "protocol/src/futures.rs: handshake", "protocol/src/futures.rs: ProtocolWriter::write"]}
{"id": "C85", "title": "Dropping an asynchronous write", "statement": "An asynchronous write that is dropped after any number of polls has sent exactly a beginning of its own packet, all of it if it had got as far as flushing, and has used up its packet number exactly when it was polled at all; polled to its end it does what awaiting it does. Over a tokio BufWriter with room for the packet, dropping it at any moment is safe: after one poll the whole packet is in the buffer, whatever the transport under it does. For any series of writes, each dropped or failing at any moment, what has left plus what is held are the packets of the writes that were polled, in order, and when the last one succeeds the peer reads all of them. Without the buffer, or without room in it, one dropped write makes all later packets unreadable.", "quantifier": "every transport that keeps the contract of AsyncWrite (it takes no more than it was given), every pattern of pending polls, failures and partial writes; every capacity; every series of writes and every number of polls of each", "why_tests_cant": "No test drops a write, and the transports of the tests take a whole packet at once and are never pending; the moments at which a future can be dropped cannot be listed.", "anchors": ["protocol/src/futures.rs: ProtocolWriter::write"]}
{"id": "C86", "title": "Peers that do not know the keys", "statement": "Whoever does not take part in the key exchange does not get through the handshake: somebody who plays back recorded bytes, who sends the library's own bytes back to it, or any program that reacts to what it sees, even one that knows every key except the garbage terminator which the library waits for. For each such peer at most 4096 of the 2^128 terminators let the handshake succeed; of all pairs of terminators less than one in 2^115.", "quantifier": "every program as peer and transport, also one that knows the library's own terminator; both APIs; every role, key, garbage, decoys; every cryptography", "why_tests_cant": "No test connects a peer that does not follow the protocol to the I/O handshake, and a probability over 2^128 terminators cannot be measured.", "anchors": ["protocol/src/handshake.rs: receive_garbage", "protocol/src/handshake.rs: split_garbage", "protocol/src/io.rs: handshake", "protocol/src/futures.rs: handshake"]}
{"id": "C87", "title": "An attacker on the line during the handshake", "statement": "Whoever can change the bytes between the parties, but leaves the public key of the peer as it is, can only make the handshake fail: if the library completes it, then it has taken exactly the bytes that the peer sent - its garbage, its decoys, its version packet, not one more, one fewer or one different - and what it returns afterwards is a front part of what the peer sent afterwards. This holds if no packet is forged; without this assumption, for the algorithms of RFC 8439 with random one-time keys, at most a fraction (2^23+2056)/2^106 of the keys which agree with everything on the wire lets a changed handshake pass.", "quantifier": "every stream of bytes and every way of delivering it; every role, key, garbage and decoys of both parties; both APIs; reads after errors and cancelled reads included", "why_tests_cant": "The tests change no byte of a handshake on its way, and nothing finite tells all streams that are not forgeries from those that are.", "anchors": ["protocol/src/handshake.rs: receive_version", "protocol/src/handshake.rs: receive_garbage", "protocol/src/io.rs: handshake", "protocol/src/futures.rs: handshake"]}
{"id": "C88", "title": "An attacker who replaces the public keys, and the session id", "statement": "BIP-324 does not authenticate keys: whoever stands between two parties and makes a handshake of its own with each of them reads everything either of them writes and decides everything either of them reads, without any call of the library failing. The session id is what tells: two parties which completed a handshake hold the same id only if both saw the same two public keys in the same roles on the same network, or else two different messages which the two parties themselves hash at the same step of the derivation have the same SHA-256; without an attacker the ids are the same, whatever else was sent. The id is given only to applications that drive the handshake by hand.", "quantifier": "every pair of parties and every attacker with honest-looking keys of its own; every payload; both APIs as senders and every kind of receiver; for the ids every sequence of bytes with which a handshake is driven to its end, every choice of ElligatorSwift encodings", "why_tests_cant": "The tests compare the ids of two parties that talk to each other; that ids differ whenever a key was replaced is about all keys, and that nothing fails with an attacker in between is about all sessions.", "anchors": ["protocol/src/lib.rs: CipherSession::id", "protocol/src/lib.rs: SessionKeyMaterial::from_ecdh", "protocol/src/handshake.rs: receive_key", "protocol/src/io.rs: Protocol::new", "protocol/src/futures.rs: Protocol::new"]}
{"id": "C89", "title": "The keys of all sessions are different", "statement": "Of the session ids, length keys and packet keys which parties derive from their key exchanges, two are the same only if they are for the same purpose and direction, of the same two public keys in the same roles, on the same network, or else two different messages which were hashed for them at the same step have the same SHA-256. In particular the id and the four keys of one session are five different strings, so that neither the two directions nor the two ciphers of a direction share a key.", "quantifier": "every pair of derivations: all public keys, secrets, networks and roles, every choice of ElligatorSwift encodings", "why_tests_cant": "The test vectors show single derivations; that no two derivations ever meet is about all pairs of them.", "anchors": ["protocol/src/lib.rs: SessionKeyMaterial::from_ecdh", "protocol/src/lib.rs: CipherSession::new"]}
{"id": "C90", "title": "What an attacker learns who changes the length of a packet", "statement": "An attacker changes bits of the three length bytes of a packet and lets bytes of its own follow. The reader takes the length with exactly those bits changed: it waits as long as there are fewer bytes than that length plus 17, and then gives up with an error, having taken exactly that many; nothing is delivered. So an attacker who sees after which byte the connection is given up knows the length of the contents that the sender sent. In the handshake the same holds for the first packet, except that a changed length of more than 3999997 is refused as soon as the three bytes have arrived.", "quantifier": "both APIs, session and handshake, every packet number, length and change of bits, every bytes that follow which are not a forged packet, every segmentation, every sequence of polls and cancellations", "why_tests_cant": "The tests change no length; the threshold is about every length with every change.", "anchors": ["protocol/src/lib.rs: InboundCipher::decrypt_packet_len", "protocol/src/io.rs: ProtocolReader::read", "protocol/src/futures.rs: ProtocolReader::read"]}
{"id": "C91", "title": "Parties that do not fit: the same role, different networks, replayed and reflected bytes", "statement": "The length key and the packet key with which a party receives are those with which another has sent only if both are on the same network, in different roles, and the other has spoken to this party's public key (or two of the messages which they hash for these keys collide). So they are different for two parties in the same role, for parties on different networks, for bytes recorded in another session and for a party's own bytes sent back to it. The handshakes then have no session as result: each side sends its key, garbage, terminator, decoys and version packet in full, and waits; when the transport is closed or fails the error is that of the transport, which for a closed connection comes with the suggestion to retry with V1. Only a side that has received 4111 bytes or more after the key of the peer has the error about the missing terminator. The exception is that the terminator of one side is by chance among the bytes of the other, which it is for at most 4096 of its 2^128 values.", "quantifier": "every pair of peers with any keys, garbage and decoys, every pair of magics and roles, every key the bytes were meant for, both APIs, every segmentation and every end of the transport", "why_tests_cant": "The tests pair an initiator with a responder of one network; there is no test in which the parties do not fit, and the claim is about every such pair.", "anchors": ["protocol/src/lib.rs: SessionKeyMaterial::from_ecdh", "protocol/src/handshake.rs: Handshake::receive_garbage", "protocol/src/io.rs: handshake", "protocol/src/futures.rs: handshake", "protocol/src/io.rs: impl From<std::io::Error> for ProtocolError"]}
{"id": "C92", "title": "The blocking and the asynchronous API have the same conversation", "statement": "Given the same secret, garbage, decoys, role and network, and the same bytes from the peer - any bytes, cut in different ways, with the same end of the transport - the blocking and the asynchronous handshake send the same bytes and end with the same error, or both succeed with equal ciphers and the same bytes left over. The reads of the session then return the same messages, whatever the polls and cancellations of the asynchronous reads, and they find the first packet that is not authentic at the same place; the one exception is a packet of more than 4000013 bytes of contents, which the blocking API refuses and the asynchronous one takes. The same writes send the same bytes with the same results, including those that panic.", "quantifier": "every stream of bytes below 2^35, every two ways of cutting it, every end, every sequence of polls and cancellations, every list of payloads", "why_tests_cant": "The tests of the two modules are separate and each has one honest peer; no test compares the modules, and the claim is about hostile streams as well.", "anchors": ["protocol/src/io.rs: handshake, Protocol::new, ProtocolReader::read, ProtocolWriter::write", "protocol/src/futures.rs: handshake, Protocol::new, ProtocolReader::read, ProtocolWriter::write"]}
{"id": "C93", "title": "Reading on after a packet was refused", "statement": "The blocking read takes one length and one body per call, also when it refuses the body. Packet number n stays due until it comes: whatever bodies of 17 bytes or more arrive behind their lengths, each call returns PacketTooBig for a body over 4000030 bytes, the message if the body is the packet that is due, and Decryption otherwise, no matter how many were refused before. So a connection with one damaged packet and an honest rest delivers nothing any more, with one error per packet. But an attacker without keys, who only knows where the packets on the wire begin, can put k bodies of its own in front and every honest body k places later, with the length bytes changed accordingly: the first k reads fail, and an application that reads on gets every honest message but the last k. The asynchronous read delivers nothing on these bytes, whatever follows and however often it is polled.", "quantifier": "every list of bodies, every cut of the stream, every packet number below 2^32, every list of messages, every sequence of polls and cancellations", "why_tests_cant": "No test calls read again after an error; and the claim is about all bodies an attacker may choose.", "anchors": ["protocol/src/io.rs: ProtocolReader::read", "protocol/src/futures.rs: ProtocolReader::read", "protocol/src/lib.rs: InboundCipher::decrypt_packet_len, InboundCipher::decrypt_to_vec"]}
{"id": "C94", "title": "What was said proves nothing to others", "statement": "All bytes an honest party sends in a conversation, from its key to its last message - with the blocking or the asynchronous API, shaped or not, under any schedule - are a function of what its peer knows: the peer's own secret, the party's public key, garbage and decoys, and the messages. So whoever shows a conversation and even its own secret could have made up the other side, with any messages. What is made up is taken for genuine by the library, with either API, also for 64 bytes as public key that nobody has a secret for.", "quantifier": "all honest parties, all senders and schedules, all public keys, garbage, decoys and messages, all polls and cancellations", "why_tests_cant": "It says that a function exists which does not look at a secret; a test can only compare runs.", "anchors": ["protocol/src/lib.rs: SessionKeyMaterial::from_ecdh, OutboundCipher::encrypt", "protocol/src/handshake.rs: Handshake::send_version, Handshake::receive_key", "protocol/src/io.rs: Protocol::new, ProtocolReader::read", "protocol/src/futures.rs: Protocol::new, ProtocolReader::read"]}
{"id": "C95", "title": "A cut connection", "statement": "Somebody closes the connection after any number of the bytes that an honest party sends. If that is before the end of its handshake, Protocol::new of the other side returns an I/O error with the suggestion RetryV1. If it is later, the reads return exactly the messages whose packets are complete, in order, and then an I/O error with the same suggestion RetryV1; where in the next packet the cut is, or whether it is between two packets, makes no difference to what is returned, and there is never a report that a packet is not authentic. The asynchronous API returns the same messages under any polls and cancellations, and besides only I/O errors.", "quantifier": "all honest parties, all senders and schedules, all messages, all places of the cut, all ways the bytes arrive, all polls and cancellations", "why_tests_cant": "A test cuts one conversation at a few places; this is about every place in every conversation, and about two ends that cannot be told apart.", "anchors": ["protocol/src/io.rs: impl From<std::io::Error> for ProtocolError, Protocol::new, ProtocolReader::read", "protocol/src/futures.rs: Protocol::new, ProtocolReader::read"]}
{"id": "C96", "title": "Keys that can be told from random bytes", "statement": "The library encodes its public key with a function that is given the public key and no randomness. Then there is a test on 64 bytes which anybody can carry out who knows that function - decode, encode again with either sign, compare - and which recognises the first 64 bytes of every honest party, with whichever API and whatever it sends after them, whereas fewer than one in 2^255 of all arrays of 64 bytes pass it. So the byte stream does not look random, as BIP-324 wants it to; another encoding of the same key, as a random choice would give, is not recognised.", "quantifier": "all encoding functions, all honest parties, all senders and schedules, all arrays of 64 bytes", "why_tests_cant": "No test looks at the distribution of keys, and the count is over 2^512 arrays.", "anchors": ["protocol/src/handshake.rs: Handshake::new_with_rng, Handshake::send_key", "protocol/src/io.rs: Protocol::new", "protocol/src/futures.rs: Protocol::new"]}
{"id": "C97", "title": "The example with which the documentation begins", "statement": "The programs at the top of the documentation, blocking and asynchronous (connect, write one message, read once, print the length of the response), succeed against every honest peer that sends at least one packet: each sends its handshake and the message as BIP-324 prescribes, and prints the length of the contents of the first packet, whether that is a decoy or not. When the peer uses the shaped protocol of this repository with random padding, then whatever it answers, what the blocking program prints is the length of a decoy, between 1 and 1024.", "quantifier": "all honest peers, all kinds of senders and schedules, all messages and answers, all random number generators, all ways the bytes arrive", "why_tests_cant": "The examples are marked no_run: nothing executes them.", "anchors": ["protocol/src/lib.rs: the Quick Start examples", "protocol/src/io.rs and futures.rs: the examples of the modules; Protocol::new, Protocol::write, Protocol::read", "traffic/src/io.rs: ShapedProtocolWriter::write"]}
{"id": "C98", "title": "The bytes determine what was said", "statement": "Let a party have two conversations with the same keys on both sides, through any of the four interfaces each time. What it sends in the first is a beginning of what it sends in the second exactly if its garbage and the decoys of its handshake are the same, and the types and contents of its packets in the first are a beginning of those in the second. In particular it sends the same bytes exactly if it says the same: two different conversations never look alike, where the garbage ends and which packets belong to the handshake is never in doubt, and the sender adds nothing of its own.", "quantifier": "all keys, garbage, decoys and messages, all kinds of senders, generators and schedules, both build profiles, all sequences of fewer than 2^32 packets", "why_tests_cant": "It compares all pairs of conversations; a test compares a few.", "anchors": ["protocol/src/lib.rs: CipherSession, OutboundCipher::encrypt", "protocol/src/handshake.rs: send_key, send_version", "protocol/src/io.rs: ProtocolWriter::write", "protocol/src/futures.rs: ProtocolWriter::write", "traffic/src/io.rs and futures.rs: the shaped writers"]}
{"id": "C99", "title": "Connections of any length", "statement": "Built without overflow checks, a connection has no last packet: no blocking read and no poll of an asynchronous reader, in whatever state, panics; and between two parties of the handshake, every sequence of messages of whatever length written through a reliable transport is accepted, and the peer, of any kind, reads exactly these messages. Built with overflow checks, a connection ends after 2^32 - 1 packets in one direction, decoys and version packet of the handshake included: the next write panics and sends nothing, and the next read panics as soon as three bytes have arrived, whatever they are.", "quantifier": "all ciphers, keys and states; all sequences of messages without a bound on their number; both roles, blocking and asynchronous, all transports, chunkings and poll schedules", "why_tests_cant": "No test sends 2^32 packets, and the claim has no bound at all.", "anchors": ["protocol/src/fschacha20poly1305.rs: FSChaCha20::crypt", "protocol/src/lib.rs: OutboundCipher::encrypt, InboundCipher::decrypt_packet_len", "protocol/src/io.rs: ProtocolReader::read, ProtocolWriter::write", "protocol/src/futures.rs: ProtocolReader::read, ProtocolWriter::write"]}
{"id": "C100", "title": "The examples of the documentation of the shaped protocol", "statement": "The blocking example with which the documentation of the traffic crate begins (random padding and random decoys, one write, one read, print the contents), run against any honest peer that has sent at least one packet: in every schedule of its two threads in which the write returns, the write is successful; the peer, of whatever kind, receives the message among decoys of 1 to 1024 zero bytes; the read succeeds, and what is printed are the contents of the first packet of the peer, whether it is a decoy or not. Whatever the decoy thread has done before, there is a schedule in which the write returns. If the peer uses random padding too, the program prints zero bytes only, whatever the answer is. The asynchronous example: in every order of its task, its ticks and the polls of the write in which the write has returned, the write is successful, the peer receives the message among decoys by then, later bytes come after it, and the contents of the first packet of the peer are printed. From every state the task only has to go on for the write to return at its next poll. Against an asynchronous peer with random padding this example prints zero bytes only, too.", "quantifier": "all keys, messages, generators, schedules of the decoy thread and of the task, peers of all four kinds, chunkings and ends of the transport, both build profiles, fewer than 2^32 steps", "why_tests_cant": "The example is marked no_run; a test of it would see one generator and one schedule.", "anchors": ["traffic/src/lib.rs: the two examples of the crate documentation (lines 11-42 and 44-79)", "traffic/src/io.rs: ShapedProtocol::new, read, write, decoy_thread", "traffic/src/futures.rs: ShapedProtocol::new, read, write, writer_task"]}
{"id": "C101", "title": "A peer that falls silent is waited for without limit", "statement": "On a connection that stays open and on which writing never fails (it may block), a peer that sends fewer than 64 bytes in all keeps every constructor waiting: Protocol::new of both APIs and ShapedProtocol::new of both APIs return nothing, neither a protocol nor an error nor the suggestion to use V1, however long they run; 64 bytes can be enough for an answer. After the handshake a blocking read returns nothing while the peer has sent fewer than 20 bytes, those left over from the handshake included. In particular the example in the documentation of the asynchronous ShapedProtocol::new, whose remote end is never served, does not get past new.", "quantifier": "all transports (any state machine whose answers may depend on what was written), chunkings, roles, usable keys, garbage, decoys, configurations and generators, any number of rounds, both build profiles", "why_tests_cant": "A test can only wait for some time; that no answer ever comes, for all transports, is a statement about all executions.", "anchors": ["protocol/src/io.rs: Handshake with read_exact (lines 320-415), ProtocolReader::read (525-537)", "protocol/src/futures.rs: the same (lines 174-248)", "traffic/src/io.rs: ShapedProtocol::new", "traffic/src/futures.rs: ShapedProtocol::new and its example (lines 75-103)"]}
