{
"C01": {"status": "proved", "note": "Contents below 2^24 bytes (see C12 for longer); for every lawful instance of the dependencies."},
"C02": {"status": "proved", "note": "Progress below 2^32 packets per direction in builds with overflow checks, unconditionally in release builds; the round trip itself has no bound."},
"C03": {"status": "proved", "note": "Acceptance is characterised exactly: the received bytes are the encryption in the current state under the given AAD."},
"C04": {"status": "proved", "note": ""},
"C05": {"status": "proved", "note": ""},
"C06": {"status": "proved", "note": ""},
"C07": {"status": "proved", "note": ""},
"C08": {"status": "proved", "note": ""},
"C09": {"status": "proved", "note": ""},
"C10": {"status": "partial", "note": "Proved for fewer than 2^32 packets per direction. At 2^32 the u32 chunk counter overflows: C10_overflow_panics (overflow checks) and C10_overflow_deviates / C10_counterexample (release) prove that the code leaves the specification."},
"C100": {"status": "proved", "note": "messages of at most 4000013 bytes; C100_padded is stated for a blocking peer, C100_padded_async for an asynchronous one"},
"C101": {"status": "proved", "note": "the asynchronous read is not part of this claim: it is polled and stays pending (C30); a transport that blocks is one whose call has no result"},
"C11": {"status": "proved", "note": ""},
"C12": {"status": "partial", "note": "False of the code: C12_over_long_accepted / C12_over_long_misframed prove that contents of 2^24 bytes or more are accepted with a truncated length. C12_framing_partial is the claim below 2^24."},
"C13": {"status": "partial", "note": "False of the code: from_byte compares with 128 instead of testing the top bit (C13_ignore_bit_counterexample, C13_misread_iff). C13_ignore_bit_partial holds for headers 0..128."},
"C14": {"status": "partial", "note": "False of the code below 16 bytes: the length subtraction underflows (C14_short_panics, C14_short_too_big). C14_to_vec_partial covers 16 bytes and more."},
"C15": {"status": "proved", "note": ""},
"C16": {"status": "proved", "note": "Decoy contents below 2^24 bytes and fewer than 2^32-1 decoys per side, as in the property statement."},
"C17": {"status": "proved", "note": ""},
"C18": {"status": "proved", "note": ""},
"C19": {"status": "proved", "note": ""},
"C20": {"status": "proved", "note": "Fewer than 2^32-1 decoys (the length cipher's counter, C10)."},
"C21": {"status": "proved", "note": ""},
"C22": {"status": "proved", "note": ""},
"C23": {"status": "proved", "note": ""},
"C24": {"status": "proved", "note": ""},
"C25": {"status": "proved", "note": "Both APIs. Streams consist of arbitrary non-empty reads and Pendings; interrupted reads in the garbage phase are C32."},
"C26": {"status": "proved", "note": "Both APIs on either side. HonestPair spells out the side conditions (valid secrets, keys not starting with the magic, no early terminator in the garbage)."},
"C27": {"status": "proved", "note": "Buffer sizes are the ghost log of the modelled handshake; the PacketTooBig theorems are sharp against C26 (3999997 accepted, 3999998 refused)."},
"C28": {"status": "proved", "note": "Any list of payloads written Ok over any sink, any segmentation and any Interrupted reads (C28_delivers); and from Protocol::new on, both directions (C28_end_to_end). Abstract lawful crypto primitives; std read_exact default implementation."},
"C29": {"status": "partial", "note": "Proved for the async API (C29_async). For the sync API the property is false between 4000014 and 2^24-1 bytes (C29_sync_rejects, for every such payload); proved up to 4000013 bytes (C29_sync_partial)."},
"C30": {"status": "proved", "note": "For every script of the transport (data, Pending, empty reads, errors) and every schedule of polls and cancellations; prefix property plus completeness after enough polls; also from Protocol::new on (C30_end_to_end)."},
"C31": {"status": "proved", "note": "After an Internal error of the async read the reader state is a fixpoint for every later schedule and every later transport."},
"C32": {"status": "partial", "note": "Proved for the async session reader (C32_async). False for the sync session reader: C32_sync_loses characterises the loss at every byte position, C32_sync_counterexample is a concrete run, C32_sync_partial is the part that holds. False for the handshake of both APIs (C32_handshake_interrupted)."},
"C33": {"status": "partial", "note": "Classification proved for every API call. Truncation proved when the close is seen by a read (C33_truncation_partial, C33_honest_peer_gone). False when it is first seen by a write: BrokenPipe is reported with Abort (C33_close_seen_by_write)."},
"C34": {"status": "proved", "note": "One write over any sink (C34_one_packet), over a sink accepting arbitrary pieces (C34_reliable), and the whole history of a writer against the BIP packet numbers (C34_history)."},
"C35": {"status": "partial", "note": "The property is false (C35_counterexample, both APIs). C35_taken_partial: holds as long as every write had its whole packet taken by the transport, e.g. only flush failed."},
"C36": {"status": "proved", "note": "Both APIs, every schedule, every RNG and configuration, from the shaped handshake to the peer's reads (C36_end_to_end and variants). Transport that takes all bytes; a panic (only possible after 2^32-1 packets, C36_no_panic, or for a Payload without type byte) ends the run. Sizes: payloads within the peer's limit. A failed decoy write is outside (see C35)."},
"C37": {"status": "proved", "note": "Bounds for every RNG outcome, and consequence: two shaped honest parties complete the handshake (C37_connects); in session the sizes are used in C36."},
"C38": {"status": "proved", "note": "Handshake equal to Protocol::new without garbage and decoys; afterwards the output and cipher state equal those of the plain writer running the application's writes, in every schedule, whatever the transport does. The RNG is not consulted for decoys."},
"C39": {"status": "partial", "note": "Proved for every interleaving of the atomic operations of any number of threads: the totals are the sums (mod 2^64) of what was recorded, with no lost update (C39_totals), last_activity is one of the recorded times (C39_last_activity), and the time arithmetic never panics (C39_time). The ratio is the quotient whenever the recorded total stays below 2^64 (C39_ratio, C39_ratio_partial); at exactly a multiple of 2^64 the counter wraps to 0 and the ratio becomes None although data was recorded (C39_ratio_counterexample)."},
"C40": {"status": "partial", "note": "Thread (traffic/src/io.rs): proved for every schedule - after the drop at most the rest of one decoy packet is sent (C40_threads_one_more) and the thread ends once scheduled often enough, after which drop returns (C40_threads_terminates). Task (traffic/src/futures.rs): the property is false in the code, because the select! else branch is unreachable (the interval branch is never disabled): the task never ends (C40_task_never_ends) and can emit arbitrarily many further decoys after the drop (C40_task_counterexample). What remains true is C40_task_partial: with decoys disabled and nothing pending it sends nothing more."},
"C41": {"status": "proved", "note": "C41_threads and C41_task: from a fresh session of either flavour, under every schedule, to what the peer's reads report (types, contents, and the genuine stream left after dropping decoys). C41_types and the two stream theorems are the peer's side, from what C36 shows it reads."},
"C42": {"status": "proved", "note": "Cipher session, sync and async protocol, and both shaped protocols: any interleaving of reads and writes (and decoys) gives each direction the results and states of running it alone; splitting at any point changes nothing; the shaped read is the plain read."},
"C43": {"status": "partial", "note": "Every function is shown not to panic on any received bytes, except decrypt_to_vec given fewer than 16 bytes, which underflows and panics in debug builds (witness C14_short_panics); no I/O wrapper reaches that case, which is proved by the session theorems."},
"C44": {"status": "proved", "note": "Byte-granular transition system of two parties and two unbounded pipes; a read that has to wait is represented by WouldBlock. Any mix of the two APIs."},
"C45": {"status": "partial", "note": "The Ok half is proved for both APIs, every schedule and transport (C45_threads_ok, C45_task_ok). The error half is false when flush fails after the packet was taken (C45_flush_counterexample*); proved when flush never fails (C45_*_error_partial), and for a caller that learns that the task died (C45_task_gone)."},
"C46": {"status": "proved", "note": "Both APIs, any transport. Packet numbers below 2^32 (the counter limit found in C10)."},
"C47": {"status": "proved", "note": "Soundness for any transport and fewer than 2^36 bytes of peer data; completeness and the equivalence for streams that deliver all bytes."},
"C48": {"status": "proved", "note": "Any transport; the V1 report needs a working one."},
"C49": {"status": "proved", "note": "The unforgeability condition is a hypothesis on the delivered bytes, stated for exactly the packet numbers that can be reached; everything else is unrestricted."},
"C50": {"status": "proved", "note": "A write is the step machine of the model (encrypt, write_all piece by piece, flush); cancellation stops it after any number of steps. C50_safe: cancelled after the whole packet was taken. C50_lost_sync and C50_lost_async: otherwise nothing written later is ever returned by the peer. The theorems about the step machine hold for the blocking writer as well (used in C69)."},
"C51": {"status": "proved", "note": "C51_starvation_counterexample shows that the last sentence of the statement is sharp: under an adversarial scheduler the wait for the lock is unbounded."},
"C52": {"status": "proved", "note": "The only exception is a panic of the task (2^32 packets with overflow checks, or a payload without contents), stated in C52_all_sent; C36_task_no_panic excludes it below that number."},
"C53": {"status": "proved", "note": "Proved against Mathlib's group of points over ZMod p: both sides compute the hash of the x coordinate of skA*skB*G for every choice of encodings of the keys; every 64-byte array decodes to a point; keys are injective up to sign; hence `Lawful` holds of the RFC functions with secp256k1 (`C53_real_lawful`), for secrets whose chosen encoding decodes to their key. That an encoding exists for every key is not proved (the library searches in a pseudo-random order)."},
"C54": {"status": "partial", "note": "That every V1 peer is recognised is proved (C54_recognised_partial, C54_no_session). The converse and that nothing has been sent are false of the code, shown for all inputs by C54_false_alarm, C54_false_alarm_counterexample, C54_own_key_refused and C54_sent_counterexample."},
"C55": {"status": "proved", "note": "Threads and task; upper bound on every transport, equality on reliable ones, agreement with the peer in both APIs, handshake overhead. C55_failed_counterexample shows why the equality needs a reliable transport."},
"C56": {"status": "proved", "note": "Exact condition (C56_iff): with it every maximal schedule completes, without it none does. Deadlocks by garbage and by decoys as corollaries; bound for shaped peers in C56_shaped_room."},
"C57": {"status": "proved", "note": "Number of bytes on the wire after every step; the bytes themselves are a matter of the ciphers, which are assumed."},
"C58": {"status": "partial", "note": "The claim of the README is false in two ways: C58_order_counterexample (the decoy comes first) and C58_threads_counterexample / C58_task_counterexample (the steps in which the wire grows determine the lengths). What holds is C58_pair_partial, C58_total_partial and C58_ambiguous_partial."},
"C59": {"status": "proved", "note": "The shaped sender is looked at whenever its lock is free / its task waits; transports of senders take everything (C45 treats those that fail)."},
"C60": {"status": "partial", "note": "The arithmetic is proved for all totals below 2^64 (C60_value, C60_compare) and is exact rounding below 2^53 (C60_nearest, C60_threshold, C60_compare_exact; C60_equal_counterexample beyond). That the ratio is that of one moment is false, as the two totals are loaded one after the other (C60_moments_counterexample); what holds is that it is never below the ratio of a moment in between (C60_moments_partial, with the loads in program order). That the last activity is the latest is false for overlapping calls (C60_last_activity_counterexample); it is late by at most the time between asking the clock and storing (C60_last_activity_partial)."},
"C61": {"status": "proved", "note": "Reference implementation in Spec/Reference.lean, transcribed class by class. The limits in the statement are hypotheses: payloads of at most 4000013 bytes (C29), fewer than 2^32 packets (C10), the key of the initiator without the V1 version string in bytes 4 to 15."},
"C62": {"status": "proved", "note": "C62_library and C62_reference give the verdict of each on every stream; C62_agree compares them (same bytes sent; same verdict unless Divergent; what happens if Divergent); C62_keys is about keys; C62_boundary about the 4111 bytes; C62_session_* about the packets after the handshake for the blocking reader, the async reader (with cancellation) and the reference. C62_session_total shows that the verdict of a session is a total function of the stream. The three exceptions are properties of the code, shown on examples; the model of std/tokio reads is that of C24/C41."},
"C63": {"status": "proved", "note": "The statement includes the panic on incomplete data (C63_panic, C63_panic_cut)."},
"C64": {"status": "proved", "note": "The statement includes what is lost (C64_lost) and that the loss is real (C64_counterexample)."},
"C65": {"status": "proved", "note": "For the actual seeds the hypothesis on the keys is not evaluated (StdRng is not modelled)."},
"C66": {"status": "proved", "note": "Model/AnyTransport.lean runs the handshake and the sessions of both APIs over any state machine; each loop is given fuel and the theorems hold for all fuel, so for every execution that ends; results do not depend on the fuel (C66_fuel_*). The script of reads is the list of the answers the transport gave, and every script is a transport with the same result (C66_every_script_*). Reads and writes that overlap, dropped writes and the traffic crate over any transport: C69."},
"C67": {"status": "proved", "note": "The one-time keys are counted, not the ChaCha20 keys: that block 0 of the key stream is as good as random is the assumption about the cipher, stated in DESIGN.md. C67_not_never shows that the exception is real."},
"C68": {"status": "proved", "note": "The cuts theorems are about scripts of reads that may fail anywhere; the BufReader theorems are about any state machine below a BufReader of any capacity, for sessions that are made and for handshakes that fail. BufReader is modelled from the documentation of std and tokio, not from code in /repo. An example shows the documented loss of buffered bytes when the BufReader is taken off after the handshake."},
"C69": {"status": "proved", "note": "C69_halves_* and C69_threads, C69_task: every execution over any state machine, cut at the single calls of the transport, is one over the scripts of its answers; a peer may also change the transport between any two steps. C69_connection_*: what the bytes in both directions then are. For the shaped protocol this last part is for transports that take at least a byte per write and do not fail to flush, at whatever times (as C36); without that, C69_threads and C69_task apply and C45 says what a result means. A blocking read or write that is not answered stays where it is; both halves are then still covered. For the blocking API the part about reads is for reads that did not fail (after a failed one: C46_sync_after_errors on the script given by C69_halves_sync). C69_answers*: what each answer of the transport makes of the write, the thread or the task that asked."},
"C70": {"status": "partial", "note": "Table, distinctness and truth of the texts are proved. The part about the comments is false of the code: C70_documented_partial says for which functions the comments are complete and for which they list only possible errors, C70_documented_counterexample has every exception, C70_too_big_counterexample the wrong limit in a text."},
"C71": {"status": "proved", "note": "Blocking API; the capacities are those of the channels together with all buffers of the system. Liveness: C71_finite, C71_fair and C71_ends say that a state without further steps is reached, C71_split, C71_dual and C71_exchange what that state is. C71_connection: after two honest handshakes the sessions begin as these theorems require."},
"C72": {"status": "proved", "note": "Blocking API of the traffic crate; fewer than 2^32 packets in a direction. C72_reads: safety for all schedules. C72_live: from every reachable state there is a continuation in which everything is finished (C72_swap: for the other direction too). C72_blocked, C72_blocked_drop, C72_exchange_deadlock: for generators that draw a decoy sooner or later. C72_connection: after two honest shaped handshakes the sessions begin as these theorems require."},
"C73": {"status": "proved", "note": "Model of hello_world_happy_path, the round-trip benchmarks and regtest_handshake; pass conditions are exact for the first two and for the handshake of the third."},
"C74": {"status": "proved", "note": "One direction at a time; the attacker is limited by the keys it uses, not by computing time."},
"C75": {"status": "proved", "note": "\"Can go on\" is the existence of a continuation from every reachable state; the scheduler is not assumed to be fair."},
"C76": {"status": "proved", "note": "Each unit test as a function of its literals, with an equivalence for when it passes. For C76_handshake it is assumed that the terminator (128 secret bits) does not occur early in the garbage. test_write_read_ratio and the tests that need tokio tasks (futures.rs, traffic/futures.rs) are covered by C60, C27 and C56 instead."},
"C77": {"status": "proved", "note": "Exact characterisation (C77_nonces_iff). The wish that no use of the API repeats a nonce is false: C77_reuse_counterexample. For the linear programs C77_linear says that the copies do not show."},
"C78": {"status": "proved", "note": "The handshake logs of the model (sizes searched, packet sizes allocated) and ghost functions for windows compared and vectors allocated. Bounds by induction over the two loops; attained by a slow peer (all zeros or all ones) and by chosen length bytes. Time is counted in windows, memory in requested bytes; capacity growth of Vec and the allocator are not modelled."},
"C79": {"status": "proved", "note": "Time is a counter in milliseconds moved by the environment. thread::sleep ends no earlier than asked; tokio's interval ticks at once, then each period, with the default MissedTickBehavior::Burst (both from their documentation). The 5 ms tolerance of tokio concerns only other behaviours."},
"C80": {"status": "proved", "note": "The statement says which of the wishes are false (ratio, bound on decoys after a drop); these are the two counterexamples. The memory model is per-variable coherence with atomic read-modify-writes; mutex and join order what they should."},
"C81": {"status": "proved", "note": "The message codec is a parameter (what is written, how what is read is judged). Threads and processes of the tests are replaced by the byte streams between them."},
"C82": {"status": "proved", "note": "`C82_plain_*`, `C82_whole_*`, `C82_client`: lower bound without a BufReader, any transport. `C82_buffered_*`, `C82_buffered_client`: upper bound through a BufReader, any script and any outcome. `C82_exact_*`, `C82_scenario_*`: the exact numbers when the bytes have arrived and the reads succeed; `C82_full_buffers`, `C82_never_more`, `C82_typical`, `C82_small`, `C82_large`: what they are. `C82_server`: what the server sends."},
"C83": {"status": "proved", "note": "counted over all terminators and all keys; that the derived terminators and the ElligatorSwift keys are uniform is not claimed"},
"C84": {"status": "proved", "note": "any writer with the laws of Conn.Buffers; BufWriter of std and tokio modelled and shown to be one; the part on failures that pass is for BufWriter and its limit is C84_counterexample"},
"C85": {"status": "proved", "note": "any transport at the level of single polls; tokio::io::BufWriter modelled (flush_buf with its written count, poll_write, poll_flush); the limit is C85_counterexample"},
"C86": {"status": "proved", "note": "any transport with memory; the terminators are drawn, the rest of the cryptography is arbitrary"},
"C87": {"status": "proved", "note": "any lawful cryptography under the assumption that nothing is forged; RFC 8439 with drawn one-time keys without it; the public keys themselves are not authenticated in BIP-324"},
"C88": {"status": "proved", "note": "ids: the concrete SHA-256, HKDF and secp256k1, nothing assumed; otherwise a collision among the messages hashed by the two parties; relay: any lawful cryptography"},
"C89": {"status": "proved", "note": "the concrete SHA-256, HKDF and secp256k1; the keys at the start of a session, not those after re-keying, and not the 16-byte terminators"},
"C90": {"status": "proved", "note": "assumes that the attacker forges no packet under the number (Spec.Unforged); one packet, for a plain reader or a handshake of either API"},
"C91": {"status": "proved", "note": "C91_keys is about the length and packet keys; the terminators are halves of one expansion, for which the absence from the bytes of the peer is a hypothesis of C91_one_side and C91_both, bounded by C91_chance"},
"C92": {"status": "proved", "note": "transports without Interrupted, which only the blocking API retries (C32); writers that do not fail; nothing is said about reads after the first error, where the APIs differ (C31)"},
"C93": {"status": "proved", "note": "that none of the later packets is by accident the sealed packet number n is a hypothesis of C93_damaged, as is that the attacker's bodies in C93_pushed are not (C67 bounds how often a forged one passes)"},
"C94": {"status": "proved", "note": "fewer than 2^32 packets; the lengths that the library takes"},
"C95": {"status": "proved", "note": "fewer than 2^32 packets (2^31 for the asynchronous API); messages of at most 4000013 bytes, which is what the library takes; the connection ends with ConnectionReset, ConnectionAborted or UnexpectedEof"},
"C96": {"status": "proved", "note": "the hypothesis that the encoding depends on the public key only is how handshake.rs:133 calls ElligatorSwift::from_pubkey(pk); what that function of the secp256k1 crate does inside is not in the repository"},
"C97": {"status": "proved", "note": "messages of at most 4000013 bytes; what the asynchronous example needs of the transport after the packets is silence, an end or a failure; C97_padded is for the blocking example and the blocking padded peer without cover traffic"},
"C98": {"status": "proved", "note": "messages of at most 4000013 bytes; garbage in which the own terminator does not occur early, as for all honest parties (C83 counts the exceptions)"},
"C99": {"status": "proved", "note": "contents of at most 4000013 bytes, as everywhere in C59; beyond 2^32 packets the two ends still agree with each other, but not with BIP-324 (C10)"}
}
