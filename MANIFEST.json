{"claims": [
 {"property": "C01", "status": "proved", "theorems": ["Bip324.C01_packet_round_trip", "Bip324.C01_encrypt_progress"], "note": "Contents below 2^24 bytes (see C12 for longer); for every lawful instance of the dependencies."},
 {"property": "C02", "status": "proved", "theorems": ["Bip324.C02_stream_round_trip", "Bip324.C02_send_progress", "Bip324.C02_send_progress_release", "Bip324.C02_duplex"], "note": "Progress below 2^32 packets per direction in builds with overflow checks, unconditionally in release builds; the round trip itself has no bound."},
 {"property": "C03", "status": "proved", "theorems": ["Bip324.C03_accepts_only_exact", "Bip324.C03_everything_else_rejected", "Bip324.C03_accepted_is_peer_packet", "Bip324.C03_accepted_injective"], "note": "Acceptance is characterised exactly: the received bytes are the encryption in the current state under the given AAD."},
 {"property": "C04", "status": "proved", "theorems": ["Bip324.C04_in_place", "Bip324.C04_decrypt", "Bip324.C04_to_vec", "Bip324.C04_any_number_of_rejections"], "note": ""},
 {"property": "C05", "status": "proved", "theorems": ["Bip324.C05_error_iff_small", "Bip324.C05_error_no_effect", "Bip324.C05_retry"], "note": ""},
 {"property": "C06", "status": "proved", "theorems": ["Bip324.C06_layout", "Bip324.C06_independent_of_buffer"], "note": ""},
 {"property": "C07", "status": "proved", "theorems": ["Bip324.C07_uses_adequate", "Bip324.C07_nonces_never_repeat", "Bip324.C07_failed_call_uses_nothing"], "note": ""},
 {"property": "C08", "status": "proved", "theorems": ["Bip324.C08_uses_adequate", "Bip324.C08_keystream_never_reused"], "note": ""},
 {"property": "C09", "status": "proved", "theorems": ["Bip324.C09_packet_cipher_conforms", "Bip324.C09_packets_conform"], "note": ""},
 {"property": "C10", "status": "partial", "theorems": ["Bip324.C10_length_cipher_conforms_partial", "Bip324.C10_prefix_partial", "Bip324.C10_last_state", "Bip324.C10_overflow_panics", "Bip324.C10_overflow_deviates", "Bip324.C10_counterexample"], "note": "Proved for fewer than 2^32 packets per direction. At 2^32 the u32 chunk counter overflows: C10_overflow_panics (overflow checks) and C10_overflow_deviates / C10_counterexample (release) prove that the code leaves the specification."},
 {"property": "C11", "status": "proved", "theorems": ["Bip324.C11_packet_len_bounds", "Bip324.C11_packet_len_total"], "note": ""},
 {"property": "C12", "status": "partial", "theorems": ["Bip324.C12_over_long_misframed", "Bip324.C12_over_long_accepted", "Bip324.C12_framing_partial"], "note": "False of the code: C12_over_long_accepted / C12_over_long_misframed prove that contents of 2^24 bytes or more are accepted with a truncated length. C12_framing_partial is the claim below 2^24."},
 {"property": "C13", "status": "partial", "theorems": ["Bip324.C13_round_trip", "Bip324.C13_header_bits", "Bip324.C13_ignore_bit_counterexample", "Bip324.C13_misread_iff", "Bip324.C13_ignore_bit_partial"], "note": "False of the code: from_byte compares with 128 instead of testing the top bit (C13_ignore_bit_counterexample, C13_misread_iff). C13_ignore_bit_partial holds for headers 0..128."},
 {"property": "C14", "status": "partial", "theorems": ["Bip324.C14_short_panics", "Bip324.C14_short_too_big", "Bip324.C14_to_vec_partial", "Bip324.C14_too_big_iff"], "note": "False of the code below 16 bytes: the length subtraction underflows (C14_short_panics, C14_short_too_big). C14_to_vec_partial covers 16 bytes and more."},
 {"property": "C15", "status": "proved", "theorems": ["Bip324.C15_small_buffer", "Bip324.C15_decrypt_iff_in_place", "Bip324.C15_errors_agree", "Bip324.C15_to_vec_iff_in_place"], "note": ""},
 {"property": "C16", "status": "proved", "theorems": ["Bip324.C16_agreement"], "note": "Decoy contents below 2^24 bytes and fewer than 2^32-1 decoys per side, as in the property statement."},
 {"property": "C17", "status": "proved", "theorems": ["Bip324.C17_derivation", "Bip324.C17_lengths", "Bip324.C17_roles", "Bip324.C17_receive_key", "Bip324.C17_terminators"], "note": ""},
 {"property": "C18", "status": "proved", "theorems": ["Bip324.C18_send_key", "Bip324.C18_key_length"], "note": ""},
 {"property": "C19", "status": "proved", "theorems": ["Bip324.C19_v1_iff"], "note": ""},
 {"property": "C20", "status": "proved", "theorems": ["Bip324.C20_small", "Bip324.C20_layout", "Bip324.C20_exact_length"], "note": "Fewer than 2^32-1 decoys (the length cipher's counter, C10)."},
 {"property": "C21", "status": "proved", "theorems": ["Bip324.C21_found", "Bip324.C21_need_more", "Bip324.C21_no_terminator", "Bip324.C21_no_panic"], "note": ""},
 {"property": "C22", "status": "proved", "theorems": ["Bip324.C22_found_stable", "Bip324.C22_failure_stable", "Bip324.C22_segmentation", "Bip324.C22_start"], "note": ""},
 {"property": "C23", "status": "proved", "theorems": ["Bip324.C23_garbage_authenticated_once", "Bip324.C23_garbage_is_received_bytes"], "note": ""},
 {"property": "C24", "status": "proved", "theorems": ["Bip324.C24_complete_iff", "Bip324.C24_decoy_iff", "Bip324.C24_error", "Bip324.C24_any_number_of_decoys"], "note": ""},
 {"property": "C25", "status": "proved", "theorems": ["Bip324.C25_segmentation", "Bip324.C25_no_byte_lost"], "note": "Both APIs. Streams consist of arbitrary non-empty reads and Pendings; interrupted reads in the garbage phase are C32."},
 {"property": "C26", "status": "proved", "theorems": ["Bip324.C26_end_to_end"], "note": "Both APIs on either side. HonestPair spells out the side conditions (valid secrets, keys not starting with the magic, no early terminator in the garbage)."},
 {"property": "C27", "status": "proved", "theorems": ["Bip324.C27_bounds", "Bip324.C27_too_big_responder", "Bip324.C27_too_big_initiator"], "note": "Buffer sizes are the ghost log of the modelled handshake; the PacketTooBig theorems are sharp against C26 (3999997 accepted, 3999998 refused)."},
 {"property": "C28", "status": "proved", "theorems": ["Bip324.C28_end_to_end", "Bip324.C28_delivers"], "note": "Any list of payloads written Ok over any sink, any segmentation and any Interrupted reads (C28_delivers); and from Protocol::new on, both directions (C28_end_to_end). Abstract lawful crypto primitives; std read_exact default implementation."},
 {"property": "C29", "status": "partial", "theorems": ["Bip324.C29_async", "Bip324.C29_sync_rejects", "Bip324.C29_sync_partial"], "note": "Proved for the async API (C29_async). For the sync API the property is false between 4000014 and 2^24-1 bytes (C29_sync_rejects, for every such payload); proved up to 4000013 bytes (C29_sync_partial)."},
 {"property": "C30", "status": "proved", "theorems": ["Bip324.C30_end_to_end", "Bip324.C30_cancellation_safe"], "note": "For every script of the transport (data, Pending, empty reads, errors) and every schedule of polls and cancellations; prefix property plus completeness after enough polls; also from Protocol::new on (C30_end_to_end)."},
 {"property": "C31", "status": "proved", "theorems": ["Bip324.C31_stuck"], "note": "After an Internal error of the async read the reader state is a fixpoint for every later schedule and every later transport."},
 {"property": "C32", "status": "partial", "theorems": ["Bip324.C32_async", "Bip324.C32_sync_loses", "Bip324.C32_sync_counterexample", "Bip324.C32_sync_partial", "Bip324.C32_handshake_interrupted"], "note": "Proved for the async session reader (C32_async). False for the sync session reader: C32_sync_loses characterises the loss at every byte position, C32_sync_counterexample is a concrete run, C32_sync_partial is the part that holds. False for the handshake of both APIs (C32_handshake_interrupted)."},
 {"property": "C33", "status": "partial", "theorems": ["Bip324.C33_handshake_classified", "Bip324.C33_sync_read_classified", "Bip324.C33_async_read_classified", "Bip324.C33_write_classified", "Bip324.C33_truncation_partial", "Bip324.C33_honest_peer_gone", "Bip324.C33_close_seen_by_write"], "note": "Classification proved for every API call. Truncation proved when the close is seen by a read (C33_truncation_partial, C33_honest_peer_gone). False when it is first seen by a write: BrokenPipe is reported with Abort (C33_close_seen_by_write)."},
 {"property": "C34", "status": "proved", "theorems": ["Bip324.C34_one_packet", "Bip324.C34_reliable", "Bip324.C34_history"], "note": "One write over any sink (C34_one_packet), over a sink accepting arbitrary pieces (C34_reliable), and the whole history of a writer against the BIP packet numbers (C34_history)."},
 {"property": "C35", "status": "partial", "theorems": ["Bip324.C35_counterexample", "Bip324.C35_taken_partial"], "note": "The property is false (C35_counterexample, both APIs). C35_taken_partial: holds as long as every write had its whole packet taken by the transport, e.g. only flush failed."},
 {"property": "C36", "status": "proved", "theorems": ["Bip324.C36_session", "Bip324.C36_end_to_end", "Bip324.C36_end_to_end_responder", "Bip324.C36_end_to_end_async", "Bip324.C36_end_to_end_async_responder", "Bip324.C36_threads", "Bip324.C36_threads_anytime", "Bip324.C36_no_panic", "Bip324.C36_task", "Bip324.C36_task_anytime", "Bip324.C36_task_no_panic"], "note": "Both APIs, every schedule, every RNG and configuration, from the shaped handshake to the peer's reads (C36_end_to_end and variants). Transport that takes all bytes; a panic (only possible after 2^32-1 packets, C36_no_panic, or for a Payload without type byte) ends the run. Sizes: payloads within the peer's limit. A failed decoy write is outside (see C35)."},
 {"property": "C37", "status": "proved", "theorems": ["Bip324.C37_config", "Bip324.C37_handshake", "Bip324.C37_session", "Bip324.C37_acceptable", "Bip324.C37_connects"], "note": "Bounds for every RNG outcome, and consequence: two shaped honest parties complete the handshake (C37_connects); in session the sizes are used in C36."},
 {"property": "C38", "status": "proved", "theorems": ["Bip324.C38_handshake", "Bip324.C38_threads", "Bip324.C38_task"], "note": "Handshake equal to Protocol::new without garbage and decoys; afterwards the output and cipher state equal those of the plain writer running the application's writes, in every schedule, whatever the transport does. The RNG is not consulted for decoys."},
 {"property": "C39", "status": "partial", "theorems": ["Bip324.C39_totals", "Bip324.C39_last_activity", "Bip324.C39_ratio_partial", "Bip324.C39_ratio", "Bip324.C39_ratio_counterexample", "Bip324.C39_time"], "note": "Proved for every interleaving of the atomic operations of any number of threads: the totals are the sums (mod 2^64) of what was recorded, with no lost update (C39_totals), last_activity is one of the recorded times (C39_last_activity), and the time arithmetic never panics (C39_time). The ratio is the quotient whenever the recorded total stays below 2^64 (C39_ratio, C39_ratio_partial); at exactly a multiple of 2^64 the counter wraps to 0 and the ratio becomes None although data was recorded (C39_ratio_counterexample)."},
 {"property": "C40", "status": "partial", "theorems": ["Bip324.C40_threads_one_more", "Bip324.C40_threads_terminates", "Bip324.C40_task_never_ends", "Bip324.C40_task_counterexample", "Bip324.C40_task_partial"], "note": "Thread (traffic/src/io.rs): proved for every schedule - after the drop at most the rest of one decoy packet is sent (C40_threads_one_more) and the thread ends once scheduled often enough, after which drop returns (C40_threads_terminates). Task (traffic/src/futures.rs): the property is false in the code, because the select! else branch is unreachable (the interval branch is never disabled): the task never ends (C40_task_never_ends) and can emit arbitrarily many further decoys after the drop (C40_task_counterexample). What remains true is C40_task_partial: with decoys disabled and nothing pending it sends nothing more."},
 {"property": "C41", "status": "proved", "theorems": ["Bip324.C41_types", "Bip324.C41_genuine_stream", "Bip324.C41_genuine_stream_async", "Bip324.C41_threads", "Bip324.C41_task"], "note": "C41_threads and C41_task: from a fresh session of either flavour, under every schedule, to what the peer's reads report (types, contents, and the genuine stream left after dropping decoys). C41_types and the two stream theorems are the peer's side, from what C36 shows it reads."},
 {"property": "C42", "status": "proved", "theorems": ["Bip324.C42_shaped_read", "Bip324.C42_shaped_poll", "Bip324.C42_shaped_threads", "Bip324.C42_shaped_task", "Bip324.C42_cipher_session", "Bip324.C42_sync_protocol", "Bip324.C42_async_protocol"], "note": "Cipher session, sync and async protocol, and both shaped protocols: any interleaving of reads and writes (and decoys) gives each direction the results and states of running it alone; splitting at any point changes nothing; the shaped read is the plain read."},
 {"property": "C43", "status": "partial", "theorems": ["Bip324.C43_decryption_partial", "Bip324.C43_handshake_functions", "Bip324.C43_receive_version", "Bip324.C43_handshake", "Bip324.C43_sync_session", "Bip324.C43_async_session"], "note": "Every function is shown not to panic on any received bytes, except decrypt_to_vec given fewer than 16 bytes, which underflows and panics in debug builds (witness C14_short_panics); no I/O wrapper reaches that case, which is proved by the session theorems."},
 {"property": "C44", "status": "proved", "theorems": ["Bip324.C44_runs", "Bip324.C44_no_failure", "Bip324.C44_finite", "Bip324.C44_maximal", "Bip324.C44_progress"], "note": "Byte-granular transition system of two parties and two unbounded pipes; a read that has to wait is represented by WouldBlock. Any mix of the two APIs."},
 {"property": "C45", "status": "partial", "theorems": ["Bip324.C45_job_ok", "Bip324.C45_job_error_partial", "Bip324.C45_threads_ok", "Bip324.C45_threads_error_partial", "Bip324.C45_task_traced", "Bip324.C45_task_ok", "Bip324.C45_task_error_partial", "Bip324.C45_task_gone", "Bip324.C45_flush_counterexample", "Bip324.C45_flush_counterexample_task"], "note": "The Ok half is proved for both APIs, every schedule and transport (C45_threads_ok, C45_task_ok). The error half is false when flush fails after the packet was taken (C45_flush_counterexample*); proved when flush never fails (C45_*_error_partial), and for a caller that learns that the task died (C45_task_gone)."},
 {"property": "C46", "status": "proved", "theorems": ["Bip324.C46_sync", "Bip324.C46_sync_after_errors", "Bip324.C46_sync_exact", "Bip324.C46_async", "Bip324.C46_session_sync", "Bip324.C46_session_async"], "note": "Both APIs, any transport. Packet numbers below 2^32 (the counter limit found in C10)."},
 {"property": "C47", "status": "proved", "theorems": ["Bip324.C47_sync_sound", "Bip324.C47_async_sound", "Bip324.C47_complete", "Bip324.C47_iff"], "note": "Soundness for any transport and fewer than 2^36 bytes of peer data; completeness and the equivalence for streams that deliver all bytes."},
 {"property": "C48", "status": "proved", "theorems": ["Bip324.C48_prefix", "Bip324.C48_v1_peer", "Bip324.C48_v1_detected"], "note": "Any transport; the V1 report needs a working one."},
 {"property": "C49", "status": "proved", "theorems": ["Bip324.C49_sync", "Bip324.C49_async", "Bip324.C49_seen"], "note": "The unforgeability condition is a hypothesis on the delivered bytes, stated for exactly the packet numbers that can be reached; everything else is unrestricted."},
 {"property": "C50", "status": "proved", "theorems": ["Bip324.C50_one", "Bip324.C50_driven", "Bip324.C50_history", "Bip324.C50_safe", "Bip324.C50_lost_sync", "Bip324.C50_lost_async"], "note": "A write is the step machine of the model (encrypt, write_all piece by piece, flush); cancellation stops it after any number of steps. C50_safe: cancelled after the whole packet was taken. C50_lost_sync and C50_lost_async: otherwise nothing written later is ever returned by the peer. The theorems about the step machine hold for the blocking writer as well (used in C69)."},
 {"property": "C51", "status": "proved", "theorems": ["Bip324.C51_exclusion", "Bip324.C51_poisoned", "Bip324.C51_poison_cause", "Bip324.C51_poisoned_call", "Bip324.C51_completes", "Bip324.C51_releases", "Bip324.C51_no_deadlock", "Bip324.C51_starvation_counterexample"], "note": "C51_starvation_counterexample shows that the last sentence of the statement is sharp: under an adversarial scheduler the wait for the lock is unbounded."},
 {"property": "C52", "status": "proved", "theorems": ["Bip324.C52_cancel_invisible", "Bip324.C52_accepted", "Bip324.C52_answered", "Bip324.C52_all_sent"], "note": "The only exception is a panic of the task (2^32 packets with overflow checks, or a payload without contents), stated in C52_all_sent; C36_task_no_panic excludes it below that number."},
 {"property": "C53", "status": "proved", "theorems": ["Bip324.C53_primes", "Bip324.C53_public_key", "Bip324.C53_public_key_injective", "Bip324.C53_every_encoding_valid", "Bip324.C53_shared_point", "Bip324.C53_shared_secret", "Bip324.C53_curve_lawful", "Bip324.C53_real_lawful", "Bip324.C53_real_secret", "Bip324.C53_encode_correct", "Bip324.C53_encoder"], "note": "Proved against Mathlib's group of points over ZMod p: both sides compute the hash of the x coordinate of skA*skB*G for every choice of encodings of the keys; every 64-byte array decodes to a point; keys are injective up to sign; hence `Lawful` holds of the RFC functions with secp256k1 (`C53_real_lawful`), for secrets whose chosen encoding decodes to their key. That an encoding exists for every key is not proved (the library searches in a pseudo-random order)."},
 {"property": "C54", "status": "partial", "theorems": ["Bip324.C54_recognised_partial", "Bip324.C54_no_session", "Bip324.C54_sent_counterexample", "Bip324.C54_false_alarm", "Bip324.C54_false_alarm_counterexample", "Bip324.C54_own_key_refused"], "note": "That every V1 peer is recognised is proved (C54_recognised_partial, C54_no_session). The converse and that nothing has been sent are false of the code, shown for all inputs by C54_false_alarm, C54_false_alarm_counterexample, C54_own_key_refused and C54_sent_counterexample."},
 {"property": "C55", "status": "proved", "theorems": ["Bip324.C55_reads", "Bip324.C55_reads_async", "Bip324.C55_upper_bound", "Bip324.C55_upper_bound_task", "Bip324.C55_exact", "Bip324.C55_exact_task", "Bip324.C55_handshake", "Bip324.C55_handshake_not_read", "Bip324.C55_failed_counterexample"], "note": "Threads and task; upper bound on every transport, equality on reliable ones, agreement with the peer in both APIs, handshake overhead. C55_failed_counterexample shows why the equality needs a reliable transport."},
 {"property": "C56", "status": "proved", "theorems": ["Bip324.C56_finite", "Bip324.C56_finishes", "Bip324.C56_never_finishes", "Bip324.C56_iff", "Bip324.C56_one_side", "Bip324.C56_garbage_deadlock", "Bip324.C56_decoy_deadlock", "Bip324.C56_shaped_room"], "note": "Exact condition (C56_iff): with it every maximal schedule completes, without it none does. Deadlocks by garbage and by decoys as corollaries; bound for shaped peers in C56_shaped_room."},
 {"property": "C57", "status": "proved", "theorems": ["Bip324.C57_plain", "Bip324.C57_threads", "Bip324.C57_task", "Bip324.C57_plain_exact", "Bip324.C57_plain_iff"], "note": "Number of bytes on the wire after every step; the bytes themselves are a matter of the ciphers, which are assumed."},
 {"property": "C58", "status": "partial", "theorems": ["Bip324.C58_pair_partial", "Bip324.C58_total_partial", "Bip324.C58_ambiguous_partial", "Bip324.C58_threads_seen", "Bip324.C58_threads_counterexample", "Bip324.C58_task_seen", "Bip324.C58_task_counterexample", "Bip324.C58_order_counterexample"], "note": "The claim of the README is false in two ways: C58_order_counterexample (the decoy comes first) and C58_threads_counterexample / C58_task_counterexample (the steps in which the wire grows determine the lengths). What holds is C58_pair_partial, C58_total_partial and C58_ambiguous_partial."},
 {"property": "C59", "status": "proved", "theorems": ["Bip324.C59_sync", "Bip324.C59_async", "Bip324.C59_threads", "Bip324.C59_task", "Bip324.C59_interoperable", "Bip324.C59_real"], "note": "The shaped sender is looked at whenever its lock is free / its task waits; transports of senders take everything (C45 treats those that fail)."},
 {"property": "C60", "status": "partial", "theorems": ["Bip324.C60_ratio_pair", "Bip324.C60_value", "Bip324.C60_nearest", "Bip324.C60_threshold", "Bip324.C60_compare_exact", "Bip324.C60_compare", "Bip324.C60_equal_counterexample", "Bip324.C60_moments_partial", "Bip324.C60_moments_counterexample", "Bip324.C60_last_activity_partial", "Bip324.C60_last_activity_counterexample"], "note": "The arithmetic is proved for all totals below 2^64 (C60_value, C60_compare) and is exact rounding below 2^53 (C60_nearest, C60_threshold, C60_compare_exact; C60_equal_counterexample beyond). That the ratio is that of one moment is false, as the two totals are loaded one after the other (C60_moments_counterexample); what holds is that it is never below the ratio of a moment in between (C60_moments_partial, with the loads in program order). That the last activity is the latest is false for overlapping calls (C60_last_activity_counterexample); it is late by at most the time between asking the clock and storing (C60_last_activity_partial)."},
 {"property": "C61", "status": "proved", "theorems": ["Bip324.C61_reference_receives", "Bip324.C61_reference_sends", "Bip324.C61_progress", "Bip324.C61_real"], "note": "Reference implementation in Spec/Reference.lean, transcribed class by class. The limits in the statement are hypotheses: payloads of at most 4000013 bytes (C29), fewer than 2^32 packets (C10), the key of the initiator without the V1 version string in bytes 4 to 15."},
 {"property": "C62", "status": "proved", "theorems": ["Bip324.C62_library", "Bip324.C62_reference", "Bip324.C62_agree", "Bip324.C62_keys", "Bip324.C62_session_sync", "Bip324.C62_session_reference", "Bip324.C62_session_async", "Bip324.C62_session_agree", "Bip324.C62_session_total", "Bip324.C62_boundary"], "note": "C62_library and C62_reference give the verdict of each on every stream; C62_agree compares them (same bytes sent; same verdict unless Divergent; what happens if Divergent); C62_keys is about keys; C62_boundary about the 4111 bytes; C62_session_* about the packets after the handshake for the blocking reader, the async reader (with cancellation) and the reference. C62_session_total shows that the verdict of a session is a total function of the stream. The three exceptions are properties of the code, shown on examples; the model of std/tokio reads is that of C24/C41."},
 {"property": "C63", "status": "proved", "theorems": ["Bip324.C63_version", "Bip324.C63_garbage", "Bip324.C63_driver", "Bip324.C63_complete", "Bip324.C63_panic", "Bip324.C63_panic_cut"], "note": "The statement includes the panic on incomplete data (C63_panic, C63_panic_cut)."},
 {"property": "C64", "status": "proved", "theorems": ["Bip324.C64_lossless", "Bip324.C64_after_payload", "Bip324.C64_lost", "Bip324.C64_lost_none", "Bip324.C64_sync", "Bip324.C64_writer", "Bip324.C64_counterexample"], "note": "The statement includes what is lost (C64_lost) and that the loss is real (C64_counterexample)."},
 {"property": "C65", "status": "proved", "theorems": ["Bip324.C65_key", "Bip324.C65_garbage", "Bip324.C65_never_more", "Bip324.C65_reported", "Bip324.C65_seeds"], "note": "For the actual seeds the hypothesis on the keys is not evaluated (StdRng is not modelled)."},
 {"property": "C66", "status": "proved", "theorems": ["Bip324.C66_fuel_sync", "Bip324.C66_fuel_async", "Bip324.C66_fuel_grows", "Bip324.C66_every_script_sync", "Bip324.C66_every_script_async", "Bip324.C66_handshake_sync", "Bip324.C66_handshake_async", "Bip324.C66_sync", "Bip324.C66_async", "Bip324.C66_connection_sync", "Bip324.C66_connection_async"], "note": "Model/AnyTransport.lean runs the handshake and the sessions of both APIs over any state machine; each loop is given fuel and the theorems hold for all fuel, so for every execution that ends; results do not depend on the fuel (C66_fuel_*). The script of reads is the list of the answers the transport gave, and every script is a transport with the same result (C66_every_script_*). Reads and writes that overlap, dropped writes and the traffic crate over any transport: C69."},
 {"property": "C67", "status": "proved", "theorems": ["Bip324.C67_sync", "Bip324.C67_async", "Bip324.C67_rare", "Bip324.C67_not_never"], "note": "The one-time keys are counted, not the ChaCha20 keys: that block 0 of the key stream is as good as random is the assumption about the cipher, stated in DESIGN.md. C67_not_never shows that the exception is real."},
 {"property": "C68", "status": "proved", "theorems": ["Bip324.C68_cuts_handshake_sync", "Bip324.C68_cuts_handshake_async", "Bip324.C68_cuts_calls_sync", "Bip324.C68_cuts_calls_async", "Bip324.C68_buffered_sync", "Bip324.C68_buffered_async", "Bip324.C68_buffered_failure"], "note": "The cuts theorems are about scripts of reads that may fail anywhere; the BufReader theorems are about any state machine below a BufReader of any capacity, for sessions that are made and for handshakes that fail. BufReader is modelled from the documentation of std and tokio, not from code in /repo. An example shows the documented loss of buffered bytes when the BufReader is taken off after the handshake."},
 {"property": "C69", "status": "proved", "theorems": ["Bip324.C69_halves_sync", "Bip324.C69_halves_async", "Bip324.C69_connection_sync", "Bip324.C69_connection_async", "Bip324.C69_calls", "Bip324.C69_threads", "Bip324.C69_task", "Bip324.C69_connection_threads", "Bip324.C69_connection_task", "Bip324.C69_answers", "Bip324.C69_answers_threads", "Bip324.C69_answers_task"], "note": "C69_halves_* and C69_threads, C69_task: every execution over any state machine, cut at the single calls of the transport, is one over the scripts of its answers; a peer may also change the transport between any two steps. C69_connection_*: what the bytes in both directions then are. For the shaped protocol this last part is for transports that take at least a byte per write and do not fail to flush, at whatever times (as C36); without that, C69_threads and C69_task apply and C45 says what a result means. A blocking read or write that is not answered stays where it is; both halves are then still covered. For the blocking API the part about reads is for reads that did not fail (after a failed one: C46_sync_after_errors on the script given by C69_halves_sync). C69_answers*: what each answer of the transport makes of the write, the thread or the task that asked."},
 {"property": "C70", "status": "partial", "theorems": ["Bip324.C70_table", "Bip324.C70_attained", "Bip324.C70_exact", "Bip324.C70_documented_partial", "Bip324.C70_documented_counterexample", "Bip324.C70_messages", "Bip324.C70_protocol_messages", "Bip324.C70_need", "Bip324.C70_extend", "Bip324.C70_garbage", "Bip324.C70_too_big_counterexample", "Bip324.C70_cause", "Bip324.C70_cause_io", "Bip324.C70_reason", "Bip324.C70_reason_counterexample", "Bip324.C70_stops"], "note": "Table, distinctness and truth of the texts are proved. The part about the comments is false of the code: C70_documented_partial says for which functions the comments are complete and for which they list only possible errors, C70_documented_counterexample has every exception, C70_too_big_counterexample the wrong limit in a text."},
 {"property": "C71", "status": "proved", "theorems": ["Bip324.C71_prefix", "Bip324.C71_received", "Bip324.C71_finite", "Bip324.C71_fair", "Bip324.C71_split", "Bip324.C71_dual", "Bip324.C71_exchange_fits", "Bip324.C71_exchange_deadlock", "Bip324.C71_ends", "Bip324.C71_exchange", "Bip324.C71_connection"], "note": "Blocking API; the capacities are those of the channels together with all buffers of the system. Liveness: C71_finite, C71_fair and C71_ends say that a state without further steps is reached, C71_split, C71_dual and C71_exchange what that state is. C71_connection: after two honest handshakes the sessions begin as these theorems require."},
 {"property": "C72", "status": "proved", "theorems": ["Bip324.C72_reads", "Bip324.C72_live", "Bip324.C72_swap", "Bip324.C72_blocked", "Bip324.C72_blocked_drop", "Bip324.C72_exchange_deadlock", "Bip324.C72_connection"], "note": "Blocking API of the traffic crate; fewer than 2^32 packets in a direction. C72_reads: safety for all schedules. C72_live: from every reachable state there is a continuation in which everything is finished (C72_swap: for the other direction too). C72_blocked, C72_blocked_drop, C72_exchange_deadlock: for generators that draw a decoy sooner or later. C72_connection: after two honest shaped handshakes the sessions begin as these theorems require."},
 {"property": "C73", "status": "proved", "theorems": ["Bip324.C73_no_decoy", "Bip324.C73_hello", "Bip324.C73_pair", "Bip324.C73_bench", "Bip324.C73_regtest_session", "Bip324.C73_regtest_fails", "Bip324.C73_regtest_answer", "Bip324.C73_regtest_writer", "Bip324.C73_regtest_lost"], "note": "Model of hello_world_happy_path, the round-trip benchmarks and regtest_handshake; pass conditions are exact for the first two and for the handshake of the third."},
 {"property": "C74", "status": "proved", "theorems": ["Bip324.C74_hidden", "Bip324.C74_no_attacker", "Bip324.C74_state", "Bip324.C74_forward", "Bip324.C74_exposed"], "note": "One direction at a time; the attacker is limited by the keys it uses, not by computing time."},
 {"property": "C75", "status": "proved", "theorems": ["Bip324.C75_reads", "Bip324.C75_live", "Bip324.C75_swap", "Bip324.C75_blocked", "Bip324.C75_queue", "Bip324.C75_blocked_drop", "Bip324.C75_exchange_deadlock", "Bip324.C75_connection"], "note": "\"Can go on\" is the existence of a continuation from every reachable state; the scheduler is not assumed to be fair."},
 {"property": "C76", "status": "proved", "theorems": ["Bip324.C76_decoy_count", "Bip324.C76_handshake", "Bip324.C76_send_key", "Bip324.C76_garbage_buffer", "Bip324.C76_split_garbage", "Bip324.C76_v1", "Bip324.C76_cipher_session", "Bip324.C76_decrypt_in_place", "Bip324.C76_min_length", "Bip324.C76_to_vec_too_big", "Bip324.C76_fuzz", "Bip324.C76_aad", "Bip324.C76_aad_same", "Bip324.C76_session_reader", "Bip324.C76_too_big", "Bip324.C76_v1_only", "Bip324.C76_stats", "Bip324.C76_shaper_handshake", "Bip324.C76_padding_disabled", "Bip324.C76_protocol_drop"], "note": "Each unit test as a function of its literals, with an equivalence for when it passes. For C76_handshake it is assumed that the terminator (128 secret bits) does not occur early in the garbage. test_write_read_ratio and the tests that need tokio tasks (futures.rs, traffic/futures.rs) are covered by C60, C27 and C56 instead."},
 {"property": "C77", "status": "proved", "theorems": ["Bip324.C77_outputs", "Bip324.C77_numbers_iff", "Bip324.C77_linear", "Bip324.C77_copies_leak", "Bip324.C77_nonces_iff", "Bip324.C77_reuse_counterexample", "Bip324.C77_known_plaintext", "Bip324.C77_replay"], "note": "Exact characterisation (C77_nonces_iff). The wish that no use of the API repeats a nonce is false: C77_reuse_counterexample. For the linear programs C77_linear says that the copies do not show."},
 {"property": "C78", "status": "proved", "theorems": ["Bip324.C78_search", "Bip324.C78_searches", "Bip324.C78_searches_attained", "Bip324.C78_packets", "Bip324.C78_decoys_unlimited", "Bip324.C78_read_bound", "Bip324.C78_read_chosen", "Bip324.C78_too_big_late", "Bip324.C78_poll_bound", "Bip324.C78_poll_attained"], "note": "The handshake logs of the model (sizes searched, packet sizes allocated) and ghost functions for windows compared and vectors allocated. Bounds by induction over the two loops; attained by a slow peer (all zeros or all ones) and by chosen length bytes. Time is counted in windows, memory in requested bytes; capacity growth of Vec and the allocator are not modelled."},
 {"property": "C79", "status": "proved", "theorems": ["Bip324.C79_refines", "Bip324.C79_complete", "Bip324.C79_task_refines", "Bip324.C79_task_complete", "Bip324.C79_spacing", "Bip324.C79_rate", "Bip324.C79_bytes", "Bip324.C79_grid", "Bip324.C79_drop", "Bip324.C79_task_rate", "Bip324.C79_task_bytes", "Bip324.C79_task_grid", "Bip324.C79_burst"], "note": "Time is a counter in milliseconds moved by the environment. thread::sleep ends no earlier than asked; tokio's interval ticks at once, then each period, with the default MissedTickBehavior::Burst (both from their documentation). The 5 ms tolerance of tokio concerns only other behaviours."},
 {"property": "C80", "status": "proved", "theorems": ["Bip324.C80_final", "Bip324.C80_totals", "Bip324.C80_load", "Bip324.C80_ratio_counterexample", "Bip324.C80_delayed", "Bip324.C80_one_more", "Bip324.C80_terminates", "Bip324.C80_drop_counterexample"], "note": "The statement says which of the wishes are false (ratio, bound on decoys after a drop); these are the two counterexamples. The memory model is per-variable coherence with atomic read-modify-writes; mutex and join order what they should."},
 {"property": "C81", "status": "proved", "theorems": ["Bip324.C81_tests", "Bip324.C81_pingpong", "Bip324.C81_regtest", "Bip324.C81_integration", "Bip324.C81_shaped", "Bip324.C81_async_functions", "Bip324.C81_async_too_big", "Bip324.C81_async_drop"], "note": "The message codec is a parameter (what is written, how what is read is judged). Threads and processes of the tests are replaced by the byte streams between them."},
 {"property": "C82", "status": "proved", "theorems": ["Bip324.C82_exact_plain_sync", "Bip324.C82_exact_plain_async", "Bip324.C82_exact_buffered_sync", "Bip324.C82_exact_buffered_async", "Bip324.C82_never_more", "Bip324.C82_full_buffers", "Bip324.C82_client", "Bip324.C82_buffered_client", "Bip324.C82_scenario_plain", "Bip324.C82_scenario_buffered", "Bip324.C82_typical", "Bip324.C82_small", "Bip324.C82_large", "Bip324.C82_server", "Bip324.C82_buffered_sync", "Bip324.C82_buffered_async", "Bip324.C82_plain_sync", "Bip324.C82_plain_async", "Bip324.C82_whole_sync", "Bip324.C82_whole_async"], "note": "`C82_plain_*`, `C82_whole_*`, `C82_client`: lower bound without a BufReader, any transport. `C82_buffered_*`, `C82_buffered_client`: upper bound through a BufReader, any script and any outcome. `C82_exact_*`, `C82_scenario_*`: the exact numbers when the bytes have arrived and the reads succeed; `C82_full_buffers`, `C82_never_more`, `C82_typical`, `C82_small`, `C82_large`: what they are. `C82_server`: what the server sends."},
 {"property": "C83", "status": "proved", "theorems": ["Bip324.C83_early", "Bip324.C83_early_none", "Bip324.C83_handshake", "Bip324.C83_negligible", "Bip324.C83_unlucky", "Bip324.C83_v1", "Bip324.C83_v1_standard"], "note": "counted over all terminators and all keys; that the derived terminators and the ElligatorSwift keys are uniform is not claimed"},
 {"property": "C84", "status": "proved", "theorems": ["Bip324.C84_handshake_sync", "Bip324.C84_calls_sync", "Bip324.C84_ok_sync", "Bip324.C84_handshake_async", "Bip324.C84_calls_async", "Bip324.C84_ok_async", "Bip324.C84_connection_sync", "Bip324.C84_connection_async", "Bip324.C84_bufwriter", "Bip324.C84_bufwriter_poll", "Bip324.C84_transient_sync", "Bip324.C84_transient_async", "Bip324.C84_counterexample"], "note": "any writer with the laws of Conn.Buffers; BufWriter of std and tokio modelled and shown to be one; the part on failures that pass is for BufWriter and its limit is C84_counterexample"},
 {"property": "C85", "status": "proved", "theorems": ["Bip324.C85_one", "Bip324.C85_room", "Bip324.C85_history", "Bip324.C85_room_total", "Bip324.C85_delivered", "Bip324.C85_driven", "Bip324.C85_counterexample"], "note": "any transport at the level of single polls; tokio::io::BufWriter modelled (flush_buf with its written count, poll_write, poll_flush); the limit is C85_counterexample"},
 {"property": "C86", "status": "proved", "theorems": ["Bip324.C86_blind", "Bip324.C86_chance", "Bip324.C86_reflection", "Bip324.C86_playback"], "note": "any transport with memory; the terminators are drawn, the rest of the cryptography is arbitrary"},
 {"property": "C87", "status": "proved", "theorems": ["Bip324.C87_sync", "Bip324.C87_async", "Bip324.C87_chance_sync", "Bip324.C87_chance_async", "Bip324.C87_not_never"], "note": "any lawful cryptography under the assumption that nothing is forged; RFC 8439 with drawn one-time keys without it; the public keys themselves are not authenticated in BIP-324"},
 {"property": "C88", "status": "proved", "theorems": ["Bip324.C88_id_binds", "Bip324.C88_id_agrees", "Bip324.C88_relay", "Bip324.C88_relay_async", "Bip324.C88_relay_counterexample"], "note": "ids: the concrete SHA-256, HKDF and secp256k1, nothing assumed; otherwise a collision among the messages hashed by the two parties; relay: any lawful cryptography"},
 {"property": "C89", "status": "proved", "theorems": ["Bip324.C89_across", "Bip324.C89_within"], "note": "the concrete SHA-256, HKDF and secp256k1; the keys at the start of a session, not those after re-keying, and not the 16-byte terminators"},
 {"property": "C90", "status": "proved", "theorems": ["Bip324.C90_sync", "Bip324.C90_learns", "Bip324.C90_async", "Bip324.C90_handshake"], "note": "assumes that the attacker forges no packet under the number (Spec.Unforged); one packet, for a plain reader or a handshake of either API"},
 {"property": "C91", "status": "proved", "theorems": ["Bip324.C91_keys", "Bip324.C91_one_side", "Bip324.C91_reflected", "Bip324.C91_both", "Bip324.C91_chance"], "note": "C91_keys is about the length and packet keys; the terminators are halves of one expansion, for which the absence from the bytes of the peer is a hypothesis of C91_one_side and C91_both, bounded by C91_chance"},
 {"property": "C92", "status": "proved", "theorems": ["Bip324.C92_handshake", "Bip324.C92_conversation", "Bip324.C92_writes"], "note": "transports without Interrupted, which only the blocking API retries (C32); writers that do not fail; nothing is said about reads after the first error, where the APIs differ (C31)"},
 {"property": "C93", "status": "proved", "theorems": ["Bip324.C93_frames", "Bip324.C93_damaged", "Bip324.C93_pushed", "Bip324.C93_async"], "note": "that none of the later packets is by accident the sealed packet number n is a hypothesis of C93_damaged, as is that the attacker's bodies in C93_pushed are not (C67 bounds how often a forged one passes)"},
 {"property": "C94", "status": "proved", "theorems": ["Bip324.C94_made_up", "Bip324.C94_accepted", "Bip324.C94_accepted_async", "Bip324.C94_real"], "note": "fewer than 2^32 packets; the lengths that the library takes"},
 {"property": "C95", "status": "proved", "theorems": ["Bip324.C95_session", "Bip324.C95_handshake", "Bip324.C95_connection", "Bip324.C95_connection_async", "Bip324.C95_real"], "note": "fewer than 2^32 packets (2^31 for the asynchronous API); messages of at most 4000013 bytes, which is what the library takes; the connection ends with ConnectionReset, ConnectionAborted or UnexpectedEof"},
 {"property": "C96", "status": "proved", "theorems": ["Bip324.C96_recognised", "Bip324.C96_rare"], "note": "the hypothesis that the encoding depends on the public key only is how handshake.rs:133 calls ElligatorSwift::from_pubkey(pk); what that function of the secp256k1 crate does inside is not in the repository"},
 {"property": "C97", "status": "proved", "theorems": ["Bip324.C97_prints", "Bip324.C97_prints_async", "Bip324.C97_padded", "Bip324.C97_real", "Bip324.C97_real_async"], "note": "messages of at most 4000013 bytes; what the asynchronous example needs of the transport after the packets is silence, an end or a failure; C97_padded is for the blocking example and the blocking padded peer without cover traffic"},
 {"property": "C98", "status": "proved", "theorems": ["Bip324.C98_determined", "Bip324.C98_same", "Bip324.C98_real"], "note": "messages of at most 4000013 bytes; garbage in which the own terminator does not occur early, as for all honest parties (C83 counts the exceptions)"},
 {"property": "C99", "status": "proved", "theorems": ["Bip324.C99_read", "Bip324.C99_polls", "Bip324.C99_any_length", "Bip324.C99_write_panics", "Bip324.C99_checked_bound", "Bip324.C99_read_panics", "Bip324.C99_poll_panics", "Bip324.C99_real"], "note": "contents of at most 4000013 bytes, as everywhere in C59; beyond 2^32 packets the two ends still agree with each other, but not with BIP-324 (C10)"},
 {"property": "C100", "status": "proved", "theorems": ["Bip324.C100_prints", "Bip324.C100_returns", "Bip324.C100_padded", "Bip324.C100_real", "Bip324.C100_prints_async", "Bip324.C100_returns_async", "Bip324.C100_padded_async", "Bip324.C100_real_async"], "note": "messages of at most 4000013 bytes; C100_padded is stated for a blocking peer, C100_padded_async for an asynchronous one"},
 {"property": "C101", "status": "proved", "theorems": ["Bip324.C101_new_waits", "Bip324.C101_read_waits", "Bip324.C101_example"], "note": "the asynchronous read is not part of this claim: it is polled and stays pending (C30); a transport that blocks is one whose call has no result"}
]}
