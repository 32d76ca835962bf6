# Axioms of each theorem

Generated by `tools/axioms.py` from `#print axioms`.

## C01

- `Bip324.C01_packet_round_trip`: propext, Classical.choice, Quot.sound
- `Bip324.C01_encrypt_progress`: propext, Classical.choice, Quot.sound

## C02

- `Bip324.C02_stream_round_trip`: propext, Classical.choice, Quot.sound
- `Bip324.C02_send_progress`: propext, Classical.choice, Quot.sound
- `Bip324.C02_send_progress_release`: propext, Classical.choice, Quot.sound
- `Bip324.C02_duplex`: propext, Classical.choice, Quot.sound

## C03

- `Bip324.C03_accepts_only_exact`: propext, Quot.sound
- `Bip324.C03_everything_else_rejected`: propext, Classical.choice, Quot.sound
- `Bip324.C03_accepted_is_peer_packet`: propext, Quot.sound
- `Bip324.C03_accepted_injective`: propext, Quot.sound

## C04

- `Bip324.C04_in_place`: propext
- `Bip324.C04_decrypt`: propext, Quot.sound
- `Bip324.C04_to_vec`: propext, Quot.sound
- `Bip324.C04_any_number_of_rejections`: propext, Quot.sound

## C05

- `Bip324.C05_error_iff_small`: propext, Quot.sound
- `Bip324.C05_error_no_effect`: propext, Quot.sound
- `Bip324.C05_retry`: propext, Quot.sound

## C06

- `Bip324.C06_layout`: propext, Classical.choice, Quot.sound
- `Bip324.C06_independent_of_buffer`: propext, Quot.sound

## C07

- `Bip324.C07_uses_adequate`: propext, Quot.sound
- `Bip324.C07_nonces_never_repeat`: propext, Classical.choice, Quot.sound
- `Bip324.C07_failed_call_uses_nothing`: propext, Quot.sound

## C08

- `Bip324.C08_uses_adequate`: propext, Quot.sound
- `Bip324.C08_keystream_never_reused`: propext, Classical.choice, Quot.sound

## C09

- `Bip324.C09_packet_cipher_conforms`: propext, Classical.choice, Quot.sound
- `Bip324.C09_packets_conform`: propext, Classical.choice, Quot.sound

## C10

- `Bip324.C10_length_cipher_conforms_partial`: propext, Classical.choice, Quot.sound
- `Bip324.C10_prefix_partial`: propext, Classical.choice, Quot.sound
- `Bip324.C10_last_state`: propext, Classical.choice, Quot.sound
- `Bip324.C10_overflow_panics`: propext, Quot.sound
- `Bip324.C10_overflow_deviates`: propext, Quot.sound
- `Bip324.C10_counterexample`: propext, Classical.choice, Quot.sound

## C11

- `Bip324.C11_packet_len_bounds`: propext, Classical.choice, Quot.sound
- `Bip324.C11_packet_len_total`: propext, Classical.choice, Quot.sound

## C12

- `Bip324.C12_over_long_misframed`: propext, Classical.choice, Quot.sound
- `Bip324.C12_over_long_accepted`: propext, Classical.choice, Quot.sound
- `Bip324.C12_framing_partial`: propext, Classical.choice, Quot.sound

## C13

- `Bip324.C13_round_trip`: none
- `Bip324.C13_header_bits`: propext, Quot.sound
- `Bip324.C13_ignore_bit_counterexample`: propext, Quot.sound
- `Bip324.C13_misread_iff`: propext, Quot.sound
- `Bip324.C13_ignore_bit_partial`: propext, Quot.sound

## C14

- `Bip324.C14_short_panics`: propext, Quot.sound
- `Bip324.C14_short_too_big`: propext, Quot.sound
- `Bip324.C14_to_vec_partial`: propext, Quot.sound
- `Bip324.C14_too_big_iff`: propext, Quot.sound

## C15

- `Bip324.C15_small_buffer`: propext, Quot.sound
- `Bip324.C15_decrypt_iff_in_place`: propext, Quot.sound
- `Bip324.C15_errors_agree`: propext, Quot.sound
- `Bip324.C15_to_vec_iff_in_place`: propext, Quot.sound

## C16

- `Bip324.C16_agreement`: propext, Classical.choice, Quot.sound

## C17

- `Bip324.C17_derivation`: propext, Classical.choice, Quot.sound
- `Bip324.C17_lengths`: propext, Classical.choice, Quot.sound
- `Bip324.C17_roles`: propext
- `Bip324.C17_receive_key`: propext, Classical.choice, Quot.sound
- `Bip324.C17_terminators`: propext, Classical.choice, Quot.sound

## C18

- `Bip324.C18_send_key`: propext, Quot.sound
- `Bip324.C18_key_length`: propext

## C19

- `Bip324.C19_v1_iff`: propext, Classical.choice, Quot.sound

## C20

- `Bip324.C20_small`: propext, Quot.sound
- `Bip324.C20_layout`: propext, Classical.choice, Quot.sound
- `Bip324.C20_exact_length`: propext, Classical.choice, Quot.sound

## C21

- `Bip324.C21_found`: propext, Classical.choice, Quot.sound
- `Bip324.C21_need_more`: propext, Classical.choice, Quot.sound
- `Bip324.C21_no_terminator`: propext, Classical.choice, Quot.sound
- `Bip324.C21_no_panic`: propext

## C22

- `Bip324.C22_found_stable`: propext, Classical.choice, Quot.sound
- `Bip324.C22_failure_stable`: propext, Classical.choice, Quot.sound
- `Bip324.C22_segmentation`: propext, Classical.choice, Quot.sound
- `Bip324.C22_start`: propext, Classical.choice, Quot.sound

## C23

- `Bip324.C23_garbage_authenticated_once`: propext, Quot.sound
- `Bip324.C23_garbage_is_received_bytes`: propext, Classical.choice, Quot.sound

## C24

- `Bip324.C24_complete_iff`: propext, Quot.sound
- `Bip324.C24_decoy_iff`: propext, Quot.sound
- `Bip324.C24_error`: propext, Classical.choice, Quot.sound
- `Bip324.C24_any_number_of_decoys`: propext, Classical.choice, Quot.sound

## C25

- `Bip324.C25_segmentation`: propext, Classical.choice, Quot.sound
- `Bip324.C25_no_byte_lost`: propext, Classical.choice, Quot.sound

## C26

- `Bip324.C26_end_to_end`: propext, Classical.choice, Quot.sound

## C27

- `Bip324.C27_bounds`: propext, Classical.choice, Quot.sound
- `Bip324.C27_too_big_responder`: propext, Classical.choice, Quot.sound
- `Bip324.C27_too_big_initiator`: propext, Classical.choice, Quot.sound

## C28

- `Bip324.C28_end_to_end`: propext, Classical.choice, Quot.sound
- `Bip324.C28_delivers`: propext, Classical.choice, Quot.sound

## C29

- `Bip324.C29_async`: propext, Classical.choice, Quot.sound
- `Bip324.C29_sync_rejects`: propext, Classical.choice, Quot.sound
- `Bip324.C29_sync_partial`: propext, Classical.choice, Quot.sound

## C30

- `Bip324.C30_end_to_end`: propext, Classical.choice, Quot.sound
- `Bip324.C30_cancellation_safe`: propext, Classical.choice, Quot.sound

## C31

- `Bip324.C31_stuck`: propext, Quot.sound

## C32

- `Bip324.C32_async`: propext, Classical.choice, Quot.sound
- `Bip324.C32_sync_loses`: propext, Classical.choice, Quot.sound
- `Bip324.C32_sync_counterexample`: propext, Classical.choice, Quot.sound
- `Bip324.C32_sync_partial`: propext, Classical.choice, Quot.sound
- `Bip324.C32_handshake_interrupted`: propext, Classical.choice, Quot.sound

## C33

- `Bip324.C33_handshake_classified`: propext, Classical.choice, Quot.sound
- `Bip324.C33_sync_read_classified`: propext, Classical.choice, Quot.sound
- `Bip324.C33_async_read_classified`: propext, Quot.sound
- `Bip324.C33_write_classified`: propext, Quot.sound
- `Bip324.C33_truncation_partial`: propext, Classical.choice, Quot.sound
- `Bip324.C33_honest_peer_gone`: propext, Classical.choice, Quot.sound
- `Bip324.C33_close_seen_by_write`: propext, Classical.choice, Quot.sound

## C34

- `Bip324.C34_one_packet`: propext, Quot.sound
- `Bip324.C34_reliable`: propext, Quot.sound
- `Bip324.C34_history`: propext, Classical.choice, Quot.sound

## C35

- `Bip324.C35_counterexample`: propext, Classical.choice, Quot.sound
- `Bip324.C35_taken_partial`: propext, Classical.choice, Quot.sound

## C36

- `Bip324.C36_session`: propext, Classical.choice, Quot.sound
- `Bip324.C36_end_to_end`: propext, Classical.choice, Quot.sound
- `Bip324.C36_end_to_end_responder`: propext, Classical.choice, Quot.sound
- `Bip324.C36_end_to_end_async`: propext, Classical.choice, Quot.sound
- `Bip324.C36_end_to_end_async_responder`: propext, Classical.choice, Quot.sound
- `Bip324.C36_threads`: propext, Classical.choice, Quot.sound
- `Bip324.C36_threads_anytime`: propext, Classical.choice, Quot.sound
- `Bip324.C36_no_panic`: propext, Classical.choice, Quot.sound
- `Bip324.C36_task`: propext, Classical.choice, Quot.sound
- `Bip324.C36_task_anytime`: propext, Classical.choice, Quot.sound
- `Bip324.C36_task_no_panic`: propext, Classical.choice, Quot.sound

## C37

- `Bip324.C37_config`: propext
- `Bip324.C37_handshake`: propext, Quot.sound
- `Bip324.C37_session`: propext, Quot.sound
- `Bip324.C37_acceptable`: propext, Quot.sound
- `Bip324.C37_connects`: propext, Classical.choice, Quot.sound

## C38

- `Bip324.C38_handshake`: propext, Classical.choice, Quot.sound
- `Bip324.C38_threads`: propext, Classical.choice, Quot.sound
- `Bip324.C38_task`: propext, Classical.choice, Quot.sound

## C39

- `Bip324.C39_totals`: propext, Quot.sound
- `Bip324.C39_last_activity`: propext, Quot.sound
- `Bip324.C39_ratio_partial`: propext, Quot.sound
- `Bip324.C39_ratio`: propext, Quot.sound
- `Bip324.C39_ratio_counterexample`: propext, Quot.sound
- `Bip324.C39_time`: propext, Quot.sound

## C40

- `Bip324.C40_threads_one_more`: propext, Classical.choice, Quot.sound
- `Bip324.C40_threads_terminates`: propext, Classical.choice, Quot.sound
- `Bip324.C40_task_never_ends`: propext, Classical.choice, Quot.sound
- `Bip324.C40_task_counterexample`: propext, Classical.choice, Quot.sound
- `Bip324.C40_task_partial`: propext, Quot.sound

## C41

- `Bip324.C41_types`: propext, Classical.choice, Quot.sound
- `Bip324.C41_genuine_stream`: propext, Classical.choice, Quot.sound
- `Bip324.C41_genuine_stream_async`: propext, Quot.sound
- `Bip324.C41_threads`: propext, Classical.choice, Quot.sound
- `Bip324.C41_task`: propext, Classical.choice, Quot.sound

## C42

- `Bip324.C42_shaped_read`: propext, Classical.choice, Quot.sound
- `Bip324.C42_shaped_poll`: propext, Quot.sound
- `Bip324.C42_shaped_threads`: propext, Classical.choice, Quot.sound
- `Bip324.C42_shaped_task`: propext, Quot.sound
- `Bip324.C42_cipher_session`: propext, Quot.sound
- `Bip324.C42_sync_protocol`: propext, Classical.choice, Quot.sound
- `Bip324.C42_async_protocol`: propext, Quot.sound

## C43

- `Bip324.C43_decryption_partial`: propext, Quot.sound
- `Bip324.C43_handshake_functions`: propext, Classical.choice, Quot.sound
- `Bip324.C43_receive_version`: propext, Quot.sound
- `Bip324.C43_handshake`: propext, Classical.choice, Quot.sound
- `Bip324.C43_sync_session`: propext, Classical.choice, Quot.sound
- `Bip324.C43_async_session`: propext, Classical.choice, Quot.sound

## C44

- `Bip324.C44_runs`: propext, Classical.choice, Quot.sound
- `Bip324.C44_no_failure`: propext, Classical.choice, Quot.sound
- `Bip324.C44_finite`: propext, Classical.choice, Quot.sound
- `Bip324.C44_maximal`: propext, Classical.choice, Quot.sound
- `Bip324.C44_progress`: propext, Classical.choice, Quot.sound

## C45

- `Bip324.C45_job_ok`: propext, Quot.sound
- `Bip324.C45_job_error_partial`: propext, Quot.sound
- `Bip324.C45_threads_ok`: propext, Classical.choice, Quot.sound
- `Bip324.C45_threads_error_partial`: propext, Classical.choice, Quot.sound
- `Bip324.C45_task_traced`: propext, Classical.choice, Quot.sound
- `Bip324.C45_task_ok`: propext, Classical.choice, Quot.sound
- `Bip324.C45_task_error_partial`: propext, Classical.choice, Quot.sound
- `Bip324.C45_task_gone`: propext, Classical.choice, Quot.sound
- `Bip324.C45_flush_counterexample`: propext, Classical.choice, Quot.sound
- `Bip324.C45_flush_counterexample_task`: propext, Classical.choice, Quot.sound

## C46

- `Bip324.C46_sync`: propext, Classical.choice, Quot.sound
- `Bip324.C46_sync_after_errors`: propext, Classical.choice, Quot.sound
- `Bip324.C46_sync_exact`: propext, Classical.choice, Quot.sound
- `Bip324.C46_async`: propext, Classical.choice, Quot.sound
- `Bip324.C46_session_sync`: propext, Classical.choice, Quot.sound
- `Bip324.C46_session_async`: propext, Classical.choice, Quot.sound

## C47

- `Bip324.C47_sync_sound`: propext, Classical.choice, Quot.sound
- `Bip324.C47_async_sound`: propext, Classical.choice, Quot.sound
- `Bip324.C47_complete`: propext, Classical.choice, Quot.sound
- `Bip324.C47_iff`: propext, Classical.choice, Quot.sound

## C48

- `Bip324.C48_prefix`: propext, Classical.choice, Quot.sound
- `Bip324.C48_v1_peer`: propext, Classical.choice, Quot.sound
- `Bip324.C48_v1_detected`: propext, Classical.choice, Quot.sound

## C49

- `Bip324.C49_sync`: propext, Classical.choice, Quot.sound
- `Bip324.C49_async`: propext, Classical.choice, Quot.sound
- `Bip324.C49_seen`: propext, Quot.sound

## C50

- `Bip324.C50_one`: propext, Quot.sound
- `Bip324.C50_driven`: propext, Classical.choice, Quot.sound
- `Bip324.C50_history`: propext, Classical.choice, Quot.sound
- `Bip324.C50_safe`: propext, Classical.choice, Quot.sound
- `Bip324.C50_lost_sync`: propext, Classical.choice, Quot.sound
- `Bip324.C50_lost_async`: propext, Classical.choice, Quot.sound

## C51

- `Bip324.C51_exclusion`: propext, Classical.choice, Quot.sound
- `Bip324.C51_poisoned`: propext, Classical.choice, Quot.sound
- `Bip324.C51_poison_cause`: propext, Classical.choice, Quot.sound
- `Bip324.C51_poisoned_call`: propext, Classical.choice, Quot.sound
- `Bip324.C51_completes`: propext, Classical.choice, Quot.sound
- `Bip324.C51_releases`: propext, Classical.choice, Quot.sound
- `Bip324.C51_no_deadlock`: propext, Classical.choice, Quot.sound
- `Bip324.C51_starvation_counterexample`: propext, Classical.choice, Quot.sound

## C52

- `Bip324.C52_cancel_invisible`: propext, Quot.sound
- `Bip324.C52_accepted`: propext, Quot.sound
- `Bip324.C52_answered`: propext, Classical.choice, Quot.sound
- `Bip324.C52_all_sent`: propext, Classical.choice, Quot.sound

## C53

- `Bip324.C53_primes`: propext, Classical.choice, Quot.sound
- `Bip324.C53_public_key`: propext, Classical.choice, Quot.sound
- `Bip324.C53_public_key_injective`: propext, Classical.choice, Quot.sound
- `Bip324.C53_every_encoding_valid`: propext, Classical.choice, Quot.sound
- `Bip324.C53_shared_point`: propext, Classical.choice, Quot.sound
- `Bip324.C53_shared_secret`: propext, Classical.choice, Quot.sound
- `Bip324.C53_curve_lawful`: propext, Classical.choice, Quot.sound
- `Bip324.C53_real_lawful`: propext, Classical.choice, Quot.sound
- `Bip324.C53_real_secret`: propext, Classical.choice, Quot.sound
- `Bip324.C53_encode_correct`: propext, Classical.choice, Quot.sound
- `Bip324.C53_encoder`: propext, Classical.choice, Quot.sound

## C54

- `Bip324.C54_recognised_partial`: propext, Classical.choice, Quot.sound
- `Bip324.C54_no_session`: propext, Classical.choice, Quot.sound
- `Bip324.C54_sent_counterexample`: propext, Classical.choice, Quot.sound
- `Bip324.C54_false_alarm`: propext, Classical.choice, Quot.sound
- `Bip324.C54_false_alarm_counterexample`: propext, Classical.choice, Quot.sound
- `Bip324.C54_own_key_refused`: propext, Classical.choice, Quot.sound

## C55

- `Bip324.C55_reads`: propext, Classical.choice, Quot.sound
- `Bip324.C55_reads_async`: propext, Quot.sound
- `Bip324.C55_upper_bound`: propext, Classical.choice, Quot.sound
- `Bip324.C55_upper_bound_task`: propext, Quot.sound
- `Bip324.C55_exact`: propext, Classical.choice, Quot.sound
- `Bip324.C55_exact_task`: propext, Classical.choice, Quot.sound
- `Bip324.C55_handshake`: propext, Classical.choice, Quot.sound
- `Bip324.C55_handshake_not_read`: propext, Classical.choice, Quot.sound
- `Bip324.C55_failed_counterexample`: propext, Classical.choice, Quot.sound

## C56

- `Bip324.C56_finite`: propext, Classical.choice, Quot.sound
- `Bip324.C56_finishes`: propext, Classical.choice, Quot.sound
- `Bip324.C56_never_finishes`: propext, Classical.choice, Quot.sound
- `Bip324.C56_iff`: propext, Classical.choice, Quot.sound
- `Bip324.C56_one_side`: propext, Classical.choice, Quot.sound
- `Bip324.C56_garbage_deadlock`: propext, Classical.choice, Quot.sound
- `Bip324.C56_decoy_deadlock`: propext, Classical.choice, Quot.sound
- `Bip324.C56_shaped_room`: propext, Quot.sound

## C57

- `Bip324.C57_plain`: propext, Classical.choice, Quot.sound
- `Bip324.C57_threads`: propext, Classical.choice, Quot.sound
- `Bip324.C57_task`: propext, Classical.choice, Quot.sound
- `Bip324.C57_plain_exact`: propext, Quot.sound
- `Bip324.C57_plain_iff`: propext, Quot.sound

## C58

- `Bip324.C58_pair_partial`: propext, Quot.sound
- `Bip324.C58_total_partial`: propext, Classical.choice, Quot.sound
- `Bip324.C58_ambiguous_partial`: propext, Classical.choice, Quot.sound
- `Bip324.C58_threads_seen`: propext, Classical.choice, Quot.sound
- `Bip324.C58_threads_counterexample`: propext, Classical.choice, Quot.sound
- `Bip324.C58_task_seen`: propext, Classical.choice, Quot.sound
- `Bip324.C58_task_counterexample`: propext, Classical.choice, Quot.sound
- `Bip324.C58_order_counterexample`: propext, Classical.choice, Quot.sound

## C59

- `Bip324.C59_sync`: propext, Classical.choice, Quot.sound
- `Bip324.C59_async`: propext, Classical.choice, Quot.sound
- `Bip324.C59_threads`: propext, Classical.choice, Quot.sound
- `Bip324.C59_task`: propext, Classical.choice, Quot.sound
- `Bip324.C59_interoperable`: propext, Classical.choice, Quot.sound
- `Bip324.C59_real`: propext, Classical.choice, Quot.sound

## C60

- `Bip324.C60_ratio_pair`: none
- `Bip324.C60_value`: propext, Classical.choice, Quot.sound
- `Bip324.C60_nearest`: propext, Classical.choice, Quot.sound
- `Bip324.C60_threshold`: propext, Classical.choice, Quot.sound
- `Bip324.C60_compare_exact`: propext, Classical.choice, Quot.sound
- `Bip324.C60_compare`: propext, Classical.choice, Quot.sound
- `Bip324.C60_equal_counterexample`: propext, Classical.choice, Quot.sound
- `Bip324.C60_moments_partial`: propext, Classical.choice, Quot.sound
- `Bip324.C60_moments_counterexample`: propext, Classical.choice, Quot.sound
- `Bip324.C60_last_activity_partial`: propext, Classical.choice, Quot.sound
- `Bip324.C60_last_activity_counterexample`: propext, Classical.choice, Quot.sound

## C61

- `Bip324.C61_reference_receives`: propext, Classical.choice, Quot.sound
- `Bip324.C61_reference_sends`: propext, Classical.choice, Quot.sound
- `Bip324.C61_progress`: propext, Classical.choice, Quot.sound
- `Bip324.C61_real`: propext, Classical.choice, Quot.sound

## C62

- `Bip324.C62_library`: propext, Classical.choice, Quot.sound
- `Bip324.C62_reference`: propext, Classical.choice, Quot.sound
- `Bip324.C62_agree`: propext, Classical.choice, Quot.sound
- `Bip324.C62_keys`: propext, Classical.choice, Quot.sound
- `Bip324.C62_session_sync`: propext, Classical.choice, Quot.sound
- `Bip324.C62_session_reference`: propext, Classical.choice, Quot.sound
- `Bip324.C62_session_async`: propext, Classical.choice, Quot.sound
- `Bip324.C62_session_agree`: propext, Classical.choice, Quot.sound
- `Bip324.C62_session_total`: propext, Classical.choice, Quot.sound
- `Bip324.C62_boundary`: propext, Classical.choice, Quot.sound

## C63

- `Bip324.C63_version`: propext, Classical.choice, Quot.sound
- `Bip324.C63_garbage`: propext, Classical.choice, Quot.sound
- `Bip324.C63_driver`: propext, Classical.choice, Quot.sound
- `Bip324.C63_complete`: propext, Classical.choice, Quot.sound
- `Bip324.C63_panic`: propext, Classical.choice, Quot.sound
- `Bip324.C63_panic_cut`: propext, Classical.choice, Quot.sound

## C64

- `Bip324.C64_lossless`: propext, Classical.choice, Quot.sound
- `Bip324.C64_after_payload`: propext, Quot.sound
- `Bip324.C64_lost`: propext, Classical.choice, Quot.sound
- `Bip324.C64_lost_none`: propext, Classical.choice, Quot.sound
- `Bip324.C64_sync`: propext, Classical.choice, Quot.sound
- `Bip324.C64_writer`: propext, Classical.choice, Quot.sound
- `Bip324.C64_counterexample`: propext, Quot.sound

## C65

- `Bip324.C65_key`: propext, Classical.choice, Quot.sound
- `Bip324.C65_garbage`: propext, Classical.choice, Quot.sound
- `Bip324.C65_never_more`: propext, Classical.choice, Quot.sound
- `Bip324.C65_reported`: propext, Classical.choice, Quot.sound
- `Bip324.C65_seeds`: propext, Classical.choice, Quot.sound

## C66

- `Bip324.C66_fuel_sync`: propext, Classical.choice, Quot.sound
- `Bip324.C66_fuel_async`: propext, Classical.choice, Quot.sound
- `Bip324.C66_fuel_grows`: propext, Classical.choice, Quot.sound
- `Bip324.C66_every_script_sync`: propext, Classical.choice, Quot.sound
- `Bip324.C66_every_script_async`: propext, Classical.choice, Quot.sound
- `Bip324.C66_handshake_sync`: propext, Classical.choice, Quot.sound
- `Bip324.C66_handshake_async`: propext, Classical.choice, Quot.sound
- `Bip324.C66_sync`: propext, Classical.choice, Quot.sound
- `Bip324.C66_async`: propext, Classical.choice, Quot.sound
- `Bip324.C66_connection_sync`: propext, Classical.choice, Quot.sound
- `Bip324.C66_connection_async`: propext, Classical.choice, Quot.sound

## C67

- `Bip324.C67_sync`: propext, Classical.choice, Quot.sound
- `Bip324.C67_async`: propext, Classical.choice, Quot.sound
- `Bip324.C67_rare`: propext, Classical.choice, Quot.sound
- `Bip324.C67_not_never`: propext, Classical.choice, Quot.sound

## C68

- `Bip324.C68_cuts_handshake_sync`: propext, Classical.choice, Quot.sound
- `Bip324.C68_cuts_handshake_async`: propext, Classical.choice, Quot.sound
- `Bip324.C68_cuts_calls_sync`: propext, Classical.choice, Quot.sound
- `Bip324.C68_cuts_calls_async`: propext, Classical.choice, Quot.sound
- `Bip324.C68_buffered_sync`: propext, Classical.choice, Quot.sound
- `Bip324.C68_buffered_async`: propext, Classical.choice, Quot.sound
- `Bip324.C68_buffered_failure`: propext, Classical.choice, Quot.sound

## C69

- `Bip324.C69_halves_sync`: propext, Classical.choice, Quot.sound
- `Bip324.C69_halves_async`: propext, Classical.choice, Quot.sound
- `Bip324.C69_connection_sync`: propext, Classical.choice, Quot.sound
- `Bip324.C69_connection_async`: propext, Classical.choice, Quot.sound
- `Bip324.C69_calls`: propext, Classical.choice, Quot.sound
- `Bip324.C69_threads`: propext, Classical.choice, Quot.sound
- `Bip324.C69_task`: propext, Classical.choice, Quot.sound
- `Bip324.C69_connection_threads`: propext, Classical.choice, Quot.sound
- `Bip324.C69_connection_task`: propext, Classical.choice, Quot.sound
- `Bip324.C69_answers`: propext, Quot.sound
- `Bip324.C69_answers_threads`: propext, Classical.choice, Quot.sound
- `Bip324.C69_answers_task`: propext, Quot.sound

## C70

- `Bip324.C70_table`: propext, Classical.choice, Quot.sound
- `Bip324.C70_attained`: propext, Classical.choice, Quot.sound
- `Bip324.C70_exact`: propext, Classical.choice, Quot.sound
- `Bip324.C70_documented_partial`: propext, Classical.choice, Quot.sound
- `Bip324.C70_documented_counterexample`: propext, Classical.choice, Quot.sound
- `Bip324.C70_messages`: propext, Classical.choice, Quot.sound
- `Bip324.C70_protocol_messages`: propext, Classical.choice, Quot.sound
- `Bip324.C70_need`: propext, Classical.choice, Quot.sound
- `Bip324.C70_extend`: propext, Quot.sound
- `Bip324.C70_garbage`: propext, Classical.choice, Quot.sound
- `Bip324.C70_too_big_counterexample`: propext, Quot.sound
- `Bip324.C70_cause`: propext
- `Bip324.C70_cause_io`: propext
- `Bip324.C70_reason`: propext, Classical.choice, Quot.sound
- `Bip324.C70_reason_counterexample`: propext, Classical.choice, Quot.sound
- `Bip324.C70_stops`: propext, Classical.choice, Quot.sound

## C71

- `Bip324.C71_prefix`: propext, Classical.choice, Quot.sound
- `Bip324.C71_received`: none
- `Bip324.C71_finite`: propext, Classical.choice, Quot.sound
- `Bip324.C71_fair`: propext, Classical.choice, Quot.sound
- `Bip324.C71_split`: propext, Classical.choice, Quot.sound
- `Bip324.C71_dual`: propext, Classical.choice, Quot.sound
- `Bip324.C71_exchange_fits`: propext, Classical.choice, Quot.sound
- `Bip324.C71_exchange_deadlock`: propext, Classical.choice, Quot.sound
- `Bip324.C71_ends`: propext, Classical.choice, Quot.sound
- `Bip324.C71_exchange`: propext, Classical.choice, Quot.sound
- `Bip324.C71_connection`: propext, Classical.choice, Quot.sound

## C72

- `Bip324.C72_reads`: propext, Classical.choice, Quot.sound
- `Bip324.C72_live`: propext, Classical.choice, Quot.sound
- `Bip324.C72_swap`: propext, Classical.choice, Quot.sound
- `Bip324.C72_blocked`: propext, Classical.choice, Quot.sound
- `Bip324.C72_blocked_drop`: propext, Classical.choice, Quot.sound
- `Bip324.C72_exchange_deadlock`: propext, Classical.choice, Quot.sound
- `Bip324.C72_connection`: propext, Classical.choice, Quot.sound

## C73

- `Bip324.C73_no_decoy`: propext, Classical.choice, Quot.sound
- `Bip324.C73_hello`: propext, Classical.choice, Quot.sound
- `Bip324.C73_pair`: propext, Classical.choice, Quot.sound
- `Bip324.C73_bench`: propext, Classical.choice, Quot.sound
- `Bip324.C73_regtest_session`: propext, Classical.choice, Quot.sound
- `Bip324.C73_regtest_fails`: propext, Classical.choice, Quot.sound
- `Bip324.C73_regtest_answer`: propext, Classical.choice, Quot.sound
- `Bip324.C73_regtest_writer`: propext, Classical.choice, Quot.sound
- `Bip324.C73_regtest_lost`: propext, Classical.choice, Quot.sound

## C74

- `Bip324.C74_hidden`: propext, Classical.choice, Quot.sound
- `Bip324.C74_no_attacker`: propext, Classical.choice, Quot.sound
- `Bip324.C74_state`: propext, Classical.choice, Quot.sound
- `Bip324.C74_forward`: propext, Classical.choice, Quot.sound
- `Bip324.C74_exposed`: propext, Classical.choice, Quot.sound

## C75

- `Bip324.C75_reads`: propext, Classical.choice, Quot.sound
- `Bip324.C75_live`: propext, Classical.choice, Quot.sound
- `Bip324.C75_swap`: propext, Quot.sound
- `Bip324.C75_blocked`: propext, Classical.choice, Quot.sound
- `Bip324.C75_queue`: propext, Classical.choice, Quot.sound
- `Bip324.C75_blocked_drop`: propext, Classical.choice, Quot.sound
- `Bip324.C75_exchange_deadlock`: propext, Classical.choice, Quot.sound
- `Bip324.C75_connection`: propext, Classical.choice, Quot.sound

## C76

- `Bip324.C76_decoy_count`: propext, Classical.choice, Quot.sound
- `Bip324.C76_handshake`: propext, Classical.choice, Quot.sound
- `Bip324.C76_send_key`: propext, Quot.sound
- `Bip324.C76_garbage_buffer`: propext, Classical.choice, Quot.sound
- `Bip324.C76_split_garbage`: propext, Classical.choice, Quot.sound
- `Bip324.C76_v1`: propext, Classical.choice, Quot.sound
- `Bip324.C76_cipher_session`: propext, Classical.choice, Quot.sound
- `Bip324.C76_decrypt_in_place`: propext, Classical.choice, Quot.sound
- `Bip324.C76_min_length`: propext, Classical.choice, Quot.sound
- `Bip324.C76_to_vec_too_big`: propext, Classical.choice, Quot.sound
- `Bip324.C76_fuzz`: propext, Classical.choice, Quot.sound
- `Bip324.C76_aad`: propext, Classical.choice, Quot.sound
- `Bip324.C76_aad_same`: propext, Classical.choice, Quot.sound
- `Bip324.C76_session_reader`: propext, Classical.choice, Quot.sound
- `Bip324.C76_too_big`: propext, Classical.choice, Quot.sound
- `Bip324.C76_v1_only`: propext, Classical.choice, Quot.sound
- `Bip324.C76_stats`: propext, Quot.sound
- `Bip324.C76_shaper_handshake`: propext, Quot.sound
- `Bip324.C76_padding_disabled`: none
- `Bip324.C76_protocol_drop`: propext, Classical.choice, Quot.sound

## C77

- `Bip324.C77_outputs`: propext, Classical.choice, Quot.sound
- `Bip324.C77_numbers_iff`: propext, Quot.sound
- `Bip324.C77_linear`: propext, Classical.choice, Quot.sound
- `Bip324.C77_copies_leak`: propext, Classical.choice, Quot.sound
- `Bip324.C77_nonces_iff`: propext, Classical.choice, Quot.sound
- `Bip324.C77_reuse_counterexample`: propext, Classical.choice, Quot.sound
- `Bip324.C77_known_plaintext`: propext, Classical.choice, Quot.sound
- `Bip324.C77_replay`: propext, Classical.choice, Quot.sound

## C78

- `Bip324.C78_search`: propext, Classical.choice, Quot.sound
- `Bip324.C78_searches`: propext, Classical.choice, Quot.sound
- `Bip324.C78_searches_attained`: propext, Classical.choice, Quot.sound
- `Bip324.C78_packets`: propext, Classical.choice, Quot.sound
- `Bip324.C78_decoys_unlimited`: propext, Classical.choice, Quot.sound
- `Bip324.C78_read_bound`: propext, Classical.choice, Quot.sound
- `Bip324.C78_read_chosen`: propext, Classical.choice, Quot.sound
- `Bip324.C78_too_big_late`: propext, Classical.choice, Quot.sound
- `Bip324.C78_poll_bound`: propext, Classical.choice, Quot.sound
- `Bip324.C78_poll_attained`: propext, Classical.choice, Quot.sound

## C79

- `Bip324.C79_refines`: propext, Classical.choice, Quot.sound
- `Bip324.C79_complete`: propext, Classical.choice, Quot.sound
- `Bip324.C79_task_refines`: propext, Classical.choice, Quot.sound
- `Bip324.C79_task_complete`: propext, Quot.sound
- `Bip324.C79_spacing`: propext, Classical.choice, Quot.sound
- `Bip324.C79_rate`: propext, Classical.choice, Quot.sound
- `Bip324.C79_bytes`: propext, Classical.choice, Quot.sound
- `Bip324.C79_grid`: propext, Classical.choice, Quot.sound
- `Bip324.C79_drop`: propext, Classical.choice, Quot.sound
- `Bip324.C79_task_rate`: propext, Classical.choice, Quot.sound
- `Bip324.C79_task_bytes`: propext, Classical.choice, Quot.sound
- `Bip324.C79_task_grid`: propext, Classical.choice, Quot.sound
- `Bip324.C79_burst`: propext, Classical.choice, Quot.sound

## C80

- `Bip324.C80_final`: propext, Quot.sound
- `Bip324.C80_totals`: propext, Quot.sound
- `Bip324.C80_load`: propext, Quot.sound
- `Bip324.C80_ratio_counterexample`: propext, Quot.sound
- `Bip324.C80_delayed`: propext, Classical.choice, Quot.sound
- `Bip324.C80_one_more`: propext, Classical.choice, Quot.sound
- `Bip324.C80_terminates`: propext, Classical.choice, Quot.sound
- `Bip324.C80_drop_counterexample`: propext, Classical.choice, Quot.sound

## C81

- `Bip324.C81_tests`: propext, Classical.choice, Quot.sound
- `Bip324.C81_pingpong`: propext, Classical.choice, Quot.sound
- `Bip324.C81_regtest`: propext, Quot.sound
- `Bip324.C81_integration`: propext, Quot.sound
- `Bip324.C81_shaped`: propext, Classical.choice, Quot.sound
- `Bip324.C81_async_functions`: propext, Classical.choice, Quot.sound
- `Bip324.C81_async_too_big`: propext, Classical.choice, Quot.sound
- `Bip324.C81_async_drop`: propext, Classical.choice, Quot.sound

## C82

- `Bip324.C82_exact_plain_sync`: propext, Classical.choice, Quot.sound
- `Bip324.C82_exact_plain_async`: propext, Classical.choice, Quot.sound
- `Bip324.C82_exact_buffered_sync`: propext, Classical.choice, Quot.sound
- `Bip324.C82_exact_buffered_async`: propext, Classical.choice, Quot.sound
- `Bip324.C82_never_more`: propext, Quot.sound
- `Bip324.C82_full_buffers`: propext, Quot.sound
- `Bip324.C82_client`: propext, Classical.choice, Quot.sound
- `Bip324.C82_buffered_client`: propext, Classical.choice, Quot.sound
- `Bip324.C82_scenario_plain`: propext, Classical.choice, Quot.sound
- `Bip324.C82_scenario_buffered`: propext, Classical.choice, Quot.sound
- `Bip324.C82_typical`: propext, Classical.choice, Quot.sound
- `Bip324.C82_small`: propext, Classical.choice, Quot.sound
- `Bip324.C82_large`: propext, Classical.choice, Quot.sound
- `Bip324.C82_server`: propext, Classical.choice, Quot.sound
- `Bip324.C82_buffered_sync`: propext, Classical.choice, Quot.sound
- `Bip324.C82_buffered_async`: propext, Classical.choice, Quot.sound
- `Bip324.C82_plain_sync`: propext, Classical.choice, Quot.sound
- `Bip324.C82_plain_async`: propext, Classical.choice, Quot.sound
- `Bip324.C82_whole_sync`: propext, Classical.choice, Quot.sound
- `Bip324.C82_whole_async`: propext, Classical.choice, Quot.sound

## C83

- `Bip324.C83_early`: propext, Classical.choice, Quot.sound
- `Bip324.C83_early_none`: propext, Quot.sound
- `Bip324.C83_handshake`: propext, Classical.choice, Quot.sound
- `Bip324.C83_negligible`: propext, Classical.choice, Quot.sound
- `Bip324.C83_unlucky`: propext, Classical.choice, Quot.sound
- `Bip324.C83_v1`: propext, Classical.choice, Quot.sound
- `Bip324.C83_v1_standard`: propext, Classical.choice, Quot.sound

## C84

- `Bip324.C84_handshake_sync`: propext, Classical.choice, Quot.sound
- `Bip324.C84_calls_sync`: propext, Classical.choice, Quot.sound
- `Bip324.C84_ok_sync`: propext, Classical.choice, Quot.sound
- `Bip324.C84_handshake_async`: propext, Classical.choice, Quot.sound
- `Bip324.C84_calls_async`: propext, Classical.choice, Quot.sound
- `Bip324.C84_ok_async`: propext, Classical.choice, Quot.sound
- `Bip324.C84_connection_sync`: propext, Classical.choice, Quot.sound
- `Bip324.C84_connection_async`: propext, Classical.choice, Quot.sound
- `Bip324.C84_bufwriter`: propext, Quot.sound
- `Bip324.C84_bufwriter_poll`: propext, Quot.sound
- `Bip324.C84_transient_sync`: propext, Classical.choice, Quot.sound
- `Bip324.C84_transient_async`: propext, Classical.choice, Quot.sound
- `Bip324.C84_counterexample`: propext, Classical.choice, Quot.sound

## C85

- `Bip324.C85_one`: propext, Quot.sound
- `Bip324.C85_room`: propext, Quot.sound
- `Bip324.C85_history`: propext, Classical.choice, Quot.sound
- `Bip324.C85_room_total`: propext, Classical.choice, Quot.sound
- `Bip324.C85_delivered`: propext, Classical.choice, Quot.sound
- `Bip324.C85_driven`: propext, Quot.sound
- `Bip324.C85_counterexample`: propext, Classical.choice, Quot.sound

## C86

- `Bip324.C86_blind`: propext, Classical.choice, Quot.sound
- `Bip324.C86_chance`: propext, Classical.choice, Quot.sound
- `Bip324.C86_reflection`: propext, Classical.choice, Quot.sound
- `Bip324.C86_playback`: propext, Classical.choice, Quot.sound

## C87

- `Bip324.C87_sync`: propext, Classical.choice, Quot.sound
- `Bip324.C87_async`: propext, Classical.choice, Quot.sound
- `Bip324.C87_chance_sync`: propext, Classical.choice, Quot.sound
- `Bip324.C87_chance_async`: propext, Classical.choice, Quot.sound
- `Bip324.C87_not_never`: propext, Classical.choice, Quot.sound

## C88

- `Bip324.C88_id_binds`: propext, Classical.choice, Quot.sound
- `Bip324.C88_id_agrees`: propext, Classical.choice, Quot.sound
- `Bip324.C88_relay`: propext, Classical.choice, Quot.sound
- `Bip324.C88_relay_async`: propext, Classical.choice, Quot.sound
- `Bip324.C88_relay_counterexample`: propext, Classical.choice, Quot.sound

## C89

- `Bip324.C89_across`: propext, Classical.choice, Quot.sound
- `Bip324.C89_within`: propext, Classical.choice, Quot.sound

## C90

- `Bip324.C90_sync`: propext, Classical.choice, Quot.sound
- `Bip324.C90_learns`: propext, Classical.choice, Quot.sound
- `Bip324.C90_async`: propext, Classical.choice, Quot.sound
- `Bip324.C90_handshake`: propext, Classical.choice, Quot.sound

## C91

- `Bip324.C91_keys`: propext, Classical.choice, Quot.sound
- `Bip324.C91_one_side`: propext, Classical.choice, Quot.sound
- `Bip324.C91_reflected`: propext, Classical.choice, Quot.sound
- `Bip324.C91_both`: propext, Classical.choice, Quot.sound
- `Bip324.C91_chance`: propext, Classical.choice, Quot.sound

## C92

- `Bip324.C92_handshake`: propext, Classical.choice, Quot.sound
- `Bip324.C92_conversation`: propext, Classical.choice, Quot.sound
- `Bip324.C92_writes`: propext, Quot.sound

## C93

- `Bip324.C93_frames`: propext, Classical.choice, Quot.sound
- `Bip324.C93_damaged`: propext, Classical.choice, Quot.sound
- `Bip324.C93_pushed`: propext, Classical.choice, Quot.sound
- `Bip324.C93_async`: propext, Classical.choice, Quot.sound

## C94

- `Bip324.C94_made_up`: propext, Classical.choice, Quot.sound
- `Bip324.C94_accepted`: propext, Classical.choice, Quot.sound
- `Bip324.C94_accepted_async`: propext, Classical.choice, Quot.sound
- `Bip324.C94_real`: propext, Classical.choice, Quot.sound

## C95

- `Bip324.C95_session`: propext, Classical.choice, Quot.sound
- `Bip324.C95_handshake`: propext, Classical.choice, Quot.sound
- `Bip324.C95_connection`: propext, Classical.choice, Quot.sound
- `Bip324.C95_connection_async`: propext, Classical.choice, Quot.sound
- `Bip324.C95_real`: propext, Classical.choice, Quot.sound

## C96

- `Bip324.C96_recognised`: propext, Classical.choice, Quot.sound
- `Bip324.C96_rare`: propext, Classical.choice, Quot.sound

## C97

- `Bip324.C97_prints`: propext, Classical.choice, Quot.sound
- `Bip324.C97_prints_async`: propext, Classical.choice, Quot.sound
- `Bip324.C97_padded`: propext, Classical.choice, Quot.sound
- `Bip324.C97_real`: propext, Classical.choice, Quot.sound
- `Bip324.C97_real_async`: propext, Classical.choice, Quot.sound

## C98

- `Bip324.C98_determined`: propext, Classical.choice, Quot.sound
- `Bip324.C98_same`: propext, Classical.choice, Quot.sound
- `Bip324.C98_real`: propext, Classical.choice, Quot.sound

## C99

- `Bip324.C99_read`: propext, Classical.choice, Quot.sound
- `Bip324.C99_polls`: propext, Quot.sound
- `Bip324.C99_any_length`: propext, Classical.choice, Quot.sound
- `Bip324.C99_write_panics`: propext, Quot.sound
- `Bip324.C99_checked_bound`: propext, Classical.choice, Quot.sound
- `Bip324.C99_read_panics`: propext, Classical.choice, Quot.sound
- `Bip324.C99_poll_panics`: propext, Quot.sound
- `Bip324.C99_real`: propext, Classical.choice, Quot.sound

## C100

- `Bip324.C100_prints`: propext, Classical.choice, Quot.sound
- `Bip324.C100_returns`: propext, Classical.choice, Quot.sound
- `Bip324.C100_padded`: propext, Classical.choice, Quot.sound
- `Bip324.C100_real`: propext, Classical.choice, Quot.sound
- `Bip324.C100_prints_async`: propext, Classical.choice, Quot.sound
- `Bip324.C100_returns_async`: propext, Classical.choice, Quot.sound
- `Bip324.C100_padded_async`: propext, Classical.choice, Quot.sound
- `Bip324.C100_real_async`: propext, Classical.choice, Quot.sound

## C101

- `Bip324.C101_new_waits`: propext, Classical.choice, Quot.sound
- `Bip324.C101_read_waits`: propext, Classical.choice, Quot.sound
- `Bip324.C101_example`: propext, Classical.choice, Quot.sound
