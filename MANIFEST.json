{
 "claims": [
  {
   "property": "C01",
   "status": "proved",
   "theorems": [
    "Verif.Fec.C01_repetition_majority",
    "Verif.Fec.C01_repetition_corrects_minority_errors",
    "Verif.Fec.C01_repetition_encode_layout",
    "Verif.Fec.C01_repetition_configurations"
   ],
   "note": ""
  },
  {
   "property": "C02",
   "status": "proved",
   "theorems": [
    "Verif.Fec.C02_interleaver_positions",
    "Verif.Fec.C02_interleaver_roundtrip",
    "Verif.Fec.C02_deinterleaver_roundtrip",
    "Verif.Fec.C02_interleaver_spreads_bursts",
    "Verif.Fec.C02_interleaver_rejects",
    "Verif.Fec.C02_interleaver_configurations"
   ],
   "note": ""
  },
  {
   "property": "C03",
   "status": "partial",
   "theorems": [
    "Verif.Fec.C03_crc_roundtrip_partial",
    "Verif.Fec.C03_crc_without_check_bits_fails"
   ],
   "note": "Proved for Q>=1; the property is false for Q=0 (code[: -0] is empty), proved as a negation."
  },
  {
   "property": "C04",
   "status": "proved",
   "theorems": [
    "Verif.Fec.C04_scrambler3gpp_transparent",
    "Verif.Fec.C04_scrambler3gpp_roundtrip",
    "Verif.Fec.C04_scrambler3gpp_segmentation",
    "Verif.Fec.C04_scrambler3gpp_seed_contract",
    "Verif.Fec.C04_prng_queues_never_underflow"
   ],
   "note": ""
  },
  {
   "property": "C05",
   "status": "partial",
   "theorems": [
    "Verif.Fec.C05_scrambler80211a_pair_transparent",
    "Verif.Fec.C05_keystream_period_127",
    "Verif.Fec.C05_keystream_balanced",
    "Verif.Fec.C05_scrambling_is_xor_with_keystream",
    "Verif.Fec.C05_reseeded_instance_roundtrip",
    "Verif.Fec.C05_single_instance_roundtrip_fails",
    "Verif.Fec.C05_short_seed_raises",
    "Verif.Fec.C05_seed_validation"
   ],
   "note": "Everything but the last sentence is proved; encode-then-decode on one instance is false because both share the register (negation proved)."
  },
  {
   "property": "C06",
   "status": "partial",
   "theorems": [
    "Verif.Fec.C06_chain_roundtrip_partial",
    "Verif.Fec.C06_nested_chain_roundtrip",
    "Verif.Fec.C06_repetition_interleaver_roundtrip",
    "Verif.Fec.C06_misaligned_chain_fails",
    "Verif.Fec.C06_scrambler_desynchronises"
   ],
   "note": "Proved for nested block sizes; exact outcome proved for all chains; false in general (negations for non-nested sizes and for stateful scramblers with padding)."
  },
  {
   "property": "C07",
   "status": "proved",
   "theorems": [
    "Verif.Fec.C07_encode_contract",
    "Verif.Fec.C07_execution_order"
   ],
   "note": ""
  },
  {
   "property": "C08",
   "status": "proved",
   "theorems": [
    "Verif.Precoding.C08_transmit_ladder",
    "Verif.Precoding.C08_receive_ladder",
    "Verif.Precoding.C08_encode_streams",
    "Verif.Precoding.C08_decode_streams",
    "Verif.Precoding.C08_announced_input",
    "Verif.Precoding.C08_announced_output",
    "Verif.Precoding.C08_decode_mismatch_unnoticed_fails"
   ],
   "note": "Proved for arbitrary stage functions. The docstring of ReceiveSignalCoding.decode_streams additionally promises ValueError for a mismatching signal; that check does not exist (C08_decode_mismatch_unnoticed_fails)."
  },
  {
   "property": "C09",
   "status": "partial",
   "theorems": [
    "Verif.Precoding.C09_order_fails",
    "Verif.Precoding.C09_round_trip_fails",
    "Verif.Precoding.C09_constructor_reverses_partial",
    "Verif.Precoding.C09_order_kept_iff_partial",
    "Verif.Precoding.C09_round_trip_reverses_partial",
    "Verif.Precoding.C09_append_keeps_order_partial",
    "Verif.Precoding.C09_setitem_spec",
    "Verif.Precoding.C09_pop_spec"
   ],
   "note": "The property is false of the code: constructors insert at the front, so the order is reversed, and every save/load cycle reverses again. Exact law proved: order kept iff the list is a palindrome."
  },
  {
   "property": "C10",
   "status": "proved",
   "theorems": [
    "Verif.Precoding.C10_round_trip",
    "Verif.Precoding.C10_energy",
    "Verif.Precoding.C10_orthogonal",
    "Verif.Precoding.C10_rejects",
    "Verif.Precoding.C10_varying_channel_fails"
   ],
   "note": "Complex numbers instead of floats. C10_varying_channel_fails shows that the constancy hypothesis is needed."
  },
  {
   "property": "C11",
   "status": "proved",
   "theorems": [
    "Verif.Precoding.C11_round_trip",
    "Verif.Precoding.C11_round_trip_full_rank",
    "Verif.Precoding.C11_energy",
    "Verif.Precoding.C11_rejects",
    "Verif.Precoding.pinvRoutine_exists"
   ],
   "note": "np.linalg.pinv is any routine returning the Moore-Penrose inverse of full column rank matrices."
  },
  {
   "property": "C12",
   "status": "partial",
   "theorems": [
    "Verif.Precoding.C12_encoded_blocks",
    "Verif.Precoding.C12_decoded_blocks_iff_partial",
    "Verif.Precoding.C12_decoded_blocks_fails",
    "Verif.Precoding.C12_inverse_fails",
    "Verif.Precoding.C12_actual_inverse",
    "Verif.Precoding.C12_actual_round_trip",
    "Verif.Precoding.C12_encode_rate"
   ],
   "note": "num_decoded_blocks divides by the decode rate: right iff the chain has overall rate one. Encoding accounting and the actual block counts are proved."
  },
  {
   "property": "C13",
   "status": "proved",
   "theorems": [
    "Verif.Mapping.C13_symbol",
    "Verif.Mapping.C13_stream",
    "Verif.Mapping.C13_half_distance",
    "Verif.Mapping.C13_custom",
    "Verif.Mapping.C13_custom_soft",
    "Verif.Mapping.C13_psk8"
   ],
   "note": "All default PAM/QAM orders, 8-PSK and custom tables. Floats idealised as reals; one noise variance per stream."
  },
  {
   "property": "C14",
   "status": "proved",
   "theorems": [
    "Verif.Mapping.C14_total",
    "Verif.Mapping.C14_injective",
    "Verif.Mapping.C14_min_distance",
    "Verif.Mapping.C14_gray",
    "Verif.Mapping.C14_unit_energy",
    "Verif.Mapping.C14_psk8",
    "Verif.Mapping.C14_normalised",
    "Verif.Mapping.C14_normalised_injective"
   ],
   "note": "All default orders; custom tables are normalised for every non-zero table."
  },
  {
   "property": "C15",
   "status": "proved",
   "theorems": [
    "Verif.Mc.C15_schedule",
    "Verif.Mc.C15_terminates",
    "Verif.Mc.C15_default_batches"
   ],
   "note": "queue manager as a state machine; arbitrary histories"
  },
  {
   "property": "C16",
   "status": "partial",
   "theorems": [
    "Verif.Mc.C16_one_dimension_partial",
    "Verif.Mc.C16_one_dimension_monotone_partial",
    "Verif.Mc.C16_rectangular_grid_fails",
    "Verif.Mc.C16_square_grid_fails"
   ],
   "note": "holds for one-dimensional grids only; on multi-dimensional grids query_progress indexes the first axis with all coordinates: IndexError or progress above one (proved)"
  },
  {
   "property": "C17",
   "status": "proved",
   "theorems": [
    "Verif.Mc.C17_stage_reuse_transparent",
    "Verif.Mc.C17_unknown_stage_name_fails"
   ],
   "note": "deterministic stages; the second theorem shows that the declaration hypothesis is needed (unknown stage names are silently ignored)"
  },
  {
   "property": "C18",
   "status": "partial",
   "theorems": [
    "Verif.Mc.C18_stage_ordered_dimensions_partial",
    "Verif.Mc.C18_coordinates_swapped_fails",
    "Verif.Mc.C18_all_samples_lost_fails"
   ],
   "note": "actors use the sorted dimension list, queue and results the unsorted one; property holds iff the user lists dimensions in stage order"
  },
  {
   "property": "C19",
   "status": "proved",
   "theorems": [
    "Verif.Mc.C19_mean",
    "Verif.Mc.C19_order_independent",
    "Verif.Mc.C19_local",
    "Verif.Mc.C19_early_stop"
   ],
   "note": "real arithmetic"
  },
  {
   "property": "C20",
   "status": "partial",
   "theorems": [
    "Verif.Mc.C20_loop_conservation",
    "Verif.Mc.C20_quiescent_partial",
    "Verif.Mc.C20_quiescent_results_partial",
    "Verif.Mc.C20_in_flight_samples_lost_fails",
    "Verif.Mc.C20_double_counting_fails"
   ],
   "note": "the collection loop conserves samples; the final fetch can lose or double count samples (proved)"
  },
  {
   "property": "C21",
   "status": "partial",
   "theorems": [
    "Verif.Signal.C21_blocks",
    "Verif.Signal.C21_round_trip_partial",
    "Verif.Signal.C21_single_stream",
    "Verif.Signal.C21_cancelling_columns_fails"
   ],
   "note": "Proved for all single-stream matrices and all matrices without cancelling columns; proved false for columns whose entries sum to zero (the code tests the sum over streams)."
  },
  {
   "property": "C22",
   "status": "partial",
   "theorems": [
    "Verif.Signal.C22_superimpose_partial",
    "Verif.Signal.C22_argument_partial",
    "Verif.Signal.C22_argument_changed_fails",
    "Verif.Signal.C22_empty_signal_fails"
   ],
   "note": "Pointwise addition with delays and structural invariant proved for all signals with at least one block; proved false: the argument is modified when sparse and delayed, and superposition onto a signal without blocks is refused."
  },
  {
   "property": "C23",
   "status": "partial",
   "theorems": [
    "Verif.Signal.C23_slice_partial",
    "Verif.Signal.C23_step_three_fails",
    "Verif.Signal.C23_negative_bounds_fails"
   ],
   "note": "Proved for non-negative bounds and steps one and two; proved false for step three and for negative bounds."
  },
  {
   "property": "C24",
   "status": "partial",
   "theorems": [
    "Verif.Signal.C24_assign_partial",
    "Verif.Signal.C24_scalar_in_front",
    "Verif.Signal.C24_inner_range_fails",
    "Verif.Signal.C24_range_ending_in_gap_fails",
    "Verif.Signal.C24_front_fails",
    "Verif.Signal.C24_zero_scalar_fails",
    "Verif.Signal.C24_zero_matrix_fails"
   ],
   "note": "Proved for ranges that end in a later block than they start in or exactly at the end of a block (all streams selected), values not zero throughout; proved false for ranges inside a block, ranges ending in a gap, matrices in front of the first block and zero values. Assignment to some of the streams is not modelled."
  },
  {
   "property": "C25",
   "status": "partial",
   "theorems": [
    "Verif.Signal.C25_superimpose_partial",
    "Verif.Signal.C25_later_signal_fails",
    "Verif.Signal.C25_fewer_streams_fails",
    "Verif.Signal.C25_single_stream_fails"
   ],
   "note": "Proved for added signals that start no later and have equal stream count; proved false for later signals and for fewer streams. Resampling and frequency mixing are outside the model."
  },
  {
   "property": "C26",
   "status": "partial",
   "theorems": [
    "Verif.Signal.C26_append_samples",
    "Verif.Signal.C26_append_history",
    "Verif.Signal.C26_append_associative",
    "Verif.Signal.C26_append_streams_partial",
    "Verif.Signal.C26_longer_streams_fails",
    "Verif.Signal.C26_sparse_append",
    "Verif.Signal.C26_sparse_trailing_zeros_fails",
    "Verif.Signal.C26_interleaved_integers",
    "Verif.Signal.C26_interleaved_signal_partial",
    "Verif.Signal.C26_scaled_partial",
    "Verif.Signal.C26_scaled_ones_fails"
   ],
   "note": "Dense sample appends in full (histories, associativity); streams for signals no longer than the first; sparse appends for signals with blocks; interleaving exact without scaling on integer samples and within one quantisation step with scaling. Appending to sparse signals is C140."
  },
  {
   "property": "C27",
   "status": "partial",
   "theorems": [
    "Verif.Core.C27_db_roundtrip",
    "Verif.Core.C27_lin_roundtrip",
    "Verif.Core.C27_from_db",
    "Verif.Core.C27_from_lin",
    "Verif.Core.C27_arithmetic",
    "Verif.Core.C27_product_adds_decibels",
    "Verif.Core.C27_pickle",
    "Verif.Core.C27_sequence_partial",
    "Verif.Core.C27_amplitude_sequence_fails",
    "Verif.Core.C27_mixed_item_fails"
   ],
   "note": "Scalars hold in full. False for sequences: amplitude sequences store power decibels, items of another conversion are stored with foreign decibels."
  },
  {
   "property": "C28",
   "status": "partial",
   "theorems": [
    "Verif.Core.C28_rpy_rigid",
    "Verif.Core.C28_quaternion_rigid",
    "Verif.Core.C28_quaternion_scale",
    "Verif.Core.C28_invert",
    "Verif.Core.C28_rotation_keeps_length",
    "Verif.Core.C28_rpy_roundtrip_partial",
    "Verif.Core.C28_planar_direction_fails",
    "Verif.Core.C28_gimbal_lock_fails",
    "Verif.Core.C28_quaternion_roundtrip_fails"
   ],
   "note": "Rigidity, inverse and length preservation hold for all arguments; angles read back describe the same rotation except at pitch -pi/2, where the code reports +pi/2. Quaternion extraction is wrong; two-dimensional directions lose length."
  },
  {
   "property": "C29",
   "status": "proved",
   "theorems": [
    "Verif.Core.C29_unit",
    "Verif.Core.C29_cartesian_roundtrip",
    "Verif.Core.C29_spherical_roundtrip",
    "Verif.Core.C29_poles",
    "Verif.Core.C29_any_angles",
    "Verif.Core.C29_from_cartesian"
   ],
   "note": "Over the reals; arctan2 is the complex argument."
  },
  {
   "property": "C30",
   "status": "partial",
   "theorems": [
    "Verif.Core.Kin.C30_reads_current_partial",
    "Verif.Core.Kin.C30_links",
    "Verif.Core.Kin.C30_reads_succeed",
    "Verif.Core.Kin.C30_updates_succeed",
    "Verif.Core.Kin.C30_lookat_fails"
   ],
   "note": "All histories of pose and base changes and reads over an arbitrary group of transformations; false after lookat, which does not notify."
  },
  {
   "property": "C31",
   "status": "partial",
   "theorems": [
    "Verif.Rf.C31_invalid_connection",
    "Verif.Rf.C31_connections_kept_partial",
    "Verif.Rf.C31_evaluation_partial",
    "Verif.Rf.C31_evaluation_succeeds",
    "Verif.Rf.C31_memory_partial",
    "Verif.Rf.C31_second_connection_fails",
    "Verif.Rf.C31_double_drive_fails",
    "Verif.Rf.C31_open_input_fails",
    "Verif.Rf.C31_wired_outputs_leak",
    "Verif.Rf.C31_transmit_streams",
    "Verif.Rf.C31_receive_streams"
   ],
   "note": "Proved for all acyclic wirings without repeated connections between two blocks, doubly driven input ports, or input ports left open. The first two are accepted silently by the code and discard a connection; the inputs of blocks are allocated without initialisation, so that an input port left open carries arbitrary memory contents."
  },
  {
   "property": "C32",
   "status": "partial",
   "theorems": [
    "Verif.Io.C32_round_trip_partial",
    "Verif.Io.C32_any_order_partial",
    "Verif.Io.C32_write_succeeds",
    "Verif.Io.C32_unregistered",
    "Verif.Io.C32_order_identity_fails",
    "Verif.Io.C32_cycle_fails",
    "Verif.Io.C32_temporary_arrays_fails",
    "Verif.Io.C32_arrays_field_fails",
    "Verif.Io.C32_rewritten_sequence_fails",
    "Verif.Io.C32_psk_qam_iff",
    "Verif.Io.C32_psk_qam_fails",
    "Verif.Io.C32_manager_iff",
    "Verif.Io.C32_manager_fails",
    "Verif.Io.C32_range"
   ],
   "note": "For every heap without reference cycles: writing succeeds; values survive every reading order; with the writing order sharing survives as well (injective renaming). The full claim is false: other reading orders duplicate shared objects, cycles never end, temporary arrays at a re-used address are swapped, a root array named 'arrays' is lost, re-written sequences keep the old objects, and classes such as PskQamMapping and EncoderManager do not write all of their state. Not modelled: dtype conversion, type checks on reading, the campaign/append/root options, the remaining classes' serialize methods."
  },
  {
   "property": "C33",
   "status": "proved",
   "theorems": [
    "Verif.Core.C33_slot_history",
    "Verif.Core.C33_slot_calls",
    "Verif.Core.C33_device_history",
    "Verif.Core.C33_min_samples"
   ],
   "note": "Arbitrary histories of add/remove calls and of device-level add_dsp; operators compared by identity."
  },
  {
   "property": "C34",
   "status": "partial",
   "theorems": [
    "Verif.Core.C34_process_input_partial",
    "Verif.Core.C34_wrong_streams",
    "Verif.Core.C34_wrong_port",
    "Verif.Core.C34_input_count",
    "Verif.Core.C34_superposition_fails"
   ],
   "note": "Proved for one impinging signal, any receive coding and any receivers. False for every other number of impinging signals: the result of superimpose is dropped (core/device.py 1522), so receivers get an empty signal."
  },
  {
   "property": "C35",
   "status": "partial",
   "theorems": [
    "Verif.Recording.C35_round_trip",
    "Verif.Recording.C35_append",
    "Verif.Recording.C35_offset_refused",
    "Verif.Recording.C35_stop",
    "Verif.Recording.C35_frozen",
    "Verif.Recording.C35_modes",
    "Verif.Sim.C35_file_round_trip",
    "Verif.Recording.C35_links_fails",
    "Verif.Recording.C35_campaign_replay_fails",
    "Verif.Recording.C35_campaign_record_fails",
    "Verif.Recording.C35_reserved_fails",
    "Verif.Recording.C35_timestamp_fails",
    "Verif.Recording.C35_negative_offset_fails",
    "Verif.Recording.C35_interrupted_fails",
    "Verif.Recording.C35_num_drops_record",
    "Verif.Recording.C35_num_drops_replay_fails"
   ],
   "note": "Round trip, appending, offsets, stopping and refused modifications are proved for arbitrary histories, and the contents of recorded drops on the HDF model. The claim is false of the code where stated by the _fails theorems: links stay modifiable, the campaign setter rewinds a replay although it raises and is ignored by a recording, record with the reserved campaign name raises but leaves the scenario recording, drops at a given time are not recorded, negative offsets are accepted, an interrupted drop blocks the replay. In replay mode num_drops is the number of the next drop, not the recorded number as documented."
  },
  {
   "property": "C36",
   "status": "partial",
   "theorems": [
    "Verif.Sim.C36_symmetric",
    "Verif.Sim.C36_latest",
    "Verif.Sim.C36_default",
    "Verif.Sim.C36_channels",
    "Verif.Sim.C36_in_use_partial",
    "Verif.Sim.C36_default_dropped_fails",
    "Verif.Sim.C36_inactive_default_fails"
   ],
   "note": "Links are symmetric, the latest assignment wins, unassigned pairs get the default. A replaced default channel vanishes from the list of channels although pairs still use it, and device_channels returns the inactive default; both are proved as _fails."
  },
  {
   "property": "C37",
   "status": "partial",
   "theorems": [
    "Verif.Sim.C37_wrong_count",
    "Verif.Sim.C37_matrix",
    "Verif.Sim.C37_default_dropped_fails",
    "Verif.Sim.C37_short_states_fails"
   ],
   "note": "The propagation matrix is proved complete if every channel in use is listed and there is a state per device. Proved _fails: after replacing a default channel in use propagate raises, and a short state list leaves entries unset."
  },
  {
   "property": "C38",
   "status": "proved",
   "theorems": [
    "Verif.Sim.C38_one_per_device",
    "Verif.Sim.C38_shared_iff"
   ],
   "note": ""
  },
  {
   "property": "C39",
   "status": "partial",
   "theorems": [
    "Verif.Core.C39_seed_determines",
    "Verif.Core.C39_reproducible",
    "Verif.Core.C39_mother",
    "Verif.Core.C39_child",
    "Verif.Core.C39_constructor_mother_fails",
    "Verif.Core.C39_reseeded_child_fails",
    "Verif.Core.C39_constructor_seed",
    "Verif.Core.C39_unseeded"
   ],
   "note": "Seeding determines all later draws for every history; nodes attached by the random_mother setter draw from the mother's generator. The claim fails for mothers given to the constructor and for children seeded after attachment: both have a mother but draw from their own generator."
  },
  {
   "property": "C40",
   "status": "partial",
   "theorems": [
    "Verif.Core.C40_notify_partial",
    "Verif.Core.C40_removed",
    "Verif.Core.C40_order_fails",
    "Verif.Core.C40_self_removal_fails"
   ],
   "note": "Exactly the registered hooks are called, each once, and removed hooks never. Hooks are kept in a set, so the order of registration is not kept, and a callback removing itself makes notify raise and skip the remaining hooks; both proved as _fails."
  },
  {
   "property": "C41",
   "status": "partial",
   "theorems": [
    "Verif.Radar.C41_threshold",
    "Verif.Radar.C41_max_partial",
    "Verif.Radar.C41_max_direction_fails",
    "Verif.Radar.C41_relative_fails",
    "Verif.Radar.C41_carrier_fails"
   ],
   "note": "The threshold detector reports exactly the bins at or above the threshold, and local maxima with peak detection, each in its place. The maximum detector reports a largest bin with its range and velocity but exchanges azimuth and zenith, so its position is wrong unless both are equal (proved _fails). Also proved: the normalisation is not relative to the largest power, and cubes without carrier frequency cannot be processed."
  },
  {
   "property": "C42",
   "status": "partial",
   "theorems": [
    "Verif.Radar.C42_construction_iff",
    "Verif.Radar.C42_construction_content",
    "Verif.Radar.C42_normalize",
    "Verif.Radar.C42_serialization",
    "Verif.Radar.C42_reconstruct",
    "Verif.Radar.C42_negative_fails",
    "Verif.Radar.C42_columns_fails"
   ],
   "note": "Construction, normalisation of cubes with a positive power and serialization are proved. The number of columns of the angle bins is not checked, and cubes of negative powers are not normalised to one (proved _fails)."
  },
  {
   "property": "C43",
   "status": "proved",
   "theorems": [
    "Verif.Fec.C43_required_bits_always_fit"
   ],
   "note": ""
  },
  {
   "property": "C44",
   "status": "partial",
   "theorems": [
    "Verif.Mc.C44_single_drop_per_sample_fails",
    "Verif.Mc.C44_announced_drops_fails",
    "Verif.Mc.C44_timestamps",
    "Verif.Mc.C44_static"
   ],
   "note": "the property is false of the code: computed stage arguments are never passed on; proved negation"
  },
  {
   "property": "C45",
   "status": "partial",
   "theorems": [
    "Verif.Mc.C45_full_run_covers_all_arguments",
    "Verif.Mc.C45_reuse_drops_arguments_fails"
   ],
   "note": "holds for samples that run all stages; false for samples re-using a stage with several argument tuples"
  },
  {
   "property": "C46",
   "status": "partial",
   "theorems": [
    "Verif.Precoding.C46_existing_coding_diverges_fails",
    "Verif.Precoding.C46_empty_coding_partial"
   ],
   "note": "False of the code: the constructor iterates over the object it inserts into and never terminates."
  },
  {
   "property": "C47",
   "status": "partial",
   "theorems": [
    "Verif.Precoding.C47_alamouti_zero_forcing",
    "Verif.Precoding.C47_mrc_symbols",
    "Verif.Precoding.C47_mrc_zero_forcing_partial",
    "Verif.Precoding.C47_mrc_zero_forcing_fails",
    "Verif.Precoding.C47_selection_zero_forcing_fails",
    "Verif.Precoding.C47_selection_many_streams_fails",
    "Verif.Precoding.C47_plain_zero_forcing",
    "Verif.Precoding.C47_mrc_accepts_iff"
   ],
   "note": "Holds for Alamouti and without decoder; false for MaximumRatioCombining (symbols divided by the total gain a second time) and SingleCarrier (state duplicated: half the symbol)."
  },
  {
   "property": "C48",
   "status": "proved",
   "theorems": [
    "Verif.Precoding.C48_round_trip",
    "Verif.Precoding.C48_static_channel",
    "Verif.Precoding.C48_varying_channel_fails"
   ],
   "note": "FFT taken as its documented definition over complex numbers. C48_varying_channel_fails shows that the static-channel hypothesis is needed."
  },
  {
   "property": "C49",
   "status": "partial",
   "theorems": [
    "Verif.Core.C49_lookat_partial",
    "Verif.Core.C49_vertical_fails",
    "Verif.Core.C49_own_position_fails",
    "Verif.Core.C49_argument_modified_fails"
   ],
   "note": "Holds whenever up and viewing direction are not parallel; otherwise the pose is singular. The caller's up vector (including the default argument) is normalised in place."
  },
  {
   "property": "C50",
   "status": "partial",
   "theorems": [
    "Verif.Core.C50_output_partial",
    "Verif.Core.C50_wrong_ports",
    "Verif.Core.C50_selected_ports_fails",
    "Verif.Core.C50_second_selection_fails",
    "Verif.Core.C50_first_transmission_fails"
   ],
   "note": "Proved without port selections, for transmissions of equal delay and full stream count. False otherwise: the first transmitter's ports are ignored, later selections raise IndexError or misplace streams, and the first transmission's signal is overwritten by the sum."
  },
  {
   "property": "C51",
   "status": "proved",
   "theorems": [
    "Verif.Radar.C51_decision",
    "Verif.Radar.C51_scale_invariant",
    "Verif.Radar.C51_small",
    "Verif.Radar.C51_settings"
   ],
   "note": "pfa = 0 is excluded from the decision theorem (numpy yields infinity)."
  },
  {
   "property": "C52",
   "status": "partial",
   "theorems": [
    "Verif.Modem.C52_bits_partial",
    "Verif.Modem.C52_bit_error_rate",
    "Verif.Modem.C52_lost_bits_fails",
    "Verif.Modem.C52_blocks_partial",
    "Verif.Modem.C52_block_count_fails",
    "Verif.Modem.C52_single_block_fails",
    "Verif.Modem.C52_frames_partial",
    "Verif.Modem.C52_single_bit_fails",
    "Verif.Modem.C52_latest"
   ],
   "note": "Proved for aligned sides. False otherwise: missing bits count as zeros, a lone received block or bit is broadcast against all transmitted ones, other block count mismatches raise."
  },
  {
   "property": "C53",
   "status": "proved",
   "theorems": [
    "Verif.Modem.C53_throughput",
    "Verif.Modem.C53_bounds"
   ],
   "note": "Frame durations are rationals; a frame counts as correct as the frame error evaluator decides (C52)."
  },
  {
   "property": "C54",
   "status": "partial",
   "theorems": [
    "Verif.Modem.C54_sequence_partial",
    "Verif.Modem.C54_empty_manager_partial",
    "Verif.Modem.C54_manager_fails",
    "Verif.Modem.C54_duplex_fails",
    "Verif.Modem.C54_rate_fails"
   ],
   "note": "Holds for sequences. False for managers: n encoders become 2n+1 in a modem and 4n+3 in a link; a rate 1/3 code becomes rate 1/27."
  },
  {
   "property": "C55",
   "status": "proved",
   "theorems": [
    "Verif.Modem.C55_place",
    "Verif.Modem.C55_pick",
    "Verif.Modem.C55_roundtrip",
    "Verif.Modem.C55_stated",
    "Verif.Modem.C55_refuses"
   ],
   "note": "Symbols are elements of an arbitrary type with zero."
  },
  {
   "property": "C56",
   "status": "partial",
   "theorems": [
    "Verif.Modem.C56_roundtrip",
    "Verif.Modem.C56_chain",
    "Verif.Modem.C56_ofdm",
    "Verif.Modem.C56_otfs",
    "Verif.Modem.C56_ocdm",
    "Verif.Modem.C56_dc",
    "Verif.Modem.C56_initialised",
    "Verif.Modem.C56_uninitialised_fails"
   ],
   "note": "Exact arithmetic over the complex numbers. Recovery holds for sections without sample offset and cyclic prefixes no longer than a word. False part: a resource with a prefix ratio but prefix type NONE leaves samples of the frame uninitialised (np.empty); if no resource is configured so, every sample is written."
  },
  {
   "property": "C57",
   "status": "partial",
   "theorems": [
    "Verif.Modem.C57_ofdm_partial",
    "Verif.Modem.C57_dc_suppression_fails",
    "Verif.Modem.C57_ocdm_fails",
    "Verif.Modem.C57_otfs_fails",
    "Verif.Modem.C57_second_section_fails"
   ],
   "note": "Holds for OFDM if the offset section is the first one carrying words and the direct current is not suppressed or the signal not oversampled. False otherwise: the correction is always applied to the first words of the frame, the last subcarrier is rotated wrongly under suppression, OCDM does not correct at all, OTFS corrects in the wrong domain."
  },
  {
   "property": "C58",
   "status": "partial",
   "theorems": [
    "Verif.Modem.C58_duration_partial",
    "Verif.Modem.C58_duration_fails"
   ],
   "note": "False in general: rounding of prefixes depends on the oversampling factor. Proved: the true duration is never shorter, and longer by at most one sample period of the bandwidth per prefix and guard interval."
  },
  {
   "property": "C59",
   "status": "partial",
   "theorems": [
    "Verif.Modem.C59_pilot_partial",
    "Verif.Modem.C59_configuration",
    "Verif.Modem.C59_stale_fails",
    "Verif.Modem.C59_pilot_symbols"
   ],
   "note": "Holds for histories in which the elements are never reset to None and the modulation order (and other settings of the transformation) is not changed. False otherwise: both changes leave the cached pilot in place."
  },
  {
   "property": "C60",
   "status": "partial",
   "theorems": [
    "Verif.Modem.C60_transmission",
    "Verif.Modem.C60_link",
    "Verif.Modem.C60_orthogonal",
    "Verif.Modem.C60_timestamp_fails"
   ],
   "note": "Proved without precoding, with the default synchronisation (frames aligned to the signal) and without channel equalisation; instantiated for OFDM, OTFS and OCDM with BPSK, QPSK, 16-, 64- and 256-QAM. False part: the timestamp of a received frame is the sample index multiplied by the sampling rate instead of divided."
  },
  {
   "property": "C61",
   "status": "partial",
   "theorems": [
    "Verif.Modem.EvalState.C61_settings",
    "Verif.Modem.EvalState.C61_construct",
    "Verif.Modem.EvalState.C61_refused",
    "Verif.Modem.EvalState.C61_newest",
    "Verif.Modem.EvalState.C61_newest_fails",
    "Verif.Modem.EvalState.C61_serialize_fails",
    "Verif.Modem.EvalState.C61_restore_fails",
    "Verif.Modem.EvalState.C61_restore_partial"
   ],
   "note": "Settings are proved over all histories. False parts: after a transmission without reception the newest transmission is compared with the reception of an earlier drop; no evaluator can be serialised (the attribute read by serialize is never assigned under its mangled name); restoring passes the surface flag as confidence level and loses all stopping parameters."
  },
  {
   "property": "C62",
   "status": "partial",
   "theorems": [
    "Verif.Modem.C62_append_streams",
    "Verif.Modem.C62_append_accepts",
    "Verif.Modem.C62_given",
    "Verif.Modem.C62_alias_fails",
    "Verif.Modem.C62_states",
    "Verif.Modem.C62_stated_append_fails"
   ],
   "note": "False parts: the first object appended to an empty series is taken over without copying, so writing to the series changes it; appending to stated symbols does not extend the states, so that the object cannot be copied afterwards."
  },
  {
   "property": "C63",
   "status": "partial",
   "theorems": [
    "Verif.Rf.Ad.C63_riser_levels",
    "Verif.Rf.Ad.C63_tread_levels_fails",
    "Verif.Rf.Ad.C63_quantizer",
    "Verif.Rf.Ad.C63_agc",
    "Verif.Rf.Ad.C63_rms_partial",
    "Verif.Rf.Ad.C63_rms_fails",
    "Verif.Rf.Ad.C63_frames",
    "Verif.Rf.Ad.C63_single_frame",
    "Verif.Rf.Ad.C63_converter",
    "Verif.Rf.Ad.C63_frames_fails",
    "Verif.Rf.Ad.C63_dac_fails",
    "Verif.Rf.Ad.C63_bits"
   ],
   "note": "Proved for mid-riser quantisers, peak gain control, and signals filling a whole number of frames. False parts: the mid-tread quantiser has 2^b+1 levels; the root mean square of several streams is taken from the spectral norm and thus too small; an incomplete last frame raises ValueError, or is stretched over a whole frame if it has one sample; frames shorter than half a sample delete the signal; digital-to-analog conversion never quantises."
  },
  {
   "property": "C64",
   "status": "partial",
   "theorems": [
    "Verif.Rf.Amps.C64_clipping",
    "Verif.Rf.Amps.C64_rapp",
    "Verif.Rf.Amps.C64_saleh",
    "Verif.Rf.Amps.C64_custom_partial",
    "Verif.Rf.Amps.C64_custom_fails",
    "Verif.Rf.Amps.C64_memory_fails",
    "Verif.Rf.Amps.C64_setters"
   ],
   "note": "Proved over exact complex numbers for the memoryless models. False parts: the length check of customised amplifiers is a chained comparison, so that vectors of different lengths are accepted and every propagation raises; memory polynomial amplifiers raise ValueError for every signal. MemoryCTPolynomialPowerAmplifier is C135."
  },
  {
   "property": "C65",
   "status": "partial",
   "theorems": [
    "Verif.Modem.C65_estimate_partial",
    "Verif.Modem.C65_affine_partial",
    "Verif.Modem.C65_flat_partial",
    "Verif.Modem.C65_streams",
    "Verif.Modem.C65_pilot_fails",
    "Verif.Modem.C65_collinear_fails"
   ],
   "note": "Proved for all frames without pilot sections in the grid whose references do not all lie on one line (or cover the frame); scipy's griddata enters through its documented contract, for which an instance is exhibited. False parts: references of pilot sections in the grid are compared with the wrong symbols, shifting all later ones, so an unchanged frame is estimated as a distorted one; a frame whose references lie on one word or one subcarrier raises for every reception."
  },
  {
   "property": "C66",
   "status": "partial",
   "theorems": [
    "Verif.Rf.Sig.C66_select",
    "Verif.Rf.Sig.C66_select_fails",
    "Verif.Rf.Sig.C66_assign",
    "Verif.Rf.Sig.C66_copy_partial",
    "Verif.Rf.Sig.C66_aligned",
    "Verif.Rf.Sig.C66_propagate",
    "Verif.Rf.Sig.C66_noise_fails",
    "Verif.Rf.Sig.C66_mixer_partial",
    "Verif.Rf.Sig.C66_mixer_fails",
    "Verif.Rf.Sig.C66_mixer_roundtrip",
    "Verif.Rf.Sig.C66_ideal_mixer_partial",
    "Verif.Rf.Sig.C66_ideal_mixer_fails",
    "Verif.Rf.Sig.C66_x4_partial",
    "Verif.Rf.Sig.C66_x4_fails",
    "Verif.Rf.Sig.C66_from_array_fails",
    "Verif.Rf.Sig.C66_split_partial",
    "Verif.Rf.Sig.C66_split_fails",
    "Verif.Rf.Sig.C66_sum_partial",
    "Verif.Rf.Sig.C66_shift",
    "Verif.Rf.Sig.C66_shift_fails"
   ],
   "note": "Alignment holds for all programs; selection, assignment, copying and propagation are proved in general. False parts: selections longer than the signal raise ValueError, and hence every splitter with several outputs does; noise powers are overwritten instead of added, never recorded per stream, and lost by copying and filtering; down-conversion below zero raises (Mixer) or mirrors the frequency without conjugating the samples (IdealMixer); the common carrier frequency is not updated by multipliers and not set by FromNDArray, which also ignores arrays of the wrong size; the quantisation of phase shifters is not implemented."
  },
  {
   "property": "C67",
   "status": "partial",
   "theorems": [
    "Verif.Modem.Sources.C67_stub",
    "Verif.Modem.Sources.C67_short",
    "Verif.Modem.Sources.C67_scapy_partial",
    "Verif.Modem.Sources.C67_fields_fails",
    "Verif.Modem.Sources.C67_bytes_fails",
    "Verif.Modem.Sources.C67_layers_fails"
   ],
   "note": "Proved for the placeholder generator and for single-layer packets with default fields and payloads of whole bytes. False otherwise: assigned fields are replaced by the defaults, further layers are dropped while their length is still cut from received frames, and payloads are zero-padded to whole bytes so that frames exceed the requested size. Scapy's own header construction is abstracted to a function of the payload."
  },
  {
   "property": "C68",
   "status": "partial",
   "theorems": [
    "Verif.Modem.Sources.C68_stream",
    "Verif.Modem.Sources.C68_exact_partial",
    "Verif.Modem.Sources.C68_end_fails",
    "Verif.Modem.Sources.C68_bits_fails",
    "Verif.Modem.Sources.C68_restore_fails"
   ],
   "note": "Order and completeness are proved over all histories. False parts: at the end of the file fewer bits than requested are returned silently, numbers of bits which are not multiples of eight always raise, and restored sources start again at the beginning of the file."
  },
  {
   "property": "C69",
   "status": "partial",
   "theorems": [
    "Verif.Channel.State.C69_propagate",
    "Verif.Channel.State.C69_refused",
    "Verif.Channel.State.C69_linear_partial",
    "Verif.Channel.State.C69_linear_fails",
    "Verif.Channel.State.C69_frequency",
    "Verif.Channel.State.C69_convert_partial",
    "Verif.Channel.State.C69_samples_fails",
    "Verif.Channel.State.C69_padded_fails",
    "Verif.Channel.State.C69_reciprocal_partial",
    "Verif.Channel.State.C69_restore_fails",
    "Verif.Channel.State.C69_restore_partial",
    "Verif.Channel.State.C69_sample_partial"
   ],
   "note": "Propagation, the frequency tensor and (for equal stream counts or a single transmit stream) the impulse response tensor are proved. False parts: with one receive and several transmit streams `linear` assigns coefficients to wrong transmit streams; converting to the frequency domain cuts the time axis to the number of bins, so e.g. every ideal state keeps a single sample; after a conversion to another number of bins and back, reciprocal and samples raise; restored states forget the number of bins."
  },
  {
   "property": "C70",
   "status": "partial",
   "theorems": [
    "Verif.Channel.Link.C70_positional",
    "Verif.Channel.Link.C70_reciprocal",
    "Verif.Channel.Link.C70_mixed",
    "Verif.Channel.Link.C70_keyword_fails",
    "Verif.Channel.Link.C70_scenario",
    "Verif.Channel.Link.C70_hooks",
    "Verif.Channel.Link.C70_called",
    "Verif.Channel.Link.C70_realization",
    "Verif.Channel.Link.C70_realization_fails"
   ],
   "note": "Hook bookkeeping and the realization cache are proved over all histories, positional arguments and reciprocity for all devices. False parts: carrier_frequency, bandwidth and (reciprocal) timestamp passed by keyword are ignored; before the first cached realization the property raises AttributeError instead of returning None."
  },
  {
   "property": "C71",
   "status": "partial",
   "theorems": [
    "Verif.Channel.Ideal.C71_state_partial",
    "Verif.Channel.Ideal.C71_energy",
    "Verif.Channel.Ideal.C71_transmitted_partial",
    "Verif.Channel.Ideal.C71_transmitted_fails",
    "Verif.Channel.Ideal.C71_readonly_fails"
   ],
   "note": "Agreement of state and propagation is proved for writable signals of every shape. False parts: with at least two receive and at least as many transmit antennas the gain is applied in place to the transmitted signal, so a second receiver sees it twice, and read-only blocks (sparse signals that already passed a channel) raise ValueError."
  },
  {
   "property": "C72",
   "status": "partial",
   "theorems": [
    "Verif.Channel.Delay.C72_state",
    "Verif.Channel.Delay.C72_taps",
    "Verif.Channel.Delay.C72_energy_fails",
    "Verif.Channel.Delay.C72_loss",
    "Verif.Channel.Delay.C72_baseband",
    "Verif.Channel.Delay.C72_blocks_partial",
    "Verif.Channel.Delay.C72_blocks_fails",
    "Verif.Channel.Delay.C72_range",
    "Verif.Channel.Delay.C72_setter"
   ],
   "note": "State and propagation agree for all sizes; delays of random channels stay in range over all histories. False parts: the gain, documented as a power factor, scales the amplitude, so energy scales with its square; blocks of a sparse signal closer than the delay erase each other. Array responses are arbitrary matrices."
  },
  {
   "property": "C73",
   "status": "partial",
   "theorems": [
    "Verif.Modem.C73_prefix",
    "Verif.Modem.C73_average",
    "Verif.Modem.C73_ideal",
    "Verif.Modem.C73_link",
    "Verif.Modem.C73_channel",
    "Verif.Modem.C73_unsampled",
    "Verif.Modem.C73_delay_fails",
    "Verif.Modem.C73_short_fails",
    "Verif.Modem.C73_pilot_fails"
   ],
   "note": "Demodulation, estimation and recovery are proved for all frames whose symbol sections have cyclic prefixes and no sample offset; C73_channel connects the hypothesis to propagation over channel states. False parts: the estimate of every frame is taken at the start of the drop (the delay of the frame and the reference position are ignored), so later frames are equalised with outdated states when the channel changes; with a pilot section inside the grid ideal estimation raises ValueError for every channel. C73_short_fails shows that the bound on the delays is needed."
  },
  {
   "property": "C74",
   "status": "partial",
   "theorems": [
    "Verif.Consistent.C74_layout",
    "Verif.Consistent.C74_shared_fails",
    "Verif.Consistent.C74_sample",
    "Verif.Consistent.C74_shape",
    "Verif.Consistent.C74_stored",
    "Verif.Consistent.C74_velocity",
    "Verif.Consistent.C74_velocity_law",
    "Verif.Consistent.C74_distance_fails",
    "Verif.Consistent.C74_cache",
    "Verif.Consistent.C74_consistent",
    "Verif.Consistent.C74_static",
    "Verif.Consistent.C74_exchange_fails",
    "Verif.Consistent.C74_moments",
    "Verif.Consistent.C74_distributions",
    "Verif.Consistent.C74_uniform_fails",
    "Verif.Consistent.C74_transform"
   ],
   "note": "Proved over exact reals, with an exact root finder. False parts: a variable added to a second generator loses its place in the first one; a decorrelation distance of zero, which channels accept, is a division by zero when the channel is realized; exchanging both ends changes the samples; at finite decorrelation distances uniform variables never enter a margin of the unit interval, as the sum of sinusoids is bounded."
  },
  {
   "property": "C75",
   "status": "partial",
   "theorems": [
    "Verif.Fading.C75_propagate",
    "Verif.Fading.C75_state_partial",
    "Verif.Fading.C75_taps_partial",
    "Verif.Fading.C75_taps_fails",
    "Verif.Fading.C75_reciprocal",
    "Verif.Fading.C75_antennas_fails",
    "Verif.Fading.C75_duplex_fails",
    "Verif.Fading.C75_doppler_fails",
    "Verif.Fading.C75_evolution_fails",
    "Verif.Fading.C75_blocks_fails",
    "Verif.Fading.C75_wssus",
    "Verif.Fading.C75_energy",
    "Verif.Fading.C75_energy_siso",
    "Verif.Fading.C75_clarke",
    "Verif.Fading.C75_covariance_partial",
    "Verif.Fading.C75_covariance_fails",
    "Verif.Fading.C75_energy_mimo"
   ],
   "note": "Proved over exact reals and complex numbers. False parts: a path delayed by exactly the requested number of taps raises an index error in the state; arrays of more than ten antennas; antennas that only transmit or only receive; the Doppler frequency in Hz is used as an angular frequency; later samples and later blocks restart the evolution; antenna covariances are applied without square root, so that antennas do not have the configured covariance."
  },
  {
   "property": "C76",
   "status": "partial",
   "theorems": [
    "Verif.Fading.C76_construct",
    "Verif.Fading.C76_profile",
    "Verif.Fading.C76_gains",
    "Verif.Fading.C76_variables",
    "Verif.Fading.C76_sample",
    "Verif.Fading.C76_los_angle_fails",
    "Verif.Fading.C76_sinusoids_fails",
    "Verif.Fading.C76_restore_partial",
    "Verif.Fading.C76_restore_fails",
    "Verif.Fading.C76_realization_fails",
    "Verif.Fading.C76_tdl",
    "Verif.Fading.C76_tdl_restore_partial",
    "Verif.Fading.C76_tdl_restore_fails",
    "Verif.Fading.C76_rice_fails",
    "Verif.Fading.C76_sight_fails",
    "Verif.Fading.C76_rms_partial",
    "Verif.Fading.C76_rms_fails",
    "Verif.Fading.C76_cost",
    "Verif.Fading.C76_cost_fails",
    "Verif.Fading.C76_exponential",
    "Verif.Fading.C76_exponential_fails",
    "Verif.Fading.C76_exponential_rms_fails",
    "Verif.Fading.C76_standard_covariance",
    "Verif.Fading.C76_custom_covariance"
   ],
   "note": "Proved over exact numbers; np.argsort by its contract. False parts: a configured line of sight angle is ignored, also the one of the COST 259 hilly model; zero sinusoids are accepted and leave no numbers, assigning a number of sinusoids has no effect; a channel without line of sight Doppler frequency is restored with NaN; realizations cannot be restored, nor can tapped delay lines of types D and E; rice factors in decibels are used as linear factors and less than half of the power of types D and E arrives on the path with a line of sight; the delay spread of type B is more than one percent off, that of D and E more than two and a half times too large; exponential profiles are not normalised and lose short delay spreads."
  },
  {
   "property": "C77",
   "status": "partial",
   "theorems": [
    "Verif.RadarChannel.C77_propagate_partial",
    "Verif.RadarChannel.C77_state_partial",
    "Verif.RadarChannel.C77_agreement_partial",
    "Verif.RadarChannel.C77_length_fails",
    "Verif.RadarChannel.C77_interference_fails",
    "Verif.RadarChannel.C77_radiating_fails",
    "Verif.RadarChannel.C77_doppler_partial",
    "Verif.RadarChannel.C77_doppler_fails",
    "Verif.RadarChannel.C77_equation",
    "Verif.RadarChannel.C77_transmission",
    "Verif.RadarChannel.C77_unattenuated",
    "Verif.RadarChannel.C77_reciprocal",
    "Verif.RadarChannel.C77_reciprocal_sample_partial",
    "Verif.RadarChannel.C77_null_partial",
    "Verif.RadarChannel.C77_null_fails",
    "Verif.RadarChannel.C77_energy_partial",
    "Verif.RadarChannel.C77_energy_fails"
   ],
   "note": "Proved over exact numbers; antenna responses are arbitrary. Propagation and states are proved for signals that fit the buffer and antennas of matching counts. False parts: echoes of targets are shifted in frequency in the wrong direction; the buffer shrinks with approaching paths, so every long enough signal is refused with a ValueError; the interference path queries all antennas instead of the transmitting and receiving ones, so it is refused or radiates from antennas that only receive; the null hypothesis forgets the time of the sample; the expected energy scale ignores the paths."
  },
  {
   "property": "C78",
   "status": "partial",
   "theorems": [
    "Verif.RadarChannel.C78_construct",
    "Verif.RadarChannel.C78_target_partial",
    "Verif.RadarChannel.C78_absent",
    "Verif.RadarChannel.C78_monostatic_partial",
    "Verif.RadarChannel.C78_range_fails",
    "Verif.RadarChannel.C78_restore_partial",
    "Verif.RadarChannel.C78_restore_fails",
    "Verif.RadarChannel.C78_realization_partial",
    "Verif.RadarChannel.C78_realization_fails",
    "Verif.RadarChannel.C78_members",
    "Verif.RadarChannel.C78_shared_fails",
    "Verif.RadarChannel.C78_paths_partial",
    "Verif.RadarChannel.C78_collision_fails",
    "Verif.RadarChannel.C78_direction_partial",
    "Verif.RadarChannel.C78_direction_fails"
   ],
   "note": "Proved over exact numbers. Storage of targets themselves is not modelled. False parts: the range of a single target is its distance from the origin, not from the sensor; integers and lists are accepted but cannot be stored or restored; realizations of absent targets cannot be restored, those of targets with a velocity vector are restored with another velocity; realizations share the targets of their channel, so targets added later appear in them; collisions and directions are computed from the inverted pose, so real collisions are not refused, devices at mirrored positions are, and cross section models are asked for wrong directions."
  },
  {
   "property": "C79",
   "status": "partial",
   "theorems": [
    "Verif.Core.Ant.C79_rotation",
    "Verif.Core.Ant.C79_unit_gain",
    "Verif.Core.Ant.C79_dipole",
    "Verif.Core.Ant.C79_dipole_pole_fails",
    "Verif.Core.Ant.C79_patch_partial",
    "Verif.Core.Ant.C79_plot_fails",
    "Verif.Core.Ant.C79_patch_fails",
    "Verif.Core.Ant.C79_linear"
   ],
   "note": "Proved over real numbers; the constant `pi` is a parameter, so that its rounding can be modelled. False parts: straight down, the gain of a dipole is at least a half instead of zero because the rounded angle escapes the comparison with zero; patch antennas and dipoles are drawn with elevation where the propagation passes zenith; the gain of a patch antenna is not symmetric around its axis and jumps to less than two tenths next to it."
  },
  {
   "property": "C80",
   "status": "partial",
   "theorems": [
    "Verif.Core.Ant.C80_topology",
    "Verif.Core.Ant.C80_phase",
    "Verif.Core.Ant.C80_phase_unit",
    "Verif.Core.Ant.C80_horizontal",
    "Verif.Core.Ant.C80_far_field",
    "Verif.Core.Ant.C80_sign_fails",
    "Verif.Core.Ant.C80_characteristics",
    "Verif.Core.Ant.C80_directions",
    "Verif.Core.Ant.C80_local_point_partial",
    "Verif.Core.Ant.C80_local_point_fails",
    "Verif.Core.Ant.C80_response"
   ],
   "note": "Proved over real and complex numbers. False parts: the phase of the cartesian response has the opposite sign of the documented one; points in the frame of a turned array are answered with the characteristics of another direction."
  },
  {
   "property": "C81",
   "status": "partial",
   "theorems": [
    "Verif.Core.Ant.C81_uniform",
    "Verif.Core.Ant.C81_spacing",
    "Verif.Core.Ant.C81_refused",
    "Verif.Core.Ant.C81_empty_dims_fails",
    "Verif.Core.Ant.C81_negative_fails",
    "Verif.Core.Ant.C81_restore_partial",
    "Verif.Core.Ant.C81_restore_fails",
    "Verif.Core.Ant.C81_transmit_partial",
    "Verif.Core.Ant.C81_dipole_fails",
    "Verif.Core.Ant.C81_state_partial",
    "Verif.Core.Ant.C81_state_fails",
    "Verif.Core.Ant.C81_subarrays",
    "Verif.Core.Ant.C81_selection",
    "Verif.Core.Ant.C81_shared_fails",
    "Verif.Core.Kin.C81_custom_fails",
    "Verif.Core.Ant.C81_modes"
   ],
   "note": "Blocks of sparse signals, slices with steps and `CustomAntennaArray.add_antenna` are not modelled. False parts: an empty sequence of dimensions raises but is kept, negative dimensions are accepted with wrong antenna counts; restored arrays count their antennas in floating point numbers, so their characteristics raise a TypeError, and weights of simulated antennas are lost; copies of simulated dipoles are no simulated antennas, so uniform arrays of them cannot transmit; states leave out the pose of the array on its device; subarrays share antennas, so moving one displaces those of the original; simulated custom arrays forget that antennas are linked to them, so antennas stay behind when the array moves."
  },
  {
   "property": "C82",
   "status": "partial",
   "theorems": [
    "Verif.Beam.C82_focus",
    "Verif.Beam.C82_point_fails",
    "Verif.Beam.C82_receive",
    "Verif.Beam.C82_gain",
    "Verif.Beam.C82_streams",
    "Verif.Beam.C82_local_partial",
    "Verif.Beam.C82_turned_fails",
    "Verif.Beam.C82_global_fails",
    "Verif.Beam.C82_transmit",
    "Verif.Beam.C82_counts",
    "Verif.Beam.C82_probe_fails",
    "Verif.Beam.C82_restore_fails"
   ],
   "note": "Proved over complex numbers, block by block. Whole signals and operators wrapping beamformers (`operators.py`) are C142. False parts: focus points in global coordinates ignore where the array is; the conventional beamformer takes angles in the array's frame for angles in space, so turned arrays may cancel the wave focused, also if focused in global coordinates; probes with two-dimensional arrays, as documented, raise an IndexError; focus points are not stored."
  },
  {
   "property": "C83",
   "status": "partial",
   "theorems": [
    "Verif.Beam.C83_capon",
    "Verif.Beam.C83_loading",
    "Verif.Beam.C83_singular_fails",
    "Verif.Beam.C83_nulls_partial",
    "Verif.Beam.C83_mirror_fails",
    "Verif.Beam.C83_focus_fails",
    "Verif.Beam.C83_default_fails",
    "Verif.Beam.C83_modes_fails"
   ],
   "note": "Proved over complex numbers; `pinvh` enters by the contract of a generalised inverse, `inv` raises on singular matrices. False parts: without loading, short signals and single waves without noise raise, contrary to the documented pseudo-inverse; the null steering beam points in the direction opposite to the focus, from which it may receive nothing; its default focus points make the weights of planar arrays not-a-number, as do nulls opposite to the focus; arrays with antennas of different modes are refused in reception and transmit over receiving antennas."
  },
  {
   "property": "C84",
   "status": "partial",
   "theorems": [
    "Verif.SimDev.C84_realization",
    "Verif.SimDev.C84_static",
    "Verif.SimDev.C84_samples",
    "Verif.SimDev.C84_time",
    "Verif.SimDev.C84_random",
    "Verif.SimDev.C84_random_rates",
    "Verif.SimDev.C84_normal_partial",
    "Verif.SimDev.C84_normal_fails",
    "Verif.SimDev.C84_order_fails",
    "Verif.SimDev.C84_offset_partial",
    "Verif.SimDev.C84_offset_rate",
    "Verif.SimDev.C84_offset_fails",
    "Verif.SimDev.C84_members_partial",
    "Verif.SimDev.C84_remove_fails"
   ],
   "note": "Times are real numbers, draws an oracle, the set of devices is listed in any order. False parts: realizations of normal triggers raise a ValueError whenever a time of minus a sample or less is drawn; with devices of different sampling rates, the delay of offset triggers depends on the order of a Python set; numbers of samples are rounded towards zero, not down as documented; devices removed from a trigger model still refer to it and cannot transmit any more."
  },
  {
   "property": "C85",
   "status": "partial",
   "theorems": [
    "Verif.SimDev.C85_specific_partial",
    "Verif.SimDev.C85_specific_power",
    "Verif.SimDev.C85_specific_history",
    "Verif.SimDev.C85_specific_unset_fails",
    "Verif.SimDev.C85_specific_offset_fails",
    "Verif.SimDev.C85_specific_errors",
    "Verif.SimDev.C85_specific_scalar",
    "Verif.SimDev.C85_perfect",
    "Verif.SimDev.C85_selective_partial",
    "Verif.SimDev.C85_selective_flat",
    "Verif.SimDev.C85_selective_empty_fails",
    "Verif.SimDev.C85_selective_shape_fails",
    "Verif.SimDev.C85_normal_fails"
   ],
   "note": "Proved over real and complex numbers. False parts: isolations set back to None keep leaking; single blocks with an offset are delayed twice; selective leakage raises for signals without samples, accepts responses of other dimensions than the antennas, and responses drawn by `Normal` are not attached to the device and have the square of the requested variance."
  },
  {
   "property": "C86",
   "status": "partial",
   "theorems": [
    "Verif.SimDev.C86_transmit_uncoupled_fails",
    "Verif.SimDev.C86_transmit_default_fails",
    "Verif.SimDev.C86_transmit_partial",
    "Verif.SimDev.C86_transmit_single",
    "Verif.SimDev.C86_transmit_root_fails",
    "Verif.SimDev.C86_receive_default",
    "Verif.SimDev.C86_receive_single",
    "Verif.SimDev.C86_receive_impedance_fails",
    "Verif.SimDev.C86_couple",
    "Verif.SimDev.C86_perfect",
    "Verif.SimDev.C86_storage_fails"
   ],
   "note": "Powers are taken over numbers with infinities and NaN, otherwise numbers are complex. False parts: powers of impedances are elementwise, so that transmissions of two or more antennas without mutual impedance, among them the default, are NaN, and the matrix is not the inverse root of the impedances; receive impedances of all antennas but the first have no effect; stored impedances lose their imaginary parts."
  },
  {
   "property": "C87",
   "status": "partial",
   "theorems": [
    "Verif.SimDev.C87_separated_partial",
    "Verif.SimDev.C87_superimposed_partial",
    "Verif.SimDev.C87_count",
    "Verif.SimDev.C87_invalid",
    "Verif.SimDev.C87_rebuilt_fails",
    "Verif.SimDev.C87_transmit_fails",
    "Verif.SimDev.C87_leakage_power_fails",
    "Verif.SimDev.C87_ports_fails",
    "Verif.SimDev.C87_missing_fails",
    "Verif.SimDev.C87_delay_fails"
   ],
   "note": "Dense signals of equal carrier frequency; the front-end (RF chain, isolation, coupling, antennas) is a function of the samples, the transmit coding any function. False parts: with separated operators the emerging signals are added to the first one in place each time an output is built, so that `transmit` emits all others with twice their amplitude and each restoration adds them once more; leaking signals are not scaled by the power; selected ports and transmit coding have no effect; missing transmissions raise an AttributeError; delays of transmissions are lost."
  },
  {
   "property": "C88",
   "status": "partial",
   "theorems": [
    "Verif.SimDev.C88_mixed",
    "Verif.SimDev.C88_reception_partial",
    "Verif.SimDev.C88_leakage_partial",
    "Verif.SimDev.C88_receivers",
    "Verif.SimDev.C88_ports",
    "Verif.SimDev.C88_output_partial",
    "Verif.SimDev.C88_again_partial",
    "Verif.SimDev.C88_contiguous",
    "Verif.SimDev.C88_gap_fails",
    "Verif.SimDev.C88_separation_fails",
    "Verif.SimDev.C88_leakage_fails",
    "Verif.SimDev.C88_late_fails",
    "Verif.SimDev.C88_early_fails",
    "Verif.SimDev.C88_again_fails",
    "Verif.SimDev.C88_trim_partial"
   ],
   "note": "Signals have the carrier frequency of the device and a stream for each receive antenna; front-end, RF chain, noise realization and receive coding are functions of the samples. False parts: signals with a gap between them raise a TypeError; devices with separated operators cannot receive anything; only the first of several leaking signals is received; outputs of devices which start a sample or more before the trigger raise a ValueError, those after it an UnboundLocalError; delayed sparse signals are displaced by the reception, so that receiving them again yields them at twice their delay."
  },
  {
   "property": "C89",
   "status": "partial",
   "theorems": [
    "Verif.ChirpFsk.C89_bits",
    "Verif.ChirpFsk.C89_incomplete",
    "Verif.ChirpFsk.C89_frame",
    "Verif.ChirpFsk.C89_energy",
    "Verif.ChirpFsk.C89_symbols_partial",
    "Verif.ChirpFsk.C89_derived_partial",
    "Verif.ChirpFsk.C89_range",
    "Verif.ChirpFsk.C89_duration_partial",
    "Verif.ChirpFsk.C89_duration_fails",
    "Verif.ChirpFsk.C89_short_fails",
    "Verif.ChirpFsk.C89_three_fails",
    "Verif.ChirpFsk.C89_alias_fails",
    "Verif.ChirpFsk.C89_guard_fails",
    "Verif.ChirpFsk.C89_zero_fails",
    "Verif.ChirpFsk.C89_order_one_fails",
    "Verif.ChirpFsk.C89_sync_fails"
   ],
   "note": "Parameters are rational, samples complex numbers; symbols natural numbers. Proved for at least four samples per chirp and frequency differences within the bandwidth, among them the derived one. False parts: chirps shorter than a sample, as the default ones at up to 100 MHz, decode to zeros; with two or three samples some symbols share a chirp; so they do for larger frequency differences, which are accepted; guard intervals are uninitialised memory; chirps without duration and an order of one are accepted but raise errors in use; frames last shorter than their samples unless chirps last whole samples; synchronization routines given to the constructor or restored are replaced."
  },
  {
   "property": "C90",
   "status": "partial",
   "theorems": [
    "Verif.CorrSync.C90_range",
    "Verif.CorrSync.C90_sorted",
    "Verif.CorrSync.C90_apart_partial",
    "Verif.CorrSync.C90_silence",
    "Verif.CorrSync.C90_exact_partial",
    "Verif.CorrSync.C90_parameters_fails",
    "Verif.CorrSync.C90_short_fails",
    "Verif.CorrSync.C90_duplicate_fails",
    "Verif.CorrSync.C90_configuration"
   ],
   "note": "Correlations are exact, scipy's peak search is modelled, equal peaks are ordered arbitrarily. The exact position is proved for frames of constant magnitude without noise which do not repeat their pilot section. False parts: threshold, guard ratio and peak prominence have no effect; in signals shorter than a frame all pilots are said to start at the number of missing samples; a pilot close to the end is reported at the place of another frame, so that one frame is found twice."
  },
  {
   "property": "C91",
   "status": "partial",
   "theorems": [
    "Verif.SingleCarrier.C91_layout",
    "Verif.SingleCarrier.C91_place",
    "Verif.SingleCarrier.C91_pick",
    "Verif.SingleCarrier.C91_roundtrip",
    "Verif.SingleCarrier.C91_refuses_partial",
    "Verif.SingleCarrier.C91_single_fails",
    "Verif.SingleCarrier.C91_insufficient",
    "Verif.SingleCarrier.C91_configuration",
    "Verif.SingleCarrier.C91_estimate",
    "Verif.SingleCarrier.C91_no_references",
    "Verif.SingleCarrier.C91_flat",
    "Verif.SingleCarrier.C91_drift",
    "Verif.SingleCarrier.C91_mmse",
    "Verif.SingleCarrier.C91_store_partial",
    "Verif.SingleCarrier.C91_store_fails",
    "Verif.SingleCarrier.C91_order_fails"
   ],
   "note": "Symbols are elements of a field, pilot mappings an oracle. False parts: a single data symbol is accepted for any number of data symbols and repeated; restored waveforms have the default pilot sequence and repeat it; setting the modulation order, even to its present value, replaces the configured pilot sequence; minimum mean square equalization of a single stream ignores noise; estimation without references raises an error."
  },
  {
   "property": "C92",
   "status": "partial",
   "theorems": [
    "Verif.SingleCarrier.C92_transfer",
    "Verif.SingleCarrier.C92_rectangular",
    "Verif.SingleCarrier.C92_chirps",
    "Verif.SingleCarrier.C92_link",
    "Verif.SingleCarrier.C92_rolled_off_partial",
    "Verif.SingleCarrier.C92_odd_fails",
    "Verif.SingleCarrier.C92_interference_fails",
    "Verif.SingleCarrier.C92_samples",
    "Verif.SingleCarrier.C92_duration_partial",
    "Verif.SingleCarrier.C92_duration_fails",
    "Verif.SingleCarrier.C92_energy_partial",
    "Verif.SingleCarrier.C92_energy_fails",
    "Verif.SingleCarrier.C92_pilot_partial",
    "Verif.SingleCarrier.C92_pilot_fails",
    "Verif.SingleCarrier.C92_empty_fails",
    "Verif.SingleCarrier.C92_refuses_partial",
    "Verif.SingleCarrier.C92_raised_cosine",
    "Verif.SingleCarrier.C92_root_raised_cosine"
   ],
   "note": "Samples are complex numbers without rounding. Exact reception is proved for rectangular pulses and chirps of any parameters, and for raised cosine pulses of any roll off and root raised cosine pulses without roll off at an oversampling factor of one and a relative bandwidth of one; for every pulse the received symbols are the sums of all symbols weighted by the convolved filters. False parts: oversampled by two, raised cosine pulses without roll off and of even length interfere with the symbol length - 1 later; a filter of one symbol is sampled too early, so that mostly the previous symbol is received; frames of rolled off pulses and of chirps last longer than announced, and guard intervals have no effect; root raised cosine pulses exceed the announced energy; the pilot signal of chirps lets them overlap, other than in frames; modulating an empty frame raises an error."
  },
  {
   "property": "C93",
   "status": "partial",
   "theorems": [
    "Verif.FmcwRadar.C93_configuration",
    "Verif.FmcwRadar.C93_ping",
    "Verif.FmcwRadar.C93_energy",
    "Verif.FmcwRadar.C93_samples_partial",
    "Verif.FmcwRadar.C93_samples_fails",
    "Verif.FmcwRadar.C93_target_partial",
    "Verif.FmcwRadar.C93_range_fails",
    "Verif.FmcwRadar.C93_max_range_fails",
    "Verif.FmcwRadar.C93_fast_fails",
    "Verif.FmcwRadar.C93_stationary_partial",
    "Verif.FmcwRadar.C93_odd_fails",
    "Verif.FmcwRadar.C93_velocity_fails",
    "Verif.FmcwRadar.C93_short_fails",
    "Verif.FmcwRadar.C93_store"
   ],
   "note": "Parameters are real numbers, samples complex numbers without rounding; resampling in the receiver is a contract (ideal samplers). Exact positions of peaks are proved for echoes delayed by whole samples, guard intervals longer than the delay, and converters sampling at the bandwidth or a whole fraction of it. False parts: labelled ranges exceed the true ones by n/(n-1), and by the ratio of bandwidth and converter rate; the announced maximum range is not that of the last bin; converters faster than the sampling rate yield more columns than labels; odd numbers of chirps label stationary targets with half a resolution; velocities are labelled with reversed sign; pulses are a sample short if chirps do not last whole samples; intervals shorter than chirps by less than a sample are transmitted but cannot be estimated."
  },
  {
   "property": "C94",
   "status": "partial",
   "theorems": [
    "Verif.RadarOperator.C94_cube_partial",
    "Verif.RadarOperator.C94_memory_fails",
    "Verif.RadarOperator.C94_refused",
    "Verif.RadarOperator.C94_resolution_fails",
    "Verif.RadarOperator.C94_detection_partial",
    "Verif.RadarOperator.C94_store_partial",
    "Verif.RadarOperator.C94_store_fails"
   ],
   "note": "Waveforms and beamformers are contracts in the theorems on cubes; detection is proved end to end for FMCW waveforms and the maximum detector under the conditions of C93. False parts: with a beamformer of several focus points, a single received stream fills the first angle only, the others show uninitialised memory; the announced velocity resolution is half of the distance between velocity bins; if the temporary arrays of receive and transmit ports share an address, restored radars transmit from the ports to receive from; detected targets appear n/(n-1) times as far and with reversed velocity."
  },
  {
   "property": "C95",
   "status": "partial",
   "theorems": [
    "Verif.MatchedFilter.C95_configuration",
    "Verif.MatchedFilter.C95_target_partial",
    "Verif.MatchedFilter.C95_min_range_fails",
    "Verif.MatchedFilter.C95_velocities_partial",
    "Verif.MatchedFilter.C95_velocities_fails",
    "Verif.MatchedFilter.C95_angles_fails",
    "Verif.MatchedFilter.C95_single_fails",
    "Verif.MatchedFilter.C95_store_partial",
    "Verif.MatchedFilter.C95_store_fails",
    "Verif.MatchedFilter.C95_prediction"
   ],
   "note": "Samples are complex numbers without rounding; the modem part of receptions is an oracle. The position of the maximum is proved for one stream transmitted and received, echoes delayed by whole samples, unambiguous velocities, and transmissions the first two and the last sample of which are not zero. False parts: ranges below twice the minimum range are dropped; with several streams transmitted, all angles show the same powers, and single received streams are refused if several points are in focus; if the span of velocities is less than their resolution, the only bin is labelled with the negative maximum velocity; restored operators have lost their encoders and precoders."
  },
  {
   "property": "C96",
   "status": "partial",
   "theorems": [
    "Verif.OfdmRadar.C96_cube_partial",
    "Verif.OfdmRadar.C96_ranges_partial",
    "Verif.OfdmRadar.C96_target_partial",
    "Verif.OfdmRadar.C96_refused",
    "Verif.OfdmRadar.C96_doppler_bins",
    "Verif.OfdmRadar.C96_doppler_fails",
    "Verif.OfdmRadar.C96_min_range_fails",
    "Verif.OfdmRadar.C96_frames_fails",
    "Verif.OfdmRadar.C96_dc_fails",
    "Verif.OfdmRadar.C96_occupied_partial",
    "Verif.OfdmRadar.C96_memory_fails",
    "Verif.OfdmRadar.C96_store_partial",
    "Verif.OfdmRadar.C96_store_fails"
   ],
   "note": "Samples are complex numbers without rounding; the modem part of receptions is an oracle; echoes are static, within the prefix and, where exact, delayed by multiples of the oversampling factor; moving targets are not covered. False parts: no Doppler bin is labelled as rest, and with two words or more all echoes at rest are labelled as approaching; with direct current suppressed, as by default, an echo from half the maximum range leaves nothing in its own bin; with any positive minimum range, and after transmitting two frames or more, receiving raises an error; a single stream received by a beamformer focusing several points leaves uninitialised memory in the cube; restored operators have lost their waveform."
  },
  {
   "property": "C97",
   "status": "partial",
   "theorems": [
    "Verif.RadarRoc.C97_curve",
    "Verif.RadarRoc.C97_outside",
    "Verif.RadarRoc.C97_monotone",
    "Verif.RadarRoc.C97_separated",
    "Verif.RadarRoc.C97_order",
    "Verif.RadarRoc.C97_thresholds_fails",
    "Verif.RadarRoc.C97_plot_fails",
    "Verif.RadarRoc.C97_scenarios_partial",
    "Verif.RadarRoc.C97_refused",
    "Verif.RadarRoc.C97_first_fails",
    "Verif.RadarRoc.C97_replay_fails",
    "Verif.RadarRoc.C97_file_partial"
   ],
   "note": "Values are real numbers without NaN; dropping scenarios is an oracle that succeeds; simulating the null hypothesis again (`evaluate`) is not covered. False parts: the number of thresholds configured at the evaluator is ignored, results always have 101; the plot shows the first two thresholds instead of both probabilities, two points of ordinate one, and raises an error with fewer than two thresholds; `FromScenario` computes artifacts and discards them; without given operators the radar evaluated depends on the order of iterating a set, not on which is first."
  },
  {
   "property": "C98",
   "status": "partial",
   "theorems": [
    "Verif.RadarError.C98_latest",
    "Verif.RadarError.C98_refused",
    "Verif.RadarError.C98_rmse",
    "Verif.RadarError.C98_single_partial",
    "Verif.RadarError.C98_several_fails",
    "Verif.RadarError.C98_pose_fails",
    "Verif.RadarError.C98_offset_fails",
    "Verif.RadarError.C98_missed",
    "Verif.RadarError.C98_detection",
    "Verif.RadarError.C98_store_partial",
    "Verif.RadarError.C98_store_fails"
   ],
   "note": "Coordinates are real numbers without NaN; receptions and channel samples are events with arbitrary contents. Exactness at zero is proved for one target per sample. False parts: points are compared with all targets, so that several exactly detected targets yield an error; points are relative to the radar and targets global, so that a radar away from the origin reports an error although it makes none; restored detection evaluators have lost their plot scale, tick format and choice of surface plots. Samples without detections do not count."
  },
  {
   "property": "C99",
   "status": "partial",
   "theorems": [
    "Verif.Noise.C99_white",
    "Verif.Noise.C99_reception",
    "Verif.Noise.C99_transmission",
    "Verif.Noise.C99_history",
    "Verif.Noise.C99_shared_fails",
    "Verif.Noise.C99_transmit_fails",
    "Verif.Noise.C99_assigned_partial",
    "Verif.Noise.C99_snr_partial",
    "Verif.Noise.C99_leftover_fails",
    "Verif.Noise.C99_n0_fails",
    "Verif.Noise.C99_valid",
    "Verif.Noise.C99_decision",
    "Verif.Noise.C99_ratio_partial",
    "Verif.Noise.C99_oversampling_fails",
    "Verif.Noise.C99_store_partial",
    "Verif.Noise.C99_store_fails"
   ],
   "note": "Numbers of the random generator are centred, uncorrelated and of unit variance for different seeds and places, an assumption which independent Gaussian numbers are proved to satisfy; radio frequency chains are the default one without quantization. False parts: the blocks of the default chain share the noise level a device is constructed with, so that such a device adds three times the power it reports, and noise to its transmissions; a level changed before it is replaced keeps being added twice; `N0` documents Watt and multiplies by the bandwidth; with oversampling, energy ratios are exceeded by the oversampling factor; stored signal to noise ratios forget the channel scale and stored energy ratios are lost."
  },
  {
   "property": "C100",
   "status": "partial",
   "theorems": [
    "Verif.NoiseSeed.C100_default_fails",
    "Verif.NoiseSeed.C100_repeat_fails",
    "Verif.NoiseSeed.C100_assigned_partial",
    "Verif.NoiseSeed.C100_scenario_partial",
    "Verif.NoiseSeed.C100_model_fails"
   ],
   "note": "Proved for noise models assigned to devices after construction, and for scenarios. False parts: the blocks of the default radio frequency chain take the noise model of the device over, so that its noise is drawn from the entropy of the down-mixer created last; seeding the device, its scenario or creating either with a seed has no effect, and two devices constructed and seeded alike draw different noise; the seed of a noise model is dropped when it is assigned."
  },
  {
   "property": "C101",
   "status": "partial",
   "theorems": [
    "Verif.PhaseNoise.C101_flicker",
    "Verif.PhaseNoise.C101_coefficients",
    "Verif.PhaseNoise.C101_magnitude",
    "Verif.PhaseNoise.C101_phases",
    "Verif.PhaseNoise.C101_mixers",
    "Verif.PhaseNoise.C101_shared",
    "Verif.PhaseNoise.C101_spectrum",
    "Verif.PhaseNoise.C101_psd",
    "Verif.PhaseNoise.C101_psd_fails",
    "Verif.PhaseNoise.C101_levels",
    "Verif.PhaseNoise.C101_store_partial",
    "Verif.PhaseNoise.C101_store_fails"
   ],
   "note": "Numbers of the random generator are centred, uncorrelated and of unit variance; the bounded least squares routine of `FromPSD` is a contract; spectra are those of the filters driven by white numbers, as power series and as correlations of samples. False parts: fewer than three offset frequencies do not determine the levels; the seed of stored phase noise is not restored."
  },
  {
   "property": "C102",
   "status": "partial",
   "theorems": [
    "Verif.Power.C102_power",
    "Verif.Power.C102_sparse_partial",
    "Verif.Power.C102_two_fails",
    "Verif.Power.C102_sparse_fails",
    "Verif.Power.C102_silent_fails",
    "Verif.Power.C102_latest",
    "Verif.Power.C102_leakage",
    "Verif.Power.C102_unset_fails",
    "Verif.Power.C102_isolated_fails",
    "Verif.Power.C102_papr",
    "Verif.Power.C102_papr_bounds",
    "Verif.Power.C102_papr_scale",
    "Verif.Power.C102_papr_silent_fails",
    "Verif.Power.C102_papr_first_fails",
    "Verif.Power.C102_papr_latest",
    "Verif.Power.C102_ssinr_partial",
    "Verif.Power.C102_ssinr_fails",
    "Verif.Power.C102_scalar_fails",
    "Verif.Power.C102_settings",
    "Verif.Power.C102_settings_fails"
   ],
   "note": "False parts: the power of a sparse signal is the mean of the powers of its blocks, whatever their lengths, and is not a number for silent signals; evaluators without signals, and self-interference of devices without leakage, raise AttributeError; the peak-to-average ratio is not a number if a stream is silent and considers the first impinging signal only; the signal to interference ratio takes powers of correlated signals to add up; scalar artifacts sum over antennas; the peak-to-average evaluator ignores some settings and stored self-interference evaluators forget theirs."
  },
  {
   "property": "C103",
   "status": "partial",
   "theorems": [
    "Verif.Extract.C103_samples_partial",
    "Verif.Extract.C103_sparse_fails",
    "Verif.Extract.C103_confidence",
    "Verif.Extract.C103_latest"
   ],
   "note": "False part: sparse signals can not be converted to arrays, and the result raises TypeError."
  },
  {
   "property": "C104",
   "status": "partial",
   "theorems": [
    "Verif.Sidelobe.C104_bounds",
    "Verif.Sidelobe.C104_levels",
    "Verif.Sidelobe.C104_focus",
    "Verif.Sidelobe.C104_receive_fails",
    "Verif.Sidelobe.C104_scale",
    "Verif.Sidelobe.C104_silent_fails",
    "Verif.Sidelobe.C104_artifact",
    "Verif.Sidelobe.C104_codebook",
    "Verif.Sidelobe.C104_broadside_partial",
    "Verif.Sidelobe.C104_broadside_fails",
    "Verif.Sidelobe.C104_half_fails",
    "Verif.Sidelobe.C104_mode_fails",
    "Verif.Sidelobe.C104_latest"
   ],
   "note": "False parts: weights are not conjugated for receptions, so that a wave from the desired direction may have no energy there; the first entry of the codebook is the response straight ahead for planar arrays only; the directions sampled include those behind the array, the last many times; the codebook is kept when the mode is changed, and evaluations then raise ValueError; signals without energy have no levels."
  },
  {
   "property": "C105",
   "status": "partial",
   "theorems": [
    "Verif.Ramp.C105_create",
    "Verif.Ramp.C105_frame",
    "Verif.Ramp.C105_interval_partial",
    "Verif.Ramp.C105_interval_fails",
    "Verif.Ramp.C105_short_fails",
    "Verif.Ramp.C105_falling_fails",
    "Verif.Ramp.C105_flat_fails",
    "Verif.Ramp.C105_waveform_partial",
    "Verif.Ramp.C105_cache",
    "Verif.Ramp.C105_restore_partial",
    "Verif.Ramp.C105_restore_fails"
   ],
   "note": "False parts: intervals of a fractional number of samples are shortened, and the error adds up over the chirps; ramps longer than the interval are cut without an error; negative slopes are accepted and then fail or stay silent; a slope of zero is accepted and raises ZeroDivisionError; the noise settings are not stored."
  },
  {
   "property": "C106",
   "status": "partial",
   "theorems": [
    "Verif.Xwr.C106_target_partial",
    "Verif.Xwr.C106_range_partial",
    "Verif.Xwr.C106_range_fails",
    "Verif.Xwr.C106_resolution_fails",
    "Verif.Xwr.C106_slow_fails",
    "Verif.Xwr.C106_velocity_partial",
    "Verif.Xwr.C106_odd_fails",
    "Verif.Xwr.C106_frame_partial",
    "Verif.Xwr.C106_frame_fails",
    "Verif.Xwr.C106_energy_partial",
    "Verif.Xwr.C106_energy_fails",
    "Verif.Xwr.C106_long_fails"
   ],
   "note": "Proved for echoes delayed by whole samples, beats turning a whole number of times per interval, and decimation factors dividing the interval; noise, filters and quantization of the chain are not modelled. False parts: ranges are labelled too large if the converter takes an odd number of samples per interval, as by default; signals sampled slower than the converter have fewer columns than labels; the range resolution reported depends on the bandwidth of the device; Doppler bins are off by half a bin for odd numbers of chirps; the energy reported assumes the device's bandwidth to be that of the ramps; pings may last longer than the ramps; signals longer than a frame are squeezed into one, which moves targets away."
  },
  {
   "property": "C107",
   "status": "partial",
   "theorems": [
    "Verif.Animation.C107_create",
    "Verif.Animation.C107_linear",
    "Verif.Animation.C107_linear_velocity",
    "Verif.Animation.C107_linear_pose",
    "Verif.Animation.C107_max_partial",
    "Verif.Animation.C107_lookat_partial",
    "Verif.Animation.C107_history",
    "Verif.Animation.C107_switch",
    "Verif.Animation.C107_mutual",
    "Verif.Animation.C107_static_lookat_fails",
    "Verif.Animation.C107_static_velocity_fails",
    "Verif.Animation.C107_max_fails",
    "Verif.Animation.C107_restore_partial",
    "Verif.Animation.C107_restore_fails",
    "Verif.Animation.C107_alias_fails",
    "Verif.Animation.C107_letter_partial",
    "Verif.Animation.C107_letter_fails",
    "Verif.Animation.C107_letter_jump_fails"
   ],
   "note": "Rotations between poses are by the contract of scipy's Slerp (ends at the ends). False parts: static trajectories ignore what they look at, and report velocities without moving; restored trajectories look at nothing; poses of looking trajectories go on changing after the last timestamp; changing the pose a trajectory was created from changes its orientation but not its position; the letter b leaves its plane, and jumps between sections."
  },
  {
   "property": "C108",
   "status": "partial",
   "theorems": [
    "Verif.HwSlots.C108_consistent",
    "Verif.HwSlots.C108_total",
    "Verif.HwSlots.C108_assign",
    "Verif.HwSlots.C108_attach_partial",
    "Verif.HwSlots.C108_attach_fails",
    "Verif.HwSlots.C108_others_partial",
    "Verif.HwSlots.C108_detach",
    "Verif.HwSlots.C108_replaced_fails"
   ],
   "note": "False parts: a calibration that was replaced still refers to its former device; assigning that device to it again does nothing, and giving it to another device, or detaching it, takes the calibration in use from the former device."
  },
  {
   "property": "C109",
   "status": "partial",
   "theorems": [
    "Verif.HwDelay.C109_receive_partial",
    "Verif.HwDelay.C109_receive_none",
    "Verif.HwDelay.C109_receive_short_fails",
    "Verif.HwDelay.C109_transmit",
    "Verif.HwDelay.C109_late",
    "Verif.HwDelay.C109_early",
    "Verif.HwDelay.C109_estimate_partial",
    "Verif.HwDelay.C109_estimate_sign_fails",
    "Verif.HwDelay.C109_estimate_max_fails",
    "Verif.HwDelay.C109_estimate_ports_fails",
    "Verif.HwDelay.C109_estimate_errors",
    "Verif.HwDelay.C109_restricted_fails",
    "Verif.HwDelay.C109_receive_ports"
   ],
   "note": "Corrections are modelled for dense signals. Estimates are proved exact for a single port with a gain of positive real part. False parts: gains with a negative real part give the same wrong delay for every device; with several ports the estimate is too large by the length of the reception if a later port receives more; the largest delay announced is not found; corrections of at most half a sample raise ValueError; calibrations estimated for some ports shift all ports."
  },
  {
   "property": "C110",
   "status": "partial",
   "theorems": [
    "Verif.HwLeakage.C110_remove_partial",
    "Verif.HwLeakage.C110_streams_fails",
    "Verif.HwLeakage.C110_early_fails",
    "Verif.HwLeakage.C110_after_fails",
    "Verif.HwLeakage.C110_mismatch",
    "Verif.HwLeakage.C110_silent",
    "Verif.HwLeakage.C110_new",
    "Verif.HwLeakage.C110_restore_partial",
    "Verif.HwLeakage.C110_restore_fails",
    "Verif.HwLeakage.C110_predict_partial",
    "Verif.HwLeakage.C110_predict_delay_fails",
    "Verif.HwLeakage.C110_predict_ports_fails",
    "Verif.HwLeakage.C110_estimate_partial",
    "Verif.HwLeakage.C110_estimate_errors",
    "Verif.HwLeakage.C110_estimate_delay_fails",
    "Verif.HwLeakage.C110_filter_fails",
    "Verif.HwLeakage.C110_cancel_partial",
    "Verif.HwLeakage.C110_delay_fails"
   ],
   "note": "Estimates by minimum mean square errors are C143. Peaks are found by an oracle. False parts: with more transmit than receive ports the leakage of the last transmit ports remains; receptions advanced by more than the leakage's delay keep leakage in their last samples; leakage that would end after the reception raises ValueError; predictions take their delay for noise power; predictions with selected transmit ports raise IndexError; restored calibrations forget their ports; negative delay calibrations make the estimate raise; the default filter drops leakage without delay; devices that do not report the delay they were calibrated for have it counted twice."
  },
  {
   "property": "C111",
   "status": "partial",
   "theorems": [
    "Verif.HwDevice.C111_settings",
    "Verif.HwDevice.C111_restore_partial",
    "Verif.HwDevice.C111_flags_fails",
    "Verif.HwDevice.C111_direct_mismatch",
    "Verif.HwDevice.C111_direct_partial",
    "Verif.HwDevice.C111_repeat_fails",
    "Verif.HwDevice.C111_leakage_partial",
    "Verif.HwDevice.C111_leakage_fails",
    "Verif.HwDevice.C111_lowpass_partial",
    "Verif.HwDevice.C111_receive_fails",
    "Verif.HwDevice.C111_adaptive",
    "Verif.HwDevice.C111_rate_fails",
    "Verif.HwDevice.C111_noise_partial",
    "Verif.HwDevice.C111_variance_fails",
    "Verif.HwDevice.C111_stale_fails",
    "Verif.HwDevice.C111_dummy_partial",
    "Verif.HwDevice.C111_dummy_fails",
    "Verif.HwDevice.C111_scenario_partial",
    "Verif.HwDevice.C111_scenario_fails"
   ],
   "note": "Hardware, filters, resampling and leakage calibrations are arbitrary functions. False parts: antenna calibrations change the caller's signal, so that triggering it again applies the weights again; after a direct transmission or a noise estimate, receptions have the leakage of an older transmission removed; receiving never filters; adaptive sampling and lowpass filter are disabled in new and restored devices whatever is given; without adaptive sampling a single transmission is uploaded at its own sampling rate and carrier frequency; the noise estimate contains the power of the mean; dummies process uploads that were not triggered; scenarios ignore signals in excess of their devices."
  },
  {
   "property": "C112",
   "status": "partial",
   "theorems": [
    "Verif.HwUsrp.C112_rpc",
    "Verif.HwUsrp.C112_configure_partial",
    "Verif.HwUsrp.C112_configure_fails",
    "Verif.HwUsrp.C112_ports_partial",
    "Verif.HwUsrp.C112_ports_fails",
    "Verif.HwUsrp.C112_scale",
    "Verif.HwUsrp.C112_delays",
    "Verif.HwUsrp.C112_loop_partial",
    "Verif.HwUsrp.C112_collect_fails",
    "Verif.HwUsrp.C112_twice_fails",
    "Verif.HwUsrp.C112_inplace_fails",
    "Verif.HwUsrp.C112_system_fails"
   ],
   "note": "The client library is modelled by outcomes of calls, the radio by a loop. False parts: a configuration executed although the connection was lost is not undone by setting the property back; uploads change the signal they are given; direct transmissions are corrected by the antenna calibration twice; triggering the system directly calibrates although told not to, and removes no leakage; of several collected signals only the last is received, and none raises TypeError; devices without ports cannot be created."
  },
  {
   "property": "C113",
   "status": "partial",
   "theorems": [
    "Verif.HwAntenna.C113_transmit_partial",
    "Verif.HwAntenna.C113_receive_partial",
    "Verif.HwAntenna.C113_reference_fails",
    "Verif.HwAntenna.C113_again_fails",
    "Verif.HwAntenna.C113_silent",
    "Verif.HwAntenna.C113_managed",
    "Verif.HwAntenna.C113_carrier_fails",
    "Verif.HwAntenna.C113_rate_fails",
    "Verif.HwAntenna.C113_correct"
   ],
   "note": "The scenario is an arbitrary linear state machine; noise and storage are not modelled. False parts: reference ports of opposite phases yield zero weights, which silence the device; estimating again while calibrated yields weights of one, so that adopting the new calibration undoes the old; the probes are created without carrier frequency, so estimation raises ValueError for every audio device, and with the wrong sampling rate for the reference; a port not received at one reference port gets a weight that is not a number."
  },
  {
   "property": "C114",
   "status": "partial",
   "theorems": [
    "Verif.HwAudio.C114_loopback_partial",
    "Verif.HwAudio.C114_edge_fails",
    "Verif.HwAudio.C114_delay_fails",
    "Verif.HwAudio.C114_ports_fails",
    "Verif.HwAudio.C114_carrier_fails",
    "Verif.HwAudio.C114_storage_partial",
    "Verif.HwAudio.C114_storage_fails"
   ],
   "note": "The sound card plays and records without loss; samples are real numbers. False parts: at the upper band edge bin m-1 of 4m samples is lost and bin -floor(N/4)-1 becomes twice its real part; receive delays change the mixing frequency of the receiver, so that the received samples differ; the numbers of transmit and receive antennas are exchanged, so that devices with different numbers of playback and record channels cannot be triggered; received signals carry carrier frequency zero instead of the device's and cannot be transmitted again; storage loses the parameters of PhysicalDevice such as the receive delay."
  },
  {
   "property": "C115",
   "status": "partial",
   "theorems": [
    "Verif.HwLoop.C115_schedule",
    "Verif.HwLoop.C115_order",
    "Verif.HwLoop.C115_isolated",
    "Verif.HwLoop.C115_aligned",
    "Verif.HwLoop.C115_parameters",
    "Verif.HwLoop.C115_interrupt",
    "Verif.HwLoop.C115_recording_partial",
    "Verif.HwLoop.C115_recording_fails",
    "Verif.HwLoop.C115_surrogate_partial",
    "Verif.HwLoop.C115_surrogate_fails",
    "Verif.HwLoop.C115_dimension_partial",
    "Verif.HwLoop.C115_dimension_fails"
   ],
   "note": "Scenario, dimensions, hooks and evaluators are arbitrary state transformers that may raise; artifacts belong to their parameters provided no dimension touches another one's parameter. Plots and files are not modelled. False parts: a recorded run that raises in debug mode leaves the scenario recording, so that all later recorded runs raise RuntimeError; the state recorded for scenarios that cannot be serialized has none of the operators of the devices; new_dimension without objects raises AttributeError instead of using the scenario."
  },
  {
   "property": "C116",
   "status": "partial",
   "theorems": [
    "Verif.GridDim.C116_configures",
    "Verif.GridDim.C116_frame",
    "Verif.GridDim.C116_replaced_fails",
    "Verif.GridDim.C116_index",
    "Verif.GridDim.C116_wrapped_fails",
    "Verif.GridDim.C116_rejects",
    "Verif.GridDim.C116_instance_fails",
    "Verif.GridDim.C116_accepts",
    "Verif.GridDim.C116_impact_partial",
    "Verif.GridDim.C116_impact_fails",
    "Verif.GridDim.C116_title_partial",
    "Verif.GridDim.C116_title_fails",
    "Verif.GridDim.C116_unnamed"
   ],
   "note": "Over a heap of objects; setters of properties store what they are given. False parts: setters hold the objects found at creation, so that after an object on the path was replaced the parameter is no longer configured; sample points given as SamplePoint overwrite scalar dimensions such as noise levels by their bare value; attributes existing on the instance only are rejected as if they did not exist; a dimension over a registered and an unregistered attribute claims the impacts of the registered one; titles given by the user are replaced by those of scalar dimensions."
  },
  {
   "property": "C117",
   "status": "partial",
   "theorems": [
    "Verif.HwPlots.C117_deadlock",
    "Verif.HwPlots.C117_exclusive",
    "Verif.HwPlots.C117_order",
    "Verif.HwPlots.C117_last_partial",
    "Verif.HwPlots.C117_last_fails",
    "Verif.HwPlots.C117_none_fails"
   ],
   "note": "Transition system of one plot thread and the loop; termination is proved as reachability of the end from every reachable state, fairness of the scheduler is not modelled. False parts: a thread that has not prepared its plots when it is stopped never plots anything, however many samples were handed over; a run without any successful drop plots None."
  },
  {
   "property": "C118",
   "status": "partial",
   "theorems": [
    "Verif.Cdl.C118_propagate_partial",
    "Verif.Cdl.C118_state",
    "Verif.Cdl.C118_taps",
    "Verif.Cdl.C118_taps_fails",
    "Verif.Cdl.C118_interpolation_fails",
    "Verif.Cdl.C118_rays_partial",
    "Verif.Cdl.C118_rays_fails",
    "Verif.Cdl.C118_energy_fails",
    "Verif.Cdl.C118_energy_sight_fails",
    "Verif.Cdl.C118_horizontal_fails",
    "Verif.Cdl.C118_crosstalk_fails",
    "Verif.Cdl.C118_doppler_partial",
    "Verif.Cdl.C118_doppler_fails",
    "Verif.Cdl.C118_doppler_transmitter_fails",
    "Verif.Cdl.C118_reciprocal_partial",
    "Verif.Cdl.C118_reciprocal_fails",
    "Verif.Cdl.C118_direction_fails",
    "Verif.Cdl.C118_spread"
   ],
   "note": "Samples are modelled with arbitrary array responses; how realizations draw their parameters is C119. False parts: the sub-clusters of the first two clusters are selected by cluster instead of sub-cluster, so that 10 rays of the first and 14 of the second cluster never propagate and the others do three times, and the delivered power differs from the expected energy scale; the line of sight is not scaled by path loss or gain, is lost for horizontally polarized transmitters, leaks into the other polarization, and is shifted in frequency in the wrong direction; moving transmitters shift rays by the direction of arrival; directions of rays are taken for positions, so that arrays away from the origin see all rays from there; reciprocal samples do not transpose polarizations; states have one tap more than asked for; nothing is propagated in interpolation modes other than nearest."
  },
  {
   "property": "C119",
   "status": "partial",
   "theorems": [
    "Verif.CdlDraw.C119_large_scale",
    "Verif.CdlDraw.C119_delays_partial",
    "Verif.CdlDraw.C119_delays_fails",
    "Verif.CdlDraw.C119_powers_partial",
    "Verif.CdlDraw.C119_cutoff_fails",
    "Verif.CdlDraw.C119_sight_share_fails",
    "Verif.CdlDraw.C119_pairing_partial",
    "Verif.CdlDraw.C119_pairing_fails",
    "Verif.CdlDraw.C119_sight_partial",
    "Verif.CdlDraw.C119_frame_fails",
    "Verif.CdlDraw.C119_independent_fails",
    "Verif.CdlDraw.C119_oxygen_fails",
    "Verif.CdlDraw.C119_gain_fails",
    "Verif.CdlDraw.C119_shadow_fails",
    "Verif.CdlDraw.C119_sample_partial",
    "Verif.CdlDraw.C119_position",
    "Verif.CdlDraw.C119_polarization",
    "Verif.CdlDraw.C119_reciprocal_partial",
    "Verif.CdlDraw.C119_orientation_fails",
    "Verif.CdlDraw.C119_scaling",
    "Verif.CdlDraw.C119_rice_scale",
    "Verif.CdlDraw.C119_scaling_sight"
   ],
   "note": "Random numbers and what the scenarios specify are arguments; spatial consistency of variables is C74, propagation over samples is C118, storage is not modelled. False parts: the polynomial scaling delays with line of sight is negative for low Rice factors, so that delays precede the first cluster; weak clusters are compared with the first instead of the strongest one; removed clusters lose their powers but not their delays, so that later clusters arrive with the delays of earlier ones; the share of the line of sight is added to the first scattered cluster although samples propagate it on its own; ray angles are drawn around the line of sight in device coordinates but used as global ones; azimuths of arrival and departure use the same random numbers; oxygen absorption, on by default, is the same at all frequencies, since rows of its table are taken for columns, and a hundred times too strong in decibel; the gain is applied squared; shadow fading has no effect; reciprocal samples ignore rotations in between."
  },
  {
   "property": "C120",
   "status": "partial",
   "theorems": [
    "Verif.CdlScenario.C120_correlations",
    "Verif.CdlScenario.C120_blocked",
    "Verif.CdlScenario.C120_distance_partial",
    "Verif.CdlScenario.C120_break",
    "Verif.CdlScenario.C120_break_fails",
    "Verif.CdlScenario.C120_rural_fails",
    "Verif.CdlScenario.C120_rural_partial",
    "Verif.CdlScenario.C120_indoor_fails",
    "Verif.CdlScenario.C120_near",
    "Verif.CdlScenario.C120_far",
    "Verif.CdlScenario.C120_closer_partial",
    "Verif.CdlScenario.C120_open_fails",
    "Verif.CdlScenario.C120_height_fails",
    "Verif.CdlScenario.C120_sight_partial",
    "Verif.CdlScenario.C120_dense",
    "Verif.CdlScenario.C120_clutter_fails",
    "Verif.CdlScenario.C120_hall",
    "Verif.CdlScenario.C120_rural_offset_fails",
    "Verif.CdlScenario.C120_micro_offset_fails",
    "Verif.CdlScenario.C120_offset",
    "Verif.CdlScenario.C120_sample",
    "Verif.CdlScenario.C120_clusters_partial",
    "Verif.CdlScenario.C120_clusters_fails",
    "Verif.CdlScenario.C120_deviations",
    "Verif.CdlScenario.C120_open_jump"
   ],
   "note": "Cholesky roots are a contract; storage of the scenarios is not modelled. False parts: urban path losses drop at the break point if the base is less high above the terminal than assumed, since the assumed instead of the actual heights enter; the rural path loss grows by sixty instead of forty decibel per decade beyond the break point; terminals inside buildings are never drawn and lose nothing; urban links compare the slanted instead of the horizontal distance, so that terminals below the base can be blocked; terminals of open offices can get into line of sight by moving away from 49 metres, as in the standard; terminals above the clutter are always blocked in factories with high bases, which includes the default of no clutter; the rural zenith offset is in radians; the zenith offset of urban microcells depends on the height of the terminal instead of the distance; blocked links of urban macrocells have nineteen clusters instead of twenty."
  },
  {
   "property": "C121",
   "status": "partial",
   "theorems": [
    "Verif.CdlStatic.C121_sample",
    "Verif.CdlStatic.C121_angles",
    "Verif.CdlStatic.C121_spread_partial",
    "Verif.CdlStatic.C121_spread_fails",
    "Verif.CdlStatic.C121_gain_fails",
    "Verif.CdlStatic.C121_sight",
    "Verif.CdlStatic.C121_factor_fails",
    "Verif.CdlStatic.C121_polarization_fails",
    "Verif.CdlStatic.C121_create",
    "Verif.CdlStatic.C121_storage_partial",
    "Verif.CdlStatic.C121_seed_fails",
    "Verif.CdlStatic.C121_reciprocal_partial"
   ],
   "note": "Spatially consistent phases are functions of the positions (C74). False parts: the delay spread of the rays exceeds the configured one by at least 12, 5 and 8 percent for the types A, B and C, since the first two rows are split up although the tables already are, and by the spread of the channel instead of that of a cluster (proved for antennas of vertical polarization); the gain has no influence, and at least 3.3 times the transmitted power is received over types without line of sight, since the tabulated powers are not normalized; the power over the line of sight relative to all other rays is less than 0.66 of the configured factor, since the row for the line of sight is scattered as well; transfer to the other polarization is amplified by twice the cross polarization ratio instead of attenuated; reciprocal samples keep polarizations instead of exchanging them (C118); seeds are not stored."
  },
  {
   "property": "C122",
   "status": "partial",
   "theorems": [
    "Verif.Schema.C122_restored",
    "Verif.Schema.C122_kept_partial",
    "Verif.Schema.C122_lost_fails",
    "Verif.Schema.C122_class_fails",
    "Verif.Schema.C122_angle_partial",
    "Verif.Schema.C122_null_fails",
    "Verif.Schema.C122_array_partial",
    "Verif.Schema.C122_dimensions_fails",
    "Verif.Schema.C122_complex_fails",
    "Verif.Schema.C122_raise_fails",
    "Verif.Schema.C122_inhabited"
   ],
   "note": "Holds of 155 classes. Contents of members are C32; shapes of arrays and normalisations within constructors are not modelled; back references to owners are left out. False parts: 72 classes lose the parameters listed in the table lossyClasses, among them the seeds of modems, radars, scenarios and most channels, sample hooks, pilot sequences of waveforms, the suppression of the DC subcarrier, antenna weights, the antennas, velocity and noise level of simulated devices, noise of RF blocks, the channel of SNR levels, and the channel realizations of simulated drops (misspelled on reading); SimulatedCustomArray, MappedPilotSymbolSequence and TIXWR1843 come back as other classes; a random line of sight angle of Cost259, Exponential and TDL channels never comes back; dimensions of uniform arrays come back as floating point numbers; the complex matrices of ImpedanceCoupling come back real; MultipathFadingRealization, five evaluators, the three ideal channel estimations and EvaluatedDrop always raise."
  },
  {
   "property": "C123",
   "status": "partial",
   "theorems": [
    "Verif.Present.C123_curves_partial",
    "Verif.Present.C123_sections_partial",
    "Verif.Present.C123_refreshed",
    "Verif.Present.C123_curves_fails",
    "Verif.Present.C123_raises_fails",
    "Verif.Present.C123_labels_partial",
    "Verif.Present.C123_labels_fails",
    "Verif.Present.C123_surface_partial",
    "Verif.Present.C123_surface_fails",
    "Verif.Present.C123_objects_fails",
    "Verif.Present.C123_table",
    "Verif.Present.C123_table_fails",
    "Verif.Present.C123_saved_partial",
    "Verif.Present.C123_saved_fails",
    "Verif.Present.C123_replaced_fails",
    "Verif.Present.C123_time_fails",
    "Verif.Present.C123_pages",
    "Verif.Present.C123_base",
    "Verif.Present.C123_legend",
    "Verif.Present.C123_surface_points",
    "Verif.Present.C123_surface_raises_fails",
    "Verif.Present.C123_rows",
    "Verif.Present.C123_unprinted_fails"
   ],
   "note": "Holds of curves and surfaces of results whose base dimension is the first, of the table of a simulation, of files whose dimensions have different titles other than reserved names, and of the displayed pages. False parts: with another base dimension the data are transposed but labels and sample points are not, so that curves and surfaces show results of other sections or plotting raises; numbers equal in two digits have equal titles; a grid of two dimensions over objects cannot be plotted by default; EvaluationResult.print never adds rows to its table; of two dimensions with equal titles only the points of the last are saved, and a dimension entitled result_0 replaces the result; the time stored in the result is always zero. Rendering by matplotlib, rich and savemat is not modelled."
  },
  {
   "property": "C124",
   "status": "partial",
   "theorems": [
    "Verif.Nr.C124_cells_partial",
    "Verif.Nr.C124_symbols_partial",
    "Verif.Nr.C124_chain_partial",
    "Verif.Nr.C124_duration_partial",
    "Verif.Nr.C124_duration_fails",
    "Verif.Nr.C124_centre_fails",
    "Verif.Nr.C124_broadcast_fails",
    "Verif.Nr.C124_once_fails",
    "Verif.Nr.C124_refuses",
    "Verif.Nr.C124_few_fails",
    "Verif.Nr.C124_numerology_fails",
    "Verif.Nr.C124_pss",
    "Verif.Nr.C124_pss_fails",
    "Verif.Nr.C124_sss_fails",
    "Verif.Nr.C124_pss_recurrence",
    "Verif.Nr.C124_pss_standard_fails"
   ],
   "note": "Holds of the content of the grids, of placing, transmitting and picking, of the ratios of durations and of the primary synchronisation sequence, from eleven resource blocks on. False parts: subframes last less than a millisecond since the prefix ratio is 0.07 instead of 1/14; synchronisation signals take 64 subcarriers below and 62 above the direct current; the broadcast channel takes all subcarriers instead of 240; synchronisation signals are in every subframe instead of the first slot of a frame; one to 23 resource blocks are accepted, of which ten or less cannot carry any symbol; numerologies above 6 and -1 are accepted; the primary synchronisation section cannot be the pilot of any 5G NR waveform and the secondary one raises ValueError always. The primary synchronisation signal is the standard's shifted by 95 symbols, which belongs to no physical layer identity. Prefix ratio taken as the exact 7/100."
  },
  {
   "property": "C125",
   "status": "partial",
   "theorems": [
    "Verif.Iq.C125_split",
    "Verif.Iq.C125_split_refuses",
    "Verif.Iq.C125_odd_fails",
    "Verif.Iq.C125_magnitude",
    "Verif.Iq.C125_recover_partial",
    "Verif.Iq.C125_recover_fails",
    "Verif.Iq.C125_zero_fails",
    "Verif.Iq.C125_distinct_fails",
    "Verif.Iq.C125_joint_fails"
   ],
   "note": "Holds of the splitter for twice as many outputs as inputs and of the magnitudes of combined samples; the signal is recovered if the second stream is multiplied by the imaginary unit and the mean of all angles of quotients happens to be the phase between the streams. False parts: a splitter connected to a combiner loses the phases, so different signals are combined to the same numbers; one vanishing real part turns all samples of all streams into nan; the result of one pair of streams depends on the others; odd numbers of outputs are refused with the number of inputs asked for, except three, where the third stream repeats the first."
  },
  {
   "property": "C126",
   "status": "partial",
   "theorems": [
    "Verif.Exe.C126_exclusive",
    "Verif.Exe.C126_race_fails",
    "Verif.Exe.C126_fresh",
    "Verif.Exe.C126_dangling_fails",
    "Verif.Exe.C126_overwrite_fails",
    "Verif.Exe.C126_successive",
    "Verif.Exe.C126_results_dir",
    "Verif.Exe.C126_verbosity_partial",
    "Verif.Exe.C126_verbosity_fails",
    "Verif.Exe.C126_style_fails",
    "Verif.Exe.C126_progress",
    "Verif.Exe.C126_verbosity"
   ],
   "note": "Exclusiveness and conservation hold of all schedules; without interruption and dangling links, the lowest free index is created. False parts: of two executions that check at the same time, one raises FileExistsError instead of taking the next index; a dangling link of the day's name makes every execution fail; overwriting erases nothing, and the base directory is returned to all executions; verbosities in lower case are accepted by the setter but not by the constructor; the style set on an executable is returned by its getter but not used for plots."
  },
  {
   "property": "C127",
   "status": "partial",
   "theorems": [
    "Verif.SchmidlCox.C127_range",
    "Verif.SchmidlCox.C127_end_fails",
    "Verif.SchmidlCox.C127_silence",
    "Verif.SchmidlCox.C127_carrier_offset",
    "Verif.SchmidlCox.C127_exact_partial",
    "Verif.SchmidlCox.C127_alone_partial",
    "Verif.SchmidlCox.C127_halves",
    "Verif.SchmidlCox.C127_ofdm_partial",
    "Verif.SchmidlCox.C127_uniform_fails",
    "Verif.SchmidlCox.C127_dc_fails"
   ],
   "note": "Exact position is proved of one frame without noise whose rest correlates less than its pilot symbol, and unconditionally of OFDM pilot symbols alone whose first sample and last sample of the first half are not zero. Missing: noise and several frames. False parts: pilot elements that are all equal are found a quarter of a symbol too early, for every even number of subcarriers above two; the last candidate of a signal is never found, so a pilot symbol at the end of a signal is missed; with the carrier suppressed and a number of subcarriers not divisible by four, the halves of the pilot symbol are not multiples of each other."
  },
  {
   "property": "C128",
   "status": "partial",
   "theorems": [
    "Verif.Carrier.C128_total",
    "Verif.Carrier.C128_same",
    "Verif.Carrier.C128_apart",
    "Verif.Carrier.C128_linear",
    "Verif.Carrier.C128_tone_partial",
    "Verif.Carrier.C128_cancel_fails",
    "Verif.Carrier.C128_block_partial",
    "Verif.Carrier.C128_block_fails",
    "Verif.Carrier.C128_order",
    "Verif.Carrier.C128_empty_fails"
   ],
   "note": "Equal carriers, disjoint bands, linearity, length and independence of order are proved; of overlapping bands every tone is proved to reappear at its own frequency with a real gain symmetric around the middle of the common band. Missing: ends of signals and the shape of the gain, which is scipy's. False parts: the band-pass is not centred, so every tone is rotated by 64 periods of the carrier distance, and equal tones at carriers a 128th of the sampling rate apart cancel instead of adding; the mixing sinusoid starts anew in every block of a sparse signal; on an empty signal, as in every device output, the first signal decides the carrier frequency, and signals at the device's own carrier are then lost."
  },
  {
   "property": "C129",
   "status": "partial",
   "theorems": [
    "Verif.Seeds.C129_seeds",
    "Verif.Seeds.C129_reproducible_partial",
    "Verif.Seeds.C129_schedule_fails",
    "Verif.Seeds.C129_duplicates_fails",
    "Verif.Seeds.C129_bits_fails",
    "Verif.Seeds.C129_noise_fails"
   ],
   "note": "Proved: all actors seed their scenario differently, and with a single actor everything drawn from the scenario's generator depends only on its seed. False parts: with two actors the numbers drawn depend on which actor gets a batch; nodes with generators of their own are copied to the actors in the same state and not seeded again, so every actor draws the same numbers from them. This concerns the bits of every modem, which is never given the scenario as mother, and the noise of every device constructed as usual: actors taking turns compute each sample's bits and noise as many times as there are actors. Pickling is taken to copy generators exactly."
  },
  {
   "property": "C130",
   "status": "partial",
   "theorems": [
    "Verif.RayTraced.C130_propagate_partial",
    "Verif.RayTraced.C130_state_partial",
    "Verif.RayTraced.C130_antennas_fails",
    "Verif.RayTraced.C130_taps_fails",
    "Verif.RayTraced.C130_cancel_fails",
    "Verif.RayTraced.C130_gain",
    "Verif.RayTraced.C130_energy_fails",
    "Verif.RayTraced.C130_coherent_fails",
    "Verif.RayTraced.C130_padding_fails",
    "Verif.RayTraced.C130_padding_partial",
    "Verif.RayTraced.C130_rate_fails",
    "Verif.RayTraced.C130_static",
    "Verif.RayTraced.C130_motion_fails",
    "Verif.RayTraced.C130_places_fails",
    "Verif.RayTraced.C130_frequency_fails",
    "Verif.RayTraced.C130_reciprocal_partial",
    "Verif.RayTraced.C130_reciprocal_fails",
    "Verif.RayTraced.C130_streams_partial"
   ],
   "note": "Proved: the propagation equation and its agreement with the reported state whenever rates agree, gains do not cancel and delays stay below the taps; scaling with the gain; reciprocity at equal carrier frequencies. False parts: paths whose gains add up to zero leave a signal without samples whatever their delays, since the expected energy is the magnitude of that sum, which moreover ignores the channel's gain and counts incoherent paths coherently; a path arriving at the last tap of a limited state is missing; padding only (delays of -1) raises an error; all antennas transmit and receive the same wherever they are; devices are traced at rest and at the transmitter's carrier frequency instead of the one requested, so directions of links between different carriers differ; offsets are scaled by the ratio of the rates while samples are not resampled. The tracer is a contract."
  },
  {
   "property": "C131",
   "status": "partial",
   "theorems": [
    "Verif.Pattern.C131_power",
    "Verif.Pattern.C131_default",
    "Verif.Pattern.C131_mounting",
    "Verif.Pattern.C131_focus",
    "Verif.Pattern.C131_matched",
    "Verif.Pattern.C131_refused",
    "Verif.Pattern.C131_element_fails",
    "Verif.Pattern.C131_receive_fails",
    "Verif.Pattern.C131_dipole_fails",
    "Verif.Pattern.C131_turned_fails",
    "Verif.Pattern.C131_slice_partial",
    "Verif.Pattern.C131_slice_fails",
    "Verif.Pattern.C131_slice_nan_fails",
    "Verif.Pattern.C131_common"
   ],
   "note": "Proved: the array factor in closed form with and without weights, independence of mounting, the maximum of matched weights and of conventional beamformers with its place, refusal of duplex, slices in directions of length one are great circles. False parts: characteristics and polarizations of the antennas are ignored; beamformers able to transmit never show how they receive; uniform arrays of simulated dipoles have no pattern since copies lose their weight; the streams encoded for a turned device differ from those of the pattern, up to complete cancellation in the direction shown as the strongest; slices in directions not of length one, such as (1, 1), evaluate other directions than those of their points or not a number. Not modelled: Capon receivers, which only exist there as pure receivers."
  },
  {
   "property": "C132",
   "status": "partial",
   "theorems": [
    "Verif.Static.C132_state_partial",
    "Verif.Static.C132_selection_fails",
    "Verif.Static.C132_basic_partial",
    "Verif.Static.C132_basic_fails",
    "Verif.Static.C132_mixing_fails",
    "Verif.Static.C132_silent",
    "Verif.Static.C132_silent_frame_fails",
    "Verif.Static.C132_frame",
    "Verif.Static.C132_signal_partial",
    "Verif.Static.C132_rate_fails",
    "Verif.Static.C132_streams_fails",
    "Verif.Static.C132_duration_partial",
    "Verif.Static.C132_duration_fails",
    "Verif.Static.C132_setter_fails",
    "Verif.Static.C132_carrier_fails",
    "Verif.Static.C132_silence_neutral",
    "Verif.Static.C132_history",
    "Verif.Static.C132_receive",
    "Verif.Static.C132_receiver",
    "Verif.Static.C132_receiver_duration_fails",
    "Verif.Static.C132_power"
   ],
   "note": "Proved: states of operators, silence, samples, power and identity of static transmissions over all histories, static receptions and the longest frame of a device. False parts: carrier frequencies of operators are ignored; antennas are not narrowed to selected ports, and basic states with different numbers of ports have more antennas than ports; static signals are not resampled but relabelled with the rate of the device, keep their own carrier frequency, which drops them after silence, and are sent whatever the number of streams; frame durations are too long by the oversampling factor and those of the first signal after it was replaced; silent transmitters have no frame duration, so that their device has none."
  },
  {
   "property": "C133",
   "status": "partial",
   "theorems": [
    "Verif.Resample.C133_refused",
    "Verif.Resample.C133_same",
    "Verif.Resample.C133_grid_partial",
    "Verif.Resample.C133_upsample_partial",
    "Verif.Resample.C133_linear",
    "Verif.Resample.C133_duration",
    "Verif.Resample.C133_shape",
    "Verif.Resample.C133_constant_fails",
    "Verif.Resample.C133_filter_fails",
    "Verif.Resample.C133_short_fails",
    "Verif.Resample.C133_short_up_fails",
    "Verif.Resample.C133_streams_fails",
    "Verif.Resample.C133_empty_fails",
    "Verif.Resample.C133_sparse_partial",
    "Verif.Resample.C133_sparse_fails",
    "Verif.Resample.C133_overlap_fails",
    "Verif.Resample.C133_offset",
    "Verif.Resample.C133_delay",
    "Verif.Resample.C133_delay_length",
    "Verif.Resample.C133_decimate_partial",
    "Verif.Resample.C133_delay_wanted"
   ],
   "note": "Proved: refusals, equal rates, shape, duration, offsets, linearity, samples at common times without a filter, upsampling of sparse signals by whole factors, delays by whole samples. False parts: constant signals ripple at their ends by more than a fifth (sinc interpolation is cut off there); the request to leave out the aliasing filter is ignored when downsampling by whole factors; signals, and blocks of sparse signals, of at most 27 samples cannot be downsampled with the default filter, nor upsampled to at most 27 samples; signals without streams get another number of samples than those with; empty blocks keep the offset counted at the former rate; sparse and dense signals with the same samples are resampled differently; adjacent blocks overlap after downsampling."
  },
  {
   "property": "C134",
   "status": "partial",
   "theorems": [
    "Verif.Keys.C134_selection_partial",
    "Verif.Keys.C134_single",
    "Verif.Keys.C134_shape_partial",
    "Verif.Keys.C134_refused",
    "Verif.Keys.C134_index_fails",
    "Verif.Keys.C134_start_fails",
    "Verif.Keys.C134_empty_fails",
    "Verif.Keys.C134_division_fails",
    "Verif.Keys.C134_beyond_fails",
    "Verif.Keys.C134_growth_fails",
    "Verif.Keys.C134_reversed_fails",
    "Verif.Keys.C134_streams_fails",
    "Verif.Keys.C134_refused_samples"
   ],
   "note": "Proved: the selection for bounds at most the size before the end and positive steps, shapes for slices ending within the signal, single keys, refusals. False parts: indices and bounds before the start wrap around instead of being refused or moved to the start; empty slices of streams are refused; negative bounds of signals without streams or samples divide by zero; slices reaching beyond the end count the samples beyond it, so that scalars make the signal longer and matrices of the right shape may be refused; reversed slices of samples ask for a negative number of samples."
  },
  {
   "property": "C135",
   "status": "partial",
   "theorems": [
    "Verif.Measured.C135_polynomial",
    "Verif.Measured.C135_cross",
    "Verif.Measured.C135_best_polynomial",
    "Verif.Measured.C135_best_cross",
    "Verif.Measured.C135_recovery",
    "Verif.Measured.C135_modulus_fails",
    "Verif.Measured.C135_time_fails",
    "Verif.Measured.C135_signal_fails"
   ],
   "note": "Proved: responses to vectors are those of equations 19 and 23 of Morgan et al.; best fits; exact recovery for inputs that tell amplifiers apart. False parts: inputs of constant amplitude do not determine the coefficients; outputs lack as many samples as the memory is long but one and come too early by as many; no signal can be amplified, since signals are matrices and the result is a vector (C64 for the amplifier without cross terms)."
  },
  {
   "property": "C136",
   "status": "partial",
   "theorems": [
    "Verif.SingleIdeal.C136_estimate",
    "Verif.SingleIdeal.C136_average_partial",
    "Verif.SingleIdeal.C136_static_partial",
    "Verif.SingleIdeal.C136_first_fails",
    "Verif.SingleIdeal.C136_change_fails",
    "Verif.SingleIdeal.C136_chirps_fails",
    "Verif.SingleIdeal.C136_paths_partial",
    "Verif.SingleIdeal.C136_late_fails",
    "Verif.SingleIdeal.C136_delay_fails",
    "Verif.SingleIdeal.C136_errors"
   ],
   "note": "Proved: the estimate of every symbol as a weighted sum of gains, for all pulses and channels; for rectangular pulses all symbols but the first of a static channel without delay are exact and zero forced exactly; errors. False parts: the first symbol's estimate is too small by up to one half, since only half the filter delay is taken off; averages end in the middle of symbols; estimates of chirps are too small, since symbols are looked for one bandwidth sample apart and the filters multiplied are not matched; the gains of delayed paths are added up as if not delayed, and paths delayed by a symbol or more ignored; frames after the first are given the channel of the first. Not covered: the values for rolled off pulses beyond the general formula."
  },
  {
   "property": "C137",
   "status": "partial",
   "theorems": [
    "Verif.Quadriga.C137_propagate_partial",
    "Verif.Quadriga.C137_state_partial",
    "Verif.Quadriga.C137_antennas_fails",
    "Verif.Quadriga.C137_rows_fails",
    "Verif.Quadriga.C137_state_fails",
    "Verif.Quadriga.C137_taps_fails",
    "Verif.Quadriga.C137_silence_fails",
    "Verif.Quadriga.C137_reception_partial",
    "Verif.Quadriga.C137_phase_fails",
    "Verif.Quadriga.C137_history",
    "Verif.Quadriga.C137_motion_fails",
    "Verif.Quadriga.C137_seed_fails",
    "Verif.Quadriga.C137_reciprocal_fails",
    "Verif.Quadriga.C137_restore_fails",
    "Verif.Quadriga.C137_given"
   ],
   "note": "Proved: propagation for one delay per path and equal numbers of antennas; agreement with the channel state between single antennas; over all histories the parameters and the number of the seed each sample is generated from. False parts: delays of pairs of antennas raise ValueError; output streams are counted at the transmitter's receiving antennas; states of several transmitting antennas raise ValueError or mix up antennas and time; delays beyond the requested taps raise IndexError; the expected energy adds amplitudes, so that everything sent over a channel whose coefficients do not add up to a positive real part vanishes; seeds of channels, and of the scenarios they belong to, do not reach the interface; velocities are ignored; reciprocal samples are independent new samples; restored channels lose scenario and antennas. Not covered: the Matlab and Octave processes and QuaDRiGa itself."
  },
  {
   "property": "C138",
   "status": "partial",
   "theorems": [
    "Verif.Direct.C138_trigger",
    "Verif.Direct.C138_errors",
    "Verif.Direct.C138_leakage_fails",
    "Verif.Direct.C138_device",
    "Verif.Direct.C138_agree_fails",
    "Verif.Direct.C138_realization"
   ],
   "note": "Proved: the signals handed to every device, for all selections of devices and all behaviours of devices and channels, the shared triggers, the errors, and what devices triggered on their own receive. False parts: direct triggers of scenarios leave out leakage, and ignore calibrations and whether they are asked for, so that a device triggered on its own and as the only device of a scenario differ by the leakage."
  },
  {
   "property": "C139",
   "status": "partial",
   "theorems": [
    "Verif.Rf.Filters.C139_recurrence",
    "Verif.Rf.Filters.C139_linear",
    "Verif.Rf.Filters.C139_constant",
    "Verif.Rf.Filters.C139_shape_partial",
    "Verif.Rf.Filters.C139_short_fails",
    "Verif.Rf.Filters.C139_carrier_fails",
    "Verif.Rf.Filters.C139_cutoff_fails",
    "Verif.Rf.Filters.C139_configuration",
    "Verif.Rf.Filters.C139_realize_partial",
    "Verif.Rf.Filters.C139_shared_fails",
    "Verif.Rf.Filters.C139_ramps"
   ],
   "note": "Proved: shape, meta data, linearity, the difference equations, the gain of constants, the checks of the configuration and the coefficients of realizations after all histories. False parts: signals of at most three times as many samples as there are coefficients raise ValueError; cutoff frequencies are taken in the baseband, so that unmodulated carriers of all frequencies above the cutoff are removed; the power at the cutoff frequency is quartered, because the filter is applied twice (proved for order one at a quarter of the sampling rate); realizations of equal parameters share their arrays, so that writing to one changes all. Not modelled: how `butter` finds its coefficients."
  },
  {
   "property": "C140",
   "status": "partial",
   "theorems": [
    "Verif.SparseAppend.C140_streams_partial",
    "Verif.SparseAppend.C140_dense",
    "Verif.SparseAppend.C140_longer_fails",
    "Verif.SparseAppend.C140_shorter_fails",
    "Verif.SparseAppend.C140_rate_fails",
    "Verif.SparseAppend.C140_samples_partial",
    "Verif.SparseAppend.C140_history",
    "Verif.SparseAppend.C140_empty_fails"
   ],
   "note": "Proved: appended samples of equal rates, all histories of appended matrices, and appended streams of equal rates if both signals have a sample at the end of every block of the result. False parts: streams ending before or after this signal raise ValueError instead of being padded; appended streams are shown without being resampled, only the blocks of the result are found from the resampled signal; nothing can be appended to signals without blocks, which report no streams. Columns of appended streams that cancel are lost outside of the blocks of this signal (excluded by hypothesis). Not modelled: other data types than double precision complex numbers; the values of resampled blocks, see C133."
  },
  {
   "property": "C141",
   "status": "partial",
   "theorems": [
    "Verif.Tile.C141_ends",
    "Verif.Tile.C141_aspect",
    "Verif.Tile.C141_tight",
    "Verif.Tile.C141_inside_partial",
    "Verif.Tile.C141_disjoint",
    "Verif.Tile.C141_offset_fails",
    "Verif.Tile.C141_refused",
    "Verif.Tile.C141_screen",
    "Verif.Tile.C141_backends"
   ],
   "note": "Proved: the loop ends after at most as many steps as there are figures, with room for all of them; the ratio of the layout is kept up to half a row; figures do not overlap for offsets that are not negative; without offsets they are on the screen. False part: sizes do not account for offsets, so that positive ones place the last figure of a full row beyond the edge of the screen. Not modelled: what backends make of geometries; rounding of floating point quotients."
  },
  {
   "property": "C142",
   "status": "partial",
   "theorems": [
    "Verif.BeamStreams.C142_dense",
    "Verif.BeamStreams.C142_single_partial",
    "Verif.BeamStreams.C142_single_fails",
    "Verif.BeamStreams.C142_blocks_fails",
    "Verif.BeamStreams.C142_refused",
    "Verif.BeamStreams.C142_silence_fails",
    "Verif.BeamStreams.C142_transmit_partial",
    "Verif.BeamStreams.C142_receive_partial",
    "Verif.BeamStreams.C142_capon_partial",
    "Verif.BeamStreams.C142_selected_fails",
    "Verif.BeamStreams.C142_ports_fails",
    "Verif.BeamStreams.C142_rate"
   ],
   "note": "Proved for dense signals and any beamformer; operators with the conventional beamformer in both directions and with the Capon beamformer. False parts: of several blocks all are moved to the first sample, since offsets are dropped by the views and Signal.Create disregards the ones handed over, so that only the last block remains or the samples cannot be read; a single block loses the samples preceding it to the delay; silence as a sparse signal is refused by transmitting beamformers; receivers which selected other numbers of ports than there are receiving antennas refuse everything, and transmitters send on all antennas whatever was selected. Missing: focus directions in turned arrays are as in C82; undefined weights of the null steering beamformer; blocks of different numbers of streams."
  },
  {
   "property": "C143",
   "status": "partial",
   "theorems": [
    "Verif.HwLeakageMmse.C143_estimator",
    "Verif.HwLeakageMmse.C143_optimal",
    "Verif.HwLeakageMmse.C143_response",
    "Verif.HwLeakageMmse.C143_noiseless",
    "Verif.HwLeakageMmse.C143_exact_partial",
    "Verif.HwLeakageMmse.C143_bias_fails",
    "Verif.HwLeakageMmse.C143_errors",
    "Verif.HwLeakageMmse.C143_ports_fails",
    "Verif.HwLeakageMmse.C143_measured",
    "Verif.HwLeakageMmse.C143_remembered"
   ],
   "note": "Proved for every singular value decomposition in exact arithmetic; that one exists is shown. False parts: with noise a single probe finds every response too weak by the same factor, even if nothing disturbed the receptions, so that leakage remains; devices with other numbers of receive than of transmit ports are refused whenever their noise power is measured, one value for each receive port being compared to the number of transmit ports. Missing: rounding of numpy's decomposition; exactness with several probes in noise; the calibration being handed to the device."
  },
  {
   "property": "C144",
   "status": "partial",
   "theorems": [
    "Verif.HwCalibrationFiles.C144_device_partial",
    "Verif.HwCalibrationFiles.C144_ports_fails",
    "Verif.HwCalibrationFiles.C144_again_fails",
    "Verif.HwCalibrationFiles.C144_interrupted_fails",
    "Verif.HwCalibrationFiles.C144_mixed_fails",
    "Verif.HwCalibrationFiles.C144_atomic",
    "Verif.HwCalibrationFiles.C144_single_partial",
    "Verif.HwCalibrationFiles.C144_class",
    "Verif.HwCalibrationFiles.C144_campaign_fails",
    "Verif.HwCalibrationFiles.C144_files"
   ],
   "note": "Proved for new files, over all later histories, and that loading is all or nothing. False parts: saving again to a file is accepted but changes nothing, so that the calibrations saved first are loaded ever after; a file whose first writing failed cannot be loaded again, whatever is saved to it; saving a device with a calibration of an unregistered class raises but leaves the other calibrations in the file, which are mixed with those saved later; devices silently load nothing from files of single calibrations, and single calibrations cannot be loaded from files of devices; the ports selected for leakage calibrations are lost. Missing: crashes that leave no valid HDF5 file; file handles that stay open since campaigns are never finalized."
  },
  {
   "property": "C145",
   "status": "partial",
   "theorems": [
    "Verif.SignalCreate.C145_blocks",
    "Verif.SignalCreate.C145_single_partial",
    "Verif.SignalCreate.C145_twice_fails",
    "Verif.SignalCreate.C145_silence_fails",
    "Verif.SignalCreate.C145_offsets_fails",
    "Verif.SignalCreate.C145_plain_fails",
    "Verif.SignalCreate.C145_streams_fails",
    "Verif.SignalCreate.C145_late_fails",
    "Verif.SignalCreate.C145_overlap_fails",
    "Verif.SignalCreate.C145_order_fails",
    "Verif.SignalCreate.C145_validator",
    "Verif.SignalCreate.C145_mixed_fails",
    "Verif.SignalCreate.C145_validator_offsets",
    "Verif.SignalCreate.C145_validator_plain"
   ],
   "note": "Proved for several blocks that fit, and for single arrays without offset. The check of blocks in the source accepts exactly those that fit, but nothing calls it. False parts: offsets handed over with several blocks have no effect; sequences of plain arrays are accepted but raise an AttributeError when read; a block of one stream is shown on all streams; blocks of other numbers of streams raise only when read; of overlapping blocks only the later is shown; blocks out of order raise only when read, or lose a single sample; a single block is shown without the silence before it, and handed over with its offset it is placed after twice its offset. Missing: arrays of other numbers of dimensions and other data types."
  }
 ]
}