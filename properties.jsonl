{"id": "C01", "title": "Repetition coding corrects every minority error pattern", "statement": "For RepetitionEncoder with block size K>=1 and odd repetition count M>=1: encode turns K bits into K*M bits, and decode returns exactly the K encoded bits for every received word in which, for each information bit, fewer than half of its M copies are flipped. More precisely bit i of decode is the majority value of the received copies of bit i.", "quantifier": "all K>=1, all odd M, all data words, all received words of length K*M", "why_tests_cant": "The number of error patterns grows as 2^(K*M); tests only sample a handful of flips.", "anchors": ["hermespy/fec/repetition_encoder.py: RepetitionEncoder.encode, RepetitionEncoder.decode, repetitions, bit_block_size"]}
{"id": "C02", "title": "Block interleaving is a loss-free permutation that spreads bursts", "statement": "For BlockInterleaver(block_size=N, interleave_blocks=M) with M dividing N: decode(encode(x)) = x and encode(decode(y)) = y for every block; encode only moves bits (output c*M+r is input r*(N/M)+c); and a burst of at most M consecutive channel positions touches at most one bit of each of the M interleaved sub-blocks.", "quantifier": "all N, M with M | N, all blocks of N bits (or soft values)", "why_tests_cant": "Holds for infinitely many (N, M) pairs and every content; tests use one size.", "anchors": ["hermespy/fec/block_interleaver.py: BlockInterleaver.encode, BlockInterleaver.decode, block_size, interleave_blocks"]}
{"id": "C03", "title": "CRC mock strips exactly what it appended", "statement": "For CyclicRedundancyCheck(bit_block_size=K, check_size=Q) decode(encode(x)) = x for every K-bit block, whichever random check bits are drawn, and encode yields K+Q bits starting with x.", "quantifier": "all K>=1, all Q>=0, all blocks, all outcomes of the random generator", "why_tests_cant": "Universal over the random stream and over the boundary case Q=0, for which the code returns an empty block.", "anchors": ["hermespy/fec/cyclic_redundancy_check.py: CyclicRedundancyCheck.encode, decode, check_size"]}
{"id": "C04", "title": "3GPP scrambler transmit/receive pair is transparent over any stream", "statement": "Scrambling any sequence of blocks with one Scrambler3GPP and descrambling the results in the same order with a scrambler constructed from the same seed returns the original blocks; cutting the same bit stream into blocks differently does not change the scrambled stream; one instance's encode and decode paths keep independent positions so the property also holds for interleaved encode/decode calls on a single instance.", "quantifier": "all seeds of at least 4 bits, all finite histories of encode and decode calls, all block contents and lengths", "why_tests_cant": "State is carried across an unbounded history of calls.", "anchors": ["hermespy/fec/scrambler.py: PseudoRandomGenerator, Scrambler3GPP.encode, Scrambler3GPP.decode"]}
{"id": "C05", "title": "802.11a scrambler keystream", "statement": "Two Scrambler80211a objects with the same seed descramble each other's stream for any block segmentation; for every nonzero 7-bit seed the keystream is periodic with period exactly 127 and balanced as a maximum-length sequence (64 ones, 63 zeros per period); encode followed by decode on one and the same instance is the identity.", "quantifier": "all 7-bit seeds, all histories of calls and block contents", "why_tests_cant": "Needs all seeds and unbounded call histories; the last sentence fails on the code because encode and decode share one shift register.", "anchors": ["hermespy/fec/scrambler.py: Scrambler80211a.encode, decode, seed"]}
{"id": "C06", "title": "Channel coding chain is transparent end to end", "statement": "For an EncoderManager holding any encoders whose individual decode inverts encode, with padding allowed, decode(encode(bits, n), len(bits)) returns exactly bits for every bit sequence and every admissible code length n, whatever random padding bits are drawn.", "quantifier": "all encoder chains (number, order of adding, block sizes, enabled flags), all data words, all padding outcomes", "why_tests_cant": "Quantifies over unbounded chains and over arbitrary block codes; block-size arithmetic interacts between stages and is wrong for non-nested block sizes.", "anchors": ["hermespy/fec/coding.py: EncoderManager.encode, EncoderManager.decode, bit_block_size, code_block_size, add_encoder"]}
{"id": "C07", "title": "Channel coding length and error contract", "statement": "encode raises exactly when padding would be needed but is forbidden, when the requested code length is shorter than the generated code, or when the required padding is at least one code block; otherwise the returned code has exactly the requested length. Encoders are executed in ascending order of their data block size whatever the order in which they were added, and adding an encoder never loses another one.", "quantifier": "all encoder sets, all insertion orders, all data lengths and requested code lengths", "why_tests_cant": "Exact if-and-only-if characterisation of the error branches over all inputs.", "anchors": ["hermespy/fec/coding.py: EncoderManager.encode, add_encoder, __execution_order, code_block_size"]}
{"id": "C08", "title": "Precoding chain stream accounting", "statement": "For any chain of precoders the stream counts used while encoding (decoding) form a consistent ladder: every stage is asked for exactly the number of streams the next (previous) stage consumes (produces), the last (first) number is the requested number of ports, and the call raises ValueError iff the requested number is below one or some stage declares the configuration infeasible.", "quantifier": "all chains of precoders with arbitrary stream-count functions, all port counts", "why_tests_cant": "Quantifies over arbitrary chains and arbitrary precoder implementations.", "anchors": ["hermespy/core/precoding.py: TransmitPrecoding._collect_encoder_num_io_streams, ReceivePrecoding._collect_decoder_num_io_streams, TransmitSignalCoding.encode_streams, ReceiveSignalCoding.decode_streams"]}
{"id": "C09", "title": "Precoder order is the order given by the user", "statement": "A Device constructed with transmit (receive) coding steps [s1,...,sn] applies them in the order s1,...,sn, and serializing and deserializing the device preserves that order.", "quantifier": "all lists of coding steps", "why_tests_cant": "Order preservation for lists of any length; the code inserts every step at the front, so it reverses the list.", "anchors": ["hermespy/core/precoding.py: Precoding.__setitem__", "hermespy/core/device.py: Device.__init__, Device.serialize, Device.Deserialize"]}
{"id": "C10", "title": "Alamouti coding achieves loss-free full-rate transmission", "statement": "For every symbol frame with an even number of blocks and every two-antenna channel that is constant over each pair of blocks, Alamouti.decode_symbols applied to the noise-free reception of Alamouti.encode_symbols returns the original symbols with unit channel state at every receive antenna whose channel is not identically zero; each of the two antennas carries exactly the energy of the input, the two antenna streams are orthogonal, and encoding is rejected exactly for several input streams, for a number of antennas other than two and for an odd number of blocks.", "quantifier": "all symbol sequences of even length, all complex channel coefficients not both zero", "why_tests_cant": "Continuous universe of symbols and channels.", "anchors": ["hermespy/modem/precoding/space_time_block_coding.py: Alamouti.encode_symbols, Alamouti.decode_symbols"]}
{"id": "C11", "title": "Ganesan orthogonal space-time coding is loss-free", "statement": "For every symbol block whose length is a multiple of three and every four-antenna channel constant over a code block and not identically zero, Ganesan.decode applied to the noise-free reception of Ganesan.encode returns the original symbols.", "quantifier": "all symbols and all complex four-antenna channels with non-zero norm", "why_tests_cant": "Continuous universe; polynomial identity in eleven complex unknowns.", "anchors": ["hermespy/modem/precoding/space_time_block_coding.py: Ganesan.encode_symbols, Ganesan.decode_symbols"]}
{"id": "C12", "title": "Symbol precoding block accounting", "statement": "The number of symbol blocks announced for a decoding chain equals the number of blocks the chain actually outputs, and encoding/decoding accounting are inverse to each other for a matching encoder/decoder chain.", "quantifier": "all chains of symbol precoders with rational code rates, all block counts", "why_tests_cant": "Quantifies over all chains and counts; the decoder accounting divides by the rate instead of multiplying.", "anchors": ["hermespy/modem/precoding/symbol_precoding.py: TransmitSymbolCoding, ReceiveSymbolCoding.num_decoded_blocks"]}
{"id": "C13", "title": "Noise-tolerant exact demapping of PSK/QAM", "statement": "For every supported real PAM / complex QAM order of the 3GPP mapping, hard decisions recover the transmitted bits from every received value closer to the transmitted constellation point than half the minimum distance (per real dimension), and the soft outputs have the correct sign there; noise-free round trip is the special case.", "quantifier": "all supported orders, all bit words, all real-valued noise below half the minimum distance", "why_tests_cant": "Noise ranges over a continuum; tests check noise-free points or random draws.", "anchors": ["hermespy/modem/tools/psk_qam_mapping.py: PskQamMapping.get_symbols, detect_bits, generate_pam_symbol_3gpp, get_llr_3gpp"]}
{"id": "C14", "title": "PSK/QAM constellation is injective, Gray labelled and normalised", "statement": "The bit mapping is injective on every supported order, nearest neighbours differ in exactly one bit, and the mean energy of the constellation is one.", "quantifier": "all supported modulation orders and all bit words", "why_tests_cant": "Statement about the whole code book of each order and about exact (irrational) scaling factors.", "anchors": ["hermespy/modem/tools/psk_qam_mapping.py: generate_pam_symbol_3gpp, get_mapping, PskQamMapping.get_symbols"]}
{"id": "C15", "title": "Monte Carlo queue schedules every grid section exactly as often as requested", "statement": "Whatever the grid shape, number of samples, number of blocks per batch and interleaving of batch requests with early-stop notifications: no grid section is ever dispatched more than num_samples times, a section is never dispatched after it was disabled, batches are never larger than the configured size, and once the queue is exhausted every section that was not disabled early has been dispatched exactly num_samples times.", "quantifier": "all grids, all schedules of next_batch / disable_section calls from any number of actors", "why_tests_cant": "Quantifies over all interleavings of the asynchronous actors.", "anchors": ["hermespy/core/pymonte/actors.py: MonteCarloQueueManager.next_batch, disable_section"]}
{"id": "C16", "title": "Monte Carlo progress is truthful", "statement": "The reported progress is the fraction of dispatched (or cancelled) samples, lies in [0,1], never decreases over any history and reaches 1 exactly when no section is active.", "quantifier": "all grid dimensions and all histories of queue operations", "why_tests_cant": "History-dependent; on multi-dimensional grids the code indexes whole rows of the counter array so that the reported figure is wrong.", "anchors": ["hermespy/core/pymonte/actors.py: MonteCarloQueueManager.query_progress"]}
{"id": "C17", "title": "Stage re-use in Monte Carlo actors is transparent", "statement": "When grid dimensions declare correctly which execution stages they influence, an actor that re-executes only the impacted stages between consecutive samples of a batch yields, for every sample, artifacts computed from stages that ran under exactly that sample's grid parameters.", "quantifier": "all stage lists, all impact declarations (including unset and unknown stage names), all batches of any length", "why_tests_cant": "Correctness of incremental re-execution must hold for every program of sections, not a sample.", "anchors": ["hermespy/core/pymonte/actors.py: MonteCarloActor.__run_batch, __execute_stages"]}
{"id": "C18", "title": "Grid coordinates mean the same to scheduler, actors and results", "statement": "A sample scheduled for section (i1,...,id) is evaluated with sample point ik of the user's k-th dimension configured and booked to the result entry of that combination, for any declared stage impacts of the dimensions.", "quantifier": "all lists of dimensions with arbitrary lengths and impact declarations", "why_tests_cant": "Depends on an internal re-ordering for every combination of impacts; tests use at most a few dimensions already in order.", "anchors": ["hermespy/core/pymonte/monte_carlo.py: MonteCarlo.simulate", "hermespy/core/pymonte/actors.py: MonteCarloActor.__run_batch", "hermespy/core/pymonte/grid.py: GridDimension.configure_point"]}
{"id": "C19", "title": "Scalar evaluation results are exact and schedule independent", "statement": "The reported scalar of each section is the arithmetic mean of precisely the artifacts added for that section, independent of the order in which artifacts of all sections arrive, and adding an artifact to one section never changes another; early stopping is only reported at multiples of the minimum number of samples and only when confidence evaluation is requested.", "quantifier": "all sequences and all permutations/interleavings of artifacts", "why_tests_cant": "All interleavings of an asynchronous collection process.", "anchors": ["hermespy/core/pymonte/scalar.py: ScalarEvaluationResult.add_artifact, to_array"]}
{"id": "C20", "title": "Collected samples are neither lost nor double counted", "statement": "Every sample returned by an actor is booked exactly once in the evaluation results before the results are handed to the user, for every schedule of actor completions and result fetches; samples of a section that is already confident do not alter other sections.", "quantifier": "all schedules of actor completions, collector polls and the final fetch", "why_tests_cant": "Concurrency: quantifies over all interleavings and the moment the final fetch happens.", "anchors": ["hermespy/core/pymonte/actors.py: MonteCarloCollector.run, __process_samples, fetch_results"]}
{"id": "C21", "title": "Sparse and dense signal representations agree", "statement": "Converting a dense block to a SparseSignal and back with to_dense returns the same samples (up to trailing zeros), block offsets are strictly increasing and blocks do not overlap or touch.", "quantifier": "all sample matrices of any number of streams and samples", "why_tests_cant": "All contents incl. columns that cancel when summed over streams, which the code drops.", "anchors": ["hermespy/core/signal_model.py: SparseSignal.__from_dense, SparseSignal.to_dense, set_samples"]}
{"id": "C22", "title": "Sparse superposition is pointwise addition", "statement": "Superimposing two sparse signals of equal rate, carrier and stream count yields a signal whose dense view is the pointwise sum of the two dense views, with sorted non-overlapping blocks, and without modifying the argument.", "quantifier": "all sparse signals (any number of blocks, any overlaps)", "why_tests_cant": "Arbitrary interval overlaps; tests try a few layouts.", "anchors": ["hermespy/core/signal_model.py: SparseSignal.superimpose, _getblocks_union"]}
{"id": "C23", "title": "Slicing a sparse signal equals slicing its dense view", "statement": "signal[:, a:b:s] of a SparseSignal represents exactly the samples dense[:, a:b:s].", "quantifier": "all sparse signals, all start/stop/step", "why_tests_cant": "All slice parameters; fails for steps of three and more.", "anchors": ["hermespy/core/signal_model.py: SparseSignal.__getitem__"]}
{"id": "C24", "title": "Assigning to a slice only changes that slice", "statement": "After signal[:, a:b] = v on a SparseSignal, the dense view equals v inside [a,b) and is unchanged outside.", "quantifier": "all sparse signals, all ranges, all values", "why_tests_cant": "All relative positions of range and blocks; fails when the range lies inside a block.", "anchors": ["hermespy/core/signal_model.py: SparseSignal.__setitem__"]}
{"id": "C25", "title": "Dense superposition respects signal delays", "statement": "DenseSignal.superimpose adds the other signal's samples at the sample index given by the difference of the two delays; no sample of either signal that falls behind the start of the first is lost.", "quantifier": "all signals, delays and stream selections", "why_tests_cant": "All delay relations; fails if the added signal starts later.", "anchors": ["hermespy/core/signal_model.py: DenseSignal.superimpose"]}
{"id": "C26", "title": "Appending and interleaving of signals are loss-free", "statement": "Appending samples/streams concatenates along the respective axis leaving earlier content untouched, is associative, and to_interleaved/from_interleaved are mutually inverse.", "quantifier": "all signals, all append histories", "why_tests_cant": "Unbounded histories and all contents.", "anchors": ["hermespy/core/signal_model.py: DenseSignal.append_samples, append_streams, to_interleaved, FromInterleaved"]}
{"id": "C27", "title": "Logarithmic numbers are consistent in both domains", "statement": "For Logarithmic numbers linear value and decibel value always satisfy lin = 10^(dB/10) (power) or 10^(dB/20) (amplitude) after construction from either domain and after any arithmetic between Logarithmics; db2lin and lin2db are mutually inverse; the same holds for the elements of a LogarithmicSequence.", "quantifier": "all positive reals, both conversion types, all arithmetic expressions", "why_tests_cant": "Continuous domain; fails for elements of amplitude sequences.", "anchors": ["hermespy/core/logarithmic.py: Logarithmic, LogarithmicSequence", "hermespy/tools/math.py: db2lin, lin2db"]}
{"id": "C28", "title": "Poses built from roll/pitch/yaw and quaternions are rigid and recoverable", "statement": "Transformation.From_RPY yields an orthonormal rotation with determinant one for all angles; invert is the two-sided inverse; reading rotation_rpy back describes the same rotation; From_Quaternion(rotation_quaternion(T)) has the same rotation as T; rotating a direction keeps its length.", "quantifier": "all real angle triples and translations, including gimbal lock", "why_tests_cant": "Continuous domain with singular points; quaternion extraction is wrong everywhere.", "anchors": ["hermespy/core/transformation.py: Transformation.From_RPY, rotation_rpy, rotation_quaternion, From_Quaternion, invert, transform_position, rotate_direction"]}
{"id": "C29", "title": "Directions survive the spherical round trip", "statement": "Direction.From_Cartesian / From_Spherical and to_spherical are mutually inverse on unit vectors (azimuth modulo 2 pi, arbitrary at the poles) and From_Spherical always yields a unit vector.", "quantifier": "all real angles and all unit vectors", "why_tests_cant": "Continuous domain incl. poles.", "anchors": ["hermespy/core/transformation.py: Direction.From_Spherical, to_spherical, From_Cartesian"]}
{"id": "C30", "title": "Cached kinematics never go stale", "statement": "After any history of pose, position, orientation and base changes on a tree of Transformables, the forwards transformation of every frame equals the product of the current poses from the root base to that frame (and the backwards transformation is its inverse), regardless of when the values were read before.", "quantifier": "all trees of frames, all histories of mutations and reads", "why_tests_cant": "Cache coherence over unbounded histories; fails after lookat.", "anchors": ["hermespy/core/transformation.py: Transformable.set_base, pose, position, orientation, lookat, forwards_transformation, backwards_transformation, _kinematics_updated, TransformableLink.add_link, remove_link"]}
{"id": "C31", "title": "RF chain evaluation follows the wiring", "statement": "For every acyclic wiring of an RF chain, transmit and receive evaluate each reachable block exactly once, feed every input port with the signal of the output port connected to it, and connecting blocks never discards an earlier connection; invalid connections raise and change nothing; the result depends only on the blocks, the wiring and the streams handed to the chain.", "quantifier": "all finite acyclic block graphs, all histories of connect calls, all contents of allocated memory", "why_tests_cant": "Quantifies over all graphs; a second connection between the same two blocks silently replaces the first. Inputs left open are filled with uninitialised memory, which a single run cannot show.", "anchors": ["hermespy/simulation/rf/chain.py: RFChain.connect, __generate_output, transmit, receive, RFBlockReference.connect_to, connect_from"]}
{"id": "C32", "title": "Serialization preserves values and object identity", "statement": "Writing any object graph with the HDF serialization process and reading it back yields equal values for every field, with two references to one object becoming two references to one object, independent of the order of the fields.", "quantifier": "all object graphs, all orders of serialize and deserialize calls", "why_tests_cant": "All graphs and orders; array identity is keyed by memory address of possibly dead temporaries.", "anchors": ["hermespy/core/factory.py: HDFSerializationProcess, HDFDeserializationProcess, serialize_array, _serialize_object, _deserialize_object, serialize_object_sequence"]}
{"id": "C33", "title": "Operator slots of a device", "statement": "After any history of adding and removing DSP operators, every slot lists each operator at most once in order of first insertion, and minimum frame length requests equal the maximum over the registered operators.", "quantifier": "all histories of add/remove calls", "why_tests_cant": "Unbounded histories.", "anchors": ["hermespy/core/device.py: OperatorSlot.add, remove, num_operators, ReceiverSlot.min_num_samples_per_frame"]}
{"id": "C34", "title": "Devices receive the superposition of all impinging signals", "statement": "Device.process_input hands to every receiver the sum of all impinging signals restricted to the receiver's selected ports, one input per receiver in registration order, and raises if an impinging signal has the wrong number of streams.", "quantifier": "all lists of impinging signals of any length", "why_tests_cant": "All list lengths; for anything but exactly one signal the code discards the superposition.", "anchors": ["hermespy/core/device.py: Device.process_input, Device.receive_operators"]}
{"id": "C35", "title": "Record and replay are inverse", "statement": "Dropping n times in record mode, stopping, and replaying the file yields the same n drops in the same order, starting from the requested offset, and then fails; recording to an existing file appends; a scenario cannot be modified while recording or replaying; stop always returns to default mode; num_drops is zero in default mode, the number of drops recorded so far in record mode, and the recorded number of drops in replay mode.", "quantifier": "all histories of record / drop / stop / replay calls and all drops", "why_tests_cant": "Unbounded histories over persistent state.", "anchors": ["hermespy/core/scenario.py: Scenario.record, replay, stop, drop, num_drops, campaign, add_device"]}
{"id": "C36", "title": "Channel links of a scenario", "statement": "After any history of add_device and set_channel, channel(a,b) = channel(b,a) is the channel most recently set for that pair or the default channel; the list of channels has no duplicates and contains every channel in use, so propagation finds a realization for every pair.", "quantifier": "all histories of set_channel calls over any number of devices and channels", "why_tests_cant": "Unbounded histories; replacing an explicitly linked default channel removes it while it is still in use.", "anchors": ["hermespy/simulation/scenario.py: SimulationScenario.set_channel, channel, channels, device_channels, realize_channels"]}
{"id": "C37", "title": "Propagation reaches every ordered device pair exactly once", "statement": "propagate returns an n x n matrix whose entry (receiver, transmitter) is the transmission of that transmitter passed through the realization of the channel linking both, with the two directions of a pair sampled from the same realization (reciprocity), and raises if the number of transmissions is not n.", "quantifier": "all numbers of devices, all channel assignments, all transmissions", "why_tests_cant": "All n; tests use two or three devices.", "anchors": ["hermespy/simulation/scenario.py: SimulationScenario.propagate"]}
{"id": "C38", "title": "Shared triggers fire simultaneously", "statement": "realize_triggers returns one realization per device; two devices get the same realization iff they share the trigger model; every distinct model is realized exactly once.", "quantifier": "all assignments of trigger models to any number of devices", "why_tests_cant": "All sharing patterns.", "anchors": ["hermespy/simulation/scenario.py: SimulationScenario.realize_triggers"]}
{"id": "C39", "title": "Random seeding is reproducible", "statement": "Setting the seed of a RandomNode makes all subsequently drawn numbers a function of the seed and the number of draws only, and nodes below a common mother draw from the mother's generator; this includes the seed given to the constructor. Nodes that were never seeded do not share randomness.", "quantifier": "all trees of random nodes, all histories of draws and (re)seeding", "why_tests_cant": "Unbounded histories; a node constructed with a mother keeps its own generator.", "anchors": ["hermespy/core/random_node.py: RandomNode.seed, random_mother, _rng"]}
{"id": "C40", "title": "Hooks are called exactly once each and removal is effective", "statement": "After any history of add/remove, notify calls exactly the currently registered callbacks, each once per registration in order, with the notified object, and a removed hook is never called again.", "quantifier": "all histories of hook operations", "why_tests_cant": "Unbounded histories.", "anchors": ["hermespy/core/hooks.py: Hookable, Hook"]}
{"id": "C41", "title": "Threshold and maximum radar detectors report true peaks", "statement": "ThresholdDetector reports exactly those bins whose normalised power is at least the threshold (and which are local maxima when peak detection is on); MaxDetector reports a global maximum, at the position given by its bin's angles, range and velocity.", "quantifier": "all radar cubes of any size and content", "why_tests_cant": "All cube contents; MaxDetector passes azimuth and zenith in swapped order.", "anchors": ["hermespy/radar/detection.py: ThresholdDetector.detect, MaxDetector.detect, PointDetection.FromSpherical"]}
{"id": "C42", "title": "Radar cube consistency", "statement": "Constructing a RadarCube succeeds iff data dimensions match the given bins; normalisation yields maximum power one; serialization round-trips.", "quantifier": "all cubes", "why_tests_cant": "All shapes and contents.", "anchors": ["hermespy/radar/cube.py: RadarCube.__init__, normalize_power, serialize, Deserialize"]}
{"id": "C43", "title": "Frame dimensioning of the coding chain is exact", "statement": "For a requested frame of n code bits, encoding any required_num_data_bits(n) data bits with target length n succeeds, returns exactly n bits and decodes back to the data; if n is a multiple of the code block size this holds even with padding forbidden.", "quantifier": "all encoder chains with exactly nested block sizes, all n>=1, all data, all padding outcomes", "why_tests_cant": "Arithmetic over arbitrary chains and frame sizes.", "anchors": ["hermespy/fec/coding.py: EncoderManager.required_num_data_bits, encode, decode, bit_block_size, code_block_size"]}
{"id": "C44", "title": "Drops are generated along device trajectories", "statement": "A simulation with a finite drop interval generates one drop per announced timestamp along the trajectories for every sample of every grid section.", "quantifier": "all trajectories, drop intervals, scenarios and evaluators", "why_tests_cant": "the number of drops depends on a real-valued interval and on the interplay of stage arguments with arbitrary stages", "anchors": ["hermespy/simulation/simulation.py:Simulation.run", "hermespy/simulation/simulation.py:SimulationActor", "hermespy/core/pymonte/actors.py:MonteCarloActor.__init__"]}
{"id": "C45", "title": "Stage arguments are exhausted for every sample", "statement": "Every sample of a grid section yields one artifact tuple per combination of the stage arguments handed to the simulation.", "quantifier": "all stage lists, stage argument lists, batches and impact declarations", "why_tests_cant": "stage re-use depends on the order of sections within a batch and on impact declarations, so the number of artifacts varies over infinitely many batches", "anchors": ["hermespy/core/pymonte/actors.py:MonteCarloActor.__execute_stages", "hermespy/core/pymonte/actors.py:MonteCarloActor.__run_batch"]}
{"id": "C46", "title": "Modems accept an existing coding object", "statement": "Constructing a transmitting or receiving modem with an existing (non-empty) TransmitSymbolCoding, TransmitSignalCoding, ReceiveSymbolCoding or ReceiveSignalCoding object terminates and uses the steps of that object.", "quantifier": "all coding objects with any number of steps", "why_tests_cant": "Non-termination cannot be observed by a finite test, and the claim quantifies over all chains.", "anchors": ["hermespy/modem/modem.py: TransmittingModemBase.__init__ (692-708), ReceivingModemBase.__init__ (1047-1063)", "hermespy/core/precoding.py: Precoding.__setitem__"]}
{"id": "C47", "title": "Diversity decoding followed by zero forcing returns the symbols", "statement": "In the receive chain of the modem (symbol decoding, then zero-forcing equalization) the noise-free reception of a single symbol stream over any known non-vanishing channel returns the transmitted symbols, whether the symbol decoder is Alamouti, MaximumRatioCombining, SingleCarrier selection, or absent.", "quantifier": "all symbols, all channels with non-zero gain, any number of receive antennas", "why_tests_cant": "Continuous universe of symbols and channels; the existing unit tests check each decoder without the equalizer behind it.", "anchors": ["hermespy/modem/precoding/ratio_combining.py: MaximumRatioCombining.decode_symbols", "hermespy/modem/precoding/single_carrier.py: SingleCarrier.decode_symbols", "hermespy/modem/precoding/space_time_block_coding.py: Alamouti", "hermespy/modem/waveform.py: ZeroForcingChannelEqualization.equalize_channel", "hermespy/modem/modem.py: ReceivingModemBase._receive"]}
{"id": "C48", "title": "DFT symbol precoding is loss-free", "statement": "For each of the three normalisations, every number of streams, blocks and symbols, DFT.decode_symbols(DFT.encode_symbols(x)) = x, and over a channel that does not change over the blocks, decoding the reception of the precoded symbols yields the reception of the plain symbols.", "quantifier": "all symbol frames, all normalisations, all static MIMO channels", "why_tests_cant": "Continuous universe and unbounded transform length.", "anchors": ["hermespy/modem/precoding/dft.py: DFT.encode_symbols, DFT.decode_symbols"]}
{"id": "C49", "title": "Looking at a target orients the frame towards it", "statement": "After Transformation.lookat(target, up) the pose is a proper rotation at the unchanged position, the target lies on the positive local z axis, the local x axis is perpendicular to up and the local y axis on the side of up; the arguments are left unchanged.", "quantifier": "all poses, targets and non-zero up vectors", "why_tests_cant": "Continuous domain with degenerate directions (target along up, target at own position).", "anchors": ["hermespy/core/transformation.py: Transformation.lookat"]}
{"id": "C50", "title": "Device.generate_output maps every transmission to its ports and leaves transmissions intact", "statement": "For every list of operator transmissions, Device.generate_output emits a signal with one stream per transmit port whose port k carries at every time the sum of all transmission streams assigned to port k by selected_transmit_ports (all ports if None), covering the longest transmission, and does not modify the operator transmissions passed to it.", "quantifier": "all stores of signals, all numbers of transmissions, all port selections", "why_tests_cant": "Tests transmit with one operator on all ports; the mapping of arbitrary port subsets and the aliasing between output and transmissions cover an unbounded space of selections and lengths.", "anchors": ["hermespy/core/device.py:1393-1457", "hermespy/core/signal_model.py:1446-1534"]}
{"id": "C51", "title": "CFAR detection compares every cell with its training cells and is independent of the scale of the powers", "statement": "CFARDetector.detect reports exactly the cells whose power exceeds pfa^(-1/n) - 1 times the sum of the powers of their n training cells, i.e. the cells inside the configured window around them, clipped at the cube's borders, but not in the guard window; every cell has a training cell; scaling all powers by a positive factor changes no decision; cubes smaller than the window are refused.", "quantifier": "for all cubes with non-negative powers, numbers of training and guard cells, probabilities of false alarm, positive scales", "why_tests_cant": "Tests look at a few cubes and window sizes; borders, guard cells and scales combine in unboundedly many ways.", "anchors": ["hermespy/radar/detection.py:467-646"]}
{"id": "C52", "title": "Error indicators count every bit, block and frame once", "statement": "For every transmission and reception of a link, the bit (block, frame) error evaluator produces exactly one indicator per bit (block, frame) on either side. The indicator of a position present on both sides is one iff the two sides differ there; a position missing on either side counts as an error. The artifact of the bit error evaluator is the fraction of wrong bits. The compared objects are the most recent transmission and the most recent reception.", "quantifier": "for all transmissions and receptions: any number of frames on both sides, any frame lengths, any block sizes, any bits; any history of transmissions and receptions", "why_tests_cant": "The number of frames, the frame lengths and block sizes on both sides vary independently; a test compares a few lengths and cannot settle which mismatches are silently treated as correct.", "anchors": ["hermespy/modem/evaluators.py:BitErrorEvaluator.evaluate", "hermespy/modem/evaluators.py:BlockErrorEvaluator.evaluate", "hermespy/modem/evaluators.py:FrameErrorEvaluator.evaluate", "hermespy/modem/evaluators.py:CommunicationEvaluator.transmit_callback"]}
{"id": "C53", "title": "Throughput is the rate of correctly received bits", "statement": "The throughput artifact equals the number of bits in correctly received frames divided by the time taken by all frames, lost ones included; it is zero if nothing has been received, never negative and never above the rate of an error-free link.", "quantifier": "for all transmissions and receptions whose frames have equal bit counts and durations", "why_tests_cant": "The value depends on which subset of any number of frames is wrong or lost.", "anchors": ["hermespy/modem/evaluators.py:ThroughputEvaluator.evaluate"]}
{"id": "C54", "title": "A modem codes with exactly the encoders it is given", "statement": "After constructing a modem, link or duplex modem with an encoding argument, the modem's encoder manager holds exactly the given encoders, each once, ordered by block size: whether the argument is a sequence of encoders or an EncoderManager.", "quantifier": "for all lists of encoders, for both kinds of arguments, for single and duplex modems", "why_tests_cant": "The constructor iterates over a list object which the loop body itself may modify; whether the loop terminates and what it leaves depends on list length and object identity.", "anchors": ["hermespy/modem/modem.py:BaseModem.__init__", "hermespy/modem/modem.py:SimplexLink.__init__", "hermespy/modem/modem.py:DuplexModem.__init__", "hermespy/fec/coding.py:EncoderManager.add_encoder"]}
{"id": "C55", "title": "Data symbols placed in a resource grid are found again", "statement": "Placing exactly symbols_per_frame data symbols in the grid of an orthogonal waveform puts every data symbol in a data cell, every reference symbol in a reference cell and zeros in null cells, in order; picking returns the data symbols in their original order. Picking stated symbols selects, for every stream and every channel state layer, the same cells, so that symbols and their states stay aligned. Any other number of data symbols is refused.", "quantifier": "for all grid structures whose sections fit the available subcarriers (any sections, patterns, repetitions and elements), all data and reference symbols, any number of streams and state layers", "why_tests_cant": "The index bookkeeping runs over nested repetitions of sections, patterns and elements of arbitrary sizes.", "anchors": ["hermespy/modem/waveforms/orthogonal/waveform.py:OrthogonalWaveform.place", "hermespy/modem/waveforms/orthogonal/waveform.py:OrthogonalWaveform.pick", "hermespy/modem/waveforms/orthogonal/waveform.py:GridSection.place_symbols", "hermespy/modem/waveforms/orthogonal/waveform.py:GridSection.pick_symbols"]}
{"id": "C56", "title": "Orthogonal modulation loses nothing", "statement": "A frame modulated by an OFDM, OTFS or OCDM waveform and received unchanged is demodulated to exactly the placed symbol grid, and picking returns the data symbols; the modulated frame has samples_per_frame samples, all of them determined by the configuration and the symbols; OFDM with suppressed direct current and oversampling emits words of zero mean.", "quantifier": "for all grid structures (sections, patterns, prefixes of each kind, guard intervals, pilot sections), all numbers of subcarriers, all oversampling factors, all symbols", "why_tests_cant": "Index arithmetic over all structures and exact invertibility of three transforms of every size cannot be tested exhaustively, and uninitialised memory often happens to be zero.", "anchors": ["hermespy/modem/waveforms/orthogonal/waveform.py:OrthogonalWaveform.modulate", "hermespy/modem/waveforms/orthogonal/waveform.py:OrthogonalWaveform.demodulate", "hermespy/modem/waveforms/orthogonal/waveform.py:SymbolSection.place_samples", "hermespy/modem/waveforms/orthogonal/waveform.py:SymbolSection.pick_samples", "hermespy/modem/waveforms/orthogonal/ofdm.py:OFDMWaveform._forward_transformation", "hermespy/modem/waveforms/orthogonal/otfs.py:OTFSWaveform", "hermespy/modem/waveforms/orthogonal/ocdm.py:OCDMWaveform"]}
{"id": "C57", "title": "The sample offset of a section is transparent", "statement": "Reading the words of a section sample_offset samples early, within the cyclic prefix, does not change the demodulated symbols: the receiver compensates the resulting phase rotation.", "quantifier": "for all waveforms, sections, offsets up to the length of the cyclic prefix and symbols", "why_tests_cant": "The compensation depends on the position of the section, the waveform, the oversampling factor and the suppression of the direct current.", "anchors": ["hermespy/modem/waveforms/orthogonal/waveform.py:OrthogonalWaveform.demodulate", "hermespy/modem/waveforms/orthogonal/waveform.py:SymbolSection.pick_samples", "hermespy/modem/waveforms/orthogonal/ofdm.py:OFDMWaveform._correct_sample_offset", "hermespy/modem/waveforms/orthogonal/ocdm.py:OCDMWaveform._correct_sample_offset"]}
{"id": "C58", "title": "The frame duration is the duration of the modulated frame", "statement": "frame_duration(bandwidth) equals samples_per_frame(bandwidth, oversampling_factor) divided by the sampling rate, for every oversampling factor.", "quantifier": "for all grid structures, bandwidths and oversampling factors", "why_tests_cant": "Prefixes and guard intervals are rounded to samples individually, at each oversampling factor.", "anchors": ["hermespy/modem/waveforms/orthogonal/waveform.py:OrthogonalWaveform.samples_per_frame", "hermespy/modem/waveforms/orthogonal/waveform.py:OrthogonalWaveform.frame_duration", "hermespy/modem/waveform.py:CommunicationWaveform.frame_duration"]}
{"id": "C59", "title": "Generated pilots belong to the current configuration", "statement": "At every point of the life of an orthogonal waveform, PilotSection.generate returns the pilot of the pilot elements, number of subcarriers, oversampling factor and other waveform settings configured at that time, never one of an earlier configuration. Requests for n pilot symbols return the configured sequence repeated cyclically, or fail if repetition is forbidden and the sequence too short.", "quantifier": "for all histories of setter calls and pilot generations, all pilot elements, numbers of subcarriers, oversampling factors and waveform settings", "why_tests_cant": "Whether a cached pilot is stale depends on the whole history of the object.", "anchors": ["hermespy/modem/waveforms/orthogonal/waveform.py:PilotSection.generate", "hermespy/modem/waveforms/orthogonal/waveform.py:PilotSection.pilot_elements", "hermespy/modem/waveforms/orthogonal/waveform.py:PilotSection._pilot_sequence", "hermespy/modem/waveforms/orthogonal/waveform.py:OrthogonalWaveform.num_subcarriers", "hermespy/modem/waveform.py:ConfigurablePilotWaveform.pilot_symbols"]}
{"id": "C60", "title": "An ideal link returns the transmitted bits", "statement": "Bits transmitted by a modem over an ideal link are received in order, frame by frame: transmission lasts for the smallest number of frames covering the requested duration, each frame carries the bits the encoders need, and a receiving modem of the same configuration recovers exactly the transmitted frames, whatever its encoders did before. Received frames carry the time at which they start.", "quantifier": "for all waveforms that demodulate what they modulate, all encoder managers whose encoders are invertible, all numbers of streams, durations, bit sources, encoder states and receive histories", "why_tests_cant": "Composition of bit source, encoding, mapping, modulation, framing, synchronisation, demodulation, unmapping and decoding over any number of frames with state carried between them.", "anchors": ["hermespy/modem/modem.py:TransmittingModemBase._transmit", "hermespy/modem/modem.py:ReceivingModemBase._receive", "hermespy/modem/modem.py:TransmittingModemBase.__map", "hermespy/modem/modem.py:ReceivingModemBase.__synchronize", "hermespy/modem/modem.py:ReceivingModemBase.__unmap", "hermespy/modem/waveform.py:Synchronization.synchronize"]}
{"id": "C61", "title": "A communication evaluator keeps its settings and reports on the drop at hand", "statement": "A constructed evaluator always hands the stopping parameters in force (the last accepted assignment) to the result of a simulation, invalid assignments are refused without effect, creating a result never raises. evaluate() compares the transmission and the reception of the same drop and raises RuntimeError if one is missing. An evaluator can be stored and restored with its modems and settings.", "quantifier": "for all constructor arguments and all histories of assignments, transmissions and receptions", "why_tests_cant": "The evaluator caches data in callbacks, so what it compares depends on the complete history of the two modems; the stopping parameters are checked in two places that have to agree for every value.", "anchors": ["hermespy/modem/evaluators.py:CommunicationEvaluator.__init__", "hermespy/modem/evaluators.py:CommunicationEvaluator._fetch_dsp_results", "hermespy/modem/evaluators.py:CommunicationEvaluator.serialize", "hermespy/modem/evaluators.py:CommunicationEvaluator.Deserialize", "hermespy/core/pymonte/scalar.py:ScalarEvaluator", "hermespy/core/pymonte/scalar.py:ScalarEvaluator.initialize_result", "hermespy/core/pymonte/scalar.py:ScalarEvaluationResult.__init__"]}
{"id": "C62", "title": "Appending to a symbol series concatenates", "statement": "Appending streams (or blocks) to a symbol series yields the concatenation of all appended streams in order, refuses objects of a different block structure with a ValueError, leaves every other object unchanged, and keeps channel states and symbols of stated symbols consistent. Vectors and matrices are taken as streams of single-symbol blocks.", "quantifier": "for all histories of appends, all shapes and contents, and all later modifications", "why_tests_cant": "Sharing of arrays only shows in later modifications, and the special cases for empty series depend on the history.", "anchors": ["hermespy/modem/symbols.py:Symbols.append_stream", "hermespy/modem/symbols.py:Symbols.append_symbols", "hermespy/modem/symbols.py:Symbols.__setitem__", "hermespy/modem/symbols.py:StatedSymbols.states", "hermespy/modem/symbols.py:StatedSymbols.copy"]}
{"id": "C63", "title": "Converters quantise to the configured resolution without losing samples", "statement": "A converter of b bits maps every component of a sample to the nearest of 2^b levels within [-1, 1], monotonically and idempotently; automatic gain control scales the signal such that its peak (or root mean square) uses that range, so that the re-scaled error is at most half a quantisation step of the scaled range. Conversion is done frame by frame, each frame with its own gain, and the number of samples does not change. Resolutions below zero are refused.", "quantifier": "for all resolutions, both quantiser types, all gain controls, backoffs, frame durations, sampling rates, numbers of streams and sample values", "why_tests_cant": "Nearest-level, level-count and error bounds are statements about all real samples; incomplete frames depend on the ratio of signal and frame lengths.", "anchors": ["hermespy/simulation/rf/blocks/ad.py:ADC._quantize", "hermespy/simulation/rf/blocks/ad.py:ADC._propagate", "hermespy/simulation/rf/blocks/ad.py:ADC.__convert_frame", "hermespy/simulation/rf/blocks/ad.py:AutomaticGainControl.estimate_gain", "hermespy/simulation/rf/blocks/ad.py:DAC._propagate", "hermespy/simulation/rf/blocks/ad.py:ConverterBase.num_quantization_bits", "hermespy/tools/math.py:rms_value"]}
{"id": "C64", "title": "Amplifier models follow their characteristics", "statement": "Amplifiers multiply by the configured gain and then apply their characteristic to each sample: clipping limits the amplitude and keeps the phase; Rapp's model keeps the phase, is strictly increasing and stays below saturation; Saleh's model peaks at 1/sqrt(beta) with alpha/(2 sqrt(beta)) and shifts the phase as configured; customised models take the configured gain and phase at each sample point, interpolate in between, and refuse vectors of different lengths; polynomial models with memory amplify every signal. Invalid factors are refused.", "quantifier": "for all complex samples, gains, saturation amplitudes, smoothness factors, Saleh parameters, characteristics and signals", "why_tests_cant": "Bounds, monotonicity and phase preservation concern all complex samples and real parameters.", "anchors": ["hermespy/simulation/rf/blocks/amps.py:ClippingPowerAmplifier.model", "hermespy/simulation/rf/blocks/amps.py:RappPowerAmplifier.model", "hermespy/simulation/rf/blocks/amps.py:SalehPowerAmplifier.model", "hermespy/simulation/rf/blocks/amps.py:CustomPowerAmplifier.model", "hermespy/simulation/rf/blocks/amps.py:CustomPowerAmplifier.__init__", "hermespy/simulation/rf/blocks/amps.py:MemoryPolynomialPowerAmplifier.model", "hermespy/simulation/rf/blocks/amps.py:PowerAmplifier._propagate"]}
{"id": "C65", "title": "Least squares channel estimation is exact where it can be", "statement": "On a received resource grid whose cells are weighted by a channel, the least squares estimate equals the channel on every reference cell; a channel changing linearly over the grid is estimated exactly within the hull of the reference cells, a flat channel on every cell, and zero-forcing then returns the transmitted data symbols. More than one stream is refused.", "quantifier": "for all grid configurations, all data symbols, all non-vanishing pilot sequences, all channels, every interpolator behaving as documented", "why_tests_cant": "Pilot assignment depends on the interplay of sections, repetitions and sequence lengths; tests use one grid and compare with a tolerance.", "anchors": ["hermespy/modem/waveforms/orthogonal/channel.py:OrthogonalLeastSquaresChannelEstimation.estimate_channel", "hermespy/modem/waveforms/orthogonal/waveform.py:OrthogonalWaveform.resource_mask", "hermespy/modem/waveforms/orthogonal/waveform.py:PilotSection.place_symbols", "hermespy/modem/waveform.py:ConfigurablePilotWaveform.pilot_symbols"]}
{"id": "C66", "title": "RF signals carry the carrier frequency and noise power of each stream through all operations", "statement": "Every RF signal has one carrier frequency and one noise power per stream. Selecting, assigning, copying, recording and resampling streams moves these along with the samples. Blocks update them according to their function: mixers shift the carrier frequency (and the represented passband signal) up or down by the local oscillator, multipliers multiply it, splitters hand it to every output, adders and phase shifters keep it, added noise adds to the noise power. The attributes carrier_frequency and noise_power of a signal are those common to its streams. Propagating through a block keeps the number of samples and refuses a wrong number of streams; phase shifters realise only their quantised phases.", "quantifier": "for all signals, selections, assignments, carrier frequencies, oscillator frequencies, noise powers, oversampling factors and all sequences of operations", "why_tests_cant": "The meta data is copied implicitly by numpy's subclass hooks; whether it stays aligned is a statement about all sequences of operations, and the hooks fail only for particular shapes.", "anchors": ["hermespy/simulation/rf/signal.py:RFSignal.__new__", "hermespy/simulation/rf/signal.py:RFSignal.__array_finalize__", "hermespy/simulation/rf/signal.py:RFSignal.__getitem__", "hermespy/simulation/rf/signal.py:RFSignal.__setitem__", "hermespy/simulation/rf/signal.py:RFSignal.FromNDArray", "hermespy/simulation/rf/signal.py:RFSignal.copy", "hermespy/simulation/rf/block.py:RFBlock.propagate", "hermespy/simulation/rf/noise/model.py:AWGNRealization.add_to", "hermespy/simulation/rf/blocks/mixers.py:Mixer._propagate", "hermespy/simulation/rf/blocks/mixers.py:IdealMixer._propagate", "hermespy/simulation/rf/blocks/x4.py:X4._propagate", "hermespy/simulation/rf/blocks/split.py:Split._propagate", "hermespy/simulation/rf/blocks/sum.py:Sum._propagate", "hermespy/simulation/rf/blocks/shift.py:Shift._propagate", "hermespy/simulation/rf/blocks/source.py:Source._propagate"]}
{"id": "C67", "title": "Packing a payload into a frame and unpacking it returns the payload", "statement": "pack_frame(source, num_bits) returns a frame of exactly num_bits bits: the configured header followed by the payload taken from the source; unpack_frame returns exactly that payload. Requests shorter than the header and frames shorter than the header are refused with ValueError.", "quantifier": "for all packet headers, sources, payloads and numbers of bits", "why_tests_cant": "Padding to bytes and layering of headers matter only for particular sizes and packets; the number of combinations is unbounded.", "anchors": ["hermespy/modem/frame_generator/frame_generator.py:FrameGeneratorStub", "hermespy/modem/frame_generator/scapy.py:FrameGeneratorScapy.pack_frame", "hermespy/modem/frame_generator/scapy.py:FrameGeneratorScapy.unpack_frame"]}
{"id": "C68", "title": "A stream source delivers the bits of its file in order, each exactly once", "statement": "Consecutive requests to a StreamBitsSource deliver consecutive bits of the file from its beginning on, and every request returns exactly the requested number of bits or raises without consuming anything; a restored source continues where the stored one was.", "quantifier": "for all files and all histories of requests, including refused ones", "why_tests_cant": "The reader carries a position over the complete life of the source; tests read a file once.", "anchors": ["hermespy/modem/bits_source.py:StreamBitsSource.generate_bits", "hermespy/modem/bits_source.py:StreamBitsSource.serialize", "hermespy/modem/bits_source.py:StreamBitsSource.Deserialize"]}
{"id": "C69", "title": "Channel state information: conversion, linear view and propagation agree", "statement": "Propagating a signal over a channel state is time-variant convolution with its taps; the tensor `linear` applied to the same signal gives the same samples in impulse response format and weights every symbol with its own coefficient in frequency format. Converting a state to the frequency domain and back loses nothing but adds zero taps. The reciprocal exchanges transmit and receive streams and is its own inverse. A stored and restored state behaves like the original.", "quantifier": "for all numbers of receive and transmit streams, samples, taps and frequency bins, all states and all signals", "why_tests_cant": "Index arithmetic over four flattened dimensions coincides for symmetric shapes, which is what tests use; the conversions only interact in particular orders.", "anchors": ["hermespy/core/channel.py:ChannelStateInformation.set_state", "hermespy/core/channel.py:ChannelStateInformation.to_impulse_response", "hermespy/core/channel.py:ChannelStateInformation.to_frequency_selectivity", "hermespy/core/channel.py:ChannelStateInformation.linear", "hermespy/core/channel.py:ChannelStateInformation.propagate", "hermespy/core/channel.py:ChannelStateInformation.reciprocal", "hermespy/core/channel.py:ChannelStateInformation.samples", "hermespy/core/channel.py:ChannelStateInformation.serialize"]}
{"id": "C70", "title": "Links are sampled with the requested parameters and hooks hear of exactly their samples", "statement": "sample and reciprocal_sample use the given time, carrier frequency and bandwidth, passed by position or by keyword, and default to those of the transmitter; the reciprocal of a link exchanges the devices at the same instant. A hook is called for a sample exactly if it was registered when the realization was made and is not restricted to other devices. `realization` is the newest cached realization and None before the first.", "quantifier": "for all devices and device states, all argument combinations, all histories of hook registration, removal and realization", "why_tests_cant": "Hook sets are copied at realization time, so behaviour depends on the order of registration, removal, realization and sampling; argument handling has many overloads.", "anchors": ["hermespy/channel/channel.py:ChannelRealization.sample", "hermespy/channel/channel.py:ChannelRealization.reciprocal_sample", "hermespy/channel/channel.py:ChannelSampleHook.__call__", "hermespy/channel/channel.py:Channel.add_sample_hook", "hermespy/channel/channel.py:Channel.remove_sample_hook", "hermespy/channel/channel.py:Channel.realize", "hermespy/channel/channel.py:Channel.realization"]}
{"id": "C71", "title": "The ideal channel delivers what its state predicts and leaves the transmitted signal alone", "statement": "A signal propagated over a sample of the ideal channel equals the same signal propagated over the channel state of that sample; energy scales with the channel gain; the transmitted signal is not modified, so that it can be propagated to several receivers.", "quantifier": "for all numbers of antennas, gains and signals, and repeated propagation of one signal", "why_tests_cant": "Tests compare one propagation at unit gain; modification in place only shows for gains other than one, particular antenna counts and repeated use.", "anchors": ["hermespy/channel/ideal.py:IdealChannelSample.state", "hermespy/channel/ideal.py:IdealChannelSample._propagate", "hermespy/channel/channel.py:ChannelSample.propagate"]}
{"id": "C72", "title": "Delay channels delay, attenuate and report what they do", "statement": "A signal propagated over a delay channel equals the signal propagated over the channel state of the same sample whenever the delay fits into the requested taps, and is the transmitted signal delayed by the rounded delay, also for signals made of several blocks. Energy scales with the power gain. Random delays always lie in the configured range; invalid ranges are refused.", "quantifier": "for all antennas, responses, delays, tap limits, gains, signals and block structures, and all histories of delay assignments", "why_tests_cant": "Interaction of a delay with the gaps between blocks, and of gains with energy, needs particular combinations of sizes that no finite test set covers.", "anchors": ["hermespy/channel/delay/delay.py:DelayChannelSample._propagate", "hermespy/channel/delay/delay.py:DelayChannelSample.state", "hermespy/channel/delay/delay.py:DelayChannelSample.expected_energy_scale", "hermespy/channel/delay/random.py:RandomDelayChannel.delay", "hermespy/channel/delay/random.py:RandomDelayChannelRealization._sample", "hermespy/tools/math.py:amplitude_path_loss"]}
{"id": "C73", "title": "OFDM frames survive multipath within the prefix and ideal channel estimation is exact", "statement": "If no delay of the channels exceeds the cyclic prefixes, every cell of the demodulated grid is the sum over the transmitted streams of the transmitted cell times the channel's frequency response at the cell's subcarrier, whatever was sent before the frame. Ideal channel estimation reports, for every frame of a drop and the configured reference position, the response of the channel over which the words of that frame were received; for a static channel it is exact, so that zero-forcing returns the transmitted data.", "quantifier": "for all OFDM grid configurations, oversampling factors, subcarrier mappings, bandwidths, data symbols, numbers of streams, channel taps and preceding signals", "why_tests_cant": "Interaction of prefixes, guard sections, oversampling and subcarrier mapping with arbitrary taps; tests use a single tap or compare error rates. Errors in later frames of a drop need time-variant channels.", "anchors": ["hermespy/modem/waveforms/orthogonal/ofdm.py:OFDMWaveform._forward_transformation", "hermespy/modem/waveforms/orthogonal/ofdm.py:OFDMWaveform._backward_transformation", "hermespy/modem/waveforms/orthogonal/waveform.py:OrthogonalWaveform.modulate", "hermespy/modem/waveforms/orthogonal/waveform.py:OrthogonalWaveform.demodulate", "hermespy/simulation/modem/channel_estimation.py:IdealChannelEstimation._csi", "hermespy/simulation/modem/channel_estimation.py:OFDMIdealChannelEstimation.estimate_channel", "hermespy/core/channel.py:ChannelStateInformation.propagate"]}
{"id": "C74", "title": "Spatially consistent random variables keep their scalars and distributions", "statement": "After every program that adds variables to generators, each scalar of a realization belongs to exactly one variable of its generator, and a realization can be sampled at any later time by exactly the variables present when it was made. Samples are consistent in space: they vary at most in proportion to the displacement of both ends, are the same everywhere for an infinite distance, and do not depend on which end is called first. Whatever frequencies were drawn, they have mean zero, unit variance and a correlation depending on displacements only. Gaussian, uniform and boolean variables follow the distributions they are named after. Realization succeeds for every decorrelation distance a channel accepts, with the quantiles of the radial velocity law, and cached results equal computed ones.", "quantifier": "for all programs over variables and generators, decorrelation distances, numbers of scalars and sinusoids, positions and all numbers drawn by the random generator", "why_tests_cant": "Interleavings of additions and realizations, all positions in space and distributions over continuous phases cannot be enumerated; tests compare a few empirical moments.", "anchors": ["hermespy/channel/consistent.py:ConsistentVariable", "hermespy/channel/consistent.py:ConsistentGenerator.add_variable", "hermespy/channel/consistent.py:ConsistentGenerator.realize", "hermespy/channel/consistent.py:ConsistentGenerator.__sample_cdf", "hermespy/channel/consistent.py:DualConsistentRealization.sample", "hermespy/channel/consistent.py:StaticConsistentRealization.sample", "hermespy/channel/consistent.py:ConsistentGaussian.sample", "hermespy/channel/consistent.py:ConsistentUniform.sample", "hermespy/channel/consistent.py:ConsistentBoolean.sample"]}
{"id": "C75", "title": "Multipath fading samples propagate, predict and average as documented", "statement": "A signal sent over a multipath fading sample arrives as the sum over all paths of the delayed signals, weighted with each path's gain at the time of sending and the spatial response. The channel state of the sample predicts the propagated signal for every number of requested taps and every antenna array, and reciprocal samples have reciprocal states. The line of sight turns by the configured Doppler frequency, and later samples and later signal blocks continue the evolution. Over the random phases, paths have mean zero, are uncorrelated and stationary with the spectrum of Clarke's model, the expected energy is the announced energy scale, and antennas have the configured covariance.", "quantifier": "for all samples: profiles, gains, angles, phases, Doppler frequencies, antennas, sampling rates, and for all signals and numbers of taps", "why_tests_cant": "The claims range over continuous parameters and are averages over continuous random phases; tests compare a few random draws with tolerances.", "anchors": ["hermespy/channel/fading/fading.py:MultipathFadingSample._propagate", "hermespy/channel/fading/fading.py:MultipathFadingSample.state", "hermespy/channel/fading/fading.py:MultipathFadingSample.expected_energy_scale", "hermespy/channel/fading/fading.py:MultipathFadingRealization._sample", "hermespy/channel/fading/fading.py:MultipathFadingRealization._reciprocal_sample"]}
{"id": "C76", "title": "Multipath fading channels simulate what they are configured with", "statement": "A multipath fading channel accepts exactly the documented configurations and keeps its profile path by path, ordered by delay. Its gains split unit power in the ratio of the rice factors, every angle and phase of a sample is drawn from a scalar of its own in the documented range, configured line of sight angles, numbers of sinusoids and Doppler frequencies take effect, and the mean energy scale is the gain times the sum of powers. Tapped delay lines, COST 259 and exponential profiles have unit total power, the configured delay spread and the rice factors of their standard. Standard and custom antenna correlations are covariances for every supported array. Channels and realizations restored from storage behave like the stored ones.", "quantifier": "for all profiles, rice factors, numbers of sinusoids, delay spreads, tap intervals, correlation factors, links and all scalars drawn", "why_tests_cant": "Configurations are continuous and unbounded in length; consistency between construction, sampling and restoration needs all of them, and delay spreads are sums over irrational powers that tests never evaluate.", "anchors": ["hermespy/channel/fading/fading.py:MultipathFadingChannel", "hermespy/channel/fading/fading.py:MultipathFadingRealization", "hermespy/channel/fading/fading.py:CustomAntennaCorrelation", "hermespy/channel/fading/tdl.py:TDL", "hermespy/channel/fading/cost259.py:Cost259", "hermespy/channel/fading/exponential.py:Exponential", "hermespy/channel/fading/correlation.py:StandardAntennaCorrelation"]}
{"id": "C77", "title": "Radar paths delay, shift and weight signals as the geometry demands", "statement": "Propagating a signal over a radar channel sample adds, for every target and for the line of sight, the transmitted samples delayed by the time light takes, weighted by the antennas' responses and the radar respectively transmission equation and rotated by the Doppler shift of the changing path length. The reported channel state describes the same propagation. Every signal is accepted and the output is long enough to hold every echo. Paths are reciprocal, the null hypothesis removes exactly the targets that are not static, and the expected energy scale is the energy the propagated signal gains.", "quantifier": "for all positions, velocities, cross sections, phases, antenna responses, bandwidths, carrier frequencies, sampling times, numbers of paths and signals of any length", "why_tests_cant": "Delays and Doppler shifts are continuous and signals arbitrarily long; buffer overruns only show for particular combinations of speed and length, and signs of shifts cancel in symmetric test setups.", "anchors": ["hermespy/channel/radar/radar.py:RadarChannelSample", "hermespy/channel/radar/radar.py:RadarPath", "hermespy/channel/radar/radar.py:RadarTargetPath", "hermespy/channel/radar/radar.py:RadarInterferencePath"]}
{"id": "C78", "title": "Radar channels hold the targets they are configured with", "statement": "A radar channel with a single target accepts exactly non-negative distances, cross sections and gains and ordered spans. Its samples hold one path of a target at an admissible distance from the sensor, in an admissible direction and at an admissible velocity, or none if the target is absent. A radar channel with several targets holds exactly the targets added to it, a realization those present when it was realized; a sample holds one path per target at its position and velocity of that time, with the cross section of its model for the directions of the waves, and the line of sight if interference is enabled and the devices are apart. Devices colliding with a target are refused. Restored channels and realizations equal the stored ones.", "quantifier": "for all configurations, target poses and trajectories, cross section models, device positions, random numbers, and programs creating channels, adding targets and realizing", "why_tests_cant": "Ranges, angles, poses and cross section models are continuous; sharing between realizations and their channel shows only in histories, and tests place devices and targets where mirrored positions coincide with the real ones.", "anchors": ["hermespy/channel/radar/single.py:SingleTargetRadarChannel", "hermespy/channel/radar/single.py:SingleTargetRadarChannelRealization", "hermespy/channel/radar/multi.py:MultiTargetRadarChannel", "hermespy/channel/radar/multi.py:MultiTargetRadarChannelRealization", "hermespy/channel/radar/multi.py:FixedCrossSection", "hermespy/core/factory.py:SerializationProcess.serialize_range", "hermespy/core/factory.py:DeserializationProcess.deserialize_range"]}
{"id": "C79", "title": "Antennas answer a direction with the field of their model, turned with the antenna", "statement": "The polarised field of an antenna towards a direction in space is the field of its model in the direction as seen from the antenna, rotated with the antenna; its gain does not depend on where the antenna is and how it is turned. Ideal and linear antennas have unit gain in all directions, half-wave dipoles the gain of the textbook formula, vanishing on the axis and one exactly across it, patch antennas a gain which is symmetric around and largest on their axis. Plots show the gain with which signals propagate.", "quantifier": "for all antenna models, slants, poses and directions", "why_tests_cant": "Poses and directions are continuous; the polarisation vectors are rotated by an angle derived from two local frames, and tests check single directions of upright antennas or the shape of the result.", "anchors": ["hermespy/core/antennas.py:Antenna.global_characteristics", "hermespy/core/antennas.py:IdealAntenna.local_characteristics", "hermespy/core/antennas.py:LinearAntenna.local_characteristics", "hermespy/core/antennas.py:PatchAntenna.local_characteristics", "hermespy/core/antennas.py:Dipole.local_characteristics", "hermespy/core/antennas.py:Antenna.plot_gain"]}
{"id": "C80", "title": "Array responses follow from where the antennas are", "statement": "The topology of an antenna array lists the positions of its antennas in the array's frame wherever the array is. The phase response towards a point in space depends on the distances between point and antennas only, one cycle per wavelength; the response to angles is its far field limit; horizontal and spherical angles agree. Characteristics of the array are those of its antennas towards the direction, the same for a direction, the same direction in the array's frame, and points in that direction. Array responses are the product of both. Antennas are those of the requested mode in their order.", "quantifier": "for all array poses, antenna poses and models, carrier frequencies, points, directions and modes", "why_tests_cant": "Poses, points and frequencies are continuous; a convention which is wrong in a turned frame only shows in arrays which are turned and have directive antennas.", "anchors": ["hermespy/core/antennas.py:AntennaArrayBase.topology", "hermespy/core/antennas.py:AntennaArrayBase.transmit_topology", "hermespy/core/antennas.py:AntennaArrayBase.receive_topology", "hermespy/core/antennas.py:AntennaArrayBase.characteristics", "hermespy/core/antennas.py:AntennaArrayBase.cartesian_phase_response", "hermespy/core/antennas.py:AntennaArrayBase.horizontal_phase_response", "hermespy/core/antennas.py:AntennaArrayBase.spherical_phase_response", "hermespy/core/antennas.py:AntennaArrayBase.cartesian_array_response"]}
{"id": "C81", "title": "Uniform and custom arrays, their states, copies and restored versions hold the same antennas", "statement": "A uniform array holds as many antennas as it reports, one per grid point at the spacing, each with mode, model and orientation of the element; invalid spacings and dimensions are refused and change nothing. A simulated array transmits and receives each stream over its own antenna with that antenna's weight and refuses other numbers of streams. States have the antennas where the array has them; selecting subarrays, by index, slice or sequence and mode, moves no antenna. Moving an array moves its antennas. Restored arrays work like the stored ones.", "quantifier": "for all elements, spacings, dimensions, signals, device and array poses, programs of subarray selections, and histories of moves and look-ups", "why_tests_cant": "Grid order, sharing of antenna objects between states, and stale caches show only in particular histories and in arrays which are mounted off the device's origin.", "anchors": ["hermespy/core/antennas.py:UniformArray", "hermespy/core/antennas.py:UniformArray.spacing", "hermespy/core/antennas.py:UniformArray.dimensions", "hermespy/core/antennas.py:UniformArray.Deserialize", "hermespy/core/antennas.py:AntennaArrayState", "hermespy/core/antennas.py:AntennaArrayState.select_subarray", "hermespy/core/antennas.py:AntennaArray.state", "hermespy/simulation/antennas.py:SimulatedAntennaArray.transmit", "hermespy/simulation/antennas.py:SimulatedAntennaArray.receive", "hermespy/simulation/antennas.py:SimulatedDipole", "hermespy/simulation/antennas.py:SimulatedCustomArray"]}
{"id": "C82", "title": "Beams point where they are focused", "statement": "Focus points given by angles or coordinates stand for the direction of these coordinates from the array, in the array's frame or in space. Focused by the conventional beamformer, waves from that direction are returned unchanged, no wave is amplified, and independent streams are averaged; transmitted streams add up coherently in that direction and nowhere to more. Wrong numbers of streams and focus points are refused; beamformers always hold as many focus points as they need and use those given first. Probes accept the documented arrays. Restored beamformers keep their focus.", "quantifier": "for all arrays, poses, antenna positions, carrier frequencies, signals, directions and programs of assignments", "why_tests_cant": "Directions, poses and signals are continuous; frames are confused only by arrays which are turned or displaced, while tests use arrays at the origin.", "anchors": ["hermespy/beamforming/beamformer.py:SphericalFocus", "hermespy/beamforming/beamformer.py:CoordinateFocus", "hermespy/beamforming/beamformer.py:TransmitBeamformer", "hermespy/beamforming/beamformer.py:ReceiveBeamformer", "hermespy/beamforming/beamformer.py:ReceiveBeamformer.probe", "hermespy/beamforming/conventional.py:ConventionalBeamformer"]}
{"id": "C83", "title": "Capon beamformers pass the focused wave with least power, null steering beamformers suppress the nulled ones", "statement": "For each direction in the array's frame, the Capon beamformer returns a weighted sum of the streams which passes waves from this direction unchanged and among all such sums has the least power, the weights counted with the loading; every signal can be decoded, negative loadings are refused. The null steering beamformer suppresses waves from both nulled directions in reception and transmission, and points its beam of unit norm weights in the direction focused as far as the nulls permit.", "quantifier": "for all arrays, poses, frequencies, signals, loadings, focus points and generalised inverses", "why_tests_cant": "Optimality among all weights and suppression for all angles are statements over continua; a missing conjugation mirrors the beam, which is invisible in symmetric configurations.", "anchors": ["hermespy/beamforming/capon.py:CaponBeamformer._decode", "hermespy/beamforming/capon.py:CaponBeamformer.loading", "hermespy/beamforming/nullsteeringbeamformer.py:NullSteeringBeamformer._weights", "hermespy/beamforming/nullsteeringbeamformer.py:NullSteeringBeamformer._encode", "hermespy/beamforming/nullsteeringbeamformer.py:NullSteeringBeamformer._decode"]}
{"id": "C84", "title": "Triggers delay the devices they control as configured", "statement": "A realization of a trigger has a delay which is not negative and a whole number of samples of its devices: none for static triggers, the configured samples or time rounded down for offsets, at least nothing and less than the longest frame for random ones, the drawn time rounded down for normal ones. Every accepted configuration can be realized, independently of the order of the devices. Receivers of any rate cut the delay not yet accounted for, rounded down to whole samples. Over all programs, each device is controlled by exactly the trigger model it refers to.", "quantifier": "for all trigger models, parameters, draws, listing orders of the devices, sampling rates and programs of assignments", "why_tests_cant": "Draws are continuous and set orders are up to the interpreter; failures of realizations occur with small probability.", "anchors": ["hermespy/simulation/simulated_device.py:TriggerRealization", "hermespy/simulation/simulated_device.py:TriggerModel", "hermespy/simulation/simulated_device.py:StaticTrigger", "hermespy/simulation/simulated_device.py:SampleOffsetTrigger", "hermespy/simulation/simulated_device.py:TimeOffsetTrigger", "hermespy/simulation/simulated_device.py:RandomTrigger", "hermespy/simulation/simulated_device.py:NormalTrigger", "hermespy/simulation/simulated_device.py:SimulatedDevice.trigger_model"]}
{"id": "C85", "title": "Devices leak as much of their transmissions as their isolation allows", "statement": "Each receive chain of a device gets the sum of the samples of all transmit chains, weighted by the inverse roots of the configured isolations or convolved with the configured impulse responses, at the instants of the transmitted samples, and nothing if perfectly isolated. The leakage is that of the configuration last assigned. Configurations and signals not fitting the antennas, undefined isolations and models without a device raise errors. Random responses have the requested variance.", "quantifier": "for all isolation matrices, impulse responses, signals of any blocks and offsets, and histories of assignments", "why_tests_cant": "Weights, responses and signals are continuous; transposed matrices are invisible for symmetric leakage, and histories of assignments are unbounded.", "anchors": ["hermespy/simulation/isolation/isolation.py:Isolation.leak", "hermespy/simulation/isolation/specific.py:SpecificIsolation", "hermespy/simulation/isolation/selective.py:SelectiveLeakage", "hermespy/simulation/isolation/perfect.py:PerfectIsolation"]}
{"id": "C86", "title": "Mutual coupling models transform the antenna streams as documented and nothing else", "statement": "Couplings map the streams of all antennas by one matrix for all samples, keeping instants, sampling rate, carrier frequency and noise power, and refuse signals not fitting the antennas. Perfect couplings and the default impedance model return the streams unchanged. The impedance model transmits by the inverse root of the impedances times the root of the correlations, and receives by the matching network of all antennas' impedances. Couplings can be stored and restored.", "quantifier": "for all numbers of antennas, impedance and correlation matrices and signals", "why_tests_cant": "Matrices and signals are continuous, and elementwise and matrix powers agree for the single antennas tests use.", "anchors": ["hermespy/simulation/coupling/coupling.py:Coupling.transmit", "hermespy/simulation/coupling/coupling.py:Coupling.receive", "hermespy/simulation/coupling/impedance.py:ImpedanceCoupling", "hermespy/simulation/coupling/perfect.py:PerfectCoupling"]}
{"id": "C87", "title": "Simulated devices transmit the superposition of their operators at the trigger", "statement": "A simulated device emits at each antenna the sum of the signals its front-end makes of all transmissions, over the ports selected by their operators and with the transmit coding, scaled by the root of the device's power, delayed by the trigger and by the delays of the transmissions. Emerging and leaking signals of separated operators are kept individually. Missing transmissions are skipped, mismatched numbers of transmissions and signals are refused. Packing the output as a transmission, storing and restoring it do not change it.", "quantifier": "for all numbers of operators and antennas, signals, front-ends, powers, trigger delays and numbers of rebuilt outputs", "why_tests_cant": "Signals and front-ends are arbitrary; in-place superpositions depend on the lengths of the signals and accumulate only over repeated constructions.", "anchors": ["hermespy/simulation/simulated_device.py:SimulatedDeviceOutput.__init__", "hermespy/simulation/simulated_device.py:SimulatedDeviceOutput.Deserialize", "hermespy/simulation/simulated_device.py:SimulatedDeviceTransmission.From_SimulatedDeviceOutput", "hermespy/simulation/simulated_device.py:SimulatedDevice._simulate_output", "hermespy/simulation/simulated_device.py:SimulatedDevice.generate_output", "hermespy/simulation/simulated_device.py:SimulatedDevice.transmit"]}
{"id": "C88", "title": "Simulated devices receive the superposition of all impinging signals from their trigger on", "statement": "What the front-end of a simulated device is given is, at each antenna and sample, the sum of all impinging signals at the instants at which they arrive after the trigger. Leakage of the device's own transmissions is added at the instants it occurs. Each receiver gets, of the same noisy and decoded baseband signal, the streams of the ports it selected, in their order, all of them if it selected none. Receiving does not change the impinging signals, so that receiving them again yields the same, and any list of signals or device output can be received.", "quantifier": "for all numbers of signals, blocks, delays, triggers, sampling rates, front-ends, leaking signals and receivers", "why_tests_cant": "Delays and signals are continuous and lists of signals unbounded; gaps between signals and displaced arguments show up only for particular delays and repeated receptions.", "anchors": ["hermespy/simulation/simulated_device.py:SimulatedDevice.process_from_realization", "hermespy/simulation/simulated_device.py:SimulatedDevice._generate_receiver_input", "hermespy/simulation/simulated_device.py:SimulatedDevice.process_input", "hermespy/simulation/simulated_device.py:ProcessedSimulatedDeviceInput.__init__", "hermespy/simulation/antennas.py:SimulatedAntennaArray.receive"]}
{"id": "C89", "title": "Chirp FSK frames carry their bits", "statement": "For every configuration accepted by chirp FSK waveforms, demodulating a modulated frame times any gain and unmapping the symbols yields the bits mapped, for all bits. Frames consist of the pilot chirps, a chirp for each symbol in order and a silent guard interval, last as long as documented, and chirps have a magnitude of one. Configurations that cannot carry bits are refused. Synchronization routines passed to, or stored with a waveform are kept.", "quantifier": "for all modulation orders, chirp durations, frequency differences, bandwidths, oversampling factors, gains, numbers of chirps and bits", "why_tests_cant": "Orthogonality of chirps depends on continuous parameters; identical chirps of different symbols occur only for particular ratios of duration, bandwidth and rate, and memory is usually zero in tests.", "anchors": ["hermespy/modem/waveform_chirp_fsk.py:ChirpFSKWaveform.__init__", "hermespy/modem/waveform_chirp_fsk.py:ChirpFSKWaveform.map", "hermespy/modem/waveform_chirp_fsk.py:ChirpFSKWaveform.unmap", "hermespy/modem/waveform_chirp_fsk.py:ChirpFSKWaveform.modulate", "hermespy/modem/waveform_chirp_fsk.py:ChirpFSKWaveform.demodulate", "hermespy/modem/waveform_chirp_fsk.py:ChirpFSKWaveform._prototypes", "hermespy/modem/waveform_chirp_fsk.py:ChirpFSKWaveform.samples_per_frame", "hermespy/modem/waveform_chirp_fsk.py:ChirpFSKWaveform.Deserialize"]}
{"id": "C90", "title": "Correlation synchronization finds frames where they start", "statement": "A frame received after any silence, over any number of antennas with any gains, is found exactly once and exactly where it starts. Whatever is received, indices are sorted, at least the configured part of a frame apart, and leave room for a whole frame; silence contains no frames. The configured threshold and guard ratio decide which peaks count.", "quantifier": "for all pilots, frames, delays, numbers of streams, gains and signals", "why_tests_cant": "Signals are arbitrary; edge effects of peak searches show up only for particular delays and lengths.", "anchors": ["hermespy/modem/waveform_correlation_synchronization.py:CorrelationSynchronization.__init__", "hermespy/modem/waveform_correlation_synchronization.py:CorrelationSynchronization.synchronize"]}
{"id": "C91", "title": "Single carrier frames hold data and references where receivers look for them", "statement": "A single carrier frame is the preamble, the payload with a reference symbol after every configured number of data symbols, and the postamble; every position is taken exactly once, and picking from a frame what was placed returns the data. Other numbers of data symbols are refused. Channels estimated by least squares are exact at the references, and constant or linearly drifting channels are estimated and equalized exactly. Stored waveforms are restored as they were, and setting the modulation order changes nothing else.", "quantifier": "for all numbers of preamble, data, pilot and postamble symbols, all pilot sequences, all data symbols and all channels", "why_tests_cant": "Index sets of pilots and data depend on divisions of four arbitrary numbers; a few examples cannot show that they partition every frame, nor that estimation is exact for all channels.", "anchors": ["hermespy/modem/waveform_single_carrier.py:FilteredSingleCarrierWaveform.__init__", "hermespy/modem/waveform_single_carrier.py:FilteredSingleCarrierWaveform.place", "hermespy/modem/waveform_single_carrier.py:FilteredSingleCarrierWaveform.pick", "hermespy/modem/waveform_single_carrier.py:FilteredSingleCarrierWaveform.modulation_order", "hermespy/modem/waveform_single_carrier.py:FilteredSingleCarrierWaveform.serialize", "hermespy/modem/waveform_single_carrier.py:SingleCarrierLeastSquaresChannelEstimation.estimate_channel", "hermespy/modem/waveform_single_carrier.py:SingleCarrierZeroForcingChannelEqualization", "hermespy/modem/waveform_single_carrier.py:SingleCarrierMinimumMeanSquareChannelEqualization"]}
{"id": "C92", "title": "Single carrier pulses carry symbols without interference", "statement": "Demodulating a modulated single carrier frame yields its symbols times the gain of the channel, whichever pulse is configured; together with least squares estimation and zero forcing, the data placed is the data picked. Frames have the announced number of samples and last the announced duration, pulses have the announced energy, pilot signals are what frames start with, and frames without symbols are empty signals.", "quantifier": "for all pulses, roll off factors, filter lengths, oversampling factors, chirp lengths, gains, frame layouts and symbols", "why_tests_cant": "Interference between symbols depends on the samples of the pulse at every lag, hence on all of oversampling factor, filter length, roll off and delay at once.", "anchors": ["hermespy/modem/waveform_single_carrier.py:FilteredSingleCarrierWaveform.modulate", "hermespy/modem/waveform_single_carrier.py:FilteredSingleCarrierWaveform.demodulate", "hermespy/modem/waveform_single_carrier.py:FilteredSingleCarrierWaveform.pilot_signal", "hermespy/modem/waveform_single_carrier.py:FilteredSingleCarrierWaveform.samples_per_frame", "hermespy/modem/waveform_single_carrier.py:FilteredSingleCarrierWaveform.frame_duration", "hermespy/modem/waveform_single_carrier.py:RolledOffSingleCarrierWaveform._filter_delay", "hermespy/modem/waveform_single_carrier.py:RaisedCosineWaveform._base_filter", "hermespy/modem/waveform_single_carrier.py:RootRaisedCosineWaveform._base_filter", "hermespy/modem/waveform_single_carrier.py:RectangularWaveform", "hermespy/modem/waveform_single_carrier.py:FMCWWaveform"]}
{"id": "C93", "title": "FMCW radars show targets where they are", "statement": "An FMCW waveform transmits the configured number of chirps, each starting at its pulse repetition interval, with the announced number of samples and the announced energy. The echo of a single target peaks at one bin of the estimated range-Doppler map only, and the labels of that bin are the range and velocity of the target. Every configuration that may be transmitted may also be estimated, and stored waveforms are restored as they were.", "quantifier": "for all numbers of chirps, durations, intervals, bandwidths, oversampling factors, sampling rates of the analogue-digital converter, and for all delays and rotations of the echo", "why_tests_cant": "Where the peak appears depends on the aliasing of the mixed chirp for every delay and on the rotation over all chirps; a test sees a few targets and tolerances that hide mislabelled bins.", "anchors": ["hermespy/radar/fmcw.py:FMCW.ping", "hermespy/radar/fmcw.py:FMCW.estimate", "hermespy/radar/fmcw.py:FMCW.__pulse_prototype", "hermespy/radar/fmcw.py:FMCW.range_bins", "hermespy/radar/fmcw.py:FMCW.max_range", "hermespy/radar/fmcw.py:FMCW.range_resolution", "hermespy/radar/fmcw.py:FMCW.relative_doppler_bins", "hermespy/radar/fmcw.py:FMCW.energy", "hermespy/radar/fmcw.py:FMCW.samples_per_frame", "hermespy/radar/fmcw.py:FMCW.serialize"]}
{"id": "C94", "title": "Radar operators present what they receive, and nothing else", "statement": "The cube received by a radar holds, for every angle of interest, the estimate of the beam towards this angle at all ranges not less than the minimum range, with the labels of the waveform and of the focus points; detectors see this cube. Operators without waveform, several streams without a suitable beamformer and several transmit ports are refused. A target in front of a radar is detected as a single point. The announced velocity resolution is the distance of neighbouring velocities. Stored radars are restored as they were.", "quantifier": "for all waveforms, beamformers, detectors, minimum ranges, numbers of streams, signals, contents of allocated memory and addresses of temporary arrays", "why_tests_cant": "Whether stale memory enters a cube, or two temporary arrays share an address, depends on the history of the allocator; the selection of ranges and angles must hold for any combination of waveform and beamformer.", "anchors": ["hermespy/radar/radar.py:RadarBase._receive_beamform", "hermespy/radar/radar.py:RadarBase.min_range", "hermespy/radar/radar.py:RadarBase.serialize", "hermespy/radar/radar.py:RadarBase._DeserializeParameters", "hermespy/radar/radar.py:Radar._transmit", "hermespy/radar/radar.py:Radar._receive", "hermespy/radar/radar.py:Radar.velocity_resolution", "hermespy/radar/radar.py:Radar.serialize", "hermespy/core/device.py:Receiver.serialize", "hermespy/core/device.py:Transmitter.serialize"]}
{"id": "C95", "title": "Matched filters show targets where they are", "statement": "After a transmission, a matched filter operator receives a cube the only maximum of which, for the echo of a single target, lies in the bin labelled with its range and velocity. Ranges from the minimum range to the maximum range are shown, every angle shows the power received from it, and velocities are spaced by the configured resolution. Receiving before transmitting and invalid parameters are refused. Stored operators are restored as they were.", "quantifier": "for all transmitted and received signals, delays, velocities, ranges, resolutions, sampling rates, carrier frequencies, beamformers and antenna responses", "why_tests_cant": "The maximum of a correlation depends on every sample of an arbitrary waveform; tests use one waveform and one target, and a single antenna hides that angles are mixed.", "anchors": ["hermespy/jcas/matched_filtering.py:MatchedFilterJcas.__init__", "hermespy/jcas/matched_filtering.py:MatchedFilterJcas.notify_transmit_callbacks", "hermespy/jcas/matched_filtering.py:MatchedFilterJcas._receive", "hermespy/jcas/matched_filtering.py:MatchedFilterJcas.range_resolution", "hermespy/jcas/matched_filtering.py:MatchedFilterJcas.max_range", "hermespy/jcas/matched_filtering.py:MatchedFilterJcas.max_velocity", "hermespy/jcas/matched_filtering.py:MatchedFilterJcas.velocity_resolution", "hermespy/jcas/matched_filtering.py:MatchedFilterJcas.serialize", "hermespy/jcas/matched_filtering.py:MatchedFilterJcas.Deserialize", "hermespy/jcas/jcas.py:DuplexJCASOperator"]}
{"id": "C96", "title": "OFDM radar shows echoes of its own frames where they come from", "statement": "After transmitting, an OFDM radar receives a cube with one range axis per angle and Doppler bin: an echo at rest within the cyclic prefix appears in the bin labelled with its exact range, proportional to its magnitude, in the Doppler bin of rest and nowhere else. Ranges below the minimum range are left out, transmissions of several frames are processed, receiving before transmitting is refused, and stored operators are restored as they were.", "quantifier": "for all frames, grids, symbols, prefixes, oversampling factors, bandwidths, delays, sets of echoes, beamformers, detectors and contents of allocated memory", "why_tests_cant": "The profile is a two-dimensional transform of arbitrary symbols; tests look at one target at one distance, with one frame and no minimum range, and do not look at the Doppler axis.", "anchors": ["hermespy/jcas/ofdm_radar.py:OFDMRadar._transmit", "hermespy/jcas/ofdm_radar.py:OFDMRadar._receive", "hermespy/jcas/ofdm_radar.py:OFDMRadar.__estimate_range", "hermespy/jcas/ofdm_radar.py:OFDMRadar.max_range", "hermespy/jcas/ofdm_radar.py:OFDMRadar.range_resolution", "hermespy/jcas/ofdm_radar.py:OFDMRadar.max_relative_doppler", "hermespy/jcas/ofdm_radar.py:OFDMRadar.relative_doppler_resolution", "hermespy/jcas/ofdm_radar.py:OFDMRadar.Deserialize", "hermespy/jcas/jcas.py:DuplexJCASOperator"]}
{"id": "C97", "title": "Receiver operating characteristics show detection against false alarm", "statement": "The result of evaluating receiver operating characteristics holds, per grid point, the fractions of detections and of false alarms among the peaks of the cubes observed there, at equidistant thresholds between the lowest and the highest peak. It starts at certain detection, never grows with the threshold, does not depend on the order of observations, recognises detectors that separate both hypotheses, has as many thresholds as configured, and is what the plot shows; characteristics extracted from scenarios and files cover the drops and the radar they should.", "quantifier": "for all grids, histories of artifacts, numbers of thresholds, scenarios, operators, numbers of drops and orders of iterating sets", "why_tests_cant": "Monotonicity and independence of the order concern all histories; tests count artifacts, compare shapes and plot empty figures, with mocked scenarios of one radar.", "anchors": ["hermespy/radar/evaluators.py:RocEvaluation.artifact", "hermespy/radar/evaluators.py:RocEvaluationResult", "hermespy/radar/evaluators.py:ReceiverOperatingCharacteristic.initialize_result", "hermespy/radar/evaluators.py:ReceiverOperatingCharacteristic.FromScenarios", "hermespy/radar/evaluators.py:ReceiverOperatingCharacteristic.FromScenario", "hermespy/radar/evaluators.py:ReceiverOperatingCharacteristic.FromFile", "hermespy/core/scenario.py:Scenario.operators"]}
{"id": "C98", "title": "Root mean square errors and detection probabilities measure what was detected", "statement": "Per grid point, the root mean square error is the root of the mean square distance between detected points and true target positions of all samples drawn there, always those of the latest reception and channel sample; it is zero exactly if all detections are exact, wherever the radar is and however many targets there are. A detection is counted exactly if the latest point cloud is not empty. Evaluating too early is refused, and stored evaluators are restored as they were.", "quantifier": "for all grids, histories of receptions and channel samples, point clouds, ground truths, radar poses and parameters", "why_tests_cant": "Histories and geometries are unbounded; tests place one radar at the origin with one target and compare mocked sums.", "anchors": ["hermespy/radar/evaluators.py:RadarEvaluator", "hermespy/radar/evaluators.py:DetectionProbEvaluator", "hermespy/radar/evaluators.py:RootMeanSquareEvaluation.artifact", "hermespy/radar/evaluators.py:RootMeanSquareErrorResult", "hermespy/radar/evaluators.py:RootMeanSquareError.evaluate", "hermespy/radar/detection.py:PointDetection.FromSpherical", "hermespy/channel/radar/radar.py:RadarTargetPath.ground_truth"]}
{"id": "C99", "title": "Devices add noise of the power configured", "statement": "The noise a simulated device adds to receptions is white, independent between antennas and samples, and of exactly the power its noise level stands for, which the received signals report: the power of `N0` and of thermal noise, the reference power over the ratio for signal to noise ratios, and for energy ratios the one at which demodulated symbols have the ratio configured, per symbol and per bit, at any oversampling. Nothing is added to transmissions, setting noise levels never makes power negative, and stored levels are restored.", "quantifier": "for all noise levels, histories of assigning and setting them, bandwidths, signals, antennas, seeds, waveforms with short pulses and symbols, and all distributions of centred uncorrelated numbers of unit variance", "why_tests_cant": "Expected powers are integrals over all draws; tests compare sample means of one draw within a tolerance, and powers of isolated level objects, not of devices whose radio frequency blocks share them.", "anchors": ["hermespy/simulation/rf/noise/level.py:NoiseLevel", "hermespy/simulation/rf/noise/level.py:ThermalNoise", "hermespy/simulation/rf/noise/level.py:N0", "hermespy/simulation/rf/noise/level.py:SNR", "hermespy/simulation/rf/noise/model.py:AWGNRealization.add_to", "hermespy/simulation/rf/noise/model.py:AWGN.realize", "hermespy/simulation/modem/noise.py:EBN0", "hermespy/simulation/modem/noise.py:ESN0", "hermespy/simulation/simulated_device.py:SimulatedDevice.noise_level", "hermespy/simulation/simulated_device.py:SimulatedDevice.noise", "hermespy/simulation/rf/block.py:RFBlock"]}
{"id": "C100", "title": "Seeding a device makes its noise reproducible", "statement": "Once a simulated device is seeded, or the scenario it belongs to, the noise it adds is drawn from the generator of that seed, in the order of the draws made, whatever is done to other nodes before and after; devices constructed and seeded alike draw alike, and a noise model created with a seed uses it.", "quantifier": "for all histories of creating nodes, assigning mothers, seeding and drawing, all seeds, and all devices and scenarios created before", "why_tests_cant": "It concerns which of many generators is drawn from after any history of assignments; tests check that a seeded node repeats itself in isolation.", "anchors": ["hermespy/simulation/simulated_device.py:SimulatedDevice.__init__", "hermespy/simulation/simulated_device.py:SimulatedDevice.noise_model", "hermespy/simulation/rf/block.py:RFBlock.__init__", "hermespy/simulation/rf/noise/model.py:AWGN.realize", "hermespy/simulation/rf/blocks/ad.py:ConverterBase.__init__", "hermespy/core/random_node.py:RandomNode"]}
{"id": "C101", "title": "Oscillator phase noise has the spectrum configured", "statement": "Phase noise of an oscillator turns the phases of its signal and leaves magnitudes alone; mixers fed by one source turn transmissions and receptions by the same phases. The phases added have the power spectral density configured: at high sampling rates, the sum of a white part and of parts falling with the second and third power of the distance from the carrier, and phase noise created from densities at offset frequencies has these densities there. Levels which are not powers are rejected, and stored phase noise is restored.", "quantifier": "for all levels, sampling rates, numbers of samples and ports, frequencies, and all distributions of centred uncorrelated numbers of unit variance", "why_tests_cant": "Spectra are expectations over all draws and limits over filter lengths; tests only check that phases change and that objects have the types expected.", "anchors": ["hermespy/simulation/rf/noise/phase_noise.py:OscillatorPhaseNoise", "hermespy/simulation/rf/noise/phase_noise.py:OscillatorPhaseNoise._get_noise_samples", "hermespy/simulation/rf/noise/phase_noise.py:OscillatorPhaseNoise.add_noise", "hermespy/simulation/rf/noise/phase_noise.py:OscillatorPhaseNoise.FromPSD", "hermespy/simulation/rf/blocks/source.py:Source"]}
{"id": "C102", "title": "Power evaluators report the powers of the latest signals", "statement": "The power of a signal is the mean squared magnitude of its samples and its energy the sum, for dense and sparse signals alike. Evaluators of received and transmitted power, of peak-to-average power, of self-interference and of the signal to self-interference and noise ratio report these quantities of the signals their device last transmitted or received, and raise RuntimeError if there were none. Peak-to-average ratios lie between one and the number of samples and do not depend on the scale of the signal. Evaluators keep the settings they are created and stored with.", "quantifier": "for all signals, numbers of streams and samples, sparse blocks, histories of transmissions and receptions of several devices, and settings", "why_tests_cant": "Identities over all samples and all histories of callbacks; tests evaluate one random dense signal.", "anchors": ["hermespy/core/signal_model.py:SignalBlock.power", "hermespy/core/signal_model.py:SignalBlock.energy", "hermespy/core/signal_model.py:SparseSignal.power", "hermespy/core/evaluators.py:ReceivePowerEvaluator", "hermespy/core/evaluators.py:TransmitPowerEvaluator", "hermespy/core/evaluators.py:PAPR", "hermespy/simulation/evaluators/interference.py:SelfInterferenceEvaluator", "hermespy/simulation/evaluators/interference.py:SSINREvaluator"]}
{"id": "C103", "title": "Extracted signals are the signals evaluated", "statement": "A signal extractor collects, for each section of the grid, the signals transmitted, received or impinging in the samples evaluated there, in order, and its result is an array of these samples padded with zeros to the longest signal and the most streams. Without a signal RuntimeError is raised; extraction never stops a simulation early.", "quantifier": "for all grids, orders of samples, signals of any shape, and histories of the device", "why_tests_cant": "Every order in which a parallel simulation delivers samples, for every shape; tests extract single samples.", "anchors": ["hermespy/core/evaluators.py:SignalExtractor", "hermespy/core/evaluators.py:ExtractedSignals"]}
{"id": "C104", "title": "Sidelobe levels compare the desired direction with a codebook", "statement": "The sidelobe evaluator reports the energy of the latest signal in the desired direction and in the directions of a codebook, relative to the energy of the signal: numbers between zero and the number of antennas, independent of the scale of the signal, maximal in the desired direction for signals focused on it. The default codebook has the responses to directions regularly sampling the half space in front of the array; a direction in the codebook has a share between zero and one.", "quantifier": "for all arrays of rigidly mounted antennas, carriers, directions, signals, codebooks and histories of the device", "why_tests_cant": "Bounds and optimality over all arrays and directions; tests evaluate one array with one signal.", "anchors": ["hermespy/simulation/evaluators/beamforming.py:SidelobeEvaluator", "hermespy/simulation/evaluators/beamforming.py:SidelobeEvaluator.evaluate", "hermespy/simulation/evaluators/beamforming.py:SidelobeEvaluation.artifact"]}
{"id": "C105", "title": "Ramp generators emit frequency ramps at the interval configured", "statement": "A ramp generator emits the configured number of chirps, one per interval: each sweeps the configured bandwidth with the configured slope at unit magnitude, and is silent for the rest of its interval. Invalid parameters raise ValueError on creation and by setters. The signal always is that of the current parameters, whatever was generated before, and a stored and restored generator emits the same signal.", "quantifier": "for all bandwidths, slopes, intervals, numbers of chirps, sampling rates and histories of parameter updates", "why_tests_cant": "Sample positions for every ratio of interval to sampling period and every history of cache use; tests generate a few configurations.", "anchors": ["hermespy/simulation/rf/blocks/ramp.py:RampGenerator", "hermespy/simulation/rf/blocks/ramp.py:RampGenerator.chirp_interval"]}
{"id": "C106", "title": "The radar preset finds targets at their range and velocity", "statement": "The XWR1843 front end, as a radar waveform, mixes echoes with its ramps and estimates a map whose only maximum, for a single echo, is the bin labelled with the distance and the relative velocity of the target. There is a label for every column of the map, neighbouring labels are a resolution apart, the energy reported is that of the ramps and a ping lasts as long as the ramps.", "quantifier": "for all chirp parameters, sampling rates, delays, velocities, echo amplitudes and lengths of the received signal", "why_tests_cant": "A maximum over all bins of a two-dimensional transform for every target; tests only check shapes.", "anchors": ["hermespy/simulation/rf/presets/ti/xwr1843.py:TIXWR1843", "hermespy/simulation/rf/presets/ti/xwr1843.py:TIXWR1843.estimate", "hermespy/simulation/rf/presets/ti/xwr1843.py:TIXWR1843.range_bins", "hermespy/simulation/rf/presets/ti/xwr1843.py:TIXWR1843.range_resolution", "hermespy/simulation/rf/presets/ti/xwr1843.py:TIXWR1843.relative_doppler_bins", "hermespy/simulation/rf/presets/ti/xwr1843.py:TIXWR1843.energy", "hermespy/simulation/rf/presets/ti/xwr1843.py:TIXWR1843.ping"]}
{"id": "C107", "title": "Trajectories move objects with the velocity they report", "statement": "A linear trajectory starts at its initial pose, ends at its final one, moves on the straight line between with the derivative of the position as the velocity it reports, and stays at the end after its last timestamp. Whatever was called before, a trajectory that looks at a target points at the target at every timestamp, looking may be switched off and on again, and a stored and restored trajectory samples the same.", "quantifier": "for all poses, durations, timestamps, targets and histories of lookat calls", "why_tests_cant": "Derivatives and orientations at every timestamp and every history of calls; tests sample a few timestamps.", "anchors": ["hermespy/simulation/animation.py:Trajectory.lookat", "hermespy/simulation/animation.py:Trajectory.sample", "hermespy/simulation/animation.py:LinearTrajectory", "hermespy/simulation/animation.py:StaticTrajectory", "hermespy/simulation/animation.py:BITrajectoryB"]}
{"id": "C108", "title": "Calibrations and devices agree on who uses what", "statement": "After any history of creating calibrations, assigning calibrations to devices and devices to calibrations, each device has exactly one calibration of each kind, that calibration refers to the device, and no two devices share one. An assignment always succeeds, it makes no difference from which side it is made, the device uses the assigned calibration, devices it was taken from have a calibration that does nothing and other devices keep theirs.", "quantifier": "for all numbers of devices and all histories of creations and assignments from either side", "why_tests_cant": "An invariant of mutually recursive setters over all histories; tests assign once.", "anchors": ["hermespy/hardware_loop/physical_device.py:PhysicalDevice.leakage_calibration", "hermespy/hardware_loop/physical_device.py:PhysicalDevice.delay_calibration", "hermespy/hardware_loop/physical_device.py:PhysicalDevice.antenna_calibration", "hermespy/hardware_loop/physical_device.py:Calibration.device"]}
{"id": "C109", "title": "Delay calibrations estimate and undo the delay of a device", "statement": "The delay of a device whose ports are connected is estimated exactly, whatever the gain of the connection and however many ports there are, for every delay up to the given maximum. A calibrated device's receptions are advanced by a positive delay, its transmissions preceded by silence for a negative one, rounded to whole samples, so that transmissions are received in time. Invalid estimation parameters raise ValueError.", "quantifier": "for all delays, sampling rates, signals, gains, noise below half the gain, numbers of iterations and ports", "why_tests_cant": "Exact positions for every delay and every complex gain; tests run a device without any delay or gain.", "anchors": ["hermespy/hardware_loop/calibration/delay.py:DelayCalibration", "hermespy/hardware_loop/calibration/delay.py:DelayCalibration.Estimate", "hermespy/hardware_loop/physical_device.py:DelayCalibrationBase.correct_transmit_delay", "hermespy/hardware_loop/physical_device.py:DelayCalibrationBase.correct_receive_delay"]}
{"id": "C110", "title": "Leakage calibrations estimate and remove leakage", "statement": "The least squares estimate of a device whose leakage is linear and fits its response equals the leakage at every pair of ports. Removing it from a reception leaves exactly what was received besides the leakage, whatever was transmitted and however long, for every selection of ports and every delay, and the predicted leakage is the one that is removed. Restored calibrations remove the same, and mismatching signals and invalid parameters raise ValueError.", "quantifier": "for all responses, delays, transmissions, receptions, numbers of ports, selections of ports and candidate filters", "why_tests_cant": "Exact cancellation for every linear leakage, every signal and every offset; tests check that the power drops for one device.", "anchors": ["hermespy/hardware_loop/calibration/leakage.py:SelectiveLeakageCalibration", "hermespy/hardware_loop/calibration/leakage.py:SelectiveLeakageCalibration.remove_leakage", "hermespy/hardware_loop/calibration/leakage.py:SelectiveLeakageCalibration.predict_leakage", "hermespy/hardware_loop/calibration/leakage.py:SelectiveLeakageCalibration.LeastSquaresEstimate"]}
{"id": "C111", "title": "Physical devices transmit what they are given and process what they receive", "statement": "Whatever was called before, a direct transmission uploads exactly the given signal, leaves the caller's signals alone and returns what was received, with its leakage removed if asked for; receptions have the leakage of the signal that is being transmitted removed, and are filtered if the lowpass filter is enabled. Adaptive sampling takes transmissions at the device's sampling rate without resampling, noise estimates are the variance of what is received in silence, and a restored device has the settings of the stored one. Negative delays, bandwidths and noise powers, and signals that do not fit the device raise ValueError.", "quantifier": "for all hardware, calibrations, signals, numbers of ports and histories of calls", "why_tests_cant": "Effects of every history of calls on hardware that may do anything; tests call each method once on a dummy.", "anchors": ["hermespy/hardware_loop/physical_device.py:PhysicalDevice", "hermespy/hardware_loop/physical_device.py:PhysicalDevice.trigger_direct", "hermespy/hardware_loop/physical_device.py:PhysicalDevice.transmit", "hermespy/hardware_loop/physical_device.py:PhysicalDevice.process_input", "hermespy/hardware_loop/physical_device.py:PhysicalDevice.receive", "hermespy/hardware_loop/physical_device.py:PhysicalDevice.estimate_noise_power", "hermespy/hardware_loop/physical_device_dummy.py:PhysicalDeviceDummy", "hermespy/hardware_loop/scenario.py:PhysicalScenario"]}
{"id": "C112", "title": "USRP devices upload what they receive back", "statement": "Whatever properties are set and whatever fails, a transmission that does not raise leaves the remote front-end configured as the device says. Uploaded samples are the calibrated samples times a common positive factor that makes the greatest magnitude one, and the caller's signal is left alone. A device whose ports are connected with a delay it is calibrated for receives exactly the samples it uploaded, followed by silence, for every length and padding, and long enough for every receiver and the maximum delay. Remote calls are attempted ten times before RuntimeError is raised.", "quantifier": "for all signals, paddings, delays, weights, outcomes of remote calls and histories", "why_tests_cant": "Every loss of connection at every point and every length modulo the padding; tests replace the remote host by a mock that always answers.", "anchors": ["hermespy/hardware_loop/uhd/usrp.py:UsrpDevice", "hermespy/hardware_loop/uhd/usrp.py:UsrpDevice._upload", "hermespy/hardware_loop/uhd/usrp.py:UsrpDevice._download", "hermespy/hardware_loop/uhd/usrp.py:UsrpDevice._configure_device", "hermespy/hardware_loop/uhd/system.py:UsrpSystem._trigger_direct"]}
{"id": "C113", "title": "Antenna calibrations bring the ports of a device into phase", "statement": "ScalarAntennaCalibration.Estimate in a scenario that propagates linearly returns one weight per port such that, for every phase and gain by which the ports of the device deviate, an ideal reference device receives each corrected port with the phase expected from the antenna positions and with unchanged magnitude, and likewise for reception. Weights are applied port by port; signals with another number of streams and devices not managed by the scenario raise ValueError. Estimating again keeps a device calibrated.", "quantifier": "for all linear scenarios, port deviations, antenna arrays, poses, carrier frequencies and signals", "why_tests_cant": "All complex gains of all ports, leakages and array geometries; tests calibrate one simulated pair of identical ideal devices once.", "anchors": ["hermespy/hardware_loop/calibration/antennas.py:ScalarAntennaCalibration.Estimate", "hermespy/hardware_loop/calibration/antennas.py:ScalarAntennaCalibration.correct_transmission", "hermespy/hardware_loop/calibration/antennas.py:ScalarAntennaCalibration.correct_reception", "hermespy/hardware_loop/audio/scenario.py:AudioScenario._trigger_direct"]}
{"id": "C114", "title": "Audio devices transport baseband signals over sound cards", "statement": "A baseband signal transmitted by an AudioDevice over its playback channels and recorded unchanged by its record channels is received again: all spectral components within a quarter of the sampling rate around zero are recovered exactly, for every number of samples and every number of streams. Triggering plays and records the channels selected by the device, and stored devices are restored with the same parameters.", "quantifier": "for all complex baseband signals, numbers of samples, channel selections and devices", "why_tests_cant": "All spectra and signal lengths including the edges of the band; tests mock the sound card and compare one random signal or only shapes.", "anchors": ["hermespy/hardware_loop/audio/device.py:AudioDevice", "hermespy/hardware_loop/audio/device.py:AudioDevice._upload", "hermespy/hardware_loop/audio/device.py:AudioDevice._download", "hermespy/hardware_loop/audio/device.py:AudioDevice.trigger", "hermespy/hardware_loop/audio/device.py:AudioDevice.serialize", "hermespy/hardware_loop/audio/device.py:AudioDeviceAntennas.num_transmit_antennas"]}
{"id": "C115", "title": "Hardware loops visit every section of the grid and keep results with their parameters", "statement": "HardwareLoop.run takes num_drops drops of every section of the parameter grid, under either iteration priority and each exactly once. An artifact stored under a section was evaluated from a drop taken under the parameters of that section, the results of all evaluators hold artifacts of the same drops, exceptions affect only the drop they occur in, and a run interrupted by a signal or by the user ends like a run over the drops taken so far. Recorded runs leave the scenario ready for the next run, and dimensions created without objects belong to the scenario.", "quantifier": "for all grids, hooks, drops, evaluators, exceptions and times of interruption", "why_tests_cant": "All grids, failure patterns and interruption times; tests run one small grid to completion on a dummy device.", "anchors": ["hermespy/hardware_loop/hardware_loop.py:HardwareLoop.run", "hermespy/hardware_loop/hardware_loop.py:HardwareLoop.__run", "hermespy/hardware_loop/hardware_loop.py:HardwareLoop.__generate_sample", "hermespy/hardware_loop/hardware_loop.py:HardwareLoop.new_dimension", "hermespy/hardware_loop/hardware_loop.py:IterationPriority", "hermespy/core/executable.py:Executable._handle_exception"]}
{"id": "C116", "title": "Grid dimensions configure the parameter they name", "statement": "Configuring sample point i of a GridDimension gives the attribute named by its path, in every considered object, the value of the i-th sample point (functions are called with it, scalar dimensions are shifted by it) and changes nothing else, also if objects on the path have been replaced since. Invalid indices raise ValueError and configure nothing. Dimensions are created exactly for existing attributes, with the title given by the user and the stage impacts declared by all considered objects.", "quantifier": "for all object graphs, paths, considered objects, sample points and states in between", "why_tests_cant": "All object graphs, aliasing and reconfigurations between creation and use; tests configure one mock object once.", "anchors": ["hermespy/core/pymonte/grid.py:GridDimension", "hermespy/core/pymonte/grid.py:GridDimension.configure_point", "hermespy/core/pymonte/grid.py:GridDimension.__create_setter_lambda", "hermespy/core/pymonte/grid.py:ScalarDimension", "hermespy/core/pymonte/grid.py:RegisteredDimension"]}
{"id": "C117", "title": "Plot threads of hardware loops neither block the loop nor show stale samples", "statement": "Under every interleaving of the loop and a plot thread, with waits timing out and plots raising at any time, no deadlock occurs and a run can always be finished; samples are not replaced while they are plotted, are plotted in order, and after the run the last sample has been plotted last.", "quantifier": "for all numbers of updates, interleavings, timeouts and exceptions of plots", "why_tests_cant": "All schedules of two threads over two locks and a condition; tests see the schedule of one machine with mocked plots.", "anchors": ["hermespy/hardware_loop/hardware_loop.py:PlotThread.run", "hermespy/hardware_loop/hardware_loop.py:PlotThread.update_plot", "hermespy/hardware_loop/hardware_loop.py:PlotThread.stop", "hermespy/hardware_loop/hardware_loop.py:ThreadContextManager"]}
{"id": "C118", "title": "Cluster delay line samples propagate their clusters and report the state they propagate", "statement": "A sample of a 3GPP cluster delay line channel superimposes all rays of all its clusters: each delays the signal by the whole number of samples its delay lasts, without cutting anything off, weights it by its share in the cluster power, by both array responses in its directions and by its polarization transformation, and shifts its frequency like the path length changes; with line of sight, the direct path is added. The power it delivers is the expected energy scale it reports. The channel state it reports, limited to any number of taps, acts on all signals like the sample itself. The reciprocal sample has the transposed state. Angular spreads are well defined and invariant to rotations.", "quantifier": "for all samples (clusters, delays, powers, angles, polarizations, with and without line of sight), devices, velocities, antenna responses, signals and tap limits", "why_tests_cant": "Any number of clusters, any delays and signal lengths, and all antenna responses; tests propagate one signal over a mocked scenario and compare it with the state of the same implementation.", "anchors": ["hermespy/channel/cdl/cluster_delay_lines.py:ClusterDelayLineSample", "hermespy/channel/cdl/cluster_delay_lines.py:ClusterDelayLineSample.state", "hermespy/channel/cdl/cluster_delay_lines.py:ClusterDelayLineSample.reciprocal", "hermespy/channel/cdl/cluster_delay_lines.py:ClusterDelayLineSample._angular_spread"]}
{"id": "C119", "title": "Cluster delay line realizations draw clusters according to their large scale parameters", "statement": "Samples of cluster delay line realizations draw delays, powers and angles as the large scale parameters describe: angular spreads stay within their limits, delays are nonnegative and sorted and start with the first cluster, powers are nonnegative and sum up to one before the path loss, clusters weaker than the strongest by 25 dB are removed with their delays, and with line of sight the first cluster points from device to device, wherever the devices are and however they are turned. Angles of arrival and departure are independent. The power scales with the gain, path loss, shadow fading and oxygen absorption. Reciprocal samples are those of the opposite direction. The result depends on positions and carrier only through distances, heights and the spatially consistent variables.", "quantifier": "for all scenarios, large scale states and parameters, random numbers, positions, orientations, carrier frequencies and gains", "why_tests_cant": "All draws of the random variables and all geometries; tests check types and rough statistics of a few seeds.", "anchors": ["hermespy/channel/cdl/cluster_delay_lines.py:ClusterDelayLineRealization._sample", "hermespy/channel/cdl/cluster_delay_lines.py:ClusterDelayLineRealization._cluster_delays", "hermespy/channel/cdl/cluster_delay_lines.py:ClusterDelayLineRealization._cluster_powers", "hermespy/channel/cdl/cluster_delay_lines.py:ClusterDelayLineRealization._ray_azimuth_angles", "hermespy/channel/cdl/cluster_delay_lines.py:ClusterDelayLineRealization._reciprocal_sample"]}
{"id": "C120", "title": "Scenarios of cluster delay lines follow the standard they implement", "statement": "Urban, rural, office and factory scenarios describe links as the standard they implement does: path losses grow with the distance without jumping down, blocked links never lose less than free ones, and terminals inside buildings lose more. Links are in line of sight close by with certainty, the less likely the farther away, and hardly ever at large distances; in factories, the less likely the denser the clutter, and undisturbed above it. The large scale parameters have the documented correlations, whose matrices have roots, and positive deviations. Zenith offsets are in degrees, vanish in line of sight, and decrease with distance. Every scenario can be sampled with its number of clusters between any devices at different positions, and transfers no more power than its path loss leaves. Factories refuse halls without volume or surface.", "quantifier": "for all positions, heights, carrier frequencies, states, random numbers, hall sizes and clutter heights", "why_tests_cant": "Continua of geometries and frequencies, and all random numbers; tests sample a few links and check shapes.", "anchors": ["hermespy/channel/cdl/urban_macrocells.py:UrbanMacrocellsRealization", "hermespy/channel/cdl/urban_microcells.py:UrbanMicrocellsRealization", "hermespy/channel/cdl/rural_macrocells.py:RuralMacrocellsRealization", "hermespy/channel/cdl/indoor_office.py:IndoorOfficeRealization", "hermespy/channel/cdl/indoor_factory.py:IndoorFactoryRealization", "hermespy/channel/cdl/cluster_delay_lines.py:ClusterDelayLineBase.__C_MM"]}
{"id": "C121", "title": "Static cluster delay lines have the delays, powers and angles of their tables", "statement": "Link level channels of the types A to E have one cluster per row of their table, at the tabulated delays times the configured delay spread, with the tabulated powers, and rays around the tabulated angles, each offset used once. The delay spread of the rays is the one configured, the received power the transmitted power times the configured gain, the ratio of the powers over the line of sight and all other rays the configured factor, which types without line of sight ignore, and transfer to the other polarization is attenuated by the tabulated ratio. Parameters are nonnegative, and stored channels are restored.", "quantifier": "for all types, delay spreads, factors, gains, devices, carrier frequencies, bandwidths and random draws", "why_tests_cant": "Continua of parameters and all random draws; tests propagate single signals and compare with nothing.", "anchors": ["hermespy/channel/cdl/cdl.py:CDLRealization._sample", "hermespy/channel/cdl/cdl.py:CDL", "hermespy/channel/cdl/cdl.py:CDL_Cluster_Parameters"]}
{"id": "C122", "title": "Stored objects are restored with the class and the parameters they had", "statement": "An object of any serializable class, stored by its serialize routine and restored by its Deserialize routine, is an object of the same class whose constructor parameters have the values they had, whatever the values: storing and restoring do not raise, no parameter is dropped, replaced by a default or converted to another type.", "quantifier": "for all 246 described classes, all values of their parameters, all defaults and all behaviours of the file library in cases the code leaves open", "why_tests_cant": "Every class times every combination of parameter values, including None; the tests store few classes with default values and compare single attributes.", "anchors": ["hermespy/core/factory.py:Serializable", "hermespy/core/factory.py:HDFSerializationProcess", "hermespy/core/factory.py:HDFDeserializationProcess", "hermespy/simulation/simulated_device.py:SimulatedDevice.serialize", "hermespy/modem/waveform.py:PilotWaveform", "hermespy/channel/fading/fading.py:MultipathFadingRealization.Deserialize"]}
{"id": "C123", "title": "Results are presented for the section of the grid in which they were obtained", "statement": "Whatever the grid and the results: each curve of a plotted result is labelled with a section of the grid and shows above each sample point the result of that section, each section is in exactly one curve, labels tell sections apart; a surface has above two sample points the result of their section; printed tables have one row per section with its sample points and results; a saved file contains the results, the sample points of every dimension and the duration of the simulation; during a simulation every section is displayed once per cycle of pages.", "quantifier": "for all grids, titles, sample points, results of any values, base dimensions, and numbers of refreshes", "why_tests_cant": "Tests plot single results over one dimension and check that no exception is raised; they cannot compare all positions and labels for all grids.", "anchors": ["hermespy/core/pymonte/evaluation.py:EvaluationResult", "hermespy/core/pymonte/scalar.py:ScalarEvaluationResult._update_visualization", "hermespy/core/pymonte/grid.py:SamplePoint.title", "hermespy/core/pymonte/monte_carlo.py:MonteCarloResult", "hermespy/core/pymonte/monte_carlo.py:MonteCarlo.simulate"]}
{"id": "C124", "title": "5G NR waveforms have the grids, symbols and durations of their numerology and resource blocks", "statement": "Whatever the numerology and the number of resource blocks: slots, subframes and frames have twelve subcarriers per block and 14 words per slot; every cell of the grid is what the documentation says, with synchronisation signals on 127 subcarriers around the direct current in the first slot and references and data elsewhere; all announced data symbols can be placed, transmitted and picked; subframes last a millisecond at the bandwidth of their numerology, frames ten; numbers outside the documented ranges are refused; the sections of synchronisation signals give sequences of unit symbols with which the waveforms can be preceded.", "quantifier": "for all numerologies, numbers of resource blocks, data, references, oversampling factors and lossless transformations", "why_tests_cant": "Tests create few waveforms and transmit one frame; they cannot check all cells of all grids, nor all numerologies.", "anchors": ["hermespy/modem/waveforms/ieee_5gnr.py:NRSlot", "hermespy/modem/waveforms/ieee_5gnr.py:NRSubframe", "hermespy/modem/waveforms/ieee_5gnr.py:NRFrame", "hermespy/modem/waveforms/ieee_5gnr.py:PSS", "hermespy/modem/waveforms/ieee_5gnr.py:SSS", "hermespy/modem/waveforms/ieee_5gnr.py:nr_bandwidth"]}
{"id": "C125", "title": "In-phase and quadrature streams written by the splitter are combined to the signal that was split", "statement": "Splitting turns stream k of a complex signal into stream 2k with its real parts and stream 2k+1 with its imaginary parts, keeping rate, carrier frequency, noise power, delay and order of samples; numbers of streams that do not fit are refused. Combining pairs streams 2k and 2k+1, keeps magnitudes, and gives back the complex signal, stream by stream, whatever the samples.", "quantifier": "for all numbers of streams and samples, all complex samples and all choices of the argument on the negative real axis", "why_tests_cant": "Tests split and combine a few random streams and look at shapes; they cannot cover all samples, zeros of real parts and dependencies between streams.", "anchors": ["hermespy/hardware_loop/precoding.py:IQSplitter", "hermespy/hardware_loop/precoding.py:IQCombiner"]}
{"id": "C126", "title": "Every execution gets a results directory of its own, and results of earlier executions are kept", "statement": "The default results directory of an execution is inside of the base directory of its experiment, carries the day, was not there before and is returned to no other execution, however executions and other programs interleave; existing entries are never changed, and the lowest free index of the day is found after finitely many checks. Directories set by the user are accepted exactly if they are directories. Verbosities mean the same in constructor and setter, and the style set is the style of plots. With overwriting enabled, the previous results are erased.", "quantifier": "for all contents of the file system, days, experiments, numbers of concurrent executions, schedules of their calls of the operating system, and entries created by other programs meanwhile", "why_tests_cant": "Tests mock the calls of the operating system one after the other; they cannot enumerate schedules of concurrent executions nor contents of directories.", "anchors": ["hermespy/core/executable.py:Executable.default_results_dir", "hermespy/core/executable.py:Executable.results_dir", "hermespy/core/executable.py:Executable.verbosity", "hermespy/core/executable.py:Executable.style_context"]}
{"id": "C127", "title": "OFDM frames starting with a Schmidl-Cox pilot symbol are found where they start", "statement": "A frame that starts with the pilot symbol, received after any silence over any number of antennas with any gains, phases and carrier frequency offsets, is found exactly at its first sample and nowhere else; the pilot symbol consists of two halves equal up to sign, with and without oversampling and suppression of the carrier; indices are increasing, refer to complete symbols and are at least 90 % of a frame apart; nothing is found in silence.", "quantifier": "for all numbers of subcarriers, oversampling factors, pilot elements, delays, gains, phases, carrier frequency offsets, numbers of streams and samples, and orders of equal peaks", "why_tests_cant": "Tests synchronize a few random frames at a few delays; they do not cover pilot elements, numbers of subcarriers and arbitrary carrier frequency offsets.", "anchors": ["hermespy/modem/waveforms/orthogonal/ofdm.py:SchmidlCoxSynchronization.synchronize", "hermespy/modem/waveforms/orthogonal/ofdm.py:SchmidlCoxPilotSection._pilot_sequence", "hermespy/modem/waveforms/orthogonal/ofdm.py:OFDMWaveform._forward_transformation"]}
{"id": "C128", "title": "Superposition of signals at different carrier frequencies keeps what lies in the common band", "statement": "A signal superimposed on another of the same sampling rate is left as it is at equal carrier frequencies, contributes nothing if the bands have no frequency in common, and otherwise contributes the part within the common band, at the same absolute frequencies and phases; contributions are linear, as long as the signal, and do not depend on the order of signals or on their division into blocks; the result is at the carrier frequency of the signal superimposed on.", "quantifier": "for all sampling rates, carrier frequencies, samples, tones, block offsets, numbers and orders of signals, and low-pass designs that are symmetric and of unit gain", "why_tests_cant": "Tests superimpose noise-like signals at two carriers and compare energies; they do not settle phases, nor all carriers, orders and block offsets.", "anchors": ["hermespy/core/signal_model.py:SignalBlock.superimpose_to", "hermespy/core/signal_model.py:DenseSignal.superimpose", "hermespy/core/signal_model.py:SparseSignal.superimpose", "hermespy/core/device.py:Device.generate_output"]}
{"id": "C129", "title": "Actors of a simulation draw different numbers, and seeded simulations are reproducible", "statement": "The actors of a parallel simulation are seeded differently and draw different channels, bits and noise; a simulation of a seeded scenario draws the same numbers each time it is run, however batches are distributed to actors.", "quantifier": "for all scenarios, seeds, numbers of actors, generators, histories before and during the simulation, and schedules of batches", "why_tests_cant": "A test runs one schedule on one machine and sees one sequence of samples; equal samples of different actors look like any other samples in averages.", "anchors": ["hermespy/simulation/simulation.py:SimulationActor.__init__", "hermespy/core/pymonte/monte_carlo.py:MonteCarlo.simulate", "hermespy/core/pymonte/actors.py:MonteCarloActor.run", "hermespy/core/random_node.py:RandomNode", "hermespy/modem/modem.py:TransmittingModemBase.bits_source"]}
{"id": "C130", "title": "Ray traced channels propagate the paths found and report the state they propagate", "statement": "A signal propagated over a sample of a Sionna channel arrives at every antenna as the sum of its delayed copies over all paths the tracer found between the antennas of the moving devices at the frequency requested, weighted with the channel's gain; the state of the sample predicts the signal and the expected energy scale its energy; both directions of a link have the same paths.", "quantifier": "for all sets of paths, signals, bandwidths, gains, numbers of antennas and taps, scenes, positions, velocities and carrier frequencies", "why_tests_cant": "Ray tracing needs a graphics card and a scene; tests propagate a signal over two or three scenes with single antennas at rest and compare shapes, while cancelling gains, unequal rates and delays on the last tap do not occur in them.", "anchors": ["hermespy/channel/sionna_rt_channel.py:SionnaRTChannelSample.state", "hermespy/channel/sionna_rt_channel.py:SionnaRTChannelSample._propagate", "hermespy/channel/sionna_rt_channel.py:SionnaRTChannelSample.expected_energy_scale", "hermespy/channel/sionna_rt_channel.py:SionnaRTChannelRealization._sample", "hermespy/channel/channel.py:ChannelSample.propagate"]}
{"id": "C131", "title": "Radiation patterns show what an array radiates and receives", "statement": "The power calculate_power reports for a direction is the squared magnitude of the sum of the contributions of all antennas of the mode, each with its own weight, its characteristics in that direction and the given or the beamformer's weight; it is greatest, the square of the number of antennas, where weights undo the phases or a beamformer of either link direction is focused, wherever the array is mounted; slices are great circles through the starting point.", "quantifier": "for all arrays, poses, antenna weights and modes, carrier frequencies, angles of interest, beamforming weights, focus points and slices", "why_tests_cant": "The pattern is a continuous function of angles, poses, frequencies and weights; tests plot a few arrays and look for exceptions only.", "anchors": ["hermespy/simulation/antennas.py:SimulatedAntennaArray.calculate_power", "hermespy/simulation/antennas.py:SimulatedAntennaArray.plot_pattern", "hermespy/core/antennas.py:AntennaArray.spherical_phase_response", "hermespy/beamforming/beamformer.py:TransmitBeamformer.encode_streams"]}
{"id": "C132", "title": "Static operators send and receive what they were given, in the state of their device", "statement": "Operators act on a state with the time, pose, rate and carrier frequency of their device (or their own carrier frequency, if they have one) and the antennas and streams of the ports they selected; silent transmitters send nothing but zeros over those streams, static transmitters send the given signal as often as asked, unchanged by anything done to earlier transmissions, at its own rate and with the frame duration announced; static receivers return what they receive.", "quantifier": "for all device states, selections of ports, signals, sampling rates, durations, replacements of the signal and histories of transmissions and writes to signals", "why_tests_cant": "Static operators are the mocks other tests are built on; they are only used with signals generated at the rate of the device, without oversampling and with the device's carrier frequency.", "anchors": ["hermespy/core/operators.py:SilentTransmitter._transmit", "hermespy/core/operators.py:SignalTransmitter._transmit", "hermespy/core/operators.py:SignalReceiver", "hermespy/core/state.py:DeviceState.transmit_state", "hermespy/core/state.py:DeviceState.Basic", "hermespy/core/device.py:Transmitter.transmit", "hermespy/core/device.py:Device.max_frame_duration"]}
{"id": "C133", "title": "Resampling keeps time and samples", "statement": "Resampling a signal to another rate keeps its streams, its duration and the times of its blocks to within a sample, runs through the samples whose times are kept, keeps constants constant, obeys the request for an aliasing filter, works for signals of any length, and gives the same for sparse and for dense signals; non-positive rates are refused and equal rates change nothing; delay matrices shift signals by whole numbers of samples exactly.", "quantifier": "for all blocks, offsets, numbers of streams and samples, pairs of rates, filters and delays", "why_tests_cant": "Tests resample a few long sinusoids up and down once and compare energies; whole and fractional ratios, short and sparse signals and offsets take different branches.", "anchors": ["hermespy/core/signal_model.py:SignalBlock.resample_block", "hermespy/core/signal_model.py:SignalBlock._resample", "hermespy/core/signal_model.py:SparseSignal.resample", "hermespy/tools/resampling.py:delay_resampling_matrix"]}
{"id": "C134", "title": "Keys of sparse signals mean what they mean for arrays", "statement": "Assigning to a key of a sparse signal writes the streams and samples the same key selects of an array of the same shape, expects values of the shape of that selection, refuses the indices arrays refuse, and does nothing if nothing is selected.", "quantifier": "for all numbers of streams and samples, integers, slices with any bounds and steps, pairs of them and masks", "why_tests_cant": "Tests compare a few random keys within bounds; bounds before the start, beyond the end, empty and reversed slices are not drawn.", "anchors": ["hermespy/core/signal_model.py:SparseSignal._parse_validate_itemkey", "hermespy/core/signal_model.py:SparseSignal.__setitem__"]}
{"id": "C135", "title": "Amplifiers identified from measurements behave as measured", "statement": "Memory polynomial amplifiers, with and without cross terms, respond as published; the ones identified from measured inputs and outputs fit them best among all of the same memory and order, recover an amplifier of that kind from its measurements, and amplify signals sample by sample in time.", "quantifier": "for all measurements, memory lengths, orders and coefficients, and any minimiser the solver returns", "why_tests_cant": "Unit tests only store and load coefficients; neither the responses nor the identification are ever run.", "anchors": ["hermespy/simulation/rf/blocks/amps.py:MemoryPolynomialPowerAmplifier.FromMeasurements", "hermespy/simulation/rf/blocks/amps.py:MemoryPolynomialPowerAmplifier.model", "hermespy/simulation/rf/blocks/amps.py:MemoryCTPolynomialPowerAmplifier.FromMeasurements", "hermespy/simulation/rf/blocks/amps.py:MemoryCTPolynomialPowerAmplifier.model"]}
{"id": "C136", "title": "Ideal channel estimation of single carrier waveforms reports the gains symbols are received with", "statement": "For every frame of a drop and every pulse, the ideal estimate assigns each symbol, for each pair of streams, the gain the channel has while the symbol is on air; over a static channel it is exact for every symbol, so that zero forcing returns what was sent. Estimation without a sample of the channel raises RuntimeError, with other numbers of streams ValueError.", "quantifier": "for all pulses, frame layouts, oversampling factors, symbols, channels, numbers of streams and delays of frames", "why_tests_cant": "The estimates depend on filter, delay, oversampling factor and the position of the symbol at once; tests bound the error rate of a few configurations.", "anchors": ["hermespy/simulation/modem/channel_estimation.py:SingleCarrierIdealChannelEstimation.estimate_channel", "hermespy/simulation/modem/channel_estimation.py:IdealChannelEstimation._csi"]}
{"id": "C137", "title": "QuaDRiGa channel samples propagate every path to every antenna, and are reproducible", "statement": "A signal propagated over a sample of a QuaDRiGa channel arrives at every antenna of the receiver as the sum over all paths of the transmitted streams, delayed by the path's delay to the nearest sample and weighted with its coefficient and the channel's gain; the channel state predicts exactly this; the seed of the channel, the positions and velocities of the devices and the order of sampling determine the sample; the reciprocal of a sample is its transpose, and restored channels draw from the same scenario.", "quantifier": "for all coefficients, delays, numbers of antennas, signals, numbers of taps, links, and all histories of samples of all channels sharing interfaces", "why_tests_cant": "Tests run a single antenna pair with constant coefficients of one and mocked backends; array shapes, phases of coefficients and sharing of interfaces never vary.", "anchors": ["hermespy/channel/quadriga/quadriga.py:QuadrigaChannelSample", "hermespy/channel/quadriga/quadriga.py:QuadrigaChannelRealization", "hermespy/channel/quadriga/quadriga.py:QuadrigaChannel", "hermespy/channel/quadriga/interface.py:QuadrigaInterface.sample_quadriga", "hermespy/channel/channel.py:ChannelSample.propagate"]}
{"id": "C138", "title": "Direct triggers of dummy scenarios exchange signals between all triggered devices", "statement": "Triggering a selection of devices of a dummy scenario directly returns for every device what it makes of the transmissions of all of them, each emitted at its trigger and propagated over the channel linking both devices in the direction of transmission, and of its own leakage, corrected if calibrations are to be applied; devices sharing a trigger model share its realization. Other numbers of signals and devices outside of the scenario raise ValueError. A device triggered on its own receives its own transmission, if it shall, and its leakage.", "quantifier": "for all selections and orders of devices, transmissions, channels, realizations, trigger models and behaviours of devices and channels", "why_tests_cant": "Tests trigger one or two devices over ideal channels; the order of writes to the matrix of signals, the direction of samples and the treatment of leakage cannot be told apart there.", "anchors": ["hermespy/hardware_loop/physical_device_dummy.py:PhysicalScenarioDummy._trigger_direct", "hermespy/hardware_loop/physical_device_dummy.py:PhysicalDeviceDummy.trigger_direct", "hermespy/hardware_loop/scenario.py:PhysicalScenario.trigger_direct"]}
{"id": "C139", "title": "High-pass filters of radio-frequency chains keep shape, timing and meta data, are linear and block what is below their cutoff frequency", "statement": "A high-pass filter block returns signals of the same numbers of streams and samples, sampling rate, carrier frequencies, noise powers and delay, filters every stream by itself and linearly, forwards and backwards by the difference equation of its coefficients, without transients for constants. Spectral components above the cutoff frequency pass, those at the cutoff frequency with half their power. Realizing a block uses the coefficients of its own cutoff frequency, order and sampling rate whatever was realized before. Cutoff frequencies that are not positive or not below half of the sampling rate and orders below one raise ValueError.", "quantifier": "for all signals, coefficients, lengths, weights, constants, cutoff frequencies, orders, rates and histories of realizations", "why_tests_cant": "Tests compare a single call with scipy; linearity, the steady state of all filters, all histories of the cache and the meaning of the cutoff frequency are statements about all signals and histories.", "anchors": ["hermespy/simulation/rf/blocks/filters.py:Filter._propagate", "hermespy/simulation/rf/blocks/filters.py:HPF.__init__", "hermespy/simulation/rf/blocks/filters.py:HPF._filter_coefficients", "hermespy/simulation/rf/blocks/filters.py:HPF.realize"]}
{"id": "C140", "title": "Appending to sparse signals shows what was there followed by what is appended", "statement": "Appending samples to a sparse signal gives a signal showing its samples and then those appended, resampled to its rate, in blocks which are sorted and do not overlap; appending any number of matrices one after another is the same as appending them to the dense signal. Appending streams gives a signal showing its streams on top of those appended, resampled to its rate, zero where one of them has ended.", "quantifier": "for all numbers of streams, blocks, gaps, samples, appended signals and matrices, and histories of appended matrices", "why_tests_cant": "Tests append one signal of the same length and rate; that every combination of blocks, gaps and ends is merged correctly, and that histories of appends agree with the dense signal, are statements about all signals.", "anchors": ["hermespy/core/signal_model.py:SparseSignal.append_samples", "hermespy/core/signal_model.py:SparseSignal.append_streams", "hermespy/core/signal_model.py:SparseSignal._getblocks_union"]}
{"id": "C141", "title": "Tiling figures ends, keeps the layout asked for and places all figures on the screen without overlaps", "statement": "Tiling any number of open figures ends. All figures get a place: the layout asked for is kept if it has room, otherwise columns are added, no more than needed in the rows asked for, and rows in the ratio asked for, rounded. No two figures overlap and all of them are on the screen, also if offsets are given. Layouts without columns or rows are refused. Without monitors a default screen is used.", "quantifier": "for all numbers of figures, layouts, screens, offsets and monitors", "why_tests_cant": "Whether the adjusting loop ends, and whether grids it ends with have room for all figures on the screen, depends on all layouts and numbers of figures; tests open a few.", "anchors": ["hermespy/tools/tile.py:tile_figures", "hermespy/tools/tile.py:screen_geometry", "hermespy/tools/tile.py:set_figure_geometry"]}
{"id": "C142", "title": "Beamforming a signal keeps every sample at its time, and beamforming operators apply it to all they send and receive", "statement": "Encoding or decoding a signal by a beamformer returns a signal with the same attributes and number of samples, in which every sample is the beamformed one of the same time, also if the signal consists of blocks with gaps between them. Other numbers of streams or focus points are refused. A beamforming transmitter sends its signal at the device's rate on the ports it selected, adding up coherently in the direction focused; a beamforming receiver returns waves from the direction focused unchanged, on the ports it selected.", "quantifier": "for all signals, blocks, beamformers, focus points, arrays and selections of ports", "why_tests_cant": "Where blocks end up depends on their number and offsets, and what operators send on antennas, focus and ports; tests beamform a few dense signals.", "anchors": ["hermespy/beamforming/beamformer.py:TransmitBeamformer.encode_streams", "hermespy/beamforming/beamformer.py:ReceiveBeamformer.decode_streams", "hermespy/beamforming/operators.py:BeamformingTransmitter._transmit", "hermespy/beamforming/operators.py:BeamformingReceiver._receive", "hermespy/core/signal_model.py:Signal.Create"]}
{"id": "C143", "title": "Leakage estimates by minimum mean square errors weigh probes by their power and the noise, and are optimal", "statement": "Whatever singular vectors the decomposition returns, the estimated spectrum of a leakage response is the sum of the receptions weighed by the conjugate of what was sent, over the power sent plus the mean noise power; no singular value divided by is zero, and no linear estimator has a smaller mean square error. Without noise the estimate is the one by least squares and finds the response of a leaking device exactly. Noise powers that are negative or do not fit the device raise ValueError, and noise powers measured once are used from then on.", "quantifier": "for all singular value decompositions, numbers of probes, samples and ports, noise powers, and whatever the device receives", "why_tests_cant": "Singular vectors of repeated singular values are arbitrary, and only the first of the singular values are used; tests compare one estimate to one response within a tolerance.", "anchors": ["hermespy/hardware_loop/calibration/leakage.py:SelectiveLeakageCalibration.MMSEEstimate", "hermespy/hardware_loop/physical_device.py:PhysicalDevice.estimate_noise_power", "hermespy/hardware_loop/physical_device.py:PhysicalDevice.noise_power"]}
{"id": "C144", "title": "Calibrations saved to a file are the ones loaded from it", "statement": "Loading the calibrations of a physical device from a file assigns the calibrations that were last saved to it, of the same classes and values, whatever happened to other files; files that could not be written completely can be written again. Loading either assigns every calibration of the file or raises and leaves the device as it is. A calibration saved on its own is loaded by its class and by its base class, and by devices.", "quantifier": "for all devices, calibrations, histories of saving to any files, and points at which storage fails", "why_tests_cant": "What a file holds depends on everything saved to it before and on where writing failed; tests save and load once in a new file.", "anchors": ["hermespy/hardware_loop/physical_device.py:PhysicalDevice.save_calibration", "hermespy/hardware_loop/physical_device.py:PhysicalDevice.load_calibration", "hermespy/hardware_loop/physical_device.py:Calibration.save", "hermespy/hardware_loop/physical_device.py:Calibration.Load", "hermespy/core/factory.py:HDFSerializationProcess._serialize_object", "hermespy/core/factory.py:Factory.serialize"]}
{"id": "C145", "title": "Signals created from blocks show every block at its offset, and blocks that do not fit are refused", "statement": "Signal.Create, given several blocks of as many streams each, sorted by offset and not overlapping, returns a signal of as many streams and of as many samples as the last block ends at, whose dense view shows every block at its offset and zeros elsewhere. Offsets handed over place the blocks; a single array is delayed by its offset. Plain arrays are concatenated. Blocks of different numbers of streams, overlapping blocks and blocks out of order raise a ValueError.", "quantifier": "for all sequences of blocks and arrays of any shapes, samples and offsets, all rates and delays", "why_tests_cant": "Tests create signals from a few blocks that fit; whether a block that does not fit is refused, repeated or lost depends on all shapes and offsets.", "anchors": ["hermespy/core/signal_model.py:Signal.Create", "hermespy/core/signal_model.py:SparseSignal.__init__", "hermespy/core/signal_model.py:SparseSignal.to_dense", "hermespy/core/signal_model.py:SparseSignal._validate_samples_offsets", "hermespy/core/signal_model.py:DenseSignal.FromNDArray"]}
