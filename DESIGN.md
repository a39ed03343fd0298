# Formal model of HermesPy: design

Source under study: `/repo` (Barkhausen-Institut/hermespy, pinned, unchanged, never executed).
Model and proofs: Lean 4.33.0 with Mathlib, in `/verif/lean`.

## Layout

`lean/Verif/<area>/` holds one module per group of source files. A module starts with the model (the code,
function by function; every definition cites file and lines and says what was simplified), followed by the
definitions the property statements use, helper lemmas, the property theorems `Cxx_...`, and beside them
`example`s showing that their hypotheses are met. Larger areas are split (`Model`, `...Props`).
`seeded/LOG.jsonl` records the wrong programs the theorems were tested against. `tools/design.py` regenerates
the generated sections of this file.

Theorem names start with the property id. A `_partial` suffix means that the theorem proves
less than the property's full statement; a `_fails` suffix marks a proved *negation*: a
witness (or a whole class of inputs) on which the code violates the property.

## Trusted base

* Lean's kernel and the axioms `propext`, `Classical.choice`, `Quot.sound` (each property
  theorem depends on a subset; checked with `#print axioms`, see the end of this file).
* No own axioms, no `sorry`, no `native_decide`, no `bv_decide`.
* The transcription of Python into Lean, by hand, documented by the line citations.
* Idealisations, stated again at the definitions that use them:
  * `numpy` floating point numbers are real (`ℝ`), complex (`ℂ`) or rational (`ℚ`) numbers;
    no rounding, overflow or NaN.
  * Python integers are `Nat` or `Int`; numpy fixed-width integers do not overflow.
  * random generators are arbitrary oracles: theorems quantify over every stream they may return.
  * exceptions are values (`Except`), i.e. error branches are explicit outcomes.
  * HDF5 is a finite map from paths to values; the file system is reliable.
  * `ray` actors are interleaved at the granularity of remote method calls.

## Not modelled

Visualisation, plotting, console output, `ray` itself, HDF5 itself, third-party numerical
kernels (FFT routines are taken as their mathematical definition, `scipy.signal` filters,
aff3ct / quadriga / sionna / UHD / audio bindings), documentation and packaging. The exact lists of
modelled lines and of files without any modelled code are at the end of this file.

## Plan per property

| id | what is modelled | how it is proved |
|----|------------------|------------------|
| C01 | `RepetitionEncoder.encode/decode` on `List Bool` | counting argument on the reshaped columns |
| C02 | interleaver reshape/transpose as index maps | index arithmetic with `div`/`mod` |
| C03 | CRC mock with a random-bit oracle | list lemmas; negation for `Q=0` |
| C04 | PRNG queues as lists, step function; scrambler as state machine | induction over call histories; xor involution |
| C05 | 7-bit LFSR step; scrambler state machine | induction over histories; period by deciding over the complete state table (128 states) and lifting |
| C06 | `EncoderManager.encode/decode` over abstract encoders with `decode∘encode = id` | induction over the encoder chain with a prefix invariant; negation for non-nested block sizes |
| C07 | same functions, error branches | case analysis, sortedness and permutation of stable insertion |
| C08 | stream counting of transmit/receive chains | induction over the chain |
| C09 | `Precoding.__setitem__`, Device constructor loop | induction; negation by witness, exact law (reverse) proved |
| C10 | Alamouti encode/decode over `ℂ` | field identities, induction over symbol pairs |
| C11 | Ganesan encode/decode over `ℂ` | field identities |
| C12 | block accounting in `ℚ` | induction; negation by witness |
| C13 | PAM mapping over `ℝ`, 3GPP LLRs | case analysis with linear arithmetic per order |
| C14 | same | finite code books decided in full, scaled by exact square roots |
| C15 | queue manager state machine | invariant by induction over operation histories |
| C16 | `query_progress` in `ℚ` | invariant; negation on a 2-D grid by witness |
| C17 | `__run_batch` over abstract stages | simulation invariant: stage outputs valid for the current section |
| C18 | coordinate flow of `simulate` | permutation argument; negation by witness |
| C19 | scalar result accumulation | induction and permutation invariance |
| C20 | collector state machine with in-flight samples | invariant by induction; negation for the racing schedule |
| C21 | dense <-> sparse conversion on lists of columns | induction over columns; negation by witness |
| C22 | superposition via union windows | pointwise view function |
| C23 | slice arithmetic | integer arithmetic; negation for step 3 |
| C24 | `__setitem__` block surgery | pointwise view; negation by witness |
| C25 | dense superposition with delays | pointwise; negation by witness |
| C26 | append / interleave on matrices | list algebra |
| C27 | dB conversions over `ℝ` | `Real.rpow`/`Real.logb` algebra; negation for sequences |
| C28 | 3x3 and 4x4 matrices over `ℝ` | trigonometric ring identities; negation for quaternions |
| C29 | spherical coordinates over `ℝ` | `Real.arccos`, `Complex.arg` lemmas |
| C30 | heap of frames with caches | coherence invariant by induction over histories; negation for `lookat` |
| C31 | block graph, memoised evaluation | well-founded induction, equality with a denotational semantics |
| C32 | HDF process as path map | induction over object trees; negations by witness |
| C33 | slot state machine | invariant by induction |
| C34 | `process_input` | list algebra; negation by witness |
| C35 | scenario mode machine with file contents | induction over histories |
| C36 | links and channel list | invariant by induction; negation by witness |
| C37 | double loop of `propagate` | loop invariant, every entry written once |
| C38 | trigger realisation loop | loop invariant |
| C39 | random node tree | induction over histories; negation by witness |
| C40 | hookable state machine | induction over histories |
| C41 | detector loops over cubes | list filtering; negation by witness |
| C42 | cube constructor | decision logic |
| C43 | `num_source_bits`-style accounting of the coding chain | arithmetic over the encoder chain |
| C44 | stage arguments of the simulation actor | negation by witness over the execution of a sample |
| C45 | consumption of stage arguments in `__run_batch` | invariant over the stage loop; negation for re-used stages |
| C46 | modem constructor loop over a coding object | fuel-indexed execution; divergence proved for every fuel |
| C47 | space diversity decoders followed by zero forcing over `ℂ` | field identities; negation by witness |
| C48 | DFT precoding as the mathematical transform | orthogonality of roots of unity (`Dft.lean`) |
| C49 | `lookat` over `ℝ` | cross product identities; negation for parallel vectors |
| C50 | `Device.generate_output` over matrices | list algebra; negations by witness |
| C51 | CFAR window loops over cubes | characterisation of the training cells; scaling lemma |
| C52, C53 | error and throughput evaluators over lists of frames | counting; negations by witness |
| C54 | modem constructors and `EncoderManager.add_encoder` on a heap of managers | induction over the encoder list |
| C55 | resource grid elements, pattern loops | index arithmetic, every data cell written and read once |
| C56, C57 | orthogonal waveforms: word placement, prefixes, offsets, DFT/Fresnel transforms | list algebra over words, Fourier inversion |
| C58 | `frame_duration`, `samples_per_frame` in `ℚ` | rounding inequalities |
| C59 | pilot section cache | invariant over histories; negation by witness |
| C60 | complete transmit / receive path of a modem link | composition of C06, C13, C55, C56 |
| C61 | evaluator state machine | induction over histories; negations |
| C62 | symbol series on a heap of arrays | induction over appends; negation by aliasing |
| C63 | ADC/DAC: gain control, quantisation, framing over `ℝ`/`ℚ` | inequalities; negations by witness |
| C64 | power amplifier characteristics over `ℂ` | monotonicity and limits; negations |
| C65 | least squares estimation on resource grids, `griddata` as a contract | list algebra over grid cells, barycentric sums; negations |
| C66 | RF signals with meta data, mixers, splitters, ... | induction over programs; negations |
| C67 | frame generators over lists of bits | packing round trip; negations |
| C68 | reader position of a file source | induction over request histories |
| C69 | channel state tensor, conversions, `linear`, `propagate` | reindexing of sums over flattened tensors, DFT inversion |
| C70 | link arguments, hook sets and realization cache of a channel | induction over histories |
| C71 | ideal channel with the transmitted array as mutable state | finite sums, case analysis over antenna counts |
| C72 | delay channel state and propagation, block lists, delay setter | finite sums, dense view of block lists, induction over assignments |
| C73 | OFDM words in frames, static multipath reception, ideal channel estimation | induction over sections and resources, shift theorem of the transform; negations |
| C74 | variables, generators, realizations and samples of `channel/consistent.py`; independent uniform phases as a product measure | invariant over programs; intermediate values and monotonicity of the velocity law; integrals of characters; Lipschitz bound; normal distribution of Mathlib; negations |
| C75 | propagation, state, energy scale and reciprocity of `MultipathFadingSample`, sampling of the spatial response (`channel/fading/fading.py`); random phases and angles as product measures | explicit propagation formula by induction over paths; comparison with the channel state algebra of C69; integrals of characters over the phases; substitution on the circle for Clarke's spectrum; negations for taps, antennas, duplexing, Doppler unit, evolution in time, covariance |
| C76 | constructor, setters, realization, sampling and serialization of `MultipathFadingChannel`; `TDL`, `Cost259`, `Exponential`; standard and custom antenna correlations (`channel/fading/*.py`); `np.argsort` and h5py by contract | case analysis of the constructor; permutations of lists; offsets of the five variables computed by the generator model of C74; rational bounds of powers of ten for delay spreads; power series for the exponential profile; an explicit sum of squares for the covariances; negations |
| C77 | propagation, state, null hypothesis, energy scale and reciprocity of `RadarChannelSample`; delay, velocity and response of target and interference paths (`channel/radar/radar.py`); antenna responses as arbitrary functions | explicit sum over paths by induction over the path loop with an invariant of the buffer; derivative of the path length for the Doppler shift; negations for all configurations in question |
| C78 | configuration, sampling and storage of `SingleTargetRadarChannel` and its realization; target sets, sampling of targets and line of sight of `MultiTargetRadarChannel` (`channel/radar/single.py`, `multi.py`); trajectories and cross section models as arbitrary functions; sets of targets as mutable objects with references | case analysis of the setters; value of each uniform variable from the generator model of C74; invariant over programs; inverse of a rigid pose in closed form; negations for all poses in question |
| C79 | `local_characteristics` of all antenna models and `global_characteristics` (`core/antennas.py`) over real numbers and rotations, `pi` a parameter; directions of `plot_gain` | spherical frames are orthonormal and complete, so projecting the rotated frame is the rotation of the field; monotonicity and convexity bounds for the dipole; limits next to axis and pole for the negations |
| C80 | topologies, phase responses, characteristics and responses of `AntennaArrayBase` (`core/antennas.py`) over rigid poses | inverse of a rigid pose in closed form, rotations preserve distances; far field error bounded by `2\|q\|²/r` through the chord of an arc; the rest by C79 |
| C81 | `UniformArray` with setters, grid and storage, `AntennaArrayState` with shared antennas as references, `AntennaArray.state`, copies, weights and transmission of simulated arrays (`core/antennas.py`, `simulation/antennas.py`); `SimulatedCustomArray` in the kinematics model of C30 | index arithmetic of flattened grids; invariant over programs of selections; symbolic execution of moves and cached look-ups for the negation |
| C82 | focus points, assignments, probes and storage of beamformers, `_encode` and `_decode` of the conventional one (`beamforming/beamformer.py`, `conventional.py`) on the arrays of C80 | phases of the wave cancel those of the weights; triangle and Cauchy-Schwarz inequalities; invariant over programs of assignments; explicit turned pair of antennas for the negations |
| C83 | `_decode` of `CaponBeamformer` with exact inversion, `_weights`, `_encode`, `_decode` of `NullSteeringBeamformer` with a generalised inverse as contract (`beamforming/capon.py`, `nullsteeringbeamformer.py`) | positive definite quadratic forms, completing the square; projections from one Penrose equation; ranks for the singular case; explicit four-element array for the negation |
| C84 | trigger models, their realizations and their sets of devices (`simulation/simulated_device.py` 69-480, 1228-1231, 1414-1427); draws and set orders as oracles | case analysis over models and orders; positive measure of Gaussian tails; invariant over programs of assignments |
| C85 | `leak` of the three isolation models (`simulation/isolation/`) on signals as lists of blocks with offsets | sums over chains, convolution, induction over histories of assignments |
| C86 | `transmit` and `receive` of the coupling models (`simulation/coupling/`), elementwise powers over numbers with infinities and NaN | propagation of NaN through sums, explicit inverses, parametric counterexamples |
| C87 | `generate_output`, `transmit` and the output containers of `SimulatedDevice` (`simulation/simulated_device.py` 483-726, 1562-1749) over the signal store of C50, the front-end as a function | induction over the emerging signals and over the number of rebuilt outputs |
| C88 | `process_from_realization` and `_generate_receiver_input` of `SimulatedDevice` (`simulation/simulated_device.py` 763-887, 1751-2028) over sparse signals of C21 to C23, front-end, RF chain and noise as functions | induction over the impinging signals of their values and of the samples they cover |
| C89 | mapping, prototypes, modulation and demodulation of `ChirpFSKWaveform` (`modem/waveform_chirp_fsk.py`) with rational parameters, `np.empty` as an oracle | strict triangle inequality for correlations, case analysis of wrapped frequencies over the first four samples, induction over symbols |
| C90 | `CorrelationSynchronization.synchronize` (`modem/waveform_correlation_synchronization.py`) with scipy's `find_peaks`, `np.argsort` as an oracle | induction over the scan for peaks and the greedy selection; bounds of partial correlations |
| C91 | layout, placement, picking, least squares estimation, equalization and storage of `FilteredSingleCarrierWaveform` (`modem/waveform_single_carrier.py`) over any field | arithmetic of the index sets, induction over interpolation |
| C92 | modulation and demodulation of the same waveforms with all their pulses, over the complex numbers | convolution of combs as finite sums, zeros of sinc at integers, partial energies of chirps |
| C93 | `FMCW` (`radar/fmcw.py`): configuration, ping, energy, estimate, labels and storage over the reals and complex numbers; decimation is a contract | mixing of chirps to tones, orthogonality and strict triangle inequality for unique maxima, case analysis of labels |
| C94 | `RadarBase` and `Radar` (`radar/radar.py`) over any waveform, beamformer and detector, with allocated memory as an oracle; `FMCW` and `MaxDetector` as instances; storage with addresses of temporary arrays | induction over lines, sorted selection of ranges, unique maxima from C93 |
| C95 | `MatchedFilterJcas` (`jcas/matched_filtering.py`) with two-dimensional correlation in the mode `valid`, labels and storage | strict Cauchy-Schwarz bounds for other delays, strict triangle inequality for other velocities |
| C96 | `OFDMRadar` (`jcas/ofdm_radar.py`) on the OFDM frames of C55 and C73: normalisation by the transmitted grid, both transforms, labels, the slice of the minimum range as it broadcasts, and storage | the frequency response of static echoes is a spectrum, inverted by the transform; characters sum to zero over words; triangle inequality for partly empty grids |
| C97 | `radar/evaluators.py`: artifacts, results, plots and the extraction from scenarios and files; the order of iterating the set of operators is an oracle | histories by induction to the list of artifacts per coordinate; monotonicity of counts; floor of the gap for separating detectors |
| C98 | `radar/evaluators.py`: evaluators as state machines of receptions and channel samples, artifacts, results, detection evaluators and their storage | histories by induction; sums of squares vanish exactly if all terms do; unit directions for the radar's pose |
| C99 | `rf/noise/level.py`, `rf/noise/model.py`, `modem/noise.py` and the noise of devices and default radio frequency chains, noise level objects by reference; drawn numbers are random variables | correlations of unit noise integrated; energy of linear combinations of uncorrelated variables; histories by induction; matched filters of C92 for symbols |
| C100 | construction of simulated devices as a history of operations on the random nodes of C39 | invariants of histories: mothers without generators, generators kept, entropy never reused |
| C101 | `rf/noise/phase_noise.py` and its use by `Source`: recursive filters as recursions on lists, random numbers as random variables, least squares as contract | filters as power series, flicker coefficients by the differential equation of `(1 - z)^(1/2)`; correlations integrated |
| C102 | `core/evaluators.py` powers, `simulation/evaluators/interference.py`, powers of `core/signal_model.py`: attributes as slots that may be unset, devices' callbacks as a history of notifications | energies of sparse and dense samples compared block by block; last notification by induction on the history |
| C103 | `SignalExtractor`, `ExtractedSignals` in `core/evaluators.py`: signals as arrays or shapes | arrays pointwise, orders of arrival by the grid model of C15 |
| C104 | `simulation/evaluators/beamforming.py` over the arrays of C80 | Cauchy–Schwarz per sample; codebook indices by induction on zeniths |
| C105 | `simulation/rf/blocks/ramp.py`: parameters, creation, setters, cached signal, storage | floors of sample counts, index arithmetic over repeated chirps, derivative of the phase; cache by invariant over histories |
| C106 | `simulation/rf/presets/ti/xwr1843.py` as a radar waveform, ramps of C105; `scipy.signal.resample` by contract (identity on equal lengths, tones stay tones) | beat of delayed ramps in closed form, strict triangle inequality for sums of unit numbers, orthogonality of roots of unity |
| C107 | `simulation/animation.py`: trajectories, looking at targets, storage; `scipy` `Slerp` by contract, poses of C49 | derivatives of affine functions, case analysis on timestamps, induction over histories of calls, mutual lookat by antisymmetry |
| C108 | `hardware_loop/physical_device.py`: slots of calibrations and their devices as references, mutually recursive setters with the recursion limit | invariant by induction over histories, closed forms of the nested setters |
| C109 | `hardware_loop/calibration/delay.py`, `DelayCalibrationBase` of `hardware_loop/physical_device.py`: corrections of dense signals with numpy's slices, estimation by pulses, `np.argmax` of complex numbers in lexicographic order, a device that delays, couples its ports and adds noise | closed forms of shifted lists, uniqueness of the maximum |
| C110 | `hardware_loop/calibration/leakage.py`: removal, prediction, probing and least squares estimation of leakage, storage; numpy's slices and convolutions, `find_peaks` as an oracle, a device with linear leakage | convolutions as sums, linearity over ports, spectra of Zadoff-Chu sequences do not vanish, discrete Fourier transforms of C01 |
| C111 | `hardware_loop/physical_device.py`: a state machine over arbitrary hardware, with the caller's signals in a memory of references; corrections of `hardware_loop/calibration/antennas.py`, `hardware_loop/physical_device_dummy.py`, number checks of `hardware_loop/scenario.py` | invariants and frame lemmas by induction over histories of calls |
| C112 | `hardware_loop/uhd/usrp.py`, `hardware_loop/uhd/system.py`: retries of remote calls, configuration of the front-end with calls that may be executed without a reply, preparation, padding, collection; a radio that loops its ports with a delay | invariant over histories, induction over attempts, positions of padded lists |
| C113 | `hardware_loop/calibration/antennas.py`, `hardware_loop/audio/scenario.py`: probing loops with numpy's broadcasting, quotients and means with undefined values, expected phases of C80; scenario as an arbitrary state machine, audio scenarios from the devices of C111 | induction over the probing loops, algebra of unit complex numbers |
| C114 | `hardware_loop/audio/device.py`: up- and downconversion over discrete Fourier transforms, channel selections, triggering, storage; the sound card is an identity | algebra of the spectra, case analysis on bins |
| C115 | `hardware_loop/hardware_loop.py` (`HardwareLoop`), `core/pipeline.py`, `core/executable.py`: the loop over grid and drops with hooks, evaluators, exceptions, interrupts and confirmations; recording mode, dummy states, defaults of dimensions | induction over the passes, invariants of the logs, lexicographic order of the schedule |
| C116 | `core/pymonte/grid.py` (`GridDimension`, `RegisteredDimension`, `ScalarDimension`): creation over a heap of objects, setters, configuration, impacts and titles | effect and frame of the setters by induction over the considered objects |
| C117 | `hardware_loop/hardware_loop.py` (`PlotThread`, `ThreadContextManager`): interleavings of both threads over condition, lock and flag, with timeouts and exceptions | inductive invariant over all steps, decreasing distance to the end of the run |
| C118 | `channel/cdl/cluster_delay_lines.py` 254-756: `ClusterDelayLineSample` with `__ray_impulse_generator`, `_propagate`, `state`, `reciprocal`, `_angular_spread`; array responses are arbitrary functions | closed form of the generated rays, induction over them, refinement of the state by C69, derivatives of path lengths for frequency shifts |
| C119 | `channel/cdl/cluster_delay_lines.py` 759-862, 965-1105, 1400-2032: `ClusterDelayLineRealization` with `_sample`, `_reciprocal_sample` and all its helpers; random numbers and values of the scenario are arguments | sums and orders of lists of powers and delays, interpolation of tables, geometry of poses; counterexamples for the false parts |
| C120 | `channel/cdl/urban_macrocells.py` 86-489, `urban_microcells.py` 87-479, `rural_macrocells.py` 86-416, `indoor_office.py` 107-475, `indoor_factory.py` 33-570, `cluster_delay_lines.py` 2214-2266: path losses, states, parameters and correlations of the scenarios; the Cholesky decomposition is a contract | logarithms and exponentials as functions of distance, rational pivots of the correlation matrices, C119 for samples; counterexamples for the false parts |
| C121 | `channel/cdl/cdl.py` 24-492: tables, realizations, samples, parameters and storage of static cluster delay lines; the consistent phases are functions of the positions | moments of rays as sums over tables, rational bounds of the powers checked by the kernel and lifted to the reals, C118 for samples; counterexamples for the false parts |
| C122 | constructors, `serialize`, `Deserialize` and `_DeserializeParameters` of 246 classes as descriptions (fields, kinds, guards, defaults), scalar and member access of `core/factory.py`; members are identities, array shapes are left out; not described: array subclasses (signals, transformations), Sionna and QuaDRiGa channels, audio and USRP antennas, single target radar channels, abstract bases | a generic theorem on descriptions (induction over writes and reads) for all objects, its decidable side conditions checked by the kernel for each description; differing objects constructed generically for the false parts |
| C123 | `EvaluationResult` and `ScalarEvaluationResult`: plotting, updating, printing; titles of sample points; `MonteCarloResult.print` and `save_to_matlab`; pages of intermediate results; arrays are shapes with functions of coordinates, number formats are oracles | equations for all grids by induction over sections; dictionary lookups by induction over the entries; page arithmetic |
| C124 | `NRSlot`, `NRSubframe`, `NRFrame`, `PSS`, `SSS`, `nr_bandwidth` and `nr_subcarrier_spacing` on the grids of C55 and C56, with possibly negative repetitions of elements | masks of slices by induction over the elements; grids as tiled words; sequences by exhaustive evaluation over all 127 shifts |
| C125 | `IQSplitter` and `IQCombiner` with numpy's broadcasting of rows; angles as a contract (any argument between -π and π, none for a real number over zero) | rows of the split signal by index; polar form of sums; explicit signals for the false parts, for every library meeting the contract |
| C126 | `Executable.default_results_dir` as a state machine whose checks and creations are separate calls of the operating system; file system as list of paths and kinds, with `exists`, `isdir`, `mkdir` and `makedirs` of the library; setters of results directory, verbosity and style | invariant over all schedules of any number of executions and foreign creations; termination by injectivity of the padded names and counting entries; explicit schedules for the false parts. Not modelled: permissions, separators in names, removal of entries by other programs |
| C127 | `SchmidlCoxPilotSection._pilot_sequence`, the pilot symbol through the OFDM transformation of C56, and `SchmidlCoxSynchronization.synchronize` with the model of `scipy.signal.find_peaks` of C90 | partial energies before the frame, strict maximum at its start; parity of subcarriers for the halves; carrier offsets cancel in the products; a plateau computed in closed form for the false part |
| C128 | `SignalBlock.superimpose_to` and the carriers of `DenseSignal.superimpose`, `scipy.signal.firwin` as a contract (symmetric, unit gain, refuses cutoffs outside of the band), repeated as in `Device.generate_output` | the convolution of a tone in closed form, real response from the symmetry of the coefficients; induction over superimposed signals for the order |
| C129 | `SimulationActor.__init__` on the random nodes of C39: a copy of all nodes per actor, one draw and a new seed for the scenario; draws of a node under an arbitrary schedule of actors; constructors of modems and of devices (C100) | the draws of a schedule in closed form by induction over it; roots of nodes are kept because seeding and drawing keep the shape of the graph |
| C130 | `SionnaRTChannelSample` (state, propagation, energy scale), `_sample` and `_reciprocal_sample` of its realization and the wrapper `ChannelSample.propagate`; the ray tracer is a function of positions, velocities and frequency with one gain per path | the loops over paths in closed form by induction; agreement with `ChannelStateInformation.propagate` of C69 by exchanging sums |
| C131 | `SimulatedAntennaArray.calculate_power` of modes and conventional beamformers, the slices of `plot_pattern`; phase responses of C29's arrays, the encoder of the conventional beamformer | array responses in closed form, the triangle inequality for the maximum; orthonormal frames at the starting point for slices |
| C132 | `SilentTransmitter`, `SignalTransmitter`, `SignalReceiver`, the states of `core/state.py`, the wrappers `Transmitter.transmit` and `Receiver.receive`, `Device.max_frame_duration`; superposition as in C128 | case analysis per operator; induction over lists of operators and over histories of a heap of signals |
| C133 | `SignalBlock.resample_block`, `_resample`, `SparseSignal.resample`, `delay_resampling_matrix`; rational rates, exact samples, the filters of scipy as contracts (lengths, and the refusal of at most 27 samples) | zeros of sinc at whole numbers; rounding bounds; induction over blocks |
| C134 | `SparseSignal._parse_validate_itemkey`, `__parse_slice` and the beginning of `__setitem__`, against the indexing of arrays stated by membership; the writing itself is C24 | case analysis per kind of key, remainders of negative numbers |
| C135 | `FromMeasurements` and `model` of the memory polynomial amplifiers of `simulation/rf/blocks/amps.py`, with the flattening of their feature matrices; `lstsq` as a contract (any minimiser) | quotients and remainders of flat indices; sums of squares that vanish |
| C136 | `SingleCarrierIdealChannelEstimation.estimate_channel` and `_csi` of `simulation/modem/channel_estimation.py`, on the pulses of C92 and the states of `core/channel.py` | the in-place loop as a sum over taps; reindexing of the averages; norms of chirps |
| C137 | `channel/quadriga/quadriga.py` (samples, realizations, channels), `sample_quadriga` of `channel/quadriga/interface.py`, `ChannelSample.propagate`; the backend is an arbitrary function of its parameters | loops as sums over paths with numpy's broadcasting; state against propagation by C69; induction over histories of samples |
| C138 | `PhysicalScenarioDummy._trigger_direct` and `PhysicalDeviceDummy.trigger_direct` of `hardware_loop/physical_device_dummy.py`, on the links of C36 and the triggers of C38; devices and channels are parameters | the matrix filled by the nested loops, by induction over the pairs written |
| C139 | `Filter._propagate`, `HPF.__init__`, its setters, `_filter_coefficients` and `realize` of `simulation/rf/blocks/filters.py`; `scipy.signal.filtfilt` with its extension, steady state and two passes; `butter` is an oracle | the state of the transposed direct form as a sum over the past, fixed points of the state, and induction over histories of realizations |
| C140 | `SparseSignal.append_samples` and `append_streams` of `core/signal_model.py` with the slices, unions and sparse forms of C21 to C24; resampling is an oracle | what slices show and where they end, window by window; induction over windows and over histories of appended matrices |
| C141 | `tile_figures`, `screen_geometry` and `set_figure_geometry` of `tools/tile.py`, the loop with fuel | induction over the loop with the invariant that rows are the rounded ratio; division with remainder for the places |
| C142 | `encode_streams` and `decode_streams` of `beamforming/beamformer.py` over any `_encode` or `_decode` of blocks, `Signal.Create` of blocks and `to_dense` of `core/signal_model.py`, `_transmit` and `_receive` of `beamforming/operators.py` | case analysis on the number of blocks; the kernels by C82 and C83 |
| C143 | `MMSEEstimate` of `hardware_loop/calibration/leakage.py` on the probes of C110, over any singular value decomposition; which noise powers are used and kept, `hardware_loop/physical_device.py` | eigenvectors of a stacked diagonal system and ranks for the values left out; completing the square for optimality; Parseval for the single probe; induction over runs |
| C144 | `save_calibration` and `load_calibration` of devices, `Calibration.save` and `Calibration.Load` of `hardware_loop/physical_device.py`, every class of calibrations, and what is used of `core/factory.py`: files by path, groups by name, failures of storage at any object | groups once written stay, by induction over histories; case analysis of reads |
| C145 | `Signal.Create`, `DenseSignal.FromNDArray`, constructor, sizes and `to_dense` of sparse signals with numpy's assignment to slices, and `SparseSignal._validate_samples_offsets`, of `core/signal_model.py`; arrays with or without offset | induction over blocks: what was written before stays where later blocks are not; chains of ordered blocks are pairwise ordered |

Every property above can be expressed in a model; none is excluded.

## What is false of the code

Claims of status `partial`, with the parts the code violates. Each violation is a theorem (`_fails`), so none
of them is an assumption of the model.

<!-- begin violations -->
* **C03** CRC mock strips exactly what it appended. Proved for Q>=1; the property is false for Q=0 (code[: -0] is empty), proved as a negation. Negations: `C03_crc_without_check_bits_fails`.
* **C05** 802.11a scrambler keystream. Everything but the last sentence is proved; encode-then-decode on one instance is false because both share the register (negation proved). Negations: `C05_single_instance_roundtrip_fails`.
* **C06** Channel coding chain is transparent end to end. Proved for nested block sizes; exact outcome proved for all chains; false in general (negations for non-nested sizes and for stateful scramblers with padding). Negations: `C06_misaligned_chain_fails`.
* **C09** Precoder order is the order given by the user. The property is false of the code: constructors insert at the front, so the order is reversed, and every save/load cycle reverses again. Exact law proved: order kept iff the list is a palindrome. Negations: `C09_order_fails`, `C09_round_trip_fails`.
* **C12** Symbol precoding block accounting. num_decoded_blocks divides by the decode rate: right iff the chain has overall rate one. Encoding accounting and the actual block counts are proved. Negations: `C12_decoded_blocks_fails`, `C12_inverse_fails`.
* **C16** Monte Carlo progress is truthful. holds for one-dimensional grids only; on multi-dimensional grids query_progress indexes the first axis with all coordinates: IndexError or progress above one (proved) Negations: `C16_rectangular_grid_fails`, `C16_square_grid_fails`.
* **C18** Grid coordinates mean the same to scheduler, actors and results. actors use the sorted dimension list, queue and results the unsorted one; property holds iff the user lists dimensions in stage order Negations: `C18_coordinates_swapped_fails`, `C18_all_samples_lost_fails`.
* **C20** Collected samples are neither lost nor double counted. the collection loop conserves samples; the final fetch can lose or double count samples (proved) Negations: `C20_in_flight_samples_lost_fails`, `C20_double_counting_fails`.
* **C21** Sparse and dense signal representations agree. Proved for all single-stream matrices and all matrices without cancelling columns; proved false for columns whose entries sum to zero (the code tests the sum over streams). Negations: `C21_cancelling_columns_fails`.
* **C22** Sparse superposition is pointwise addition. Pointwise addition with delays and structural invariant proved for all signals with at least one block; proved false: the argument is modified when sparse and delayed, and superposition onto a signal without blocks is refused. Negations: `C22_argument_changed_fails`, `C22_empty_signal_fails`.
* **C23** Slicing a sparse signal equals slicing its dense view. Proved for non-negative bounds and steps one and two; proved false for step three and for negative bounds. Negations: `C23_step_three_fails`, `C23_negative_bounds_fails`.
* **C24** Assigning to a slice only changes that slice. Proved for ranges that end in a later block than they start in or exactly at the end of a block (all streams selected), values not zero throughout; proved false for ranges inside a block, ranges ending in a gap, matrices in front of the first block and zero values. Assignment to some of the streams is not modelled. Negations: `C24_inner_range_fails`, `C24_range_ending_in_gap_fails`, `C24_front_fails`, `C24_zero_scalar_fails`, `C24_zero_matrix_fails`.
* **C25** Dense superposition respects signal delays. Proved for added signals that start no later and have equal stream count; proved false for later signals and for fewer streams. Resampling and frequency mixing are outside the model. Negations: `C25_later_signal_fails`, `C25_fewer_streams_fails`, `C25_single_stream_fails`.
* **C26** Appending and interleaving of signals are loss-free. Dense sample appends in full (histories, associativity); streams for signals no longer than the first; sparse appends for signals with blocks; interleaving exact without scaling on integer samples and within one quantisation step with scaling. Appending to sparse signals is C140. Negations: `C26_longer_streams_fails`, `C26_sparse_trailing_zeros_fails`, `C26_scaled_ones_fails`.
* **C27** Logarithmic numbers are consistent in both domains. Scalars hold in full. False for sequences: amplitude sequences store power decibels, items of another conversion are stored with foreign decibels. Negations: `C27_amplitude_sequence_fails`, `C27_mixed_item_fails`.
* **C28** Poses built from roll/pitch/yaw and quaternions are rigid and recoverable. Rigidity, inverse and length preservation hold for all arguments; angles read back describe the same rotation except at pitch -pi/2, where the code reports +pi/2. Quaternion extraction is wrong; two-dimensional directions lose length. Negations: `C28_planar_direction_fails`, `C28_gimbal_lock_fails`, `C28_quaternion_roundtrip_fails`.
* **C30** Cached kinematics never go stale. All histories of pose and base changes and reads over an arbitrary group of transformations; false after lookat, which does not notify. Negations: `C30_lookat_fails`.
* **C31** RF chain evaluation follows the wiring. Proved for all acyclic wirings without repeated connections between two blocks, doubly driven input ports, or input ports left open. The first two are accepted silently by the code and discard a connection; the inputs of blocks are allocated without initialisation, so that an input port left open carries arbitrary memory contents. Negations: `C31_second_connection_fails`, `C31_double_drive_fails`, `C31_open_input_fails`, `C31_wired_outputs_leak`.
* **C32** Serialization preserves values and object identity. For every heap without reference cycles: writing succeeds; values survive every reading order; with the writing order sharing survives as well (injective renaming). The full claim is false: other reading orders duplicate shared objects, cycles never end, temporary arrays at a re-used address are swapped, a root array named 'arrays' is lost, re-written sequences keep the old objects, and classes such as PskQamMapping and EncoderManager do not write all of their state. Not modelled: dtype conversion, type checks on reading, the campaign/append/root options, the remaining classes' serialize methods. Negations: `C32_order_identity_fails`, `C32_cycle_fails`, `C32_temporary_arrays_fails`, `C32_arrays_field_fails`, `C32_rewritten_sequence_fails`, `C32_psk_qam_fails`, `C32_manager_fails`.
* **C34** Devices receive the superposition of all impinging signals. Proved for one impinging signal, any receive coding and any receivers. False for every other number of impinging signals: the result of superimpose is dropped (core/device.py 1522), so receivers get an empty signal. Negations: `C34_superposition_fails`.
* **C35** Record and replay are inverse. Round trip, appending, offsets, stopping and refused modifications are proved for arbitrary histories, and the contents of recorded drops on the HDF model. The claim is false of the code where stated by the _fails theorems: links stay modifiable, the campaign setter rewinds a replay although it raises and is ignored by a recording, record with the reserved campaign name raises but leaves the scenario recording, drops at a given time are not recorded, negative offsets are accepted, an interrupted drop blocks the replay. In replay mode num_drops is the number of the next drop, not the recorded number as documented. Negations: `C35_links_fails`, `C35_campaign_replay_fails`, `C35_campaign_record_fails`, `C35_reserved_fails`, `C35_timestamp_fails`, `C35_negative_offset_fails`, `C35_interrupted_fails`, `C35_num_drops_replay_fails`.
* **C36** Channel links of a scenario. Links are symmetric, the latest assignment wins, unassigned pairs get the default. A replaced default channel vanishes from the list of channels although pairs still use it, and device_channels returns the inactive default; both are proved as _fails. Negations: `C36_default_dropped_fails`, `C36_inactive_default_fails`.
* **C37** Propagation reaches every ordered device pair exactly once. The propagation matrix is proved complete if every channel in use is listed and there is a state per device. Proved _fails: after replacing a default channel in use propagate raises, and a short state list leaves entries unset. Negations: `C37_default_dropped_fails`, `C37_short_states_fails`.
* **C39** Random seeding is reproducible. Seeding determines all later draws for every history; nodes attached by the random_mother setter draw from the mother's generator. The claim fails for mothers given to the constructor and for children seeded after attachment: both have a mother but draw from their own generator. Negations: `C39_constructor_mother_fails`, `C39_reseeded_child_fails`.
* **C40** Hooks are called exactly once each and removal is effective. Exactly the registered hooks are called, each once, and removed hooks never. Hooks are kept in a set, so the order of registration is not kept, and a callback removing itself makes notify raise and skip the remaining hooks; both proved as _fails. Negations: `C40_order_fails`, `C40_self_removal_fails`.
* **C41** Threshold and maximum radar detectors report true peaks. The threshold detector reports exactly the bins at or above the threshold, and local maxima with peak detection, each in its place. The maximum detector reports a largest bin with its range and velocity but exchanges azimuth and zenith, so its position is wrong unless both are equal (proved _fails). Also proved: the normalisation is not relative to the largest power, and cubes without carrier frequency cannot be processed. Negations: `C41_max_direction_fails`, `C41_relative_fails`, `C41_carrier_fails`.
* **C42** Radar cube consistency. Construction, normalisation of cubes with a positive power and serialization are proved. The number of columns of the angle bins is not checked, and cubes of negative powers are not normalised to one (proved _fails). Negations: `C42_negative_fails`, `C42_columns_fails`.
* **C44** Drops are generated along device trajectories. the property is false of the code: computed stage arguments are never passed on; proved negation Negations: `C44_single_drop_per_sample_fails`, `C44_announced_drops_fails`.
* **C45** Stage arguments are exhausted for every sample. holds for samples that run all stages; false for samples re-using a stage with several argument tuples Negations: `C45_reuse_drops_arguments_fails`.
* **C46** Modems accept an existing coding object. False of the code: the constructor iterates over the object it inserts into and never terminates. Negations: `C46_existing_coding_diverges_fails`.
* **C47** Diversity decoding followed by zero forcing returns the symbols. Holds for Alamouti and without decoder; false for MaximumRatioCombining (symbols divided by the total gain a second time) and SingleCarrier (state duplicated: half the symbol). Negations: `C47_mrc_zero_forcing_fails`, `C47_selection_zero_forcing_fails`, `C47_selection_many_streams_fails`.
* **C49** Looking at a target orients the frame towards it. Holds whenever up and viewing direction are not parallel; otherwise the pose is singular. The caller's up vector (including the default argument) is normalised in place. Negations: `C49_vertical_fails`, `C49_own_position_fails`, `C49_argument_modified_fails`.
* **C50** Device.generate_output maps every transmission to its ports and leaves transmissions intact. Proved without port selections, for transmissions of equal delay and full stream count. False otherwise: the first transmitter's ports are ignored, later selections raise IndexError or misplace streams, and the first transmission's signal is overwritten by the sum. Negations: `C50_selected_ports_fails`, `C50_second_selection_fails`, `C50_first_transmission_fails`.
* **C52** Error indicators count every bit, block and frame once. Proved for aligned sides. False otherwise: missing bits count as zeros, a lone received block or bit is broadcast against all transmitted ones, other block count mismatches raise. Negations: `C52_lost_bits_fails`, `C52_block_count_fails`, `C52_single_block_fails`, `C52_single_bit_fails`.
* **C54** A modem codes with exactly the encoders it is given. Holds for sequences. False for managers: n encoders become 2n+1 in a modem and 4n+3 in a link; a rate 1/3 code becomes rate 1/27. Negations: `C54_manager_fails`, `C54_duplex_fails`, `C54_rate_fails`.
* **C56** Orthogonal modulation loses nothing. Exact arithmetic over the complex numbers. Recovery holds for sections without sample offset and cyclic prefixes no longer than a word. False part: a resource with a prefix ratio but prefix type NONE leaves samples of the frame uninitialised (np.empty); if no resource is configured so, every sample is written. Negations: `C56_uninitialised_fails`.
* **C57** The sample offset of a section is transparent. Holds for OFDM if the offset section is the first one carrying words and the direct current is not suppressed or the signal not oversampled. False otherwise: the correction is always applied to the first words of the frame, the last subcarrier is rotated wrongly under suppression, OCDM does not correct at all, OTFS corrects in the wrong domain. Negations: `C57_dc_suppression_fails`, `C57_ocdm_fails`, `C57_otfs_fails`, `C57_second_section_fails`.
* **C58** The frame duration is the duration of the modulated frame. False in general: rounding of prefixes depends on the oversampling factor. Proved: the true duration is never shorter, and longer by at most one sample period of the bandwidth per prefix and guard interval. Negations: `C58_duration_fails`.
* **C59** Generated pilots belong to the current configuration. Holds for histories in which the elements are never reset to None and the modulation order (and other settings of the transformation) is not changed. False otherwise: both changes leave the cached pilot in place. Negations: `C59_stale_fails`.
* **C60** An ideal link returns the transmitted bits. Proved without precoding, with the default synchronisation (frames aligned to the signal) and without channel equalisation; instantiated for OFDM, OTFS and OCDM with BPSK, QPSK, 16-, 64- and 256-QAM. False part: the timestamp of a received frame is the sample index multiplied by the sampling rate instead of divided. Negations: `C60_timestamp_fails`.
* **C61** A communication evaluator keeps its settings and reports on the drop at hand. Settings are proved over all histories. False parts: after a transmission without reception the newest transmission is compared with the reception of an earlier drop; no evaluator can be serialised (the attribute read by serialize is never assigned under its mangled name); restoring passes the surface flag as confidence level and loses all stopping parameters. Negations: `C61_newest_fails`, `C61_serialize_fails`, `C61_restore_fails`.
* **C62** Appending to a symbol series concatenates. False parts: the first object appended to an empty series is taken over without copying, so writing to the series changes it; appending to stated symbols does not extend the states, so that the object cannot be copied afterwards. Negations: `C62_alias_fails`, `C62_stated_append_fails`.
* **C63** Converters quantise to the configured resolution without losing samples. Proved for mid-riser quantisers, peak gain control, and signals filling a whole number of frames. False parts: the mid-tread quantiser has 2^b+1 levels; the root mean square of several streams is taken from the spectral norm and thus too small; an incomplete last frame raises ValueError, or is stretched over a whole frame if it has one sample; frames shorter than half a sample delete the signal; digital-to-analog conversion never quantises. Negations: `C63_tread_levels_fails`, `C63_rms_fails`, `C63_frames_fails`, `C63_dac_fails`.
* **C64** Amplifier models follow their characteristics. Proved over exact complex numbers for the memoryless models. False parts: the length check of customised amplifiers is a chained comparison, so that vectors of different lengths are accepted and every propagation raises; memory polynomial amplifiers raise ValueError for every signal. MemoryCTPolynomialPowerAmplifier is C135. Negations: `C64_custom_fails`, `C64_memory_fails`.
* **C65** Least squares channel estimation is exact where it can be. Proved for all frames without pilot sections in the grid whose references do not all lie on one line (or cover the frame); scipy's griddata enters through its documented contract, for which an instance is exhibited. False parts: references of pilot sections in the grid are compared with the wrong symbols, shifting all later ones, so an unchanged frame is estimated as a distorted one; a frame whose references lie on one word or one subcarrier raises for every reception. Negations: `C65_pilot_fails`, `C65_collinear_fails`.
* **C66** RF signals carry the carrier frequency and noise power of each stream through all operations. Alignment holds for all programs; selection, assignment, copying and propagation are proved in general. False parts: selections longer than the signal raise ValueError, and hence every splitter with several outputs does; noise powers are overwritten instead of added, never recorded per stream, and lost by copying and filtering; down-conversion below zero raises (Mixer) or mirrors the frequency without conjugating the samples (IdealMixer); the common carrier frequency is not updated by multipliers and not set by FromNDArray, which also ignores arrays of the wrong size; the quantisation of phase shifters is not implemented. Negations: `C66_select_fails`, `C66_noise_fails`, `C66_mixer_fails`, `C66_ideal_mixer_fails`, `C66_x4_fails`, `C66_from_array_fails`, `C66_split_fails`, `C66_shift_fails`.
* **C67** Packing a payload into a frame and unpacking it returns the payload. Proved for the placeholder generator and for single-layer packets with default fields and payloads of whole bytes. False otherwise: assigned fields are replaced by the defaults, further layers are dropped while their length is still cut from received frames, and payloads are zero-padded to whole bytes so that frames exceed the requested size. Scapy's own header construction is abstracted to a function of the payload. Negations: `C67_fields_fails`, `C67_bytes_fails`, `C67_layers_fails`.
* **C68** A stream source delivers the bits of its file in order, each exactly once. Order and completeness are proved over all histories. False parts: at the end of the file fewer bits than requested are returned silently, numbers of bits which are not multiples of eight always raise, and restored sources start again at the beginning of the file. Negations: `C68_end_fails`, `C68_bits_fails`, `C68_restore_fails`.
* **C69** Channel state information: conversion, linear view and propagation agree. Propagation, the frequency tensor and (for equal stream counts or a single transmit stream) the impulse response tensor are proved. False parts: with one receive and several transmit streams `linear` assigns coefficients to wrong transmit streams; converting to the frequency domain cuts the time axis to the number of bins, so e.g. every ideal state keeps a single sample; after a conversion to another number of bins and back, reciprocal and samples raise; restored states forget the number of bins. Negations: `C69_linear_fails`, `C69_samples_fails`, `C69_padded_fails`, `C69_restore_fails`.
* **C70** Links are sampled with the requested parameters and hooks hear of exactly their samples. Hook bookkeeping and the realization cache are proved over all histories, positional arguments and reciprocity for all devices. False parts: carrier_frequency, bandwidth and (reciprocal) timestamp passed by keyword are ignored; before the first cached realization the property raises AttributeError instead of returning None. Negations: `C70_keyword_fails`, `C70_realization_fails`.
* **C71** The ideal channel delivers what its state predicts and leaves the transmitted signal alone. Agreement of state and propagation is proved for writable signals of every shape. False parts: with at least two receive and at least as many transmit antennas the gain is applied in place to the transmitted signal, so a second receiver sees it twice, and read-only blocks (sparse signals that already passed a channel) raise ValueError. Negations: `C71_transmitted_fails`, `C71_readonly_fails`.
* **C72** Delay channels delay, attenuate and report what they do. State and propagation agree for all sizes; delays of random channels stay in range over all histories. False parts: the gain, documented as a power factor, scales the amplitude, so energy scales with its square; blocks of a sparse signal closer than the delay erase each other. Array responses are arbitrary matrices. Negations: `C72_energy_fails`, `C72_blocks_fails`.
* **C73** OFDM frames survive multipath within the prefix and ideal channel estimation is exact. Demodulation, estimation and recovery are proved for all frames whose symbol sections have cyclic prefixes and no sample offset; C73_channel connects the hypothesis to propagation over channel states. False parts: the estimate of every frame is taken at the start of the drop (the delay of the frame and the reference position are ignored), so later frames are equalised with outdated states when the channel changes; with a pilot section inside the grid ideal estimation raises ValueError for every channel. C73_short_fails shows that the bound on the delays is needed. Negations: `C73_delay_fails`, `C73_short_fails`, `C73_pilot_fails`.
* **C74** Spatially consistent random variables keep their scalars and distributions. Proved over exact reals, with an exact root finder. False parts: a variable added to a second generator loses its place in the first one; a decorrelation distance of zero, which channels accept, is a division by zero when the channel is realized; exchanging both ends changes the samples; at finite decorrelation distances uniform variables never enter a margin of the unit interval, as the sum of sinusoids is bounded. Negations: `C74_shared_fails`, `C74_distance_fails`, `C74_exchange_fails`, `C74_uniform_fails`.
* **C75** Multipath fading samples propagate, predict and average as documented. Proved over exact reals and complex numbers. False parts: a path delayed by exactly the requested number of taps raises an index error in the state; arrays of more than ten antennas; antennas that only transmit or only receive; the Doppler frequency in Hz is used as an angular frequency; later samples and later blocks restart the evolution; antenna covariances are applied without square root, so that antennas do not have the configured covariance. Negations: `C75_taps_fails`, `C75_antennas_fails`, `C75_duplex_fails`, `C75_doppler_fails`, `C75_evolution_fails`, `C75_blocks_fails`, `C75_covariance_fails`.
* **C76** Multipath fading channels simulate what they are configured with. Proved over exact numbers; np.argsort by its contract. False parts: a configured line of sight angle is ignored, also the one of the COST 259 hilly model; zero sinusoids are accepted and leave no numbers, assigning a number of sinusoids has no effect; a channel without line of sight Doppler frequency is restored with NaN; realizations cannot be restored, nor can tapped delay lines of types D and E; rice factors in decibels are used as linear factors and less than half of the power of types D and E arrives on the path with a line of sight; the delay spread of type B is more than one percent off, that of D and E more than two and a half times too large; exponential profiles are not normalised and lose short delay spreads. Negations: `C76_los_angle_fails`, `C76_sinusoids_fails`, `C76_restore_fails`, `C76_realization_fails`, `C76_tdl_restore_fails`, `C76_rice_fails`, `C76_sight_fails`, `C76_rms_fails`, `C76_cost_fails`, `C76_exponential_fails`, `C76_exponential_rms_fails`.
* **C77** Radar paths delay, shift and weight signals as the geometry demands. Proved over exact numbers; antenna responses are arbitrary. Propagation and states are proved for signals that fit the buffer and antennas of matching counts. False parts: echoes of targets are shifted in frequency in the wrong direction; the buffer shrinks with approaching paths, so every long enough signal is refused with a ValueError; the interference path queries all antennas instead of the transmitting and receiving ones, so it is refused or radiates from antennas that only receive; the null hypothesis forgets the time of the sample; the expected energy scale ignores the paths. Negations: `C77_length_fails`, `C77_interference_fails`, `C77_radiating_fails`, `C77_doppler_fails`, `C77_null_fails`, `C77_energy_fails`.
* **C78** Radar channels hold the targets they are configured with. Proved over exact numbers. Storage of targets themselves is not modelled. False parts: the range of a single target is its distance from the origin, not from the sensor; integers and lists are accepted but cannot be stored or restored; realizations of absent targets cannot be restored, those of targets with a velocity vector are restored with another velocity; realizations share the targets of their channel, so targets added later appear in them; collisions and directions are computed from the inverted pose, so real collisions are not refused, devices at mirrored positions are, and cross section models are asked for wrong directions. Negations: `C78_range_fails`, `C78_restore_fails`, `C78_realization_fails`, `C78_shared_fails`, `C78_collision_fails`, `C78_direction_fails`.
* **C79** Antennas answer a direction with the field of their model, turned with the antenna. Proved over real numbers; the constant `pi` is a parameter, so that its rounding can be modelled. False parts: straight down, the gain of a dipole is at least a half instead of zero because the rounded angle escapes the comparison with zero; patch antennas and dipoles are drawn with elevation where the propagation passes zenith; the gain of a patch antenna is not symmetric around its axis and jumps to less than two tenths next to it. Negations: `C79_dipole_pole_fails`, `C79_plot_fails`, `C79_patch_fails`.
* **C80** Array responses follow from where the antennas are. Proved over real and complex numbers. False parts: the phase of the cartesian response has the opposite sign of the documented one; points in the frame of a turned array are answered with the characteristics of another direction. Negations: `C80_sign_fails`, `C80_local_point_fails`.
* **C81** Uniform and custom arrays, their states, copies and restored versions hold the same antennas. Blocks of sparse signals, slices with steps and `CustomAntennaArray.add_antenna` are not modelled. False parts: an empty sequence of dimensions raises but is kept, negative dimensions are accepted with wrong antenna counts; restored arrays count their antennas in floating point numbers, so their characteristics raise a TypeError, and weights of simulated antennas are lost; copies of simulated dipoles are no simulated antennas, so uniform arrays of them cannot transmit; states leave out the pose of the array on its device; subarrays share antennas, so moving one displaces those of the original; simulated custom arrays forget that antennas are linked to them, so antennas stay behind when the array moves. Negations: `C81_empty_dims_fails`, `C81_negative_fails`, `C81_restore_fails`, `C81_dipole_fails`, `C81_state_fails`, `C81_shared_fails`, `C81_custom_fails`.
* **C82** Beams point where they are focused. Proved over complex numbers, block by block. Whole signals and operators wrapping beamformers (`operators.py`) are C142. False parts: focus points in global coordinates ignore where the array is; the conventional beamformer takes angles in the array's frame for angles in space, so turned arrays may cancel the wave focused, also if focused in global coordinates; probes with two-dimensional arrays, as documented, raise an IndexError; focus points are not stored. Negations: `C82_point_fails`, `C82_turned_fails`, `C82_global_fails`, `C82_probe_fails`, `C82_restore_fails`.
* **C83** Capon beamformers pass the focused wave with least power, null steering beamformers suppress the nulled ones. Proved over complex numbers; `pinvh` enters by the contract of a generalised inverse, `inv` raises on singular matrices. False parts: without loading, short signals and single waves without noise raise, contrary to the documented pseudo-inverse; the null steering beam points in the direction opposite to the focus, from which it may receive nothing; its default focus points make the weights of planar arrays not-a-number, as do nulls opposite to the focus; arrays with antennas of different modes are refused in reception and transmit over receiving antennas. Negations: `C83_singular_fails`, `C83_mirror_fails`, `C83_focus_fails`, `C83_default_fails`, `C83_modes_fails`.
* **C84** Triggers delay the devices they control as configured. Times are real numbers, draws an oracle, the set of devices is listed in any order. False parts: realizations of normal triggers raise a ValueError whenever a time of minus a sample or less is drawn; with devices of different sampling rates, the delay of offset triggers depends on the order of a Python set; numbers of samples are rounded towards zero, not down as documented; devices removed from a trigger model still refer to it and cannot transmit any more. Negations: `C84_normal_fails`, `C84_order_fails`, `C84_offset_fails`, `C84_remove_fails`.
* **C85** Devices leak as much of their transmissions as their isolation allows. Proved over real and complex numbers. False parts: isolations set back to None keep leaking; single blocks with an offset are delayed twice; selective leakage raises for signals without samples, accepts responses of other dimensions than the antennas, and responses drawn by `Normal` are not attached to the device and have the square of the requested variance. Negations: `C85_specific_unset_fails`, `C85_specific_offset_fails`, `C85_selective_empty_fails`, `C85_selective_shape_fails`, `C85_normal_fails`.
* **C86** Mutual coupling models transform the antenna streams as documented and nothing else. Powers are taken over numbers with infinities and NaN, otherwise numbers are complex. False parts: powers of impedances are elementwise, so that transmissions of two or more antennas without mutual impedance, among them the default, are NaN, and the matrix is not the inverse root of the impedances; receive impedances of all antennas but the first have no effect; stored impedances lose their imaginary parts. Negations: `C86_transmit_uncoupled_fails`, `C86_transmit_default_fails`, `C86_transmit_root_fails`, `C86_receive_impedance_fails`, `C86_storage_fails`.
* **C87** Simulated devices transmit the superposition of their operators at the trigger. Dense signals of equal carrier frequency; the front-end (RF chain, isolation, coupling, antennas) is a function of the samples, the transmit coding any function. False parts: with separated operators the emerging signals are added to the first one in place each time an output is built, so that `transmit` emits all others with twice their amplitude and each restoration adds them once more; leaking signals are not scaled by the power; selected ports and transmit coding have no effect; missing transmissions raise an AttributeError; delays of transmissions are lost. Negations: `C87_rebuilt_fails`, `C87_transmit_fails`, `C87_leakage_power_fails`, `C87_ports_fails`, `C87_missing_fails`, `C87_delay_fails`.
* **C88** Simulated devices receive the superposition of all impinging signals from their trigger on. Signals have the carrier frequency of the device and a stream for each receive antenna; front-end, RF chain, noise realization and receive coding are functions of the samples. False parts: signals with a gap between them raise a TypeError; devices with separated operators cannot receive anything; only the first of several leaking signals is received; outputs of devices which start a sample or more before the trigger raise a ValueError, those after it an UnboundLocalError; delayed sparse signals are displaced by the reception, so that receiving them again yields them at twice their delay. Negations: `C88_leakage_partial`, `C88_gap_fails`, `C88_separation_fails`, `C88_leakage_fails`, `C88_late_fails`, `C88_early_fails`, `C88_again_fails`.
* **C89** Chirp FSK frames carry their bits. Parameters are rational, samples complex numbers; symbols natural numbers. Proved for at least four samples per chirp and frequency differences within the bandwidth, among them the derived one. False parts: chirps shorter than a sample, as the default ones at up to 100 MHz, decode to zeros; with two or three samples some symbols share a chirp; so they do for larger frequency differences, which are accepted; guard intervals are uninitialised memory; chirps without duration and an order of one are accepted but raise errors in use; frames last shorter than their samples unless chirps last whole samples; synchronization routines given to the constructor or restored are replaced. Negations: `C89_duration_fails`, `C89_short_fails`, `C89_three_fails`, `C89_alias_fails`, `C89_guard_fails`, `C89_zero_fails`, `C89_order_one_fails`, `C89_sync_fails`.
* **C90** Correlation synchronization finds frames where they start. Correlations are exact, scipy's peak search is modelled, equal peaks are ordered arbitrarily. The exact position is proved for frames of constant magnitude without noise which do not repeat their pilot section. False parts: threshold, guard ratio and peak prominence have no effect; in signals shorter than a frame all pilots are said to start at the number of missing samples; a pilot close to the end is reported at the place of another frame, so that one frame is found twice. Negations: `C90_parameters_fails`, `C90_short_fails`, `C90_duplicate_fails`.
* **C91** Single carrier frames hold data and references where receivers look for them. Symbols are elements of a field, pilot mappings an oracle. False parts: a single data symbol is accepted for any number of data symbols and repeated; restored waveforms have the default pilot sequence and repeat it; setting the modulation order, even to its present value, replaces the configured pilot sequence; minimum mean square equalization of a single stream ignores noise; estimation without references raises an error. Negations: `C91_single_fails`, `C91_store_fails`, `C91_order_fails`.
* **C92** Single carrier pulses carry symbols without interference. Samples are complex numbers without rounding. Exact reception is proved for rectangular pulses and chirps of any parameters, and for raised cosine pulses of any roll off and root raised cosine pulses without roll off at an oversampling factor of one and a relative bandwidth of one; for every pulse the received symbols are the sums of all symbols weighted by the convolved filters. False parts: oversampled by two, raised cosine pulses without roll off and of even length interfere with the symbol length - 1 later; a filter of one symbol is sampled too early, so that mostly the previous symbol is received; frames of rolled off pulses and of chirps last longer than announced, and guard intervals have no effect; root raised cosine pulses exceed the announced energy; the pilot signal of chirps lets them overlap, other than in frames; modulating an empty frame raises an error. Negations: `C92_odd_fails`, `C92_interference_fails`, `C92_duration_fails`, `C92_energy_fails`, `C92_pilot_fails`, `C92_empty_fails`.
* **C93** FMCW radars show targets where they are. Parameters are real numbers, samples complex numbers without rounding; resampling in the receiver is a contract (ideal samplers). Exact positions of peaks are proved for echoes delayed by whole samples, guard intervals longer than the delay, and converters sampling at the bandwidth or a whole fraction of it. False parts: labelled ranges exceed the true ones by n/(n-1), and by the ratio of bandwidth and converter rate; the announced maximum range is not that of the last bin; converters faster than the sampling rate yield more columns than labels; odd numbers of chirps label stationary targets with half a resolution; velocities are labelled with reversed sign; pulses are a sample short if chirps do not last whole samples; intervals shorter than chirps by less than a sample are transmitted but cannot be estimated. Negations: `C93_samples_fails`, `C93_range_fails`, `C93_max_range_fails`, `C93_fast_fails`, `C93_odd_fails`, `C93_velocity_fails`, `C93_short_fails`.
* **C94** Radar operators present what they receive, and nothing else. Waveforms and beamformers are contracts in the theorems on cubes; detection is proved end to end for FMCW waveforms and the maximum detector under the conditions of C93. False parts: with a beamformer of several focus points, a single received stream fills the first angle only, the others show uninitialised memory; the announced velocity resolution is half of the distance between velocity bins; if the temporary arrays of receive and transmit ports share an address, restored radars transmit from the ports to receive from; detected targets appear n/(n-1) times as far and with reversed velocity. Negations: `C94_memory_fails`, `C94_resolution_fails`, `C94_store_fails`.
* **C95** Matched filters show targets where they are. Samples are complex numbers without rounding; the modem part of receptions is an oracle. The position of the maximum is proved for one stream transmitted and received, echoes delayed by whole samples, unambiguous velocities, and transmissions the first two and the last sample of which are not zero. False parts: ranges below twice the minimum range are dropped; with several streams transmitted, all angles show the same powers, and single received streams are refused if several points are in focus; if the span of velocities is less than their resolution, the only bin is labelled with the negative maximum velocity; restored operators have lost their encoders and precoders. Negations: `C95_min_range_fails`, `C95_velocities_fails`, `C95_angles_fails`, `C95_single_fails`, `C95_store_fails`.
* **C96** OFDM radar shows echoes of its own frames where they come from. Samples are complex numbers without rounding; the modem part of receptions is an oracle; echoes are static, within the prefix and, where exact, delayed by multiples of the oversampling factor; moving targets are not covered. False parts: no Doppler bin is labelled as rest, and with two words or more all echoes at rest are labelled as approaching; with direct current suppressed, as by default, an echo from half the maximum range leaves nothing in its own bin; with any positive minimum range, and after transmitting two frames or more, receiving raises an error; a single stream received by a beamformer focusing several points leaves uninitialised memory in the cube; restored operators have lost their waveform. Negations: `C96_doppler_fails`, `C96_min_range_fails`, `C96_frames_fails`, `C96_dc_fails`, `C96_memory_fails`, `C96_store_fails`.
* **C97** Receiver operating characteristics show detection against false alarm. Values are real numbers without NaN; dropping scenarios is an oracle that succeeds; simulating the null hypothesis again (`evaluate`) is not covered. False parts: the number of thresholds configured at the evaluator is ignored, results always have 101; the plot shows the first two thresholds instead of both probabilities, two points of ordinate one, and raises an error with fewer than two thresholds; `FromScenario` computes artifacts and discards them; without given operators the radar evaluated depends on the order of iterating a set, not on which is first. Negations: `C97_thresholds_fails`, `C97_plot_fails`, `C97_first_fails`, `C97_replay_fails`.
* **C98** Root mean square errors and detection probabilities measure what was detected. Coordinates are real numbers without NaN; receptions and channel samples are events with arbitrary contents. Exactness at zero is proved for one target per sample. False parts: points are compared with all targets, so that several exactly detected targets yield an error; points are relative to the radar and targets global, so that a radar away from the origin reports an error although it makes none; restored detection evaluators have lost their plot scale, tick format and choice of surface plots. Samples without detections do not count. Negations: `C98_several_fails`, `C98_pose_fails`, `C98_offset_fails`, `C98_store_fails`.
* **C99** Devices add noise of the power configured. Numbers of the random generator are centred, uncorrelated and of unit variance for different seeds and places, an assumption which independent Gaussian numbers are proved to satisfy; radio frequency chains are the default one without quantization. False parts: the blocks of the default chain share the noise level a device is constructed with, so that such a device adds three times the power it reports, and noise to its transmissions; a level changed before it is replaced keeps being added twice; `N0` documents Watt and multiplies by the bandwidth; with oversampling, energy ratios are exceeded by the oversampling factor; stored signal to noise ratios forget the channel scale and stored energy ratios are lost. Negations: `C99_shared_fails`, `C99_transmit_fails`, `C99_leftover_fails`, `C99_n0_fails`, `C99_oversampling_fails`, `C99_store_fails`.
* **C100** Seeding a device makes its noise reproducible. Proved for noise models assigned to devices after construction, and for scenarios. False parts: the blocks of the default radio frequency chain take the noise model of the device over, so that its noise is drawn from the entropy of the down-mixer created last; seeding the device, its scenario or creating either with a seed has no effect, and two devices constructed and seeded alike draw different noise; the seed of a noise model is dropped when it is assigned. Negations: `C100_default_fails`, `C100_repeat_fails`, `C100_model_fails`.
* **C101** Oscillator phase noise has the spectrum configured. Numbers of the random generator are centred, uncorrelated and of unit variance; the bounded least squares routine of `FromPSD` is a contract; spectra are those of the filters driven by white numbers, as power series and as correlations of samples. False parts: fewer than three offset frequencies do not determine the levels; the seed of stored phase noise is not restored. Negations: `C101_psd_fails`, `C101_store_fails`.
* **C102** Power evaluators report the powers of the latest signals. False parts: the power of a sparse signal is the mean of the powers of its blocks, whatever their lengths, and is not a number for silent signals; evaluators without signals, and self-interference of devices without leakage, raise AttributeError; the peak-to-average ratio is not a number if a stream is silent and considers the first impinging signal only; the signal to interference ratio takes powers of correlated signals to add up; scalar artifacts sum over antennas; the peak-to-average evaluator ignores some settings and stored self-interference evaluators forget theirs. Negations: `C102_two_fails`, `C102_sparse_fails`, `C102_silent_fails`, `C102_leakage`, `C102_unset_fails`, `C102_isolated_fails`, `C102_papr_silent_fails`, `C102_papr_first_fails`, `C102_ssinr_fails`, `C102_scalar_fails`, `C102_settings_fails`.
* **C103** Extracted signals are the signals evaluated. False part: sparse signals can not be converted to arrays, and the result raises TypeError. Negations: `C103_sparse_fails`.
* **C104** Sidelobe levels compare the desired direction with a codebook. False parts: weights are not conjugated for receptions, so that a wave from the desired direction may have no energy there; the first entry of the codebook is the response straight ahead for planar arrays only; the directions sampled include those behind the array, the last many times; the codebook is kept when the mode is changed, and evaluations then raise ValueError; signals without energy have no levels. Negations: `C104_receive_fails`, `C104_silent_fails`, `C104_broadside_fails`, `C104_half_fails`, `C104_mode_fails`.
* **C105** Ramp generators emit frequency ramps at the interval configured. False parts: intervals of a fractional number of samples are shortened, and the error adds up over the chirps; ramps longer than the interval are cut without an error; negative slopes are accepted and then fail or stay silent; a slope of zero is accepted and raises ZeroDivisionError; the noise settings are not stored. Negations: `C105_interval_fails`, `C105_short_fails`, `C105_falling_fails`, `C105_flat_fails`, `C105_restore_fails`.
* **C106** The radar preset finds targets at their range and velocity. Proved for echoes delayed by whole samples, beats turning a whole number of times per interval, and decimation factors dividing the interval; noise, filters and quantization of the chain are not modelled. False parts: ranges are labelled too large if the converter takes an odd number of samples per interval, as by default; signals sampled slower than the converter have fewer columns than labels; the range resolution reported depends on the bandwidth of the device; Doppler bins are off by half a bin for odd numbers of chirps; the energy reported assumes the device's bandwidth to be that of the ramps; pings may last longer than the ramps; signals longer than a frame are squeezed into one, which moves targets away. Negations: `C106_range_fails`, `C106_resolution_fails`, `C106_slow_fails`, `C106_odd_fails`, `C106_frame_fails`, `C106_energy_fails`, `C106_long_fails`.
* **C107** Trajectories move objects with the velocity they report. Rotations between poses are by the contract of scipy's Slerp (ends at the ends). False parts: static trajectories ignore what they look at, and report velocities without moving; restored trajectories look at nothing; poses of looking trajectories go on changing after the last timestamp; changing the pose a trajectory was created from changes its orientation but not its position; the letter b leaves its plane, and jumps between sections. Negations: `C107_static_lookat_fails`, `C107_static_velocity_fails`, `C107_max_fails`, `C107_restore_fails`, `C107_alias_fails`, `C107_letter_fails`, `C107_letter_jump_fails`.
* **C108** Calibrations and devices agree on who uses what. False parts: a calibration that was replaced still refers to its former device; assigning that device to it again does nothing, and giving it to another device, or detaching it, takes the calibration in use from the former device. Negations: `C108_attach_fails`, `C108_replaced_fails`.
* **C109** Delay calibrations estimate and undo the delay of a device. Corrections are modelled for dense signals. Estimates are proved exact for a single port with a gain of positive real part. False parts: gains with a negative real part give the same wrong delay for every device; with several ports the estimate is too large by the length of the reception if a later port receives more; the largest delay announced is not found; corrections of at most half a sample raise ValueError; calibrations estimated for some ports shift all ports. Negations: `C109_receive_short_fails`, `C109_estimate_sign_fails`, `C109_estimate_max_fails`, `C109_estimate_ports_fails`, `C109_restricted_fails`.
* **C110** Leakage calibrations estimate and remove leakage. Estimates by minimum mean square errors are C143. Peaks are found by an oracle. False parts: with more transmit than receive ports the leakage of the last transmit ports remains; receptions advanced by more than the leakage's delay keep leakage in their last samples; leakage that would end after the reception raises ValueError; predictions take their delay for noise power; predictions with selected transmit ports raise IndexError; restored calibrations forget their ports; negative delay calibrations make the estimate raise; the default filter drops leakage without delay; devices that do not report the delay they were calibrated for have it counted twice. Negations: `C110_streams_fails`, `C110_early_fails`, `C110_after_fails`, `C110_restore_fails`, `C110_predict_delay_fails`, `C110_predict_ports_fails`, `C110_estimate_delay_fails`, `C110_filter_fails`, `C110_delay_fails`.
* **C111** Physical devices transmit what they are given and process what they receive. Hardware, filters, resampling and leakage calibrations are arbitrary functions. False parts: antenna calibrations change the caller's signal, so that triggering it again applies the weights again; after a direct transmission or a noise estimate, receptions have the leakage of an older transmission removed; receiving never filters; adaptive sampling and lowpass filter are disabled in new and restored devices whatever is given; without adaptive sampling a single transmission is uploaded at its own sampling rate and carrier frequency; the noise estimate contains the power of the mean; dummies process uploads that were not triggered; scenarios ignore signals in excess of their devices. Negations: `C111_flags_fails`, `C111_repeat_fails`, `C111_leakage_partial`, `C111_leakage_fails`, `C111_receive_fails`, `C111_rate_fails`, `C111_variance_fails`, `C111_stale_fails`, `C111_dummy_fails`, `C111_scenario_fails`.
* **C112** USRP devices upload what they receive back. The client library is modelled by outcomes of calls, the radio by a loop. False parts: a configuration executed although the connection was lost is not undone by setting the property back; uploads change the signal they are given; direct transmissions are corrected by the antenna calibration twice; triggering the system directly calibrates although told not to, and removes no leakage; of several collected signals only the last is received, and none raises TypeError; devices without ports cannot be created. Negations: `C112_configure_fails`, `C112_ports_fails`, `C112_collect_fails`, `C112_twice_fails`, `C112_inplace_fails`, `C112_system_fails`.
* **C113** Antenna calibrations bring the ports of a device into phase. The scenario is an arbitrary linear state machine; noise and storage are not modelled. False parts: reference ports of opposite phases yield zero weights, which silence the device; estimating again while calibrated yields weights of one, so that adopting the new calibration undoes the old; the probes are created without carrier frequency, so estimation raises ValueError for every audio device, and with the wrong sampling rate for the reference; a port not received at one reference port gets a weight that is not a number. Negations: `C113_reference_fails`, `C113_again_fails`, `C113_carrier_fails`, `C113_rate_fails`.
* **C114** Audio devices transport baseband signals over sound cards. The sound card plays and records without loss; samples are real numbers. False parts: at the upper band edge bin m-1 of 4m samples is lost and bin -floor(N/4)-1 becomes twice its real part; receive delays change the mixing frequency of the receiver, so that the received samples differ; the numbers of transmit and receive antennas are exchanged, so that devices with different numbers of playback and record channels cannot be triggered; received signals carry carrier frequency zero instead of the device's and cannot be transmitted again; storage loses the parameters of PhysicalDevice such as the receive delay. Negations: `C114_edge_fails`, `C114_delay_fails`, `C114_ports_fails`, `C114_carrier_fails`, `C114_storage_fails`.
* **C115** Hardware loops visit every section of the grid and keep results with their parameters. Scenario, dimensions, hooks and evaluators are arbitrary state transformers that may raise; artifacts belong to their parameters provided no dimension touches another one's parameter. Plots and files are not modelled. False parts: a recorded run that raises in debug mode leaves the scenario recording, so that all later recorded runs raise RuntimeError; the state recorded for scenarios that cannot be serialized has none of the operators of the devices; new_dimension without objects raises AttributeError instead of using the scenario. Negations: `C115_recording_fails`, `C115_surrogate_fails`, `C115_dimension_fails`.
* **C116** Grid dimensions configure the parameter they name. Over a heap of objects; setters of properties store what they are given. False parts: setters hold the objects found at creation, so that after an object on the path was replaced the parameter is no longer configured; sample points given as SamplePoint overwrite scalar dimensions such as noise levels by their bare value; attributes existing on the instance only are rejected as if they did not exist; a dimension over a registered and an unregistered attribute claims the impacts of the registered one; titles given by the user are replaced by those of scalar dimensions. Negations: `C116_replaced_fails`, `C116_wrapped_fails`, `C116_instance_fails`, `C116_impact_fails`, `C116_title_fails`.
* **C117** Plot threads of hardware loops neither block the loop nor show stale samples. Transition system of one plot thread and the loop; termination is proved as reachability of the end from every reachable state, fairness of the scheduler is not modelled. False parts: a thread that has not prepared its plots when it is stopped never plots anything, however many samples were handed over; a run without any successful drop plots None. Negations: `C117_last_fails`, `C117_none_fails`.
* **C118** Cluster delay line samples propagate their clusters and report the state they propagate. Samples are modelled with arbitrary array responses; how realizations draw their parameters is C119. False parts: the sub-clusters of the first two clusters are selected by cluster instead of sub-cluster, so that 10 rays of the first and 14 of the second cluster never propagate and the others do three times, and the delivered power differs from the expected energy scale; the line of sight is not scaled by path loss or gain, is lost for horizontally polarized transmitters, leaks into the other polarization, and is shifted in frequency in the wrong direction; moving transmitters shift rays by the direction of arrival; directions of rays are taken for positions, so that arrays away from the origin see all rays from there; reciprocal samples do not transpose polarizations; states have one tap more than asked for; nothing is propagated in interpolation modes other than nearest. Negations: `C118_taps_fails`, `C118_interpolation_fails`, `C118_rays_fails`, `C118_energy_fails`, `C118_energy_sight_fails`, `C118_horizontal_fails`, `C118_crosstalk_fails`, `C118_doppler_fails`, `C118_doppler_transmitter_fails`, `C118_reciprocal_fails`, `C118_direction_fails`.
* **C119** Cluster delay line realizations draw clusters according to their large scale parameters. Random numbers and what the scenarios specify are arguments; spatial consistency of variables is C74, propagation over samples is C118, storage is not modelled. False parts: the polynomial scaling delays with line of sight is negative for low Rice factors, so that delays precede the first cluster; weak clusters are compared with the first instead of the strongest one; removed clusters lose their powers but not their delays, so that later clusters arrive with the delays of earlier ones; the share of the line of sight is added to the first scattered cluster although samples propagate it on its own; ray angles are drawn around the line of sight in device coordinates but used as global ones; azimuths of arrival and departure use the same random numbers; oxygen absorption, on by default, is the same at all frequencies, since rows of its table are taken for columns, and a hundred times too strong in decibel; the gain is applied squared; shadow fading has no effect; reciprocal samples ignore rotations in between. Negations: `C119_delays_fails`, `C119_cutoff_fails`, `C119_sight_share_fails`, `C119_pairing_fails`, `C119_frame_fails`, `C119_independent_fails`, `C119_oxygen_fails`, `C119_gain_fails`, `C119_shadow_fails`, `C119_orientation_fails`.
* **C120** Scenarios of cluster delay lines follow the standard they implement. Cholesky roots are a contract; storage of the scenarios is not modelled. False parts: urban path losses drop at the break point if the base is less high above the terminal than assumed, since the assumed instead of the actual heights enter; the rural path loss grows by sixty instead of forty decibel per decade beyond the break point; terminals inside buildings are never drawn and lose nothing; urban links compare the slanted instead of the horizontal distance, so that terminals below the base can be blocked; terminals of open offices can get into line of sight by moving away from 49 metres, as in the standard; terminals above the clutter are always blocked in factories with high bases, which includes the default of no clutter; the rural zenith offset is in radians; the zenith offset of urban microcells depends on the height of the terminal instead of the distance; blocked links of urban macrocells have nineteen clusters instead of twenty. Negations: `C120_break_fails`, `C120_rural_fails`, `C120_indoor_fails`, `C120_open_fails`, `C120_height_fails`, `C120_clutter_fails`, `C120_rural_offset_fails`, `C120_micro_offset_fails`, `C120_clusters_fails`.
* **C121** Static cluster delay lines have the delays, powers and angles of their tables. Spatially consistent phases are functions of the positions (C74). False parts: the delay spread of the rays exceeds the configured one by at least 12, 5 and 8 percent for the types A, B and C, since the first two rows are split up although the tables already are, and by the spread of the channel instead of that of a cluster (proved for antennas of vertical polarization); the gain has no influence, and at least 3.3 times the transmitted power is received over types without line of sight, since the tabulated powers are not normalized; the power over the line of sight relative to all other rays is less than 0.66 of the configured factor, since the row for the line of sight is scattered as well; transfer to the other polarization is amplified by twice the cross polarization ratio instead of attenuated; reciprocal samples keep polarizations instead of exchanging them (C118); seeds are not stored. Negations: `C121_spread_fails`, `C121_gain_fails`, `C121_factor_fails`, `C121_polarization_fails`, `C121_seed_fails`.
* **C122** Stored objects are restored with the class and the parameters they had. Holds of 155 classes. Contents of members are C32; shapes of arrays and normalisations within constructors are not modelled; back references to owners are left out. False parts: 72 classes lose the parameters listed in the table lossyClasses, among them the seeds of modems, radars, scenarios and most channels, sample hooks, pilot sequences of waveforms, the suppression of the DC subcarrier, antenna weights, the antennas, velocity and noise level of simulated devices, noise of RF blocks, the channel of SNR levels, and the channel realizations of simulated drops (misspelled on reading); SimulatedCustomArray, MappedPilotSymbolSequence and TIXWR1843 come back as other classes; a random line of sight angle of Cost259, Exponential and TDL channels never comes back; dimensions of uniform arrays come back as floating point numbers; the complex matrices of ImpedanceCoupling come back real; MultipathFadingRealization, five evaluators, the three ideal channel estimations and EvaluatedDrop always raise. Negations: `C122_lost_fails`, `C122_class_fails`, `C122_null_fails`, `C122_dimensions_fails`, `C122_complex_fails`, `C122_raise_fails`.
* **C123** Results are presented for the section of the grid in which they were obtained. Holds of curves and surfaces of results whose base dimension is the first, of the table of a simulation, of files whose dimensions have different titles other than reserved names, and of the displayed pages. False parts: with another base dimension the data are transposed but labels and sample points are not, so that curves and surfaces show results of other sections or plotting raises; numbers equal in two digits have equal titles; a grid of two dimensions over objects cannot be plotted by default; EvaluationResult.print never adds rows to its table; of two dimensions with equal titles only the points of the last are saved, and a dimension entitled result_0 replaces the result; the time stored in the result is always zero. Rendering by matplotlib, rich and savemat is not modelled. Negations: `C123_curves_fails`, `C123_raises_fails`, `C123_labels_fails`, `C123_surface_fails`, `C123_objects_fails`, `C123_table_fails`, `C123_saved_fails`, `C123_replaced_fails`, `C123_time_fails`, `C123_surface_raises_fails`, `C123_unprinted_fails`.
* **C124** 5G NR waveforms have the grids, symbols and durations of their numerology and resource blocks. Holds of the content of the grids, of placing, transmitting and picking, of the ratios of durations and of the primary synchronisation sequence, from eleven resource blocks on. False parts: subframes last less than a millisecond since the prefix ratio is 0.07 instead of 1/14; synchronisation signals take 64 subcarriers below and 62 above the direct current; the broadcast channel takes all subcarriers instead of 240; synchronisation signals are in every subframe instead of the first slot of a frame; one to 23 resource blocks are accepted, of which ten or less cannot carry any symbol; numerologies above 6 and -1 are accepted; the primary synchronisation section cannot be the pilot of any 5G NR waveform and the secondary one raises ValueError always. The primary synchronisation signal is the standard's shifted by 95 symbols, which belongs to no physical layer identity. Prefix ratio taken as the exact 7/100. Negations: `C124_duration_fails`, `C124_centre_fails`, `C124_broadcast_fails`, `C124_once_fails`, `C124_few_fails`, `C124_numerology_fails`, `C124_pss_fails`, `C124_sss_fails`, `C124_pss_standard_fails`.
* **C125** In-phase and quadrature streams written by the splitter are combined to the signal that was split. Holds of the splitter for twice as many outputs as inputs and of the magnitudes of combined samples; the signal is recovered if the second stream is multiplied by the imaginary unit and the mean of all angles of quotients happens to be the phase between the streams. False parts: a splitter connected to a combiner loses the phases, so different signals are combined to the same numbers; one vanishing real part turns all samples of all streams into nan; the result of one pair of streams depends on the others; odd numbers of outputs are refused with the number of inputs asked for, except three, where the third stream repeats the first. Negations: `C125_odd_fails`, `C125_recover_fails`, `C125_zero_fails`, `C125_distinct_fails`, `C125_joint_fails`.
* **C126** Every execution gets a results directory of its own, and results of earlier executions are kept. Exclusiveness and conservation hold of all schedules; without interruption and dangling links, the lowest free index is created. False parts: of two executions that check at the same time, one raises FileExistsError instead of taking the next index; a dangling link of the day's name makes every execution fail; overwriting erases nothing, and the base directory is returned to all executions; verbosities in lower case are accepted by the setter but not by the constructor; the style set on an executable is returned by its getter but not used for plots. Negations: `C126_race_fails`, `C126_dangling_fails`, `C126_overwrite_fails`, `C126_verbosity_fails`, `C126_style_fails`.
* **C127** OFDM frames starting with a Schmidl-Cox pilot symbol are found where they start. Exact position is proved of one frame without noise whose rest correlates less than its pilot symbol, and unconditionally of OFDM pilot symbols alone whose first sample and last sample of the first half are not zero. Missing: noise and several frames. False parts: pilot elements that are all equal are found a quarter of a symbol too early, for every even number of subcarriers above two; the last candidate of a signal is never found, so a pilot symbol at the end of a signal is missed; with the carrier suppressed and a number of subcarriers not divisible by four, the halves of the pilot symbol are not multiples of each other. Negations: `C127_end_fails`, `C127_uniform_fails`, `C127_dc_fails`.
* **C128** Superposition of signals at different carrier frequencies keeps what lies in the common band. Equal carriers, disjoint bands, linearity, length and independence of order are proved; of overlapping bands every tone is proved to reappear at its own frequency with a real gain symmetric around the middle of the common band. Missing: ends of signals and the shape of the gain, which is scipy's. False parts: the band-pass is not centred, so every tone is rotated by 64 periods of the carrier distance, and equal tones at carriers a 128th of the sampling rate apart cancel instead of adding; the mixing sinusoid starts anew in every block of a sparse signal; on an empty signal, as in every device output, the first signal decides the carrier frequency, and signals at the device's own carrier are then lost. Negations: `C128_cancel_fails`, `C128_block_fails`, `C128_empty_fails`.
* **C129** Actors of a simulation draw different numbers, and seeded simulations are reproducible. Proved: all actors seed their scenario differently, and with a single actor everything drawn from the scenario's generator depends only on its seed. False parts: with two actors the numbers drawn depend on which actor gets a batch; nodes with generators of their own are copied to the actors in the same state and not seeded again, so every actor draws the same numbers from them. This concerns the bits of every modem, which is never given the scenario as mother, and the noise of every device constructed as usual: actors taking turns compute each sample's bits and noise as many times as there are actors. Pickling is taken to copy generators exactly. Negations: `C129_schedule_fails`, `C129_duplicates_fails`, `C129_bits_fails`, `C129_noise_fails`.
* **C130** Ray traced channels propagate the paths found and report the state they propagate. Proved: the propagation equation and its agreement with the reported state whenever rates agree, gains do not cancel and delays stay below the taps; scaling with the gain; reciprocity at equal carrier frequencies. False parts: paths whose gains add up to zero leave a signal without samples whatever their delays, since the expected energy is the magnitude of that sum, which moreover ignores the channel's gain and counts incoherent paths coherently; a path arriving at the last tap of a limited state is missing; padding only (delays of -1) raises an error; all antennas transmit and receive the same wherever they are; devices are traced at rest and at the transmitter's carrier frequency instead of the one requested, so directions of links between different carriers differ; offsets are scaled by the ratio of the rates while samples are not resampled. The tracer is a contract. Negations: `C130_antennas_fails`, `C130_taps_fails`, `C130_cancel_fails`, `C130_energy_fails`, `C130_coherent_fails`, `C130_padding_fails`, `C130_rate_fails`, `C130_motion_fails`, `C130_places_fails`, `C130_frequency_fails`, `C130_reciprocal_fails`.
* **C131** Radiation patterns show what an array radiates and receives. Proved: the array factor in closed form with and without weights, independence of mounting, the maximum of matched weights and of conventional beamformers with its place, refusal of duplex, slices in directions of length one are great circles. False parts: characteristics and polarizations of the antennas are ignored; beamformers able to transmit never show how they receive; uniform arrays of simulated dipoles have no pattern since copies lose their weight; the streams encoded for a turned device differ from those of the pattern, up to complete cancellation in the direction shown as the strongest; slices in directions not of length one, such as (1, 1), evaluate other directions than those of their points or not a number. Not modelled: Capon receivers, which only exist there as pure receivers. Negations: `C131_element_fails`, `C131_receive_fails`, `C131_dipole_fails`, `C131_turned_fails`, `C131_slice_fails`, `C131_slice_nan_fails`.
* **C132** Static operators send and receive what they were given, in the state of their device. Proved: states of operators, silence, samples, power and identity of static transmissions over all histories, static receptions and the longest frame of a device. False parts: carrier frequencies of operators are ignored; antennas are not narrowed to selected ports, and basic states with different numbers of ports have more antennas than ports; static signals are not resampled but relabelled with the rate of the device, keep their own carrier frequency, which drops them after silence, and are sent whatever the number of streams; frame durations are too long by the oversampling factor and those of the first signal after it was replaced; silent transmitters have no frame duration, so that their device has none. Negations: `C132_selection_fails`, `C132_basic_fails`, `C132_mixing_fails`, `C132_silent_frame_fails`, `C132_rate_fails`, `C132_streams_fails`, `C132_duration_fails`, `C132_setter_fails`, `C132_carrier_fails`, `C132_receiver_duration_fails`.
* **C133** Resampling keeps time and samples. Proved: refusals, equal rates, shape, duration, offsets, linearity, samples at common times without a filter, upsampling of sparse signals by whole factors, delays by whole samples. False parts: constant signals ripple at their ends by more than a fifth (sinc interpolation is cut off there); the request to leave out the aliasing filter is ignored when downsampling by whole factors; signals, and blocks of sparse signals, of at most 27 samples cannot be downsampled with the default filter, nor upsampled to at most 27 samples; signals without streams get another number of samples than those with; empty blocks keep the offset counted at the former rate; sparse and dense signals with the same samples are resampled differently; adjacent blocks overlap after downsampling. Negations: `C133_constant_fails`, `C133_filter_fails`, `C133_short_fails`, `C133_short_up_fails`, `C133_streams_fails`, `C133_empty_fails`, `C133_sparse_fails`, `C133_overlap_fails`.
* **C134** Keys of sparse signals mean what they mean for arrays. Proved: the selection for bounds at most the size before the end and positive steps, shapes for slices ending within the signal, single keys, refusals. False parts: indices and bounds before the start wrap around instead of being refused or moved to the start; empty slices of streams are refused; negative bounds of signals without streams or samples divide by zero; slices reaching beyond the end count the samples beyond it, so that scalars make the signal longer and matrices of the right shape may be refused; reversed slices of samples ask for a negative number of samples. Negations: `C134_index_fails`, `C134_start_fails`, `C134_empty_fails`, `C134_division_fails`, `C134_beyond_fails`, `C134_growth_fails`, `C134_reversed_fails`, `C134_streams_fails`.
* **C135** Amplifiers identified from measurements behave as measured. Proved: responses to vectors are those of equations 19 and 23 of Morgan et al.; best fits; exact recovery for inputs that tell amplifiers apart. False parts: inputs of constant amplitude do not determine the coefficients; outputs lack as many samples as the memory is long but one and come too early by as many; no signal can be amplified, since signals are matrices and the result is a vector (C64 for the amplifier without cross terms). Negations: `C135_modulus_fails`, `C135_time_fails`, `C135_signal_fails`.
* **C136** Ideal channel estimation of single carrier waveforms reports the gains symbols are received with. Proved: the estimate of every symbol as a weighted sum of gains, for all pulses and channels; for rectangular pulses all symbols but the first of a static channel without delay are exact and zero forced exactly; errors. False parts: the first symbol's estimate is too small by up to one half, since only half the filter delay is taken off; averages end in the middle of symbols; estimates of chirps are too small, since symbols are looked for one bandwidth sample apart and the filters multiplied are not matched; the gains of delayed paths are added up as if not delayed, and paths delayed by a symbol or more ignored; frames after the first are given the channel of the first. Not covered: the values for rolled off pulses beyond the general formula. Negations: `C136_first_fails`, `C136_change_fails`, `C136_chirps_fails`, `C136_late_fails`, `C136_delay_fails`.
* **C137** QuaDRiGa channel samples propagate every path to every antenna, and are reproducible. Proved: propagation for one delay per path and equal numbers of antennas; agreement with the channel state between single antennas; over all histories the parameters and the number of the seed each sample is generated from. False parts: delays of pairs of antennas raise ValueError; output streams are counted at the transmitter's receiving antennas; states of several transmitting antennas raise ValueError or mix up antennas and time; delays beyond the requested taps raise IndexError; the expected energy adds amplitudes, so that everything sent over a channel whose coefficients do not add up to a positive real part vanishes; seeds of channels, and of the scenarios they belong to, do not reach the interface; velocities are ignored; reciprocal samples are independent new samples; restored channels lose scenario and antennas. Not covered: the Matlab and Octave processes and QuaDRiGa itself. Negations: `C137_antennas_fails`, `C137_rows_fails`, `C137_state_fails`, `C137_taps_fails`, `C137_silence_fails`, `C137_phase_fails`, `C137_motion_fails`, `C137_seed_fails`, `C137_reciprocal_fails`, `C137_restore_fails`.
* **C138** Direct triggers of dummy scenarios exchange signals between all triggered devices. Proved: the signals handed to every device, for all selections of devices and all behaviours of devices and channels, the shared triggers, the errors, and what devices triggered on their own receive. False parts: direct triggers of scenarios leave out leakage, and ignore calibrations and whether they are asked for, so that a device triggered on its own and as the only device of a scenario differ by the leakage. Negations: `C138_leakage_fails`, `C138_agree_fails`.
* **C139** High-pass filters of radio-frequency chains keep shape, timing and meta data, are linear and block what is below their cutoff frequency. Proved: shape, meta data, linearity, the difference equations, the gain of constants, the checks of the configuration and the coefficients of realizations after all histories. False parts: signals of at most three times as many samples as there are coefficients raise ValueError; cutoff frequencies are taken in the baseband, so that unmodulated carriers of all frequencies above the cutoff are removed; the power at the cutoff frequency is quartered, because the filter is applied twice (proved for order one at a quarter of the sampling rate); realizations of equal parameters share their arrays, so that writing to one changes all. Not modelled: how `butter` finds its coefficients. Negations: `C139_short_fails`, `C139_carrier_fails`, `C139_cutoff_fails`, `C139_shared_fails`.
* **C140** Appending to sparse signals shows what was there followed by what is appended. Proved: appended samples of equal rates, all histories of appended matrices, and appended streams of equal rates if both signals have a sample at the end of every block of the result. False parts: streams ending before or after this signal raise ValueError instead of being padded; appended streams are shown without being resampled, only the blocks of the result are found from the resampled signal; nothing can be appended to signals without blocks, which report no streams. Columns of appended streams that cancel are lost outside of the blocks of this signal (excluded by hypothesis). Not modelled: other data types than double precision complex numbers; the values of resampled blocks, see C133. Negations: `C140_longer_fails`, `C140_shorter_fails`, `C140_rate_fails`, `C140_empty_fails`.
* **C141** Tiling figures ends, keeps the layout asked for and places all figures on the screen without overlaps. Proved: the loop ends after at most as many steps as there are figures, with room for all of them; the ratio of the layout is kept up to half a row; figures do not overlap for offsets that are not negative; without offsets they are on the screen. False part: sizes do not account for offsets, so that positive ones place the last figure of a full row beyond the edge of the screen. Not modelled: what backends make of geometries; rounding of floating point quotients. Negations: `C141_offset_fails`.
* **C142** Beamforming a signal keeps every sample at its time, and beamforming operators apply it to all they send and receive. Proved for dense signals and any beamformer; operators with the conventional beamformer in both directions and with the Capon beamformer. False parts: of several blocks all are moved to the first sample, since offsets are dropped by the views and Signal.Create disregards the ones handed over, so that only the last block remains or the samples cannot be read; a single block loses the samples preceding it to the delay; silence as a sparse signal is refused by transmitting beamformers; receivers which selected other numbers of ports than there are receiving antennas refuse everything, and transmitters send on all antennas whatever was selected. Missing: focus directions in turned arrays are as in C82; undefined weights of the null steering beamformer; blocks of different numbers of streams. Negations: `C142_single_fails`, `C142_blocks_fails`, `C142_silence_fails`, `C142_selected_fails`, `C142_ports_fails`.
* **C143** Leakage estimates by minimum mean square errors weigh probes by their power and the noise, and are optimal. Proved for every singular value decomposition in exact arithmetic; that one exists is shown. False parts: with noise a single probe finds every response too weak by the same factor, even if nothing disturbed the receptions, so that leakage remains; devices with other numbers of receive than of transmit ports are refused whenever their noise power is measured, one value for each receive port being compared to the number of transmit ports. Missing: rounding of numpy's decomposition; exactness with several probes in noise; the calibration being handed to the device. Negations: `C143_bias_fails`, `C143_ports_fails`.
* **C144** Calibrations saved to a file are the ones loaded from it. Proved for new files, over all later histories, and that loading is all or nothing. False parts: saving again to a file is accepted but changes nothing, so that the calibrations saved first are loaded ever after; a file whose first writing failed cannot be loaded again, whatever is saved to it; saving a device with a calibration of an unregistered class raises but leaves the other calibrations in the file, which are mixed with those saved later; devices silently load nothing from files of single calibrations, and single calibrations cannot be loaded from files of devices; the ports selected for leakage calibrations are lost. Missing: crashes that leave no valid HDF5 file; file handles that stay open since campaigns are never finalized. Negations: `C144_ports_fails`, `C144_again_fails`, `C144_interrupted_fails`, `C144_mixed_fails`, `C144_campaign_fails`.
* **C145** Signals created from blocks show every block at its offset, and blocks that do not fit are refused. Proved for several blocks that fit, and for single arrays without offset. The check of blocks in the source accepts exactly those that fit, but nothing calls it. False parts: offsets handed over with several blocks have no effect; sequences of plain arrays are accepted but raise an AttributeError when read; a block of one stream is shown on all streams; blocks of other numbers of streams raise only when read; of overlapping blocks only the later is shown; blocks out of order raise only when read, or lose a single sample; a single block is shown without the silence before it, and handed over with its offset it is placed after twice its offset. Missing: arrays of other numbers of dimensions and other data types. Negations: `C145_twice_fails`, `C145_silence_fails`, `C145_offsets_fails`, `C145_plain_fails`, `C145_streams_fails`, `C145_late_fails`, `C145_overlap_fails`, `C145_order_fails`, `C145_mixed_fails`.
<!-- end violations -->

## Modelled code

Lines cited by the definitions of the model, per source file.

<!-- begin modelled -->
| file | modelled lines (module) |
|---|---|
| `beamforming/beamformer.py` | 73-137, 213-222, 397-407 (`Beam.Conventional`); 333-345 (`Beam.Streams`); 79-89, 131-132, 136-137, 146-165, 197-199, 203-207 (`Io.Classes.Channel`) |
| `beamforming/capon.py` | 82-84 (`Beam.Adaptive`); 44-46, 101-108 (`Beam.Conventional`); 72-99 (`Beam.Streams`); 28-38, 102-103, 107-108 (`Io.Classes.Channel`) |
| `beamforming/conventional.py` | 42-52, 80-83, 105-108, 127, 131-138 (`Beam.Conventional`); 31-34, 94-117, 119-129 (`Beam.Streams`); 25-28, 132-133, 137-138 (`Io.Classes.Channel`) |
| `beamforming/nullsteeringbeamformer.py` | 65 (`Beam.Adaptive`); 38-48, 103-110 (`Beam.Conventional`); 28-31 (`Beam.Streams`); 24-26, 104-105, 109-110 (`Io.Classes.Channel`) |
| `beamforming/operators.py` | 68-79, 134-147 (`Beam.Streams`); 38-53, 82-84, 88-91, 99-119, 150-152, 156-167 (`Io.Classes.Channel`) |
| `channel/cdl/cdl.py` | 187-220, 307-314, 318-330, 334-337, 353-387, 474-479, 483-492 (`Io.Classes.Channel`) |
| `channel/cdl/cluster_delay_lines.py` | 254-756 (`Channel.Cluster`); 965-2032 (`Channel.ClusterDraw`); 2214-2266 (`Channel.Scenarios`); 920-943, 947-962, 2035-2057, 2061-2073, 2091-2151, 2289-2294, 2297-2307 (`Io.Classes.Channel`) |
| `channel/cdl/indoor_factory.py` | 73-132, 388-395, 399-410, 423-469, 600-605, 609-616 (`Io.Classes.Channel`) |
| `channel/cdl/indoor_office.py` | 55-103, 357-361, 365-373, 383-425, 478-480, 484-488 (`Io.Classes.Channel`) |
| `channel/cdl/rural_macrocells.py` | 35-83, 356-360, 364-372, 420-421 (`Io.Classes.Channel`) |
| `channel/cdl/urban_macrocells.py` | 35-83, 433-437, 441-449, 497-498 (`Io.Classes.Channel`) |
| `channel/cdl/urban_microcells.py` | 35-83, 419-423, 427-435, 483-484 (`Io.Classes.Channel`) |
| `channel/channel.py` | 426-442, 722-723, 726-727, 742-763, 976-979, 982-986 (`Io.Classes.Channel`) |
| `channel/consistent.py` | 24-73, 33-48, 47, 57-60, 75-90, 92-95, 97-103, 154-156, 187-200, 231-233, 249-251, 269, 271-285, 287-297, 353-367, 369-408, 388-403, 389, 393-403, 399-400, 403, 410-459, 422-425, 446-454, 462-472, 475-485, 488-498 (`Channel.Consistent`); 458 (`Channel.Phases`); 33-48, 93-95, 99-103, 165-173, 203-205, 209-213, 241-247, 254-255, 259-260 (`Io.Classes.Channel`) |
| `channel/delay/delay.py` | 180-200, 215-217, 220-224, 232-257, 270-272, 276-281 (`Io.Classes.Channel`) |
| `channel/delay/random.py` | 32-48, 87-91, 95-102, 112-151, 227-231, 235-242 (`Io.Classes.Channel`) |
| `channel/delay/spatial.py` | 37-41, 54-55 (`Io.Classes.Channel`) |
| `channel/fading/cost259.py` | 42-227, 239-248, 252-268 (`Io.Classes.Channel`) |
| `channel/fading/exponential.py` | 29-117, 138-148, 152-169 (`Io.Classes.Channel`) |
| `channel/fading/fading.py` | 765-769 (`Channel.ConsistentStats`); 498-499 (`Channel.Phases`); 97-105, 136-137, 141-144, 431-466, 541-561, 565-582, 606-754, 931-941, 945-967, 971-972 (`Io.Classes.Channel`) |
| `channel/fading/tdl.py` | 40-397, 412-422, 426-443 (`Io.Classes.Channel`) |
| `channel/ideal.py` | 142-143, 146-147, 158-159, 163-164 (`Io.Classes.Channel`) |
| `channel/quadriga/interface.py` | `Channel.Quadriga` |
| `channel/quadriga/quadriga.py` | `Channel.Quadriga` |
| `channel/radar/multi.py` | 95-96, 99-100, 133-141, 168-169, 173-174, 182-208, 231-234, 238-243, 255-280, 312-315, 319-324, 339-358, 437-443, 447-456, 470-510, 589-593, 597-608 (`Io.Classes.Channel`) |
| `channel/radar/radar.py` | 234-235, 251-267, 445-447, 450-454, 460-492, 593-601, 605-612, 659-660, 707-709 (`Io.Classes.Channel`); 530-532 (`Radar.Rmse`) |
| `channel/radar/single.py` | `Channel.RadarTargets` |
| `channel/sionna_rt_channel.py` | `Channel.RayTraced` |
| `core/antennas.py` | 1185-1220 (`Beam.Streams`); 50-74, 625-1141 (`Core.AntennaArrays`); 33-43, 33-622, 138-210, 343-351, 392-622 (`Core.Antennas`); 375-385, 432-433, 506-507, 553-554, 607-608, 1144-1485, 1185-1217, 1239-1249, 1299-1339, 1344-1351 (`Core.ArrayStates`); 33-43, 1172-1176, 1178-1182 (`Core.Operators`); 375-377, 380-385, 415-430, 438-439, 442-444, 465-494, 512-514, 517-520, 536-551, 562-563, 566-568, 590-605, 616-617, 620-622, 1307-1339, 1412-1416, 1419-1424, 1432-1455, 1475-1477, 1481-1485 (`Io.Classes.Core`); 375-377, 380-385, 438-439, 442-444, 512-514, 517-520, 562-563, 566-568, 616-617, 620-622, 1412-1416, 1419-1424, 1475-1477, 1481-1485 (`Io.Classes.Sim`) |
| `core/channel.py` | 76-105, 541-543, 546-551 (`Io.Classes.Core`) |
| `core/definitions.py` | 28-44 (`Core.Executable`) |
| `core/device.py` | 663-704 (`Beam.Streams`); 685-692, 770-780, 792-802, 804-819, 821-830, 1055-1073, 1352-1368, 1393-1457, 1435-1439, 1481-1554, 1516-1523, 1556-1603 (`Core.Device`); 543-580, 558-580, 663-704, 943-982, 1307-1315 (`Core.Operators`); 1247-1250, 1253-1256 (`Hw.Audio`); 804-819 (`Hw.Loop`); 1433-1444, 1631-1634 (`Hw.Physical`); 165-173, 175-176, 179-181, 201-208, 265-266, 265-272, 269-271, 283-296, 299-313, 328-347, 355-365, 385-386, 385-391, 389-391, 399-421, 436-438, 436-447, 441-446, 458-510, 525-535, 543-555, 583-585, 588-590, 594-596, 749-754, 758-763, 1029-1034, 1038-1043, 1643-1649, 1652-1664 (`Io.Classes.Core`); 175-176, 583-585, 588-590, 749-754, 758-763, 1029-1034, 1038-1043 (`Io.Classes.Modem`); 175-176, 179-181, 583-585, 588-590, 594-596, 749-754, 758-763, 1029-1034, 1038-1043 (`Io.Classes.Radar`); 1643-1649, 1652-1664 (`Io.Classes.Sim`); 1163-1183, 1643-1670 (`Precoding.Order`); 582-585, 587-596, 748-754, 756-763, 1028-1034, 1036-1043 (`Radar.Operator`); 1440-1444 (`Signal.Carrier`); 699-701, 978-980 (`Sim.Power`); 1307-1315 (`Sim.TriggerModels`) |
| `core/drop.py` | 30-51, 92-95, 98-104, 118-142 (`Io.Classes.Core`); 92-104 (`Io.Classes.Sim`) |
| `core/evaluators.py` | 538-557, 559-567, 573-603, 596-602, 647-657 (`Mc.Extract`); 78-80, 178-186, 272-283, 319-326, 395-416, 439-464, 466-468 (`Sim.Power`) |
| `core/executable.py` | 38, 75, 107-128, 140-153, 166-214, 187-191, 194, 206, 206-214, 209, 216-226, 228-240, 254-268 (`Core.Executable`); 309-342, 329-330 (`Hw.Loop`) |
| `core/factory.py` | 161-204, 301, 414-436, 699-751, 873-878, 1048-1051, 1066-1091, 1101-1108 (`Hw.CalibrationFiles`); 223-246, 248-275, 414-436, 862-881, 884-902, 904-918, 921-958, 986-990, 1066-1092, 1090-1092, 1137-1190, 1158-1190, 1209-1215 (`Io.Hdf`); 484-499, 784-812 (`Io.HdfFail`); 405-440, 484-499, 731-737, 784-812, 889-994, 889-1001, 1066-1220, 1072-1079, 1094-1134, 1197-1201 (`Io.Schema`); 961-990, 1193-1220 (`Precoding.Order`); 884-902 (`Radar.Operator`); 54-85 (`Sim.Noise`); 1043-1053, 1193-1220 (`Sim.Record`); 961-990, 1193-1220 (`Sim.RecordHdf`) |
| `core/hooks.py` | 53-104, 106-116 (`Core.Hooks`) |
| `core/logarithmic.py` | 24-29, 38-78, 112-131, 153-222, 243-252, 259-296, 298-317, 328-340, 342-348, 348, 350-355, 357-358, 360-368 (`Core.Logarithmic`) |
| `core/operators.py` | 144-152 (`Beam.Streams`); 70-72, 74-85, 112-125, 127-129, 137-139, 141-142, 144-152, 172-186, 203-204, 206-209, 211-213, 215-217 (`Core.Operators`); 220-226 (`Io.Classes.Channel`); 55-68, 88-93, 97-104, 112-125, 155-163, 172-186, 220-226, 230-240 (`Io.Classes.Core`) |
| `core/pipeline.py` | 25-41 (`Hw.Loop`) |
| `core/precoding.py` | 121-126, 187-188, 192-195, 292-294, 316-318 (`Io.Classes.Core`); 121-126, 187-188, 192-195 (`Io.Classes.Modem`); 66-80, 96-114, 201-233, 219-231, 235-248, 254-272, 263-272, 274-286, 315-337, 343-375, 371-373, 381-410, 392-394, 406-408 (`Precoding.Chain`); 147-167, 174-184, 186-195 (`Precoding.Order`) |
| `core/pymonte/actors.py` | 316-338, 333-338, 367-452, 378-441, 380, 381, 387-438, 387-441, 390-398, 398, 401, 402-403, 403-413, 415-421, 423-424, 426-427, 443-452 (`Mc.Actor`); 180-252, 186, 246-250, 351-365 (`Mc.Collector`); 289-293, 290, 290-293, 332 (`Mc.Drops`); 23-148, 30-35, 37-75, 47-75, 61-63, 77-109, 91-107, 95-107, 111-133, 135-148 (`Mc.Queue`); 340-355 (`Mc.Seeds`) |
| `core/pymonte/evaluation.py` | 180-202, 204-224, 237-258, 248-258, 255, 272-320, 301-308, 338-352 (`Mc.Present`) |
| `core/pymonte/grid.py` | 217-224, 418-434 (`Hw.Loop`); 266-404, 428-431, 436-455 (`Mc.Actor`); 23-66, 168-172, 250-481, 260-264, 266-404, 340-395, 343-345, 346-348, 364, 369, 383-395, 385-387, 388-395, 397-404, 398-401, 418-434, 454-481, 470-472, 474-481, 484-510 (`Mc.Grid`); 153-167, 175-191, 194-243 (`Mc.Present`) |
| `core/pymonte/monte_carlo.py` | 370 (`Mc.Collector`); 44-66, 81-106, 108-141, 393-394, 395, 401-402, 431-439, 477-483 (`Mc.Present`); 365 (`Mc.Seeds`); 299-311, 305-309, 311, 357-371, 365, 481-483 (`Mc.Simulate`) |
| `core/pymonte/scalar.py` | 151-180, 206-215 (`Mc.Present`); 36-186, 45-92, 85-91, 101-125, 120, 183-186 (`Mc.Scalar`); 45-92, 86-92, 218-375, 256, 258-284, 286-290, 311-316, 339-344, 360-366, 373-375 (`Modem.EvalState`); 258-284, 311-316, 339-344, 360-366 (`Radar.Rmse`); 51-52, 258-284, 286-290 (`Sim.Power`) |
| `core/random_node.py` | 74-87, 89-104, 126-129, 143-148 (`Core.RandomNode`); 25-34, 54-55, 63-64 (`Io.Classes.Core`); 54-55, 58-59, 74-87 (`Io.Classes.Sim`) |
| `core/scenario.py` | 49-68, 411-414, 550-566 (`Hw.Loop`); 706-709 (`Hw.Physical`); 88-119, 353-354, 358-366 (`Io.Classes.Core`); 353-354, 358-366 (`Io.Classes.Sim`); 285-298, 300-312 (`Radar.Roc`); 130-157 (`Sim.Links`); 102-118, 130-157, 331-350, 368-439, 368-566, 441-505, 550-566, 763-780, 817-854, 829-831 (`Sim.Record`); 849-852 (`Sim.RecordHdf`) |
| `core/signal_model.py` | 395-483, 402, 441, 444-450, 453-459, 866-910, 931-1009, 948-951, 970-973, 986-990, 1005-1009, 1187-1226, 1300-1305, 1307-1312, 1537-1538, 1675-1678, 1680-1683, 1690-1695, 1697-1702, 1733-1740, 1737-1738 (`Beam.Streams`); 912-920, 1446-1534, 1459, 1524-1532 (`Core.Device`); 486-505, 866-910 (`Core.Operators`); 866-873 (`Hw.Antenna`); 1187-1227 (`Hw.Delay`); 424, 1190-1226 (`Hw.Iq`); 1187-1227, 1262-1269 (`Hw.Leakage`); 486-501, 1187-1227, 1302-1305, 1457-1474, 1461-1474 (`Hw.Physical`); 1612-1663, 2642-2648, 2652-2659 (`Io.Classes.Core`); 746, 1598 (`Mc.Extract`); 395-470 (`Modem.Link`); 424 (`Rf.Chain`); 959-973, 970-973, 987-990, 1006-1009, 1212-1219, 1322-1333, 1330-1332, 1346-1349 (`Rf.Signal`); 1300-1305, 1675-1678, 1697-1702, 2576-2598, 2601-2638 (`Signal.Append`); 2012-2020, 2012-2022, 2025-2033, 2025-2035, 2165-2321, 2229-2275, 2299-2321, 2305-2311, 2314-2320 (`Signal.Assign`); 601-658, 629-637, 641-643, 1446-1533 (`Signal.Carrier`); 395-441, 443-450, 452-459, 898-910, 901-902, 1187, 1285-1298, 1307-1312, 1680-1683, 1692-1695, 1699-1702, 1734-1740, 1736-1737, 1737, 2382-2386, 2441-2455, 2529-2573, 2555-2561, 2566-2571 (`Signal.Create`); 543-544, 619-620, 1138-1148, 1171-1176, 1370-1399, 1402-1431, 1446-1534, 1471-1493, 2576-2598 (`Signal.Dense`); 1841-1854, 1852-1853, 1856-1995, 1901-1919, 1907-1915, 1923-1935, 1925-1933, 1958-1971, 1963-1971, 2168-2184, 2207 (`Signal.Keys`); 395-480, 478-483, 1598-1663, 1690-1695, 1734-1740, 1743-1796, 1768-1770, 1775-1781, 1782-1785, 1799-1838, 1811-1820, 1826-1836, 1829-1831, 2040-2163, 2087-2112, 2348-2469, 2396-2469, 2420-2463, 2431-2452 (`Signal.Model`); 478-483, 513-584, 661-670, 674-716, 700, 706-714, 1600-1607, 2335-2345 (`Signal.Resample`); 2215 (`Sim.DeviceInput`); 898-910, 1699-1702 (`Sim.Leakage`); 485-492, 494-501, 1187-1220, 1715-1718, 1720-1723 (`Sim.Power`) |
| `core/state.py` | 457, 485 (`Beam.Streams`); 36-70, 69, 130-293, 296-384, 433-460, 462-488, 490-554 (`Core.Operators`) |
| `core/transformation.py` | 133-139, 504-507, 604-608, 700-703 (`Core.ArrayStates`); 501-784 (`Core.Kinematics`); 443-491 (`Core.Lookat`); 29-63, 65-92, 94-123, 142-158, 166-197, 200-253, 265-294, 297-330, 316-330, 333-356, 344-356, 377-399, 401-419, 435-441 (`Core.Pose`); 786-787 (`Io.Classes.Core`); 786-787 (`Io.Classes.Sim`) |
| `core/visualize.py` | 336-354 (`Mc.Present`) |
| `fec/aff3ct_wrappers.py` | 30-36, 40-47, 53-57, 61-66, 72-76, 80-85, 91-96, 100-106, 112-115, 119-123, 129-135, 139-146, 152-157, 161-167 (`Io.Classes.Core`) |
| `fec/block_interleaver.py` | 62-86, 88-89, 91-92 (`Fec.Model`); 62-86, 153-155, 159-163 (`Io.Classes.Core`) |
| `fec/coding.py` | 22-155, 158-195, 197-210, 223-297, 241-276, 244-276, 269-276, 299-365, 338-362, 341-362, 356-362, 367-396, 375-396, 388-396, 398-411, 413-420, 442-452 (`Fec.Model`); 170-195, 467-468, 472-477 (`Io.Classes.Core`); 163-194, 467-468, 470-477 (`Io.HdfFail`); 197-210, 209-210 (`Modem.Construct`) |
| `fec/cyclic_redundancy_check.py` | 45-61, 63-64, 66-67, 73-78, 94-99 (`Fec.Model`); 45-61, 106-108, 112-116 (`Io.Classes.Core`) |
| `fec/repetition_encoder.py` | 69-82, 84-86, 88-96, 102-107 (`Fec.Model`); 69-82, 142-144, 148-152 (`Io.Classes.Core`) |
| `fec/scrambler.py` | 33-43, 45-77, 71-73, 79-87, 89-103, 114-118, 120-126, 129-155, 129-175, 139-155, 157-161, 163-167, 193-211, 197-211, 231-241, 243-245, 243-249, 247-249, 251-264, 266-276 (`Fec.Model`); 139-155, 178-179, 183-184, 197-211, 287-288, 292-293 (`Io.Classes.Core`) |
| `hardware_loop/audio/device.py` | 45-393, 78-81, 83-86, 120-168, 156-168, 260-262, 294-323, 297, 300-304, 305, 305-313, 325-339, 331-337, 341-359, 350-356, 354, 374-393 (`Hw.Audio`); 120-168, 375-381, 385-393 (`Io.Classes.Core`) |
| `hardware_loop/audio/scenario.py` | 36-41 (`Hw.Antenna`); 23-24 (`Io.Classes.Core`) |
| `hardware_loop/calibration/antennas.py` | 28-207, 92-194, 107-179, 113-133, 135-194, 137, 145-147, 148-160, 149-152, 149-157, 160, 167, 167-177, 168-180, 169-172, 180, 183, 184-186, 187, 188-190 (`Hw.Antenna`); 197-199, 201-207 (`Hw.CalibrationFiles`); 72-80 (`Hw.Physical`); 38-58, 197-199, 203-207 (`Io.Classes.Core`) |
| `hardware_loop/calibration/delay.py` | 129-130, 132-137 (`Hw.CalibrationFiles`); 23-41, 28-33, 43-126, 100-103 (`Hw.Delay`); 28-33, 129-130, 134-137 (`Io.Classes.Core`) |
| `hardware_loop/calibration/leakage.py` | 40-41, 71-75, 554-557, 559-568 (`Hw.CalibrationFiles`); 32-41, 43-85, 110-140, 142-212, 146-150, 176-210, 180, 182-186, 188-210, 270, 270-279, 287-289, 302-304, 302-325, 328-444, 393-411, 420-434, 553-568 (`Hw.Leakage`); 446-551 (`Hw.LeakageMmse`); 43-85, 554-557, 561-568 (`Io.Classes.Core`) |
| `hardware_loop/hardware_loop.py` | 58-65, 466-531, 466-1009, 561, 706-771, 734-744, 812-840, 836, 837, 851-1009, 923-946, 940-1006, 959-994, 966-967 (`Hw.Loop`); 327-463, 337-359, 361-401, 403-418, 442-447, 449-463, 851-1006 (`Hw.Plots`) |
| `hardware_loop/physical_device.py` | 519-528 (`Hw.Antenna`); 79-90, 350-355 (`Hw.Audio`); 217-243, 217-281, 245-281, 272-277, 766-784, 786-809, 815, 907-908, 910-915, 921, 967-968, 970-975, 981, 1026-1027, 1029-1034 (`Hw.CalibrationFiles`); 696-720, 829-862, 864-888, 881-885 (`Hw.Delay`); 398-429 (`Hw.LeakageMmse`); 63-683, 66-77, 69-77, 142-148, 157-160, 350-355, 387-396, 398-429, 413-415, 418-422, 431-443, 445-475, 477-487, 489-546, 548-612, 555-585, 561-565, 641-642, 644-683, 942-952, 1017-1019 (`Hw.Physical`); 150-155, 172-180, 192-198, 209-215, 717-719, 733-746 (`Hw.Slots`); 645-655, 659-683, 696-721, 907-908, 912-915, 967-968, 972-975, 1026-1027, 1031-1034 (`Io.Classes.Core`) |
| `hardware_loop/physical_device_dummy.py` | 251-276, 342-408, 369-372, 373-400, 374-375 (`Hw.Direct`); 73-75, 214-225, 236-239, 246-249 (`Hw.Physical`); 77-155, 284-287, 295-300 (`Io.Classes.Core`) |
| `hardware_loop/precoding.py` | 32-49, 38-39, 51-53, 68-75, 69-73, 71-74, 77-91, 82, 93-95 (`Hw.Iq`); 56-57, 61-62, 98-99, 103-104 (`Io.Classes.Core`) |
| `hardware_loop/scenario.py` | 50-82 (`Hw.Antenna`); 75-82 (`Hw.Direct`); 75-82, 116-131 (`Hw.Physical`) |
| `hardware_loop/uhd/system.py` | 69-81 (`Hw.Usrp`); 26-30 (`Io.Classes.Core`) |
| `hardware_loop/uhd/usrp.py` | 346 (`Hw.Antenna`); 111, 122, 201-215, 263-283, 285-329, 334-335, 340-354, 340-357, 352, 359-376, 380-381, 385-414, 430-453, 435-440, 492-504, 549-551, 578-580 (`Hw.Usrp`); 125-245, 638-651, 655-670 (`Io.Classes.Core`); 650-651 (`Io.HdfFail`) |
| `jcas/jcas.py` | 41-51, 57-73, 170-171 (`Io.Classes.Core`); 131-132 (`Radar.MatchedFilter`); 169-176 (`Radar.OfdmRadar`) |
| `jcas/matched_filtering.py` | 57-126, 334-340, 344-353 (`Io.Classes.Core`); 38-353, 109-126, 132-139, 145-249, 156-157, 176-195, 197-206, 199-204, 202, 213-219, 222, 235, 251-267, 292-297, 309-314, 326-331, 333-353 (`Radar.MatchedFilter`) |
| `jcas/ofdm_radar.py` | 37-94, 259-260 (`Io.Classes.Core`); 30-260, 94, 96-115, 117-133, 135-161, 167-171, 173-204, 195-200, 195-204, 206-255, 222-224, 234-239, 257-260 (`Radar.OfdmRadar`) |
| `modem/bits_source.py` | 52-59, 66-68, 72-73 (`Io.Classes.Modem`); 76-89, 94-105, 107-114 (`Modem.Sources`) |
| `modem/evaluators.py` | 54-91, 147-150, 154-159, 459-485 (`Io.Classes.Modem`); 38-159, 52, 54-91, 105-113, 115-135, 146-150, 152-159, 158, 459-485 (`Modem.EvalState`); 82-113, 105-113, 115-135, 239-258, 302-325, 315-323, 369-382, 406-431, 487-500 (`Modem.Evaluators`) |
| `modem/frame_generator/frame_generator.py` | 66-67, 71-72 (`Io.Classes.Modem`); 55-58 (`Modem.Link`); 55-58, 60-63 (`Modem.Sources`) |
| `modem/frame_generator/scapy.py` | 36, 39-59, 61-66 (`Modem.Sources`) |
| `modem/modem.py` | 231-242, 482-493 (`Io.Classes.Core`); 83-132, 134-142, 145-164, 177-191, 231-233, 236-242, 279-339, 341-351, 354-379, 392-406, 482-484, 487-493, 511-550, 616-620, 623-628, 632-634, 648-711, 891-895, 899-908, 916-979, 986-988, 992-995, 999-1003, 1012-1063, 1270-1273, 1277-1285, 1293-1346, 1353-1355, 1359-1362, 1366-1368, 1374-1459, 1462-1464, 1468-1471, 1475-1477, 1483-1569, 1589-1591, 1595-1598, 1602-1604 (`Io.Classes.Modem`); 536-547, 562-564, 711, 722-725, 968-978 (`Mc.Seeds`); 507-553, 542-546, 544-546, 1437-1459, 1547-1569 (`Modem.Construct`); 52-130, 203-222, 245-318, 440-460 (`Modem.Evaluators`); 744-793, 757, 795-866, 796-804, 801-860, 842-853, 1084-1146, 1122-1143, 1168-1190, 1192-1262, 1218-1257, 1220-1257, 1245-1257 (`Modem.Link`); 1226-1229 (`Precoding.DftPrecoder`); 692-699, 692-708, 891-908, 1047-1063, 1270-1286 (`Precoding.Order`); 1226-1229 (`Precoding.Symbols`); 797-888, 798-805 (`Radar.OfdmRadar`) |
| `modem/precoding/dft.py` | 41-57, 94-95, 99-100 (`Io.Classes.Modem`); 57-61, 63-67 (`Precoding.DftPrecoder`) |
| `modem/precoding/ratio_combining.py` | 68-69, 73-74 (`Io.Classes.Modem`); 28-54 (`Precoding.Symbols`) |
| `modem/precoding/single_carrier.py` | 64-65, 69-70 (`Io.Classes.Modem`); 26-50 (`Precoding.Symbols`) |
| `modem/precoding/space_time_block_coding.py` | 30-34, 148-149, 153-154, 364-365, 369-370 (`Io.Classes.Modem`); 131-145, 347-353, 355-361 (`Precoding.Blocks`); 125-126 (`Precoding.Chain`); 154-366, 164-234, 200-234, 209-229, 236-339, 285-290, 291, 303-339, 306-312, 317, 321-322 (`Precoding.Ganesan`); 36-77, 69-77, 79-123, 100-123 (`Precoding.Symbols`) |
| `modem/precoding/symbol_precoding.py` | 29-31, 71-73 (`Io.Classes.Modem`); 63-66, 105-108, 132-135, 139-147, 149-165, 188-191, 195-203, 205-221 (`Precoding.Blocks`) |
| `modem/symbols.py` | 142-168, 312-313, 317-318, 326-343, 403-405, 408-411 (`Io.Classes.Modem`); 345-359, 361-380 (`Modem.SingleIdeal`); 142-151, 153, 154-168, 185-223, 199-223, 202-210, 225-257, 240-248, 291-303, 325-396, 330-381, 399-400 (`Modem.Symbols`); 136-411 (`Precoding.Symbols`) |
| `modem/tools/psk_qam_mapping.py` | 41-102, 527-530, 534-538 (`Io.Classes.Modem`); 41-75, 526-530, 532-538 (`Io.HdfFail`); 499-524, 509-518 (`Mapping.Constellation`); 37-39, 96-99, 125-129, 127-128, 203-217, 204-213, 259 (`Mapping.Custom`); 104-169, 131-167, 171-259, 218-256, 262-298, 301-497 (`Mapping.Model`) |
| `modem/waveform.py` | 39-46, 102-103, 107-108, 114-121, 173-174, 178-179, 185-192, 226-227, 231-232, 613-617, 620-640, 685-693, 701-704, 708-712, 723-731, 738-739, 743-745, 751-758 (`Io.Classes.Modem`); 173-174, 178-179 (`Io.Classes.Sim`); 314-332 (`Modem.ChirpFsk`); 67-99, 111-230, 344-357, 411-547 (`Modem.Link`); 797-820 (`Modem.Pilot`); 238-250, 315-332, 613-614, 761-766, 797-820 (`Modem.SingleCarrier`); 238-250 (`Precoding.Symbols`); 408 (`Sim.Noise`) |
| `modem/waveform_chirp_fsk.py` | 53-93, 449-455, 459-477, 483-491 (`Io.Classes.Modem`) |
| `modem/waveform_correlation_synchronization.py` | 41-70, 173-176, 180-187 (`Io.Classes.Modem`); 66-70, 85-92, 110-117 (`Modem.CorrSync`) |
| `modem/waveform_single_carrier.py` | 70-127, 450-456, 460-477, 481-482, 494-501, 507-514, 569-577, 589-597, 757-761, 765-774, 780-781, 828-829, 897-915, 998-1000, 1004-1010 (`Io.Classes.Modem`); 796-824, 846-862 (`Modem.PulseTaps`); 869-870, 939-940 (`Sim.Noise`) |
| `modem/waveforms/ieee_5gnr.py` | 204-235, 244-245, 249-254, 279-315, 327-329, 333-339, 349-355 (`Io.Classes.Modem`); 41-53, 56-67, 73-97, 86-89, 103-140, 117-137, 122-132, 123-132, 150-182, 184-202, 204-235, 214-235, 279-315, 293-315, 294, 306, 349-355 (`Modem.Nr`) |
| `modem/waveforms/orthogonal/channel.py` | 72-80 (`Io.Classes.Modem`); 28-66, 43-57 (`Modem.Estimation`) |
| `modem/waveforms/orthogonal/ocdm.py` | 24-47, 37-45, 49-53, 55-65 (`Modem.Ofdm`); 67-72 (`Modem.Offset`) |
| `modem/waveforms/orthogonal/ofdm.py` | 39-95, 180-181 (`Io.Classes.Modem`); 132-161 (`Modem.Multipath`); 98-116 (`Modem.Nr`); 97-130, 101-114, 109-111, 116-120, 132-161, 144-147, 150-152 (`Modem.Ofdm`); 163-177, 166-175 (`Modem.Offset`); 190-204, 200-202, 226-257, 239-250, 244-248 (`Modem.SchmidlCox`) |
| `modem/waveforms/orthogonal/otfs.py` | 24-36, 28-29, 38-54, 47-48 (`Modem.Ofdm`) |
| `modem/waveforms/orthogonal/waveform.py` | 73-77, 80-82, 86-90, 118-128, 225-229, 233-239, 439-441, 444-460, 468-487, 640-642, 646-650, 658-665, 706-708, 712-716, 727-746, 894-896, 900-901, 959-995, 1367-1373, 1377-1391, 1395-1396 (`Io.Classes.Modem`); 1194-1211 (`Modem.Estimation`); 285-297, 520-565, 530-563, 538, 538-559, 567-614, 582-612, 591, 627-637, 634, 689-691, 693-697, 699-703, 755-760, 762-764, 855-860, 862-867, 869-891, 1180-1188, 1190-1192, 1292-1323, 1299-1303, 1309-1321, 1325-1364, 1337-1347, 1341-1345, 1352-1362 (`Modem.Frame`); 39-49, 52-62, 65-78, 102-170, 172-180, 182-202, 204-222, 246-319, 321-325, 327-331, 333-337, 339-343, 345-347, 361-379, 381-406, 463-487, 489-496, 498-505, 507-509, 511-518, 616-625, 653-687, 719-760, 766-768, 770-772, 774-776, 778-782, 784-790, 822-848, 850-853, 950-995, 1152-1158, 1160-1168, 1170-1178, 1221-1258, 1239-1256, 1260-1290, 1277-1288 (`Modem.Grid`); 1293-1295 (`Modem.LinkOfdm`); 73-77, 118-128, 172-180, 182-202, 204-222, 361-379, 489-505, 869-891, 959-995, 1152-1158, 1170-1178, 1221-1258, 1239-1256 (`Modem.Nr`); 741-764, 805-820, 869-891, 883-884, 1110-1115 (`Modem.Pilot`) |
| `radar/cube.py` | 207-295, 439-444, 448-455 (`Io.Classes.Radar`); 193-455, 248-284, 433-436, 438-444, 446-455 (`Radar.Cube`); 333-346 (`Radar.Detect`) |
| `radar/detection.py` | 47-78, 156-159, 163-167, 176-200, 274-276, 280-285, 314-335, 415-418, 422-428, 458-459, 463-464, 505-523, 635-638, 642-646 (`Io.Classes.Radar`); 635-637 (`Io.HdfFail`); 467-646, 504-583, 585-632, 588, 589, 598-603, 605-615, 612 (`Radar.Cfar`); 47-78, 80-116, 108-110, 171-199, 374-410, 376-382, 384-395, 399-408, 434-455, 623-632 (`Radar.Detect`) |
| `radar/evaluators.py` | 339-368, 412-416, 420-430 (`Io.Classes.Radar`); 108-430, 124-130, 132-183, 185-205, 207-239, 241-254, 335-368, 339-368, 370-379, 397-406, 411-430, 1107-1253, 1156-1163, 1160-1161, 1174-1193, 1180-1193, 1195-1204, 1210-1212, 1230-1239 (`Radar.Rmse`); 433-466, 433-1104, 502-507, 531-566, 537-566, 568-573, 611-622, 624-646, 815-817, 819-956, 867-887, 889-908, 915-922, 941-954, 958-1035, 1030-1034, 1037-1100 (`Radar.Roc`) |
| `radar/fmcw.py` | 53-89, 336-340, 344-350 (`Io.Classes.Radar`); 53-89, 91-95, 97-137, 102-110, 114-116, 139-143, 145-147, 149-154, 156-161, 163-169, 171-173, 175-177, 179-189, 205-210, 228-233, 245-250, 268-273, 275-276, 282-300, 293-294, 293-300, 302-325, 327-333, 335-350 (`Radar.Fmcw`) |
| `radar/radar.py` | 300-312, 488-495, 499-511 (`Io.Classes.Core`); 247-254, 266-282, 300-304, 308-312, 488-495, 499-511, 604-664, 797-800, 804-807 (`Io.Classes.Radar`); 425-430 (`Radar.MatchedFilter`); 322-810, 425-430, 453-485, 487-495, 497-511, 713-732, 734-751, 753-794, 767-768, 774-779, 796-800, 802-807 (`Radar.Operator`) |
| `simulation/animation.py` | 163-187, 208-212, 216-222, 231-237, 293-295, 299-303, 352-365, 415-417, 421-425 (`Io.Classes.Sim`); 61-64, 66-76, 78-79, 81-85, 130-150, 158-161, 163-187, 184-187, 189-191, 193-197, 199-201, 203-205, 207-222, 225-237, 251-253, 255-256, 258-259, 261-262, 292-303, 367-369, 371-397, 399-403, 405-409, 411-412, 414-425 (`Sim.Animation`) |
| `simulation/antennas.py` | 45-84, 86-110, 198-200, 235-237, 268-270, 276-302, 297-302, 806-808 (`Core.ArrayStates`); 144-167, 173-196, 206-233, 243-266, 759-785, 791-808 (`Io.Classes.Sim`); 322 (`Sim.DeviceInput`); 416-686 (`Sim.Pattern`) |
| `simulation/beamforming.py` | 28-39, 62-63, 67-69 (`Io.Classes.Sim`) |
| `simulation/coupling/coupling.py` | 40-52, 81-93 (`Sim.Coupling`) |
| `simulation/coupling/impedance.py` | 34-76, 219-229, 233-242 (`Io.Classes.Sim`); 170-174, 181, 190-212, 231-242 (`Sim.Coupling`) |
| `simulation/coupling/perfect.py` | 40-41, 45-46 (`Io.Classes.Sim`); 31-37 (`Sim.Coupling`) |
| `simulation/drop.py` | 26-47, 54-66 (`Io.Classes.Sim`) |
| `simulation/evaluators/beamforming.py` | 93-156, 248-252, 256-264 (`Io.Classes.Sim`) |
| `simulation/evaluators/interference.py` | 36-64, 94-95, 99-101 (`Io.Classes.Sim`); 81-88, 93-101, 117-139 (`Sim.Power`) |
| `simulation/isolation/isolation.py` | 27-34 (`Io.Classes.Sim`); 81-92, 94-114 (`Sim.Leakage`) |
| `simulation/isolation/perfect.py` | 39-40, 44-45 (`Io.Classes.Sim`); 22-36 (`Sim.Leakage`) |
| `simulation/isolation/selective.py` | 38-63, 145-146, 150-151 (`Io.Classes.Sim`); 65-109, 122-142, 128-134 (`Sim.Leakage`) |
| `simulation/isolation/specific.py` | 38-55, 129-131, 135-143 (`Io.Classes.Sim`); 67-91, 100-126 (`Sim.Leakage`) |
| `simulation/modem/channel_estimation.py` | 43-59, 190-213 (`Io.Classes.Sim`); 84-131, 215-250, 252-295, 275-290 (`Modem.Multipath`); 139-178, 148-150, 161-163, 165-167 (`Modem.SingleIdeal`) |
| `simulation/modem/noise.py` | 19-90, 53-58, 73-90, 93-103, 97-98, 106-116, 110-111 (`Sim.Noise`) |
| `simulation/rf/block.py` | 75-260 (`Rf.Chain`); 105-107 (`Rf.Ramp`); 181-252, 207-234, 239-250 (`Rf.Signal`); 206-251, 237 (`Sim.Noise`); 100-107 (`Sim.NoiseSeed`) |
| `simulation/rf/blocks/ad.py` | 206-223, 251-253, 257-261, 270-296, 354-357, 361-366, 390-416, 611-615, 619-624, 631-651, 674-681, 685-692 (`Io.Classes.Sim`); 81-91, 111-116, 162-198, 201-248, 247-248, 264-351, 333-351, 334-341, 351, 369-373, 450-500, 469-473, 469-483, 485-488, 485-499, 502-525, 528-561, 536-540, 554-560, 558-560, 664-665 (`Rf.Adc`); 425, 660 (`Sim.Noise`); 46-61, 409-411, 646-648 (`Sim.NoiseSeed`) |
| `simulation/rf/blocks/amps.py` | 42-74, 212-217, 220-225, 235-268, 307-309, 313-320, 331-363, 396-398, 402-409, 427-475, 529-534, 538-548, 558-618, 641-645, 649-658, 669-682, 749-750, 754-755, 764-775, 858-859, 863-864 (`Io.Classes.Sim`); 86-93, 115-123, 270-279, 295-304, 379-386, 388-393, 490-497, 511-518, 520-526, 598-618, 612-615, 620-626, 623-624, 730-746, 731, 734-736 (`Rf.Amps`); 698-728, 718, 719-724, 731-743, 734-736, 737-742, 743, 791-830, 814-819, 820-821, 822-826, 833-852, 833-855, 839-844, 845-846, 847-851, 852 (`Rf.Measured`) |
| `simulation/rf/blocks/filters.py` | 24-62, 54-62, 119-127, 130-199, 135-163, 175-180, 194-199, 201-219, 221-234 (`Rf.Filters`) |
| `simulation/rf/blocks/mixers.py` | 72-92, 157-162, 166-172, 217-243, 317-323, 327-334 (`Io.Classes.Sim`); 139-154, 288-302 (`Rf.Signal`); 283, 289-302 (`Sim.Noise`); 237 (`Sim.NoiseSeed`) |
| `simulation/rf/blocks/ramp.py` | 33-63, 214-220, 224-231 (`Io.Classes.Sim`); 57-60, 151-181, 168, 169-170, 175-179, 183-186, 183-199, 201-211, 213-231 (`Rf.Ramp`) |
| `simulation/rf/blocks/shift.py` | 99-101 (`Rf.Signal`) |
| `simulation/rf/blocks/source.py` | 204-214 (`Rf.PhaseNoise`); 204-214 (`Rf.Signal`) |
| `simulation/rf/blocks/split.py` | 58-60 (`Rf.Signal`) |
| `simulation/rf/blocks/sum.py` | 63-65 (`Rf.Signal`) |
| `simulation/rf/blocks/x4.py` | 68-73 (`Rf.Signal`) |
| `simulation/rf/chain.py` | 106-114, 287-288, 292-296, 349-365, 664-675, 679-702 (`Io.Classes.Sim`); 99-113, 145-155, 158-167, 181-203, 205-227, 338-363, 402-434, 482-534, 527-534, 536-573, 575-611, 613-661, 641-643 (`Rf.Chain`); 563 (`Sim.DeviceOutput`); 392-396, 536-573 (`Sim.Noise`) |
| `simulation/rf/noise/level.py` | 81-88, 118-119, 123-124, 132-138, 191-192, 196-197, 207-232, 296-298, 302-305 (`Io.Classes.Sim`); 76-124, 100-106, 109-110, 118-124, 127-197, 151-171, 183-184, 191-197, 200-305, 253-255, 258-259, 275-280, 296-305 (`Sim.Noise`) |
| `simulation/rf/noise/model.py` | 33-49, 72-74, 78-81, 85-89, 166-174, 181-182, 186-187 (`Io.Classes.Sim`); 143-160 (`Rf.Signal`); 143-160, 151-153, 177-178 (`Sim.Noise`); 140-160 (`Sim.White`) |
| `simulation/rf/noise/phase_noise.py` | 80-81, 85-86, 213-234, 329-332, 336-340 (`Io.Classes.Sim`); 114-128, 125-127, 154-159, 160-188, 190-200, 203-211, 213-234, 236-267, 256-261, 328-340 (`Rf.PhaseNoise`) |
| `simulation/rf/presets/ettus/x410.py` | 43-103, 106-109, 113-116 (`Io.Classes.Sim`) |
| `simulation/rf/presets/ti/xwr1843.py` | 58-139 (`Io.Classes.Sim`); 43, 45, 51-53, 155-157, 164-174, 176-196, 180-181, 182, 183-185, 198-201, 203-205, 207-209, 211-213, 215-219, 221-225, 227-233 (`Radar.Xwr`) |
| `simulation/rf/signal.py` | 186-188 (`Rf.Amps`); 186-188 (`Rf.Measured`); 20-29, 31-83, 119-137, 139-156, 158-213, 197-211, 215-235, 237-253, 250-253, 255-270, 272-282, 284-290, 292-309 (`Rf.Signal`) |
| `simulation/scenario.py` | 190-228 (`Io.Classes.Sim`); 218-221, 251-277, 279-314, 316-355, 346-350, 352-355, 518-611, 577-609 (`Sim.Links`); 316-355, 731-745 (`Sim.Record`); 397-433, 418-431 (`Sim.Triggers`) |
| `simulation/simulated_device.py` | 1540 (`Core.ArrayStates`); 2076-2088, 2092-2117 (`Io.Classes.Core`); 78-105, 149-151, 154-159, 167-172, 238-239, 243-244, 252-265, 293-294, 298-302, 314-327, 354-355, 359-363, 401-402, 406-407, 416-429, 471-473, 477-480, 489-546, 549-580, 628-642, 648-714, 716-727, 734-742, 754-755, 759-760, 771-830, 865-887, 893-942, 944-971, 974-986, 1104-1280, 2076-2088, 2092-2117, 2121-2123 (`Io.Classes.Sim`); 763-887, 1751-2028 (`Sim.DeviceInput`); 483-726, 1562-1749 (`Sim.DeviceOutput`); 1750-1784, 1778-1780, 1813-1830, 1952-1954 (`Sim.Noise`); 763-848, 1704-1706, 2023-2025 (`Sim.Power`); 69-480, 94-105 (`Sim.TriggerModels`) |
| `simulation/simulation.py` | 226-235, 408-432, 416-421, 422-424, 432 (`Mc.Drops`); 214-223 (`Mc.Seeds`) |
| `tools/math.py` | 28-33, 35-58, 61-82 (`Core.Logarithmic`); 102-106 (`Rf.Adc`) |
| `tools/resampling.py` | 49-57, 59-60 (`Signal.Resample`) |
| `tools/tile.py` | 36-60, 63-73, 76-118, 107, 108-110, 110, 112-118 (`Tools.Tile`) |
<!-- end modelled -->

Files without any modelled code:

<!-- begin unmodelled -->
`channel/fading/correlation.py`, `channel/quadriga/matlab.py`, `channel/quadriga/octave.py`, `core/pymonte/artifact.py`, `core/pymonte/definitions.py`, `hardware_loop/visualizers.py`, `modem/ieee_5gnr.py`, `tools/shermes.py`.
<!-- end unmodelled -->

## Axioms per theorem

From `#print axioms` of every theorem in MANIFEST.json.

<!-- begin axioms -->
* axioms: **none** (11 theorems): `Precoding.C09_round_trip_fails`, `Recording.C35_offset_refused`, `Recording.C35_links_fails`, `Recording.C35_timestamp_fails`, `Modem.Sources.C67_stub`, `Channel.State.C69_reciprocal_partial`, `Consistent.C74_stored`, `ChirpFsk.C89_incomplete`, `HwUsrp.C112_configure_partial`, `HwUsrp.C112_configure_fails`, `Exe.C126_verbosity_fails`
* axioms: **propext** (43 theorems): `Fec.C02_interleaver_rejects`, `Fec.C03_crc_without_check_bits_fails`, `Fec.C05_single_instance_roundtrip_fails`, `Fec.C05_seed_validation`, `Precoding.C08_decode_mismatch_unnoticed_fails`, `Precoding.C12_actual_round_trip`, `Mc.C17_unknown_stage_name_fails`, `Rf.C31_transmit_streams`, `Io.C32_order_identity_fails`, `Io.C32_cycle_fails`, `Io.C32_temporary_arrays_fails`, `Io.C32_arrays_field_fails`, `Io.C32_rewritten_sequence_fails`, `Io.C32_psk_qam_iff`, `Io.C32_psk_qam_fails`, `Io.C32_manager_iff`, `Io.C32_manager_fails`, `Recording.C35_campaign_replay_fails`, `Recording.C35_campaign_record_fails`, `Recording.C35_reserved_fails`, `Core.C39_mother`, `Core.C39_child`, `Core.C39_constructor_mother_fails`, `Mc.C45_reuse_drops_arguments_fails`, `Precoding.C46_empty_coding_partial`, `Modem.C55_refuses`, `Modem.C59_pilot_partial`, `Modem.C59_stale_fails`, `Rf.Amps.C64_memory_fails`, `Modem.Sources.C67_fields_fails`, `Modem.Sources.C67_layers_fails`, `Channel.State.C69_restore_partial`, `Channel.Link.C70_positional`, `Fading.C76_realization_fails`, `Core.Kin.C81_custom_fails`, `ChirpFsk.C89_order_one_fails`, `SingleCarrier.C91_order_fails`, `HwLoop.C115_recording_fails`, `GridDim.C116_instance_fails`, `Present.C123_refreshed`, `Exe.C126_results_dir`, `Exe.C126_verbosity_partial`, `Keys.C134_single`
* axioms: **Quot.sound** (2 theorems): `Keys.C134_refused`, `Keys.C134_refused_samples`
* axioms: **Quot.sound, propext** (123 theorems): `Fec.C01_repetition_configurations`, `Fec.C04_scrambler3gpp_transparent`, `Fec.C04_scrambler3gpp_roundtrip`, `Fec.C04_scrambler3gpp_segmentation`, `Fec.C05_scrambler80211a_pair_transparent`, `Fec.C05_scrambling_is_xor_with_keystream`, `Fec.C05_reseeded_instance_roundtrip`, `Fec.C05_short_seed_raises`, `Precoding.C09_setitem_spec`, `Mc.C20_in_flight_samples_lost_fails`, `Mc.C20_double_counting_fails`, `Core.Kin.C30_lookat_fails`, `Rf.C31_second_connection_fails`, `Rf.C31_double_drive_fails`, `Rf.C31_open_input_fails`, `Rf.C31_wired_outputs_leak`, `Io.C32_unregistered`, `Io.C32_range`, `Core.C33_device_history`, `Recording.C35_round_trip`, `Recording.C35_append`, `Recording.C35_stop`, `Recording.C35_frozen`, `Recording.C35_modes`, `Recording.C35_negative_offset_fails`, `Recording.C35_num_drops_record`, `Recording.C35_num_drops_replay_fails`, `Sim.C36_default_dropped_fails`, `Sim.C36_inactive_default_fails`, `Sim.C37_wrong_count`, `Sim.C37_default_dropped_fails`, `Sim.C37_short_states_fails`, `Core.C39_reseeded_child_fails`, `Core.C40_order_fails`, `Radar.C41_max_partial`, `Radar.C41_carrier_fails`, `Radar.C42_construction_iff`, `Radar.C42_reconstruct`, `Mc.C44_single_drop_per_sample_fails`, `Mc.C45_full_run_covers_all_arguments`, `Modem.C52_block_count_fails`, `Modem.C52_single_block_fails`, `Modem.C52_single_bit_fails`, `Modem.C54_empty_manager_partial`, `Modem.C59_configuration`, `Modem.EvalState.C61_refused`, `Modem.EvalState.C61_newest_fails`, `Modem.C62_append_streams`, `Modem.C62_given`, `Modem.C65_streams`, `Rf.Sig.C66_from_array_fails`, `Modem.Sources.C67_short`, `Modem.Sources.C67_scapy_partial`, `Modem.Sources.C67_bytes_fails`, `Modem.Sources.C68_end_fails`, `Modem.Sources.C68_bits_fails`, `Modem.Sources.C68_restore_fails`, `Channel.State.C69_refused`, `Channel.Link.C70_reciprocal`, `Channel.Link.C70_mixed`, `Channel.Link.C70_keyword_fails`, `Channel.Link.C70_scenario`, `Channel.Link.C70_hooks`, `Channel.Link.C70_called`, `Channel.Link.C70_realization`, `Channel.Link.C70_realization_fails`, `Consistent.C74_shared_fails`, `RadarChannel.C78_shared_fails`, `Core.Ant.C81_selection`, `ChirpFsk.C89_sync_fails`, `SingleCarrier.C91_store_partial`, `SingleCarrier.C91_store_fails`, `NoiseSeed.C100_model_fails`, `HwUsrp.C112_rpc`, `HwUsrp.C112_ports_fails`, `HwLoop.C115_interrupt`, `HwLoop.C115_recording_partial`, `HwLoop.C115_surrogate_partial`, `HwLoop.C115_surrogate_fails`, `GridDim.C116_configures`, `GridDim.C116_frame`, `GridDim.C116_replaced_fails`, `GridDim.C116_rejects`, `GridDim.C116_accepts`, `GridDim.C116_impact_partial`, `GridDim.C116_impact_fails`, `GridDim.C116_title_partial`, `GridDim.C116_title_fails`, `HwPlots.C117_last_fails`, `Present.C123_labels_partial`, `Present.C123_objects_fails`, `Present.C123_table`, `Present.C123_table_fails`, `Present.C123_saved_fails`, `Present.C123_replaced_fails`, `Present.C123_rows`, `Present.C123_unprinted_fails`, `Nr.C124_pss`, `Nr.C124_pss_fails`, `Nr.C124_sss_fails`, `Nr.C124_pss_recurrence`, `Nr.C124_pss_standard_fails`, `Exe.C126_race_fails`, `Exe.C126_progress`, `Keys.C134_index_fails`, `Keys.C134_start_fails`, `Keys.C134_empty_fails`, `Keys.C134_division_fails`, `Keys.C134_beyond_fails`, `Keys.C134_reversed_fails`, `Keys.C134_streams_fails`, `Quadriga.C137_history`, `Quadriga.C137_motion_fails`, `Quadriga.C137_seed_fails`, `Quadriga.C137_reciprocal_fails`, `Quadriga.C137_restore_fails`, `Quadriga.C137_given`, `Direct.C138_leakage_fails`, `HwCalibrationFiles.C144_interrupted_fails`, `HwCalibrationFiles.C144_atomic`, `HwCalibrationFiles.C144_class`, `HwCalibrationFiles.C144_campaign_fails`, `HwCalibrationFiles.C144_files`
* axioms: **Classical.choice, Quot.sound, propext** (1196 theorems): `Fec.C01_repetition_majority`, `Fec.C01_repetition_corrects_minority_errors`, `Fec.C01_repetition_encode_layout`, `Fec.C02_interleaver_positions`, `Fec.C02_interleaver_roundtrip`, `Fec.C02_deinterleaver_roundtrip`, `Fec.C02_interleaver_spreads_bursts`, `Fec.C02_interleaver_configurations`, `Fec.C03_crc_roundtrip_partial`, `Fec.C04_scrambler3gpp_seed_contract`, `Fec.C04_prng_queues_never_underflow`, `Fec.C05_keystream_period_127`, `Fec.C05_keystream_balanced`, `Fec.C06_chain_roundtrip_partial`, `Fec.C06_nested_chain_roundtrip`, `Fec.C06_repetition_interleaver_roundtrip`, `Fec.C06_misaligned_chain_fails`, `Fec.C06_scrambler_desynchronises`, `Fec.C07_encode_contract`, `Fec.C07_execution_order`, `Precoding.C08_transmit_ladder`, `Precoding.C08_receive_ladder`, `Precoding.C08_encode_streams`, `Precoding.C08_decode_streams`, `Precoding.C08_announced_input`, `Precoding.C08_announced_output`, `Precoding.C09_order_fails`, `Precoding.C09_constructor_reverses_partial`, `Precoding.C09_order_kept_iff_partial`, `Precoding.C09_round_trip_reverses_partial`, `Precoding.C09_append_keeps_order_partial`, `Precoding.C09_pop_spec`, `Precoding.C10_round_trip`, `Precoding.C10_energy`, `Precoding.C10_orthogonal`, `Precoding.C10_rejects`, `Precoding.C10_varying_channel_fails`, `Precoding.C11_round_trip`, `Precoding.C11_round_trip_full_rank`, `Precoding.C11_energy`, `Precoding.C11_rejects`, `Precoding.pinvRoutine_exists`, `Precoding.C12_encoded_blocks`, `Precoding.C12_decoded_blocks_iff_partial`, `Precoding.C12_decoded_blocks_fails`, `Precoding.C12_inverse_fails`, `Precoding.C12_actual_inverse`, `Precoding.C12_encode_rate`, `Mapping.C13_symbol`, `Mapping.C13_stream`, `Mapping.C13_half_distance`, `Mapping.C13_custom`, `Mapping.C13_custom_soft`, `Mapping.C13_psk8`, `Mapping.C14_total`, `Mapping.C14_injective`, `Mapping.C14_min_distance`, `Mapping.C14_gray`, `Mapping.C14_unit_energy`, `Mapping.C14_psk8`, `Mapping.C14_normalised`, `Mapping.C14_normalised_injective`, `Mc.C15_schedule`, `Mc.C15_terminates`, `Mc.C15_default_batches`, `Mc.C16_one_dimension_partial`, `Mc.C16_one_dimension_monotone_partial`, `Mc.C16_rectangular_grid_fails`, `Mc.C16_square_grid_fails`, `Mc.C17_stage_reuse_transparent`, `Mc.C18_stage_ordered_dimensions_partial`, `Mc.C18_coordinates_swapped_fails`, `Mc.C18_all_samples_lost_fails`, `Mc.C19_mean`, `Mc.C19_order_independent`, `Mc.C19_local`, `Mc.C19_early_stop`, `Mc.C20_loop_conservation`, `Mc.C20_quiescent_partial`, `Mc.C20_quiescent_results_partial`, `Signal.C21_blocks`, `Signal.C21_round_trip_partial`, `Signal.C21_single_stream`, `Signal.C21_cancelling_columns_fails`, `Signal.C22_superimpose_partial`, `Signal.C22_argument_partial`, `Signal.C22_argument_changed_fails`, `Signal.C22_empty_signal_fails`, `Signal.C23_slice_partial`, `Signal.C23_step_three_fails`, `Signal.C23_negative_bounds_fails`, `Signal.C24_assign_partial`, `Signal.C24_scalar_in_front`, `Signal.C24_inner_range_fails`, `Signal.C24_range_ending_in_gap_fails`, `Signal.C24_front_fails`, `Signal.C24_zero_scalar_fails`, `Signal.C24_zero_matrix_fails`, `Signal.C25_superimpose_partial`, `Signal.C25_later_signal_fails`, `Signal.C25_fewer_streams_fails`, `Signal.C25_single_stream_fails`, `Signal.C26_append_samples`, `Signal.C26_append_history`, `Signal.C26_append_associative`, `Signal.C26_append_streams_partial`, `Signal.C26_longer_streams_fails`, `Signal.C26_sparse_append`, `Signal.C26_sparse_trailing_zeros_fails`, `Signal.C26_interleaved_integers`, `Signal.C26_interleaved_signal_partial`, `Signal.C26_scaled_partial`, `Signal.C26_scaled_ones_fails`, `Core.C27_db_roundtrip`, `Core.C27_lin_roundtrip`, `Core.C27_from_db`, `Core.C27_from_lin`, `Core.C27_arithmetic`, `Core.C27_product_adds_decibels`, `Core.C27_pickle`, `Core.C27_sequence_partial`, `Core.C27_amplitude_sequence_fails`, `Core.C27_mixed_item_fails`, `Core.C28_rpy_rigid`, `Core.C28_quaternion_rigid`, `Core.C28_quaternion_scale`, `Core.C28_invert`, `Core.C28_rotation_keeps_length`, `Core.C28_rpy_roundtrip_partial`, `Core.C28_planar_direction_fails`, `Core.C28_gimbal_lock_fails`, `Core.C28_quaternion_roundtrip_fails`, `Core.C29_unit`, `Core.C29_cartesian_roundtrip`, `Core.C29_spherical_roundtrip`, `Core.C29_poles`, `Core.C29_any_angles`, `Core.C29_from_cartesian`, `Core.Kin.C30_reads_current_partial`, `Core.Kin.C30_links`, `Core.Kin.C30_reads_succeed`, `Core.Kin.C30_updates_succeed`, `Rf.C31_invalid_connection`, `Rf.C31_connections_kept_partial`, `Rf.C31_evaluation_partial`, `Rf.C31_evaluation_succeeds`, `Rf.C31_memory_partial`, `Rf.C31_receive_streams`, `Io.C32_round_trip_partial`, `Io.C32_any_order_partial`, `Io.C32_write_succeeds`, `Core.C33_slot_history`, `Core.C33_slot_calls`, `Core.C33_min_samples`, `Core.C34_process_input_partial`, `Core.C34_wrong_streams`, `Core.C34_wrong_port`, `Core.C34_input_count`, `Core.C34_superposition_fails`, `Sim.C35_file_round_trip`, `Recording.C35_interrupted_fails`, `Sim.C36_symmetric`, `Sim.C36_latest`, `Sim.C36_default`, `Sim.C36_channels`, `Sim.C36_in_use_partial`, `Sim.C37_matrix`, `Sim.C38_one_per_device`, `Sim.C38_shared_iff`, `Core.C39_seed_determines`, `Core.C39_reproducible`, `Core.C39_constructor_seed`, `Core.C39_unseeded`, `Core.C40_notify_partial`, `Core.C40_removed`, `Core.C40_self_removal_fails`, `Radar.C41_threshold`, `Radar.C41_max_direction_fails`, `Radar.C41_relative_fails`, `Radar.C42_construction_content`, `Radar.C42_normalize`, `Radar.C42_serialization`, `Radar.C42_negative_fails`, `Radar.C42_columns_fails`, `Fec.C43_required_bits_always_fit`, `Mc.C44_announced_drops_fails`, `Mc.C44_timestamps`, `Mc.C44_static`, `Precoding.C46_existing_coding_diverges_fails`, `Precoding.C47_alamouti_zero_forcing`, `Precoding.C47_mrc_symbols`, `Precoding.C47_mrc_zero_forcing_partial`, `Precoding.C47_mrc_zero_forcing_fails`, `Precoding.C47_selection_zero_forcing_fails`, `Precoding.C47_selection_many_streams_fails`, `Precoding.C47_plain_zero_forcing`, `Precoding.C47_mrc_accepts_iff`, `Precoding.C48_round_trip`, `Precoding.C48_static_channel`, `Precoding.C48_varying_channel_fails`, `Core.C49_lookat_partial`, `Core.C49_vertical_fails`, `Core.C49_own_position_fails`, `Core.C49_argument_modified_fails`, `Core.C50_output_partial`, `Core.C50_wrong_ports`, `Core.C50_selected_ports_fails`, `Core.C50_second_selection_fails`, `Core.C50_first_transmission_fails`, `Radar.C51_decision`, `Radar.C51_scale_invariant`, `Radar.C51_small`, `Radar.C51_settings`, `Modem.C52_bits_partial`, `Modem.C52_bit_error_rate`, `Modem.C52_lost_bits_fails`, `Modem.C52_blocks_partial`, `Modem.C52_frames_partial`, `Modem.C52_latest`, `Modem.C53_throughput`, `Modem.C53_bounds`, `Modem.C54_sequence_partial`, `Modem.C54_manager_fails`, `Modem.C54_duplex_fails`, `Modem.C54_rate_fails`, `Modem.C55_place`, `Modem.C55_pick`, `Modem.C55_roundtrip`, `Modem.C55_stated`, `Modem.C56_roundtrip`, `Modem.C56_chain`, `Modem.C56_ofdm`, `Modem.C56_otfs`, `Modem.C56_ocdm`, `Modem.C56_dc`, `Modem.C56_initialised`, `Modem.C56_uninitialised_fails`, `Modem.C57_ofdm_partial`, `Modem.C57_dc_suppression_fails`, `Modem.C57_ocdm_fails`, `Modem.C57_otfs_fails`, `Modem.C57_second_section_fails`, `Modem.C58_duration_partial`, `Modem.C58_duration_fails`, `Modem.C59_pilot_symbols`, `Modem.C60_transmission`, `Modem.C60_link`, `Modem.C60_orthogonal`, `Modem.C60_timestamp_fails`, `Modem.EvalState.C61_settings`, `Modem.EvalState.C61_construct`, `Modem.EvalState.C61_newest`, `Modem.EvalState.C61_serialize_fails`, `Modem.EvalState.C61_restore_fails`, `Modem.EvalState.C61_restore_partial`, `Modem.C62_append_accepts`, `Modem.C62_alias_fails`, `Modem.C62_states`, `Modem.C62_stated_append_fails`, `Rf.Ad.C63_riser_levels`, `Rf.Ad.C63_tread_levels_fails`, `Rf.Ad.C63_quantizer`, `Rf.Ad.C63_agc`, `Rf.Ad.C63_rms_partial`, `Rf.Ad.C63_rms_fails`, `Rf.Ad.C63_frames`, `Rf.Ad.C63_single_frame`, `Rf.Ad.C63_converter`, `Rf.Ad.C63_frames_fails`, `Rf.Ad.C63_dac_fails`, `Rf.Ad.C63_bits`, `Rf.Amps.C64_clipping`, `Rf.Amps.C64_rapp`, `Rf.Amps.C64_saleh`, `Rf.Amps.C64_custom_partial`, `Rf.Amps.C64_custom_fails`, `Rf.Amps.C64_setters`, `Modem.C65_estimate_partial`, `Modem.C65_affine_partial`, `Modem.C65_flat_partial`, `Modem.C65_pilot_fails`, `Modem.C65_collinear_fails`, `Rf.Sig.C66_select`, `Rf.Sig.C66_select_fails`, `Rf.Sig.C66_assign`, `Rf.Sig.C66_copy_partial`, `Rf.Sig.C66_aligned`, `Rf.Sig.C66_propagate`, `Rf.Sig.C66_noise_fails`, `Rf.Sig.C66_mixer_partial`, `Rf.Sig.C66_mixer_fails`, `Rf.Sig.C66_mixer_roundtrip`, `Rf.Sig.C66_ideal_mixer_partial`, `Rf.Sig.C66_ideal_mixer_fails`, `Rf.Sig.C66_x4_partial`, `Rf.Sig.C66_x4_fails`, `Rf.Sig.C66_split_partial`, `Rf.Sig.C66_split_fails`, `Rf.Sig.C66_sum_partial`, `Rf.Sig.C66_shift`, `Rf.Sig.C66_shift_fails`, `Modem.Sources.C68_stream`, `Modem.Sources.C68_exact_partial`, `Channel.State.C69_propagate`, `Channel.State.C69_linear_partial`, `Channel.State.C69_linear_fails`, `Channel.State.C69_frequency`, `Channel.State.C69_convert_partial`, `Channel.State.C69_samples_fails`, `Channel.State.C69_padded_fails`, `Channel.State.C69_restore_fails`, `Channel.State.C69_sample_partial`, `Channel.Ideal.C71_state_partial`, `Channel.Ideal.C71_energy`, `Channel.Ideal.C71_transmitted_partial`, `Channel.Ideal.C71_transmitted_fails`, `Channel.Ideal.C71_readonly_fails`, `Channel.Delay.C72_state`, `Channel.Delay.C72_taps`, `Channel.Delay.C72_energy_fails`, `Channel.Delay.C72_loss`, `Channel.Delay.C72_baseband`, `Channel.Delay.C72_blocks_partial`, `Channel.Delay.C72_blocks_fails`, `Channel.Delay.C72_range`, `Channel.Delay.C72_setter`, `Modem.C73_prefix`, `Modem.C73_average`, `Modem.C73_ideal`, `Modem.C73_link`, `Modem.C73_channel`, `Modem.C73_unsampled`, `Modem.C73_delay_fails`, `Modem.C73_short_fails`, `Modem.C73_pilot_fails`, `Consistent.C74_layout`, `Consistent.C74_sample`, `Consistent.C74_shape`, `Consistent.C74_velocity`, `Consistent.C74_velocity_law`, `Consistent.C74_distance_fails`, `Consistent.C74_cache`, `Consistent.C74_consistent`, `Consistent.C74_static`, `Consistent.C74_exchange_fails`, `Consistent.C74_moments`, `Consistent.C74_distributions`, `Consistent.C74_uniform_fails`, `Consistent.C74_transform`, `Fading.C75_propagate`, `Fading.C75_state_partial`, `Fading.C75_taps_partial`, `Fading.C75_taps_fails`, `Fading.C75_reciprocal`, `Fading.C75_antennas_fails`, `Fading.C75_duplex_fails`, `Fading.C75_doppler_fails`, `Fading.C75_evolution_fails`, `Fading.C75_blocks_fails`, `Fading.C75_wssus`, `Fading.C75_energy`, `Fading.C75_energy_siso`, `Fading.C75_clarke`, `Fading.C75_covariance_partial`, `Fading.C75_covariance_fails`, `Fading.C75_energy_mimo`, `Fading.C76_construct`, `Fading.C76_profile`, `Fading.C76_gains`, `Fading.C76_variables`, `Fading.C76_sample`, `Fading.C76_los_angle_fails`, `Fading.C76_sinusoids_fails`, `Fading.C76_restore_partial`, `Fading.C76_restore_fails`, `Fading.C76_tdl`, `Fading.C76_tdl_restore_partial`, `Fading.C76_tdl_restore_fails`, `Fading.C76_rice_fails`, `Fading.C76_sight_fails`, `Fading.C76_rms_partial`, `Fading.C76_rms_fails`, `Fading.C76_cost`, `Fading.C76_cost_fails`, `Fading.C76_exponential`, `Fading.C76_exponential_fails`, `Fading.C76_exponential_rms_fails`, `Fading.C76_standard_covariance`, `Fading.C76_custom_covariance`, `RadarChannel.C77_propagate_partial`, `RadarChannel.C77_state_partial`, `RadarChannel.C77_agreement_partial`, `RadarChannel.C77_length_fails`, `RadarChannel.C77_interference_fails`, `RadarChannel.C77_radiating_fails`, `RadarChannel.C77_doppler_partial`, `RadarChannel.C77_doppler_fails`, `RadarChannel.C77_equation`, `RadarChannel.C77_transmission`, `RadarChannel.C77_unattenuated`, `RadarChannel.C77_reciprocal`, `RadarChannel.C77_reciprocal_sample_partial`, `RadarChannel.C77_null_partial`, `RadarChannel.C77_null_fails`, `RadarChannel.C77_energy_partial`, `RadarChannel.C77_energy_fails`, `RadarChannel.C78_construct`, `RadarChannel.C78_target_partial`, `RadarChannel.C78_absent`, `RadarChannel.C78_monostatic_partial`, `RadarChannel.C78_range_fails`, `RadarChannel.C78_restore_partial`, `RadarChannel.C78_restore_fails`, `RadarChannel.C78_realization_partial`, `RadarChannel.C78_realization_fails`, `RadarChannel.C78_members`, `RadarChannel.C78_paths_partial`, `RadarChannel.C78_collision_fails`, `RadarChannel.C78_direction_partial`, `RadarChannel.C78_direction_fails`, `Core.Ant.C79_rotation`, `Core.Ant.C79_unit_gain`, `Core.Ant.C79_dipole`, `Core.Ant.C79_dipole_pole_fails`, `Core.Ant.C79_patch_partial`, `Core.Ant.C79_plot_fails`, `Core.Ant.C79_patch_fails`, `Core.Ant.C79_linear`, `Core.Ant.C80_topology`, `Core.Ant.C80_phase`, `Core.Ant.C80_phase_unit`, `Core.Ant.C80_horizontal`, `Core.Ant.C80_far_field`, `Core.Ant.C80_sign_fails`, `Core.Ant.C80_characteristics`, `Core.Ant.C80_directions`, `Core.Ant.C80_local_point_partial`, `Core.Ant.C80_local_point_fails`, `Core.Ant.C80_response`, `Core.Ant.C81_uniform`, `Core.Ant.C81_spacing`, `Core.Ant.C81_refused`, `Core.Ant.C81_empty_dims_fails`, `Core.Ant.C81_negative_fails`, `Core.Ant.C81_restore_partial`, `Core.Ant.C81_restore_fails`, `Core.Ant.C81_transmit_partial`, `Core.Ant.C81_dipole_fails`, `Core.Ant.C81_state_partial`, `Core.Ant.C81_state_fails`, `Core.Ant.C81_subarrays`, `Core.Ant.C81_shared_fails`, `Core.Ant.C81_modes`, `Beam.C82_focus`, `Beam.C82_point_fails`, `Beam.C82_receive`, `Beam.C82_gain`, `Beam.C82_streams`, `Beam.C82_local_partial`, `Beam.C82_turned_fails`, `Beam.C82_global_fails`, `Beam.C82_transmit`, `Beam.C82_counts`, `Beam.C82_probe_fails`, `Beam.C82_restore_fails`, `Beam.C83_capon`, `Beam.C83_loading`, `Beam.C83_singular_fails`, `Beam.C83_nulls_partial`, `Beam.C83_mirror_fails`, `Beam.C83_focus_fails`, `Beam.C83_default_fails`, `Beam.C83_modes_fails`, `SimDev.C84_realization`, `SimDev.C84_static`, `SimDev.C84_samples`, `SimDev.C84_time`, `SimDev.C84_random`, `SimDev.C84_random_rates`, `SimDev.C84_normal_partial`, `SimDev.C84_normal_fails`, `SimDev.C84_order_fails`, `SimDev.C84_offset_partial`, `SimDev.C84_offset_rate`, `SimDev.C84_offset_fails`, `SimDev.C84_members_partial`, `SimDev.C84_remove_fails`, `SimDev.C85_specific_partial`, `SimDev.C85_specific_power`, `SimDev.C85_specific_history`, `SimDev.C85_specific_unset_fails`, `SimDev.C85_specific_offset_fails`, `SimDev.C85_specific_errors`, `SimDev.C85_specific_scalar`, `SimDev.C85_perfect`, `SimDev.C85_selective_partial`, `SimDev.C85_selective_flat`, `SimDev.C85_selective_empty_fails`, `SimDev.C85_selective_shape_fails`, `SimDev.C85_normal_fails`, `SimDev.C86_transmit_uncoupled_fails`, `SimDev.C86_transmit_default_fails`, `SimDev.C86_transmit_partial`, `SimDev.C86_transmit_single`, `SimDev.C86_transmit_root_fails`, `SimDev.C86_receive_default`, `SimDev.C86_receive_single`, `SimDev.C86_receive_impedance_fails`, `SimDev.C86_couple`, `SimDev.C86_perfect`, `SimDev.C86_storage_fails`, `SimDev.C87_separated_partial`, `SimDev.C87_superimposed_partial`, `SimDev.C87_count`, `SimDev.C87_invalid`, `SimDev.C87_rebuilt_fails`, `SimDev.C87_transmit_fails`, `SimDev.C87_leakage_power_fails`, `SimDev.C87_ports_fails`, `SimDev.C87_missing_fails`, `SimDev.C87_delay_fails`, `SimDev.C88_mixed`, `SimDev.C88_reception_partial`, `SimDev.C88_leakage_partial`, `SimDev.C88_receivers`, `SimDev.C88_ports`, `SimDev.C88_output_partial`, `SimDev.C88_again_partial`, `SimDev.C88_contiguous`, `SimDev.C88_gap_fails`, `SimDev.C88_separation_fails`, `SimDev.C88_leakage_fails`, `SimDev.C88_late_fails`, `SimDev.C88_early_fails`, `SimDev.C88_again_fails`, `SimDev.C88_trim_partial`, `ChirpFsk.C89_bits`, `ChirpFsk.C89_frame`, `ChirpFsk.C89_energy`, `ChirpFsk.C89_symbols_partial`, `ChirpFsk.C89_derived_partial`, `ChirpFsk.C89_range`, `ChirpFsk.C89_duration_partial`, `ChirpFsk.C89_duration_fails`, `ChirpFsk.C89_short_fails`, `ChirpFsk.C89_three_fails`, `ChirpFsk.C89_alias_fails`, `ChirpFsk.C89_guard_fails`, `ChirpFsk.C89_zero_fails`, `CorrSync.C90_range`, `CorrSync.C90_sorted`, `CorrSync.C90_apart_partial`, `CorrSync.C90_silence`, `CorrSync.C90_exact_partial`, `CorrSync.C90_parameters_fails`, `CorrSync.C90_short_fails`, `CorrSync.C90_duplicate_fails`, `CorrSync.C90_configuration`, `SingleCarrier.C91_layout`, `SingleCarrier.C91_place`, `SingleCarrier.C91_pick`, `SingleCarrier.C91_roundtrip`, `SingleCarrier.C91_refuses_partial`, `SingleCarrier.C91_single_fails`, `SingleCarrier.C91_insufficient`, `SingleCarrier.C91_configuration`, `SingleCarrier.C91_estimate`, `SingleCarrier.C91_no_references`, `SingleCarrier.C91_flat`, `SingleCarrier.C91_drift`, `SingleCarrier.C91_mmse`, `SingleCarrier.C92_transfer`, `SingleCarrier.C92_rectangular`, `SingleCarrier.C92_chirps`, `SingleCarrier.C92_link`, `SingleCarrier.C92_rolled_off_partial`, `SingleCarrier.C92_odd_fails`, `SingleCarrier.C92_interference_fails`, `SingleCarrier.C92_samples`, `SingleCarrier.C92_duration_partial`, `SingleCarrier.C92_duration_fails`, `SingleCarrier.C92_energy_partial`, `SingleCarrier.C92_energy_fails`, `SingleCarrier.C92_pilot_partial`, `SingleCarrier.C92_pilot_fails`, `SingleCarrier.C92_empty_fails`, `SingleCarrier.C92_refuses_partial`, `SingleCarrier.C92_raised_cosine`, `SingleCarrier.C92_root_raised_cosine`, `FmcwRadar.C93_configuration`, `FmcwRadar.C93_ping`, `FmcwRadar.C93_energy`, `FmcwRadar.C93_samples_partial`, `FmcwRadar.C93_samples_fails`, `FmcwRadar.C93_target_partial`, `FmcwRadar.C93_range_fails`, `FmcwRadar.C93_max_range_fails`, `FmcwRadar.C93_fast_fails`, `FmcwRadar.C93_stationary_partial`, `FmcwRadar.C93_odd_fails`, `FmcwRadar.C93_velocity_fails`, `FmcwRadar.C93_short_fails`, `FmcwRadar.C93_store`, `RadarOperator.C94_cube_partial`, `RadarOperator.C94_memory_fails`, `RadarOperator.C94_refused`, `RadarOperator.C94_resolution_fails`, `RadarOperator.C94_detection_partial`, `RadarOperator.C94_store_partial`, `RadarOperator.C94_store_fails`, `MatchedFilter.C95_configuration`, `MatchedFilter.C95_target_partial`, `MatchedFilter.C95_min_range_fails`, `MatchedFilter.C95_velocities_partial`, `MatchedFilter.C95_velocities_fails`, `MatchedFilter.C95_angles_fails`, `MatchedFilter.C95_single_fails`, `MatchedFilter.C95_store_partial`, `MatchedFilter.C95_store_fails`, `MatchedFilter.C95_prediction`, `OfdmRadar.C96_cube_partial`, `OfdmRadar.C96_ranges_partial`, `OfdmRadar.C96_target_partial`, `OfdmRadar.C96_refused`, `OfdmRadar.C96_doppler_bins`, `OfdmRadar.C96_doppler_fails`, `OfdmRadar.C96_min_range_fails`, `OfdmRadar.C96_frames_fails`, `OfdmRadar.C96_dc_fails`, `OfdmRadar.C96_occupied_partial`, `OfdmRadar.C96_memory_fails`, `OfdmRadar.C96_store_partial`, `OfdmRadar.C96_store_fails`, `RadarRoc.C97_curve`, `RadarRoc.C97_outside`, `RadarRoc.C97_monotone`, `RadarRoc.C97_separated`, `RadarRoc.C97_order`, `RadarRoc.C97_thresholds_fails`, `RadarRoc.C97_plot_fails`, `RadarRoc.C97_scenarios_partial`, `RadarRoc.C97_refused`, `RadarRoc.C97_first_fails`, `RadarRoc.C97_replay_fails`, `RadarRoc.C97_file_partial`, `RadarError.C98_latest`, `RadarError.C98_refused`, `RadarError.C98_rmse`, `RadarError.C98_single_partial`, `RadarError.C98_several_fails`, `RadarError.C98_pose_fails`, `RadarError.C98_offset_fails`, `RadarError.C98_missed`, `RadarError.C98_detection`, `RadarError.C98_store_partial`, `RadarError.C98_store_fails`, `Noise.C99_white`, `Noise.C99_reception`, `Noise.C99_transmission`, `Noise.C99_history`, `Noise.C99_shared_fails`, `Noise.C99_transmit_fails`, `Noise.C99_assigned_partial`, `Noise.C99_snr_partial`, `Noise.C99_leftover_fails`, `Noise.C99_n0_fails`, `Noise.C99_valid`, `Noise.C99_decision`, `Noise.C99_ratio_partial`, `Noise.C99_oversampling_fails`, `Noise.C99_store_partial`, `Noise.C99_store_fails`, `NoiseSeed.C100_default_fails`, `NoiseSeed.C100_repeat_fails`, `NoiseSeed.C100_assigned_partial`, `NoiseSeed.C100_scenario_partial`, `PhaseNoise.C101_flicker`, `PhaseNoise.C101_coefficients`, `PhaseNoise.C101_magnitude`, `PhaseNoise.C101_phases`, `PhaseNoise.C101_mixers`, `PhaseNoise.C101_shared`, `PhaseNoise.C101_spectrum`, `PhaseNoise.C101_psd`, `PhaseNoise.C101_psd_fails`, `PhaseNoise.C101_levels`, `PhaseNoise.C101_store_partial`, `PhaseNoise.C101_store_fails`, `Power.C102_power`, `Power.C102_sparse_partial`, `Power.C102_two_fails`, `Power.C102_sparse_fails`, `Power.C102_silent_fails`, `Power.C102_latest`, `Power.C102_leakage`, `Power.C102_unset_fails`, `Power.C102_isolated_fails`, `Power.C102_papr`, `Power.C102_papr_bounds`, `Power.C102_papr_scale`, `Power.C102_papr_silent_fails`, `Power.C102_papr_first_fails`, `Power.C102_papr_latest`, `Power.C102_ssinr_partial`, `Power.C102_ssinr_fails`, `Power.C102_scalar_fails`, `Power.C102_settings`, `Power.C102_settings_fails`, `Extract.C103_samples_partial`, `Extract.C103_sparse_fails`, `Extract.C103_confidence`, `Extract.C103_latest`, `Sidelobe.C104_bounds`, `Sidelobe.C104_levels`, `Sidelobe.C104_focus`, `Sidelobe.C104_receive_fails`, `Sidelobe.C104_scale`, `Sidelobe.C104_silent_fails`, `Sidelobe.C104_artifact`, `Sidelobe.C104_codebook`, `Sidelobe.C104_broadside_partial`, `Sidelobe.C104_broadside_fails`, `Sidelobe.C104_half_fails`, `Sidelobe.C104_mode_fails`, `Sidelobe.C104_latest`, `Ramp.C105_create`, `Ramp.C105_frame`, `Ramp.C105_interval_partial`, `Ramp.C105_interval_fails`, `Ramp.C105_short_fails`, `Ramp.C105_falling_fails`, `Ramp.C105_flat_fails`, `Ramp.C105_waveform_partial`, `Ramp.C105_cache`, `Ramp.C105_restore_partial`, `Ramp.C105_restore_fails`, `Xwr.C106_target_partial`, `Xwr.C106_range_partial`, `Xwr.C106_range_fails`, `Xwr.C106_resolution_fails`, `Xwr.C106_slow_fails`, `Xwr.C106_velocity_partial`, `Xwr.C106_odd_fails`, `Xwr.C106_frame_partial`, `Xwr.C106_frame_fails`, `Xwr.C106_energy_partial`, `Xwr.C106_energy_fails`, `Xwr.C106_long_fails`, `Animation.C107_create`, `Animation.C107_linear`, `Animation.C107_linear_velocity`, `Animation.C107_linear_pose`, `Animation.C107_max_partial`, `Animation.C107_lookat_partial`, `Animation.C107_history`, `Animation.C107_switch`, `Animation.C107_mutual`, `Animation.C107_static_lookat_fails`, `Animation.C107_static_velocity_fails`, `Animation.C107_max_fails`, `Animation.C107_restore_partial`, `Animation.C107_restore_fails`, `Animation.C107_alias_fails`, `Animation.C107_letter_partial`, `Animation.C107_letter_fails`, `Animation.C107_letter_jump_fails`, `HwSlots.C108_consistent`, `HwSlots.C108_total`, `HwSlots.C108_assign`, `HwSlots.C108_attach_partial`, `HwSlots.C108_attach_fails`, `HwSlots.C108_others_partial`, `HwSlots.C108_detach`, `HwSlots.C108_replaced_fails`, `HwDelay.C109_receive_partial`, `HwDelay.C109_receive_none`, `HwDelay.C109_receive_short_fails`, `HwDelay.C109_transmit`, `HwDelay.C109_late`, `HwDelay.C109_early`, `HwDelay.C109_estimate_partial`, `HwDelay.C109_estimate_sign_fails`, `HwDelay.C109_estimate_max_fails`, `HwDelay.C109_estimate_ports_fails`, `HwDelay.C109_estimate_errors`, `HwDelay.C109_restricted_fails`, `HwDelay.C109_receive_ports`, `HwLeakage.C110_remove_partial`, `HwLeakage.C110_streams_fails`, `HwLeakage.C110_early_fails`, `HwLeakage.C110_after_fails`, `HwLeakage.C110_mismatch`, `HwLeakage.C110_silent`, `HwLeakage.C110_new`, `HwLeakage.C110_restore_partial`, `HwLeakage.C110_restore_fails`, `HwLeakage.C110_predict_partial`, `HwLeakage.C110_predict_delay_fails`, `HwLeakage.C110_predict_ports_fails`, `HwLeakage.C110_estimate_partial`, `HwLeakage.C110_estimate_errors`, `HwLeakage.C110_estimate_delay_fails`, `HwLeakage.C110_filter_fails`, `HwLeakage.C110_cancel_partial`, `HwLeakage.C110_delay_fails`, `HwDevice.C111_settings`, `HwDevice.C111_restore_partial`, `HwDevice.C111_flags_fails`, `HwDevice.C111_direct_mismatch`, `HwDevice.C111_direct_partial`, `HwDevice.C111_repeat_fails`, `HwDevice.C111_leakage_partial`, `HwDevice.C111_leakage_fails`, `HwDevice.C111_lowpass_partial`, `HwDevice.C111_receive_fails`, `HwDevice.C111_adaptive`, `HwDevice.C111_rate_fails`, `HwDevice.C111_noise_partial`, `HwDevice.C111_variance_fails`, `HwDevice.C111_stale_fails`, `HwDevice.C111_dummy_partial`, `HwDevice.C111_dummy_fails`, `HwDevice.C111_scenario_partial`, `HwDevice.C111_scenario_fails`, `HwUsrp.C112_ports_partial`, `HwUsrp.C112_scale`, `HwUsrp.C112_delays`, `HwUsrp.C112_loop_partial`, `HwUsrp.C112_collect_fails`, `HwUsrp.C112_twice_fails`, `HwUsrp.C112_inplace_fails`, `HwUsrp.C112_system_fails`, `HwAntenna.C113_transmit_partial`, `HwAntenna.C113_receive_partial`, `HwAntenna.C113_reference_fails`, `HwAntenna.C113_again_fails`, `HwAntenna.C113_silent`, `HwAntenna.C113_managed`, `HwAntenna.C113_carrier_fails`, `HwAntenna.C113_rate_fails`, `HwAntenna.C113_correct`, `HwAudio.C114_loopback_partial`, `HwAudio.C114_edge_fails`, `HwAudio.C114_delay_fails`, `HwAudio.C114_ports_fails`, `HwAudio.C114_carrier_fails`, `HwAudio.C114_storage_partial`, `HwAudio.C114_storage_fails`, `HwLoop.C115_schedule`, `HwLoop.C115_order`, `HwLoop.C115_isolated`, `HwLoop.C115_aligned`, `HwLoop.C115_parameters`, `HwLoop.C115_dimension_partial`, `HwLoop.C115_dimension_fails`, `GridDim.C116_index`, `GridDim.C116_wrapped_fails`, `GridDim.C116_unnamed`, `HwPlots.C117_deadlock`, `HwPlots.C117_exclusive`, `HwPlots.C117_order`, `HwPlots.C117_last_partial`, `HwPlots.C117_none_fails`, `Cdl.C118_propagate_partial`, `Cdl.C118_state`, `Cdl.C118_taps`, `Cdl.C118_taps_fails`, `Cdl.C118_interpolation_fails`, `Cdl.C118_rays_partial`, `Cdl.C118_rays_fails`, `Cdl.C118_energy_fails`, `Cdl.C118_energy_sight_fails`, `Cdl.C118_horizontal_fails`, `Cdl.C118_crosstalk_fails`, `Cdl.C118_doppler_partial`, `Cdl.C118_doppler_fails`, `Cdl.C118_doppler_transmitter_fails`, `Cdl.C118_reciprocal_partial`, `Cdl.C118_reciprocal_fails`, `Cdl.C118_direction_fails`, `Cdl.C118_spread`, `CdlDraw.C119_large_scale`, `CdlDraw.C119_delays_partial`, `CdlDraw.C119_delays_fails`, `CdlDraw.C119_powers_partial`, `CdlDraw.C119_cutoff_fails`, `CdlDraw.C119_sight_share_fails`, `CdlDraw.C119_pairing_partial`, `CdlDraw.C119_pairing_fails`, `CdlDraw.C119_sight_partial`, `CdlDraw.C119_frame_fails`, `CdlDraw.C119_independent_fails`, `CdlDraw.C119_oxygen_fails`, `CdlDraw.C119_gain_fails`, `CdlDraw.C119_shadow_fails`, `CdlDraw.C119_sample_partial`, `CdlDraw.C119_position`, `CdlDraw.C119_polarization`, `CdlDraw.C119_reciprocal_partial`, `CdlDraw.C119_orientation_fails`, `CdlDraw.C119_scaling`, `CdlDraw.C119_rice_scale`, `CdlDraw.C119_scaling_sight`, `CdlScenario.C120_correlations`, `CdlScenario.C120_blocked`, `CdlScenario.C120_distance_partial`, `CdlScenario.C120_break`, `CdlScenario.C120_break_fails`, `CdlScenario.C120_rural_fails`, `CdlScenario.C120_rural_partial`, `CdlScenario.C120_indoor_fails`, `CdlScenario.C120_near`, `CdlScenario.C120_far`, `CdlScenario.C120_closer_partial`, `CdlScenario.C120_open_fails`, `CdlScenario.C120_height_fails`, `CdlScenario.C120_sight_partial`, `CdlScenario.C120_dense`, `CdlScenario.C120_clutter_fails`, `CdlScenario.C120_hall`, `CdlScenario.C120_rural_offset_fails`, `CdlScenario.C120_micro_offset_fails`, `CdlScenario.C120_offset`, `CdlScenario.C120_sample`, `CdlScenario.C120_clusters_partial`, `CdlScenario.C120_clusters_fails`, `CdlScenario.C120_deviations`, `CdlScenario.C120_open_jump`, `CdlStatic.C121_sample`, `CdlStatic.C121_angles`, `CdlStatic.C121_spread_partial`, `CdlStatic.C121_spread_fails`, `CdlStatic.C121_gain_fails`, `CdlStatic.C121_sight`, `CdlStatic.C121_factor_fails`, `CdlStatic.C121_polarization_fails`, `CdlStatic.C121_create`, `CdlStatic.C121_storage_partial`, `CdlStatic.C121_seed_fails`, `CdlStatic.C121_reciprocal_partial`, `Schema.C122_restored`, `Schema.C122_kept_partial`, `Schema.C122_lost_fails`, `Schema.C122_class_fails`, `Schema.C122_angle_partial`, `Schema.C122_null_fails`, `Schema.C122_array_partial`, `Schema.C122_dimensions_fails`, `Schema.C122_complex_fails`, `Schema.C122_raise_fails`, `Schema.C122_inhabited`, `Present.C123_curves_partial`, `Present.C123_sections_partial`, `Present.C123_curves_fails`, `Present.C123_raises_fails`, `Present.C123_labels_fails`, `Present.C123_surface_partial`, `Present.C123_surface_fails`, `Present.C123_saved_partial`, `Present.C123_time_fails`, `Present.C123_pages`, `Present.C123_base`, `Present.C123_legend`, `Present.C123_surface_points`, `Present.C123_surface_raises_fails`, `Nr.C124_cells_partial`, `Nr.C124_symbols_partial`, `Nr.C124_chain_partial`, `Nr.C124_duration_partial`, `Nr.C124_duration_fails`, `Nr.C124_centre_fails`, `Nr.C124_broadcast_fails`, `Nr.C124_once_fails`, `Nr.C124_refuses`, `Nr.C124_few_fails`, `Nr.C124_numerology_fails`, `Iq.C125_split`, `Iq.C125_split_refuses`, `Iq.C125_odd_fails`, `Iq.C125_magnitude`, `Iq.C125_recover_partial`, `Iq.C125_recover_fails`, `Iq.C125_zero_fails`, `Iq.C125_distinct_fails`, `Iq.C125_joint_fails`, `Exe.C126_exclusive`, `Exe.C126_fresh`, `Exe.C126_dangling_fails`, `Exe.C126_overwrite_fails`, `Exe.C126_successive`, `Exe.C126_style_fails`, `Exe.C126_verbosity`, `SchmidlCox.C127_range`, `SchmidlCox.C127_end_fails`, `SchmidlCox.C127_silence`, `SchmidlCox.C127_carrier_offset`, `SchmidlCox.C127_exact_partial`, `SchmidlCox.C127_alone_partial`, `SchmidlCox.C127_halves`, `SchmidlCox.C127_ofdm_partial`, `SchmidlCox.C127_uniform_fails`, `SchmidlCox.C127_dc_fails`, `Carrier.C128_total`, `Carrier.C128_same`, `Carrier.C128_apart`, `Carrier.C128_linear`, `Carrier.C128_tone_partial`, `Carrier.C128_cancel_fails`, `Carrier.C128_block_partial`, `Carrier.C128_block_fails`, `Carrier.C128_order`, `Carrier.C128_empty_fails`, `Seeds.C129_seeds`, `Seeds.C129_reproducible_partial`, `Seeds.C129_schedule_fails`, `Seeds.C129_duplicates_fails`, `Seeds.C129_bits_fails`, `Seeds.C129_noise_fails`, `RayTraced.C130_propagate_partial`, `RayTraced.C130_state_partial`, `RayTraced.C130_antennas_fails`, `RayTraced.C130_taps_fails`, `RayTraced.C130_cancel_fails`, `RayTraced.C130_gain`, `RayTraced.C130_energy_fails`, `RayTraced.C130_coherent_fails`, `RayTraced.C130_padding_fails`, `RayTraced.C130_padding_partial`, `RayTraced.C130_rate_fails`, `RayTraced.C130_static`, `RayTraced.C130_motion_fails`, `RayTraced.C130_places_fails`, `RayTraced.C130_frequency_fails`, `RayTraced.C130_reciprocal_partial`, `RayTraced.C130_reciprocal_fails`, `RayTraced.C130_streams_partial`, `Pattern.C131_power`, `Pattern.C131_default`, `Pattern.C131_mounting`, `Pattern.C131_focus`, `Pattern.C131_matched`, `Pattern.C131_refused`, `Pattern.C131_element_fails`, `Pattern.C131_receive_fails`, `Pattern.C131_dipole_fails`, `Pattern.C131_turned_fails`, `Pattern.C131_slice_partial`, `Pattern.C131_slice_fails`, `Pattern.C131_slice_nan_fails`, `Pattern.C131_common`, `Static.C132_state_partial`, `Static.C132_selection_fails`, `Static.C132_basic_partial`, `Static.C132_basic_fails`, `Static.C132_mixing_fails`, `Static.C132_silent`, `Static.C132_silent_frame_fails`, `Static.C132_frame`, `Static.C132_signal_partial`, `Static.C132_rate_fails`, `Static.C132_streams_fails`, `Static.C132_duration_partial`, `Static.C132_duration_fails`, `Static.C132_setter_fails`, `Static.C132_carrier_fails`, `Static.C132_silence_neutral`, `Static.C132_history`, `Static.C132_receive`, `Static.C132_receiver`, `Static.C132_receiver_duration_fails`, `Static.C132_power`, `Resample.C133_refused`, `Resample.C133_same`, `Resample.C133_grid_partial`, `Resample.C133_upsample_partial`, `Resample.C133_linear`, `Resample.C133_duration`, `Resample.C133_shape`, `Resample.C133_constant_fails`, `Resample.C133_filter_fails`, `Resample.C133_short_fails`, `Resample.C133_short_up_fails`, `Resample.C133_streams_fails`, `Resample.C133_empty_fails`, `Resample.C133_sparse_partial`, `Resample.C133_sparse_fails`, `Resample.C133_overlap_fails`, `Resample.C133_offset`, `Resample.C133_delay`, `Resample.C133_delay_length`, `Resample.C133_decimate_partial`, `Resample.C133_delay_wanted`, `Keys.C134_selection_partial`, `Keys.C134_shape_partial`, `Keys.C134_growth_fails`, `Measured.C135_polynomial`, `Measured.C135_cross`, `Measured.C135_best_polynomial`, `Measured.C135_best_cross`, `Measured.C135_recovery`, `Measured.C135_modulus_fails`, `Measured.C135_time_fails`, `Measured.C135_signal_fails`, `SingleIdeal.C136_estimate`, `SingleIdeal.C136_average_partial`, `SingleIdeal.C136_static_partial`, `SingleIdeal.C136_first_fails`, `SingleIdeal.C136_change_fails`, `SingleIdeal.C136_chirps_fails`, `SingleIdeal.C136_paths_partial`, `SingleIdeal.C136_late_fails`, `SingleIdeal.C136_delay_fails`, `SingleIdeal.C136_errors`, `Quadriga.C137_propagate_partial`, `Quadriga.C137_state_partial`, `Quadriga.C137_antennas_fails`, `Quadriga.C137_rows_fails`, `Quadriga.C137_state_fails`, `Quadriga.C137_taps_fails`, `Quadriga.C137_silence_fails`, `Quadriga.C137_reception_partial`, `Quadriga.C137_phase_fails`, `Direct.C138_trigger`, `Direct.C138_errors`, `Direct.C138_device`, `Direct.C138_agree_fails`, `Direct.C138_realization`, `Rf.Filters.C139_recurrence`, `Rf.Filters.C139_linear`, `Rf.Filters.C139_constant`, `Rf.Filters.C139_shape_partial`, `Rf.Filters.C139_short_fails`, `Rf.Filters.C139_carrier_fails`, `Rf.Filters.C139_cutoff_fails`, `Rf.Filters.C139_configuration`, `Rf.Filters.C139_realize_partial`, `Rf.Filters.C139_shared_fails`, `Rf.Filters.C139_ramps`, `SparseAppend.C140_streams_partial`, `SparseAppend.C140_dense`, `SparseAppend.C140_longer_fails`, `SparseAppend.C140_shorter_fails`, `SparseAppend.C140_rate_fails`, `SparseAppend.C140_samples_partial`, `SparseAppend.C140_history`, `SparseAppend.C140_empty_fails`, `Tile.C141_ends`, `Tile.C141_aspect`, `Tile.C141_tight`, `Tile.C141_inside_partial`, `Tile.C141_disjoint`, `Tile.C141_offset_fails`, `Tile.C141_refused`, `Tile.C141_screen`, `Tile.C141_backends`, `BeamStreams.C142_dense`, `BeamStreams.C142_single_partial`, `BeamStreams.C142_single_fails`, `BeamStreams.C142_blocks_fails`, `BeamStreams.C142_refused`, `BeamStreams.C142_silence_fails`, `BeamStreams.C142_transmit_partial`, `BeamStreams.C142_receive_partial`, `BeamStreams.C142_capon_partial`, `BeamStreams.C142_selected_fails`, `BeamStreams.C142_ports_fails`, `BeamStreams.C142_rate`, `HwLeakageMmse.C143_estimator`, `HwLeakageMmse.C143_optimal`, `HwLeakageMmse.C143_response`, `HwLeakageMmse.C143_noiseless`, `HwLeakageMmse.C143_exact_partial`, `HwLeakageMmse.C143_bias_fails`, `HwLeakageMmse.C143_errors`, `HwLeakageMmse.C143_ports_fails`, `HwLeakageMmse.C143_measured`, `HwLeakageMmse.C143_remembered`, `HwCalibrationFiles.C144_device_partial`, `HwCalibrationFiles.C144_ports_fails`, `HwCalibrationFiles.C144_again_fails`, `HwCalibrationFiles.C144_mixed_fails`, `HwCalibrationFiles.C144_single_partial`, `SignalCreate.C145_blocks`, `SignalCreate.C145_single_partial`, `SignalCreate.C145_twice_fails`, `SignalCreate.C145_silence_fails`, `SignalCreate.C145_offsets_fails`, `SignalCreate.C145_plain_fails`, `SignalCreate.C145_streams_fails`, `SignalCreate.C145_late_fails`, `SignalCreate.C145_overlap_fails`, `SignalCreate.C145_order_fails`, `SignalCreate.C145_validator`, `SignalCreate.C145_mixed_fails`, `SignalCreate.C145_validator_offsets`, `SignalCreate.C145_validator_plain`
<!-- end axioms -->
