import Verif.Io.Schema

/-!
# Fields stored and restored by the classes of `hermespy`: core, coding and hardware (C122)

One description per concrete class: the parameters of its constructor, the calls of its `serialize`
and the arguments its `Deserialize` hands to the constructor, the methods inherited from base classes
included.  `true` and `false` after the kind of a parameter say whether its attribute may be `None` and
whether it has no default; after the attribute of a write, whether a test for `None` guards it.
Attributes whose name differs from the parameter they hold are listed under the parameter.  References
back to the owner of an object (`waveform`, `device`, `modem`), which the owner sets, are left out.
-/

namespace Verif.Schema.Py

/-- `IdealAntenna`: `core/antennas.py` 375-377, 380-385, 415-430, 438-439, 442-444. -/
def idealAntenna : ClassDesc where
  name := "IdealAntenna"
  params :=
    [⟨"mode", .int, false, false⟩, ⟨"pose", .flts, false, false⟩]
  writes :=
    [⟨"mode", .int, "mode", false, .int⟩, ⟨"pose", .flts, "pose", false, .flts⟩]
  reads :=
    [.field "mode" .int "mode" .required, .field "pose" .flts "pose" .required]

/-- `LinearAntenna`: `core/antennas.py` 375-377, 380-385, 465-494, 512-514, 517-520. -/
def linearAntenna : ClassDesc where
  name := "LinearAntenna"
  params :=
    [⟨"mode", .int, false, false⟩, ⟨"slant", .flt, false, false⟩, ⟨"pose", .flts, false, false⟩]
  writes :=
    [⟨"mode", .int, "mode", false, .int⟩, ⟨"pose", .flts, "pose", false, .flts⟩,
     ⟨"slant", .flt, "slant", false, .flt⟩]
  reads :=
    [.field "mode" .int "mode" .required, .field "pose" .flts "pose" .required,
     .field "slant" .flt "slant" .required]

/-- `PatchAntenna`: `core/antennas.py` 375-377, 380-385, 536-551, 562-563, 566-568. -/
def patchAntenna : ClassDesc where
  name := "PatchAntenna"
  params :=
    [⟨"mode", .int, false, false⟩, ⟨"pose", .flts, false, false⟩]
  writes :=
    [⟨"mode", .int, "mode", false, .int⟩, ⟨"pose", .flts, "pose", false, .flts⟩]
  reads :=
    [.field "mode" .int "mode" .required, .field "pose" .flts "pose" .required]

/-- `Dipole`: `core/antennas.py` 375-377, 380-385, 590-605, 616-617, 620-622. -/
def dipole : ClassDesc where
  name := "Dipole"
  params :=
    [⟨"mode", .int, false, false⟩, ⟨"pose", .flts, false, false⟩]
  writes :=
    [⟨"mode", .int, "mode", false, .int⟩, ⟨"pose", .flts, "pose", false, .flts⟩]
  reads :=
    [.field "mode" .int "mode" .required, .field "pose" .flts "pose" .required]

/-- `CustomAntennaArray`: `core/antennas.py` 1432-1455, 1475-1477, 1481-1485. -/
def customAntennaArray : ClassDesc where
  name := "CustomAntennaArray"
  params :=
    [⟨"antennas", .seq, false, false⟩, ⟨"pose", .flts, false, false⟩]
  writes :=
    [⟨"antennas", .seq, "antennas", false, .seq⟩, ⟨"pose", .flts, "pose", false, .flts⟩]
  reads :=
    [.field "antennas" .seq "antennas" .empty, .field "pose" .flts "pose" .required]

/-- `ChannelStateInformation`: `core/channel.py` 76-105, 541-543, 546-551. -/
def channelStateInformation : ClassDesc where
  name := "ChannelStateInformation"
  params :=
    [⟨"state_format", .int, false, true⟩, ⟨"state", .cpxs, false, false⟩,
     ⟨"num_delay_taps", .int, true, false⟩, ⟨"num_frequency_bins", .int, true, false⟩]
  writes :=
    [⟨"state_format", .int, "state_format", false, .int⟩, ⟨"state", .cpxs, "state", false, .cpxs⟩]
  reads :=
    [.field "state_format" .int "state_format" .required, .field "state" .cpxs "state" .required]

/-- `DSPResult`: `core/device.py` 165-173, 175-176, 179-181. -/
def dspResult : ClassDesc where
  name := "DSPResult"
  params :=
    [⟨"signal", .obj, false, true⟩]
  writes :=
    [⟨"signal", .obj, "signal", false, .obj⟩]
  reads :=
    [.field "signal" .obj "signal" .required]

/-- `Transmission`: `core/device.py` 165-173, 175-176, 179-181. -/
def transmission : ClassDesc where
  name := "Transmission"
  params :=
    [⟨"signal", .obj, false, true⟩]
  writes :=
    [⟨"signal", .obj, "signal", false, .obj⟩]
  reads :=
    [.field "signal" .obj "signal" .required]

/-- `Reception`: `core/device.py` 165-173, 175-176, 179-181. -/
def reception : ClassDesc where
  name := "Reception"
  params :=
    [⟨"signal", .obj, false, true⟩]
  writes :=
    [⟨"signal", .obj, "signal", false, .obj⟩]
  reads :=
    [.field "signal" .obj "signal" .required]

/-- `DeviceOutput`: `core/device.py` 201-208, 265-266, 269-271. -/
def deviceOutput : ClassDesc where
  name := "DeviceOutput"
  params :=
    [⟨"mixed_signal", .obj, false, true⟩]
  writes :=
    [⟨"mixed_signal", .obj, "mixed_signal", false, .obj⟩]
  reads :=
    [.field "mixed_signal" .obj "mixed_signal" .required]

/-- `DeviceTransmission`: `core/device.py` 265-272, 283-296, 299-313, 328-347. -/
def deviceTransmission : ClassDesc where
  name := "DeviceTransmission"
  params :=
    [⟨"dsp_transmissions", .seq, false, true⟩, ⟨"mixed_signal", .obj, false, true⟩]
  writes :=
    [⟨"mixed_signal", .obj, "mixed_signal", false, .obj⟩,
     ⟨"dsp_transmissions", .seq, "dsp_transmissions", false, .seq⟩]
  reads :=
    [.field "mixed_signal" .obj "mixed_signal" .required,
     .field "dsp_transmissions" .seq "dsp_transmissions" .empty]

/-- `DeviceInput`: `core/device.py` 355-365, 385-386, 389-391. -/
def deviceInput : ClassDesc where
  name := "DeviceInput"
  params :=
    [⟨"impinging_signals", .seq, false, true⟩]
  writes :=
    [⟨"impinging_signals", .seq, "impinging_signals", false, .seq⟩]
  reads :=
    [.field "impinging_signals" .seq "impinging_signals" .empty]

/-- `ProcessedDeviceInput`: `core/device.py` 385-386, 399-421, 436-438, 441-446. -/
def processedDeviceInput : ClassDesc where
  name := "ProcessedDeviceInput"
  params :=
    [⟨"impinging_signals", .seq, false, true⟩, ⟨"operator_inputs", .seq, false, true⟩]
  writes :=
    [⟨"impinging_signals", .seq, "impinging_signals", false, .seq⟩,
     ⟨"operator_inputs", .seq, "operator_inputs", false, .seq⟩]
  reads :=
    [.field "impinging_signals" .seq "impinging_signals" .empty,
     .field "operator_inputs" .seq "operator_inputs" .empty]

/-- `DeviceReception`: `core/device.py` 385-391, 436-447, 458-510, 525-535. -/
def deviceReception : ClassDesc where
  name := "DeviceReception"
  params :=
    [⟨"impinging_signals", .seq, false, true⟩, ⟨"operator_inputs", .seq, false, true⟩,
     ⟨"operator_receptions", .seq, false, true⟩]
  writes :=
    [⟨"impinging_signals", .seq, "impinging_signals", false, .seq⟩,
     ⟨"operator_inputs", .seq, "operator_inputs", false, .seq⟩,
     ⟨"dsp_receptions", .seq, "operator_receptions", false, .seq⟩]
  reads :=
    [.field "impinging_signals" .seq "impinging_signals" .empty,
     .field "operator_inputs" .seq "operator_inputs" .empty,
     .field "dsp_receptions" .seq "operator_receptions" .empty]

/-- `MixingOperator`: `core/device.py` 543-555, 583-585, 588-590, 594-596. -/
def mixingOperator : ClassDesc where
  name := "MixingOperator"
  params :=
    [⟨"carrier_frequency", .flt, true, false⟩]
  writes :=
    [⟨"carrier_frequency", .flt, "carrier_frequency", true, .flt⟩]
  reads :=
    [.field "carrier_frequency" .flt "carrier_frequency" .null]

/-- `Drop`: `core/drop.py` 30-51, 92-95, 98-104. -/
def drop : ClassDesc where
  name := "Drop"
  params :=
    [⟨"timestamp", .flt, false, true⟩, ⟨"device_transmissions", .seq, false, true⟩,
     ⟨"device_receptions", .seq, false, true⟩]
  writes :=
    [⟨"timestamp", .flt, "timestamp", false, .flt⟩,
     ⟨"transmissions", .seq, "device_transmissions", false, .seq⟩,
     ⟨"receptions", .seq, "device_receptions", false, .seq⟩]
  reads :=
    [.field "timestamp" .flt "timestamp" .standard,
     .field "transmissions" .seq "device_transmissions" .empty,
     .field "receptions" .seq "device_receptions" .empty]

/-- `SilentTransmitter`: `core/operators.py` 55-68, 88-93, 97-104. -/
def silentTransmitter : ClassDesc where
  name := "SilentTransmitter"
  params :=
    [⟨"num_samples", .int, false, true⟩, ⟨"selected_transmit_ports", .ints, true, false⟩]
  writes :=
    [⟨"num_samples", .int, "num_samples", false, .int⟩,
     ⟨"selected_transmit_ports", .ints, "selected_transmit_ports", true, .ints⟩]
  reads :=
    [.field "num_samples" .int "num_samples" .required,
     .field "selected_transmit_ports" .ints "selected_transmit_ports" .null]

/-- `SignalTransmitter`: `core/operators.py` 112-125, 155-163. -/
def signalTransmitter : ClassDesc where
  name := "SignalTransmitter"
  params :=
    [⟨"signal", .obj, false, true⟩, ⟨"seed", .int, true, false⟩,
     ⟨"selected_transmit_ports", .ints, true, false⟩, ⟨"carrier_frequency", .flt, true, false⟩]
  writes :=
    [⟨"signal", .obj, "signal", false, .obj⟩]
  reads :=
    [.field "signal" .obj "signal" .required]

/-- `SignalReceiver`: `core/operators.py` 172-186, 220-226, 230-240. -/
def signalReceiver : ClassDesc where
  name := "SignalReceiver"
  params :=
    [⟨"num_samples", .int, false, true⟩, ⟨"selected_receive_ports", .ints, true, false⟩,
     ⟨"expected_power", .flt, false, false⟩]
  writes :=
    [⟨"num_samples", .int, "num_samples", false, .int⟩,
     ⟨"selected_receive_ports", .ints, "selected_receive_ports", true, .flts⟩,
     ⟨"expected_power", .flt, "expected_power", false, .flt⟩]
  reads :=
    [.field "num_samples" .int "num_samples" .required,
     .field "selected_receive_ports" .ints "selected_receive_ports" .null,
     .field "expected_power" .flt "expected_power" .required]

/-- `Precoding`: `core/precoding.py` 121-126, 187-188, 192-195. -/
def precoding : ClassDesc where
  name := "Precoding"
  params :=
    [⟨"precoders", .seq, false, false⟩]
  writes :=
    [⟨"precoders", .seq, "precoders", false, .seq⟩]
  reads :=
    [.field "precoders" .seq "precoders" .empty]

/-- `TransmitPrecoding`: `core/precoding.py` 121-126, 187-188, 192-195. -/
def transmitPrecoding : ClassDesc where
  name := "TransmitPrecoding"
  params :=
    [⟨"precoders", .seq, false, false⟩]
  writes :=
    [⟨"precoders", .seq, "precoders", false, .seq⟩]
  reads :=
    [.field "precoders" .seq "precoders" .empty]

/-- `ReceivePrecoding`: `core/precoding.py` 121-126, 187-188, 192-195. -/
def receivePrecoding : ClassDesc where
  name := "ReceivePrecoding"
  params :=
    [⟨"precoders", .seq, false, false⟩]
  writes :=
    [⟨"precoders", .seq, "precoders", false, .seq⟩]
  reads :=
    [.field "precoders" .seq "precoders" .empty]

/-- `TransmitSignalCoding`: `core/precoding.py` 121-126, 187-188, 192-195. -/
def transmitSignalCoding : ClassDesc where
  name := "TransmitSignalCoding"
  params :=
    [⟨"precoders", .seq, false, false⟩]
  writes :=
    [⟨"precoders", .seq, "precoders", false, .seq⟩]
  reads :=
    [.field "precoders" .seq "precoders" .empty]

/-- `ReceiveSignalCoding`: `core/precoding.py` 121-126, 187-188, 192-195. -/
def receiveSignalCoding : ClassDesc where
  name := "ReceiveSignalCoding"
  params :=
    [⟨"precoders", .seq, false, false⟩]
  writes :=
    [⟨"precoders", .seq, "precoders", false, .seq⟩]
  reads :=
    [.field "precoders" .seq "precoders" .empty]

/-- `RandomRealization`: `core/random_node.py` 25-34, 54-55, 63-64. -/
def randomRealization : ClassDesc where
  name := "RandomRealization"
  params :=
    [⟨"seed", .int, false, true⟩]
  writes :=
    [⟨"seed", .int, "seed", false, .int⟩]
  reads :=
    [.field "seed" .int "seed" .required]

/-- `ReplayScenario`: `core/scenario.py` 88-119, 353-354, 358-366. -/
def replayScenario : ClassDesc where
  name := "ReplayScenario"
  params :=
    [⟨"seed", .int, true, false⟩, ⟨"devices", .seq, false, false⟩]
  writes :=
    [⟨"devices", .seq, "devices", false, .seq⟩]
  reads :=
    [.field "devices" .seq "devices" .empty]

/-- `SparseSignal`: `core/signal_model.py` 1612-1663, 2642-2648, 2652-2659. -/
def sparseSignal : ClassDesc where
  name := "SparseSignal"
  params :=
    [⟨"samples", .seq, false, true⟩, ⟨"sampling_rate", .flt, false, false⟩,
     ⟨"carrier_frequency", .flt, false, false⟩, ⟨"noise_power", .flt, false, false⟩,
     ⟨"delay", .flt, false, false⟩]
  extras :=
    [⟨"num_streams", .int, false, false⟩]
  writes :=
    [⟨"sampling_rate", .flt, "sampling_rate", false, .flt⟩,
     ⟨"carrier_frequency", .flt, "carrier_frequency", false, .flt⟩,
     ⟨"delay", .flt, "delay", false, .flt⟩, ⟨"noise_power", .flt, "noise_power", false, .flt⟩,
     ⟨"num_streams", .int, "num_streams", false, .int⟩, ⟨"blocks", .seq, "samples", false, .seq⟩]
  reads :=
    [.field "blocks" .seq "samples" .empty, .field "sampling_rate" .flt "sampling_rate" .required,
     .field "carrier_frequency" .flt "carrier_frequency" .standard,
     .field "noise_power" .flt "noise_power" .standard, .field "delay" .flt "delay" .standard]

/-- `LDPCCoding`: `fec/aff3ct_wrappers.py` 30-36, 40-47. -/
def ldpcCoding : ClassDesc where
  name := "LDPCCoding"
  params :=
    [⟨"num_iterations", .int, false, true⟩, ⟨"h_path", .txt, false, true⟩,
     ⟨"g_path", .txt, false, true⟩, ⟨"syndrome_checking", .flag, false, true⟩,
     ⟨"min_num_iterations", .int, false, true⟩]
  writes :=
    [⟨"num_iterations", .int, "num_iterations", false, .int⟩,
     ⟨"h_path", .txt, "h_path", false, .txt⟩, ⟨"g_path", .txt, "g_path", false, .txt⟩,
     ⟨"syndrome_checking", .flag, "syndrome_checking", false, .flag⟩,
     ⟨"min_num_iterations", .int, "min_num_iterations", false, .int⟩]
  reads :=
    [.field "num_iterations" .int "num_iterations" .required,
     .field "h_path" .txt "h_path" .required, .field "g_path" .txt "g_path" .required,
     .field "syndrome_checking" .flag "syndrome_checking" .required,
     .field "min_num_iterations" .int "min_num_iterations" .required]

/-- `BCHCoding`: `fec/aff3ct_wrappers.py` 53-57, 61-66. -/
def bchCoding : ClassDesc where
  name := "BCHCoding"
  params :=
    [⟨"data_block_size", .int, false, true⟩, ⟨"code_block_size", .int, false, true⟩,
     ⟨"power", .int, false, true⟩]
  writes :=
    [⟨"data_block_size", .int, "data_block_size", false, .int⟩,
     ⟨"code_block_size", .int, "code_block_size", false, .int⟩,
     ⟨"power", .int, "power", false, .int⟩]
  reads :=
    [.field "data_block_size" .int "data_block_size" .required,
     .field "code_block_size" .int "code_block_size" .required,
     .field "power" .int "power" .required]

/-- `PolarSCCoding`: `fec/aff3ct_wrappers.py` 72-76, 80-85. -/
def polarSCCoding : ClassDesc where
  name := "PolarSCCoding"
  params :=
    [⟨"data_block_size", .int, false, true⟩, ⟨"code_block_size", .int, false, true⟩,
     ⟨"ber", .int, false, true⟩]
  writes :=
    [⟨"data_block_size", .int, "data_block_size", false, .int⟩,
     ⟨"code_block_size", .int, "code_block_size", false, .int⟩, ⟨"ber", .int, "ber", false, .int⟩]
  reads :=
    [.field "data_block_size" .int "data_block_size" .required,
     .field "code_block_size" .int "code_block_size" .required, .field "ber" .int "ber" .required]

/-- `PolarSCLCoding`: `fec/aff3ct_wrappers.py` 91-96, 100-106. -/
def polarSCLCoding : ClassDesc where
  name := "PolarSCLCoding"
  params :=
    [⟨"data_block_size", .int, false, true⟩, ⟨"code_block_size", .int, false, true⟩,
     ⟨"ber", .int, false, true⟩, ⟨"num_paths", .int, false, true⟩]
  writes :=
    [⟨"data_block_size", .int, "data_block_size", false, .int⟩,
     ⟨"code_block_size", .int, "code_block_size", false, .int⟩, ⟨"ber", .int, "ber", false, .int⟩,
     ⟨"num_paths", .int, "num_paths", false, .int⟩]
  reads :=
    [.field "data_block_size" .int "data_block_size" .required,
     .field "code_block_size" .int "code_block_size" .required, .field "ber" .int "ber" .required,
     .field "num_paths" .int "num_paths" .required]

/-- `ReedSolomonCoding`: `fec/aff3ct_wrappers.py` 112-115, 119-123. -/
def reedSolomonCoding : ClassDesc where
  name := "ReedSolomonCoding"
  params :=
    [⟨"data_block_size", .int, false, true⟩, ⟨"correction_power", .int, false, true⟩]
  writes :=
    [⟨"data_block_size", .int, "data_block_size", false, .int⟩,
     ⟨"correction_power", .int, "correction_power", false, .int⟩]
  reads :=
    [.field "data_block_size" .int "data_block_size" .required,
     .field "correction_power" .int "correction_power" .required]

/-- `RSCCoding`: `fec/aff3ct_wrappers.py` 129-135, 139-146. -/
def rscCoding : ClassDesc where
  name := "RSCCoding"
  params :=
    [⟨"bit_block_size", .int, false, true⟩, ⟨"code_block_size", .int, false, true⟩,
     ⟨"buffered_coding", .flag, false, true⟩, ⟨"poly_a", .int, false, true⟩,
     ⟨"poly_b", .int, false, true⟩]
  writes :=
    [⟨"bit_block_size", .int, "bit_block_size", false, .int⟩,
     ⟨"code_block_size", .int, "code_block_size", false, .int⟩,
     ⟨"buffered_coding", .flag, "buffered_coding", false, .flag⟩,
     ⟨"poly_a", .int, "poly_a", false, .int⟩, ⟨"poly_b", .int, "poly_b", false, .int⟩]
  reads :=
    [.field "bit_block_size" .int "bit_block_size" .required,
     .field "code_block_size" .int "code_block_size" .required,
     .field "buffered_coding" .flag "buffered_coding" .required,
     .field "poly_a" .int "poly_a" .required, .field "poly_b" .int "poly_b" .required]

/-- `TurboCoding`: `fec/aff3ct_wrappers.py` 152-157, 161-167. -/
def turboCoding : ClassDesc where
  name := "TurboCoding"
  params :=
    [⟨"data_block_size", .int, false, true⟩, ⟨"poly_a", .int, false, true⟩,
     ⟨"poly_b", .int, false, true⟩, ⟨"num_iterations", .int, false, true⟩]
  writes :=
    [⟨"data_block_size", .int, "data_block_size", false, .int⟩,
     ⟨"poly_a", .int, "poly_a", false, .int⟩, ⟨"poly_b", .int, "poly_b", false, .int⟩,
     ⟨"num_iterations", .int, "num_iterations", false, .int⟩]
  reads :=
    [.field "data_block_size" .int "data_block_size" .required,
     .field "poly_a" .int "poly_a" .required, .field "poly_b" .int "poly_b" .required,
     .field "num_iterations" .int "num_iterations" .required]

/-- `BlockInterleaver`: `fec/block_interleaver.py` 62-86, 153-155, 159-163. -/
def blockInterleaver : ClassDesc where
  name := "BlockInterleaver"
  params :=
    [⟨"block_size", .int, false, true⟩, ⟨"interleave_blocks", .int, false, true⟩]
  writes :=
    [⟨"block_size", .int, "block_size", false, .int⟩,
     ⟨"interleave_blocks", .int, "interleave_blocks", false, .int⟩]
  reads :=
    [.field "block_size" .int "block_size" .required,
     .field "interleave_blocks" .int "interleave_blocks" .required]

/-- `EncoderManager`: `fec/coding.py` 170-195, 467-468, 472-477. -/
def encoderManager : ClassDesc where
  name := "EncoderManager"
  params :=
    [⟨"allow_padding", .flag, false, false⟩, ⟨"allow_truncating", .flag, false, false⟩,
     ⟨"seed", .int, true, false⟩, ⟨"encoders", .seq, false, false⟩]
  writes :=
    [⟨"encoders", .seq, "encoders", false, .seq⟩]
  reads :=
    [.field "encoders" .seq "encoders" .empty]

/-- `CyclicRedundancyCheck`: `fec/cyclic_redundancy_check.py` 45-61, 106-108, 112-116. -/
def cyclicRedundancyCheck : ClassDesc where
  name := "CyclicRedundancyCheck"
  params :=
    [⟨"bit_block_size", .int, false, true⟩, ⟨"check_block_size", .int, false, true⟩]
  writes :=
    [⟨"bit_block_size", .int, "bit_block_size", false, .int⟩,
     ⟨"check_block_size", .int, "check_block_size", false, .int⟩]
  reads :=
    [.field "bit_block_size" .int "bit_block_size" .required,
     .field "check_block_size" .int "check_block_size" .required]

/-- `RepetitionEncoder`: `fec/repetition_encoder.py` 69-82, 142-144, 148-152. -/
def repetitionEncoder : ClassDesc where
  name := "RepetitionEncoder"
  params :=
    [⟨"bit_block_size", .int, false, false⟩, ⟨"repetitions", .int, false, false⟩]
  writes :=
    [⟨"bit_block_size", .int, "bit_block_size", false, .int⟩,
     ⟨"repetitions", .int, "repetitions", false, .int⟩]
  reads :=
    [.field "bit_block_size" .int "bit_block_size" .required,
     .field "repetitions" .int "repetitions" .required]

/-- `Scrambler3GPP`: `fec/scrambler.py` 139-155, 178-179, 183-184. -/
def scrambler3GPP : ClassDesc where
  name := "Scrambler3GPP"
  params :=
    [⟨"seed", .flts, true, false⟩]
  writes :=
    []
  reads :=
    []

/-- `Scrambler80211a`: `fec/scrambler.py` 197-211, 287-288, 292-293. -/
def scrambler80211a : ClassDesc where
  name := "Scrambler80211a"
  params :=
    [⟨"seed", .flts, true, false⟩]
  writes :=
    []
  reads :=
    []

/-- `AudioDevice`: `hardware_loop/audio/device.py` 120-168, 375-381, 385-393. -/
def audioDevice : ClassDesc where
  name := "AudioDevice"
  params :=
    [⟨"playback_device", .int, false, true⟩, ⟨"record_device", .int, false, true⟩,
     ⟨"playback_channels", .ints, false, false⟩, ⟨"record_channels", .ints, false, false⟩,
     ⟨"sampling_rate", .flt, false, false⟩, ⟨"oversampling_factor", .int, false, false⟩,
     ⟨"max_receive_delay", .flt, false, false⟩, ⟨"noise_power", .flts, true, false⟩,
     ⟨"leakage_calibration", .obj, true, false⟩, ⟨"delay_calibration", .obj, true, false⟩,
     ⟨"antenna_calibration", .obj, true, false⟩, ⟨"adaptive_sampling", .flag, false, false⟩,
     ⟨"lowpass_filter", .flag, false, false⟩, ⟨"lowpass_bandwidth", .flt, false, false⟩,
     ⟨"transmit_dsp", .obj, true, false⟩, ⟨"receive_dsp", .obj, true, false⟩,
     ⟨"transmit_encoding", .obj, true, false⟩, ⟨"receive_decoding", .obj, true, false⟩,
     ⟨"power", .flt, false, false⟩, ⟨"pose", .obj, true, false⟩, ⟨"seed", .int, true, false⟩]
  writes :=
    [⟨"playback_device", .int, "playback_device", false, .int⟩,
     ⟨"record_device", .int, "record_device", false, .int⟩,
     ⟨"playback_channels", .ints, "playback_channels", false, .ints⟩,
     ⟨"record_channels", .ints, "record_channels", false, .ints⟩,
     ⟨"sampling_rate", .flt, "sampling_rate", false, .flt⟩,
     ⟨"oversampling_factor", .int, "oversampling_factor", false, .int⟩]
  reads :=
    [.field "playback_device" .int "playback_device" .required,
     .field "record_device" .int "record_device" .required,
     .field "playback_channels" .ints "playback_channels" .required,
     .field "record_channels" .ints "record_channels" .required,
     .field "sampling_rate" .flt "sampling_rate" .standard,
     .field "oversampling_factor" .int "oversampling_factor" .standard]

/-- `AudioScenario`: `hardware_loop/audio/scenario.py` 23-24, `core/scenario.py` 353-354, 358-366.
-/
def audioScenario : ClassDesc where
  name := "AudioScenario"
  params :=
    [⟨"seed", .int, true, false⟩, ⟨"devices", .seq, false, false⟩]
  writes :=
    [⟨"devices", .seq, "devices", false, .seq⟩]
  reads :=
    [.field "devices" .seq "devices" .empty]

/-- `ScalarAntennaCalibration`: `hardware_loop/calibration/antennas.py` 38-58, 197-199, 203-207.
-/
def scalarAntennaCalibration : ClassDesc where
  name := "ScalarAntennaCalibration"
  params :=
    [⟨"transmit_correction_weights", .cpxs, false, true⟩,
     ⟨"receive_correction_weights", .cpxs, false, true⟩]
  writes :=
    [⟨"transmit_correction_weights", .cpxs, "transmit_correction_weights", false, .cpxs⟩,
     ⟨"receive_correction_weights", .cpxs, "receive_correction_weights", false, .cpxs⟩]
  reads :=
    [.field "transmit_correction_weights" .cpxs "transmit_correction_weights" .required,
     .field "receive_correction_weights" .cpxs "receive_correction_weights" .required]

/-- `DelayCalibration`: `hardware_loop/calibration/delay.py` 28-33, 129-130, 134-137. -/
def delayCalibration : ClassDesc where
  name := "DelayCalibration"
  params :=
    [⟨"delay", .flt, false, true⟩]
  writes :=
    [⟨"delay", .flt, "delay", false, .flt⟩]
  reads :=
    [.field "delay" .flt "delay" .required]

/-- `SelectiveLeakageCalibration`: `hardware_loop/calibration/leakage.py` 43-85, 554-557, 561-568.
-/
def selectiveLeakageCalibration : ClassDesc where
  name := "SelectiveLeakageCalibration"
  params :=
    [⟨"leakage_response", .cpxs, false, true⟩, ⟨"sampling_rate", .flt, false, true⟩,
     ⟨"delay", .flt, false, false⟩, ⟨"transmit_ports", .ints, true, false⟩,
     ⟨"receive_ports", .ints, true, false⟩]
  writes :=
    [⟨"leakage_response", .cpxs, "leakage_response", false, .cpxs⟩,
     ⟨"sampling_rate", .flt, "sampling_rate", false, .flt⟩, ⟨"delay", .flt, "delay", false, .flt⟩]
  reads :=
    [.field "leakage_response" .cpxs "leakage_response" .required,
     .field "sampling_rate" .flt "sampling_rate" .required, .field "delay" .flt "delay" .standard]

/-- `NoDelayCalibration`: `hardware_loop/physical_device.py` 696-721, 907-908, 912-915. -/
def noDelayCalibration : ClassDesc where
  name := "NoDelayCalibration"
  params :=
    [⟨"transmit_ports", .ints, true, false⟩, ⟨"receive_ports", .ints, true, false⟩]
  writes :=
    []
  reads :=
    []

/-- `NoLeakageCalibration`: `hardware_loop/physical_device.py` 696-721, 967-968, 972-975. -/
def noLeakageCalibration : ClassDesc where
  name := "NoLeakageCalibration"
  params :=
    [⟨"transmit_ports", .ints, true, false⟩, ⟨"receive_ports", .ints, true, false⟩]
  writes :=
    []
  reads :=
    []

/-- `NoAntennaCalibration`: `hardware_loop/physical_device.py` 696-721, 1026-1027, 1031-1034. -/
def noAntennaCalibration : ClassDesc where
  name := "NoAntennaCalibration"
  params :=
    [⟨"transmit_ports", .ints, true, false⟩, ⟨"receive_ports", .ints, true, false⟩]
  writes :=
    []
  reads :=
    []

/-- `PhysicalDeviceDummy`: `hardware_loop/physical_device_dummy.py` 77-155, 284-287,
`simulation/simulated_device.py` 2076-2088, 2092-2117, `core/device.py` 1643-1649, 1652-1664. -/
def physicalDeviceDummy : ClassDesc where
  name := "PhysicalDeviceDummy"
  params :=
    [⟨"receive_transmission", .flag, false, false⟩, ⟨"scenario", .obj, true, false⟩,
     ⟨"antennas", .obj, true, false⟩, ⟨"rf", .obj, false, false⟩,
     ⟨"isolation", .obj, false, false⟩, ⟨"coupling", .obj, false, false⟩,
     ⟨"trigger_model", .obj, false, false⟩, ⟨"carrier_frequency", .flt, false, false⟩,
     ⟨"bandwidth", .flt, false, false⟩, ⟨"oversampling_factor", .int, false, false⟩,
     ⟨"operator_separation", .flag, false, false⟩, ⟨"noise_level", .obj, true, false⟩,
     ⟨"noise_model", .obj, false, false⟩, ⟨"pose", .obj, false, false⟩,
     ⟨"velocity", .flts, true, false⟩, ⟨"max_receive_delay", .flt, false, false⟩,
     ⟨"noise_power", .flts, true, false⟩, ⟨"leakage_calibration", .obj, true, false⟩,
     ⟨"delay_calibration", .obj, true, false⟩, ⟨"antenna_calibration", .obj, true, false⟩,
     ⟨"adaptive_sampling", .flag, false, false⟩, ⟨"lowpass_filter", .flag, false, false⟩,
     ⟨"lowpass_bandwidth", .flt, false, false⟩, ⟨"transmit_dsp", .seq, false, false⟩,
     ⟨"receive_dsp", .seq, false, false⟩, ⟨"transmit_encoding", .seq, false, false⟩,
     ⟨"receive_decoding", .seq, false, false⟩, ⟨"power", .flt, false, false⟩,
     ⟨"seed", .int, true, false⟩]
  writes :=
    [⟨"transmit_dsp", .seq, "transmit_dsp", false, .seq⟩,
     ⟨"receive_dsp", .seq, "receive_dsp", false, .seq⟩,
     ⟨"transmit_encoding", .seq, "transmit_encoding", false, .seq⟩,
     ⟨"receive_decoding", .seq, "receive_decoding", false, .seq⟩,
     ⟨"power", .flt, "power", false, .flt⟩, ⟨"pose", .obj, "pose", false, .obj⟩,
     ⟨"rf", .obj, "rf", false, .obj⟩, ⟨"isolation", .obj, "isolation", false, .obj⟩,
     ⟨"coupling", .obj, "coupling", false, .obj⟩,
     ⟨"trigger_model", .obj, "trigger_model", false, .obj⟩,
     ⟨"noise_model", .obj, "noise_model", false, .obj⟩,
     ⟨"carrier_frequency", .flt, "carrier_frequency", false, .flt⟩,
     ⟨"bandwidth", .flt, "bandwidth", false, .flt⟩,
     ⟨"oversampling_factor", .int, "oversampling_factor", false, .int⟩,
     ⟨"operator_separation", .flag, "operator_separation", false, .flag⟩]
  reads :=
    [.field "transmit_dsp" .seq "transmit_dsp" .empty,
     .field "receive_dsp" .seq "receive_dsp" .empty,
     .field "transmit_encoding" .seq "transmit_encoding" .empty,
     .field "receive_decoding" .seq "receive_decoding" .empty,
     .field "power" .flt "power" .standard, .field "pose" .obj "pose" .null,
     .field "antennas" .obj "antennas" .null, .field "rf" .obj "rf" .null,
     .field "isolation" .obj "isolation" .null, .field "coupling" .obj "coupling" .null,
     .field "trigger_model" .obj "trigger_model" .null,
     .field "noise_level" .obj "noise_level" .null, .field "noise_model" .obj "noise_model" .null,
     .field "carrier_frequency" .flt "carrier_frequency" .standard,
     .field "bandwidth" .flt "bandwidth" .standard,
     .field "oversampling_factor" .int "oversampling_factor" .standard,
     .field "operator_separation" .flag "operator_separation" .standard]

/-- `PhysicalScenarioDummy`: `hardware_loop/physical_device_dummy.py` 295-300, `core/scenario.py`
353-354, 358-366. -/
def physicalScenarioDummy : ClassDesc where
  name := "PhysicalScenarioDummy"
  params :=
    [⟨"seed", .int, true, false⟩, ⟨"devices", .seq, false, false⟩]
  writes :=
    [⟨"devices", .seq, "devices", false, .seq⟩]
  reads :=
    [.field "devices" .seq "devices" .empty]

/-- `IQSplitter`: `core/precoding.py` 292-294, `hardware_loop/precoding.py` 56-57, 61-62. -/
def iqSplitter : ClassDesc where
  name := "IQSplitter"
  params :=
    []
  writes :=
    []
  reads :=
    []

/-- `IQCombiner`: `core/precoding.py` 316-318, `hardware_loop/precoding.py` 98-99, 103-104. -/
def iqCombiner : ClassDesc where
  name := "IQCombiner"
  params :=
    []
  writes :=
    []
  reads :=
    []

/-- `UsrpSystem`: `hardware_loop/uhd/system.py` 26-30, `core/scenario.py` 353-354, 358-366. -/
def usrpSystem : ClassDesc where
  name := "UsrpSystem"
  params :=
    [⟨"seed", .int, true, false⟩, ⟨"devices", .seq, false, false⟩]
  writes :=
    [⟨"devices", .seq, "devices", false, .seq⟩]
  reads :=
    [.field "devices" .seq "devices" .empty]

/-- `UsrpDevice`: `hardware_loop/uhd/usrp.py` 125-245, 638-651, 655-670,
`hardware_loop/physical_device.py` 645-655, 659-683, `core/device.py` 1643-1649, 1652-1664. -/
def usrpDevice : ClassDesc where
  name := "UsrpDevice"
  params :=
    [⟨"ip", .txt, false, true⟩, ⟨"port", .int, false, false⟩,
     ⟨"carrier_frequency", .flt, false, false⟩, ⟨"sampling_rate", .flt, false, false⟩,
     ⟨"oversampling_factor", .int, false, false⟩, ⟨"tx_gain", .flt, false, false⟩,
     ⟨"rx_gain", .flt, false, false⟩, ⟨"scale_transmission", .flag, false, false⟩,
     ⟨"num_prepended_zeros", .int, false, false⟩, ⟨"num_appended_zeros", .int, false, false⟩,
     ⟨"selected_transmit_ports", .ints, false, false⟩,
     ⟨"selected_receive_ports", .ints, false, false⟩, ⟨"max_receive_delay", .flt, false, false⟩,
     ⟨"noise_power", .flts, true, false⟩, ⟨"leakage_calibration", .obj, false, false⟩,
     ⟨"delay_calibration", .obj, false, false⟩, ⟨"antenna_calibration", .obj, false, false⟩,
     ⟨"adaptive_sampling", .flag, false, false⟩, ⟨"lowpass_filter", .flag, false, false⟩,
     ⟨"lowpass_bandwidth", .flt, false, false⟩, ⟨"transmit_dsp", .seq, false, false⟩,
     ⟨"receive_dsp", .seq, false, false⟩, ⟨"transmit_encoding", .seq, false, false⟩,
     ⟨"receive_decoding", .seq, false, false⟩, ⟨"power", .flt, false, false⟩,
     ⟨"pose", .obj, false, false⟩, ⟨"seed", .int, true, false⟩]
  writes :=
    [⟨"transmit_dsp", .seq, "transmit_dsp", false, .seq⟩,
     ⟨"receive_dsp", .seq, "receive_dsp", false, .seq⟩,
     ⟨"transmit_encoding", .seq, "transmit_encoding", false, .seq⟩,
     ⟨"receive_decoding", .seq, "receive_decoding", false, .seq⟩,
     ⟨"power", .flt, "power", false, .flt⟩, ⟨"pose", .obj, "pose", false, .obj⟩,
     ⟨"max_receive_delay", .flt, "max_receive_delay", false, .flt⟩,
     ⟨"adaptive_sampling", .flag, "adaptive_sampling", false, .flag⟩,
     ⟨"lowpass_filter", .flag, "lowpass_filter", false, .flag⟩,
     ⟨"lowpass_bandwidth", .flt, "lowpass_bandwidth", false, .flt⟩,
     ⟨"noise_power", .flts, "noise_power", true, .flts⟩,
     ⟨"leakage_calibration", .obj, "leakage_calibration", false, .obj⟩,
     ⟨"delay_calibration", .obj, "delay_calibration", false, .obj⟩,
     ⟨"antenna_calibration", .obj, "antenna_calibration", false, .obj⟩,
     ⟨"ip", .txt, "ip", false, .txt⟩, ⟨"port", .int, "port", false, .int⟩,
     ⟨"carrier_frequency", .flt, "carrier_frequency", false, .flt⟩,
     ⟨"sampling_rate", .flt, "sampling_rate", false, .flt⟩,
     ⟨"oversampling_factor", .int, "oversampling_factor", false, .int⟩,
     ⟨"tx_gain", .flt, "tx_gain", false, .flt⟩, ⟨"rx_gain", .flt, "rx_gain", false, .flt⟩,
     ⟨"scale_transmission", .flag, "scale_transmission", false, .flag⟩,
     ⟨"num_prepeneded_zeros", .int, "num_prepended_zeros", false, .int⟩,
     ⟨"num_appended_zeros", .int, "num_appended_zeros", false, .int⟩,
     ⟨"selected_transmit_ports", .ints, "selected_transmit_ports", false, .ints⟩,
     ⟨"selected_receive_ports", .ints, "selected_receive_ports", false, .ints⟩]
  reads :=
    [.field "ip" .txt "ip" .required, .field "port" .int "port" .required,
     .field "carrier_frequency" .flt "carrier_frequency" .required,
     .field "sampling_rate" .flt "sampling_rate" .required,
     .field "oversampling_factor" .int "oversampling_factor" .required,
     .field "tx_gain" .flt "tx_gain" .required, .field "rx_gain" .flt "rx_gain" .required,
     .field "scale_transmission" .flag "scale_transmission" .required,
     .field "num_prepeneded_zeros" .int "num_prepended_zeros" .required,
     .field "num_appended_zeros" .int "num_appended_zeros" .required,
     .field "selected_transmit_ports" .ints "selected_transmit_ports" .required,
     .field "selected_receive_ports" .ints "selected_receive_ports" .required,
     .field "transmit_dsp" .seq "transmit_dsp" .empty,
     .field "receive_dsp" .seq "receive_dsp" .empty,
     .field "transmit_encoding" .seq "transmit_encoding" .empty,
     .field "receive_decoding" .seq "receive_decoding" .empty,
     .field "power" .flt "power" .standard, .field "pose" .obj "pose" .null,
     .field "max_receive_delay" .flt "max_receive_delay" .standard,
     .field "adaptive_sampling" .flag "adaptive_sampling" .standard,
     .field "lowpass_filter" .flag "lowpass_filter" .standard,
     .field "lowpass_bandwidth" .flt "lowpass_bandwidth" .standard,
     .field "noise_power" .flts "noise_power" .null,
     .field "leakage_calibration" .obj "leakage_calibration" .null,
     .field "delay_calibration" .obj "delay_calibration" .null,
     .field "antenna_calibration" .obj "antenna_calibration" .null]

/-- `JCASTransmission`: `jcas/jcas.py` 41-51, `modem/modem.py` 231-242. -/
def jcasTransmission : ClassDesc where
  name := "JCASTransmission"
  params :=
    [⟨"signal", .obj, false, true⟩, ⟨"frames", .seq, false, true⟩]
  writes :=
    [⟨"signal", .obj, "signal", false, .obj⟩, ⟨"frames", .seq, "frames", false, .seq⟩]
  reads :=
    [.field "signal" .obj "signal" .required, .field "frames" .seq "frames" .empty]

/-- `JCASReception`: `jcas/jcas.py` 57-73, `modem/modem.py` 482-493, `radar/radar.py` 300-312. -/
def jcasReception : ClassDesc where
  name := "JCASReception"
  params :=
    [⟨"signal", .obj, false, true⟩, ⟨"frames", .seq, false, true⟩, ⟨"cube", .obj, false, true⟩,
     ⟨"cloud", .obj, true, true⟩]
  writes :=
    [⟨"signal", .obj, "signal", false, .obj⟩, ⟨"frames", .seq, "frames", false, .seq⟩,
     ⟨"cube", .obj, "cube", false, .obj⟩, ⟨"cloud", .obj, "cloud", true, .obj⟩]
  reads :=
    [.field "signal" .obj "signal" .required, .field "frames" .seq "frames" .empty,
     .field "cube" .obj "cube" .required, .field "cloud" .obj "cloud" .null]

/-- `MatchedFilterJcas`: `jcas/matched_filtering.py` 57-126, 334-340, 344-353, `jcas/jcas.py`
170-171, `radar/radar.py` 488-495, 499-511, `core/device.py` 583-585, 588-590, 749-754, 758-763,
1029-1034, 1038-1043. -/
def matchedFilterJcas : ClassDesc where
  name := "MatchedFilterJcas"
  params :=
    [⟨"max_range", .flt, false, true⟩, ⟨"waveform", .obj, true, false⟩,
     ⟨"receive_beamformer", .obj, true, false⟩, ⟨"detector", .obj, true, false⟩,
     ⟨"min_range", .flt, false, false⟩, ⟨"max_velocity", .flt, false, false⟩,
     ⟨"velocity_resolution", .flt, false, false⟩, ⟨"selected_transmit_ports", .ints, true, false⟩,
     ⟨"selected_receive_ports", .ints, true, false⟩, ⟨"carrier_frequency", .flt, true, false⟩,
     ⟨"seed", .int, true, false⟩]
  writes :=
    [⟨"carrier_frequency", .flt, "carrier_frequency", true, .flt⟩,
     ⟨"selected_receive_ports", .ints, "selected_receive_ports", true, .ints⟩,
     ⟨"selected_transmit_ports", .ints, "selected_transmit_ports", true, .ints⟩,
     ⟨"receive_beamformer", .obj, "receive_beamformer", true, .obj⟩,
     ⟨"detector", .obj, "detector", true, .obj⟩, ⟨"min_range", .flt, "min_range", false, .flt⟩,
     ⟨"max_range", .flt, "max_range", false, .flt⟩,
     ⟨"max_velocity", .flt, "max_velocity", false, .flt⟩,
     ⟨"velocity_resolution", .flt, "velocity_resolution", false, .flt⟩,
     ⟨"waveform", .obj, "waveform", true, .obj⟩]
  reads :=
    [.field "max_range" .flt "max_range" .required, .field "waveform" .obj "waveform" .null,
     .field "max_velocity" .flt "max_velocity" .standard,
     .field "velocity_resolution" .flt "velocity_resolution" .standard,
     .field "carrier_frequency" .flt "carrier_frequency" .null,
     .field "selected_receive_ports" .ints "selected_receive_ports" .null,
     .field "selected_transmit_ports" .ints "selected_transmit_ports" .null,
     .field "receive_beamformer" .obj "receive_beamformer" .null,
     .field "detector" .obj "detector" .null, .field "min_range" .flt "min_range" .standard]

/-- `OFDMRadar`: `jcas/ofdm_radar.py` 37-94, 259-260, `jcas/jcas.py` 170-171, `radar/radar.py`
488-495, 499-511, `core/device.py` 583-585, 588-590, 749-754, 758-763, 1029-1034, 1038-1043. -/
def ofdmRadar : ClassDesc where
  name := "OFDMRadar"
  params :=
    [⟨"waveform", .obj, true, false⟩, ⟨"receive_beamformer", .obj, true, false⟩,
     ⟨"detector", .obj, true, false⟩, ⟨"min_range", .flt, false, false⟩,
     ⟨"selected_transmit_ports", .ints, true, false⟩,
     ⟨"selected_receive_ports", .ints, true, false⟩, ⟨"carrier_frequency", .flt, true, false⟩,
     ⟨"seed", .int, true, false⟩]
  writes :=
    [⟨"carrier_frequency", .flt, "carrier_frequency", true, .flt⟩,
     ⟨"selected_receive_ports", .ints, "selected_receive_ports", true, .ints⟩,
     ⟨"selected_transmit_ports", .ints, "selected_transmit_ports", true, .ints⟩,
     ⟨"receive_beamformer", .obj, "receive_beamformer", true, .obj⟩,
     ⟨"detector", .obj, "detector", true, .obj⟩, ⟨"min_range", .flt, "min_range", false, .flt⟩]
  reads :=
    [.field "carrier_frequency" .flt "carrier_frequency" .null,
     .field "selected_receive_ports" .ints "selected_receive_ports" .null,
     .field "selected_transmit_ports" .ints "selected_transmit_ports" .null,
     .field "receive_beamformer" .obj "receive_beamformer" .null,
     .field "detector" .obj "detector" .null, .field "min_range" .flt "min_range" .standard]

/-- `UniformArray`: `core/antennas.py` 1307-1339, 1412-1416, 1419-1424, `core/transformation.py`
786-787. -/
def uniformArray : ClassDesc where
  name := "UniformArray"
  params :=
    [⟨"element", .obj, false, true⟩, ⟨"spacing", .flt, false, true⟩,
     ⟨"dimensions", .ints, false, true⟩, ⟨"pose", .flts, false, false⟩]
  writes :=
    [⟨"pose", .flts, "pose", false, .flts⟩, ⟨"dimensions", .ints, "dimensions", false, .flts⟩,
     ⟨"spacing", .flt, "spacing", false, .flt⟩, ⟨"element", .obj, "element", false, .obj⟩]
  reads :=
    [.field "element" .obj "element" .required, .field "spacing" .flt "spacing" .required,
     .field "dimensions" .flts "dimensions" .required, .field "pose" .flts "pose" .required]

/-- `EvaluatedDrop`: `core/drop.py` 92-95, 98-104, 118-142. -/
def evaluatedDrop : ClassDesc where
  name := "EvaluatedDrop"
  params :=
    [⟨"timestamp", .flt, false, true⟩, ⟨"device_transmissions", .seq, false, true⟩,
     ⟨"device_receptions", .seq, false, true⟩, ⟨"artifacts", .seq, false, true⟩]
  writes :=
    [⟨"timestamp", .flt, "timestamp", false, .flt⟩,
     ⟨"transmissions", .seq, "device_transmissions", false, .seq⟩,
     ⟨"receptions", .seq, "device_receptions", false, .seq⟩]
  reads :=
    [.field "timestamp" .flt "timestamp" .standard,
     .field "transmissions" .seq "device_transmissions" .empty,
     .field "receptions" .seq "device_receptions" .empty]

/-- The classes above which store every parameter. -/
def coreFaithful : List ClassDesc :=
  [idealAntenna, linearAntenna, patchAntenna, dipole, customAntennaArray, dspResult, transmission,
   reception, deviceOutput, deviceTransmission, deviceInput, processedDeviceInput, deviceReception,
   mixingOperator, drop, silentTransmitter, signalReceiver, precoding, transmitPrecoding,
   receivePrecoding, transmitSignalCoding, receiveSignalCoding, randomRealization, sparseSignal,
   ldpcCoding, bchCoding, polarSCCoding, polarSCLCoding, reedSolomonCoding, rscCoding, turboCoding,
   blockInterleaver, cyclicRedundancyCheck, repetitionEncoder, scalarAntennaCalibration,
   delayCalibration, iqSplitter, iqCombiner, jcasTransmission, jcasReception]

/-- The classes above which do not, with the parameters they lose. -/
def coreLossy : List (ClassDesc × List String) :=
  [(channelStateInformation, ["num_delay_taps", "num_frequency_bins"]),
   (signalTransmitter, ["seed", "selected_transmit_ports", "carrier_frequency"]),
   (replayScenario, ["seed"]), (encoderManager, ["allow_padding", "allow_truncating", "seed"]),
   (scrambler3GPP, ["seed"]), (scrambler80211a, ["seed"]),
   (audioDevice, ["max_receive_delay", "noise_power", "leakage_calibration", "delay_calibration",
     "antenna_calibration", "adaptive_sampling", "lowpass_filter", "lowpass_bandwidth",
     "transmit_dsp", "receive_dsp", "transmit_encoding", "receive_decoding", "power", "pose",
     "seed"]),
   (audioScenario, ["seed"]), (selectiveLeakageCalibration, ["transmit_ports", "receive_ports"]),
   (noDelayCalibration, ["transmit_ports", "receive_ports"]),
   (noLeakageCalibration, ["transmit_ports", "receive_ports"]),
   (noAntennaCalibration, ["transmit_ports", "receive_ports"]),
   (physicalDeviceDummy, ["receive_transmission", "scenario", "antennas", "noise_level",
     "velocity", "max_receive_delay", "noise_power", "leakage_calibration", "delay_calibration",
     "antenna_calibration", "adaptive_sampling", "lowpass_filter", "lowpass_bandwidth", "seed"]),
   (physicalScenarioDummy, ["seed"]), (usrpSystem, ["seed"]), (usrpDevice, ["seed"]),
   (matchedFilterJcas, ["seed"]), (ofdmRadar, ["waveform", "seed"])]

end Verif.Schema.Py
