import Verif.Io.Schema

/-!
# Fields stored and restored by the classes of `hermespy`: modems (C122)

One description per concrete class: the parameters of its constructor, the calls of its `serialize`
and the arguments its `Deserialize` hands to the constructor, the methods inherited from base classes
included.  `true` and `false` after the kind of a parameter say whether its attribute may be `None` and
whether it has no default; after the attribute of a write, whether a test for `None` guards it.
Attributes whose name differs from the parameter they hold are listed under the parameter.  References
back to the owner of an object (`waveform`, `device`, `modem`), which the owner sets, are left out.
-/

namespace Verif.Schema.Py

/-- `RandomBitsSource`: `modem/bits_source.py` 52-59, 66-68, 72-73. -/
def randomBitsSource : ClassDesc where
  name := "RandomBitsSource"
  params :=
    [⟨"seed", .int, true, false⟩]
  writes :=
    [⟨"seed", .int, "seed", true, .int⟩]
  reads :=
    [.field "seed" .int "seed" .null]

/-- `FrameGeneratorStub`: `modem/frame_generator/frame_generator.py` 66-67, 71-72. -/
def frameGeneratorStub : ClassDesc where
  name := "FrameGeneratorStub"
  params :=
    []
  writes :=
    []
  reads :=
    []

/-- `CommunicationTransmissionFrame`: `modem/modem.py` 83-132, 134-142, 145-164, `core/device.py`
175-176. -/
def communicationTransmissionFrame : ClassDesc where
  name := "CommunicationTransmissionFrame"
  params :=
    [⟨"signal", .obj, false, true⟩, ⟨"bits", .ints, false, true⟩,
     ⟨"bit_block_size", .int, false, true⟩, ⟨"encoded_bits", .ints, false, true⟩,
     ⟨"code_block_size", .int, false, true⟩, ⟨"symbols", .obj, false, true⟩,
     ⟨"encoded_symbols", .obj, false, true⟩, ⟨"timestamp", .flt, false, true⟩]
  writes :=
    [⟨"signal", .obj, "signal", false, .obj⟩, ⟨"bits", .ints, "bits", false, .ints⟩,
     ⟨"encoded_bits", .ints, "encoded_bits", false, .ints⟩,
     ⟨"bit_block_size", .int, "bit_block_size", false, .int⟩,
     ⟨"code_block_size", .int, "code_block_size", false, .int⟩,
     ⟨"symbols", .obj, "symbols", false, .obj⟩,
     ⟨"encoded_symbols", .obj, "encoded_symbols", false, .obj⟩,
     ⟨"timestamp", .flt, "timestamp", false, .flt⟩]
  reads :=
    [.field "signal" .obj "signal" .required, .field "bits" .ints "bits" .required,
     .field "bit_block_size" .int "bit_block_size" .required,
     .field "encoded_bits" .ints "encoded_bits" .required,
     .field "code_block_size" .int "code_block_size" .required,
     .field "symbols" .obj "symbols" .required,
     .field "encoded_symbols" .obj "encoded_symbols" .required,
     .field "timestamp" .flt "timestamp" .required]

/-- `CommunicationTransmission`: `modem/modem.py` 177-191, 231-233, 236-242, `core/device.py`
175-176. -/
def communicationTransmission : ClassDesc where
  name := "CommunicationTransmission"
  params :=
    [⟨"signal", .obj, false, true⟩, ⟨"frames", .seq, false, false⟩]
  writes :=
    [⟨"signal", .obj, "signal", false, .obj⟩, ⟨"frames", .seq, "frames", false, .seq⟩]
  reads :=
    [.field "signal" .obj "signal" .required, .field "frames" .seq "frames" .empty]

/-- `CommunicationReceptionFrame`: `modem/modem.py` 279-339, 341-351, 354-379, `core/device.py`
175-176. -/
def communicationReceptionFrame : ClassDesc where
  name := "CommunicationReceptionFrame"
  params :=
    [⟨"signal", .obj, false, true⟩, ⟨"decoded_signal", .obj, false, true⟩,
     ⟨"symbols", .obj, false, true⟩, ⟨"decoded_symbols", .obj, false, true⟩,
     ⟨"timestamp", .flt, false, true⟩, ⟨"equalized_symbols", .obj, false, true⟩,
     ⟨"encoded_bits", .ints, false, true⟩, ⟨"code_block_size", .int, false, true⟩,
     ⟨"decoded_bits", .ints, false, true⟩, ⟨"bit_block_size", .int, false, true⟩]
  writes :=
    [⟨"signal", .obj, "signal", false, .obj⟩,
     ⟨"decoded_signal", .obj, "decoded_signal", false, .obj⟩,
     ⟨"symbols", .obj, "symbols", false, .obj⟩,
     ⟨"decoded_symbols", .obj, "decoded_symbols", false, .obj⟩,
     ⟨"equalized_symbols", .obj, "equalized_symbols", false, .obj⟩,
     ⟨"encoded_bits", .ints, "encoded_bits", false, .ints⟩,
     ⟨"decoded_bits", .ints, "decoded_bits", false, .ints⟩,
     ⟨"code_block_size", .int, "code_block_size", false, .int⟩,
     ⟨"bit_block_size", .int, "bit_block_size", false, .int⟩,
     ⟨"timestamp", .flt, "timestamp", false, .flt⟩]
  reads :=
    [.field "signal" .obj "signal" .required,
     .field "decoded_signal" .obj "decoded_signal" .required,
     .field "symbols" .obj "symbols" .required,
     .field "decoded_symbols" .obj "decoded_symbols" .required,
     .field "equalized_symbols" .obj "equalized_symbols" .required,
     .field "encoded_bits" .ints "encoded_bits" .required,
     .field "code_block_size" .int "code_block_size" .required,
     .field "decoded_bits" .ints "decoded_bits" .required,
     .field "bit_block_size" .int "bit_block_size" .required,
     .field "timestamp" .flt "timestamp" .required]

/-- `CommunicationReception`: `modem/modem.py` 392-406, 482-484, 487-493, `core/device.py`
175-176. -/
def communicationReception : ClassDesc where
  name := "CommunicationReception"
  params :=
    [⟨"signal", .obj, false, true⟩, ⟨"frames", .seq, false, false⟩]
  writes :=
    [⟨"signal", .obj, "signal", false, .obj⟩, ⟨"frames", .seq, "frames", false, .seq⟩]
  reads :=
    [.field "signal" .obj "signal" .required, .field "frames" .seq "frames" .empty]

/-- `BaseModem`: `modem/modem.py` 511-550, 616-620, 623-628, 632-634. -/
def baseModem : ClassDesc where
  name := "BaseModem"
  params :=
    [⟨"encoding", .seq, false, false⟩, ⟨"waveform", .obj, true, false⟩,
     ⟨"frame_generator", .obj, false, false⟩, ⟨"seed", .int, true, false⟩]
  writes :=
    [⟨"bit_coding", .seq, "encoding", false, .seq⟩, ⟨"waveform", .obj, "waveform", true, .obj⟩,
     ⟨"frame_generator", .obj, "frame_generator", false, .obj⟩]
  reads :=
    [.field "bit_coding" .seq "encoding" .empty, .field "waveform" .obj "waveform" .null,
     .field "frame_generator" .obj "frame_generator" .null]

/-- `TransmittingModemBase`: `modem/modem.py` 616-620, 623-628, 632-634, 648-711, 891-895,
899-908. -/
def transmittingModemBase : ClassDesc where
  name := "TransmittingModemBase"
  params :=
    [⟨"bits_source", .obj, false, false⟩, ⟨"transmit_symbol_coding", .seq, false, false⟩,
     ⟨"transmit_signal_coding", .seq, false, false⟩, ⟨"encoding", .seq, false, false⟩,
     ⟨"waveform", .obj, true, false⟩, ⟨"frame_generator", .obj, false, false⟩,
     ⟨"seed", .int, true, false⟩]
  writes :=
    [⟨"bit_coding", .seq, "encoding", false, .seq⟩, ⟨"waveform", .obj, "waveform", true, .obj⟩,
     ⟨"frame_generator", .obj, "frame_generator", false, .obj⟩,
     ⟨"bits_source", .obj, "bits_source", false, .obj⟩,
     ⟨"transmit_symbol_coding", .seq, "transmit_symbol_coding", false, .seq⟩,
     ⟨"transmit_signal_coding", .seq, "transmit_signal_coding", false, .seq⟩]
  reads :=
    [.field "bit_coding" .seq "encoding" .empty, .field "waveform" .obj "waveform" .null,
     .field "frame_generator" .obj "frame_generator" .null,
     .field "bits_source" .obj "bits_source" .required,
     .field "transmit_symbol_coding" .seq "transmit_symbol_coding" .empty,
     .field "transmit_signal_coding" .seq "transmit_signal_coding" .empty]

/-- `TransmittingModem`: `modem/modem.py` 616-620, 623-628, 891-895, 899-908, 916-979, 986-988,
992-995, 999-1003, `core/device.py` 583-585, 588-590, 1029-1034, 1038-1043. -/
def transmittingModem : ClassDesc where
  name := "TransmittingModem"
  params :=
    [⟨"selected_transmit_ports", .ints, true, false⟩, ⟨"carrier_frequency", .flt, true, false⟩,
     ⟨"bits_source", .obj, false, false⟩, ⟨"transmit_symbol_coding", .seq, false, false⟩,
     ⟨"transmit_signal_coding", .seq, false, false⟩, ⟨"encoding", .seq, false, false⟩,
     ⟨"waveform", .obj, true, false⟩, ⟨"frame_generator", .obj, false, false⟩,
     ⟨"seed", .int, true, false⟩]
  writes :=
    [⟨"carrier_frequency", .flt, "carrier_frequency", true, .flt⟩,
     ⟨"selected_transmit_ports", .ints, "selected_transmit_ports", true, .ints⟩,
     ⟨"bit_coding", .seq, "encoding", false, .seq⟩, ⟨"waveform", .obj, "waveform", true, .obj⟩,
     ⟨"frame_generator", .obj, "frame_generator", false, .obj⟩,
     ⟨"bits_source", .obj, "bits_source", false, .obj⟩,
     ⟨"transmit_symbol_coding", .seq, "transmit_symbol_coding", false, .seq⟩,
     ⟨"transmit_signal_coding", .seq, "transmit_signal_coding", false, .seq⟩]
  reads :=
    [.field "carrier_frequency" .flt "carrier_frequency" .null,
     .field "selected_transmit_ports" .ints "selected_transmit_ports" .null,
     .field "bit_coding" .seq "encoding" .empty, .field "waveform" .obj "waveform" .null,
     .field "frame_generator" .obj "frame_generator" .null,
     .field "bits_source" .obj "bits_source" .required,
     .field "transmit_symbol_coding" .seq "transmit_symbol_coding" .empty,
     .field "transmit_signal_coding" .seq "transmit_signal_coding" .empty]

/-- `ReceivingModemBase`: `modem/modem.py` 616-620, 623-628, 632-634, 1012-1063, 1270-1273,
1277-1285. -/
def receivingModemBase : ClassDesc where
  name := "ReceivingModemBase"
  params :=
    [⟨"receive_symbol_coding", .seq, false, false⟩, ⟨"receive_signal_coding", .seq, false, false⟩,
     ⟨"encoding", .seq, false, false⟩, ⟨"waveform", .obj, true, false⟩,
     ⟨"frame_generator", .obj, false, false⟩, ⟨"seed", .int, true, false⟩]
  writes :=
    [⟨"bit_coding", .seq, "encoding", false, .seq⟩, ⟨"waveform", .obj, "waveform", true, .obj⟩,
     ⟨"frame_generator", .obj, "frame_generator", false, .obj⟩,
     ⟨"receive_symbol_coding", .seq, "receive_symbol_coding", false, .seq⟩,
     ⟨"receive_signal_coding", .seq, "receive_signal_coding", false, .seq⟩]
  reads :=
    [.field "bit_coding" .seq "encoding" .empty, .field "waveform" .obj "waveform" .null,
     .field "frame_generator" .obj "frame_generator" .null,
     .field "receive_symbol_coding" .seq "receive_symbol_coding" .empty,
     .field "receive_signal_coding" .seq "receive_signal_coding" .empty]

/-- `ReceivingModem`: `modem/modem.py` 616-620, 623-628, 1270-1273, 1277-1285, 1293-1346,
1353-1355, 1359-1362, 1366-1368, `core/device.py` 583-585, 588-590, 749-754, 758-763. -/
def receivingModem : ClassDesc where
  name := "ReceivingModem"
  params :=
    [⟨"selected_receive_ports", .ints, true, false⟩, ⟨"carrier_frequency", .flt, true, false⟩,
     ⟨"receive_symbol_coding", .seq, false, false⟩, ⟨"receive_signal_coding", .seq, false, false⟩,
     ⟨"encoding", .seq, false, false⟩, ⟨"waveform", .obj, true, false⟩,
     ⟨"frame_generator", .obj, false, false⟩, ⟨"seed", .int, true, false⟩]
  writes :=
    [⟨"bit_coding", .seq, "encoding", false, .seq⟩, ⟨"waveform", .obj, "waveform", true, .obj⟩,
     ⟨"frame_generator", .obj, "frame_generator", false, .obj⟩,
     ⟨"receive_symbol_coding", .seq, "receive_symbol_coding", false, .seq⟩,
     ⟨"receive_signal_coding", .seq, "receive_signal_coding", false, .seq⟩,
     ⟨"carrier_frequency", .flt, "carrier_frequency", true, .flt⟩,
     ⟨"selected_receive_ports", .ints, "selected_receive_ports", true, .ints⟩]
  reads :=
    [.field "bit_coding" .seq "encoding" .empty, .field "waveform" .obj "waveform" .null,
     .field "frame_generator" .obj "frame_generator" .null,
     .field "receive_symbol_coding" .seq "receive_symbol_coding" .empty,
     .field "receive_signal_coding" .seq "receive_signal_coding" .empty,
     .field "carrier_frequency" .flt "carrier_frequency" .null,
     .field "selected_receive_ports" .ints "selected_receive_ports" .null]

/-- `DuplexModem`: `modem/modem.py` 616-620, 623-628, 891-895, 899-908, 986-988, 992-995,
1270-1273, 1277-1285, 1353-1355, 1359-1362, 1374-1459, 1462-1464, 1468-1471, 1475-1477,
`core/device.py` 583-585, 588-590, 749-754, 758-763, 1029-1034, 1038-1043. -/
def duplexModem : ClassDesc where
  name := "DuplexModem"
  params :=
    [⟨"selected_transmit_ports", .ints, true, false⟩,
     ⟨"selected_receive_ports", .ints, true, false⟩, ⟨"carrier_frequency", .flt, true, false⟩,
     ⟨"bits_source", .obj, false, false⟩, ⟨"transmit_symbol_coding", .seq, false, false⟩,
     ⟨"receive_symbol_coding", .seq, false, false⟩, ⟨"transmit_signal_coding", .seq, false, false⟩,
     ⟨"receive_signal_coding", .seq, false, false⟩, ⟨"encoding", .seq, false, false⟩,
     ⟨"waveform", .obj, true, false⟩, ⟨"frame_generator", .obj, false, false⟩,
     ⟨"seed", .int, true, false⟩]
  writes :=
    [⟨"carrier_frequency", .flt, "carrier_frequency", true, .flt⟩,
     ⟨"selected_transmit_ports", .ints, "selected_transmit_ports", true, .ints⟩,
     ⟨"bit_coding", .seq, "encoding", false, .seq⟩, ⟨"waveform", .obj, "waveform", true, .obj⟩,
     ⟨"frame_generator", .obj, "frame_generator", false, .obj⟩,
     ⟨"bits_source", .obj, "bits_source", false, .obj⟩,
     ⟨"transmit_symbol_coding", .seq, "transmit_symbol_coding", false, .seq⟩,
     ⟨"transmit_signal_coding", .seq, "transmit_signal_coding", false, .seq⟩,
     ⟨"receive_symbol_coding", .seq, "receive_symbol_coding", false, .seq⟩,
     ⟨"receive_signal_coding", .seq, "receive_signal_coding", false, .seq⟩,
     ⟨"selected_receive_ports", .ints, "selected_receive_ports", true, .ints⟩]
  reads :=
    [.field "carrier_frequency" .flt "carrier_frequency" .null,
     .field "selected_transmit_ports" .ints "selected_transmit_ports" .null,
     .field "bit_coding" .seq "encoding" .empty, .field "waveform" .obj "waveform" .null,
     .field "frame_generator" .obj "frame_generator" .null,
     .field "bits_source" .obj "bits_source" .required,
     .field "transmit_symbol_coding" .seq "transmit_symbol_coding" .empty,
     .field "transmit_signal_coding" .seq "transmit_signal_coding" .empty,
     .field "receive_symbol_coding" .seq "receive_symbol_coding" .empty,
     .field "receive_signal_coding" .seq "receive_signal_coding" .empty,
     .field "selected_receive_ports" .ints "selected_receive_ports" .null]

/-- `SimplexLink`: `modem/modem.py` 616-620, 623-628, 891-895, 899-908, 986-988, 992-995,
1270-1273, 1277-1285, 1353-1355, 1359-1362, 1483-1569, 1589-1591, 1595-1598, 1602-1604,
`core/device.py` 583-585, 588-590, 749-754, 758-763, 1029-1034, 1038-1043. -/
def simplexLink : ClassDesc where
  name := "SimplexLink"
  params :=
    [⟨"selected_transmit_ports", .ints, true, false⟩,
     ⟨"selected_receive_ports", .ints, true, false⟩, ⟨"carrier_frequency", .flt, true, false⟩,
     ⟨"bits_source", .obj, false, false⟩, ⟨"transmit_symbol_coding", .seq, false, false⟩,
     ⟨"receive_symbol_coding", .seq, false, false⟩, ⟨"transmit_signal_coding", .seq, false, false⟩,
     ⟨"receive_signal_coding", .seq, false, false⟩, ⟨"encoding", .seq, false, false⟩,
     ⟨"waveform", .obj, true, false⟩, ⟨"frame_generator", .obj, false, false⟩,
     ⟨"seed", .int, true, false⟩]
  writes :=
    [⟨"carrier_frequency", .flt, "carrier_frequency", true, .flt⟩,
     ⟨"selected_transmit_ports", .ints, "selected_transmit_ports", true, .ints⟩,
     ⟨"bit_coding", .seq, "encoding", false, .seq⟩, ⟨"waveform", .obj, "waveform", true, .obj⟩,
     ⟨"frame_generator", .obj, "frame_generator", false, .obj⟩,
     ⟨"bits_source", .obj, "bits_source", false, .obj⟩,
     ⟨"transmit_symbol_coding", .seq, "transmit_symbol_coding", false, .seq⟩,
     ⟨"transmit_signal_coding", .seq, "transmit_signal_coding", false, .seq⟩,
     ⟨"receive_symbol_coding", .seq, "receive_symbol_coding", false, .seq⟩,
     ⟨"receive_signal_coding", .seq, "receive_signal_coding", false, .seq⟩,
     ⟨"selected_receive_ports", .ints, "selected_receive_ports", true, .ints⟩]
  reads :=
    [.field "carrier_frequency" .flt "carrier_frequency" .null,
     .field "selected_transmit_ports" .ints "selected_transmit_ports" .null,
     .field "bit_coding" .seq "encoding" .empty, .field "waveform" .obj "waveform" .null,
     .field "frame_generator" .obj "frame_generator" .null,
     .field "bits_source" .obj "bits_source" .required,
     .field "transmit_symbol_coding" .seq "transmit_symbol_coding" .empty,
     .field "transmit_signal_coding" .seq "transmit_signal_coding" .empty,
     .field "receive_symbol_coding" .seq "receive_symbol_coding" .empty,
     .field "receive_signal_coding" .seq "receive_signal_coding" .empty,
     .field "selected_receive_ports" .ints "selected_receive_ports" .null]

/-- `DFT`: `modem/precoding/dft.py` 41-57, 94-95, 99-100. -/
def dft : ClassDesc where
  name := "DFT"
  params :=
    [⟨"fft_norm", .txt, false, false⟩]
  writes :=
    [⟨"fft_norm", .txt, "fft_norm", false, .txt⟩]
  reads :=
    [.field "fft_norm" .txt "fft_norm" .standard]

/-- `MaximumRatioCombining`: `modem/precoding/symbol_precoding.py` 71-73,
`modem/precoding/ratio_combining.py` 68-69, 73-74. -/
def maximumRatioCombining : ClassDesc where
  name := "MaximumRatioCombining"
  params :=
    []
  writes :=
    []
  reads :=
    []

/-- `SingleCarrier`: `modem/precoding/symbol_precoding.py` 71-73,
`modem/precoding/single_carrier.py` 64-65, 69-70. -/
def singleCarrier : ClassDesc where
  name := "SingleCarrier"
  params :=
    []
  writes :=
    []
  reads :=
    []

/-- `Alamouti`: `modem/precoding/space_time_block_coding.py` 30-34, 148-149, 153-154. -/
def alamouti : ClassDesc where
  name := "Alamouti"
  params :=
    []
  writes :=
    []
  reads :=
    []

/-- `Ganesan`: `modem/precoding/symbol_precoding.py` 29-31,
`modem/precoding/space_time_block_coding.py` 364-365, 369-370. -/
def ganesan : ClassDesc where
  name := "Ganesan"
  params :=
    []
  writes :=
    []
  reads :=
    []

/-- `TransmitSymbolCoding`: `core/precoding.py` 121-126, 187-188, 192-195. -/
def transmitSymbolCoding : ClassDesc where
  name := "TransmitSymbolCoding"
  params :=
    [⟨"precoders", .seq, false, false⟩]
  writes :=
    [⟨"precoders", .seq, "precoders", false, .seq⟩]
  reads :=
    [.field "precoders" .seq "precoders" .empty]

/-- `ReceiveSymbolCoding`: `core/precoding.py` 121-126, 187-188, 192-195. -/
def receiveSymbolCoding : ClassDesc where
  name := "ReceiveSymbolCoding"
  params :=
    [⟨"precoders", .seq, false, false⟩]
  writes :=
    [⟨"precoders", .seq, "precoders", false, .seq⟩]
  reads :=
    [.field "precoders" .seq "precoders" .empty]

/-- `Symbols`: `modem/symbols.py` 142-168, 312-313, 317-318. -/
def symbols : ClassDesc where
  name := "Symbols"
  params :=
    [⟨"symbols", .cpxs, false, false⟩]
  writes :=
    [⟨"symbols", .cpxs, "symbols", false, .cpxs⟩]
  reads :=
    [.field "symbols" .cpxs "symbols" .required]

/-- `StatedSymbols`: `modem/symbols.py` 312-313, 326-343, 403-405, 408-411. -/
def statedSymbols : ClassDesc where
  name := "StatedSymbols"
  params :=
    [⟨"symbols", .cpxs, false, true⟩, ⟨"states", .cpxs, false, true⟩]
  writes :=
    [⟨"symbols", .cpxs, "symbols", false, .cpxs⟩, ⟨"states", .cpxs, "states", false, .cpxs⟩]
  reads :=
    [.field "symbols" .cpxs "symbols" .required, .field "states" .cpxs "states" .required]

/-- `PskQamMapping`: `modem/tools/psk_qam_mapping.py` 41-102, 527-530, 534-538. -/
def pskQamMapping : ClassDesc where
  name := "PskQamMapping"
  params :=
    [⟨"modulation_order", .int, false, true⟩, ⟨"mapping", .cpxs, true, false⟩,
     ⟨"soft_output", .flag, false, false⟩, ⟨"is_complex", .flag, false, false⟩]
  writes :=
    [⟨"modulation_order", .int, "modulation_order", false, .int⟩,
     ⟨"mapping", .cpxs, "mapping", true, .cpxs⟩]
  reads :=
    [.field "modulation_order" .int "modulation_order" .required,
     .field "mapping" .cpxs "mapping" .null]

/-- `Synchronization`: `modem/waveform.py` 39-46, 102-103, 107-108. -/
def synchronization : ClassDesc where
  name := "Synchronization"
  params :=
    []
  writes :=
    []
  reads :=
    []

/-- `ChannelEstimation`: `modem/waveform.py` 114-121, 173-174, 178-179. -/
def channelEstimation : ClassDesc where
  name := "ChannelEstimation"
  params :=
    []
  writes :=
    []
  reads :=
    []

/-- `ChannelEqualization`: `modem/waveform.py` 185-192, 226-227, 231-232. -/
def channelEqualization : ClassDesc where
  name := "ChannelEqualization"
  params :=
    []
  writes :=
    []
  reads :=
    []

/-- `ZeroForcingChannelEqualization`: `modem/waveform.py` 185-192, 226-227, 231-232. -/
def zeroForcingChannelEqualization : ClassDesc where
  name := "ZeroForcingChannelEqualization"
  params :=
    []
  writes :=
    []
  reads :=
    []

/-- `UniformPilotSymbolSequence`: `modem/waveform.py` 685-693, 701-704, 708-712. -/
def uniformPilotSymbolSequence : ClassDesc where
  name := "UniformPilotSymbolSequence"
  params :=
    [⟨"pilot_symbol", .cpxs, false, false⟩]
  writes :=
    [⟨"pilot_symbol", .cpxs, "pilot_symbol", false, .cpxs⟩]
  reads :=
    [.field "pilot_symbol" .cpxs "pilot_symbol" .standard]

/-- `CustomPilotSymbolSequence`: `modem/waveform.py` 723-731, 738-739, 743-745. -/
def customPilotSymbolSequence : ClassDesc where
  name := "CustomPilotSymbolSequence"
  params :=
    [⟨"pilot_symbols", .cpxs, false, true⟩]
  writes :=
    [⟨"pilot_symbols", .cpxs, "pilot_symbols", false, .cpxs⟩]
  reads :=
    [.field "pilot_symbols" .cpxs "pilot_symbols" .required]

/-- `ChirpFSKWaveform`: `modem/waveform_chirp_fsk.py` 53-93, 449-455, 459-477, `modem/waveform.py`
613-617, 620-640. -/
def chirpFSKWaveform : ClassDesc where
  name := "ChirpFSKWaveform"
  params :=
    [⟨"chirp_duration", .flt, false, false⟩, ⟨"freq_difference", .flt, false, false⟩,
     ⟨"num_pilot_chirps", .int, false, false⟩, ⟨"num_data_chirps", .int, false, false⟩,
     ⟨"guard_interval", .flt, false, false⟩, ⟨"modulation_order", .int, false, false⟩,
     ⟨"channel_estimation", .obj, false, false⟩, ⟨"channel_equalization", .obj, false, false⟩,
     ⟨"synchronization", .obj, false, false⟩]
  writes :=
    [⟨"modulation_order", .int, "modulation_order", false, .int⟩,
     ⟨"synchronization", .obj, "synchronization", false, .obj⟩,
     ⟨"channel_estimation", .obj, "channel_estimation", false, .obj⟩,
     ⟨"channel_equalization", .obj, "channel_equalization", false, .obj⟩,
     ⟨"chirp_duration", .flt, "chirp_duration", false, .flt⟩,
     ⟨"freq_difference", .flt, "freq_difference", false, .flt⟩,
     ⟨"num_pilot_chirps", .int, "num_pilot_chirps", false, .int⟩,
     ⟨"num_data_chirps", .int, "num_data_chirps", false, .int⟩,
     ⟨"guard_interval", .flt, "guard_interval", false, .flt⟩]
  reads :=
    [.field "chirp_duration" .flt "chirp_duration" .standard,
     .field "freq_difference" .flt "freq_difference" .standard,
     .field "num_pilot_chirps" .int "num_pilot_chirps" .standard,
     .field "num_data_chirps" .int "num_data_chirps" .standard,
     .field "guard_interval" .flt "guard_interval" .standard,
     .field "modulation_order" .int "modulation_order" .standard,
     .field "synchronization" .obj "synchronization" .required,
     .field "channel_estimation" .obj "channel_estimation" .required,
     .field "channel_equalization" .obj "channel_equalization" .required]

/-- `ChirpFSKSynchronization`: `modem/waveform_chirp_fsk.py` 483-491, `modem/waveform.py` 102-103,
107-108. -/
def chirpFSKSynchronization : ClassDesc where
  name := "ChirpFSKSynchronization"
  params :=
    []
  writes :=
    []
  reads :=
    []

/-- `ChirpFSKCorrelationSynchronization`: `modem/waveform_correlation_synchronization.py` 41-70,
173-176, 180-187. -/
def chirpFSKCorrelationSynchronization : ClassDesc where
  name := "ChirpFSKCorrelationSynchronization"
  params :=
    [⟨"threshold", .flt, false, false⟩, ⟨"guard_ratio", .flt, false, false⟩,
     ⟨"peak_prominence", .flt, false, false⟩]
  writes :=
    [⟨"threshold", .flt, "threshold", false, .flt⟩,
     ⟨"guard_ratio", .flt, "guard_ratio", false, .flt⟩,
     ⟨"peak_prominence", .flt, "peak_prominence", false, .flt⟩]
  reads :=
    [.field "threshold" .flt "threshold" .standard,
     .field "guard_ratio" .flt "guard_ratio" .standard,
     .field "peak_prominence" .flt "peak_prominence" .standard]

/-- `CorrelationSynchronization`: `modem/waveform_correlation_synchronization.py` 41-70, 173-176,
180-187. -/
def correlationSynchronization : ClassDesc where
  name := "CorrelationSynchronization"
  params :=
    [⟨"threshold", .flt, false, false⟩, ⟨"guard_ratio", .flt, false, false⟩,
     ⟨"peak_prominence", .flt, false, false⟩]
  writes :=
    [⟨"threshold", .flt, "threshold", false, .flt⟩,
     ⟨"guard_ratio", .flt, "guard_ratio", false, .flt⟩,
     ⟨"peak_prominence", .flt, "peak_prominence", false, .flt⟩]
  reads :=
    [.field "threshold" .flt "threshold" .standard,
     .field "guard_ratio" .flt "guard_ratio" .standard,
     .field "peak_prominence" .flt "peak_prominence" .standard]

/-- `SingleCarrierCorrelationSynchronization`: `modem/waveform_correlation_synchronization.py`
41-70, 173-176, 180-187. -/
def singleCarrierCorrelationSynchronization : ClassDesc where
  name := "SingleCarrierCorrelationSynchronization"
  params :=
    [⟨"threshold", .flt, false, false⟩, ⟨"guard_ratio", .flt, false, false⟩,
     ⟨"peak_prominence", .flt, false, false⟩]
  writes :=
    [⟨"threshold", .flt, "threshold", false, .flt⟩,
     ⟨"guard_ratio", .flt, "guard_ratio", false, .flt⟩,
     ⟨"peak_prominence", .flt, "peak_prominence", false, .flt⟩]
  reads :=
    [.field "threshold" .flt "threshold" .standard,
     .field "guard_ratio" .flt "guard_ratio" .standard,
     .field "peak_prominence" .flt "peak_prominence" .standard]

/-- `SingleCarrierChannelEstimation`: `modem/waveform_single_carrier.py` 494-501,
`modem/waveform.py` 173-174, 178-179. -/
def singleCarrierChannelEstimation : ClassDesc where
  name := "SingleCarrierChannelEstimation"
  params :=
    []
  writes :=
    []
  reads :=
    []

/-- `SingleCarrierLeastSquaresChannelEstimation`: `modem/waveform_single_carrier.py` 507-514,
`modem/waveform.py` 173-174, 178-179. -/
def singleCarrierLeastSquaresChannelEstimation : ClassDesc where
  name := "SingleCarrierLeastSquaresChannelEstimation"
  params :=
    []
  writes :=
    []
  reads :=
    []

/-- `SingleCarrierChannelEqualization`: `modem/waveform_single_carrier.py` 569-577,
`modem/waveform.py` 226-227, 231-232. -/
def singleCarrierChannelEqualization : ClassDesc where
  name := "SingleCarrierChannelEqualization"
  params :=
    []
  writes :=
    []
  reads :=
    []

/-- `SingleCarrierZeroForcingChannelEqualization`: `modem/waveform.py` 185-192, 226-227, 231-232.
-/
def singleCarrierZeroForcingChannelEqualization : ClassDesc where
  name := "SingleCarrierZeroForcingChannelEqualization"
  params :=
    []
  writes :=
    []
  reads :=
    []

/-- `SingleCarrierMinimumMeanSquareChannelEqualization`: `modem/waveform_single_carrier.py`
589-597, `modem/waveform.py` 226-227, 231-232. -/
def singleCarrierMinimumMeanSquareChannelEqualization : ClassDesc where
  name := "SingleCarrierMinimumMeanSquareChannelEqualization"
  params :=
    []
  writes :=
    []
  reads :=
    []

/-- `RootRaisedCosineWaveform`: `modem/waveform_single_carrier.py` 450-456, 460-477, 481-482,
757-761, 765-774, 780-781, `modem/waveform.py` 613-617, 620-640. -/
def rootRaisedCosineWaveform : ClassDesc where
  name := "RootRaisedCosineWaveform"
  params :=
    [⟨"relative_bandwidth", .flt, false, false⟩, ⟨"roll_off", .flt, false, false⟩,
     ⟨"filter_length", .int, false, false⟩, ⟨"num_preamble_symbols", .int, false, false⟩,
     ⟨"num_data_symbols", .int, false, false⟩, ⟨"num_postamble_symbols", .int, false, false⟩,
     ⟨"pilot_rate", .int, false, false⟩, ⟨"guard_interval", .flt, false, false⟩,
     ⟨"pilot_symbol_sequence", .obj, true, false⟩,
     ⟨"repeat_pilot_symbol_sequence", .flag, false, false⟩,
     ⟨"modulation_order", .int, false, false⟩, ⟨"channel_estimation", .obj, false, false⟩,
     ⟨"channel_equalization", .obj, false, false⟩, ⟨"synchronization", .obj, false, false⟩]
  writes :=
    [⟨"modulation_order", .int, "modulation_order", false, .int⟩,
     ⟨"synchronization", .obj, "synchronization", false, .obj⟩,
     ⟨"channel_estimation", .obj, "channel_estimation", false, .obj⟩,
     ⟨"channel_equalization", .obj, "channel_equalization", false, .obj⟩,
     ⟨"num_preamble_symbols", .int, "num_preamble_symbols", false, .int⟩,
     ⟨"num_data_symbols", .int, "num_data_symbols", false, .int⟩,
     ⟨"num_postamble_symbols", .int, "num_postamble_symbols", false, .int⟩,
     ⟨"guard_interval", .flt, "guard_interval", false, .flt⟩,
     ⟨"pilot_rate", .int, "pilot_rate", false, .int⟩,
     ⟨"relative_bandwidth", .flt, "relative_bandwidth", false, .flt⟩,
     ⟨"roll_off", .flt, "roll_off", false, .flt⟩,
     ⟨"filter_length", .int, "filter_length", false, .int⟩]
  reads :=
    [.field "modulation_order" .int "modulation_order" .standard,
     .field "synchronization" .obj "synchronization" .required,
     .field "channel_estimation" .obj "channel_estimation" .required,
     .field "channel_equalization" .obj "channel_equalization" .required,
     .field "num_preamble_symbols" .int "num_preamble_symbols" .standard,
     .field "num_data_symbols" .int "num_data_symbols" .standard,
     .field "num_postamble_symbols" .int "num_postamble_symbols" .standard,
     .field "guard_interval" .flt "guard_interval" .standard,
     .field "pilot_rate" .int "pilot_rate" .standard,
     .field "relative_bandwidth" .flt "relative_bandwidth" .standard,
     .field "roll_off" .flt "roll_off" .standard,
     .field "filter_length" .int "filter_length" .standard]

/-- `RaisedCosineWaveform`: `modem/waveform_single_carrier.py` 450-456, 460-477, 481-482, 757-761,
765-774, 828-829, `modem/waveform.py` 613-617, 620-640. -/
def raisedCosineWaveform : ClassDesc where
  name := "RaisedCosineWaveform"
  params :=
    [⟨"relative_bandwidth", .flt, false, false⟩, ⟨"roll_off", .flt, false, false⟩,
     ⟨"filter_length", .int, false, false⟩, ⟨"num_preamble_symbols", .int, false, false⟩,
     ⟨"num_data_symbols", .int, false, false⟩, ⟨"num_postamble_symbols", .int, false, false⟩,
     ⟨"pilot_rate", .int, false, false⟩, ⟨"guard_interval", .flt, false, false⟩,
     ⟨"pilot_symbol_sequence", .obj, true, false⟩,
     ⟨"repeat_pilot_symbol_sequence", .flag, false, false⟩,
     ⟨"modulation_order", .int, false, false⟩, ⟨"channel_estimation", .obj, false, false⟩,
     ⟨"channel_equalization", .obj, false, false⟩, ⟨"synchronization", .obj, false, false⟩]
  writes :=
    [⟨"modulation_order", .int, "modulation_order", false, .int⟩,
     ⟨"synchronization", .obj, "synchronization", false, .obj⟩,
     ⟨"channel_estimation", .obj, "channel_estimation", false, .obj⟩,
     ⟨"channel_equalization", .obj, "channel_equalization", false, .obj⟩,
     ⟨"num_preamble_symbols", .int, "num_preamble_symbols", false, .int⟩,
     ⟨"num_data_symbols", .int, "num_data_symbols", false, .int⟩,
     ⟨"num_postamble_symbols", .int, "num_postamble_symbols", false, .int⟩,
     ⟨"guard_interval", .flt, "guard_interval", false, .flt⟩,
     ⟨"pilot_rate", .int, "pilot_rate", false, .int⟩,
     ⟨"relative_bandwidth", .flt, "relative_bandwidth", false, .flt⟩,
     ⟨"roll_off", .flt, "roll_off", false, .flt⟩,
     ⟨"filter_length", .int, "filter_length", false, .int⟩]
  reads :=
    [.field "modulation_order" .int "modulation_order" .standard,
     .field "synchronization" .obj "synchronization" .required,
     .field "channel_estimation" .obj "channel_estimation" .required,
     .field "channel_equalization" .obj "channel_equalization" .required,
     .field "num_preamble_symbols" .int "num_preamble_symbols" .standard,
     .field "num_data_symbols" .int "num_data_symbols" .standard,
     .field "num_postamble_symbols" .int "num_postamble_symbols" .standard,
     .field "guard_interval" .flt "guard_interval" .standard,
     .field "pilot_rate" .int "pilot_rate" .standard,
     .field "relative_bandwidth" .flt "relative_bandwidth" .standard,
     .field "roll_off" .flt "roll_off" .standard,
     .field "filter_length" .int "filter_length" .standard]

/-- `RectangularWaveform`: `modem/waveform_single_carrier.py` 70-127, 450-456, 460-477, 481-482,
`modem/waveform.py` 613-617, 620-640. -/
def rectangularWaveform : ClassDesc where
  name := "RectangularWaveform"
  params :=
    [⟨"num_preamble_symbols", .int, false, false⟩, ⟨"num_data_symbols", .int, false, false⟩,
     ⟨"num_postamble_symbols", .int, false, false⟩, ⟨"pilot_rate", .int, false, false⟩,
     ⟨"guard_interval", .flt, false, false⟩, ⟨"pilot_symbol_sequence", .obj, true, false⟩,
     ⟨"repeat_pilot_symbol_sequence", .flag, false, false⟩,
     ⟨"modulation_order", .int, false, false⟩, ⟨"channel_estimation", .obj, false, false⟩,
     ⟨"channel_equalization", .obj, false, false⟩, ⟨"synchronization", .obj, false, false⟩]
  writes :=
    [⟨"modulation_order", .int, "modulation_order", false, .int⟩,
     ⟨"synchronization", .obj, "synchronization", false, .obj⟩,
     ⟨"channel_estimation", .obj, "channel_estimation", false, .obj⟩,
     ⟨"channel_equalization", .obj, "channel_equalization", false, .obj⟩,
     ⟨"num_preamble_symbols", .int, "num_preamble_symbols", false, .int⟩,
     ⟨"num_data_symbols", .int, "num_data_symbols", false, .int⟩,
     ⟨"num_postamble_symbols", .int, "num_postamble_symbols", false, .int⟩,
     ⟨"guard_interval", .flt, "guard_interval", false, .flt⟩,
     ⟨"pilot_rate", .int, "pilot_rate", false, .int⟩]
  reads :=
    [.field "modulation_order" .int "modulation_order" .standard,
     .field "synchronization" .obj "synchronization" .required,
     .field "channel_estimation" .obj "channel_estimation" .required,
     .field "channel_equalization" .obj "channel_equalization" .required,
     .field "num_preamble_symbols" .int "num_preamble_symbols" .standard,
     .field "num_data_symbols" .int "num_data_symbols" .standard,
     .field "num_postamble_symbols" .int "num_postamble_symbols" .standard,
     .field "guard_interval" .flt "guard_interval" .standard,
     .field "pilot_rate" .int "pilot_rate" .standard]

/-- `FMCWWaveform`: `modem/waveform_single_carrier.py` 450-456, 460-477, 897-915, 998-1000,
1004-1010, `modem/waveform.py` 613-617, 620-640. -/
def fmcwWaveform : ClassDesc where
  name := "FMCWWaveform"
  params :=
    [⟨"num_samples_per_chirp", .int, false, false⟩, ⟨"num_preamble_symbols", .int, false, false⟩,
     ⟨"num_data_symbols", .int, false, false⟩, ⟨"num_postamble_symbols", .int, false, false⟩,
     ⟨"pilot_rate", .int, false, false⟩, ⟨"guard_interval", .flt, false, false⟩,
     ⟨"pilot_symbol_sequence", .obj, true, false⟩,
     ⟨"repeat_pilot_symbol_sequence", .flag, false, false⟩,
     ⟨"modulation_order", .int, false, false⟩, ⟨"channel_estimation", .obj, false, false⟩,
     ⟨"channel_equalization", .obj, false, false⟩, ⟨"synchronization", .obj, false, false⟩]
  writes :=
    [⟨"modulation_order", .int, "modulation_order", false, .int⟩,
     ⟨"synchronization", .obj, "synchronization", false, .obj⟩,
     ⟨"channel_estimation", .obj, "channel_estimation", false, .obj⟩,
     ⟨"channel_equalization", .obj, "channel_equalization", false, .obj⟩,
     ⟨"num_preamble_symbols", .int, "num_preamble_symbols", false, .int⟩,
     ⟨"num_data_symbols", .int, "num_data_symbols", false, .int⟩,
     ⟨"num_postamble_symbols", .int, "num_postamble_symbols", false, .int⟩,
     ⟨"guard_interval", .flt, "guard_interval", false, .flt⟩,
     ⟨"pilot_rate", .int, "pilot_rate", false, .int⟩,
     ⟨"num_samples_per_chirp", .int, "num_samples_per_chirp", false, .int⟩]
  reads :=
    [.field "num_samples_per_chirp" .int "num_samples_per_chirp" .standard,
     .field "modulation_order" .int "modulation_order" .standard,
     .field "synchronization" .obj "synchronization" .required,
     .field "channel_estimation" .obj "channel_estimation" .required,
     .field "channel_equalization" .obj "channel_equalization" .required,
     .field "num_preamble_symbols" .int "num_preamble_symbols" .standard,
     .field "num_data_symbols" .int "num_data_symbols" .standard,
     .field "num_postamble_symbols" .int "num_postamble_symbols" .standard,
     .field "guard_interval" .flt "guard_interval" .standard,
     .field "pilot_rate" .int "pilot_rate" .standard]

/-- `PSS`: `modem/waveforms/orthogonal/waveform.py` 727-746, 894-896, 900-901. -/
def pss : ClassDesc where
  name := "PSS"
  params :=
    [⟨"pilot_elements", .obj, true, false⟩]
  writes :=
    [⟨"pilot_elements", .obj, "pilot_elements", true, .obj⟩]
  reads :=
    [.field "pilot_elements" .obj "pilot_elements" .null]

/-- `SSS`: `modem/waveforms/orthogonal/waveform.py` 727-746, 894-896, 900-901. -/
def sss : ClassDesc where
  name := "SSS"
  params :=
    [⟨"pilot_elements", .obj, true, false⟩]
  writes :=
    [⟨"pilot_elements", .obj, "pilot_elements", true, .obj⟩]
  reads :=
    [.field "pilot_elements" .obj "pilot_elements" .null]

/-- `NRSlot`: `modem/waveforms/ieee_5gnr.py` 204-235, 244-245, 249-254. -/
def nrSlot : ClassDesc where
  name := "NRSlot"
  params :=
    [⟨"num_resource_blocks", .int, false, false⟩]
  writes :=
    [⟨"num_resource_blocks", .int, "num_resource_blocks", false, .int⟩]
  reads :=
    [.field "num_resource_blocks" .int "num_resource_blocks" .standard]

/-- `NRSubframe`: `modem/waveforms/ieee_5gnr.py` 279-315, 327-329, 333-339. -/
def nrSubframe : ClassDesc where
  name := "NRSubframe"
  params :=
    [⟨"numerology", .int, false, true⟩, ⟨"num_resource_blocks", .int, false, false⟩]
  writes :=
    [⟨"numerology", .int, "numerology", false, .int⟩,
     ⟨"num_resource_blocks", .int, "num_resource_blocks", false, .int⟩]
  reads :=
    [.field "numerology" .int "numerology" .standard,
     .field "num_resource_blocks" .int "num_resource_blocks" .standard]

/-- `NRFrame`: `modem/waveforms/ieee_5gnr.py` 327-329, 333-339, 349-355. -/
def nrFrame : ClassDesc where
  name := "NRFrame"
  params :=
    [⟨"numerology", .int, false, true⟩, ⟨"num_resource_blocks", .int, false, false⟩]
  writes :=
    [⟨"numerology", .int, "numerology", false, .int⟩,
     ⟨"num_resource_blocks", .int, "num_resource_blocks", false, .int⟩]
  reads :=
    [.field "numerology" .int "numerology" .standard,
     .field "num_resource_blocks" .int "num_resource_blocks" .standard]

/-- `NRSynchronization`: `modem/waveform.py` 39-46, 102-103, 107-108. -/
def nrSynchronization : ClassDesc where
  name := "NRSynchronization"
  params :=
    []
  writes :=
    []
  reads :=
    []

/-- `OrthogonalLeastSquaresChannelEstimation`: `modem/waveform.py` 114-121, 173-174, 178-179. -/
def orthogonalLeastSquaresChannelEstimation : ClassDesc where
  name := "OrthogonalLeastSquaresChannelEstimation"
  params :=
    []
  writes :=
    []
  reads :=
    []

/-- `OrthogonalChannelEqualization`: `modem/waveforms/orthogonal/channel.py` 72-80,
`modem/waveform.py` 226-227, 231-232. -/
def orthogonalChannelEqualization : ClassDesc where
  name := "OrthogonalChannelEqualization"
  params :=
    []
  writes :=
    []
  reads :=
    []

/-- `OrthogonalZeroForcingChannelEqualization`: `modem/waveform.py` 185-192, 226-227, 231-232. -/
def orthogonalZeroForcingChannelEqualization : ClassDesc where
  name := "OrthogonalZeroForcingChannelEqualization"
  params :=
    []
  writes :=
    []
  reads :=
    []

/-- `OCDMWaveform`: `modem/waveforms/orthogonal/waveform.py` 959-995, 1367-1373, 1377-1391,
1395-1396, `modem/waveform.py` 613-617, 620-640. -/
def ocdmWaveform : ClassDesc where
  name := "OCDMWaveform"
  params :=
    [⟨"num_subcarriers", .int, false, true⟩, ⟨"grid_resources", .seq, false, true⟩,
     ⟨"grid_structure", .seq, false, true⟩, ⟨"pilot_section", .obj, true, false⟩,
     ⟨"pilot_sequence", .obj, true, false⟩, ⟨"repeat_pilot_sequence", .flag, false, false⟩,
     ⟨"modulation_order", .int, false, false⟩, ⟨"channel_estimation", .obj, false, false⟩,
     ⟨"channel_equalization", .obj, false, false⟩, ⟨"synchronization", .obj, false, false⟩]
  writes :=
    [⟨"modulation_order", .int, "modulation_order", false, .int⟩,
     ⟨"synchronization", .obj, "synchronization", false, .obj⟩,
     ⟨"channel_estimation", .obj, "channel_estimation", false, .obj⟩,
     ⟨"channel_equalization", .obj, "channel_equalization", false, .obj⟩,
     ⟨"num_subcarriers", .int, "num_subcarriers", false, .int⟩,
     ⟨"grid_resources", .seq, "grid_resources", false, .seq⟩,
     ⟨"grid_structure", .seq, "grid_structure", false, .seq⟩,
     ⟨"pilot_section", .obj, "pilot_section", true, .obj⟩]
  reads :=
    [.field "modulation_order" .int "modulation_order" .standard,
     .field "synchronization" .obj "synchronization" .required,
     .field "channel_estimation" .obj "channel_estimation" .required,
     .field "channel_equalization" .obj "channel_equalization" .required,
     .field "num_subcarriers" .int "num_subcarriers" .required,
     .field "grid_resources" .seq "grid_resources" .empty,
     .field "grid_structure" .seq "grid_structure" .empty,
     .field "pilot_section" .obj "pilot_section" .null]

/-- `OFDMWaveform`: `modem/waveforms/orthogonal/ofdm.py` 39-95, 180-181,
`modem/waveforms/orthogonal/waveform.py` 1367-1373, 1377-1391, 1395-1396, `modem/waveform.py`
613-617, 620-640. -/
def ofdmWaveform : ClassDesc where
  name := "OFDMWaveform"
  params :=
    [⟨"grid_resources", .seq, false, true⟩, ⟨"grid_structure", .seq, false, true⟩,
     ⟨"num_subcarriers", .int, false, false⟩, ⟨"dc_suppression", .flag, false, false⟩,
     ⟨"pilot_section", .obj, true, false⟩, ⟨"pilot_sequence", .obj, true, false⟩,
     ⟨"repeat_pilot_sequence", .flag, false, false⟩, ⟨"modulation_order", .int, false, false⟩,
     ⟨"channel_estimation", .obj, false, false⟩, ⟨"channel_equalization", .obj, false, false⟩,
     ⟨"synchronization", .obj, false, false⟩]
  writes :=
    [⟨"modulation_order", .int, "modulation_order", false, .int⟩,
     ⟨"synchronization", .obj, "synchronization", false, .obj⟩,
     ⟨"channel_estimation", .obj, "channel_estimation", false, .obj⟩,
     ⟨"channel_equalization", .obj, "channel_equalization", false, .obj⟩,
     ⟨"num_subcarriers", .int, "num_subcarriers", false, .int⟩,
     ⟨"grid_resources", .seq, "grid_resources", false, .seq⟩,
     ⟨"grid_structure", .seq, "grid_structure", false, .seq⟩,
     ⟨"pilot_section", .obj, "pilot_section", true, .obj⟩]
  reads :=
    [.field "modulation_order" .int "modulation_order" .standard,
     .field "synchronization" .obj "synchronization" .required,
     .field "channel_estimation" .obj "channel_estimation" .required,
     .field "channel_equalization" .obj "channel_equalization" .required,
     .field "num_subcarriers" .int "num_subcarriers" .required,
     .field "grid_resources" .seq "grid_resources" .empty,
     .field "grid_structure" .seq "grid_structure" .empty,
     .field "pilot_section" .obj "pilot_section" .null]

/-- `SchmidlCoxPilotSection`: `modem/waveforms/orthogonal/waveform.py` 727-746, 894-896, 900-901.
-/
def schmidlCoxPilotSection : ClassDesc where
  name := "SchmidlCoxPilotSection"
  params :=
    [⟨"pilot_elements", .obj, true, false⟩]
  writes :=
    [⟨"pilot_elements", .obj, "pilot_elements", true, .obj⟩]
  reads :=
    [.field "pilot_elements" .obj "pilot_elements" .null]

/-- `OFDMSynchronization`: `modem/waveform.py` 39-46, 102-103, 107-108. -/
def ofdmSynchronization : ClassDesc where
  name := "OFDMSynchronization"
  params :=
    []
  writes :=
    []
  reads :=
    []

/-- `OFDMCorrelationSynchronization`: `modem/waveform_correlation_synchronization.py` 41-70,
173-176, 180-187. -/
def ofdmCorrelationSynchronization : ClassDesc where
  name := "OFDMCorrelationSynchronization"
  params :=
    [⟨"threshold", .flt, false, false⟩, ⟨"guard_ratio", .flt, false, false⟩,
     ⟨"peak_prominence", .flt, false, false⟩]
  writes :=
    [⟨"threshold", .flt, "threshold", false, .flt⟩,
     ⟨"guard_ratio", .flt, "guard_ratio", false, .flt⟩,
     ⟨"peak_prominence", .flt, "peak_prominence", false, .flt⟩]
  reads :=
    [.field "threshold" .flt "threshold" .standard,
     .field "guard_ratio" .flt "guard_ratio" .standard,
     .field "peak_prominence" .flt "peak_prominence" .standard]

/-- `SchmidlCoxSynchronization`: `modem/waveform.py` 39-46, 102-103, 107-108. -/
def schmidlCoxSynchronization : ClassDesc where
  name := "SchmidlCoxSynchronization"
  params :=
    []
  writes :=
    []
  reads :=
    []

/-- `OTFSWaveform`: `modem/waveforms/orthogonal/ofdm.py` 39-95, 180-181,
`modem/waveforms/orthogonal/waveform.py` 1367-1373, 1377-1391, 1395-1396, `modem/waveform.py`
613-617, 620-640. -/
def otfsWaveform : ClassDesc where
  name := "OTFSWaveform"
  params :=
    [⟨"grid_resources", .seq, false, true⟩, ⟨"grid_structure", .seq, false, true⟩,
     ⟨"num_subcarriers", .int, false, false⟩, ⟨"dc_suppression", .flag, false, false⟩,
     ⟨"pilot_section", .obj, true, false⟩, ⟨"pilot_sequence", .obj, true, false⟩,
     ⟨"repeat_pilot_sequence", .flag, false, false⟩, ⟨"modulation_order", .int, false, false⟩,
     ⟨"channel_estimation", .obj, false, false⟩, ⟨"channel_equalization", .obj, false, false⟩,
     ⟨"synchronization", .obj, false, false⟩]
  writes :=
    [⟨"modulation_order", .int, "modulation_order", false, .int⟩,
     ⟨"synchronization", .obj, "synchronization", false, .obj⟩,
     ⟨"channel_estimation", .obj, "channel_estimation", false, .obj⟩,
     ⟨"channel_equalization", .obj, "channel_equalization", false, .obj⟩,
     ⟨"num_subcarriers", .int, "num_subcarriers", false, .int⟩,
     ⟨"grid_resources", .seq, "grid_resources", false, .seq⟩,
     ⟨"grid_structure", .seq, "grid_structure", false, .seq⟩,
     ⟨"pilot_section", .obj, "pilot_section", true, .obj⟩]
  reads :=
    [.field "modulation_order" .int "modulation_order" .standard,
     .field "synchronization" .obj "synchronization" .required,
     .field "channel_estimation" .obj "channel_estimation" .required,
     .field "channel_equalization" .obj "channel_equalization" .required,
     .field "num_subcarriers" .int "num_subcarriers" .required,
     .field "grid_resources" .seq "grid_resources" .empty,
     .field "grid_structure" .seq "grid_structure" .empty,
     .field "pilot_section" .obj "pilot_section" .null]

/-- `GridElement`: `modem/waveforms/orthogonal/waveform.py` 73-77, 80-82, 86-90. -/
def gridElement : ClassDesc where
  name := "GridElement"
  params :=
    [⟨"type", .obj, false, true⟩, ⟨"repetitions", .int, false, false⟩]
  writes :=
    [⟨"type", .obj, "type", false, .obj⟩, ⟨"repetitions", .int, "repetitions", false, .int⟩]
  reads :=
    [.field "type" .obj "type" .required, .field "repetitions" .int "repetitions" .standard]

/-- `GridResource`: `modem/waveforms/orthogonal/waveform.py` 118-128, 225-229, 233-239. -/
def gridResource : ClassDesc where
  name := "GridResource"
  params :=
    [⟨"repetitions", .int, false, false⟩, ⟨"prefix_type", .obj, false, false⟩,
     ⟨"prefix_ratio", .flt, false, false⟩, ⟨"elements", .seq, false, false⟩]
  writes :=
    [⟨"repetitions", .int, "repetitions", false, .int⟩,
     ⟨"prefix_type", .obj, "prefix_type", false, .obj⟩,
     ⟨"prefix_ratio", .flt, "prefix_ratio", false, .flt⟩,
     ⟨"elements", .seq, "elements", false, .seq⟩]
  reads :=
    [.field "repetitions" .int "repetitions" .standard,
     .field "prefix_type" .obj "prefix_type" .standard,
     .field "prefix_ratio" .flt "prefix_ratio" .standard, .field "elements" .seq "elements" .empty]

/-- `SymbolSection`: `modem/waveforms/orthogonal/waveform.py` 439-441, 444-460, 468-487, 640-642,
646-650. -/
def symbolSection : ClassDesc where
  name := "SymbolSection"
  params :=
    [⟨"num_repetitions", .int, false, false⟩, ⟨"pattern", .ints, false, false⟩,
     ⟨"sample_offset", .int, false, false⟩]
  writes :=
    [⟨"num_repetitions", .int, "num_repetitions", false, .int⟩,
     ⟨"sample_offset", .int, "sample_offset", false, .int⟩,
     ⟨"pattern", .ints, "pattern", false, .ints⟩]
  reads :=
    [.field "num_repetitions" .int "num_repetitions" .standard,
     .field "sample_offset" .int "sample_offset" .standard, .field "pattern" .ints "pattern" .null]

/-- `GuardSection`: `modem/waveforms/orthogonal/waveform.py` 658-665, 706-708, 712-716. -/
def guardSection : ClassDesc where
  name := "GuardSection"
  params :=
    [⟨"duration", .flt, false, true⟩, ⟨"num_repetitions", .int, false, false⟩]
  writes :=
    [⟨"duration", .flt, "duration", false, .flt⟩,
     ⟨"num_repetitions", .int, "num_repetitions", false, .int⟩]
  reads :=
    [.field "duration" .flt "duration" .required,
     .field "num_repetitions" .int "num_repetitions" .standard]

/-- `PilotSection`: `modem/waveforms/orthogonal/waveform.py` 727-746, 894-896, 900-901. -/
def pilotSection : ClassDesc where
  name := "PilotSection"
  params :=
    [⟨"pilot_elements", .obj, true, false⟩]
  writes :=
    [⟨"pilot_elements", .obj, "pilot_elements", true, .obj⟩]
  reads :=
    [.field "pilot_elements" .obj "pilot_elements" .null]

/-- `MappedPilotSymbolSequence`: `modem/waveform.py` 738-739, 743-745, 751-758. -/
def mappedPilotSymbolSequence : ClassDesc where
  name := "MappedPilotSymbolSequence"
  params :=
    [⟨"pilot_symbols", .cpxs, false, false⟩]
  writes :=
    [⟨"pilot_symbols", .cpxs, "pilot_symbols", false, .cpxs⟩]
  reads :=
    [.field "pilot_symbols" .cpxs "pilot_symbols" .required]
  builds := "CustomPilotSymbolSequence"

/-- `BitErrorEvaluator`: `modem/evaluators.py` 54-91, 147-150, 154-159. -/
def bitErrorEvaluator : ClassDesc where
  name := "BitErrorEvaluator"
  params :=
    [⟨"transmitting_modem", .obj, false, true⟩, ⟨"receiving_modem", .obj, false, true⟩,
     ⟨"confidence", .flt, false, false⟩, ⟨"tolerance", .flt, false, false⟩,
     ⟨"min_num_samples", .int, false, false⟩, ⟨"plot_scale", .txt, false, false⟩,
     ⟨"tick_format", .obj, false, false⟩, ⟨"plot_surface", .flag, false, false⟩]
  writes :=
    [⟨"transmitting_modem", .obj, "transmitting_modem", false, .obj⟩,
     ⟨"receiving_modem", .obj, "receiving_modem", false, .obj⟩,
     ⟨"plot_surface", .flag, "CommunicationEvaluator__plot_surface", false, .flag⟩]
  reads :=
    [.field "transmitting_modem" .obj "transmitting_modem" .required,
     .field "receiving_modem" .obj "receiving_modem" .required,
     .field "plot_surface" .flag "confidence" .standard]

/-- `BlockErrorEvaluator`: `modem/evaluators.py` 54-91, 147-150, 154-159. -/
def blockErrorEvaluator : ClassDesc where
  name := "BlockErrorEvaluator"
  params :=
    [⟨"transmitting_modem", .obj, false, true⟩, ⟨"receiving_modem", .obj, false, true⟩,
     ⟨"confidence", .flt, false, false⟩, ⟨"tolerance", .flt, false, false⟩,
     ⟨"min_num_samples", .int, false, false⟩, ⟨"plot_scale", .txt, false, false⟩,
     ⟨"tick_format", .obj, false, false⟩, ⟨"plot_surface", .flag, false, false⟩]
  writes :=
    [⟨"transmitting_modem", .obj, "transmitting_modem", false, .obj⟩,
     ⟨"receiving_modem", .obj, "receiving_modem", false, .obj⟩,
     ⟨"plot_surface", .flag, "CommunicationEvaluator__plot_surface", false, .flag⟩]
  reads :=
    [.field "transmitting_modem" .obj "transmitting_modem" .required,
     .field "receiving_modem" .obj "receiving_modem" .required,
     .field "plot_surface" .flag "confidence" .standard]

/-- `FrameErrorEvaluator`: `modem/evaluators.py` 54-91, 147-150, 154-159. -/
def frameErrorEvaluator : ClassDesc where
  name := "FrameErrorEvaluator"
  params :=
    [⟨"transmitting_modem", .obj, false, true⟩, ⟨"receiving_modem", .obj, false, true⟩,
     ⟨"confidence", .flt, false, false⟩, ⟨"tolerance", .flt, false, false⟩,
     ⟨"min_num_samples", .int, false, false⟩, ⟨"plot_scale", .txt, false, false⟩,
     ⟨"tick_format", .obj, false, false⟩, ⟨"plot_surface", .flag, false, false⟩]
  writes :=
    [⟨"transmitting_modem", .obj, "transmitting_modem", false, .obj⟩,
     ⟨"receiving_modem", .obj, "receiving_modem", false, .obj⟩,
     ⟨"plot_surface", .flag, "CommunicationEvaluator__plot_surface", false, .flag⟩]
  reads :=
    [.field "transmitting_modem" .obj "transmitting_modem" .required,
     .field "receiving_modem" .obj "receiving_modem" .required,
     .field "plot_surface" .flag "confidence" .standard]

/-- `ConstellationEVM`: `modem/evaluators.py` 54-91, 147-150, 154-159. -/
def constellationEVM : ClassDesc where
  name := "ConstellationEVM"
  params :=
    [⟨"transmitting_modem", .obj, false, true⟩, ⟨"receiving_modem", .obj, false, true⟩,
     ⟨"confidence", .flt, false, false⟩, ⟨"tolerance", .flt, false, false⟩,
     ⟨"min_num_samples", .int, false, false⟩, ⟨"plot_scale", .txt, false, false⟩,
     ⟨"tick_format", .obj, false, false⟩, ⟨"plot_surface", .flag, false, false⟩]
  writes :=
    [⟨"transmitting_modem", .obj, "transmitting_modem", false, .obj⟩,
     ⟨"receiving_modem", .obj, "receiving_modem", false, .obj⟩,
     ⟨"plot_surface", .flag, "CommunicationEvaluator__plot_surface", false, .flag⟩]
  reads :=
    [.field "transmitting_modem" .obj "transmitting_modem" .required,
     .field "receiving_modem" .obj "receiving_modem" .required,
     .field "plot_surface" .flag "confidence" .standard]

/-- `ThroughputEvaluator`: `modem/evaluators.py` 147-150, 154-159, 459-485. -/
def throughputEvaluator : ClassDesc where
  name := "ThroughputEvaluator"
  params :=
    [⟨"transmitting_modem", .obj, false, true⟩, ⟨"receiving_modem", .obj, false, true⟩,
     ⟨"plot_surface", .flag, false, false⟩]
  writes :=
    [⟨"transmitting_modem", .obj, "transmitting_modem", false, .obj⟩,
     ⟨"receiving_modem", .obj, "receiving_modem", false, .obj⟩,
     ⟨"plot_surface", .flag, "CommunicationEvaluator__plot_surface", false, .flag⟩]
  reads :=
    [.field "transmitting_modem" .obj "transmitting_modem" .required,
     .field "receiving_modem" .obj "receiving_modem" .required,
     .field "plot_surface" .flag "plot_surface" .standard]

/-- The classes above which store every parameter. -/
def modemFaithful : List ClassDesc :=
  [randomBitsSource, frameGeneratorStub, communicationTransmissionFrame, communicationTransmission,
   communicationReceptionFrame, communicationReception, dft, maximumRatioCombining, singleCarrier,
   alamouti, ganesan, transmitSymbolCoding, receiveSymbolCoding, symbols, statedSymbols,
   synchronization, channelEstimation, channelEqualization, zeroForcingChannelEqualization,
   uniformPilotSymbolSequence, customPilotSymbolSequence, chirpFSKWaveform,
   chirpFSKSynchronization, chirpFSKCorrelationSynchronization, correlationSynchronization,
   singleCarrierCorrelationSynchronization, singleCarrierChannelEstimation,
   singleCarrierLeastSquaresChannelEstimation, singleCarrierChannelEqualization,
   singleCarrierZeroForcingChannelEqualization, singleCarrierMinimumMeanSquareChannelEqualization,
   pss, sss, nrSlot, nrSubframe, nrFrame, nrSynchronization,
   orthogonalLeastSquaresChannelEstimation, orthogonalChannelEqualization,
   orthogonalZeroForcingChannelEqualization, schmidlCoxPilotSection, ofdmSynchronization,
   ofdmCorrelationSynchronization, schmidlCoxSynchronization, gridElement, gridResource,
   symbolSection, guardSection, pilotSection]

/-- The classes above which do not, with the parameters they lose. -/
def modemLossy : List (ClassDesc × List String) :=
  [(baseModem, ["seed"]), (transmittingModemBase, ["seed"]), (transmittingModem, ["seed"]),
   (receivingModemBase, ["seed"]), (receivingModem, ["seed"]), (duplexModem, ["seed"]),
   (simplexLink, ["seed"]), (pskQamMapping, ["soft_output", "is_complex"]),
   (rootRaisedCosineWaveform, ["pilot_symbol_sequence", "repeat_pilot_symbol_sequence"]),
   (raisedCosineWaveform, ["pilot_symbol_sequence", "repeat_pilot_symbol_sequence"]),
   (rectangularWaveform, ["pilot_symbol_sequence", "repeat_pilot_symbol_sequence"]),
   (fmcwWaveform, ["pilot_symbol_sequence", "repeat_pilot_symbol_sequence"]),
   (ocdmWaveform, ["pilot_sequence", "repeat_pilot_sequence"]),
   (ofdmWaveform, ["dc_suppression", "pilot_sequence", "repeat_pilot_sequence"]),
   (otfsWaveform, ["dc_suppression", "pilot_sequence", "repeat_pilot_sequence"])]

end Verif.Schema.Py
