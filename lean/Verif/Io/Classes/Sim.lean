import Verif.Io.Schema

/-!
# Fields stored and restored by the classes of `hermespy`: simulation (C122)

One description per concrete class: the parameters of its constructor, the calls of its `serialize`
and the arguments its `Deserialize` hands to the constructor, the methods inherited from base classes
included.  `true` and `false` after the kind of a parameter say whether its attribute may be `None` and
whether it has no default; after the attribute of a write, whether a test for `None` guards it.
Attributes whose name differs from the parameter they hold are listed under the parameter.  References
back to the owner of an object (`waveform`, `device`, `modem`), which the owner sets, are left out.
-/

namespace Verif.Schema.Py

/-- `LinearTrajectory`: `simulation/animation.py` 163-187, 208-212, 216-222. -/
def linearTrajectory : ClassDesc where
  name := "LinearTrajectory"
  params :=
    [⟨"initial_pose", .obj, false, true⟩, ⟨"final_pose", .obj, false, true⟩,
     ⟨"duration", .flt, false, true⟩, ⟨"start", .flt, false, false⟩]
  writes :=
    [⟨"initial_pose", .obj, "initial_pose", false, .obj⟩,
     ⟨"final_pose", .obj, "final_pose", false, .obj⟩, ⟨"duration", .flt, "duration", false, .flt⟩,
     ⟨"start", .flt, "start", false, .flt⟩]
  reads :=
    [.field "initial_pose" .obj "initial_pose" .required,
     .field "final_pose" .obj "final_pose" .required, .field "duration" .flt "duration" .required,
     .field "start" .flt "start" .standard]

/-- `StaticTrajectory`: `simulation/animation.py` 231-237, 293-295, 299-303. -/
def staticTrajectory : ClassDesc where
  name := "StaticTrajectory"
  params :=
    [⟨"pose", .obj, false, false⟩, ⟨"velocity", .flts, false, false⟩]
  writes :=
    [⟨"pose", .obj, "pose", false, .obj⟩, ⟨"velocity", .flts, "velocity", false, .flts⟩]
  reads :=
    [.field "pose" .obj "pose" .null, .field "velocity" .flts "velocity" .null]

/-- `BITrajectoryB`: `simulation/animation.py` 352-365, 415-417, 421-425. -/
def biTrajectoryB : ClassDesc where
  name := "BITrajectoryB"
  params :=
    [⟨"height", .flt, false, true⟩, ⟨"duration", .flt, false, true⟩]
  writes :=
    [⟨"height", .flt, "height", false, .flt⟩, ⟨"duration", .flt, "duration", false, .flt⟩]
  reads :=
    [.field "height" .flt "height" .required, .field "duration" .flt "duration" .required]

/-- `SimulatedDipole`: `simulation/antennas.py` 144-167, `core/antennas.py` 375-377, 380-385,
616-617, 620-622. -/
def simulatedDipole : ClassDesc where
  name := "SimulatedDipole"
  params :=
    [⟨"mode", .int, false, false⟩, ⟨"pose", .flts, false, false⟩, ⟨"weight", .obj, false, false⟩]
  writes :=
    [⟨"mode", .int, "mode", false, .int⟩, ⟨"pose", .flts, "pose", false, .flts⟩]
  reads :=
    [.field "mode" .int "mode" .required, .field "pose" .flts "pose" .required]

/-- `SimulatedIdealAntenna`: `simulation/antennas.py` 173-196, `core/antennas.py` 375-377,
380-385, 438-439, 442-444. -/
def simulatedIdealAntenna : ClassDesc where
  name := "SimulatedIdealAntenna"
  params :=
    [⟨"mode", .int, false, false⟩, ⟨"pose", .flts, false, false⟩, ⟨"weight", .obj, false, false⟩]
  writes :=
    [⟨"mode", .int, "mode", false, .int⟩, ⟨"pose", .flts, "pose", false, .flts⟩]
  reads :=
    [.field "mode" .int "mode" .required, .field "pose" .flts "pose" .required]

/-- `SimulatedLinearAntenna`: `simulation/antennas.py` 206-233, `core/antennas.py` 375-377,
380-385, 512-514, 517-520. -/
def simulatedLinearAntenna : ClassDesc where
  name := "SimulatedLinearAntenna"
  params :=
    [⟨"mode", .int, false, false⟩, ⟨"slant", .flt, false, false⟩, ⟨"pose", .flts, false, false⟩,
     ⟨"weight", .obj, false, false⟩]
  writes :=
    [⟨"mode", .int, "mode", false, .int⟩, ⟨"pose", .flts, "pose", false, .flts⟩,
     ⟨"slant", .flt, "slant", false, .flt⟩]
  reads :=
    [.field "mode" .int "mode" .required, .field "pose" .flts "pose" .required,
     .field "slant" .flt "slant" .required]

/-- `SimulatedPatchAntenna`: `simulation/antennas.py` 243-266, `core/antennas.py` 375-377,
380-385, 562-563, 566-568. -/
def simulatedPatchAntenna : ClassDesc where
  name := "SimulatedPatchAntenna"
  params :=
    [⟨"mode", .int, false, false⟩, ⟨"pose", .flts, false, false⟩, ⟨"weight", .obj, false, false⟩]
  writes :=
    [⟨"mode", .int, "mode", false, .int⟩, ⟨"pose", .flts, "pose", false, .flts⟩]
  reads :=
    [.field "mode" .int "mode" .required, .field "pose" .flts "pose" .required]

/-- `DeviceFocus`: `simulation/beamforming.py` 28-39, 62-63, 67-69. -/
def deviceFocus : ClassDesc where
  name := "DeviceFocus"
  params :=
    [⟨"focused_device", .obj, false, true⟩]
  writes :=
    [⟨"focus", .obj, "focused_device", false, .obj⟩]
  reads :=
    [.field "focus" .obj "focused_device" .required]

/-- `PerfectCoupling`: `simulation/coupling/perfect.py` 40-41, 45-46. -/
def perfectCoupling : ClassDesc where
  name := "PerfectCoupling"
  params :=
    []
  writes :=
    []
  reads :=
    []

/-- `SimulatedDrop`: `simulation/drop.py` 26-47, 54-66, `core/drop.py` 92-104. -/
def simulatedDrop : ClassDesc where
  name := "SimulatedDrop"
  params :=
    [⟨"timestamp", .flt, false, true⟩, ⟨"device_transmissions", .seq, false, true⟩,
     ⟨"channel_realizations", .seq, false, true⟩, ⟨"device_receptions", .seq, false, true⟩]
  writes :=
    [⟨"timestamp", .flt, "timestamp", false, .flt⟩,
     ⟨"transmissions", .seq, "device_transmissions", false, .seq⟩,
     ⟨"receptions", .seq, "device_receptions", false, .seq⟩,
     ⟨"channel_realizations", .seq, "channel_realizations", false, .seq⟩]
  reads :=
    [.field "timestamp" .flt "timestamp" .standard,
     .field "transmissions" .seq "device_transmissions" .empty,
     .field "receptions" .seq "device_receptions" .empty,
     .field "channel_realiations" .seq "channel_realizations" .empty]

/-- `SidelobeEvaluator`: `simulation/evaluators/beamforming.py` 93-156, 248-252, 256-264. -/
def sidelobeEvaluator : ClassDesc where
  name := "SidelobeEvaluator"
  params :=
    [⟨"device", .obj, false, true⟩, ⟨"mode", .obj, false, true⟩,
     ⟨"desired_focus", .obj, false, true⟩, ⟨"codebook", .cpxs, false, false⟩,
     ⟨"plot_surface", .flag, false, false⟩]
  writes :=
    [⟨"device", .obj, "device", false, .obj⟩, ⟨"codebook", .cpxs, "codebook", false, .cpxs⟩,
     ⟨"mode", .obj, "mode", false, .obj⟩, ⟨"desired_focus", .obj, "desired_focus", false, .obj⟩]
  reads :=
    [.field "device" .obj "device" .required, .field "mode" .obj "mode" .required,
     .field "desired_focus" .obj "desired_focus" .required,
     .field "codebook" .cpxs "codebook" .null]

/-- `SI`: `simulation/evaluators/interference.py` 36-64, 94-95, 99-101. -/
def si : ClassDesc where
  name := "SI"
  params :=
    [⟨"device", .obj, false, true⟩, ⟨"confidence", .flt, false, false⟩,
     ⟨"tolerance", .flt, false, false⟩, ⟨"min_num_samples", .int, false, false⟩,
     ⟨"plot_scale", .txt, false, false⟩, ⟨"tick_format", .obj, false, false⟩,
     ⟨"plot_surface", .flag, false, false⟩]
  writes :=
    [⟨"device", .obj, "device", false, .obj⟩]
  reads :=
    [.field "device" .obj "device" .required]

/-- `SSINR`: `simulation/evaluators/interference.py` 36-64, 94-95, 99-101. -/
def ssinr : ClassDesc where
  name := "SSINR"
  params :=
    [⟨"device", .obj, false, true⟩, ⟨"confidence", .flt, false, false⟩,
     ⟨"tolerance", .flt, false, false⟩, ⟨"min_num_samples", .int, false, false⟩,
     ⟨"plot_scale", .txt, false, false⟩, ⟨"tick_format", .obj, false, false⟩,
     ⟨"plot_surface", .flag, false, false⟩]
  writes :=
    [⟨"device", .obj, "device", false, .obj⟩]
  reads :=
    [.field "device" .obj "device" .required]

/-- `PerfectIsolation`: `simulation/isolation/isolation.py` 27-34,
`simulation/isolation/perfect.py` 39-40, 44-45. -/
def perfectIsolation : ClassDesc where
  name := "PerfectIsolation"
  params :=
    []
  writes :=
    []
  reads :=
    []

/-- `SelectiveLeakage`: `simulation/isolation/selective.py` 38-63, 145-146, 150-151. -/
def selectiveLeakage : ClassDesc where
  name := "SelectiveLeakage"
  params :=
    [⟨"leakage_response", .cpxs, false, true⟩]
  writes :=
    [⟨"leakage_response", .cpxs, "leakage_response", false, .cpxs⟩]
  reads :=
    [.field "leakage_response" .cpxs "leakage_response" .required]

/-- `SpecificIsolation`: `simulation/isolation/specific.py` 38-55, 129-131, 135-143. -/
def specificIsolation : ClassDesc where
  name := "SpecificIsolation"
  params :=
    [⟨"isolation", .flts, true, false⟩]
  writes :=
    [⟨"isolation", .flts, "isolation", true, .flts⟩]
  reads :=
    [.field "isolation" .flts "isolation" .null]

/-- `Gain`: `simulation/rf/blocks/ad.py` 206-223, 251-253, 257-261. -/
def gain : ClassDesc where
  name := "Gain"
  params :=
    [⟨"gain", .flt, false, false⟩, ⟨"rescale_quantization", .flag, false, false⟩]
  writes :=
    [⟨"gain", .flt, "gain", false, .flt⟩,
     ⟨"rescale_quantization", .flag, "rescale_quantization", false, .flag⟩]
  reads :=
    [.field "gain" .flt "gain" .standard,
     .field "rescale_quantization" .flag "rescale_quantization" .standard]

/-- `AutomaticGainControl`: `simulation/rf/blocks/ad.py` 270-296, 354-357, 361-366. -/
def automaticGainControl : ClassDesc where
  name := "AutomaticGainControl"
  params :=
    [⟨"agc_type", .obj, false, false⟩, ⟨"backoff", .flt, false, false⟩,
     ⟨"rescale_quantization", .flag, false, false⟩]
  writes :=
    [⟨"agc_type", .obj, "agc_type", false, .obj⟩, ⟨"backoff", .flt, "backoff", false, .flt⟩,
     ⟨"rescale_quantization", .flag, "rescale_quantization", false, .flag⟩]
  reads :=
    [.field "agc_type" .obj "agc_type" .standard, .field "backoff" .flt "backoff" .standard,
     .field "rescale_quantization" .flag "rescale_quantization" .standard]

/-- `ADC`: `simulation/rf/blocks/ad.py` 390-416, 611-615, 619-624. -/
def adc : ClassDesc where
  name := "ADC"
  params :=
    [⟨"num_quantization_bits", .int, true, false⟩, ⟨"gain", .obj, false, false⟩,
     ⟨"quantizer_type", .obj, false, false⟩, ⟨"num_ports", .int, false, false⟩,
     ⟨"noise_model", .obj, true, false⟩, ⟨"noise_level", .obj, true, false⟩,
     ⟨"seed", .int, true, false⟩]
  writes :=
    [⟨"num_quantization_bits", .int, "num_quantization_bits", true, .int⟩,
     ⟨"gain", .obj, "gain", false, .obj⟩, ⟨"quantizer_type", .obj, "quantizer_type", false, .obj⟩]
  reads :=
    [.field "num_quantization_bits" .int "num_quantization_bits" .null,
     .field "gain" .obj "gain" .null, .field "quantizer_type" .obj "quantizer_type" .standard]

/-- `DAC`: `simulation/rf/blocks/ad.py` 631-651, 674-681, 685-692. -/
def dac : ClassDesc where
  name := "DAC"
  params :=
    [⟨"num_quantization_bits", .int, true, false⟩, ⟨"num_ports", .int, false, false⟩,
     ⟨"noise_model", .obj, false, false⟩, ⟨"noise_level", .obj, false, false⟩,
     ⟨"seed", .int, true, false⟩]
  writes :=
    [⟨"num_quantization_bits", .int, "num_quantization_bits", true, .int⟩,
     ⟨"num_ports", .int, "num_ports", false, .int⟩,
     ⟨"noise_model", .obj, "noise_model", false, .obj⟩,
     ⟨"noise_level", .obj, "noise_level", false, .obj⟩, ⟨"seed", .int, "seed", true, .int⟩]
  reads :=
    [.field "num_quantization_bits" .int "num_quantization_bits" .null,
     .field "num_ports" .int "num_ports" .standard, .field "noise_model" .obj "noise_model" .null,
     .field "noise_level" .obj "noise_level" .null, .field "seed" .int "seed" .null]

/-- `PowerAmplifier`: `simulation/rf/blocks/amps.py` 42-74, 212-217, 220-225. -/
def powerAmplifier : ClassDesc where
  name := "PowerAmplifier"
  params :=
    [⟨"gain", .flt, false, false⟩, ⟨"noise_model", .obj, false, false⟩,
     ⟨"noise_level", .obj, false, false⟩, ⟨"seed", .int, true, false⟩]
  writes :=
    [⟨"gain", .flt, "gain", false, .flt⟩, ⟨"noise_model", .obj, "noise_model", false, .obj⟩,
     ⟨"noise_level", .obj, "noise_level", false, .obj⟩, ⟨"seed", .int, "seed", true, .int⟩]
  reads :=
    [.field "gain" .flt "gain" .required, .field "noise_model" .obj "noise_model" .required,
     .field "noise_level" .obj "noise_level" .required, .field "seed" .int "seed" .null]

/-- `ClippingPowerAmplifier`: `simulation/rf/blocks/amps.py` 212-217, 235-268, 307-309, 313-320.
-/
def clippingPowerAmplifier : ClassDesc where
  name := "ClippingPowerAmplifier"
  params :=
    [⟨"saturation_amplitude", .flt, false, false⟩, ⟨"gain", .flt, false, false⟩,
     ⟨"noise_model", .obj, false, false⟩, ⟨"noise_level", .obj, false, false⟩,
     ⟨"seed", .int, true, false⟩]
  writes :=
    [⟨"gain", .flt, "gain", false, .flt⟩, ⟨"noise_model", .obj, "noise_model", false, .obj⟩,
     ⟨"noise_level", .obj, "noise_level", false, .obj⟩, ⟨"seed", .int, "seed", true, .int⟩,
     ⟨"saturation_amplitude", .flt, "saturation_amplitude", false, .flt⟩]
  reads :=
    [.field "saturation_amplitude" .flt "saturation_amplitude" .standard,
     .field "gain" .flt "gain" .standard, .field "noise_model" .obj "noise_model" .null,
     .field "noise_level" .obj "noise_level" .null, .field "seed" .int "seed" .null]

/-- `RappPowerAmplifier`: `simulation/rf/blocks/amps.py` 212-217, 331-363, 396-398, 402-409. -/
def rappPowerAmplifier : ClassDesc where
  name := "RappPowerAmplifier"
  params :=
    [⟨"smoothness_factor", .flt, false, false⟩, ⟨"gain", .flt, false, false⟩,
     ⟨"noise_model", .obj, false, false⟩, ⟨"noise_level", .obj, false, false⟩,
     ⟨"seed", .int, true, false⟩]
  writes :=
    [⟨"gain", .flt, "gain", false, .flt⟩, ⟨"noise_model", .obj, "noise_model", false, .obj⟩,
     ⟨"noise_level", .obj, "noise_level", false, .obj⟩, ⟨"seed", .int, "seed", true, .int⟩,
     ⟨"smoothness_factor", .flt, "smoothness_factor", false, .flt⟩]
  reads :=
    [.field "smoothness_factor" .flt "smoothness_factor" .standard,
     .field "gain" .flt "gain" .standard, .field "noise_model" .obj "noise_model" .null,
     .field "noise_level" .obj "noise_level" .null, .field "seed" .int "seed" .null]

/-- `SalehPowerAmplifier`: `simulation/rf/blocks/amps.py` 212-217, 427-475, 529-534, 538-548. -/
def salehPowerAmplifier : ClassDesc where
  name := "SalehPowerAmplifier"
  params :=
    [⟨"amplitude_alpha", .flt, false, true⟩, ⟨"amplitude_beta", .flt, false, true⟩,
     ⟨"phase_alpha", .flt, false, true⟩, ⟨"phase_beta", .flt, false, true⟩,
     ⟨"gain", .flt, false, false⟩, ⟨"noise_model", .obj, false, false⟩,
     ⟨"noise_level", .obj, false, false⟩, ⟨"seed", .int, true, false⟩]
  writes :=
    [⟨"gain", .flt, "gain", false, .flt⟩, ⟨"noise_model", .obj, "noise_model", false, .obj⟩,
     ⟨"noise_level", .obj, "noise_level", false, .obj⟩, ⟨"seed", .int, "seed", true, .int⟩,
     ⟨"amplitude_alpha", .flt, "amplitude_alpha", false, .flt⟩,
     ⟨"amplitude_beta", .flt, "amplitude_beta", false, .flt⟩,
     ⟨"phase_alpha", .flt, "phase_alpha", false, .flt⟩,
     ⟨"phase_beta", .flt, "phase_beta", false, .flt⟩]
  reads :=
    [.field "amplitude_alpha" .flt "amplitude_alpha" .required,
     .field "amplitude_beta" .flt "amplitude_beta" .required,
     .field "phase_alpha" .flt "phase_alpha" .required,
     .field "phase_beta" .flt "phase_beta" .required, .field "gain" .flt "gain" .standard,
     .field "noise_model" .obj "noise_model" .null, .field "noise_level" .obj "noise_level" .null,
     .field "seed" .int "seed" .null]

/-- `CustomPowerAmplifier`: `simulation/rf/blocks/amps.py` 212-217, 558-618, 641-645, 649-658. -/
def customPowerAmplifier : ClassDesc where
  name := "CustomPowerAmplifier"
  params :=
    [⟨"input", .flts, false, true⟩, ⟨"gains", .flts, false, true⟩, ⟨"phases", .flts, false, true⟩,
     ⟨"gain", .flt, false, false⟩, ⟨"noise_model", .obj, false, false⟩,
     ⟨"noise_level", .obj, false, false⟩, ⟨"seed", .int, true, false⟩]
  writes :=
    [⟨"gain", .flt, "gain", false, .flt⟩, ⟨"noise_model", .obj, "noise_model", false, .obj⟩,
     ⟨"noise_level", .obj, "noise_level", false, .obj⟩, ⟨"seed", .int, "seed", true, .int⟩,
     ⟨"input", .flts, "input", false, .flts⟩, ⟨"gain", .flts, "gains", false, .flts⟩,
     ⟨"phase", .flts, "phases", false, .flts⟩]
  reads :=
    [.field "input" .flts "input" .required, .field "gain" .flts "gains" .required,
     .field "phase" .flts "phases" .required, .field "gain" .flt "gain" .standard,
     .field "noise_model" .obj "noise_model" .null, .field "noise_level" .obj "noise_level" .null,
     .field "seed" .int "seed" .null]

/-- `MemoryPolynomialPowerAmplifier`: `simulation/rf/blocks/amps.py` 669-682, 749-750, 754-755. -/
def memoryPolynomialPowerAmplifier : ClassDesc where
  name := "MemoryPolynomialPowerAmplifier"
  params :=
    [⟨"coeff_matrix", .cpxs, false, true⟩, ⟨"gain", .flt, false, false⟩,
     ⟨"noise_model", .obj, true, false⟩, ⟨"noise_level", .obj, true, false⟩,
     ⟨"seed", .int, true, false⟩]
  writes :=
    [⟨"coeff_matrix", .cpxs, "coeff_matrix", false, .cpxs⟩]
  reads :=
    [.field "coeff_matrix" .cpxs "coeff_matrix" .required]

/-- `MemoryCTPolynomialPowerAmplifier`: `simulation/rf/blocks/amps.py` 764-775, 858-859, 863-864.
-/
def memoryCTPolynomialPowerAmplifier : ClassDesc where
  name := "MemoryCTPolynomialPowerAmplifier"
  params :=
    [⟨"coeff_matrix", .cpxs, false, true⟩, ⟨"gain", .flt, false, false⟩,
     ⟨"noise_model", .obj, true, false⟩, ⟨"noise_level", .obj, true, false⟩,
     ⟨"seed", .int, true, false⟩]
  writes :=
    [⟨"coeff_matrix", .cpxs, "coeff_matrix", false, .cpxs⟩]
  reads :=
    [.field "coeff_matrix" .cpxs "coeff_matrix" .required]

/-- `Mixer`: `simulation/rf/blocks/mixers.py` 72-92, 157-162, 166-172. -/
def mixer : ClassDesc where
  name := "Mixer"
  params :=
    [⟨"mixer_type", .obj, false, true⟩, ⟨"noise_model", .obj, false, false⟩,
     ⟨"noise_level", .obj, false, false⟩, ⟨"seed", .int, true, false⟩]
  writes :=
    [⟨"type", .obj, "mixer_type", false, .obj⟩, ⟨"noise_model", .obj, "noise_model", false, .obj⟩,
     ⟨"noise_level", .obj, "noise_level", false, .obj⟩, ⟨"seed", .int, "seed", true, .int⟩]
  reads :=
    [.field "type" .obj "mixer_type" .required, .field "noise_model" .obj "noise_model" .required,
     .field "noise_level" .obj "noise_level" .required, .field "seed" .int "seed" .null]

/-- `IdealMixer`: `simulation/rf/blocks/mixers.py` 217-243, 317-323, 327-334. -/
def idealMixer : ClassDesc where
  name := "IdealMixer"
  params :=
    [⟨"mixer_type", .obj, false, true⟩, ⟨"lo_frequency", .flt, false, false⟩,
     ⟨"noise_model", .obj, false, false⟩, ⟨"noise_level", .obj, false, false⟩,
     ⟨"seed", .int, true, false⟩]
  writes :=
    [⟨"type", .obj, "mixer_type", false, .obj⟩,
     ⟨"lo_frequency", .flt, "lo_frequency", false, .flt⟩,
     ⟨"noise_model", .obj, "noise_model", false, .obj⟩,
     ⟨"noise_level", .obj, "noise_level", false, .obj⟩, ⟨"seed", .int, "seed", true, .int⟩]
  reads :=
    [.field "type" .obj "mixer_type" .required,
     .field "lo_frequency" .flt "lo_frequency" .required,
     .field "noise_model" .obj "noise_model" .required,
     .field "noise_level" .obj "noise_level" .required, .field "seed" .int "seed" .null]

/-- `RampGenerator`: `simulation/rf/blocks/ramp.py` 33-63, 214-220, 224-231. -/
def rampGenerator : ClassDesc where
  name := "RampGenerator"
  params :=
    [⟨"num_chirps", .int, false, true⟩, ⟨"chirp_bandwidth", .flt, false, true⟩,
     ⟨"chirp_slope", .flt, false, true⟩, ⟨"chirp_interval", .flt, false, true⟩,
     ⟨"noise_model", .obj, true, false⟩, ⟨"noise_level", .obj, true, false⟩,
     ⟨"seed", .int, true, false⟩]
  writes :=
    [⟨"chirp_bandwidth", .flt, "chirp_bandwidth", false, .flt⟩,
     ⟨"chirp_slope", .flt, "chirp_slope", false, .flt⟩,
     ⟨"chirp_interval", .flt, "chirp_interval", false, .flt⟩,
     ⟨"num_chirps", .int, "num_chirps", false, .int⟩, ⟨"seed", .int, "seed", true, .int⟩]
  reads :=
    [.field "num_chirps" .int "num_chirps" .required,
     .field "chirp_bandwidth" .flt "chirp_bandwidth" .required,
     .field "chirp_slope" .flt "chirp_slope" .required,
     .field "chirp_interval" .flt "chirp_interval" .required, .field "seed" .int "seed" .null]

/-- `RFBlockReference`: `simulation/rf/chain.py` 106-114, 287-288, 292-296. -/
def rfBlockReference : ClassDesc where
  name := "RFBlockReference"
  params :=
    [⟨"block", .obj, false, true⟩]
  writes :=
    [⟨"block", .obj, "block", false, .obj⟩]
  reads :=
    [.field "block" .obj "block" .required]

/-- `RFChain`: `simulation/rf/chain.py` 349-365, 664-675, 679-702. -/
def rfChain : ClassDesc where
  name := "RFChain"
  params :=
    [⟨"seed", .int, true, false⟩, ⟨"block_references", .seq, false, false⟩,
     ⟨"dsp_input_blocks", .seq, false, false⟩, ⟨"dsp_output_blocks", .seq, false, false⟩,
     ⟨"rf_input_blocks", .seq, false, false⟩, ⟨"rf_output_blocks", .seq, false, false⟩,
     ⟨"rf_origin_blocks", .seq, false, false⟩]
  writes :=
    [⟨"block_references", .seq, "block_references", false, .seq⟩,
     ⟨"dsp_input_blocks", .seq, "dsp_input_blocks", false, .seq⟩,
     ⟨"dsp_output_blocks", .seq, "dsp_output_blocks", false, .seq⟩,
     ⟨"rf_input_blocks", .seq, "rf_input_blocks", false, .seq⟩,
     ⟨"rf_output_blocks", .seq, "rf_output_blocks", false, .seq⟩,
     ⟨"rf_origin_blocks", .seq, "rf_origin_blocks", false, .seq⟩,
     ⟨"seed", .int, "seed", true, .int⟩]
  reads :=
    [.field "seed" .int "seed" .null, .field "block_references" .seq "block_references" .empty,
     .field "dsp_input_blocks" .seq "dsp_input_blocks" .empty,
     .field "dsp_output_blocks" .seq "dsp_output_blocks" .empty,
     .field "rf_input_blocks" .seq "rf_input_blocks" .empty,
     .field "rf_output_blocks" .seq "rf_output_blocks" .empty,
     .field "rf_origin_blocks" .seq "rf_origin_blocks" .empty]

/-- `ThermalNoise`: `simulation/rf/noise/level.py` 81-88, 118-119, 123-124. -/
def thermalNoise : ClassDesc where
  name := "ThermalNoise"
  params :=
    [⟨"temparature", .flt, false, true⟩]
  writes :=
    [⟨"temparature", .flt, "temparature", false, .flt⟩]
  reads :=
    [.field "temparature" .flt "temparature" .required]

/-- `N0`: `simulation/rf/noise/level.py` 132-138, 191-192, 196-197. -/
def n0 : ClassDesc where
  name := "N0"
  params :=
    [⟨"power", .flt, false, true⟩]
  writes :=
    [⟨"power", .flt, "power", false, .flt⟩]
  reads :=
    [.field "power" .flt "power" .required]

/-- `SNR`: `simulation/rf/noise/level.py` 207-232, 296-298, 302-305. -/
def snr : ClassDesc where
  name := "SNR"
  params :=
    [⟨"snr", .flt, false, true⟩, ⟨"reference", .obj, false, true⟩, ⟨"channel", .obj, true, false⟩]
  writes :=
    [⟨"snr", .flt, "snr", false, .flt⟩, ⟨"reference", .obj, "reference", false, .obj⟩]
  reads :=
    [.field "snr" .flt "snr" .required, .field "reference" .obj "reference" .required]

/-- `AWGNRealization`: `simulation/rf/noise/model.py` 33-49, 72-74, 78-81, 85-89,
`core/random_node.py` 54-55, 58-59. -/
def awgnRealization : ClassDesc where
  name := "AWGNRealization"
  params :=
    [⟨"power", .flt, false, true⟩, ⟨"seed", .int, false, true⟩]
  writes :=
    [⟨"seed", .int, "seed", false, .int⟩, ⟨"power", .flt, "power", false, .flt⟩]
  reads :=
    [.field "seed" .int "seed" .required, .field "power" .flt "power" .required]

/-- `AWGN`: `simulation/rf/noise/model.py` 166-174, 181-182, 186-187. -/
def awgn : ClassDesc where
  name := "AWGN"
  params :=
    [⟨"seed", .int, true, false⟩]
  writes :=
    []
  reads :=
    []

/-- `NoPhaseNoise`: `core/random_node.py` 74-87, `simulation/rf/noise/phase_noise.py` 80-81,
85-86. -/
def noPhaseNoise : ClassDesc where
  name := "NoPhaseNoise"
  params :=
    [⟨"seed", .int, true, false⟩]
  writes :=
    []
  reads :=
    []

/-- `OscillatorPhaseNoise`: `simulation/rf/noise/phase_noise.py` 213-234, 329-332, 336-340. -/
def oscillatorPhaseNoise : ClassDesc where
  name := "OscillatorPhaseNoise"
  params :=
    [⟨"K0", .flt, false, false⟩, ⟨"K2", .flt, false, false⟩, ⟨"K3", .flt, false, false⟩,
     ⟨"seed", .int, true, false⟩]
  writes :=
    [⟨"K0", .flt, "K0", false, .flt⟩, ⟨"K2", .flt, "K2", false, .flt⟩,
     ⟨"K3", .flt, "K3", false, .flt⟩]
  reads :=
    [.field "K0" .flt "K0" .required, .field "K2" .flt "K2" .required,
     .field "K3" .flt "K3" .required]

/-- `X410`: `simulation/rf/presets/ettus/x410.py` 43-103, 106-109, 113-116. -/
def x410 : ClassDesc where
  name := "X410"
  params :=
    [⟨"carrier_frequency", .flt, false, true⟩, ⟨"num_tx_channels", .int, false, false⟩,
     ⟨"num_rx_channels", .int, false, false⟩, ⟨"tx_gain", .flt, false, false⟩,
     ⟨"rx_gain", .flt, false, false⟩, ⟨"phase_noise", .flag, false, false⟩,
     ⟨"seed", .int, true, false⟩]
  writes :=
    [⟨"carrier_frequency", .flt, "carrier_frequency", false, .flt⟩,
     ⟨"seed", .int, "seed", true, .int⟩]
  reads :=
    [.field "carrier_frequency" .flt "carrier_frequency" .required,
     .field "seed" .int "seed" .null]

/-- `SimulationScenario`: `simulation/scenario.py` 190-228, `core/scenario.py` 353-354, 358-366.
-/
def simulationScenario : ClassDesc where
  name := "SimulationScenario"
  params :=
    [⟨"default_channel", .obj, true, false⟩, ⟨"noise_level", .obj, true, false⟩,
     ⟨"noise_model", .obj, true, false⟩, ⟨"seed", .int, true, false⟩,
     ⟨"devices", .seq, false, false⟩]
  writes :=
    [⟨"devices", .seq, "devices", false, .seq⟩]
  reads :=
    [.field "devices" .seq "devices" .empty]

/-- `TriggerRealization`: `simulation/simulated_device.py` 78-105, 149-151, 154-159. -/
def triggerRealization : ClassDesc where
  name := "TriggerRealization"
  params :=
    [⟨"num_offset_samples", .int, false, true⟩, ⟨"sampling_rate", .flt, false, true⟩]
  writes :=
    [⟨"num_offset_samples", .int, "num_offset_samples", false, .int⟩,
     ⟨"sampling_rate", .flt, "sampling_rate", false, .flt⟩]
  reads :=
    [.field "num_offset_samples" .int "num_offset_samples" .required,
     .field "sampling_rate" .flt "sampling_rate" .required]

/-- `StaticTrigger`: `simulation/simulated_device.py` 167-172, 238-239, 243-244. -/
def staticTrigger : ClassDesc where
  name := "StaticTrigger"
  params :=
    []
  writes :=
    []
  reads :=
    []

/-- `SampleOffsetTrigger`: `simulation/simulated_device.py` 252-265, 293-294, 298-302. -/
def sampleOffsetTrigger : ClassDesc where
  name := "SampleOffsetTrigger"
  params :=
    [⟨"num_offset_samples", .int, false, true⟩]
  writes :=
    [⟨"num_offset_samples", .int, "num_offset_samples", false, .int⟩]
  reads :=
    [.field "num_offset_samples" .int "num_offset_samples" .required]

/-- `TimeOffsetTrigger`: `simulation/simulated_device.py` 314-327, 354-355, 359-363. -/
def timeOffsetTrigger : ClassDesc where
  name := "TimeOffsetTrigger"
  params :=
    [⟨"offset", .flt, false, true⟩]
  writes :=
    [⟨"offset", .flt, "offset", false, .flt⟩]
  reads :=
    [.field "offset" .flt "offset" .required]

/-- `RandomTrigger`: `simulation/simulated_device.py` 167-172, 401-402, 406-407. -/
def randomTrigger : ClassDesc where
  name := "RandomTrigger"
  params :=
    []
  writes :=
    []
  reads :=
    []

/-- `NormalTrigger`: `simulation/simulated_device.py` 416-429, 471-473, 477-480. -/
def normalTrigger : ClassDesc where
  name := "NormalTrigger"
  params :=
    [⟨"mean", .flt, false, true⟩, ⟨"std", .flt, false, true⟩]
  writes :=
    [⟨"mean", .flt, "mean", false, .flt⟩, ⟨"std", .flt, "std", false, .flt⟩]
  reads :=
    [.field "mean" .flt "mean" .required, .field "std" .flt "std" .required]

/-- `SimulatedDeviceOutput`: `simulation/simulated_device.py` 489-546, 549-580, 628-642. -/
def simulatedDeviceOutput : ClassDesc where
  name := "SimulatedDeviceOutput"
  params :=
    [⟨"mixed_signal", .obj, false, true⟩, ⟨"emerging_signals", .seq, false, true⟩,
     ⟨"leaking_signals", .seq, false, true⟩, ⟨"trigger_realization", .obj, false, true⟩]
  writes :=
    [⟨"mixed_signal", .obj, "mixed_signal", false, .obj⟩,
     ⟨"trigger_realization", .obj, "trigger_realization", false, .obj⟩,
     ⟨"emerging_signals", .seq, "emerging_signals", false, .seq⟩,
     ⟨"leaking_signals", .seq, "leaking_signals", false, .seq⟩]
  reads :=
    [.field "mixed_signal" .obj "mixed_signal" .required,
     .field "trigger_realization" .obj "trigger_realization" .required,
     .field "emerging_signals" .seq "emerging_signals" .empty,
     .field "leaking_signals" .seq "leaking_signals" .empty]

/-- `SimulatedDeviceTransmission`: `simulation/simulated_device.py` 628-642, 648-714, 716-727. -/
def simulatedDeviceTransmission : ClassDesc where
  name := "SimulatedDeviceTransmission"
  params :=
    [⟨"operator_transmissions", .seq, false, true⟩, ⟨"mixed_signal", .obj, false, true⟩,
     ⟨"emerging_signals", .seq, false, true⟩, ⟨"leaking_signals", .seq, false, true⟩,
     ⟨"trigger_realization", .obj, false, true⟩]
  writes :=
    [⟨"mixed_signal", .obj, "mixed_signal", false, .obj⟩,
     ⟨"trigger_realization", .obj, "trigger_realization", false, .obj⟩,
     ⟨"emerging_signals", .seq, "emerging_signals", false, .seq⟩,
     ⟨"leaking_signals", .seq, "leaking_signals", false, .seq⟩,
     ⟨"dsp_transmissions", .seq, "operator_transmissions", false, .seq⟩]
  reads :=
    [.field "mixed_signal" .obj "mixed_signal" .required,
     .field "trigger_realization" .obj "trigger_realization" .required,
     .field "emerging_signals" .seq "emerging_signals" .empty,
     .field "leaking_signals" .seq "leaking_signals" .empty,
     .field "dsp_transmissions" .seq "operator_transmissions" .empty]

/-- `SimulatedDeviceReceiveRealization`: `simulation/simulated_device.py` 734-742, 754-755,
759-760. -/
def simulatedDeviceReceiveRealization : ClassDesc where
  name := "SimulatedDeviceReceiveRealization"
  params :=
    [⟨"noise_realization", .obj, false, true⟩]
  writes :=
    [⟨"noise_realization", .obj, "noise_realization", false, .obj⟩]
  reads :=
    [.field "noise_realization" .obj "noise_realization" .required]

/-- `ProcessedSimulatedDeviceInput`: `simulation/simulated_device.py` 771-830, 865-887. -/
def processedSimulatedDeviceInput : ClassDesc where
  name := "ProcessedSimulatedDeviceInput"
  params :=
    [⟨"impinging_signals", .seq, false, true⟩, ⟨"leaking_signal", .obj, true, true⟩,
     ⟨"baseband_signal", .obj, false, true⟩, ⟨"operator_separation", .flag, false, true⟩,
     ⟨"operator_inputs", .seq, false, true⟩, ⟨"trigger_realization", .obj, false, true⟩,
     ⟨"noise_realization", .obj, false, true⟩]
  writes :=
    [⟨"impinging_signals", .seq, "impinging_signals", false, .seq⟩,
     ⟨"operator_inputs", .seq, "operator_inputs", false, .seq⟩,
     ⟨"noise_realization", .obj, "noise_realization", false, .obj⟩,
     ⟨"leaking_signal", .obj, "leaking_signal", true, .obj⟩,
     ⟨"baseband_signal", .obj, "baseband_signal", false, .obj⟩,
     ⟨"operator_separation", .flag, "operator_separation", false, .flag⟩,
     ⟨"trigger_realization", .obj, "trigger_realization", false, .obj⟩]
  reads :=
    [.field "impinging_signals" .seq "impinging_signals" .empty,
     .field "leaking_signal" .obj "leaking_signal" .null,
     .field "baseband_signal" .obj "baseband_signal" .required,
     .field "operator_separation" .flag "operator_separation" .required,
     .field "operator_inputs" .seq "operator_inputs" .empty,
     .field "trigger_realization" .obj "trigger_realization" .required,
     .field "noise_realization" .obj "noise_realization" .required]

/-- `SimulatedDeviceReception`: `simulation/simulated_device.py` 893-942, 944-971, 974-986. -/
def simulatedDeviceReception : ClassDesc where
  name := "SimulatedDeviceReception"
  params :=
    [⟨"impinging_signals", .seq, false, true⟩, ⟨"leaking_signal", .obj, true, true⟩,
     ⟨"baseband_signal", .obj, false, true⟩, ⟨"operator_separation", .flag, false, true⟩,
     ⟨"operator_inputs", .seq, false, true⟩, ⟨"trigger_realization", .obj, false, true⟩,
     ⟨"noise_realization", .obj, false, true⟩, ⟨"operator_receptions", .seq, false, true⟩]
  writes :=
    [⟨"impinging_signals", .seq, "impinging_signals", false, .seq⟩,
     ⟨"operator_inputs", .seq, "operator_inputs", false, .seq⟩,
     ⟨"noise_realization", .obj, "noise_realization", false, .obj⟩,
     ⟨"leaking_signal", .obj, "leaking_signal", true, .obj⟩,
     ⟨"baseband_signal", .obj, "baseband_signal", false, .obj⟩,
     ⟨"operator_separation", .flag, "operator_separation", false, .flag⟩,
     ⟨"trigger_realization", .obj, "trigger_realization", false, .obj⟩,
     ⟨"dsp_receptions", .seq, "operator_receptions", false, .seq⟩]
  reads :=
    [.field "impinging_signals" .seq "impinging_signals" .empty,
     .field "leaking_signal" .obj "leaking_signal" .null,
     .field "baseband_signal" .obj "baseband_signal" .required,
     .field "operator_separation" .flag "operator_separation" .required,
     .field "operator_inputs" .seq "operator_inputs" .empty,
     .field "trigger_realization" .obj "trigger_realization" .required,
     .field "noise_realization" .obj "noise_realization" .required,
     .field "dsp_receptions" .seq "operator_receptions" .empty]

/-- `SimulatedDevice`: `simulation/simulated_device.py` 1104-1280, 2076-2088, 2092-2117,
2121-2123, `core/device.py` 1643-1649, 1652-1664. -/
def simulatedDevice : ClassDesc where
  name := "SimulatedDevice"
  params :=
    [⟨"scenario", .obj, true, false⟩, ⟨"antennas", .obj, true, false⟩, ⟨"rf", .obj, false, false⟩,
     ⟨"isolation", .obj, false, false⟩, ⟨"coupling", .obj, false, false⟩,
     ⟨"trigger_model", .obj, false, false⟩, ⟨"carrier_frequency", .flt, false, false⟩,
     ⟨"bandwidth", .flt, false, false⟩, ⟨"oversampling_factor", .int, false, false⟩,
     ⟨"operator_separation", .flag, false, false⟩, ⟨"noise_level", .obj, true, false⟩,
     ⟨"noise_model", .obj, false, false⟩, ⟨"pose", .obj, false, false⟩,
     ⟨"velocity", .flts, true, false⟩, ⟨"transmit_dsp", .seq, false, false⟩,
     ⟨"receive_dsp", .seq, false, false⟩, ⟨"transmit_encoding", .seq, false, false⟩,
     ⟨"receive_decoding", .seq, false, false⟩, ⟨"power", .flt, false, false⟩,
     ⟨"seed", .int, true, false⟩]
  writes :=
    [⟨"transmit_dsp", .seq, "transmit_dsp", false, .seq⟩,
     ⟨"receive_dsp", .seq, "receive_dsp", false, .seq⟩,
     ⟨"transmit_encoding", .seq, "transmit_encoding", false, .seq⟩,
     ⟨"receive_decoding", .seq, "receive_decoding", false, .seq⟩,
     ⟨"power", .flt, "power", false, .flt⟩, ⟨"pose", .obj, "pose", false, .obj⟩,
     ⟨"rf", .obj, "rf", false, .obj⟩, ⟨"isolation", .obj, "isolation", false, .obj⟩,
     ⟨"coupling", .obj, "coupling", false, .obj⟩,
     ⟨"trigger_model", .obj, "trigger_model", false, .obj⟩,
     ⟨"noise_model", .obj, "noise_model", false, .obj⟩,
     ⟨"carrier_frequency", .flt, "carrier_frequency", false, .flt⟩,
     ⟨"bandwidth", .flt, "bandwidth", false, .flt⟩,
     ⟨"oversampling_factor", .int, "oversampling_factor", false, .int⟩,
     ⟨"operator_separation", .flag, "operator_separation", false, .flag⟩]
  reads :=
    [.field "transmit_dsp" .seq "transmit_dsp" .empty,
     .field "receive_dsp" .seq "receive_dsp" .empty,
     .field "transmit_encoding" .seq "transmit_encoding" .empty,
     .field "receive_decoding" .seq "receive_decoding" .empty,
     .field "power" .flt "power" .standard, .field "pose" .obj "pose" .null,
     .field "antennas" .obj "antennas" .null, .field "rf" .obj "rf" .null,
     .field "isolation" .obj "isolation" .null, .field "coupling" .obj "coupling" .null,
     .field "trigger_model" .obj "trigger_model" .null,
     .field "noise_level" .obj "noise_level" .null, .field "noise_model" .obj "noise_model" .null,
     .field "carrier_frequency" .flt "carrier_frequency" .standard,
     .field "bandwidth" .flt "bandwidth" .standard,
     .field "oversampling_factor" .int "oversampling_factor" .standard,
     .field "operator_separation" .flag "operator_separation" .standard]

/-- `SimulatedCustomArray`: `simulation/antennas.py` 791-808, `core/antennas.py` 1475-1477,
1481-1485. -/
def simulatedCustomArray : ClassDesc where
  name := "SimulatedCustomArray"
  params :=
    [⟨"ports", .seq, false, false⟩, ⟨"pose", .flts, false, false⟩]
  writes :=
    [⟨"antennas", .seq, "ports", false, .seq⟩, ⟨"pose", .flts, "pose", false, .flts⟩]
  reads :=
    [.field "antennas" .seq "ports" .empty, .field "pose" .flts "pose" .required]
  builds := "CustomAntennaArray"

/-- `TIXWR1843`: `simulation/rf/presets/ti/xwr1843.py` 58-139, `simulation/rf/chain.py` 664-675,
679-702. -/
def tixwr1843 : ClassDesc where
  name := "TIXWR1843"
  params :=
    [⟨"seed", .int, true, false⟩, ⟨"block_references", .seq, false, false⟩,
     ⟨"dsp_input_blocks", .seq, false, false⟩, ⟨"dsp_output_blocks", .seq, false, false⟩,
     ⟨"rf_input_blocks", .seq, false, false⟩, ⟨"rf_output_blocks", .seq, false, false⟩,
     ⟨"rf_origin_blocks", .seq, false, false⟩, ⟨"carrier_frequency", .flt, false, false⟩,
     ⟨"num_chirps", .int, false, false⟩, ⟨"chirp_bandwidth", .flt, false, false⟩,
     ⟨"chirp_slope", .flt, false, false⟩, ⟨"chirp_interval", .flt, false, false⟩,
     ⟨"hpf_cutoff", .flt, false, false⟩]
  writes :=
    [⟨"block_references", .seq, "block_references", false, .seq⟩,
     ⟨"dsp_input_blocks", .seq, "dsp_input_blocks", false, .seq⟩,
     ⟨"dsp_output_blocks", .seq, "dsp_output_blocks", false, .seq⟩,
     ⟨"rf_input_blocks", .seq, "rf_input_blocks", false, .seq⟩,
     ⟨"rf_output_blocks", .seq, "rf_output_blocks", false, .seq⟩,
     ⟨"rf_origin_blocks", .seq, "rf_origin_blocks", false, .seq⟩,
     ⟨"seed", .int, "seed", true, .int⟩]
  reads :=
    [.field "seed" .int "seed" .null, .field "block_references" .seq "block_references" .empty,
     .field "dsp_input_blocks" .seq "dsp_input_blocks" .empty,
     .field "dsp_output_blocks" .seq "dsp_output_blocks" .empty,
     .field "rf_input_blocks" .seq "rf_input_blocks" .empty,
     .field "rf_output_blocks" .seq "rf_output_blocks" .empty,
     .field "rf_origin_blocks" .seq "rf_origin_blocks" .empty]
  builds := "RFChain"

/-- `SimulatedUniformArray`: `simulation/antennas.py` 759-785, `core/antennas.py` 1412-1416,
1419-1424, `core/transformation.py` 786-787. -/
def simulatedUniformArray : ClassDesc where
  name := "SimulatedUniformArray"
  params :=
    [⟨"element", .obj, false, true⟩, ⟨"spacing", .flt, false, true⟩,
     ⟨"dimensions", .ints, false, true⟩, ⟨"pose", .flts, false, false⟩]
  writes :=
    [⟨"pose", .flts, "pose", false, .flts⟩, ⟨"dimensions", .ints, "dimensions", false, .flts⟩,
     ⟨"spacing", .flt, "spacing", false, .flt⟩, ⟨"element", .obj, "element", false, .obj⟩]
  reads :=
    [.field "element" .obj "element" .required, .field "spacing" .flt "spacing" .required,
     .field "dimensions" .flts "dimensions" .required, .field "pose" .flts "pose" .required]

/-- `ImpedanceCoupling`: `simulation/coupling/impedance.py` 34-76, 219-229, 233-242. -/
def impedanceCoupling : ClassDesc where
  name := "ImpedanceCoupling"
  params :=
    [⟨"transmit_correlation", .cpxs, true, false⟩, ⟨"receive_correlation", .cpxs, true, false⟩,
     ⟨"transmit_impedance", .cpxs, true, false⟩, ⟨"receive_impedance", .cpxs, true, false⟩,
     ⟨"matching_impedance", .cpxs, true, false⟩]
  writes :=
    [⟨"transmit_correlation", .cpxs, "transmit_correlation", true, .cpxs⟩,
     ⟨"receive_correlation", .cpxs, "receive_correlation", true, .cpxs⟩,
     ⟨"transmit_impedance", .cpxs, "transmit_impedance", true, .cpxs⟩,
     ⟨"receive_impedance", .cpxs, "receive_impedance", true, .cpxs⟩,
     ⟨"matching_impedance", .cpxs, "matching_impedance", true, .cpxs⟩]
  reads :=
    [.field "transmit_correlation" .flts "transmit_correlation" .null,
     .field "receive_correlation" .flts "receive_correlation" .null,
     .field "transmit_impedance" .flts "transmit_impedance" .null,
     .field "receive_impedance" .flts "receive_impedance" .null,
     .field "matching_impedance" .flts "matching_impedance" .null]

/-- `IdealChannelEstimation`: `simulation/modem/channel_estimation.py` 43-59, `modem/waveform.py`
173-174, 178-179. -/
def idealChannelEstimation : ClassDesc where
  name := "IdealChannelEstimation"
  params :=
    [⟨"channel", .obj, false, true⟩, ⟨"transmitter", .obj, false, true⟩,
     ⟨"receiver", .obj, false, true⟩]
  writes :=
    []
  reads :=
    []

/-- `SingleCarrierIdealChannelEstimation`: `simulation/modem/channel_estimation.py` 43-59,
`modem/waveform.py` 173-174, 178-179. -/
def singleCarrierIdealChannelEstimation : ClassDesc where
  name := "SingleCarrierIdealChannelEstimation"
  params :=
    [⟨"channel", .obj, false, true⟩, ⟨"transmitter", .obj, false, true⟩,
     ⟨"receiver", .obj, false, true⟩]
  writes :=
    []
  reads :=
    []

/-- `OFDMIdealChannelEstimation`: `simulation/modem/channel_estimation.py` 190-213,
`modem/waveform.py` 173-174, 178-179. -/
def ofdmIdealChannelEstimation : ClassDesc where
  name := "OFDMIdealChannelEstimation"
  params :=
    [⟨"channel", .obj, false, true⟩, ⟨"transmitter", .obj, false, true⟩,
     ⟨"receiver", .obj, false, true⟩, ⟨"reference_position", .obj, false, false⟩]
  writes :=
    []
  reads :=
    []

/-- The classes above which store every parameter. -/
def simFaithful : List ClassDesc :=
  [linearTrajectory, staticTrajectory, biTrajectoryB, deviceFocus, perfectCoupling,
   perfectIsolation, selectiveLeakage, specificIsolation, gain, automaticGainControl, dac,
   powerAmplifier, clippingPowerAmplifier, rappPowerAmplifier, salehPowerAmplifier,
   customPowerAmplifier, mixer, idealMixer, rfBlockReference, rfChain, thermalNoise, n0,
   awgnRealization, triggerRealization, staticTrigger, sampleOffsetTrigger, timeOffsetTrigger,
   randomTrigger, normalTrigger, simulatedDeviceOutput, simulatedDeviceTransmission,
   simulatedDeviceReceiveRealization, processedSimulatedDeviceInput, simulatedDeviceReception]

/-- The classes above which do not, with the parameters they lose. -/
def simLossy : List (ClassDesc × List String) :=
  [(simulatedDipole, ["weight"]), (simulatedIdealAntenna, ["weight"]),
   (simulatedLinearAntenna, ["weight"]), (simulatedPatchAntenna, ["weight"]),
   (simulatedDrop, ["channel_realizations"]), (sidelobeEvaluator, ["plot_surface"]),
   (si, ["confidence", "tolerance", "min_num_samples", "plot_scale", "tick_format", "plot_surface"]),
   (ssinr, ["confidence", "tolerance", "min_num_samples", "plot_scale", "tick_format", "plot_surface"]),
   (adc, ["num_ports", "noise_model", "noise_level", "seed"]),
   (memoryPolynomialPowerAmplifier, ["gain", "noise_model", "noise_level", "seed"]),
   (memoryCTPolynomialPowerAmplifier, ["gain", "noise_model", "noise_level", "seed"]),
   (rampGenerator, ["noise_model", "noise_level"]), (snr, ["channel"]), (awgn, ["seed"]),
   (noPhaseNoise, ["seed"]), (oscillatorPhaseNoise, ["seed"]),
   (x410, ["num_tx_channels", "num_rx_channels", "tx_gain", "rx_gain", "phase_noise"]),
   (simulationScenario, ["default_channel", "noise_level", "noise_model", "seed"]),
   (simulatedDevice, ["scenario", "antennas", "noise_level", "velocity", "seed"])]

end Verif.Schema.Py
