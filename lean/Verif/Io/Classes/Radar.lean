import Verif.Io.Schema

/-!
# Fields stored and restored by the classes of `hermespy`: radars (C122)

One description per concrete class: the parameters of its constructor, the calls of its `serialize`
and the arguments its `Deserialize` hands to the constructor, the methods inherited from base classes
included.  `true` and `false` after the kind of a parameter say whether its attribute may be `None` and
whether it has no default; after the attribute of a write, whether a test for `None` guards it.
Attributes whose name differs from the parameter they hold are listed under the parameter.  References
back to the owner of an object (`waveform`, `device`, `modem`), which the owner sets, are left out.
-/

namespace Verif.Schema.Py

/-- `RadarCube`: `radar/cube.py` 207-295, 439-444, 448-455. -/
def radarCube : ClassDesc where
  name := "RadarCube"
  params :=
    [⟨"data", .flts, false, true⟩, ⟨"angle_bins", .flts, false, false⟩,
     ⟨"doppler_bins", .flts, false, false⟩, ⟨"range_bins", .flts, false, false⟩,
     ⟨"carrier_frequency", .flt, false, false⟩]
  writes :=
    [⟨"data", .flts, "data", false, .flts⟩, ⟨"angle_bins", .flts, "angle_bins", false, .flts⟩,
     ⟨"doppler_bins", .flts, "doppler_bins", false, .flts⟩,
     ⟨"range_bins", .flts, "range_bins", false, .flts⟩,
     ⟨"carrier_frequency", .flt, "carrier_frequency", false, .flt⟩]
  reads :=
    [.field "data" .flts "data" .required, .field "angle_bins" .flts "angle_bins" .required,
     .field "doppler_bins" .flts "doppler_bins" .required,
     .field "range_bins" .flts "range_bins" .required,
     .field "carrier_frequency" .flt "carrier_frequency" .standard]

/-- `PointDetection`: `radar/detection.py` 47-78, 156-159, 163-167. -/
def pointDetection : ClassDesc where
  name := "PointDetection"
  params :=
    [⟨"position", .flts, false, true⟩, ⟨"velocity", .flts, false, true⟩,
     ⟨"power", .flt, false, true⟩]
  writes :=
    [⟨"position", .flts, "position", false, .flts⟩, ⟨"velocity", .flts, "velocity", false, .flts⟩,
     ⟨"power", .flt, "power", false, .flt⟩]
  reads :=
    [.field "position" .flts "position" .required, .field "velocity" .flts "velocity" .required,
     .field "power" .flt "power" .required]

/-- `RadarPointCloud`: `radar/detection.py` 176-200, 274-276, 280-285. -/
def radarPointCloud : ClassDesc where
  name := "RadarPointCloud"
  params :=
    [⟨"max_range", .flt, false, false⟩, ⟨"points", .seq, false, false⟩]
  writes :=
    [⟨"max_range", .flt, "max_range", false, .flt⟩, ⟨"points", .seq, "points", false, .seq⟩]
  reads :=
    [.field "max_range" .flt "max_range" .required, .field "points" .seq "points" .empty]

/-- `ThresholdDetector`: `radar/detection.py` 314-335, 415-418, 422-428. -/
def thresholdDetector : ClassDesc where
  name := "ThresholdDetector"
  params :=
    [⟨"min_power", .flt, false, true⟩, ⟨"normalize", .flag, false, false⟩,
     ⟨"peak_detection", .flag, false, false⟩]
  writes :=
    [⟨"min_power", .flt, "min_power", false, .flt⟩,
     ⟨"normalize", .flag, "normalize", false, .flag⟩,
     ⟨"peak_detection", .flag, "peak_detection", false, .flag⟩]
  reads :=
    [.field "min_power" .flt "min_power" .required, .field "normalize" .flag "normalize" .required,
     .field "peak_detection" .flag "peak_detection" .required]

/-- `MaxDetector`: `radar/detection.py` 458-459, 463-464. -/
def maxDetector : ClassDesc where
  name := "MaxDetector"
  params :=
    []
  writes :=
    []
  reads :=
    []

/-- `CFARDetector`: `radar/detection.py` 505-523, 635-638, 642-646. -/
def cfarDetector : ClassDesc where
  name := "CFARDetector"
  params :=
    [⟨"num_training_cells", .ints, false, true⟩, ⟨"num_guard_cells", .ints, false, true⟩,
     ⟨"pfa", .flt, false, true⟩]
  writes :=
    [⟨"num_training_cells", .ints, "num_training_cells", false, .ints⟩,
     ⟨"num_guard_cells", .ints, "num_guard_cells", false, .ints⟩,
     ⟨"pfa", .flt, "pfa", false, .flt⟩]
  reads :=
    [.field "num_training_cells" .ints "num_training_cells" .required,
     .field "num_guard_cells" .ints "num_guard_cells" .required, .field "pfa" .flt "pfa" .required]

/-- `DetectionProbEvaluator`: `radar/evaluators.py` 339-368, 412-416, 420-430. -/
def detectionProbEvaluator : ClassDesc where
  name := "DetectionProbEvaluator"
  params :=
    [⟨"radar", .obj, false, true⟩, ⟨"confidence", .flt, false, false⟩,
     ⟨"tolerance", .flt, false, false⟩, ⟨"min_num_samples", .int, false, false⟩,
     ⟨"plot_scale", .txt, false, false⟩, ⟨"tick_format", .obj, false, false⟩,
     ⟨"plot_surface", .flag, false, false⟩]
  writes :=
    [⟨"radar", .obj, "radar", false, .obj⟩, ⟨"confidence", .flt, "confidence", false, .flt⟩,
     ⟨"tolerance", .flt, "tolerance", false, .flt⟩,
     ⟨"min_num_samples", .int, "min_num_samples", false, .int⟩]
  reads :=
    [.field "radar" .obj "radar" .required, .field "confidence" .flt "confidence" .standard,
     .field "tolerance" .flt "tolerance" .standard,
     .field "min_num_samples" .int "min_num_samples" .standard]

/-- `FMCW`: `radar/fmcw.py` 53-89, 336-340, 344-350. -/
def fmcw : ClassDesc where
  name := "FMCW"
  params :=
    [⟨"num_chirps", .int, false, false⟩, ⟨"chirp_duration", .flt, false, false⟩,
     ⟨"pulse_rep_interval", .flt, false, false⟩, ⟨"adc_sampling_rate", .flt, false, false⟩]
  writes :=
    [⟨"num_chirps", .int, "num_chirps", false, .int⟩,
     ⟨"chirp_duration", .flt, "chirp_duration", false, .flt⟩,
     ⟨"pulse_rep_interval", .flt, "pulse_rep_interval", false, .flt⟩,
     ⟨"adc_sampling_rate", .flt, "adc_sampling_rate", false, .flt⟩]
  reads :=
    [.field "num_chirps" .int "num_chirps" .standard,
     .field "chirp_duration" .flt "chirp_duration" .standard,
     .field "pulse_rep_interval" .flt "pulse_rep_interval" .standard,
     .field "adc_sampling_rate" .flt "adc_sampling_rate" .standard]

/-- `RadarTransmission`: `radar/radar.py` 247-254, `core/device.py` 175-176, 179-181. -/
def radarTransmission : ClassDesc where
  name := "RadarTransmission"
  params :=
    [⟨"signal", .obj, false, true⟩]
  writes :=
    [⟨"signal", .obj, "signal", false, .obj⟩]
  reads :=
    [.field "signal" .obj "signal" .required]

/-- `RadarReception`: `radar/radar.py` 266-282, 300-304, 308-312, `core/device.py` 175-176. -/
def radarReception : ClassDesc where
  name := "RadarReception"
  params :=
    [⟨"signal", .obj, false, true⟩, ⟨"cube", .obj, false, true⟩, ⟨"cloud", .obj, true, false⟩]
  writes :=
    [⟨"signal", .obj, "signal", false, .obj⟩, ⟨"cube", .obj, "cube", false, .obj⟩,
     ⟨"cloud", .obj, "cloud", true, .obj⟩]
  reads :=
    [.field "signal" .obj "signal" .required, .field "cube" .obj "cube" .required,
     .field "cloud" .obj "cloud" .null]

/-- `Radar`: `radar/radar.py` 488-495, 499-511, 604-664, 797-800, 804-807, `core/device.py`
583-585, 588-590, 594-596, 749-754, 758-763, 1029-1034, 1038-1043. -/
def radar : ClassDesc where
  name := "Radar"
  params :=
    [⟨"waveform", .obj, true, false⟩, ⟨"receive_beamformer", .obj, true, false⟩,
     ⟨"detector", .obj, true, false⟩, ⟨"min_range", .flt, false, false⟩,
     ⟨"selected_transmit_ports", .ints, true, false⟩,
     ⟨"selected_receive_ports", .ints, true, false⟩, ⟨"carrier_frequency", .flt, true, false⟩,
     ⟨"seed", .int, true, false⟩]
  writes :=
    [⟨"carrier_frequency", .flt, "carrier_frequency", true, .flt⟩,
     ⟨"selected_receive_ports", .ints, "selected_receive_ports", true, .ints⟩,
     ⟨"selected_transmit_ports", .ints, "selected_transmit_ports", true, .ints⟩,
     ⟨"receive_beamformer", .obj, "receive_beamformer", true, .obj⟩,
     ⟨"detector", .obj, "detector", true, .obj⟩, ⟨"min_range", .flt, "min_range", false, .flt⟩,
     ⟨"waveform", .obj, "waveform", true, .obj⟩]
  reads :=
    [.field "carrier_frequency" .flt "carrier_frequency" .null,
     .field "selected_receive_ports" .ints "selected_receive_ports" .null,
     .field "selected_transmit_ports" .ints "selected_transmit_ports" .null,
     .field "receive_beamformer" .obj "receive_beamformer" .null,
     .field "detector" .obj "detector" .null, .field "min_range" .flt "min_range" .standard,
     .field "waveform" .obj "waveform" .null]

/-- The classes above which store every parameter. -/
def radarFaithful : List ClassDesc :=
  [radarCube, pointDetection, radarPointCloud, thresholdDetector, maxDetector, cfarDetector, fmcw,
   radarTransmission, radarReception]

/-- The classes above which do not, with the parameters they lose. -/
def radarLossy : List (ClassDesc × List String) :=
  [(detectionProbEvaluator, ["plot_scale", "tick_format", "plot_surface"]), (radar, ["seed"])]

end Verif.Schema.Py
