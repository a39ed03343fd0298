import Verif.Io.Schema

/-!
# Fields stored and restored by the classes of `hermespy`: beamformers and channels (C122)

One description per concrete class: the parameters of its constructor, the calls of its `serialize`
and the arguments its `Deserialize` hands to the constructor, the methods inherited from base classes
included.  `true` and `false` after the kind of a parameter say whether its attribute may be `None` and
whether it has no default; after the attribute of a write, whether a test for `None` guards it.
Attributes whose name differs from the parameter they hold are listed under the parameter.  References
back to the owner of an object (`waveform`, `device`, `modem`), which the owner sets, are left out.
-/

namespace Verif.Schema.Py

/-- `SphericalFocus`: `beamforming/beamformer.py` 79-89, 131-132, 136-137. -/
def sphericalFocus : ClassDesc where
  name := "SphericalFocus"
  params :=
    [⟨"angles", .flts, false, true⟩]
  writes :=
    [⟨"angles", .flts, "angles", false, .flts⟩]
  reads :=
    [.field "angles" .flts "angles" .required]

/-- `CoordinateFocus`: `beamforming/beamformer.py` 146-165, 197-199, 203-207. -/
def coordinateFocus : ClassDesc where
  name := "CoordinateFocus"
  params :=
    [⟨"coordinates", .flts, false, true⟩, ⟨"reference", .txt, false, false⟩]
  writes :=
    [⟨"direction", .flts, "coordinates", false, .flts⟩,
     ⟨"reference", .txt, "reference", false, .txt⟩]
  reads :=
    [.field "direction" .flts "coordinates" .required,
     .field "reference" .txt "reference" .required]

/-- `CaponBeamformer`: `beamforming/capon.py` 28-38, 102-103, 107-108. -/
def caponBeamformer : ClassDesc where
  name := "CaponBeamformer"
  params :=
    [⟨"loading", .flt, false, false⟩]
  writes :=
    [⟨"loading", .flt, "loading", false, .flt⟩]
  reads :=
    [.field "loading" .flt "loading" .required]

/-- `ConventionalBeamformer`: `beamforming/conventional.py` 25-28, 132-133, 137-138. -/
def conventionalBeamformer : ClassDesc where
  name := "ConventionalBeamformer"
  params :=
    []
  writes :=
    []
  reads :=
    []

/-- `NullSteeringBeamformer`: `beamforming/nullsteeringbeamformer.py` 24-26, 104-105, 109-110. -/
def nullSteeringBeamformer : ClassDesc where
  name := "NullSteeringBeamformer"
  params :=
    []
  writes :=
    []
  reads :=
    []

/-- `BeamformingTransmitter`: `beamforming/operators.py` 38-53, 82-84, 88-91. -/
def beamformingTransmitter : ClassDesc where
  name := "BeamformingTransmitter"
  params :=
    [⟨"signal", .obj, false, true⟩, ⟨"beamformer", .obj, false, true⟩]
  writes :=
    [⟨"beamformer", .obj, "beamformer", false, .obj⟩, ⟨"signal", .obj, "signal", false, .obj⟩]
  reads :=
    [.field "signal" .obj "signal" .required, .field "beamformer" .obj "beamformer" .required]

/-- `BeamformingReceiver`: `beamforming/operators.py` 99-119, 150-152, 156-167,
`core/operators.py` 220-226. -/
def beamformingReceiver : ClassDesc where
  name := "BeamformingReceiver"
  params :=
    [⟨"beamformer", .obj, false, true⟩, ⟨"num_samples", .int, false, true⟩,
     ⟨"selected_receive_ports", .ints, true, false⟩, ⟨"expected_power", .flt, false, false⟩]
  writes :=
    [⟨"num_samples", .int, "num_samples", false, .int⟩,
     ⟨"selected_receive_ports", .ints, "selected_receive_ports", true, .flts⟩,
     ⟨"expected_power", .flt, "expected_power", false, .flt⟩,
     ⟨"beamformer", .obj, "beamformer", false, .obj⟩]
  reads :=
    [.field "beamformer" .obj "beamformer" .required,
     .field "num_samples" .int "num_samples" .required,
     .field "selected_receive_ports" .ints "selected_receive_ports" .null,
     .field "expected_power" .flt "expected_power" .required]

/-- `CDLRealization`: `channel/cdl/cdl.py` 187-220, 307-314, 318-330, 334-337,
`channel/channel.py` 722-723, 726-727. -/
def cdlRealization : ClassDesc where
  name := "CDLRealization"
  params :=
    [⟨"type", .obj, false, true⟩, ⟨"rms_delay", .flt, false, true⟩,
     ⟨"rayleigh_factor", .flt, false, true⟩, ⟨"angle_coupling_indices", .ints, false, true⟩,
     ⟨"consistent_realization", .obj, false, true⟩, ⟨"xpr_phase", .obj, false, true⟩,
     ⟨"sample_hooks", .seq, false, true⟩, ⟨"gain", .flt, false, true⟩]
  writes :=
    [⟨"type", .obj, "type", false, .obj⟩, ⟨"rms_delay", .flt, "rms_delay", false, .flt⟩,
     ⟨"rayleigh_factor", .flt, "rayleigh_factor", false, .flt⟩,
     ⟨"angle_coupling_indices", .ints, "angle_coupling_indices", false, .ints⟩,
     ⟨"consistent_realization", .obj, "consistent_realization", false, .obj⟩,
     ⟨"xpr_phase", .obj, "xpr_phase", false, .obj⟩, ⟨"gain", .flt, "gain", false, .flt⟩]
  reads :=
    [.const "sample_hooks" (.seq []), .field "type" .obj "type" .required,
     .field "rms_delay" .flt "rms_delay" .required,
     .field "rayleigh_factor" .flt "rayleigh_factor" .required,
     .field "angle_coupling_indices" .ints "angle_coupling_indices" .required,
     .field "consistent_realization" .obj "consistent_realization" .required,
     .field "xpr_phase" .obj "xpr_phase" .required, .field "gain" .flt "gain" .standard]

/-- `CDL`: `channel/cdl/cdl.py` 353-387, 474-479, 483-492. -/
def cdl : ClassDesc where
  name := "CDL"
  params :=
    [⟨"model_type", .obj, false, true⟩, ⟨"rms_delay", .flt, false, true⟩,
     ⟨"rayleigh_factor", .flt, false, false⟩, ⟨"decorrelation_distance", .flt, false, false⟩,
     ⟨"gain", .flt, false, false⟩, ⟨"seed", .int, true, false⟩]
  writes :=
    [⟨"model_type", .obj, "model_type", false, .obj⟩,
     ⟨"rms_delay", .flt, "rms_delay", false, .flt⟩,
     ⟨"rayleigh_factor", .flt, "rayleigh_factor", false, .flt⟩,
     ⟨"decorrelation_distance", .flt, "decorrelation_distance", false, .flt⟩,
     ⟨"gain", .flt, "gain", false, .flt⟩]
  reads :=
    [.field "model_type" .obj "model_type" .required,
     .field "rms_delay" .flt "rms_delay" .required,
     .field "rayleigh_factor" .flt "rayleigh_factor" .standard,
     .field "decorrelation_distance" .flt "decorrelation_distance" .standard,
     .field "gain" .flt "gain" .required]

/-- `ClusterDelayLineRealizationParameters`: `channel/cdl/cluster_delay_lines.py` 920-943,
947-962. -/
def clusterDelayLineRealizationParameters : ClassDesc where
  name := "ClusterDelayLineRealizationParameters"
  params :=
    [⟨"state_variable", .obj, false, true⟩, ⟨"delay_normalization", .obj, false, true⟩,
     ⟨"oxygen_absorption", .flag, false, true⟩, ⟨"large_scale_parameters", .flts, false, true⟩,
     ⟨"cluster_shadowing_log_variable", .obj, false, true⟩,
     ⟨"cluster_delays_variable", .obj, false, true⟩,
     ⟨"azimuth_angle_variation_variable", .obj, false, true⟩,
     ⟨"azimuth_spread_sign", .ints, false, true⟩,
     ⟨"zenith_angle_variation_variable", .obj, false, true⟩,
     ⟨"zenith_spread_sign", .ints, false, true⟩, ⟨"angle_coupling_indices", .ints, false, true⟩,
     ⟨"cross_polarization_power_variable", .obj, false, true⟩,
     ⟨"cross_polarization_phase_variable", .obj, false, true⟩]
  writes :=
    [⟨"state_variable", .obj, "state_variable", false, .obj⟩,
     ⟨"delay_normalization", .obj, "delay_normalization", false, .obj⟩,
     ⟨"oxygen_absorption", .flag, "oxygen_absorption", false, .flag⟩,
     ⟨"large_scale_parameters", .flts, "large_scale_parameters", false, .flts⟩,
     ⟨"cluster_shadowing_log_variable", .obj, "cluster_shadowing_log_variable", false, .obj⟩,
     ⟨"cluster_delays_variable", .obj, "cluster_delays_variable", false, .obj⟩,
     ⟨"azimuth_angle_variation_variable", .obj, "azimuth_angle_variation_variable", false, .obj⟩,
     ⟨"azimuth_spread_sign", .ints, "azimuth_spread_sign", false, .ints⟩,
     ⟨"zenith_angle_variation_variable", .obj, "zenith_angle_variation_variable", false, .obj⟩,
     ⟨"zenith_spread_sign", .ints, "zenith_spread_sign", false, .ints⟩,
     ⟨"angle_coupling_indices", .ints, "angle_coupling_indices", false, .ints⟩,
     ⟨"cross_polarization_power_variable", .obj, "cross_polarization_power_variable", false, .obj⟩,
     ⟨"cross_polarization_phase_variable", .obj, "cross_polarization_phase_variable", false, .obj⟩]
  reads :=
    [.field "state_variable" .obj "state_variable" .required,
     .field "delay_normalization" .obj "delay_normalization" .required,
     .field "oxygen_absorption" .flag "oxygen_absorption" .required,
     .field "large_scale_parameters" .flts "large_scale_parameters" .required,
     .field "cluster_shadowing_log_variable" .obj "cluster_shadowing_log_variable" .required,
     .field "cluster_delays_variable" .obj "cluster_delays_variable" .required,
     .field "azimuth_angle_variation_variable" .obj "azimuth_angle_variation_variable" .required,
     .field "azimuth_spread_sign" .ints "azimuth_spread_sign" .required,
     .field "zenith_angle_variation_variable" .obj "zenith_angle_variation_variable" .required,
     .field "zenith_spread_sign" .ints "zenith_spread_sign" .required,
     .field "angle_coupling_indices" .ints "angle_coupling_indices" .required,
     .field "cross_polarization_power_variable" .obj "cross_polarization_power_variable" .required,
     .field "cross_polarization_phase_variable" .obj "cross_polarization_phase_variable" .required]

/-- `IndoorFactoryRealization`: `channel/cdl/indoor_factory.py` 73-132, 388-395, 399-410,
`channel/cdl/cluster_delay_lines.py` 2035-2057, 2061-2073, `channel/channel.py` 722-723, 726-727.
-/
def indoorFactoryRealization : ClassDesc where
  name := "IndoorFactoryRealization"
  params :=
    [⟨"expected_state", .obj, true, true⟩, ⟨"state_realization", .obj, false, true⟩,
     ⟨"los_realization", .obj, false, true⟩, ⟨"nlos_realization", .obj, false, true⟩,
     ⟨"parameters", .obj, false, true⟩, ⟨"volume", .flt, false, true⟩,
     ⟨"surface", .flt, false, true⟩, ⟨"factory_type", .obj, false, true⟩,
     ⟨"clutter_height", .flt, false, true⟩, ⟨"sample_hooks", .seq, false, true⟩,
     ⟨"gain", .flt, false, false⟩]
  writes :=
    [⟨"gain", .flt, "gain", false, .flt⟩, ⟨"expected_state", .obj, "expected_state", true, .obj⟩,
     ⟨"state_realization", .obj, "state_realization", false, .obj⟩,
     ⟨"parameters", .obj, "parameters", false, .obj⟩,
     ⟨"los_realization", .obj, "los_realization", false, .obj⟩,
     ⟨"nlos_realization", .obj, "nlos_realization", false, .obj⟩,
     ⟨"volume", .flt, "volume", false, .flt⟩, ⟨"surface", .flt, "surface", false, .flt⟩,
     ⟨"factory_type", .obj, "factory_type", false, .obj⟩,
     ⟨"clutter_height", .flt, "clutter_height", false, .flt⟩]
  reads :=
    [.field "expected_state" .obj "expected_state" .null,
     .field "los_realization" .obj "los_realization" .required,
     .field "nlos_realization" .obj "nlos_realization" .required,
     .field "volume" .flt "volume" .required, .field "surface" .flt "surface" .required,
     .field "factory_type" .obj "factory_type" .required,
     .field "clutter_height" .flt "clutter_height" .required, .const "sample_hooks" (.seq []),
     .field "gain" .flt "gain" .standard,
     .field "state_realization" .obj "state_realization" .required,
     .field "parameters" .obj "parameters" .required]

/-- `IndoorFactory`: `channel/cdl/indoor_factory.py` 423-469, 600-605, 609-616,
`channel/cdl/cluster_delay_lines.py` 2289-2294, 2297-2307. -/
def indoorFactory : ClassDesc where
  name := "IndoorFactory"
  params :=
    [⟨"volume", .flt, false, true⟩, ⟨"surface", .flt, false, true⟩,
     ⟨"factory_type", .obj, false, true⟩, ⟨"clutter_height", .flt, false, false⟩,
     ⟨"delay_normalization", .obj, false, false⟩, ⟨"oxygen_absorption", .flag, false, false⟩,
     ⟨"expected_state", .obj, true, false⟩, ⟨"gain", .flt, false, false⟩,
     ⟨"seed", .int, true, false⟩]
  writes :=
    [⟨"gain", .flt, "gain", false, .flt⟩,
     ⟨"delay_normalization", .obj, "delay_normalization", false, .obj⟩,
     ⟨"oxygen_absorption", .flag, "oxygen_absorption", false, .flag⟩,
     ⟨"expected_state", .obj, "expected_state", true, .obj⟩,
     ⟨"factory_type", .obj, "factory_type", false, .obj⟩, ⟨"volume", .flt, "volume", false, .flt⟩,
     ⟨"surface", .flt, "surface", false, .flt⟩,
     ⟨"clutter_height", .flt, "clutter_height", false, .flt⟩]
  reads :=
    [.field "volume" .flt "volume" .required, .field "surface" .flt "surface" .required,
     .field "factory_type" .obj "factory_type" .required,
     .field "clutter_height" .flt "clutter_height" .standard, .field "gain" .flt "gain" .standard,
     .field "delay_normalization" .obj "delay_normalization" .standard,
     .field "oxygen_absorption" .flag "oxygen_absorption" .standard,
     .field "expected_state" .obj "expected_state" .null]

/-- `IndoorOfficeRealization`: `channel/cdl/indoor_office.py` 55-103, 357-361, 365-373,
`channel/cdl/cluster_delay_lines.py` 2035-2057, 2061-2073, `channel/channel.py` 722-723, 726-727.
-/
def indoorOfficeRealization : ClassDesc where
  name := "IndoorOfficeRealization"
  params :=
    [⟨"expected_state", .obj, true, true⟩, ⟨"state_realization", .obj, false, true⟩,
     ⟨"los_realization", .obj, false, true⟩, ⟨"nlos_realization", .obj, false, true⟩,
     ⟨"parameters", .obj, false, true⟩, ⟨"office_type", .obj, false, true⟩,
     ⟨"sample_hooks", .seq, false, true⟩, ⟨"gain", .flt, false, false⟩]
  writes :=
    [⟨"gain", .flt, "gain", false, .flt⟩, ⟨"expected_state", .obj, "expected_state", true, .obj⟩,
     ⟨"state_realization", .obj, "state_realization", false, .obj⟩,
     ⟨"parameters", .obj, "parameters", false, .obj⟩,
     ⟨"los_realization", .obj, "los_realization", false, .obj⟩,
     ⟨"nlos_realization", .obj, "nlos_realization", false, .obj⟩,
     ⟨"office_type", .obj, "office_type", false, .obj⟩]
  reads :=
    [.field "expected_state" .obj "expected_state" .null,
     .field "los_realization" .obj "los_realization" .required,
     .field "nlos_realization" .obj "nlos_realization" .required,
     .field "office_type" .obj "office_type" .required, .const "sample_hooks" (.seq []),
     .field "gain" .flt "gain" .standard,
     .field "state_realization" .obj "state_realization" .required,
     .field "parameters" .obj "parameters" .required]

/-- `IndoorOffice`: `channel/cdl/indoor_office.py` 383-425, 478-480, 484-488,
`channel/cdl/cluster_delay_lines.py` 2289-2294, 2297-2307. -/
def indoorOffice : ClassDesc where
  name := "IndoorOffice"
  params :=
    [⟨"office_type", .obj, false, false⟩, ⟨"delay_normalization", .obj, false, false⟩,
     ⟨"oxygen_absorption", .flag, false, false⟩, ⟨"expected_state", .obj, true, false⟩,
     ⟨"gain", .flt, false, false⟩, ⟨"seed", .int, true, false⟩]
  writes :=
    [⟨"gain", .flt, "gain", false, .flt⟩,
     ⟨"delay_normalization", .obj, "delay_normalization", false, .obj⟩,
     ⟨"oxygen_absorption", .flag, "oxygen_absorption", false, .flag⟩,
     ⟨"expected_state", .obj, "expected_state", true, .obj⟩,
     ⟨"office_type", .obj, "office_type", false, .obj⟩]
  reads :=
    [.field "office_type" .obj "office_type" .standard, .field "gain" .flt "gain" .standard,
     .field "delay_normalization" .obj "delay_normalization" .standard,
     .field "oxygen_absorption" .flag "oxygen_absorption" .standard,
     .field "expected_state" .obj "expected_state" .null]

/-- `RuralMacrocellsRealization`: `channel/cdl/rural_macrocells.py` 35-83, 356-360, 364-372,
`channel/cdl/cluster_delay_lines.py` 2035-2057, 2061-2073, `channel/channel.py` 722-723, 726-727.
-/
def ruralMacrocellsRealization : ClassDesc where
  name := "RuralMacrocellsRealization"
  params :=
    [⟨"expected_state", .obj, true, true⟩, ⟨"state_realization", .obj, false, true⟩,
     ⟨"los_realization", .obj, false, true⟩, ⟨"nlos_realization", .obj, false, true⟩,
     ⟨"o2i_realization", .obj, false, true⟩, ⟨"parameters", .obj, false, true⟩,
     ⟨"sample_hooks", .seq, false, true⟩, ⟨"gain", .flt, false, false⟩]
  writes :=
    [⟨"gain", .flt, "gain", false, .flt⟩, ⟨"expected_state", .obj, "expected_state", true, .obj⟩,
     ⟨"state_realization", .obj, "state_realization", false, .obj⟩,
     ⟨"parameters", .obj, "parameters", false, .obj⟩,
     ⟨"los_realization", .obj, "los_realization", false, .obj⟩,
     ⟨"nlos_realization", .obj, "nlos_realization", false, .obj⟩,
     ⟨"o2i_realization", .obj, "o2i_realization", false, .obj⟩]
  reads :=
    [.field "expected_state" .obj "expected_state" .null,
     .field "los_realization" .obj "los_realization" .required,
     .field "nlos_realization" .obj "nlos_realization" .required,
     .field "o2i_realization" .obj "o2i_realization" .required, .const "sample_hooks" (.seq []),
     .field "gain" .flt "gain" .standard,
     .field "state_realization" .obj "state_realization" .required,
     .field "parameters" .obj "parameters" .required]

/-- `RuralMacrocells`: `channel/cdl/cluster_delay_lines.py` 2091-2151, 2289-2294, 2297-2307,
`channel/cdl/rural_macrocells.py` 420-421. -/
def ruralMacrocells : ClassDesc where
  name := "RuralMacrocells"
  params :=
    [⟨"delay_normalization", .obj, false, false⟩, ⟨"oxygen_absorption", .flag, false, false⟩,
     ⟨"expected_state", .obj, true, false⟩, ⟨"gain", .flt, false, false⟩,
     ⟨"seed", .int, true, false⟩]
  writes :=
    [⟨"gain", .flt, "gain", false, .flt⟩,
     ⟨"delay_normalization", .obj, "delay_normalization", false, .obj⟩,
     ⟨"oxygen_absorption", .flag, "oxygen_absorption", false, .flag⟩,
     ⟨"expected_state", .obj, "expected_state", true, .obj⟩]
  reads :=
    [.field "gain" .flt "gain" .standard,
     .field "delay_normalization" .obj "delay_normalization" .standard,
     .field "oxygen_absorption" .flag "oxygen_absorption" .standard,
     .field "expected_state" .obj "expected_state" .null]

/-- `UrbanMacrocellsRealization`: `channel/cdl/urban_macrocells.py` 35-83, 433-437, 441-449,
`channel/cdl/cluster_delay_lines.py` 2035-2057, 2061-2073, `channel/channel.py` 722-723, 726-727.
-/
def urbanMacrocellsRealization : ClassDesc where
  name := "UrbanMacrocellsRealization"
  params :=
    [⟨"expected_state", .obj, true, true⟩, ⟨"state_realization", .obj, false, true⟩,
     ⟨"los_realization", .obj, false, true⟩, ⟨"nlos_realization", .obj, false, true⟩,
     ⟨"o2i_realization", .obj, false, true⟩, ⟨"parameters", .obj, false, true⟩,
     ⟨"sample_hooks", .seq, false, true⟩, ⟨"gain", .flt, false, false⟩]
  writes :=
    [⟨"gain", .flt, "gain", false, .flt⟩, ⟨"expected_state", .obj, "expected_state", true, .obj⟩,
     ⟨"state_realization", .obj, "state_realization", false, .obj⟩,
     ⟨"parameters", .obj, "parameters", false, .obj⟩,
     ⟨"los_realization", .obj, "los_realization", false, .obj⟩,
     ⟨"nlos_realization", .obj, "nlos_realization", false, .obj⟩,
     ⟨"o2i_realization", .obj, "o2i_realization", false, .obj⟩]
  reads :=
    [.field "expected_state" .obj "expected_state" .null,
     .field "los_realization" .obj "los_realization" .required,
     .field "nlos_realization" .obj "nlos_realization" .required,
     .field "o2i_realization" .obj "o2i_realization" .required, .const "sample_hooks" (.seq []),
     .field "gain" .flt "gain" .standard,
     .field "state_realization" .obj "state_realization" .required,
     .field "parameters" .obj "parameters" .required]

/-- `UrbanMacrocells`: `channel/cdl/cluster_delay_lines.py` 2091-2151, 2289-2294, 2297-2307,
`channel/cdl/urban_macrocells.py` 497-498. -/
def urbanMacrocells : ClassDesc where
  name := "UrbanMacrocells"
  params :=
    [⟨"delay_normalization", .obj, false, false⟩, ⟨"oxygen_absorption", .flag, false, false⟩,
     ⟨"expected_state", .obj, true, false⟩, ⟨"gain", .flt, false, false⟩,
     ⟨"seed", .int, true, false⟩]
  writes :=
    [⟨"gain", .flt, "gain", false, .flt⟩,
     ⟨"delay_normalization", .obj, "delay_normalization", false, .obj⟩,
     ⟨"oxygen_absorption", .flag, "oxygen_absorption", false, .flag⟩,
     ⟨"expected_state", .obj, "expected_state", true, .obj⟩]
  reads :=
    [.field "gain" .flt "gain" .standard,
     .field "delay_normalization" .obj "delay_normalization" .standard,
     .field "oxygen_absorption" .flag "oxygen_absorption" .standard,
     .field "expected_state" .obj "expected_state" .null]

/-- `UrbanMicrocellsRealization`: `channel/cdl/urban_microcells.py` 35-83, 419-423, 427-435,
`channel/cdl/cluster_delay_lines.py` 2035-2057, 2061-2073, `channel/channel.py` 722-723, 726-727.
-/
def urbanMicrocellsRealization : ClassDesc where
  name := "UrbanMicrocellsRealization"
  params :=
    [⟨"expected_state", .obj, true, true⟩, ⟨"state_realization", .obj, false, true⟩,
     ⟨"los_realization", .obj, false, true⟩, ⟨"nlos_realization", .obj, false, true⟩,
     ⟨"o2i_realization", .obj, false, true⟩, ⟨"parameters", .obj, false, true⟩,
     ⟨"sample_hooks", .seq, false, true⟩, ⟨"gain", .flt, false, false⟩]
  writes :=
    [⟨"gain", .flt, "gain", false, .flt⟩, ⟨"expected_state", .obj, "expected_state", true, .obj⟩,
     ⟨"state_realization", .obj, "state_realization", false, .obj⟩,
     ⟨"parameters", .obj, "parameters", false, .obj⟩,
     ⟨"los_realization", .obj, "los_realization", false, .obj⟩,
     ⟨"nlos_realization", .obj, "nlos_realization", false, .obj⟩,
     ⟨"o2i_realization", .obj, "o2i_realization", false, .obj⟩]
  reads :=
    [.field "expected_state" .obj "expected_state" .null,
     .field "los_realization" .obj "los_realization" .required,
     .field "nlos_realization" .obj "nlos_realization" .required,
     .field "o2i_realization" .obj "o2i_realization" .required, .const "sample_hooks" (.seq []),
     .field "gain" .flt "gain" .standard,
     .field "state_realization" .obj "state_realization" .required,
     .field "parameters" .obj "parameters" .required]

/-- `UrbanMicrocells`: `channel/cdl/cluster_delay_lines.py` 2091-2151, 2289-2294, 2297-2307,
`channel/cdl/urban_microcells.py` 483-484. -/
def urbanMicrocells : ClassDesc where
  name := "UrbanMicrocells"
  params :=
    [⟨"delay_normalization", .obj, false, false⟩, ⟨"oxygen_absorption", .flag, false, false⟩,
     ⟨"expected_state", .obj, true, false⟩, ⟨"gain", .flt, false, false⟩,
     ⟨"seed", .int, true, false⟩]
  writes :=
    [⟨"gain", .flt, "gain", false, .flt⟩,
     ⟨"delay_normalization", .obj, "delay_normalization", false, .obj⟩,
     ⟨"oxygen_absorption", .flag, "oxygen_absorption", false, .flag⟩,
     ⟨"expected_state", .obj, "expected_state", true, .obj⟩]
  reads :=
    [.field "gain" .flt "gain" .standard,
     .field "delay_normalization" .obj "delay_normalization" .standard,
     .field "oxygen_absorption" .flag "oxygen_absorption" .standard,
     .field "expected_state" .obj "expected_state" .null]

/-- `ConsistentVariable`: `channel/consistent.py` 33-48, 93-95, 99-103. -/
def consistentVariable : ClassDesc where
  name := "ConsistentVariable"
  params :=
    [⟨"shape", .ints, false, true⟩, ⟨"offset", .int, false, false⟩]
  writes :=
    [⟨"shape", .ints, "shape", false, .ints⟩, ⟨"offset", .int, "offset", false, .int⟩]
  reads :=
    [.field "shape" .ints "shape" .required, .field "offset" .int "offset" .standard]

/-- `DualConsistentRealization`: `channel/consistent.py` 165-173, 203-205, 209-213. -/
def dualConsistentRealization : ClassDesc where
  name := "DualConsistentRealization"
  params :=
    [⟨"frequencies", .flts, false, true⟩, ⟨"phases", .flts, false, true⟩]
  writes :=
    [⟨"frequencies", .flts, "frequencies", false, .flts⟩,
     ⟨"phases", .flts, "phases", false, .flts⟩]
  reads :=
    [.field "frequencies" .flts "frequencies" .required, .field "phases" .flts "phases" .required]

/-- `StaticConsistentRealization`: `channel/consistent.py` 241-247, 254-255, 259-260. -/
def staticConsistentRealization : ClassDesc where
  name := "StaticConsistentRealization"
  params :=
    [⟨"scalar_samples", .flts, false, true⟩]
  writes :=
    [⟨"scalar_samples", .flts, "scalar_samples", false, .flts⟩]
  reads :=
    [.field "scalar_samples" .flts "scalar_samples" .required]

/-- `ConsistentGaussian`: `channel/consistent.py` 33-48, 93-95, 99-103. -/
def consistentGaussian : ClassDesc where
  name := "ConsistentGaussian"
  params :=
    [⟨"shape", .ints, false, true⟩, ⟨"offset", .int, false, false⟩]
  writes :=
    [⟨"shape", .ints, "shape", false, .ints⟩, ⟨"offset", .int, "offset", false, .int⟩]
  reads :=
    [.field "shape" .ints "shape" .required, .field "offset" .int "offset" .standard]

/-- `ConsistentUniform`: `channel/consistent.py` 33-48, 93-95, 99-103. -/
def consistentUniform : ClassDesc where
  name := "ConsistentUniform"
  params :=
    [⟨"shape", .ints, false, true⟩, ⟨"offset", .int, false, false⟩]
  writes :=
    [⟨"shape", .ints, "shape", false, .ints⟩, ⟨"offset", .int, "offset", false, .int⟩]
  reads :=
    [.field "shape" .ints "shape" .required, .field "offset" .int "offset" .standard]

/-- `ConsistentBoolean`: `channel/consistent.py` 33-48, 93-95, 99-103. -/
def consistentBoolean : ClassDesc where
  name := "ConsistentBoolean"
  params :=
    [⟨"shape", .ints, false, true⟩, ⟨"offset", .int, false, false⟩]
  writes :=
    [⟨"shape", .ints, "shape", false, .ints⟩, ⟨"offset", .int, "offset", false, .int⟩]
  reads :=
    [.field "shape" .ints "shape" .required, .field "offset" .int "offset" .standard]

/-- `RandomDelayChannelRealization`: `channel/delay/random.py` 32-48, 87-91, 95-102,
`channel/delay/delay.py` 215-217, 220-224. -/
def randomDelayChannelRealization : ClassDesc where
  name := "RandomDelayChannelRealization"
  params :=
    [⟨"consistent_realization", .obj, false, true⟩, ⟨"delay_variable", .obj, false, true⟩,
     ⟨"delay", .range, false, true⟩, ⟨"model_propagation_loss", .flag, false, true⟩,
     ⟨"sample_hooks", .seq, false, true⟩, ⟨"gain", .flt, false, true⟩]
  writes :=
    [⟨"consistent_realization", .obj, "consistent_realization", false, .obj⟩,
     ⟨"delay_variable", .obj, "delay_variable", false, .obj⟩,
     ⟨"delay", .range, "delay", false, .range⟩,
     ⟨"model_propagation_loss", .flag, "model_propagation_loss", false, .flag⟩,
     ⟨"gain", .flt, "gain", false, .flt⟩]
  reads :=
    [.field "consistent_realization" .obj "consistent_realization" .required,
     .field "delay_variable" .obj "delay_variable" .required,
     .field "delay" .range "delay" .required, .const "sample_hooks" (.seq []),
     .field "model_propagation_loss" .flag "model_propagation_loss" .required,
     .field "gain" .flt "gain" .standard]

/-- `RandomDelayChannel`: `channel/delay/random.py` 112-151, 227-231, 235-242,
`channel/delay/delay.py` 270-272, 276-281, `channel/channel.py` 976-979, 982-986. -/
def randomDelayChannel : ClassDesc where
  name := "RandomDelayChannel"
  params :=
    [⟨"delay", .range, false, true⟩, ⟨"decorrelation_distance", .flt, false, false⟩,
     ⟨"model_propagation_loss", .flag, false, false⟩, ⟨"gain", .flt, false, false⟩,
     ⟨"seed", .int, true, false⟩]
  extras :=
    [⟨"delay_variable", .obj, false, false⟩]
  writes :=
    [⟨"delay_variable", .obj, "delay_variable", false, .obj⟩,
     ⟨"delay", .range, "delay", false, .range⟩,
     ⟨"decorrelation_distance", .flt, "decorrelation_distance", false, .flt⟩,
     ⟨"model_propagation_loss", .flag, "model_propagation_loss", false, .flag⟩,
     ⟨"gain", .flt, "gain", false, .flt⟩, ⟨"seed", .int, "seed", true, .int⟩]
  reads :=
    [.field "delay" .range "delay" .required,
     .field "decorrelation_distance" .flt "decorrelation_distance" .standard,
     .field "gain" .flt "gain" .standard, .field "seed" .int "seed" .null,
     .field "model_propagation_loss" .flag "model_propagation_loss" .required]

/-- `SpatialDelayChannelRealization`: `channel/delay/delay.py` 180-200, 215-217, 220-224,
`channel/delay/spatial.py` 37-41. -/
def spatialDelayChannelRealization : ClassDesc where
  name := "SpatialDelayChannelRealization"
  params :=
    [⟨"model_propagation_loss", .flag, false, true⟩, ⟨"sample_hooks", .seq, false, true⟩,
     ⟨"gain", .flt, false, true⟩]
  writes :=
    [⟨"model_propagation_loss", .flag, "model_propagation_loss", false, .flag⟩,
     ⟨"gain", .flt, "gain", false, .flt⟩]
  reads :=
    [.const "sample_hooks" (.seq []),
     .field "model_propagation_loss" .flag "model_propagation_loss" .required,
     .field "gain" .flt "gain" .standard]

/-- `SpatialDelayChannel`: `channel/delay/delay.py` 232-257, 270-272, 276-281,
`channel/channel.py` 976-979, 982-986, `channel/delay/spatial.py` 54-55. -/
def spatialDelayChannel : ClassDesc where
  name := "SpatialDelayChannel"
  params :=
    [⟨"model_propagation_loss", .flag, false, false⟩, ⟨"gain", .flt, false, false⟩,
     ⟨"seed", .int, true, false⟩]
  writes :=
    [⟨"model_propagation_loss", .flag, "model_propagation_loss", false, .flag⟩,
     ⟨"gain", .flt, "gain", false, .flt⟩, ⟨"seed", .int, "seed", true, .int⟩]
  reads :=
    [.field "gain" .flt "gain" .standard, .field "seed" .int "seed" .null,
     .field "model_propagation_loss" .flag "model_propagation_loss" .required]

/-- `CustomAntennaCorrelation`: `channel/fading/fading.py` 97-105, 136-137, 141-144. -/
def customAntennaCorrelation : ClassDesc where
  name := "CustomAntennaCorrelation"
  params :=
    [⟨"covariance", .cpxs, false, true⟩]
  writes :=
    [⟨"covariance_matrix", .cpxs, "covariance", false, .cpxs⟩]
  reads :=
    [.field "covariance_matrix" .cpxs "covariance" .required]

/-- `MultipathFadingChannel`: `channel/fading/fading.py` 606-754, 931-941, 945-967, 971-972,
`channel/channel.py` 976-979, 982-986. -/
def multipathFadingChannel : ClassDesc where
  name := "MultipathFadingChannel"
  params :=
    [⟨"delays", .flts, false, true⟩, ⟨"power_profile", .flts, false, true⟩,
     ⟨"rice_factors", .flts, false, true⟩, ⟨"correlation_distance", .flt, false, false⟩,
     ⟨"num_sinusoids", .int, false, false⟩, ⟨"los_angle", .flt, true, false⟩,
     ⟨"doppler_frequency", .flt, false, false⟩, ⟨"los_doppler_frequency", .flt, false, false⟩,
     ⟨"antenna_correlation", .obj, true, false⟩, ⟨"gain", .flt, false, false⟩,
     ⟨"seed", .int, true, false⟩]
  writes :=
    [⟨"delays", .flts, "delays", false, .flts⟩,
     ⟨"power_profile", .flts, "power_profile", false, .flts⟩,
     ⟨"rice_factors", .flts, "rice_factors", false, .flts⟩,
     ⟨"num_sinusoids", .int, "num_sinusoids", false, .int⟩,
     ⟨"correlation_distance", .flt, "correlation_distance", false, .flt⟩,
     ⟨"doppler_frequency", .flt, "doppler_frequency", false, .flt⟩,
     ⟨"los_doppler_frequency", .flt, "los_doppler_frequency", false, .flt⟩,
     ⟨"antenna_correlation", .obj, "antenna_correlation", true, .obj⟩,
     ⟨"gain", .flt, "gain", false, .flt⟩, ⟨"seed", .int, "seed", true, .int⟩]
  reads :=
    [.field "gain" .flt "gain" .standard, .field "seed" .int "seed" .null,
     .field "delays" .flts "delays" .required,
     .field "power_profile" .flts "power_profile" .required,
     .field "rice_factors" .flts "rice_factors" .required,
     .field "num_sinusoids" .int "num_sinusoids" .standard,
     .field "correlation_distance" .flt "correlation_distance" .standard,
     .field "doppler_frequency" .flt "doppler_frequency" .standard,
     .field "los_doppler_frequency" .flt "los_doppler_frequency" .required,
     .field "antenna_correlation" .obj "antenna_correlation" .null]

/-- `IdealChannelRealization`: `channel/channel.py` 426-442, `channel/ideal.py` 142-143, 146-147.
-/
def idealChannelRealization : ClassDesc where
  name := "IdealChannelRealization"
  params :=
    [⟨"sample_hooks", .seq, true, false⟩, ⟨"gain", .flt, false, false⟩]
  writes :=
    [⟨"gain", .flt, "gain", false, .flt⟩]
  reads :=
    [.const "sample_hooks" (.none), .field "gain" .flt "gain" .required]

/-- `IdealChannel`: `channel/channel.py` 742-763, `channel/ideal.py` 158-159, 163-164. -/
def idealChannel : ClassDesc where
  name := "IdealChannel"
  params :=
    [⟨"gain", .flt, false, false⟩, ⟨"seed", .int, true, false⟩]
  writes :=
    [⟨"gain", .flt, "gain", false, .flt⟩]
  reads :=
    [.field "gain" .flt "gain" .required]

/-- `FixedCrossSection`: `channel/radar/multi.py` 133-141, 168-169, 173-174. -/
def fixedCrossSection : ClassDesc where
  name := "FixedCrossSection"
  params :=
    [⟨"cross_section", .flt, false, true⟩]
  writes :=
    [⟨"cross_section", .flt, "cross_section", false, .flt⟩]
  reads :=
    [.field "cross_section" .flt "cross_section" .required]

/-- `VirtualRadarTarget`: `channel/radar/multi.py` 95-96, 99-100, 182-208, 231-234, 238-243. -/
def virtualRadarTarget : ClassDesc where
  name := "VirtualRadarTarget"
  params :=
    [⟨"cross_section", .obj, false, true⟩, ⟨"trajectory", .obj, false, false⟩,
     ⟨"static", .flag, false, false⟩]
  writes :=
    [⟨"static", .flag, "static", false, .flag⟩,
     ⟨"cross_section", .obj, "cross_section", false, .obj⟩,
     ⟨"trajectory", .obj, "trajectory", false, .obj⟩]
  reads :=
    [.field "cross_section" .obj "cross_section" .required,
     .field "trajectory" .obj "trajectory" .required, .field "static" .flag "static" .standard]

/-- `PhysicalRadarTarget`: `channel/radar/multi.py` 95-96, 99-100, 255-280, 312-315, 319-324. -/
def physicalRadarTarget : ClassDesc where
  name := "PhysicalRadarTarget"
  params :=
    [⟨"cross_section", .obj, false, true⟩, ⟨"moveable", .obj, false, true⟩,
     ⟨"static", .flag, false, false⟩]
  writes :=
    [⟨"static", .flag, "static", false, .flag⟩,
     ⟨"cross_section", .obj, "cross_section", false, .obj⟩,
     ⟨"moveable", .obj, "moveable", false, .obj⟩]
  reads :=
    [.field "cross_section" .obj "cross_section" .required,
     .field "moveable" .obj "moveable" .required, .field "static" .flag "static" .standard]

/-- `MultiTargetRadarChannelRealization`: `channel/radar/multi.py` 339-358, 437-443, 447-456,
`channel/radar/radar.py` 234-235, `channel/channel.py` 722-723, 726-727. -/
def multiTargetRadarChannelRealization : ClassDesc where
  name := "MultiTargetRadarChannelRealization"
  params :=
    [⟨"consistent_realization", .obj, false, true⟩, ⟨"phase_variable", .obj, false, true⟩,
     ⟨"targets", .seq, false, true⟩, ⟨"interference", .flag, false, true⟩,
     ⟨"attenuate", .flag, false, true⟩, ⟨"sample_hooks", .seq, false, true⟩,
     ⟨"gain", .flt, false, true⟩]
  writes :=
    [⟨"gain", .flt, "gain", false, .flt⟩,
     ⟨"consistent_realization", .obj, "consistent_realization", false, .obj⟩,
     ⟨"phase_variable", .obj, "phase_variable", false, .obj⟩,
     ⟨"targets", .seq, "targets", false, .seq⟩,
     ⟨"interference", .flag, "interference", false, .flag⟩,
     ⟨"attenuate", .flag, "attenuate", false, .flag⟩]
  reads :=
    [.field "consistent_realization" .obj "consistent_realization" .required,
     .field "phase_variable" .obj "phase_variable" .required,
     .field "targets" .seq "targets" .empty, .field "interference" .flag "interference" .required,
     .field "attenuate" .flag "attenuate" .required, .const "sample_hooks" (.seq []),
     .field "gain" .flt "gain" .standard]

/-- `MultiTargetRadarChannel`: `channel/radar/multi.py` 470-510, 589-593, 597-608,
`channel/radar/radar.py` 707-709, `channel/channel.py` 976-979. -/
def multiTargetRadarChannel : ClassDesc where
  name := "MultiTargetRadarChannel"
  params :=
    [⟨"interference", .flag, false, false⟩, ⟨"decorrelation_distance", .flt, false, false⟩,
     ⟨"attenuate", .flag, false, false⟩, ⟨"gain", .flt, false, false⟩, ⟨"seed", .int, true, false⟩,
     ⟨"targets", .seq, false, false⟩]
  writes :=
    [⟨"gain", .flt, "gain", false, .flt⟩, ⟨"seed", .int, "seed", true, .int⟩,
     ⟨"attenuate", .flag, "attenuate", false, .flag⟩,
     ⟨"interference", .flag, "interference", false, .flag⟩,
     ⟨"decorrelation_distance", .flt, "decorrelation_distance", false, .flt⟩,
     ⟨"targets", .seq, "targets", false, .seq⟩]
  reads :=
    [.field "interference" .flag "interference" .standard,
     .field "decorrelation_distance" .flt "decorrelation_distance" .required,
     .field "attenuate" .flag "attenuate" .standard, .field "gain" .flt "gain" .standard,
     .field "seed" .int "seed" .null, .field "targets" .seq "targets" .empty]

/-- `RadarTargetPath`: `channel/radar/radar.py` 445-447, 450-454, 460-492, 593-601, 605-612. -/
def radarTargetPath : ClassDesc where
  name := "RadarTargetPath"
  params :=
    [⟨"position", .flts, false, true⟩, ⟨"velocity", .flts, false, true⟩,
     ⟨"cross_section", .flt, false, true⟩, ⟨"reflection_phase", .flt, false, true⟩,
     ⟨"attenuate", .flag, false, false⟩, ⟨"static", .flag, false, false⟩]
  writes :=
    [⟨"attenuate", .flag, "attenuate", false, .flag⟩, ⟨"static", .flag, "static", false, .flag⟩,
     ⟨"position", .flts, "position", false, .flts⟩, ⟨"velocity", .flts, "velocity", false, .flts⟩,
     ⟨"cross_section", .flt, "cross_section", false, .flt⟩,
     ⟨"reflection_phase", .flt, "reflection_phase", false, .flt⟩]
  reads :=
    [.field "position" .flts "position" .required, .field "velocity" .flts "velocity" .required,
     .field "cross_section" .flt "cross_section" .required,
     .field "reflection_phase" .flt "reflection_phase" .required,
     .field "attenuate" .flag "attenuate" .standard, .field "static" .flag "static" .standard]

/-- `RadarInterferencePath`: `channel/radar/radar.py` 251-267, 445-447, 450-454, 659-660. -/
def radarInterferencePath : ClassDesc where
  name := "RadarInterferencePath"
  params :=
    [⟨"attenuate", .flag, false, false⟩, ⟨"static", .flag, false, false⟩]
  writes :=
    [⟨"attenuate", .flag, "attenuate", false, .flag⟩, ⟨"static", .flag, "static", false, .flag⟩]
  reads :=
    [.field "attenuate" .flag "attenuate" .standard, .field "static" .flag "static" .standard]

/-- `Cost259`: `channel/fading/cost259.py` 42-227, 239-248, 252-268, `channel/channel.py` 976-979,
982-986. -/
def cost259 : ClassDesc where
  name := "Cost259"
  params :=
    [⟨"model_type", .obj, false, false⟩, ⟨"correlation_distance", .flt, false, false⟩,
     ⟨"num_sinusoids", .int, false, false⟩, ⟨"los_angle", .flt, true, false⟩,
     ⟨"doppler_frequency", .flt, false, false⟩, ⟨"los_doppler_frequency", .flt, false, false⟩,
     ⟨"antenna_correlation", .obj, true, false⟩, ⟨"gain", .flt, false, false⟩,
     ⟨"seed", .int, true, false⟩]
  writes :=
    [⟨"model_type", .obj, "model_type", false, .obj⟩,
     ⟨"correlation_distance", .flt, "correlation_distance", false, .flt⟩,
     ⟨"num_sinusoids", .int, "num_sinusoids", false, .int⟩,
     ⟨"los_angle", .flt, "los_angle", false, .flt⟩,
     ⟨"doppler_frequency", .flt, "doppler_frequency", false, .flt⟩,
     ⟨"los_doppler_frequency", .flt, "los_doppler_frequency", false, .flt⟩,
     ⟨"antenna_correlation", .obj, "antenna_correlation", true, .obj⟩,
     ⟨"gain", .flt, "gain", false, .flt⟩, ⟨"seed", .int, "seed", true, .int⟩]
  reads :=
    [.field "model_type" .obj "model_type" .standard,
     .field "correlation_distance" .flt "correlation_distance" .standard,
     .field "num_sinusoids" .int "num_sinusoids" .standard,
     .field "los_angle" .flt "los_angle" .required,
     .field "doppler_frequency" .flt "doppler_frequency" .standard,
     .field "los_doppler_frequency" .flt "los_doppler_frequency" .required,
     .field "antenna_correlation" .obj "antenna_correlation" .null,
     .field "gain" .flt "gain" .standard, .field "seed" .int "seed" .null]

/-- `Exponential`: `channel/fading/exponential.py` 29-117, 138-148, 152-169, `channel/channel.py`
976-979, 982-986. -/
def exponential : ClassDesc where
  name := "Exponential"
  params :=
    [⟨"tap_interval", .flt, false, true⟩, ⟨"rms_delay", .flt, false, true⟩,
     ⟨"correlation_distance", .flt, false, false⟩, ⟨"num_sinusoids", .int, false, false⟩,
     ⟨"los_angle", .flt, true, false⟩, ⟨"doppler_frequency", .flt, false, false⟩,
     ⟨"los_doppler_frequency", .flt, false, false⟩, ⟨"antenna_correlation", .obj, true, false⟩,
     ⟨"gain", .flt, false, false⟩, ⟨"seed", .int, true, false⟩]
  writes :=
    [⟨"tap_interval", .flt, "tap_interval", false, .flt⟩,
     ⟨"rms_delay", .flt, "rms_delay", false, .flt⟩,
     ⟨"correlation_distance", .flt, "correlation_distance", false, .flt⟩,
     ⟨"num_sinusoids", .int, "num_sinusoids", false, .int⟩,
     ⟨"los_angle", .flt, "los_angle", false, .flt⟩,
     ⟨"doppler_frequency", .flt, "doppler_frequency", false, .flt⟩,
     ⟨"los_doppler_frequency", .flt, "los_doppler_frequency", false, .flt⟩,
     ⟨"antenna_correlation", .obj, "antenna_correlation", true, .obj⟩,
     ⟨"gain", .flt, "gain", false, .flt⟩, ⟨"seed", .int, "seed", true, .int⟩]
  reads :=
    [.field "tap_interval" .flt "tap_interval" .required,
     .field "rms_delay" .flt "rms_delay" .required,
     .field "correlation_distance" .flt "correlation_distance" .standard,
     .field "num_sinusoids" .int "num_sinusoids" .standard,
     .field "los_angle" .flt "los_angle" .required,
     .field "doppler_frequency" .flt "doppler_frequency" .standard,
     .field "los_doppler_frequency" .flt "los_doppler_frequency" .required,
     .field "antenna_correlation" .obj "antenna_correlation" .null,
     .field "gain" .flt "gain" .standard, .field "seed" .int "seed" .null]

/-- `TDL`: `channel/fading/tdl.py` 40-397, 412-422, 426-443, `channel/channel.py` 976-979,
982-986. -/
def tdl : ClassDesc where
  name := "TDL"
  params :=
    [⟨"model_type", .obj, false, false⟩, ⟨"rms_delay", .flt, false, false⟩,
     ⟨"correlation_distance", .flt, false, false⟩, ⟨"num_sinusoids", .int, false, false⟩,
     ⟨"los_angle", .flt, true, false⟩, ⟨"doppler_frequency", .flt, false, false⟩,
     ⟨"los_doppler_frequency", .flt, false, false⟩, ⟨"antenna_correlation", .obj, true, false⟩,
     ⟨"gain", .flt, false, false⟩, ⟨"seed", .int, true, false⟩]
  writes :=
    [⟨"model_type", .obj, "model_type", false, .obj⟩,
     ⟨"rms_delay", .flt, "rms_delay", false, .flt⟩,
     ⟨"correlation_distance", .flt, "correlation_distance", false, .flt⟩,
     ⟨"num_sinusoids", .int, "num_sinusoids", false, .int⟩,
     ⟨"los_angle", .flt, "los_angle", false, .flt⟩,
     ⟨"doppler_frequency", .flt, "doppler_frequency", false, .flt⟩,
     ⟨"los_doppler_frequency", .flt, "los_doppler_frequency", false, .flt⟩,
     ⟨"antenna_correlation", .obj, "antenna_correlation", true, .obj⟩,
     ⟨"gain", .flt, "gain", false, .flt⟩, ⟨"seed", .int, "seed", true, .int⟩]
  reads :=
    [.field "model_type" .obj "model_type" .standard,
     .field "rms_delay" .flt "rms_delay" .standard,
     .field "correlation_distance" .flt "correlation_distance" .standard,
     .field "num_sinusoids" .int "num_sinusoids" .standard,
     .field "los_angle" .flt "los_angle" .required,
     .field "doppler_frequency" .flt "doppler_frequency" .standard,
     .field "los_doppler_frequency" .flt "los_doppler_frequency" .required,
     .field "antenna_correlation" .obj "antenna_correlation" .null,
     .field "gain" .flt "gain" .standard, .field "seed" .int "seed" .null]

/-- `MultipathFadingRealization`: `channel/fading/fading.py` 431-466, 541-561, 565-582,
`channel/channel.py` 722-723, 982-986. -/
def multipathFadingRealization : ClassDesc where
  name := "MultipathFadingRealization"
  params :=
    [⟨"random_realization", .obj, false, true⟩,
     ⟨"antenna_correlation_variable", .obj, false, true⟩,
     ⟨"los_angles_variable", .obj, false, true⟩, ⟨"nlos_angles_variable", .obj, false, true⟩,
     ⟨"los_phases_variable", .obj, false, true⟩, ⟨"nlos_phases_variable", .obj, false, true⟩,
     ⟨"power_profile", .flts, false, true⟩, ⟨"delay_profile", .flts, false, true⟩,
     ⟨"los_gains", .flts, false, true⟩, ⟨"nlos_gains", .flts, false, true⟩,
     ⟨"los_doppler", .flt, false, true⟩, ⟨"nlos_doppler", .flt, false, true⟩,
     ⟨"antenna_correlation", .obj, true, true⟩, ⟨"sample_hooks", .seq, false, true⟩,
     ⟨"gain", .flt, false, true⟩]
  writes :=
    [⟨"random_realization", .obj, "random_realization", false, .obj⟩,
     ⟨"antenna_correlation_variable", .obj, "antenna_correlation_variable", false, .obj⟩,
     ⟨"los_angles_variable", .obj, "los_angles_variable", false, .obj⟩,
     ⟨"path_angles_variable", .obj, "nlos_angles_variable", false, .obj⟩,
     ⟨"los_phases_variable", .obj, "los_phases_variable", false, .obj⟩,
     ⟨"path_phases_variable", .obj, "nlos_phases_variable", false, .obj⟩,
     ⟨"power_profile", .flts, "power_profile", false, .flts⟩,
     ⟨"delay_profile", .flts, "delay_profile", false, .flts⟩,
     ⟨"los_gains", .flts, "los_gains", false, .flts⟩,
     ⟨"nlos_gains", .flts, "nlos_gains", false, .flts⟩,
     ⟨"los_doppler", .flt, "los_doppler", false, .flt⟩,
     ⟨"nlos_doppler", .flt, "nlos_doppler", false, .flt⟩,
     ⟨"antenna_correlation", .obj, "antenna_correlation", true, .obj⟩,
     ⟨"gain", .flt, "gain", false, .flt⟩]
  reads :=
    [.field "random_realization" .obj "random_realization" .required,
     .field "antenna_correlation_variable" .obj "antenna_correlation_variable" .required,
     .field "los_angles_variable" .obj "los_angles_variable" .required,
     .field "path_angles_variable" .obj "nlos_angles_variable" .required,
     .field "los_phases_variable" .obj "los_phases_variable" .required,
     .field "path_phases_variable" .obj "nlos_phases_variable" .required,
     .field "power_profile" .flts "power_profile" .required,
     .field "delay_profile" .flts "delay_profile" .required,
     .field "los_gains" .flts "los_gains" .required,
     .field "nlos_gains" .flts "nlos_gains" .required,
     .field "los_doppler" .flt "los_doppler" .required,
     .field "nlos_doppler" .flt "nlos_doppler" .required,
     .field "antenna_correlation" .obj "antenna_correlation" .null,
     .const "sample_hooks" (.seq []), .field "gain" .flt "gain" .standard,
     .field "seed" .int "seed" .null]

/-- The classes above which store every parameter. -/
def channelFaithful : List ClassDesc :=
  [sphericalFocus, coordinateFocus, caponBeamformer, conventionalBeamformer,
   nullSteeringBeamformer, beamformingTransmitter, beamformingReceiver,
   clusterDelayLineRealizationParameters, consistentVariable, dualConsistentRealization,
   staticConsistentRealization, consistentGaussian, consistentUniform, consistentBoolean,
   randomDelayChannel, spatialDelayChannel, customAntennaCorrelation, fixedCrossSection,
   virtualRadarTarget, physicalRadarTarget, multiTargetRadarChannel, radarTargetPath,
   radarInterferencePath]

/-- The classes above which do not, with the parameters they lose. -/
def channelLossy : List (ClassDesc × List String) :=
  [(cdlRealization, ["sample_hooks"]), (cdl, ["seed"]),
   (indoorFactoryRealization, ["sample_hooks"]), (indoorFactory, ["seed"]),
   (indoorOfficeRealization, ["sample_hooks"]), (indoorOffice, ["seed"]),
   (ruralMacrocellsRealization, ["sample_hooks"]), (ruralMacrocells, ["seed"]),
   (urbanMacrocellsRealization, ["sample_hooks"]), (urbanMacrocells, ["seed"]),
   (urbanMicrocellsRealization, ["sample_hooks"]), (urbanMicrocells, ["seed"]),
   (randomDelayChannelRealization, ["sample_hooks"]),
   (spatialDelayChannelRealization, ["sample_hooks"]), (multipathFadingChannel, ["los_angle"]),
   (idealChannelRealization, ["sample_hooks"]), (idealChannel, ["seed"]),
   (multiTargetRadarChannelRealization, ["sample_hooks"])]

end Verif.Schema.Py
