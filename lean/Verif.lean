import Verif.Np
import Verif.Fec.Model
import Verif.Fec.BlockCodes
import Verif.Fec.Scramblers
import Verif.Fec.Manager
import Verif.Fec.Manager2
import Verif.Mc.Queue
import Verif.Mc.QueueProps
import Verif.Mc.Actor
import Verif.Mc.ActorProps
import Verif.Mc.Simulate
import Verif.Mc.Scalar
import Verif.Mc.Collector
import Verif.Mc.Drops
import Verif.Precoding.Chain
import Verif.Precoding.Order
import Verif.Precoding.Blocks
import Verif.Precoding.Symbols
import Verif.Precoding.Ganesan
import Verif.Dft
import Verif.Precoding.DftPrecoder
import Verif.Mapping.Model
import Verif.Mapping.Llr
import Verif.Mapping.Demap
import Verif.Mapping.Constellation
import Verif.Mapping.Custom
import Verif.Signal.Model
import Verif.Signal.Windows
import Verif.Signal.Sparse
import Verif.Signal.Slice
import Verif.Signal.Assign
import Verif.Signal.Dense
import Verif.Core.Logarithmic
import Verif.Core.Pose
import Verif.Core.Lookat
import Verif.Core.Kinematics
import Verif.Core.Device
import Verif.Rf.Chain
import Verif.Io.Hdf
import Verif.Io.HdfOrder
import Verif.Io.HdfFail
import Verif.Sim.Links
import Verif.Sim.Triggers
import Verif.Sim.Record
import Verif.Sim.RecordHdf
import Verif.Core.RandomNode
import Verif.Core.Hooks
import Verif.Radar.Cube
import Verif.Radar.Detect
import Verif.Radar.Cfar
import Verif.Modem.EvalState
import Verif.Modem.Evaluators
import Verif.Modem.Construct
import Verif.Modem.Grid
import Verif.Modem.Frame
import Verif.Modem.Ofdm
import Verif.Modem.Offset
import Verif.Modem.Link
import Verif.Modem.LinkOfdm
import Verif.Modem.Pilot
import Verif.Modem.Estimation
import Verif.Modem.Multipath
import Verif.Modem.Sources
import Verif.Modem.Symbols
import Verif.Rf.Adc
import Verif.Rf.Amps
import Verif.Rf.Signal
import Verif.Channel.State
import Verif.Channel.Link
import Verif.Channel.Ideal
import Verif.Channel.Delay
import Verif.Channel.Phases
import Verif.Channel.Consistent
import Verif.Channel.ConsistentProps
import Verif.Channel.ConsistentStats
import Verif.Channel.Fading
import Verif.Channel.FadingStats
import Verif.Channel.FadingChannel
import Verif.Channel.FadingProfiles
import Verif.Channel.RadarPath
import Verif.Channel.RadarProps
import Verif.Channel.RadarTargets
import Verif.Channel.RadarMulti
import Verif.Core.Antennas
import Verif.Core.AntennaArrays
import Verif.Core.ArrayStates
import Verif.Beam.Conventional
import Verif.Beam.Adaptive
import Verif.Sim.TriggerModels
import Verif.Sim.Leakage
import Verif.Sim.Coupling
import Verif.Sim.DeviceOutput
import Verif.Sim.DeviceInput
import Verif.Modem.ChirpFsk
import Verif.Modem.CorrSync
import Verif.Modem.SingleCarrier
import Verif.Modem.Pulse
import Verif.Radar.Fmcw
import Verif.Radar.Operator
import Verif.Radar.MatchedFilter
import Verif.Radar.OfdmRadar
import Verif.Radar.Roc
import Verif.Radar.Rmse
import Verif.Sim.White
import Verif.Sim.Noise
import Verif.Sim.NoiseSeed
import Verif.Rf.PhaseNoise
import Verif.Sim.Power
import Verif.Mc.Extract
import Verif.Sim.Sidelobe
import Verif.Rf.Ramp
import Verif.Radar.Xwr
import Verif.Sim.Animation
import Verif.Hw.Slots
import Verif.Hw.Delay
import Verif.Hw.Leakage
import Verif.Hw.Physical
import Verif.Hw.Usrp
import Verif.Hw.Antenna
import Verif.Hw.Audio
import Verif.Hw.Loop
import Verif.Mc.Grid
import Verif.Hw.Plots
import Verif.Channel.Cluster
import Verif.Channel.ClusterProps
import Verif.Channel.ClusterRays
import Verif.Channel.ClusterDraw
import Verif.Channel.ClusterDrawProps
import Verif.Channel.ClusterDrawSample
import Verif.Channel.Scenarios
import Verif.Channel.ScenarioRoots
import Verif.Channel.ScenarioLoss
import Verif.Channel.ScenarioState
import Verif.Channel.StaticCluster
import Verif.Channel.StaticClusterProps
import Verif.Io.Schema
import Verif.Io.Classes.Channel
import Verif.Io.Classes.Core
import Verif.Io.Classes.Modem
import Verif.Io.Classes.Radar
import Verif.Io.Classes.Sim
import Verif.Io.ClassesProps
import Verif.Mc.Present
import Verif.Modem.Nr
import Verif.Hw.Iq
import Verif.Modem.PulseTaps
import Verif.Core.Executable
import Verif.Modem.SchmidlCox
import Verif.Signal.Carrier
import Verif.Mc.Seeds
import Verif.Channel.RayTraced
import Verif.Sim.Pattern
import Verif.Core.Operators
import Verif.Signal.Resample
import Verif.Signal.Keys
import Verif.Rf.Measured
import Verif.Modem.SingleIdeal
import Verif.Channel.Quadriga
import Verif.Hw.Direct
import Verif.Rf.Filters
import Verif.Signal.Append
import Verif.Tools.Tile
import Verif.Beam.Streams
import Verif.Hw.LeakageMmse
import Verif.Hw.CalibrationFiles
import Verif.Signal.Create
