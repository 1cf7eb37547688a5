import Verif.Model.LineSearch
import Verif.Props.LineSearch
import Verif.Model.Trial
import Verif.Props.Trial
import Verif.Model.Drivers
import Verif.Props.Drivers
import Verif.Model.ActiveSet
import Verif.Props.ActiveSet
import Verif.Model.History
import Verif.Props.History
import Verif.Model.Storage
import Verif.Props.Storage
import Verif.Model.Micro
import Verif.Props.Regularization
import Verif.Props.Micro
import Verif.Model.Crystal
import Verif.Props.Crystal
import Verif.Props.Hooke
import Verif.Props.Vectorial
import Verif.Model.Interface
import Verif.Props.Microtraction
import Verif.Props.Cohesive
import Verif.Props.Interface
import Verif.Model.Field
import Verif.Props.Field
import Verif.Model.Loading
import Verif.Props.Loading
import Verif.Model.Assembly
import Verif.Props.Assembly
import Verif.Props.Definite
import Verif.Model.Face
import Verif.Props.Face
import Verif.Model.Quotient
import Verif.Props.Quotient
import Verif.Model.Utilities
import Verif.Props.Utilities
import Verif.Model.Parallel
import Verif.Props.Parallel
import Verif.Model.Post
import Verif.Props.Post
import Verif.Props.Output
import Verif.Model.Params
import Verif.Props.Params
import Verif.Model.Damage
import Verif.Props.Damage
import Verif.Model.App
import Verif.Props.App
import Verif.Model.Run
import Verif.Props.Run
import Verif.Model.TrialMicro
import Verif.Props.TrialMicro
import Verif.Model.Condense
import Verif.Props.Condense
import Verif.Model.Microhard
import Verif.Props.Microhard
import Verif.Model.DimFace
import Verif.Props.DimFace
import Verif.Model.Files
import Verif.Props.Files
import Verif.Model.Traction
import Verif.Props.Traction
import Verif.Props.Energy
import Verif.Props.Unique
import Verif.Model.Table
import Verif.Props.Table
import Verif.Props.EnergyRun
import Verif.Model.Scratch
import Verif.Props.Scratch
import Verif.Model.Partition
import Verif.Props.Partition
import Verif.Props.Latent
import Verif.Model.Polycrystal
import Verif.Props.Polycrystal
import Verif.Props.Rigid
import Verif.Props.Decohesion
import Verif.Model.Statistics
import Verif.Props.Statistics
import Verif.Model.ParamFile
import Verif.Props.ParamFile
import Verif.Props.ParamUse
import Verif.Model.NewtonLog
import Verif.Props.NewtonLog
import Verif.Model.Newton
import Verif.Props.Newton
import Verif.Props.ElasticStep
import Verif.Model.Raise
import Verif.Props.Raise
import Verif.Model.Setup
import Verif.Props.Setup
import Verif.Props.Naming
import Verif.Props.Turned
import Verif.Props.TurnedRun
import Verif.Model.Lifecycle
import Verif.Props.Lifecycle
import Verif.Props.Reversal
import Verif.Props.ReversalRun
import Verif.Props.Speed
import Verif.Props.Subdivide
import Verif.Props.Plane
import Verif.Props.PlaneInput
import Verif.Props.PlaneBody
import Verif.Props.Lattice
import Verif.Model.Rounded
import Verif.Props.Rounded
import Verif.Model.RoundedTime
import Verif.Props.RoundedTime
import Verif.Model.Workstream
import Verif.Props.Workstream
import Verif.Model.RoundedHistory
import Verif.Props.RoundedHistory
import Verif.Model.RoundedCrystal
import Verif.Props.RoundedCrystal
import Verif.Props.Homogeneous
import Verif.Model.Dataflow
import Verif.Props.Dataflow
import Verif.Props.ResidualError
import Verif.Props.Quadratic
import Verif.Props.RegSlope
import Verif.Props.NewtonBody
import Verif.Props.MonotoneZero
import Verif.Props.Existence
import Verif.Props.RunDetermined
import Verif.Props.Staggered
import Verif.Props.GrainExistence
import Verif.Model.RoundedOpening
import Verif.Props.RoundedOpening
import Verif.Props.GrainRun
import Verif.Props.Numbering
import Verif.Model.Reported
import Verif.Props.Reported
import Verif.Props.Continuous
import Verif.Props.OpeningAccuracy
import Verif.Props.OpeningUnique
import Verif.Props.OutwardZero
import Verif.Props.BodyOutward
import Verif.Props.OpeningExistence
import Verif.Props.FlowRule
import Verif.Props.SignError
import Verif.Props.FlowExistence
import Verif.Props.FlowLimit
import Verif.Props.Homogenised
import Verif.Props.LeastEnergy
import Verif.Props.StrainDriven
import Verif.Props.StrainDrivenOpening
import Verif.Props.MacroMonotone
