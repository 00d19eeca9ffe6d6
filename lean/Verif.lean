import Verif.Core.Res
import Verif.Core.Std
import Verif.Core.Vec
import Verif.Lemmas.CircleDetector
import Verif.Lemmas.CircleGrid
import Verif.Lemmas.Collect
import Verif.Lemmas.Covariance
import Verif.Lemmas.DH
import Verif.Lemmas.Frames
import Verif.Lemmas.Grid
import Verif.Lemmas.HandEye
import Verif.Lemmas.Identify
import Verif.Lemmas.Jet
import Verif.Lemmas.JetCosts
import Verif.Lemmas.JetFinite
import Verif.Lemmas.JetFunctors
import Verif.Lemmas.JetKinematic
import Verif.Lemmas.Kinematic
import Verif.Lemmas.Lens
import Verif.Lemmas.LensIdentify
import Verif.Lemmas.LensMatch
import Verif.Lemmas.Loops
import Verif.Lemmas.Maps
import Verif.Lemmas.Masks
import Verif.Lemmas.Near
import Verif.Lemmas.Noise
import Verif.Lemmas.Paths
import Verif.Lemmas.Pose
import Verif.Lemmas.PoseSpec
import Verif.Lemmas.Rank
import Verif.Lemmas.RankFull
import Verif.Lemmas.RankPair
import Verif.Lemmas.RankWitness
import Verif.Lemmas.Rounded
import Verif.Lemmas.RoundedKin
import Verif.Lemmas.RoundedKinCost
import Verif.Lemmas.RoundedMore
import Verif.Lemmas.RoundedOrient
import Verif.Lemmas.RoundedTurn
import Verif.Lemmas.Solver
import Verif.Lemmas.Stable
import Verif.Lemmas.StableIntrinsic
import Verif.Lemmas.StableKin
import Verif.Lemmas.StableStatic
import Verif.Lemmas.Twist
import Verif.Lemmas.Vec
import Verif.Lemmas.Zhang
import Verif.Model.Accuracy
import Verif.Model.Analysis
import Verif.Model.CircleDetector
import Verif.Model.CircleFit
import Verif.Model.CircleGrid
import Verif.Model.CollectMain
import Verif.Model.Covariance
import Verif.Model.DHChain
import Verif.Model.DataSet
import Verif.Model.Drawing
import Verif.Model.HandEye
import Verif.Model.Homography
import Verif.Model.Intrinsic
import Verif.Model.Jet
import Verif.Model.Kinematic
import Verif.Model.Loaders
import Verif.Model.Mains
import Verif.Model.Masks
import Verif.Model.NotANumber
import Verif.Model.NotANumberKin
import Verif.Model.Plugins
import Verif.Model.PnP
import Verif.Model.Pose
import Verif.Model.PrintedTarget
import Verif.Model.Programs
import Verif.Model.Projection
import Verif.Model.Rounded
import Verif.Model.RoundedKin
import Verif.Model.RoundedKinCost
import Verif.Model.RoundedMore
import Verif.Model.RoundedOrient
import Verif.Model.Serialization
import Verif.Model.Simulation
import Verif.Model.Solver
import Verif.Model.StaticCameras
import Verif.Model.Targets
import Verif.Model.Tools
import Verif.Model.Validation
import Verif.Model.Yaml
import Verif.Props.Accuracy
import Verif.Props.Agree
import Verif.Props.Agreeing
import Verif.Props.AgreeingStatic
import Verif.Props.Alignment
import Verif.Props.Analysis
import Verif.Props.CircleDetector
import Verif.Props.CircleFilters
import Verif.Props.CircleFinder
import Verif.Props.CircleFit
import Verif.Props.CircleGrid
import Verif.Props.CollectMain
import Verif.Props.Collector
import Verif.Props.CorrDataSet
import Verif.Props.Covariance
import Verif.Props.DHChain
import Verif.Props.DataSet
import Verif.Props.DecodeErrors
import Verif.Props.Derivatives
import Verif.Props.Details
import Verif.Props.Drawing
import Verif.Props.EndToEnd
import Verif.Props.Finders
import Verif.Props.Fit
import Verif.Props.FrameChoice
import Verif.Props.Gate
import Verif.Props.GridOrder
import Verif.Props.Guess
import Verif.Props.HandEye
import Verif.Props.Homography
import Verif.Props.Identify
import Verif.Props.IdentifyIntrinsic
import Verif.Props.IdentifyStatic
import Verif.Props.Intrinsic
import Verif.Props.IntrinsicStart
import Verif.Props.KinIdentify
import Verif.Props.Kinematic
import Verif.Props.KinematicFit
import Verif.Props.KinematicReport
import Verif.Props.KinematicRuns
import Verif.Props.Labels
import Verif.Props.LargeCircle
import Verif.Props.LensIdentify
import Verif.Props.Links
import Verif.Props.LoadPose
import Verif.Props.Loaders
import Verif.Props.Mains
import Verif.Props.MarkerOrder
import Verif.Props.Masks
import Verif.Props.MultiEndToEnd
import Verif.Props.MultiExit
import Verif.Props.MultiMains
import Verif.Props.MultiTools
import Verif.Props.Near
import Verif.Props.NoData
import Verif.Props.NoDistortion
import Verif.Props.Noise
import Verif.Props.NoiseCircle
import Verif.Props.NotANumber
import Verif.Props.NotANumberKin
import Verif.Props.OneCamera
import Verif.Props.OneImage
import Verif.Props.Order
import Verif.Props.Pixels
import Verif.Props.Plugins
import Verif.Props.PnP
import Verif.Props.PoseGenerators
import Verif.Props.PoseProjection
import Verif.Props.Positioner
import Verif.Props.PrintedTarget
import Verif.Props.ProgramRuns
import Verif.Props.Programs
import Verif.Props.Rank
import Verif.Props.RankFit
import Verif.Props.RankFrontal
import Verif.Props.RankFull
import Verif.Props.RankIntrinsic
import Verif.Props.Redundant
import Verif.Props.Relax
import Verif.Props.Renumber
import Verif.Props.Repeat
import Verif.Props.Reports
import Verif.Props.Restart
import Verif.Props.Roles
import Verif.Props.Rounded
import Verif.Props.RoundedFit
import Verif.Props.RoundedKin
import Verif.Props.RoundedKinCost
import Verif.Props.RoundedMore
import Verif.Props.RoundedOrient
import Verif.Props.SeparateCircles
import Verif.Props.Serialization
import Verif.Props.SimKinematics
import Verif.Props.SimObservations
import Verif.Props.SingleEnds
import Verif.Props.SingleMains
import Verif.Props.Stable
import Verif.Props.StableHandEyeTool
import Verif.Props.StableIntrinsic
import Verif.Props.StableKin
import Verif.Props.StableStatic
import Verif.Props.StableSteps
import Verif.Props.StableTool
import Verif.Props.StableTools
import Verif.Props.Starts
import Verif.Props.StaticCameras
import Verif.Props.Targets
import Verif.Props.ToolData
import Verif.Props.Tools
import Verif.Props.Unit
import Verif.Props.UnitMore
import Verif.Props.Validation
import Verif.Spec.Agree
import Verif.Spec.Alignment
import Verif.Spec.Analysis
import Verif.Spec.CircleDetector
import Verif.Spec.CircleGrid
import Verif.Spec.Covariance
import Verif.Spec.DH
import Verif.Spec.DataSet
import Verif.Spec.Distortion
import Verif.Spec.EndToEnd
import Verif.Spec.Fit
import Verif.Spec.FrameChoice
import Verif.Spec.Frames
import Verif.Spec.Geometry
import Verif.Spec.HandEye
import Verif.Spec.Homography
import Verif.Spec.Identify
import Verif.Spec.IdentifyIntrinsic
import Verif.Spec.IdentifyStatic
import Verif.Spec.Jet
import Verif.Spec.KinIdentify
import Verif.Spec.Kinematic
import Verif.Spec.KinematicFit
import Verif.Spec.Lens
import Verif.Spec.Links
import Verif.Spec.Loaders
import Verif.Spec.Mains
import Verif.Spec.Masks
import Verif.Spec.MultiMains
import Verif.Spec.MultiTrue
import Verif.Spec.Near
import Verif.Spec.Noise
import Verif.Spec.NotANumber
import Verif.Spec.NotANumberKin
import Verif.Spec.Order
import Verif.Spec.Pixels
import Verif.Spec.Plugins
import Verif.Spec.PrintedTarget
import Verif.Spec.Programs
import Verif.Spec.Rank
import Verif.Spec.Renumber
import Verif.Spec.Repeat
import Verif.Spec.Roles
import Verif.Spec.Rounded
import Verif.Spec.RoundedKin
import Verif.Spec.RoundedKinCost
import Verif.Spec.SeparateCircles
import Verif.Spec.Simulation
import Verif.Spec.SingleMains
import Verif.Spec.Stable
import Verif.Spec.StableIntrinsic
import Verif.Spec.StableJoint
import Verif.Spec.StableKin
import Verif.Spec.StableStatic
import Verif.Spec.StaticCameras
import Verif.Spec.Statistics
import Verif.Spec.Steps
import Verif.Spec.Targets
import Verif.Spec.Tools
import Verif.Spec.Unit
import Verif.Spec.UnitMore
