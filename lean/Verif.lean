import Verif.Model.Algebra
import Verif.Model.Anchors
import Verif.Model.BaseOps
import Verif.Model.Batch
import Verif.Model.Callbacks
import Verif.Model.Closing
import Verif.Model.Compare
import Verif.Model.CopyDicts
import Verif.Model.CustomJoints
import Verif.Model.DataLoader
import Verif.Model.Deepcopy
import Verif.Model.DrawQ
import Verif.Model.Dynamics
import Verif.Model.EndEffector
import Verif.Model.EvalXy
import Verif.Model.Exports
import Verif.Model.Factories
import Verif.Model.Files
import Verif.Model.FilterObjects
import Verif.Model.Filters
import Verif.Model.Finalize
import Verif.Model.Flatten
import Verif.Model.Hdf5
import Verif.Model.Hdf5Trees
import Verif.Model.Hz
import Verif.Model.Inertia
import Verif.Model.Jcalc
import Verif.Model.Kinematics
import Verif.Model.MakeOptimizer
import Verif.Model.Morph
import Verif.Model.MorphSystem
import Verif.Model.MotionArtifacts
import Verif.Model.MotionConfig
import Verif.Model.MotionRegister
import Verif.Model.Normalizer
import Verif.Model.OnnxExport
import Verif.Model.Optimizer
import Verif.Model.Package
import Verif.Model.PdControl
import Verif.Model.Py
import Verif.Model.Quat
import Verif.Model.QuatAvg
import Verif.Model.Random
import Verif.Model.Rcmg
import Verif.Model.Registry
import Verif.Model.Render
import Verif.Model.RenderPrediction
import Verif.Model.RenderScene
import Verif.Model.Ringnet
import Verif.Model.Rnno
import Verif.Model.SaddleEnv
import Verif.Model.Scale
import Verif.Model.Sensors
import Verif.Model.Setup
import Verif.Model.SpatialRot
import Verif.Model.SpringSim
import Verif.Model.SpringXml
import Verif.Model.Suntay
import Verif.Model.Surgery
import Verif.Model.System
import Verif.Model.SystemFile
import Verif.Model.TrainFn
import Verif.Model.TrainStep
import Verif.Model.TrainingLoop
import Verif.Model.Trig
import Verif.Model.Utils
import Verif.Model.Vec
import Verif.Model.VispyScene
import Verif.Model.WandbLogger
import Verif.Model.Xml
import Verif.Spec.Algebra
import Verif.Spec.Alike
import Verif.Spec.Anchors
import Verif.Spec.Clock
import Verif.Spec.Dynamics
import Verif.Spec.Energy
import Verif.Spec.Heavier
import Verif.Spec.Kinematics
import Verif.Spec.Morph
import Verif.Spec.Moved
import Verif.Spec.Quat
import Verif.Spec.Random
import Verif.Spec.Rcmg
import Verif.Spec.Scale
import Verif.Spec.Separate
import Verif.Spec.System
import Verif.Spec.Tempo
import Verif.Spec.Twist
import Verif.Lemmas.Algebra
import Verif.Lemmas.Anchors
import Verif.Lemmas.Artifacts
import Verif.Lemmas.ArtifactsLoop
import Verif.Lemmas.ArtifactsReload
import Verif.Lemmas.Bodies
import Verif.Lemmas.Delete
import Verif.Lemmas.Desc
import Verif.Lemmas.Dynamics
import Verif.Lemmas.Forest
import Verif.Lemmas.Inject
import Verif.Lemmas.Interp
import Verif.Lemmas.Kinematics
import Verif.Lemmas.Knots
import Verif.Lemmas.List
import Verif.Lemmas.MassMatrix
import Verif.Lemmas.MorphAssemble
import Verif.Lemmas.MorphLinks
import Verif.Lemmas.MorphOffset
import Verif.Lemmas.MorphRest
import Verif.Lemmas.Parse
import Verif.Lemmas.Quat
import Verif.Lemmas.Random
import Verif.Lemmas.RandomDraw
import Verif.Lemmas.Replace
import Verif.Lemmas.Scan
import Verif.Lemmas.Select
import Verif.Lemmas.Tree
import Verif.Lemmas.Trig
import Verif.Lemmas.XmlBody
import Verif.Lemmas.XmlLoad
import Verif.Lemmas.XmlText
import Verif.Lemmas.XmlTree
import Verif.Props.Algebra
import Verif.Props.Alike
import Verif.Props.Anchors
import Verif.Props.BaseOps
import Verif.Props.Batch
import Verif.Props.Branch
import Verif.Props.Clock
import Verif.Props.Closing
import Verif.Props.Compare
import Verif.Props.Consistency
import Verif.Props.CopyDicts
import Verif.Props.CustomJoints
import Verif.Props.DataLoader
import Verif.Props.Deepcopy
import Verif.Props.Delete
import Verif.Props.Dict
import Verif.Props.Draw
import Verif.Props.DrawQ
import Verif.Props.Dynamics
import Verif.Props.Eager
import Verif.Props.EndEffector
import Verif.Props.EnergyBalance
import Verif.Props.EvalXy
import Verif.Props.Exports
import Verif.Props.Factories
import Verif.Props.Files
import Verif.Props.FilterObjects
import Verif.Props.FilterWrappers
import Verif.Props.Filters
import Verif.Props.Finalize
import Verif.Props.Flatten
import Verif.Props.FreeFall
import Verif.Props.Hdf5
import Verif.Props.Hdf5Trees
import Verif.Props.Heavier
import Verif.Props.Helpers
import Verif.Props.HideBodies
import Verif.Props.Hz
import Verif.Props.Imu
import Verif.Props.ImuData
import Verif.Props.ImuPipeline
import Verif.Props.Inertia
import Verif.Props.Inject
import Verif.Props.InvKin
import Verif.Props.JointAxes
import Verif.Props.Joints
import Verif.Props.Kinematics
import Verif.Props.Lowpass
import Verif.Props.MakeOptimizer
import Verif.Props.Metrics
import Verif.Props.ModelFiles
import Verif.Props.Morph
import Verif.Props.MorphReach
import Verif.Props.MorphSystem
import Verif.Props.MotionArtifacts
import Verif.Props.MotionConfig
import Verif.Props.MotionRegister
import Verif.Props.Moved
import Verif.Props.Multi
import Verif.Props.Nan
import Verif.Props.NewtonSchulz
import Verif.Props.Noise
import Verif.Props.Normalizer
import Verif.Props.OnnxExport
import Verif.Props.Optimizer
import Verif.Props.Package
import Verif.Props.PdControl
import Verif.Props.PdSim
import Verif.Props.Pipeline
import Verif.Props.Poses
import Verif.Props.Primes
import Verif.Props.QuasiFollows
import Verif.Props.QuasiPhysical
import Verif.Props.Quat
import Verif.Props.QuatAvg
import Verif.Props.Queue
import Verif.Props.Random
import Verif.Props.RandomRoot
import Verif.Props.Rcmg
import Verif.Props.Registry
import Verif.Props.Rename
import Verif.Props.Render
import Verif.Props.RenderPrediction
import Verif.Props.RenderScene
import Verif.Props.Reroot
import Verif.Props.Ringnet
import Verif.Props.Rnno
import Verif.Props.SaddleEnv
import Verif.Props.Scale
import Verif.Props.Scaled
import Verif.Props.Separate
import Verif.Props.Setup
import Verif.Props.Simulation
import Verif.Props.Sizes
import Verif.Props.Smooth
import Verif.Props.Solids
import Verif.Props.SpatialRot
import Verif.Props.SpringBody
import Verif.Props.SpringXml
import Verif.Props.Springs
import Verif.Props.Substeps
import Verif.Props.Suntay
import Verif.Props.System
import Verif.Props.SystemFile
import Verif.Props.Tempo
import Verif.Props.TrainFn
import Verif.Props.TrainStep
import Verif.Props.TrainingLoop
import Verif.Props.Trig
import Verif.Props.Twist
import Verif.Props.VispyScene
import Verif.Props.WandbLogger
import Verif.Props.Xml
import Verif.Props.XmlDefaults
