import Verif.Props.Beam
import Verif.Props.BeamMass
import Verif.Props.BeamShape
import Verif.Props.Rotation
import Verif.Props.Hinge
import Verif.Props.Assembly
import Verif.Props.Trim
import Verif.Props.Geometry
import Verif.Props.NodeRounding
import Verif.Props.System
import Verif.Props.MovingLoad
import Verif.Props.Train
import Verif.Props.Coupled
import Verif.Props.MeshUtils
import Verif.Props.Accumulation
import Verif.Props.LiSelig
import Verif.Props.LoadWork
import Verif.Props.Profile
import Verif.Props.Irregularities
import Verif.Props.DefaultTrains
import Verif.Props.Swarm
import Verif.Props.Optimisation
import Verif.Props.Kalman
import Verif.Props.Signal
import Verif.Props.TrainSystem
import Verif.Props.Massless
import Verif.Props.TrackParts
import Verif.Props.GlobalSystem
import Verif.Props.Calculation
import Verif.Props.TrainStatics
import Verif.Props.InitialState
import Verif.Model.TrackSystem
import Verif.Spec.Solvable
import Verif.Props.TrackSystem
import Verif.Props.TrackStands
import Verif.Model.Traffic
import Verif.Spec.Traffic
import Verif.Spec.Cantilever
import Verif.Props.Traffic
import Verif.Props.Cantilever
import Verif.Props.Strain
import Verif.Model.Results
import Verif.Spec.Motion
import Verif.Props.Results
import Verif.Model.FullTrains
import Verif.Spec.TrainSheet
import Verif.Props.FullTrains
import Verif.Props.TrainBalance
import Verif.Props.TrainRest
import Verif.Props.TrainSteps
import Verif.Props.SltTrain
import Verif.Model.CoupledRun
import Verif.Spec.CoupledMotion
import Verif.Props.CoupledRun
import Verif.Props.CoupledBodies
import Verif.Model.TrainOnTrack
import Verif.Spec.TrainOnTrack
import Verif.Props.TrainOnTrack
import Verif.Props.WheelLoad
import Verif.Props.HingedTrack
import Verif.Model.HingedSystem
import Verif.Props.HingedStands
import Verif.Props.HingedGenerated
import Verif.Props.DefaultRide
import Verif.Model.ElementForces
import Verif.Spec.TrackForces
import Verif.Props.TrackForces
import Verif.Model.Batch
import Verif.Model.BatchRun
import Verif.Spec.Batch
import Verif.Props.Batch
import Verif.Props.BatchFiles
import Verif.Props.BatchRun
import Verif.Model.CombinedTrack
import Verif.Props.SoundTrack
import Verif.Props.CombinedTrack
import Verif.Props.CombinedUnknowns
import Verif.Model.OutputInterval
import Verif.Props.OutputInterval
import Verif.Props.OwnTrains
import Verif.Model.Calibration
import Verif.Props.Calibration
import Verif.Props.Demo
import Verif.Model.BatchBase
import Verif.Props.BatchBase
import Verif.Model.HingedRide
import Verif.Model.HingeMass
import Verif.Props.HingedRide
import Verif.Props.TrackMass
import Verif.Model.Analytical
import Verif.Model.SimpleBeam
import Verif.Model.AnalyticalModes
import Verif.Model.AnalyticalTimoshenko
import Verif.Spec.SimpleBeam
import Verif.Spec.Modes
import Verif.Spec.TimoshenkoModes
import Verif.Props.AnalyticalBeam
import Verif.Props.SimpleBeam
import Verif.Props.AnalyticalModes
import Verif.Props.AnalyticalTimoshenko
import Verif.Model.AnalyticalWave
import Verif.Spec.Wave
import Verif.Props.AnalyticalWave
import Verif.Model.AnalyticalVehicle
import Verif.Spec.Crossing
import Verif.Props.AnalyticalVehicle
import Verif.Model.AnalyticalCantilever
import Verif.Props.AnalyticalCantilever
import Verif.Spec.CantileverModes
import Verif.Model.AnalyticalHinge
import Verif.Spec.HingedBeam
import Verif.Props.AnalyticalHinge
import Verif.Model.AnalyticalWinkler
import Verif.Spec.FoundationWave
import Verif.Props.AnalyticalWinkler
import Verif.Props.EffectiveValue
import Verif.Model.HingedBeamRun
import Verif.Props.HingedBeamRun
import Verif.Model.HingedCombined
import Verif.Props.HingedCombined
import Verif.Model.WrittenResults
import Verif.Spec.WrittenResults
import Verif.Props.WrittenResults
import Verif.Model.RandomFieldDemo
import Verif.Props.RandomFieldDemo
import Verif.Model.StagedRun
import Verif.Spec.StagedRun
import Verif.Props.StagedRun
import Verif.Model.TrainForces
import Verif.Spec.TrainForces
import Verif.Props.TrainForces
import Verif.Model.KalmanSteps
import Verif.Spec.KalmanSteps
import Verif.Props.KalmanSteps
import Verif.Spec.SemiRigidLoad
import Verif.Props.SemiRigidLoad
import Verif.Spec.ElasticBeam
import Verif.Props.ElasticBeam
import Verif.Spec.MeshRefine
import Verif.Props.MeshRefine
import Verif.Spec.Vibration
import Verif.Lemmas.Oscillator
import Verif.Props.Vibration
import Verif.Spec.TimeSteps
import Verif.Lemmas.TimeSteps
import Verif.Lemmas.TimeStepping
import Verif.Lemmas.StepConvergence
import Verif.Props.TimeSteps
import Verif.Spec.TrackMotion
import Verif.Props.TrackMotion
import Verif.Spec.CoupledSteps
import Verif.Lemmas.ContactSteps
import Verif.Props.CoupledSteps
import Verif.Spec.Statics
import Verif.Props.Statics
import Verif.Props.Stiffer
import Verif.Props.HingeStiffer
import Verif.Spec.LinearDynamics
import Verif.Props.LinearDynamics
import Verif.Spec.CoupledCausal
import Verif.Props.CoupledCausal
import Verif.Model.Rerun
import Verif.Props.Rerun
import Verif.Props.Cases
import Verif.Spec.SameModel
import Verif.Props.SameModel
import Verif.Props.OrderFree
import Verif.Spec.Settling
import Verif.Lemmas.Settling
import Verif.Props.Settling
import Verif.Spec.Standing
import Verif.Props.Standing
import Verif.Props.Mirror
import Verif.Props.WinklerAfter
import Verif.Props.Undamped
import Verif.Model.Helpers
import Verif.Props.Helpers
import Verif.Props.Reciprocity
import Verif.Model.TrainMain
import Verif.Spec.FreeFall
import Verif.Props.TrainAlone
import Verif.Spec.Units
import Verif.Props.Units
import Verif.Lemmas.Forgetting
import Verif.Spec.Forgetting
import Verif.Props.Forgetting
import Verif.Spec.Resonance
import Verif.Props.Resonance
import Verif.Spec.Delay
import Verif.Props.Delay
import Verif.Spec.TrueMotion
import Verif.Props.TrueMotion
import Verif.Spec.Pulses
import Verif.Props.Pulses
import Verif.Props.ExactConditions
import Verif.Props.ReferenceTest
import Verif.Props.ExactConditions2
import Verif.Props.UnitsHinged
import Verif.Props.ExactConditions3
import Verif.Props.ExactContact
import Verif.Props.ExactProfile
import Verif.Props.ExactRotation
import Verif.Props.ExactWork
import Verif.Props.ExactMovingLoad
import Verif.Props.ExactSwarm
import Verif.Props.ExactStages
import Verif.Props.ExactStrip
import Verif.Props.ExactResidual
import Verif.Props.ExactTrain
import Verif.Props.ExactHinge
import Verif.Props.ExactHingedBeam
import Verif.Props.ExactSupports
import Verif.Props.ReadWolf
import Verif.Props.ExactSubsoil
import Verif.Props.ExactTrackMesh
import Verif.Props.ExactPads
import Verif.Props.Spectrum
