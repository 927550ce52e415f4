import Verif.Model.Basic
import Verif.Model.Search
import Verif.Spec.Grid
import Verif.Props.Coord
import Verif.Props.SearchPath
import Verif.Props.SearchExplore
import Verif.Props.RobotHistory
import Verif.Props.Termination
import Verif.Model.Walls
import Verif.Spec.Text
import Verif.Props.Walls
import Verif.Props.ExploreLoop
import Verif.Model.Run
import Verif.Spec.Run
import Verif.Spec.Heap
import Verif.Props.Run
import Verif.Model.Float
import Verif.Model.Detect
import Verif.Spec.Float
import Verif.Spec.Detect
import Verif.Props.Detect
import Verif.Props.DetectWalls
import Verif.Model.Convert
import Verif.Spec.Convert
import Verif.Props.Convert
import Verif.Model.Encoder
import Verif.Model.Motor
import Verif.Model.Voltmeter
import Verif.Spec.Sensors
import Verif.Props.Encoder
import Verif.Model.Tof
import Verif.Spec.Tof
import Verif.Props.Tof
import Verif.Model.Imu
import Verif.Spec.Imu
import Verif.Props.Imu
import Verif.Model.Control
import Verif.Model.Estimate
import Verif.Spec.Control
import Verif.Spec.Estimate
import Verif.Props.Control
import Verif.Props.Estimate
import Verif.Model.Sim
import Verif.Spec.Sim
import Verif.Props.Sim
import Verif.Model.Straight
import Verif.Spec.Straight
import Verif.Props.Straight
import Verif.Props.Iter
import Verif.Proof.Profile
import Verif.Proof.Quadrature
import Verif.Model.Slalom
import Verif.Spec.Slalom
import Verif.Proof.Slalom
import Verif.Props.Geometry
import Verif.Props.Curve
import Verif.Props.Slalom
import Verif.Proof.Scale
import Verif.Props.Scale
import Verif.Proof.Numeric
import Verif.Proof.Chord
import Verif.Props.CurveEnd
import Verif.Props.Tracking
import Verif.Model.Binary32
import Verif.Proof.Binary32
import Verif.Props.Binary32
import Verif.Props.Accuracy
import Verif.Spec.Drive
import Verif.Props.Drive
import Verif.Model.Driver
import Verif.Spec.Driver
import Verif.Props.Jump
import Verif.Props.Driver
import Verif.Model.SearchDriver
import Verif.Spec.SearchDriver
import Verif.Props.SearchDriver
import Verif.Props.SearchRun
import Verif.Props.SearchLive
import Verif.Props.Slip
import Verif.Spec.Servo
import Verif.Proof.Schur
import Verif.Props.Servo
import Verif.Model.OldSolver
import Verif.Spec.OldSolver
import Verif.Proof.OldDijkstra
import Verif.Props.OldSolver
import Verif.Model.OldNode
import Verif.Spec.OldNode
import Verif.Proof.OldNode
import Verif.Proof.OldNeighbors
import Verif.Proof.OldGraph
import Verif.Proof.OldReverse
import Verif.Model.OldPlan
import Verif.Proof.OldCode
import Verif.Props.OldNode
import Verif.Model.OldSearch
import Verif.Spec.OldSearch
import Verif.Proof.OldSearchNode
import Verif.Proof.OldWalls
import Verif.Proof.OldCands
import Verif.Proof.OldTotals
import Verif.Proof.OldCross
import Verif.Props.OldSearch
import Verif.Spec.OldExplore
import Verif.Proof.OldCells
import Verif.Proof.OldReach
import Verif.Proof.OldCommander
import Verif.Proof.OldTour
import Verif.Proof.OldBound
import Verif.Props.OldCommander
import Verif.Model.OldManager
import Verif.Spec.OldManager
import Verif.Proof.OldManager
import Verif.Proof.OldMemory
import Verif.Proof.OldDisplay
import Verif.Props.OldManager
import Verif.Model.OldDetect
import Verif.Spec.OldDetect
import Verif.Proof.OldDetect
import Verif.Proof.OldPatrol
import Verif.Props.OldConvert
import Verif.Props.OldDetect
import Verif.Model.OldRun
import Verif.Spec.OldRun
import Verif.Proof.OldRun
import Verif.Proof.OldDrive
import Verif.Props.OldRun
import Verif.Model.OldLife
import Verif.Spec.OldLife
import Verif.Proof.OldLife
import Verif.Props.OldLife
import Verif.Props.OldTraject
import Verif.Props.OldEmergency
import Verif.Props.ImuInit
import Verif.Props.Pillars
import Verif.Props.OldTargets
import Verif.Props.OldHunt
import Verif.Props.OldTurn
import Verif.Props.OldDrive
import Verif.Props.OldReckon
import Verif.Props.OldTrack
import Verif.Props.OldRobot
import Verif.Props.SimDrift
import Verif.Props.OldSim
import Verif.Props.OldLoop
import Verif.Props.OldSensors
import Verif.Props.OldTof
import Verif.Props.OldConfig
import Verif.Props.OldStore
import Verif.Props.OldMachine
import Verif.Props.SearchPunctual
import Verif.Props.Look
import Verif.Props.Trial
import Verif.Props.Sees
import Verif.Props.Heads
import Verif.Props.InTime
import Verif.Props.Lane
import Verif.Props.Offset
import Verif.Props.Cruise
import Verif.Props.Ramp
import Verif.Props.LaneLegs
import Verif.Spec.Corridor
import Verif.Props.CorridorPlan
import Verif.Props.Corridor
import Verif.Props.RunTrial
import Verif.Props.Direct
import Verif.Props.Pace
import Verif.Props.PaceIv
import Verif.Props.PaceRuns
import Verif.Props.StraightRun
import Verif.Props.Clock
import Verif.Props.Single
import Verif.Props.Guard
import Verif.Props.SingleTrial
import Verif.Props.Drift
import Verif.Props.Journey
import Verif.Props.Bend
import Verif.Props.SingleHunt
import Verif.Props.SingleHuntEnds
import Verif.Props.SingleRun
import Verif.Props.SingleInertial
import Verif.Props.SingleConvert
import Verif.Props.SingleFind
import Verif.Props.SingleFindModel
import Verif.Props.SingleGap
import Verif.Props.SingleLook
import Verif.Props.SingleLookDemo
import Verif.Props.SingleSim
import Verif.Props.SingleSimRun
import Verif.Props.SingleSimLook
import Verif.Props.SingleTest
import Verif.Props.SingleTestEnds
import Verif.Props.SingleTestLost
import Verif.Props.SingleTestDemo
import Verif.Props.SingleTestModel
import Verif.Props.SingleRunTest
import Verif.Props.SingleRunTestEnds
import Verif.Props.SingleRunTestModel
import Verif.Props.SingleRunTestFinite
import Verif.Props.SingleRunTestPass
import Verif.Props.SingleTestPass
import Verif.Audit
