import Lean.Elab.Command
import Lean.Util.CollectAxioms
import Verif.Props.Coord
import Verif.Props.SearchPath
import Verif.Props.SearchExplore
import Verif.Props.RobotHistory
import Verif.Props.Termination
import Verif.Props.Walls
import Verif.Props.ExploreLoop
import Verif.Props.Run
import Verif.Props.Detect
import Verif.Props.DetectWalls
import Verif.Props.Convert
import Verif.Props.Encoder
import Verif.Props.Tof
import Verif.Props.Imu
import Verif.Props.Control
import Verif.Props.Estimate
import Verif.Props.Sim
import Verif.Props.Straight
import Verif.Props.Iter
import Verif.Props.Geometry
import Verif.Props.Curve
import Verif.Props.Slalom
import Verif.Props.Scale
import Verif.Props.CurveEnd
import Verif.Props.Tracking
import Verif.Props.Binary32
import Verif.Props.Accuracy
import Verif.Props.Drive
import Verif.Props.Jump
import Verif.Props.Driver
import Verif.Props.SearchDriver
import Verif.Props.SearchRun
import Verif.Props.SearchLive
import Verif.Props.Slip
import Verif.Props.Servo
import Verif.Props.OldSolver
import Verif.Props.OldNode
import Verif.Props.OldSearch
import Verif.Props.OldCommander
import Verif.Props.OldManager
import Verif.Props.OldConvert
import Verif.Props.OldDetect
import Verif.Props.OldRun
import Verif.Props.OldLife
import Verif.Props.OldTraject
import Verif.Props.OldEmergency
import Verif.Props.ImuInit
import Verif.Props.Pillars
import Verif.Props.OldTargets
import Verif.Props.OldHunt
import Verif.Props.OldTurn
import Verif.Props.OldDrive
import Verif.Props.OldReckon
import Verif.Props.OldTrack
import Verif.Props.OldRobot
import Verif.Props.SimDrift
import Verif.Props.OldSim
import Verif.Props.OldLoop
import Verif.Props.OldSensors
import Verif.Props.OldTof
import Verif.Props.OldConfig
import Verif.Props.OldStore
import Verif.Props.OldMachine
import Verif.Props.SearchPunctual
import Verif.Props.Look
import Verif.Props.Trial
import Verif.Props.Sees
import Verif.Props.Heads
import Verif.Props.InTime
import Verif.Props.Lane
import Verif.Props.Offset
import Verif.Props.Cruise
import Verif.Props.Ramp
import Verif.Props.LaneLegs
import Verif.Props.CorridorPlan
import Verif.Props.Corridor
import Verif.Props.RunTrial
import Verif.Props.Direct
import Verif.Props.Pace
import Verif.Props.PaceIv
import Verif.Props.PaceRuns
import Verif.Props.StraightRun
import Verif.Props.Clock
import Verif.Props.Single
import Verif.Props.Guard
import Verif.Props.SingleTrial
import Verif.Props.Drift
import Verif.Props.Journey
import Verif.Props.Bend
import Verif.Props.SingleHunt
import Verif.Props.SingleHuntEnds
import Verif.Props.SingleRun
import Verif.Props.SingleInertial
import Verif.Props.SingleConvert
import Verif.Props.SingleFind
import Verif.Props.SingleFindModel
import Verif.Props.SingleGap
import Verif.Props.SingleLook
import Verif.Props.SingleLookDemo
import Verif.Props.SingleSim
import Verif.Props.SingleSimRun
import Verif.Props.SingleSimLook
import Verif.Props.SingleTest
import Verif.Props.SingleTestEnds
import Verif.Props.SingleTestLost
import Verif.Props.SingleTestDemo
import Verif.Props.SingleTestModel
import Verif.Props.SingleRunTest
import Verif.Props.SingleRunTestEnds
import Verif.Props.SingleRunTestModel
import Verif.Props.SingleRunTestFinite
import Verif.Props.SingleRunTestPass
import Verif.Props.SingleTestPass

/-! The build fails here if any theorem of this development rests on anything but the three standard principles of Lean. It models no
code. -/

open Lean Elab Command in
run_cmd do
  let env ← getEnv
  let names := env.constants.map₁.fold (init := #[]) fun a n c =>
    if (`Verif).isPrefixOf n && (c matches .thmInfo _) then a.push n else a
  let mut used : NameSet := {}
  for n in names do
    used := (← collectAxioms n).foldl (·.insert ·) used
  for a in used do
    unless a == ``propext || a == ``Classical.choice || a == ``Quot.sound do
      throwError "not allowed: {a}"
  logInfo m!"{names.size} theorems rest on {used.toList}"
