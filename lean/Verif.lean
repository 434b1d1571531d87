import Verif.Basic.Kept
import Verif.Basic.Monad
import Verif.IEEE.Algebra
import Verif.IEEE.Basic
import Verif.IEEE.Cast
import Verif.IEEE.Error
import Verif.IEEE.Lemmas
import Verif.IEEE.More
import Verif.IEEE.Round
import Verif.Model.Bits
import Verif.Model.Caught
import Verif.Model.Core
import Verif.Model.Creation
import Verif.Model.Cross
import Verif.Model.Examples
import Verif.Model.Genetic
import Verif.Model.Hooks
import Verif.Model.IntGenes
import Verif.Model.Logging
import Verif.Model.Mutation
import Verif.Model.Num
import Verif.Model.Pairing
import Verif.Model.Population
import Verif.Model.Rng
import Verif.Model.Selection
import Verif.Model.StatPrograms
import Verif.Model.Statistics
import Verif.Model.StopChecker
import Verif.Model.Swarm
import Verif.Model.TestFunc
import Verif.Model.TestPrograms
import Verif.Model.Velocity
import Verif.Model.Workers
import Verif.Spec.Attach
import Verif.Spec.Average
import Verif.Spec.Averaged
import Verif.Spec.Bits
import Verif.Spec.Bounding
import Verif.Spec.Calls
import Verif.Spec.Calm
import Verif.Spec.Caught
import Verif.Spec.Chance
import Verif.Spec.ChanceFloat
import Verif.Spec.Checked
import Verif.Spec.CrossExp
import Verif.Spec.Drift
import Verif.Spec.Dynamics
import Verif.Spec.Error
import Verif.Spec.Estimate
import Verif.Spec.Exp2
import Verif.Spec.Expect
import Verif.Spec.Falling
import Verif.Spec.Finds
import Verif.Spec.Genetic
import Verif.Spec.Initial
import Verif.Spec.IntGenes
import Verif.Spec.Intervals
import Verif.Spec.Lasting
import Verif.Spec.Mask
import Verif.Spec.Mirror
import Verif.Spec.Monotone
import Verif.Spec.Mutating
import Verif.Spec.Pairing
import Verif.Spec.Pow
import Verif.Spec.Private
import Verif.Spec.Rank
import Verif.Spec.Recombine
import Verif.Spec.Record
import Verif.Spec.Rest
import Verif.Spec.Restart
import Verif.Spec.Restless
import Verif.Spec.Scan
import Verif.Spec.Schedule
import Verif.Spec.Selection
import Verif.Spec.Settle
import Verif.Spec.Shape
import Verif.Spec.Speed
import Verif.Spec.Split
import Verif.Spec.Stagnate
import Verif.Spec.StatPrograms
import Verif.Spec.Stats
import Verif.Spec.Stop
import Verif.Spec.Swarm
import Verif.Spec.SwarmHistory
import Verif.Spec.SwarmOrder
import Verif.Spec.SwarmProgram
import Verif.Spec.TestFunctions
import Verif.Spec.TestPrograms
import Verif.Spec.Text
import Verif.Spec.Ties
import Verif.Spec.Trace
import Verif.Spec.Trig
import Verif.Spec.Velocity
import Verif.Spec.Within
import Verif.Spec.Workers
import Verif.Proofs.Approx
import Verif.Proofs.Attach
import Verif.Proofs.Average
import Verif.Proofs.Beside
import Verif.Proofs.Blind
import Verif.Proofs.Calm
import Verif.Proofs.Caught
import Verif.Proofs.CaughtInv
import Verif.Proofs.CaughtSwarm
import Verif.Proofs.Chance
import Verif.Proofs.ChanceFloat
import Verif.Proofs.Checked
import Verif.Proofs.Cross
import Verif.Proofs.CrossExp
import Verif.Proofs.CrossExpRange
import Verif.Proofs.Drift
import Verif.Proofs.Dynamics
import Verif.Proofs.Estimate
import Verif.Proofs.Expect
import Verif.Proofs.Finds
import Verif.Proofs.FindsLib
import Verif.Proofs.Genetic
import Verif.Proofs.GeneticClosed
import Verif.Proofs.GeneticFuel
import Verif.Proofs.GeneticInv
import Verif.Proofs.GeneticRow
import Verif.Proofs.GeneticStagnate
import Verif.Proofs.GeneticTurns
import Verif.Proofs.Initial
import Verif.Proofs.InitialChance
import Verif.Proofs.InitialGA
import Verif.Proofs.KillWorst
import Verif.Proofs.Lasting
import Verif.Proofs.LibLeaves
import Verif.Proofs.LibNoFuel
import Verif.Proofs.Mirror
import Verif.Proofs.MirrorFloat
import Verif.Proofs.MoreFuel
import Verif.Proofs.Mutating
import Verif.Proofs.MutatingLib
import Verif.Proofs.Mutation
import Verif.Proofs.NoFuel
import Verif.Proofs.Overflow
import Verif.Proofs.Private
import Verif.Proofs.Rank
import Verif.Proofs.RankLib
import Verif.Proofs.RankSwarm
import Verif.Proofs.Recombine
import Verif.Proofs.Record
import Verif.Proofs.Rest
import Verif.Proofs.Restart
import Verif.Proofs.Restless
import Verif.Proofs.Safe
import Verif.Proofs.Scan
import Verif.Proofs.Selection
import Verif.Proofs.Settle
import Verif.Proofs.Shape
import Verif.Proofs.Sim
import Verif.Proofs.Split
import Verif.Proofs.Stagnate
import Verif.Proofs.Stop
import Verif.Proofs.SumNear
import Verif.Proofs.Swarm
import Verif.Proofs.SwarmFuel
import Verif.Proofs.SwarmInv
import Verif.Proofs.SwarmRow
import Verif.Proofs.SwarmStagnate
import Verif.Proofs.SwarmTurns
import Verif.Proofs.Throughout
import Verif.Proofs.Told
import Verif.Proofs.Tournament
import Verif.Proofs.Trig
import Verif.Proofs.Watched
import Verif.Proofs.Within
import Verif.Props.Attach
import Verif.Props.Average
import Verif.Props.Averaged
import Verif.Props.CallCount
import Verif.Props.Calls
import Verif.Props.Calm
import Verif.Props.CalmPrograms
import Verif.Props.CalmStuck
import Verif.Props.Chance
import Verif.Props.ChanceBits
import Verif.Props.ChanceFloat
import Verif.Props.ChanceInt
import Verif.Props.ChanceVec
import Verif.Props.Checked
import Verif.Props.Creation
import Verif.Props.CrossBits
import Verif.Props.CrossExp
import Verif.Props.CrossExpRange
import Verif.Props.Demo
import Verif.Props.Drift
import Verif.Props.Dynamics
import Verif.Props.Estimate
import Verif.Props.ExampleAccuracy
import Verif.Props.Expect
import Verif.Props.Falling
import Verif.Props.Finds
import Verif.Props.GeneticApi
import Verif.Props.GeneticBox
import Verif.Props.GeneticCaught
import Verif.Props.GeneticExamples
import Verif.Props.GeneticProgram
import Verif.Props.GeneticRun
import Verif.Props.GeneticSize
import Verif.Props.GeneticTerminates
import Verif.Props.GeometricMean
import Verif.Props.Hooks
import Verif.Props.HooksNorm
import Verif.Props.HooksSpeed
import Verif.Props.Inertia
import Verif.Props.Initial
import Verif.Props.IntCreation
import Verif.Props.IntMean
import Verif.Props.IntProgram
import Verif.Props.Mask
import Verif.Props.Mean
import Verif.Props.Mirror
import Verif.Props.Monotone
import Verif.Props.Mutating
import Verif.Props.Mutation
import Verif.Props.Pairing
import Verif.Props.Rank
import Verif.Props.Reach
import Verif.Props.Recombine
import Verif.Props.Rest
import Verif.Props.Restart
import Verif.Props.Restless
import Verif.Props.RosenbrockError
import Verif.Props.RosenbrockNear
import Verif.Props.RosenbrockRange
import Verif.Props.Rounding
import Verif.Props.RoundingDev
import Verif.Props.Schedule
import Verif.Props.Selection
import Verif.Props.Settle
import Verif.Props.Split
import Verif.Props.StatGenetic
import Verif.Props.StatGoal
import Verif.Props.StatLogger
import Verif.Props.StatRecord
import Verif.Props.StatSwarm
import Verif.Props.StatVec
import Verif.Props.StatWhole
import Verif.Props.Stop
import Verif.Props.StopTerminates
import Verif.Props.SwarmApi
import Verif.Props.SwarmBox
import Verif.Props.SwarmCaught
import Verif.Props.SwarmDemo
import Verif.Props.SwarmExamples
import Verif.Props.SwarmNorm
import Verif.Props.SwarmOrder
import Verif.Props.SwarmProgram
import Verif.Props.SwarmRun
import Verif.Props.SwarmShape
import Verif.Props.SwarmSpeed
import Verif.Props.SwarmStagnate
import Verif.Props.TestFunc
import Verif.Props.TestFuncError
import Verif.Props.TestFuncFinite
import Verif.Props.TestPrograms
import Verif.Props.TestStats
import Verif.Props.TestThreads
import Verif.Props.TextLoggers
import Verif.Props.Ties
import Verif.Props.TrigError
import Verif.Props.TrigWitness
import Verif.Props.Unite
import Verif.Props.VecCross
import Verif.Props.Velocity
import Verif.Props.VelocityCurrent
import Verif.Props.VelocityError
import Verif.Props.Workers
