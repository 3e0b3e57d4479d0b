import Verif.Props.Evaluation
import Verif.Props.Range
import Verif.Props.Results
import Verif.Props.Cards
import Verif.Props.ParseIter
import Verif.Props.Deck
import Verif.Props.Iterators
import Verif.Props.Tables
import Verif.Props.Static
import Verif.Props.Errors
import Verif.Props.Categories
import Verif.Props.Threads
import Verif.Props.Payout
import Verif.Props.Game
import Verif.Props.Rounds
import Verif.Props.Repl
import Verif.Props.Exact
import Verif.Spec.Exact
import Verif.Spec.Prints
import Verif.Proofs.Exact
import Verif.Spec.Counts
import Verif.Proofs.Counts
import Verif.Props.Counts
import Verif.Spec.Odds
import Verif.Props.Odds
import Verif.Model.Build
import Verif.Proofs.Builds
import Verif.Props.Builds
import Verif.Model.Debug
import Verif.Spec.Debug
import Verif.Proofs.Debug
import Verif.Props.Debug
import Verif.Proofs.SevenCounts
import Verif.Proofs.SevenSum
import Verif.Props.SevenCounts
import Verif.Model.Tests
import Verif.Props.Tests
import Verif.Proofs.Shuffles
import Verif.Proofs.Sets
import Verif.Spec.Strategy
import Verif.Props.Strategy
import Verif.Spec.Session
import Verif.Props.Session
import Verif.Props.Overflow
import Verif.Props.Ruin
import Verif.Spec.Outcomes
import Verif.Props.Outcomes
import Verif.Model.Screen
import Verif.Spec.Screen
import Verif.Props.Screen
import Verif.Spec.Forced
import Verif.Props.Forced
import Verif.Model.Script
import Verif.Props.Script
import Verif.Proofs.RoomDefs
import Verif.Proofs.RoomGood
import Verif.Proofs.Room
import Verif.Proofs.RoomCases
import Verif.Proofs.RoomPowers
import Verif.Proofs.RoomCounts
import Verif.Proofs.MaskDefs
import Verif.Proofs.MaskTable
import Verif.Proofs.Mask
import Verif.Proofs.MaskFlush
import Verif.Proofs.MaskGroups
import Verif.Proofs.Wide
import Verif.Spec.Distinct
import Verif.Props.Distinct
import Verif.Model.Macros
import Verif.Spec.Macros
import Verif.Proofs.Macros
import Verif.Props.Macros
import Verif.Props.DebugTables
import Verif.Model.Program
import Verif.Spec.Program
import Verif.Proofs.Program
import Verif.Props.Program
import Verif.Spec.Ties
import Verif.Proofs.Ties
import Verif.Props.Ties
import Verif.Proofs.HoldTables
import Verif.Proofs.HoldDefs
import Verif.Proofs.HoldQuick
import Verif.Proofs.HoldSum
import Verif.Proofs.HoldWorth
import Verif.Proofs.HoldBest
import Verif.Proofs.HoldCheck251
import Verif.Proofs.HoldCheck801
import Verif.Proofs.HoldTotal
import Verif.Spec.Optimal
import Verif.Props.Optimal
import Verif.Spec.Player
import Verif.Props.Player
import Verif.Spec.Broke
import Verif.Proofs.Broke
import Verif.Props.Broke
import Verif.Proofs.Burst
import Verif.Props.Long
import Verif.Props.Slices
import Verif.Proofs.FreqSum
import Verif.Proofs.FreqTable
import Verif.Proofs.FreqHands
import Verif.Proofs.FreqShape
import Verif.Spec.Frequency
import Verif.Proofs.FreqCount
import Verif.Props.Frequency
import Verif.Props.Core
import Verif.Spec.Seats
import Verif.Props.Seats
import Verif.Spec.Rivals
import Verif.Proofs.Rivals
import Verif.Props.Rivals
import Verif.Spec.Board
import Verif.Proofs.Board
import Verif.Props.Board
import Verif.Spec.Outs
import Verif.Proofs.Outs
import Verif.Props.Outs
import Verif.Spec.Nuts
import Verif.Proofs.Nuts
import Verif.Props.Nuts
import Verif.Proofs.Suited
import Verif.Props.Suited
import Verif.Spec.Raise
import Verif.Proofs.Raise
import Verif.Props.Raise
import Verif.Spec.Next
import Verif.Props.Next
import Verif.Props.Help
import Verif.Spec.Unseen
import Verif.Props.Unseen
import Verif.Model.Format
import Verif.Spec.Format
import Verif.Props.Format
import Verif.Model.Rand
import Verif.Spec.Words
import Verif.Props.Words
import Verif.Props.Courses
import Verif.Props.Chances
