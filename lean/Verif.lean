import Verif.Model.Decimal
import Verif.Model.DecimalText
import Verif.Model.Ln
import Verif.Model.PoolMath
import Verif.Model.Pool
import Verif.Model.Bitmap
import Verif.Model.OnChain
import Verif.Spec.Decimal
import Verif.Proofs.Basic
import Verif.Proofs.DecimalOps
import Verif.Proofs.Rounding
import Verif.Props.DecimalArith
import Verif.Props.DecimalCompare
import Verif.Proofs.PoolMathBasic
import Verif.Proofs.Sqrt
import Verif.Proofs.Pow
import Verif.Proofs.Ticks
import Verif.Props.Sqrt
import Verif.Props.Pow
import Verif.Spec.Text
import Verif.Proofs.Text
import Verif.Props.Text
import Verif.Spec.Ticks
import Verif.Props.Ticks
import Verif.Props.PoolMath
import Verif.Spec.Bitmap
import Verif.Proofs.Bitmap
import Verif.Props.Bitmap
import Verif.Proofs.Maps
import Verif.Proofs.PoolBasic
import Verif.Proofs.Positions
import Verif.Spec.Swap
import Verif.Proofs.SwapLoop
import Verif.Tests.Sample
import Verif.Props.Swap
import Verif.Spec.Reach
import Verif.Proofs.History
import Verif.Proofs.Ledger
import Verif.Props.History
import Verif.Proofs.Active
import Verif.Props.Active
import Verif.Spec.Fees
import Verif.Proofs.Fees
import Verif.Proofs.Claims
import Verif.Props.Fees
import Verif.Props.FeesEdge
import Verif.Proofs.Tidy
import Verif.Proofs.Avail
import Verif.Props.Availability
import Verif.Spec.OnChain
import Verif.Proofs.OnChain
import Verif.Proofs.OnChainFlow
import Verif.Proofs.OnChainTrip
import Verif.Tests.ChainSample
import Verif.Props.OnChain
import Verif.Proofs.Outcome
import Verif.Spec.Twin
import Verif.Proofs.Twin
import Verif.Proofs.Charge
import Verif.Props.SwapOutcome
import Verif.Spec.Solvency
import Verif.Proofs.Solvency
import Verif.Props.Solvency
import Verif.Spec.Trades
import Verif.Props.Trades
import Verif.Proofs.PriceFloor
import Verif.Props.Shares
import Verif.Props.Price
import Verif.Props.Market
import Verif.Props.Grammar
import Verif.Props.GrammarAll
import Verif.Props.PowDec
import Verif.Props.HmmMath
import Verif.Props.HmmSwap
import Verif.Tests.Conformance
import Verif.Model.F64
import Verif.Model.FloatPool
import Verif.Spec.F64
import Verif.Proofs.F64
import Verif.Tests.FloatSample
import Verif.Tests.FloatConformance
import Verif.Proofs.FloatRounding
import Verif.Proofs.FloatPool
import Verif.Spec.FloatReach
import Verif.Proofs.FloatBooks
import Verif.Proofs.FloatQuiet
import Verif.Props.FloatBooks
import Verif.Props.FloatWithdraw
import Verif.Props.FloatFees
import Verif.Props.FloatNan
import Verif.Proofs.FloatTicks
import Verif.Props.FloatTicks
import Verif.Proofs.FloatFill
import Verif.Proofs.FloatEnds
import Verif.Props.FloatEnds
import Verif.Props.FloatTakes
import Verif.Props.FloatFrame
import Verif.Spec.FloatTwin
import Verif.Proofs.FloatTwin
import Verif.Props.FloatTwin
import Verif.Spec.FloatAmounts
import Verif.Proofs.FloatNear
import Verif.Proofs.FloatAmounts
import Verif.Props.FloatAmounts
import Verif.Spec.FloatStage
import Verif.Proofs.FloatStage
import Verif.Props.FloatStage
import Verif.Spec.FloatActive
import Verif.Proofs.FloatActive
import Verif.Props.FloatActive
import Verif.Spec.FloatLedger
import Verif.Proofs.FloatLedger
import Verif.Props.FloatLedger
import Verif.Props.FloatReport
import Verif.Spec.FloatLib
import Verif.Proofs.FloatLib
import Verif.Proofs.FloatPrices
import Verif.Props.FloatPrices
import Verif.Spec.FloatOracle
import Verif.Proofs.OracleIntegral
import Verif.Proofs.FloatOracle
import Verif.Proofs.FloatOracleStage
import Verif.Proofs.FloatTable
import Verif.Props.FloatOracle
import Verif.Props.FloatOracleCase
import Verif.Model.LnFloat
import Verif.Spec.Ln
import Verif.Proofs.LnTable
import Verif.Proofs.LnLoop
import Verif.Proofs.Ln
import Verif.Proofs.LnFloat
import Verif.Props.Ln
import Verif.Props.Convert
import Verif.Props.RpToTick
import Verif.Props.HmmLog
import Verif.Spec.Earned
import Verif.Proofs.Earned
import Verif.Props.Earned
import Verif.Spec.Leave
import Verif.Proofs.Leave
import Verif.Props.Leave
import Verif.Model.World
import Verif.Spec.World
import Verif.Proofs.World
import Verif.Proofs.WorldKept
import Verif.Proofs.WorldRefine
import Verif.Proofs.WorldSums
import Verif.Tests.WorldSample
import Verif.Props.World
import Verif.Spec.WorldOthers
import Verif.Proofs.WorldOthers
import Verif.Props.WorldOthers
import Verif.Proofs.OnChainWhen
import Verif.Spec.WorldWhen
import Verif.Proofs.WorldWhen
import Verif.Props.WorldWhen
import Verif.Spec.FloatInside
import Verif.Proofs.FloatInside
import Verif.Props.FloatInside
import Verif.Spec.WorldCover
import Verif.Proofs.WorldCover
import Verif.Props.WorldCover
import Verif.Spec.Pow
import Verif.Proofs.PowWhen
import Verif.Props.PowWhen
import Verif.Props.CompareZero
import Verif.Model.Release
import Verif.Proofs.Release
import Verif.Props.Release
import Verif.Props.WorldApproved
import Verif.Props.ScaledAmounts
import Verif.Props.RangeAmounts
import Verif.Props.Reports
import Verif.Props.Larger
import Verif.Props.WorldBuy
import Verif.Props.Refused
import Verif.Props.WorldOpen
import Verif.Props.Refusals
import Verif.Tests.ProtoConformance
import Verif.Tests.ProtoSample
import Verif.Props.Proto
import Verif.Props.ProtoCalls
import Verif.Proofs.ProtoDeposit
import Verif.Props.ProtoDeposit
import Verif.Props.ProtoWithdraw
import Verif.Model.ProtoEnds
import Verif.Spec.ProtoRun
import Verif.Props.ProtoRun
import Verif.Props.FloatRangeEnds
import Verif.Props.ProtoEnds
import Verif.Spec.Split
import Verif.Props.Split
import Verif.Spec.Numeral
import Verif.Spec.Order
import Verif.Proofs.Stored
import Verif.Proofs.Order
import Verif.Proofs.OrderMoves
import Verif.Proofs.OrderDeposits
import Verif.Props.Order
import Verif.Proofs.OrderLeave
import Verif.Proofs.OrderWithdrawals
import Verif.Props.OrderLeave
import Verif.Spec.WorldOrder
import Verif.Proofs.WorldOrder
import Verif.Props.WorldOrder
import Verif.Spec.WorldGather
import Verif.Proofs.WorldGather
import Verif.Props.WorldGather
import Verif.Model.ReleasePool
import Verif.Spec.ReleasePool
import Verif.Proofs.ReleasePool
import Verif.Props.ReleasePool
import Verif.Model.ReleaseFloat
import Verif.Spec.ReleaseFloat
import Verif.Proofs.ReleaseFloat
import Verif.Props.ReleaseFloat
import Verif.Spec.OrderMixed
import Verif.Proofs.OrderMixed
import Verif.Props.OrderMixed
import Verif.Proofs.WorldMixed
import Verif.Props.WorldMixed
import Verif.Spec.WorldParts
import Verif.Proofs.WorldParts
import Verif.Props.WorldParts
import Verif.Proofs.WorldOffers
import Verif.Props.WorldOffers
import Verif.Proofs.InParts
import Verif.Props.InParts
import Verif.Proofs.OffersInParts
import Verif.Props.OffersInParts
import Verif.Spec.Dealings
import Verif.Proofs.Dealings
import Verif.Props.Dealings
import Verif.Spec.Deals
import Verif.Proofs.SwapSame
import Verif.Props.Deals
import Verif.Props.AsBefore
import Verif.Spec.Named
import Verif.Proofs.Named
import Verif.Props.Named
import Verif.Spec.FloatNamed
import Verif.Proofs.FloatNamed
import Verif.Props.FloatNamed
import Verif.Spec.ProtoNamed
import Verif.Proofs.ProtoNamed
import Verif.Props.ProtoNamed
import Verif.Props.OracleSplit
