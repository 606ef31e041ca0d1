import Verif.Act
import Verif.Basic
import Verif.Civil
import Verif.Float.Curve
import Verif.Float.DayCount
import Verif.Float.Feature
import Verif.Float.Forward
import Verif.Float.Greeks
import Verif.Float.Ieee
import Verif.Float.Interp
import Verif.Float.Lemmas
import Verif.Float.Sums
import Verif.Props.Act
import Verif.Props.Adjust
import Verif.Props.Black
import Verif.Props.BookCore
import Verif.Props.BookFaults
import Verif.Props.BookMirror
import Verif.Props.BookOps
import Verif.Props.BookPrices
import Verif.Props.BookReach
import Verif.Props.Cashflow
import Verif.Props.Cholesky
import Verif.Props.Clock
import Verif.Props.Config
import Verif.Props.Contracts
import Verif.Props.Counter
import Verif.Props.Currency
import Verif.Props.CurveTimes
import Verif.Props.Daily
import Verif.Props.DayCount
import Verif.Props.DefaultBook
import Verif.Props.Display
import Verif.Props.Dividend
import Verif.Props.Engine
import Verif.Props.EngineActCore
import Verif.Props.EngineAll
import Verif.Props.EngineBonds
import Verif.Props.EngineBuckets
import Verif.Props.EngineCompany
import Verif.Props.EngineCore
import Verif.Props.EngineDividends
import Verif.Props.EngineFloaters
import Verif.Props.EngineForwards
import Verif.Props.EngineIndex
import Verif.Props.EngineLeft
import Verif.Props.EngineLinear
import Verif.Props.EngineMatrix
import Verif.Props.EngineOptionRhos
import Verif.Props.EngineOrder
import Verif.Props.EngineParity
import Verif.Props.EngineRuns
import Verif.Props.EngineSigns
import Verif.Props.EngineSizes
import Verif.Props.EngineStrikes
import Verif.Props.EngineSwaps
import Verif.Props.EngineTime
import Verif.Props.EngineTwins
import Verif.Props.EngineVega
import Verif.Props.EngineWorth
import Verif.Props.EvalDate
import Verif.Props.Expected
import Verif.Props.Feature
import Verif.Props.FeatureFlow
import Verif.Props.FeatureTime
import Verif.Props.Feed
import Verif.Props.FindIndex
import Verif.Props.FloatAverage
import Verif.Props.FloatBumps
import Verif.Props.FloatCurve
import Verif.Props.FloatDiscount
import Verif.Props.FloatDrift
import Verif.Props.FloatElapsed
import Verif.Props.FloatFeature
import Verif.Props.FloatForward
import Verif.Props.FloatGreeks
import Verif.Props.FloatInterp
import Verif.Props.FloatKnots
import Verif.Props.FloatLine
import Verif.Props.FloatOrder
import Verif.Props.FloatPrices
import Verif.Props.FloatRuns
import Verif.Props.FloatSums
import Verif.Props.FloatTimes
import Verif.Props.FloatVec
import Verif.Props.FloatVwap
import Verif.Props.FloatYears
import Verif.Props.FloaterEngine
import Verif.Props.FloaterPar
import Verif.Props.Floating
import Verif.Props.Holidays
import Verif.Props.InstIds
import Verif.Props.Interp
import Verif.Props.Krx
import Verif.Props.KrxAll
import Verif.Props.KrxCore
import Verif.Props.KrxTrade
import Verif.Props.Ktbf
import Verif.Props.Ladder
import Verif.Props.LazyCell
import Verif.Props.LevelUse
import Verif.Props.Loading
import Verif.Props.LogLine
import Verif.Props.Logger
import Verif.Props.LoggerCore
import Verif.Props.LoggerMore
import Verif.Props.Options
import Verif.Props.Parsing
import Verif.Props.Path
import Verif.Props.Period
import Verif.Props.PipeBuffers
import Verif.Props.Pipeline
import Verif.Props.Portfolio
import Verif.Props.PriceOps
import Verif.Props.Quotes
import Verif.Props.Records
import Verif.Props.Saved
import Verif.Props.Schedule
import Verif.Props.ShortRate
import Verif.Props.Snapshot
import Verif.Props.SnapshotFaults
import Verif.Props.SnapshotIds
import Verif.Props.Spin
import Verif.Props.Stamp
import Verif.Props.StampDate
import Verif.Props.Stepwise
import Verif.Props.Surface
import Verif.Props.Swap
import Verif.Props.Text
import Verif.Props.Timer
import Verif.Props.Udp
import Verif.Props.Utf8
import Verif.Props.Yields
import Verif.Props.ZeroCurve
import Verif.QL.Calendar
import Verif.QL.CalendarTables
import Verif.QL.Cashflow
import Verif.QL.Cholesky
import Verif.QL.Config
import Verif.QL.Contracts
import Verif.QL.Currency
import Verif.QL.Daily
import Verif.QL.DateTime
import Verif.QL.DayCount
import Verif.QL.Display
import Verif.QL.Dividend
import Verif.QL.Engine
import Verif.QL.EngineAct
import Verif.QL.EvalDate
import Verif.QL.FindIndex
import Verif.QL.Interp
import Verif.QL.Ktbf
import Verif.QL.Path
import Verif.QL.Period
import Verif.QL.Portfolio
import Verif.QL.PriceOps
import Verif.QL.Pricers
import Verif.QL.Schedule
import Verif.QL.Text
import Verif.QL.Volatility
import Verif.QL.Wire
import Verif.QL.ZeroCurve
import Verif.Saved
import Verif.TE.BookExt
import Verif.TE.BookHistory
import Verif.TE.BookRefine
import Verif.TE.BookSpec
import Verif.TE.Clock
import Verif.TE.Counter
import Verif.TE.DecompLemmas
import Verif.TE.DefaultBook
import Verif.TE.Feature
import Verif.TE.Feed
import Verif.TE.HalfBook
import Verif.TE.HalfBookOps
import Verif.TE.HalfBookRemove
import Verif.TE.HalfBookWF
import Verif.TE.InstId
import Verif.TE.Krx
import Verif.TE.Ladder
import Verif.TE.LazyCell
import Verif.TE.Level
import Verif.TE.LevelLemmas
import Verif.TE.LevelUse
import Verif.TE.LogLine
import Verif.TE.Logger
import Verif.TE.MapLemmas
import Verif.TE.MarketSell
import Verif.TE.Numeric
import Verif.TE.NumericLemmas
import Verif.TE.OrderBook
import Verif.TE.Pipe
import Verif.TE.PipeBuffers
import Verif.TE.Records
import Verif.TE.SnapLemmas
import Verif.TE.SnapWF
import Verif.TE.SpinLemmas
import Verif.TE.SpinQueue
import Verif.TE.Stamp
import Verif.TE.StampDate
import Verif.TE.SweepLemmas
import Verif.TE.Timer
import Verif.TE.TradeLemmas
import Verif.TE.Udp
