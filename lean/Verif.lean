import Verif.Props.Rotations
import Verif.Props.RowOps
import Verif.Props.Fresh
import Verif.Props.LLLLattice
import Verif.Props.LLLExact
import Verif.Props.Enum
import Verif.Props.Evaluator
import Verif.Props.SVP
import Verif.Props.CVP
import Verif.Props.TextIO
import Verif.Props.Store
import Verif.Props.Gen
import Verif.Props.LongExp
import Verif.Props.ThreadPool
import Verif.Props.ParEnum
import Verif.Props.PrunerVol
import Verif.Props.Pruner
import Verif.Props.BKZ
import Verif.Props.BKZSvp
import Verif.Props.Insert
import Verif.Props.Strategy
import Verif.Props.Wrapper
import Verif.Props.Status
import Verif.Props.Cli
import Verif.Model.Householder
import Verif.Model.HLLL
import Verif.Proofs.HLLL
import Verif.Props.HLLL
import Verif.Proofs.Householder
import Verif.Spec.GramDet
import Verif.Spec.Pref
import Verif.Spec.HLLL
import Verif.Model.HExact
import Verif.Proofs.HLLLExact
import Verif.Proofs.HLLLMain
import Verif.Props.HLLLExact
import Verif.Proofs.HNaive
import Verif.Props.HNaive
import Verif.Model.GSOGram
import Verif.Proofs.GSOGram
import Verif.Proofs.LLLGram
import Verif.Props.GSOGram
import Verif.Proofs.Prefix
import Verif.Proofs.LLLPref
import Verif.Proofs.InsertFresh
import Verif.Proofs.SvpExact
import Verif.Proofs.HkzExact
import Verif.Model.BKZEnum
import Verif.Proofs.BKZEnum
import Verif.Proofs.LastRow
import Verif.Props.HKZ
import Verif.Proofs.Clean
import Verif.Proofs.CleanAll
import Verif.Props.Clean
import Verif.Props.CleanTwo
import Verif.Model.PrunerCost
import Verif.Props.PrunerProb
import Verif.Props.PrunerCost
import Verif.Model.PrunerTarget
import Verif.Proofs.PrunerBest
import Verif.Props.PrunerBest
import Verif.Model.LLLBudget
import Verif.Proofs.LLLCount
import Verif.Props.LLLBudget
import Verif.Model.Dpe
import Verif.Proofs.Dpe
import Verif.Proofs.DpeSqrt
import Verif.Props.Dpe
import Verif.Props.DpeOps
import Verif.Props.DpeInt
import Verif.Base.LoopsDown
import Verif.Proofs.Double
import Verif.Props.EnumFloat
import Verif.Model.ErrBound
import Verif.Proofs.ErrBound
import Verif.Proofs.ErrMono
import Verif.Proofs.Mpfr
import Verif.Props.ErrBound
import Verif.Props.ErrInit
import Verif.Model.SVPRound
import Verif.Proofs.SVPRound
import Verif.Props.SVPRound
import Verif.Proofs.Found
import Verif.Model.ExtEnum
import Verif.Props.ExtEnum
import Verif.Model.CVPReset
import Verif.Proofs.EnumReset
import Verif.Proofs.CVPReset
import Verif.Props.CVPReset
import Verif.Model.FpConv
import Verif.Proofs.FpConv
import Verif.Props.FpConv
import Verif.Props.MaxIndices
import Verif.Model.LllDiff
import Verif.Props.LllDiff
import Verif.Model.ZNum
import Verif.Props.ZNum
import Verif.Model.Shape
import Verif.Props.Shape
import Verif.Props.Rerandomize
import Verif.Model.BKZTop
import Verif.Props.BKZTop
import Verif.Proofs.LexPot
import Verif.Proofs.BkzStop
import Verif.Props.BKZStops
import Verif.Model.FloatRnd
import Verif.Model.MinPrec
import Verif.Proofs.Cholesky
import Verif.Proofs.GsoRound
import Verif.Props.GsoErr
import Verif.Proofs.CholeskyLLL
import Verif.Proofs.FreshRound
import Verif.Proofs.LLLRound
import Verif.Props.LLLRound
import Verif.Proofs.CholeskyRow
import Verif.Proofs.BabaiRound
import Verif.Proofs.BabaiOk
import Verif.Proofs.LLLRoundOk
import Verif.Props.LLLRoundOk
import Verif.Props.WrapperOk
import Verif.Proofs.ErrApriori
import Verif.Proofs.MpfrFine
import Verif.Proofs.SVPApriori
import Verif.Props.SVPApriori
import Verif.Model.SvpCmd
import Verif.Props.SvpCmd
import Verif.Model.LatticeGen
import Verif.Props.LatticeGen
import Verif.Model.PrunerTables
import Verif.Model.Volume
import Verif.Proofs.PiDigits
import Verif.Props.Volume
import Verif.Model.TopEnum
import Verif.Proofs.TopEnum
import Verif.Props.TopEnum
import Verif.Model.CvpCmd
import Verif.Props.CvpCmd
import Verif.Proofs.IsReduced
import Verif.Props.IsReduced
import Verif.Props.SiegelRound
import Verif.Spec.Json
import Verif.Model.BkzDump
import Verif.Props.BkzDump
import Verif.Model.HlllPrec
import Verif.Props.HlllPrec
import Verif.Model.RunPruner
import Verif.Props.RunPruner
import Verif.Model.LllCmd
import Verif.Props.LllCmd
import Verif.Model.GsoDump
import Verif.Props.GsoDump
import Verif.Model.RedCmd
import Verif.Props.RedCmd
import Verif.Model.HlllCmd
import Verif.Props.HlllCmd
import Verif.Model.JsonRead
import Verif.Props.JsonRead
import Verif.Spec.Utf8
import Verif.Model.JsonBytes
import Verif.Props.JsonBytes
import Verif.Model.StratUse
import Verif.Proofs.StratUse
import Verif.Props.StratUse
import Verif.Model.PruneFit
import Verif.Props.PruneFit
import Verif.Props.BadOptions
import Verif.Props.StratFile
import Verif.Model.DualOrder
import Verif.Props.DualOrder
import Verif.Props.DualRun
import Verif.Model.LLLBudgetInt
import Verif.Props.LLLBudgetInt
import Verif.Model.NodeTotal
import Verif.Props.NodeTotal
import Verif.Model.StratPath
import Verif.Props.StratPath
import Verif.Props.LLLZeroRow
