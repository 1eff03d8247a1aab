import Verif.Arith
import Verif.ArithProps
import Verif.ModRem
import Verif.ModRemProps
import Verif.StaircaseProps
import Verif.Expr
import Verif.EvalProps
import Verif.Compare
import Verif.CompareProps
import Verif.DependsOn
import Verif.DependsOnProps
import Verif.Subst
import Verif.SubstProps
import Verif.Interval
import Verif.IntervalProps
import Verif.Rewrite
import Verif.Rules
import Verif.RewriteSpec
import Verif.RuleTac
import Verif.RuleLemmas
import Verif.RulesMinProps
import Verif.RulesMaxProps
import Verif.RulesAddProps
import Verif.RulesSubProps
import Verif.RulesMulProps
import Verif.RulesDivProps
import Verif.RulesModProps
import Verif.RulesLessProps
import Verif.RulesEqualProps
import Verif.RulesAndProps
import Verif.RulesOrProps
import Verif.RulesNotProps
import Verif.RulesSelectProps
import Verif.RulesCallProps
import Verif.Ok
import Verif.RewriteProps
import Verif.RewriteComplete
import Verif.RewriteTables
import Verif.DependsOnFlags
import Verif.Buffer
import Verif.BufferProps
import Verif.FuseProps
import Verif.Strides
import Verif.StridesProps
import Verif.InitStridesProps
import Verif.ThreadPool
import Verif.ThreadPoolInv
import Verif.ThreadPoolProps
import Verif.ThreadPoolSteps
import Verif.SemaphoreProps
import Verif.ThreadPoolStack
import Verif.ThreadPoolTerm
import Verif.ThreadPoolLive
import Verif.ThreadPoolQueue
import Verif.ThreadPoolExamples
import Verif.Stmt
import Verif.StmtSem
import Verif.StmtBig
import Verif.StmtExec
import Verif.StmtProps
import Verif.StmtAlloc
import Verif.StmtLoops
import Verif.StmtBlocks
import Verif.StmtExamples
import Verif.RefCount
import Verif.RefCountProps
import Verif.RefCountSpec
import Verif.SymbolMap
import Verif.SymbolMapProps
import Verif.SetSpan
import Verif.SimplifyExprs
import Verif.ConstEval
import Verif.ConstEvalProps
import Verif.ConstEvalMore
import Verif.BoundsOf
import Verif.BoundsOfProps
import Verif.BoundsOfThm
import Verif.Simplifier
import Verif.SimplifierInfo
import Verif.SimplifierLearn
import Verif.SimplifierVisit
import Verif.SimplifierThm
import Verif.SimplifierApi
import Verif.ForEach
import Verif.ForEachProps
import Verif.ForEachThm
import Verif.ForEachMain
import Verif.ForEachApi
import Verif.Copy
import Verif.CopyProps
import Verif.CropBounds
import Verif.CropBoundsThm
import Verif.CropBoundsEx
import Verif.CopyImpl
import Verif.Track
import Verif.CopyPad
import Verif.CopyApi
import Verif.CopyEx
import Verif.Sem
import Verif.SemExec
import Verif.SemStmt
import Verif.Rename
import Verif.RenameStmt
import Verif.RenameSem
import Verif.Deshadow
import Verif.DeshadowThm
import Verif.DeshadowProps
import Verif.DeshadowEx
import Verif.CompareStmt
import Verif.Canonicalize
import Verif.DependsStmt
import Verif.DependsSem
import Verif.SubstStmt
import Verif.SubstStmtThm
import Verif.OptSymbols
import Verif.OptSymbolsSubst
import Verif.OptSymbolsThm
import Verif.OptSymbolsProps
import Verif.OptSymbolsEx
import Verif.SemLe
import Verif.FuseSiblings
import Verif.FuseSiblingsEx
import Verif.SemEval
import Verif.ImplementCopy
import Verif.ImplementCopyProps
import Verif.ImplementCopyDim
import Verif.ImplementCopyLoops
import Verif.ImplementCopyThm
import Verif.ImplementCopyMain
import Verif.ImplementCopyMem
import Verif.ImplementCopyEx
import Verif.SlideFold
import Verif.SlideStore
import Verif.SlideFoldThm
import Verif.SlideFoldMain
import Verif.SlideFoldDims
import Verif.SlideFoldEx
import Verif.Pipelined
import Verif.PipelinedThm
import Verif.PipelinedMain
import Verif.PipelinedEx
import Verif.SlideVisit
import Verif.InferBounds
import Verif.InferBoundsThm
import Verif.InferBoundsMain
import Verif.InferBoundsEx
import Verif.Schedule
import Verif.ScheduleTopo
import Verif.ScheduleLocs
import Verif.ScheduleNest
import Verif.ScheduleEx
import Verif.Layout
import Verif.LayoutLay
import Verif.LayoutLay2
import Verif.LayoutSt
import Verif.LayoutBuild
import Verif.LayoutSpec
import Verif.LayoutEx
import Verif.EarlyFree
import Verif.EarlyFreeRuns
import Verif.EarlyFreeSyn
import Verif.EarlyFreeProof
import Verif.EarlyFreeConv
import Verif.EarlyFreeEx
import Verif.ParTasks
import Verif.ParDag
import Verif.ParProof
import Verif.ParMain
import Verif.ParTasksEx
import Verif.ParBarrier
import Verif.RemovePure
import Verif.RemovePureThm
import Verif.RemovePureEx
import Verif.Concat
import Verif.ConcatThm
import Verif.ConcatPiece
import Verif.ConcatMain
import Verif.ConcatEx
import Verif.DropLoop
import Verif.DropLoopThm
import Verif.DropLoopMain
import Verif.DropLoopEx
import Verif.AliasInPlace
import Verif.AliasInPlaceSem
import Verif.AliasInPlaceThm
import Verif.AliasInPlaceSim
import Verif.AliasInPlaceMain
import Verif.AliasInPlaceEx
import Verif.NarrowScope
import Verif.NarrowScopeEx
import Verif.Licm
import Verif.LicmThm
import Verif.LicmEx
import Verif.Views
import Verif.ViewsThm
import Verif.ViewsSub
import Verif.ViewsCrop
import Verif.ViewsSlice
import Verif.ViewsTrans
import Verif.ViewsEx
import Verif.MakeView
import Verif.MakeViewThm
import Verif.MakeViewCrop
import Verif.MakeViewEx
import Verif.Sanitize
import Verif.SanitizeThm
import Verif.LetStmt
import Verif.LetStmtThm
import Verif.LetStmtEx
import Verif.PipeEval
import Verif.PipeEvalThm
import Verif.PipeEvalEx
import Verif.FoldSlice
import Verif.FoldSliceThm
import Verif.FoldSliceEx
import Verif.SimpDims
import Verif.SimpDimsThm
import Verif.SimpDimsEx
import Verif.ConstMerge
import Verif.ConstMergeThm
import Verif.ConstMergeEx
import Verif.SemClean
import Verif.SemCleanThm
import Verif.SemCleanEx
import Verif.AliasCopy
import Verif.AliasCopyThm
import Verif.AliasCopyEx
import Verif.AliasView
import Verif.AliasViewThm
import Verif.RemoveCopy
import Verif.RemoveCopyThm
import Verif.AliasStride
import Verif.AliasStrideThm
import Verif.AliasStrideInj
import Verif.AliasContig
import Verif.AliasContigThm
import Verif.AliasScope
import Verif.AliasScopeThm
import Verif.AliasLoop
import Verif.AliasLoopEx
