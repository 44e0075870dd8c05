import Verif.Lemmas.Analyze3
import Verif.Lemmas.AnalyzeC
import Verif.Lemmas.AnalyzeD
import Verif.Lemmas.AnalyzeE
import Verif.Lemmas.AnalyzeI
import Verif.Lemmas.AnalyzeI3
import Verif.Lemmas.AnalyzeK
import Verif.Lemmas.AnalyzeL
import Verif.Lemmas.AnalyzeQ
import Verif.Lemmas.AnalyzeR
import Verif.Lemmas.AnalyzeS
import Verif.Lemmas.AnalyzeU
import Verif.Lemmas.AnalyzeW
import Verif.Lemmas.AnalyzeX
import Verif.Lemmas.AnalyzeY
import Verif.Lemmas.ArrL
import Verif.Lemmas.Backend
import Verif.Lemmas.CallL
import Verif.Lemmas.Construct
import Verif.Lemmas.Continuity
import Verif.Lemmas.Demo
import Verif.Lemmas.DemoAny
import Verif.Lemmas.DemoInt
import Verif.Lemmas.DemoKey
import Verif.Lemmas.DemoVec
import Verif.Lemmas.DiffL
import Verif.Lemmas.DocsDemo
import Verif.Lemmas.DocsGood
import Verif.Lemmas.DocsParse
import Verif.Lemmas.DocsPrint
import Verif.Lemmas.DocsRead
import Verif.Lemmas.DocsSec
import Verif.Lemmas.Draw3
import Verif.Lemmas.DrawInt
import Verif.Lemmas.DrawNum
import Verif.Lemmas.Energy
import Verif.Lemmas.EnergyObs
import Verif.Lemmas.EnergyShift
import Verif.Lemmas.EnergyTrunc
import Verif.Lemmas.ExpIntL
import Verif.Lemmas.ExpansionL
import Verif.Lemmas.ExprL
import Verif.Lemmas.Extend
import Verif.Lemmas.FnL
import Verif.Lemmas.FnPoly
import Verif.Lemmas.Frame3
import Verif.Lemmas.HemColsL
import Verif.Lemmas.HemFigureL
import Verif.Lemmas.HemL
import Verif.Lemmas.HgSeries
import Verif.Lemmas.Hist
import Verif.Lemmas.IntArr
import Verif.Lemmas.IntMath
import Verif.Lemmas.IntNan
import Verif.Lemmas.IntObs
import Verif.Lemmas.IntPW
import Verif.Lemmas.IntRow
import Verif.Lemmas.IntSucc
import Verif.Lemmas.IntVal
import Verif.Lemmas.IntWit
import Verif.Lemmas.Inv
import Verif.Lemmas.IsoErr
import Verif.Lemmas.JacInv
import Verif.Lemmas.JacKeyL
import Verif.Lemmas.JacL
import Verif.Lemmas.JacMatrix
import Verif.Lemmas.JacMemo
import Verif.Lemmas.JacObs
import Verif.Lemmas.JacStale
import Verif.Lemmas.JacSucc
import Verif.Lemmas.JacTab
import Verif.Lemmas.JacVal
import Verif.Lemmas.Kept
import Verif.Lemmas.LamL
import Verif.Lemmas.LegComplete
import Verif.Lemmas.LegendreL
import Verif.Lemmas.LimitL
import Verif.Lemmas.LinL
import Verif.Lemmas.Live
import Verif.Lemmas.LobeL
import Verif.Lemmas.LobeSeries
import Verif.Lemmas.Lopsided
import Verif.Lemmas.MissL
import Verif.Lemmas.NormL
import Verif.Lemmas.Observe
import Verif.Lemmas.Ops
import Verif.Lemmas.Order
import Verif.Lemmas.OrderAcc
import Verif.Lemmas.OrderInt
import Verif.Lemmas.OrderRun
import Verif.Lemmas.OrderSwap
import Verif.Lemmas.OverlayZero
import Verif.Lemmas.ParL
import Verif.Lemmas.ParSym
import Verif.Lemmas.PhaseVal
import Verif.Lemmas.Pinned
import Verif.Lemmas.Point
import Verif.Lemmas.QuickPlot
import Verif.Lemmas.Record
import Verif.Lemmas.Refine
import Verif.Lemmas.Remembered
import Verif.Lemmas.RenameInt
import Verif.Lemmas.RenameJac
import Verif.Lemmas.RenameL
import Verif.Lemmas.RenameObj
import Verif.Lemmas.RowVals
import Verif.Lemmas.Rows
import Verif.Lemmas.Safe
import Verif.Lemmas.SameShape
import Verif.Lemmas.SameShapeInt
import Verif.Lemmas.ScalarCall
import Verif.Lemmas.ScatterL
import Verif.Lemmas.Shape
import Verif.Lemmas.Simpson
import Verif.Lemmas.SphereL
import Verif.Lemmas.Stale
import Verif.Lemmas.Steps
import Verif.Lemmas.Switch
import Verif.Lemmas.SwitchExact
import Verif.Lemmas.SwitchHist
import Verif.Lemmas.SwitchInt
import Verif.Lemmas.SwitchSafe
import Verif.Lemmas.SymL
import Verif.Lemmas.Trunc
import Verif.Lemmas.Unique
import Verif.Model.Analyze
import Verif.Model.AnalyzeFigure
import Verif.Model.Arr
import Verif.Model.Construct
import Verif.Model.Docs
import Verif.Model.Eval
import Verif.Model.Expr
import Verif.Model.Figure3D
import Verif.Model.Fn
import Verif.Model.HemFigure
import Verif.Model.HemReflect
import Verif.Model.Jac
import Verif.Model.Live
import Verif.Model.Logging
import Verif.Model.Misc
import Verif.Model.Names
import Verif.Model.Parse
import Verif.Model.PolarFigure
import Verif.Model.PolarPlot
import Verif.Model.Py
import Verif.Model.QuickPlot
import Verif.Model.Scatter
import Verif.Model.State
import Verif.Model.SumIndex
import Verif.Model.Switch
import Verif.Model.XR
import Verif.Props.Analyze
import Verif.Props.Analyze3D
import Verif.Props.Analyze3DInt
import Verif.Props.AnalyzeDoc
import Verif.Props.AnalyzeFigure
import Verif.Props.AnalyzeInt
import Verif.Props.AnalyzeNeg
import Verif.Props.Arrays
import Verif.Props.ArraysInt
import Verif.Props.Assign
import Verif.Props.Backend
import Verif.Props.Construct
import Verif.Props.ConstructErr
import Verif.Props.Continuity
import Verif.Props.Contrib
import Verif.Props.Docs
import Verif.Props.Energy
import Verif.Props.EnergyFixed
import Verif.Props.EnergyLimit
import Verif.Props.EnergyNadir
import Verif.Props.Extend
import Verif.Props.Figure3D
import Verif.Props.Frame3D
import Verif.Props.HemCols
import Verif.Props.HemFigure
import Verif.Props.HemFigureCols
import Verif.Props.HemReflect
import Verif.Props.IntRows
import Verif.Props.Interaction
import Verif.Props.JacAxes
import Verif.Props.JacErrors
import Verif.Props.JacKeys
import Verif.Props.JacLayout
import Verif.Props.JacMatrix
import Verif.Props.JacStale
import Verif.Props.JacUse
import Verif.Props.Jacobian
import Verif.Props.Limit
import Verif.Props.Live
import Verif.Props.Logging
import Verif.Props.Misc
import Verif.Props.Missing
import Verif.Props.NadirRow
import Verif.Props.Names
import Verif.Props.Ncoefs
import Verif.Props.Norm
import Verif.Props.Order
import Verif.Props.OrderAngles
import Verif.Props.OrderSupplied
import Verif.Props.Overlay
import Verif.Props.Params
import Verif.Props.Parse
import Verif.Props.ParseScatter
import Verif.Props.Peek
import Verif.Props.PolarArrays
import Verif.Props.PolarFigure
import Verif.Props.PolarPlot
import Verif.Props.QuickPlot
import Verif.Props.Record
import Verif.Props.Remembered
import Verif.Props.Rename
import Verif.Props.RenameObj
import Verif.Props.Retrieval
import Verif.Props.RetrievalInt
import Verif.Props.Rows
import Verif.Props.Scatter
import Verif.Props.Series
import Verif.Props.Stale
import Verif.Props.State
import Verif.Props.Switch
import Verif.Props.SwitchInt
import Verif.Props.Symmetry
import Verif.Props.TauForms
import Verif.Props.Trunc
import Verif.Props.Widgets
import Verif.Spec.Analyze
import Verif.Spec.Calc
import Verif.Spec.Construct
import Verif.Spec.Continuity
import Verif.Spec.Docs
import Verif.Spec.Energy
import Verif.Spec.ExpInt
import Verif.Spec.Fresh
import Verif.Spec.HemFigure
import Verif.Spec.Inputs
import Verif.Spec.Interaction
import Verif.Spec.Jac
import Verif.Spec.JacMatrix
import Verif.Spec.JacUse
import Verif.Spec.Legendre
import Verif.Spec.Limit
import Verif.Spec.Live
import Verif.Spec.Names
import Verif.Spec.Order
import Verif.Spec.Params
import Verif.Spec.Parse
import Verif.Spec.ParseScatter
import Verif.Spec.Peek
import Verif.Spec.Phase
import Verif.Spec.QuickPlot
import Verif.Spec.Record
import Verif.Spec.Remembered
import Verif.Spec.Rename
import Verif.Spec.RenameObj
import Verif.Spec.Site
import Verif.Spec.Sphere
import Verif.Spec.Switch
import Verif.Spec.SwitchInt
import Verif.Spec.Symmetry
import Verif.Spec.Trunc
import Verif.Spec.Widgets
import Verif.Audit
