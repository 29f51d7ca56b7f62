import Verif.Visitor
import Verif.Trace
import Verif.TraceVisit
import Verif.Run
import Verif.RunVisit
import Verif.RunCore
import Verif.Spec.Tree
import Verif.Spec.Args
import Verif.Spec.Types
import Verif.Spec.Enum
import Verif.Lemmas.Tree
import Verif.Lemmas.Args
import Verif.Lemmas.Names
import Verif.Lemmas.Types
import Verif.Lemmas.Balance
import Verif.Lemmas.Enums
import Verif.Examples
import Verif.Props.C01
import Verif.Props.C02
import Verif.Props.C22
import Verif.Spec.Edit
import Verif.Lemmas.Edit
import Verif.Lemmas.Skeleton
import Verif.Props.C04
import Verif.Props.C17
import Verif.Spec.Scope
import Verif.Lemmas.Scope
import Verif.Spec.Shape
import Verif.Lemmas.Shape
import Verif.Lemmas.Calm
import Verif.Lemmas.Converge
import Verif.Props.C26
import Verif.Lemmas.Blocks
import Verif.Props.C01Blocks
import Verif.Lemmas.Mono
import Verif.Props.C18
import Verif.Spec.Visible
import Verif.Lemmas.Visible
import Verif.Props.C16
import Verif.Derive.Table
import Verif.Derive.Expand
import Verif.Spec.Derive
import Verif.Lemmas.Derive
import Verif.Props.C31
import Verif.Spec.Generics
import Verif.Props.C45
import Verif.Derive.Emit
import Verif.Derive.Eval
import Verif.Spec.Runtime
import Verif.Lemmas.Runtime
import Verif.Props.C39
import Verif.Spec.Flow
import Verif.Lemmas.Flow
import Verif.Lemmas.FlowRun
import Verif.Lemmas.FlowApi
import Verif.Props.C08
import Verif.Spec.Treat
import Verif.Lemmas.Pend
import Verif.Lemmas.PendPred
import Verif.Lemmas.PendLoop
import Verif.Lemmas.PendChild
import Verif.Lemmas.Virt
import Verif.Lemmas.PendStep
import Verif.Lemmas.PendVisit
import Verif.Lemmas.Still
import Verif.Spec.Whole
import Verif.Lemmas.Own
import Verif.Lemmas.Whole
import Verif.Props.C03
import Verif.Spec.Result
import Verif.Spec.Skip
import Verif.Spec.Quiet
import Verif.Lemmas.Result
import Verif.Lemmas.Skip
import Verif.Lemmas.Number
import Verif.Lemmas.Reach
import Verif.Lemmas.Accepted
import Verif.Lemmas.Forms
import Verif.ExamplesAccepted
import Verif.Props.C05
import Verif.Spec.Chain
import Verif.Lemmas.Chain
import Verif.Lemmas.Missing
import Verif.Props.C06
import Verif.Spec.Break
import Verif.Lemmas.Break
import Verif.Props.C07
import Verif.Spec.Within
import Verif.Lemmas.Within
import Verif.Spec.Nested
import Verif.Lemmas.Nested
import Verif.Props.C14
import Verif.Spec.Macros
import Verif.Lemmas.Macros
import Verif.Lemmas.Twice
import Verif.Props.C12
import Verif.Props.C13
import Verif.Props.C30
import Verif.Lemmas.Wrap
import Verif.Spec.Inner
import Verif.Lemmas.Inner
import Verif.Props.C21
import Verif.Spec.Tidy
import Verif.Lemmas.Tidy
import Verif.Lemmas.TidyRun
import Verif.Props.C15
import Verif.Spec.Eval
import Verif.Lemmas.Eval
import Verif.Lemmas.EvalSim
import Verif.Spec.EvalMark
import Verif.Lemmas.EvalMark
import Verif.Lemmas.EvalRun
import Verif.Spec.EvalTry
import Verif.Lemmas.EvalTry
import Verif.Spec.Diverge
import Verif.Lemmas.EvalDiverge
import Verif.Lemmas.EvalMarkSyn
import Verif.ExamplesRun
import Verif.Props.C25
import Verif.Props.C28
import Verif.Props.C27
import Verif.Spec.Errors
import Verif.Lemmas.Errors
import Verif.Props.C48
import Verif.Spec.Outside
import Verif.Spec.Owned
import Verif.Lemmas.Outside
import Verif.Lemmas.Alone
import Verif.Lemmas.AloneVisit
import Verif.Lemmas.Analysed
import Verif.Lemmas.Owned
import Verif.Lemmas.Regions
import Verif.Props.C20
import Verif.Derive.Bounds
import Verif.Spec.Bounds
import Verif.Props.C49
import Verif.Lemmas.Inferred
import Verif.Props.C54
import Verif.Spec.Outline
import Verif.Lemmas.Outline
import Verif.Lemmas.OutlineChild
import Verif.Lemmas.OutlineRun
import Verif.Lemmas.OutlineWhole
import Verif.Props.C55
import Verif.Lemmas.Outer
import Verif.Props.Inner
import Verif.Spec.Reports
import Verif.Lemmas.Reports
import Verif.Lemmas.ReportsStep
import Verif.Lemmas.ReportsVisit
import Verif.Lemmas.ReportsWhole
import Verif.Props.C03Count
import Verif.Props.C56
import Verif.Spec.Typing
import Verif.Spec.TypingMark
import Verif.Lemmas.Typing
import Verif.Lemmas.TypingMark
import Verif.Lemmas.TypingDiverge
import Verif.Lemmas.TypingSim
import Verif.Lemmas.TypingPay
import Verif.Lemmas.TypingBack
import Verif.Lemmas.TypingRun
import Verif.Spec.TypingTry
import Verif.Lemmas.TypingTry
import Verif.Props.C57
import Verif.Props.C57Tries
import Verif.Spec.Rename
import Verif.Lemmas.Rename
import Verif.Props.C58
import Verif.Suite
import Verif.ExpandSuite
import Verif.Spec.Traits
import Verif.Lemmas.Traits
import Verif.Props.C59
import Verif.Spec.Request
import Verif.Lemmas.Request
import Verif.Props.C60
import Verif.Props.C63
import Verif.Spec.Meaning
import Verif.Lemmas.MeaningCongr
import Verif.Lemmas.MeaningStep
import Verif.Props.C65
import Verif.Props.C66
import Verif.Spec.Members
import Verif.Props.C67
import Verif.Spec.InPlace
import Verif.Props.C68
import Verif.Spec.Composed
import Verif.Props.C68Exact
import Verif.Props.C69
import Verif.Props.C70
import Verif.Props.C71
import Verif.Props.C72
import Verif.Spec.Pads
import Verif.Lemmas.Pads
import Verif.Lemmas.PadsVisit
import Verif.Props.C73
import Verif.Spec.Anon
import Verif.Lemmas.Anon
import Verif.Props.C74
import Verif.Lemmas.Closure
import Verif.Props.C75
import Verif.Spec.Chains
import Verif.Lemmas.Chains
import Verif.Lemmas.ChainsVisit
import Verif.Props.C76
import Verif.Props.C77
import Verif.Spec.Named
import Verif.Lemmas.Named
import Verif.Props.C78
import Verif.Spec.Moved
import Verif.Lemmas.Moved
import Verif.Props.C79
import Verif.Props.C80
import Verif.Spec.Relabel
import Verif.Props.C81
import Verif.Spec.Foreign
import Verif.Props.C82
import Verif.Spec.Nest
import Verif.Props.C83
import Verif.Spec.NestTypes
import Verif.Props.C84
import Verif.Spec.NestPin
import Verif.Props.C85
import Verif.Audit
