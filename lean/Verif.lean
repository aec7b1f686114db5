import Verif.Lemmas.Additive
import Verif.Lemmas.Along
import Verif.Lemmas.Arith
import Verif.Lemmas.AxSel
import Verif.Lemmas.Bcast
import Verif.Lemmas.BcastUp
import Verif.Lemmas.Benktander
import Verif.Lemmas.Berquist
import Verif.Lemmas.Binom
import Verif.Lemmas.Blocks
import Verif.Lemmas.Bootstrap
import Verif.Lemmas.Box
import Verif.Lemmas.BoxVal
import Verif.Lemmas.ByLabel
import Verif.Lemmas.CapeCod
import Verif.Lemmas.CaseByAge
import Verif.Lemmas.CaseFull
import Verif.Lemmas.CaseLdf
import Verif.Lemmas.CaseMean
import Verif.Lemmas.CasePaid
import Verif.Lemmas.CaseReserve
import Verif.Lemmas.CaseSpread
import Verif.Lemmas.Clark
import Verif.Lemmas.Coherent
import Verif.Lemmas.Concat
import Verif.Lemmas.Construct
import Verif.Lemmas.Contig
import Verif.Lemmas.Convert
import Verif.Lemmas.DropFunc
import Verif.Lemmas.Factor
import Verif.Lemmas.Filter
import Verif.Lemmas.Full
import Verif.Lemmas.FullRun
import Verif.Lemmas.FullTri
import Verif.Lemmas.Grain
import Verif.Lemmas.GroupArith
import Verif.Lemmas.Hat
import Verif.Lemmas.Increments
import Verif.Lemmas.Json
import Verif.Lemmas.LinkGrid
import Verif.Lemmas.Mack
import Verif.Lemmas.MackFit
import Verif.Lemmas.MackPredict
import Verif.Lemmas.MackProcess
import Verif.Lemmas.MackTotal
import Verif.Lemmas.MackTri
import Verif.Lemmas.Median
import Verif.Lemmas.Memory
import Verif.Lemmas.Methods
import Verif.Lemmas.Munich
import Verif.Lemmas.Num
import Verif.Lemmas.Olf
import Verif.Lemmas.OnGrid
import Verif.Lemmas.Part
import Verif.Lemmas.Pattern
import Verif.Lemmas.Periods
import Verif.Lemmas.Predict
import Verif.Lemmas.ProcessVariance
import Verif.Lemmas.Rank
import Verif.Lemmas.Residuals
import Verif.Lemmas.Search
import Verif.Lemmas.SetItem
import Verif.Lemmas.Sigma
import Verif.Lemmas.Slice
import Verif.Lemmas.Sparse
import Verif.Lemmas.Spearman
import Verif.Lemmas.TailFit
import Verif.Lemmas.TailStats
import Verif.Lemmas.Tri
import Verif.Lemmas.Union
import Verif.Lemmas.ValGrid
import Verif.Lemmas.Voting
import Verif.Lemmas.Weights
import Verif.Model.Additive
import Verif.Model.Agg
import Verif.Model.Arith
import Verif.Model.Berquist
import Verif.Model.Bootstrap
import Verif.Model.Calendar
import Verif.Model.CapeCod
import Verif.Model.CaseOut
import Verif.Model.Clark
import Verif.Model.ClarkScale
import Verif.Model.Concat
import Verif.Model.Constant
import Verif.Model.Construct
import Verif.Model.Convert
import Verif.Model.Correlation
import Verif.Model.Development
import Verif.Model.Diagnostics
import Verif.Model.Elementwise
import Verif.Model.FillDev
import Verif.Model.Filter
import Verif.Model.Full
import Verif.Model.Grain
import Verif.Model.GroupArith
import Verif.Model.Groupby
import Verif.Model.Hat
import Verif.Model.HeadTail
import Verif.Model.Json
import Verif.Model.Mack
import Verif.Model.MackFit
import Verif.Model.MackPredict
import Verif.Model.Memory
import Verif.Model.Methods
import Verif.Model.Munich
import Verif.Model.MunichTransform
import Verif.Model.Num
import Verif.Model.Olf
import Verif.Model.Options
import Verif.Model.Predict
import Verif.Model.ProcessVariance
import Verif.Model.Regression
import Verif.Model.Relabel
import Verif.Model.Reshape
import Verif.Model.Residuals
import Verif.Model.Search
import Verif.Model.SetItem
import Verif.Model.Sigma
import Verif.Model.Slice
import Verif.Model.Sort
import Verif.Model.Sparse
import Verif.Model.TailFit
import Verif.Model.TailStats
import Verif.Model.Tails
import Verif.Model.Trend
import Verif.Model.TrendFit
import Verif.Model.Tri
import Verif.Model.Ufunc
import Verif.Model.ValDev
import Verif.Model.Voting
import Verif.Model.Workflow
import Verif.Props.C01
import Verif.Props.C02
import Verif.Props.C03
import Verif.Props.C04
import Verif.Props.C05
import Verif.Props.C06
import Verif.Props.C07
import Verif.Props.C08
import Verif.Props.C09
import Verif.Props.C10
import Verif.Props.C11
import Verif.Props.C12
import Verif.Props.C13
import Verif.Props.C14
import Verif.Props.C15
import Verif.Props.C16
import Verif.Props.C17
import Verif.Props.C18
import Verif.Props.C19
import Verif.Props.C20
import Verif.Props.C21
import Verif.Props.C22
import Verif.Props.C23
import Verif.Props.C24
import Verif.Props.C25
import Verif.Props.C26
import Verif.Props.C27
import Verif.Props.C28
import Verif.Props.C29
import Verif.Props.C30
import Verif.Props.C31
import Verif.Props.C32
import Verif.Props.C32Grid
import Verif.Props.C33
import Verif.Props.C34
import Verif.Props.C35
import Verif.Props.C36
import Verif.Props.C37
import Verif.Props.C38
import Verif.Props.C39
import Verif.Props.C40
import Verif.Props.C41
import Verif.Props.C42
import Verif.Props.C43
import Verif.Props.C44
import Verif.Props.C45
import Verif.Props.C46
import Verif.Props.C47
import Verif.Props.C48
import Verif.Props.C48Methods
import Verif.Props.C49
import Verif.Props.C50
import Verif.Props.C51
import Verif.Props.C52
import Verif.Props.C53
import Verif.Props.C54
import Verif.Props.C55
import Verif.Props.C56
import Verif.Props.C57
import Verif.Props.C58
import Verif.Props.C59
import Verif.Props.C60
import Verif.Props.C61
import Verif.Props.C62
import Verif.Props.C63
import Verif.Props.C64
import Verif.Props.C65
import Verif.Props.C66
import Verif.Props.C67
import Verif.Props.C68
import Verif.Props.C69
import Verif.Props.C70
import Verif.Props.C71
import Verif.Props.C72
import Verif.Props.C73
import Verif.Props.C74
import Verif.Props.C75
import Verif.Props.C76
import Verif.Props.C77
import Verif.Props.C78
import Verif.Props.C79
import Verif.Props.C80
import Verif.Props.C81
import Verif.Props.C82
import Verif.Props.C83
import Verif.Props.C84
import Verif.Props.C85
import Verif.Spec.Along
import Verif.Spec.Amounts
import Verif.Spec.ByLabel
import Verif.Spec.CapeCod
import Verif.Spec.CaseOut
import Verif.Spec.Examples
import Verif.Spec.Filter
import Verif.Spec.FullTri
import Verif.Spec.Mack
import Verif.Spec.Methods
import Verif.Spec.Periods
import Verif.Spec.Standard
