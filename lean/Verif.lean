import Verif.Props.C01
import Verif.Props.C02
import Verif.Props.C03
import Verif.Props.C04
import Verif.Props.C05
import Verif.Props.C06
import Verif.Props.C07
import Verif.Props.C08
import Verif.Props.C09
import Verif.Props.C10
import Verif.Props.C11
import Verif.Props.C12
import Verif.Props.C13
import Verif.Props.C14
import Verif.Props.C15
import Verif.Props.C16
import Verif.Props.C17
import Verif.Props.C18
import Verif.Props.C19
import Verif.Props.C21
import Verif.Props.C22
import Verif.Props.C23
import Verif.Props.C20
import Verif.Props.C24
import Verif.Props.C25
import Verif.Props.C26
import Verif.Props.C27
import Verif.Props.C28
import Verif.Props.C29
import Verif.Props.C30
import Verif.Props.C31
import Verif.Props.C32
import Verif.Props.C33
import Verif.Props.C34
import Verif.Props.C35
import Verif.Props.C36
import Verif.Props.C37
import Verif.Props.C38
import Verif.Props.C39
import Verif.Props.C40
import Verif.Props.C35Inputs
import Verif.Props.C41
import Verif.Props.C42
import Verif.Props.C43
import Verif.Props.C44
import Verif.Props.C68
import Verif.Props.C69
import Verif.Props.C64
import Verif.Props.C67
import Verif.Props.C45
import Verif.Props.C46
import Verif.Props.C47
import Verif.Props.C48
import Verif.Props.C49
import Verif.Props.C50
import Verif.Props.C51
import Verif.Props.C52
import Verif.Props.C53
import Verif.Props.C54
import Verif.Props.C55
import Verif.Props.C70
import Verif.Props.C56
import Verif.Props.C57
import Verif.Props.C58
import Verif.Props.C59
import Verif.Props.C60
import Verif.Props.C71
import Verif.Model.Hw1f
import Verif.Proofs.Expectation
import Verif.Proofs.Hw1f
import Verif.Props.C61
import Verif.Props.C72
import Verif.Props.C73
import Verif.Props.C74
import Verif.Props.C75
import Verif.Model.Heston
import Verif.Model.HestonSim
import Verif.Proofs.QuadraticExponential
import Verif.Props.C62
import Verif.Props.C63
import Verif.Props.C76
import Verif.Props.C77
import Verif.Proofs.HestonChf
import Verif.Props.C78
import Verif.Props.C79
import Verif.Props.C80
import Verif.Model.FxSurface
import Verif.Props.C65
import Verif.Props.C81
import Verif.Props.C82
import Verif.Props.C83
import Verif.Props.C83Inputs
import Verif.Model.Utilities
import Verif.Props.C66
import Verif.Props.C84
import Verif.Model.IrQuotes
import Verif.Proofs.IrQuotes
import Verif.Props.C85
import Verif.Model.SplineCurve
import Verif.Proofs.SplineCurve
import Verif.Spec.CurveObject
import Verif.Proofs.CurveObject
import Verif.Props.C86
import Verif.Model.PillarTable
import Verif.Props.C87
import Verif.Model.HwSetup
import Verif.Proofs.HwSetup
import Verif.Props.C88
import Verif.Model.OptionletPricing
import Verif.Proofs.OptionletPricing
import Verif.Props.C89
import Verif.Model.CosMethod
import Verif.Proofs.CosMethod
import Verif.Props.C90
import Verif.Model.ExposureGrid
import Verif.Props.C91
import Verif.Model.NormalVolApprox
import Verif.Proofs.Taylor
import Verif.Props.C92
import Verif.Props.C85Numbers
import Verif.Model.OptionletBoot
import Verif.Props.C93
import Verif.Model.FxConstruct
import Verif.Props.C94
import Verif.Props.C94Late
import Verif.Model.HwScript
import Verif.Proofs.GaussianSum
import Verif.Props.C95
import Verif.Props.C96
import Verif.Model.GbmScripts
import Verif.Props.C97
import Verif.Model.LegTable
import Verif.Props.C98
import Verif.Model.FixingObjects
import Verif.Props.C99
import Verif.Model.EntryPoints
import Verif.Props.C100
import Verif.Model.DisplayNames
import Verif.Props.C19Names
import Verif.Proofs.ShiftedInversion
import Verif.Proofs.GilPelaez
import Verif.Props.C79Law
import Verif.Proofs.CosineSeries
import Verif.Props.C77Law
import Verif.Props.C79Instance
import Verif.Model.Plots
import Verif.Props.C101
import Verif.Props.C101Smile
import Verif.Props.C102
import Verif.Proofs.LevyExponent
import Verif.Proofs.HestonStrip
import Verif.Proofs.HestonLaw
import Verif.Proofs.HestonDecay
import Verif.Props.C79Existence
import Verif.Props.C36February
import Verif.Spec.Bounds
import Verif.Props.C70Bounds
import Verif.Props.C93Bounds
import Verif.Tests.Schedule
import Verif.Tests.DayCount
import Verif.Tests.Tenor
import Verif.Tests.Columns
import Verif.Tests.Fixings
import Verif.Props.C29Bracket
import Verif.Props.C51Bracket
import Verif.Props.C74Bracket
import Verif.Model.CashTable
import Verif.Props.C103
import Verif.Model.ForwardCurve
import Verif.Props.C60Curve
import Verif.Model.Black76Calls
import Verif.Props.C104
import Verif.Model.GkCalls
import Verif.Props.C105
import Verif.Model.SabrCalls
import Verif.Props.C106
import Verif.Proofs.PoissonPricing
import Verif.Props.C79Aliasing
import Verif.Proofs.QeSpot
import Verif.Proofs.QePath
import Verif.Props.C107
import Verif.Proofs.NormalVol
import Verif.Props.C92Bound
import Verif.Props.C77Range
import Verif.Model.LegCurve
import Verif.Spec.LegCurve
import Verif.Props.C108
import Verif.Model.SwapCurveObject
import Verif.Spec.SwapCurve
import Verif.Props.C109
import Verif.Model.NanCurve
import Verif.Props.C86Nan
import Verif.Props.C110
import Verif.Props.C110Futures
import Verif.Props.C109Floater
import Verif.Props.C110Spline
import Verif.Props.C89Swap
