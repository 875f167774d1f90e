import Verif.Lemmas.ArrayModel
import Verif.Lemmas.ArrayText
import Verif.Lemmas.CrossEntropy
import Verif.Lemmas.DixitStiglitz
import Verif.Lemmas.Euler
import Verif.Lemmas.EulerConv
import Verif.Lemmas.EulerNear
import Verif.Lemmas.EulerPoints
import Verif.Lemmas.EulerRun
import Verif.Lemmas.EulerVec
import Verif.Lemmas.Exogenous
import Verif.Lemmas.ExogenousBack
import Verif.Lemmas.ExogenousEqs
import Verif.Lemmas.Expand
import Verif.Lemmas.Flat
import Verif.Lemmas.Jacobian
import Verif.Lemmas.Keep
import Verif.Lemmas.Lift
import Verif.Lemmas.Mask
import Verif.Lemmas.Newton
import Verif.Lemmas.Numeraire
import Verif.Lemmas.OneLabel
import Verif.Lemmas.Optimum
import Verif.Lemmas.ParamMask
import Verif.Lemmas.Parser
import Verif.Lemmas.Phrase
import Verif.Lemmas.Production
import Verif.Lemmas.ProductionMath
import Verif.Lemmas.Put
import Verif.Lemmas.Rebalance
import Verif.Lemmas.RecursiveSolve
import Verif.Lemmas.Reduce
import Verif.Lemmas.ReduceShape
import Verif.Lemmas.Registry
import Verif.Lemmas.Relabel
import Verif.Lemmas.RelabelModel
import Verif.Lemmas.Rename
import Verif.Lemmas.Reorder
import Verif.Lemmas.ReorderEqs
import Verif.Lemmas.ReorderSolve
import Verif.Lemmas.Results
import Verif.Lemmas.Returns
import Verif.Lemmas.RungeKutta
import Verif.Lemmas.Satellite
import Verif.Lemmas.SatelliteLift
import Verif.Lemmas.Scalarise
import Verif.Lemmas.Scalarise2
import Verif.Lemmas.Scatter
import Verif.Lemmas.Scenario
import Verif.Lemmas.SimulateKeep
import Verif.Lemmas.SimulateSolve
import Verif.Lemmas.SmoothField
import Verif.Lemmas.SymExpr
import Verif.Lemmas.SymField
import Verif.Lemmas.SymSmooth
import Verif.Lemmas.SympyTensor
import Verif.Lemmas.SympyTensor2
import Verif.Lemmas.Table
import Verif.Lemmas.Template
import Verif.Lemmas.Template2
import Verif.Lemmas.Transpose
import Verif.Lemmas.Units
import Verif.Lemmas.WrittenOut
import Verif.Model.Build
import Verif.Model.Calibrate
import Verif.Model.Calibration
import Verif.Model.CheckSimulated
import Verif.Model.CrossEntropy
import Verif.Model.Equilibrium
import Verif.Model.Euler
import Verif.Model.Expand
import Verif.Model.Flat
import Verif.Model.GenerateSam
import Verif.Model.Grid
import Verif.Model.Idata
import Verif.Model.IndexExpansion
import Verif.Model.InitialState
import Verif.Model.JaxFns
import Verif.Model.LatexNames
import Verif.Model.Listing
import Verif.Model.Lookup
import Verif.Model.Names
import Verif.Model.Newton
import Verif.Model.NumbaCode
import Verif.Model.NumbaEuler
import Verif.Model.NumbaFns
import Verif.Model.NumbaPrinter
import Verif.Model.Objects
import Verif.Model.Parsing
import Verif.Model.PartlyCompiled
import Verif.Model.PlotLines
import Verif.Model.Plots
import Verif.Model.ProdRewrite
import Verif.Model.Production
import Verif.Model.Progress
import Verif.Model.PyExpr
import Verif.Model.PytensorFns
import Verif.Model.PytensorText
import Verif.Model.Rebalance
import Verif.Model.RebalanceDerivs
import Verif.Model.RecursiveSolve
import Verif.Model.Reduce
import Verif.Model.Registry
import Verif.Model.Results
import Verif.Model.Scalarise
import Verif.Model.Scenario
import Verif.Model.SharedDicts
import Verif.Model.Simulate
import Verif.Model.SimulateSolve
import Verif.Model.StepByStep
import Verif.Model.SubInfo
import Verif.Model.Summary
import Verif.Model.SymExpr
import Verif.Model.SympyTensor
import Verif.Model.Table
import Verif.Model.TableBody
import Verif.Model.TensorJacobian
import Verif.Model.UnpackStrings
import Verif.Model.Wrappers
import Verif.Props.Alike
import Verif.Props.AlikeChecks
import Verif.Props.AlikeExample
import Verif.Props.ArrayCall
import Verif.Props.ArrayModel
import Verif.Props.BackEnds
import Verif.Props.BackEndsModel2
import Verif.Props.BackEndsTwo
import Verif.Props.BalanceSam
import Verif.Props.Build
import Verif.Props.CESLimit
import Verif.Props.Calibrate
import Verif.Props.Calibration
import Verif.Props.CheckSimulated
import Verif.Props.CrossEntropy
import Verif.Props.Decimals
import Verif.Props.DefaultFns
import Verif.Props.EquationNames
import Verif.Props.Equilibrium
import Verif.Props.Equivalent
import Verif.Props.Euler
import Verif.Props.EulerConvergence
import Verif.Props.Exogenous
import Verif.Props.ExogenousExample
import Verif.Props.ExogenousObjective
import Verif.Props.ExogenousReturns
import Verif.Props.Expand
import Verif.Props.Flat
import Verif.Props.GenerateSam
import Verif.Props.Grid
import Verif.Props.Idata
import Verif.Props.IndexExpansion
import Verif.Props.InitialState
import Verif.Props.Jacobian
import Verif.Props.JaxFns
import Verif.Props.LatexNames
import Verif.Props.Leontief2
import Verif.Props.Leontief2Optimum
import Verif.Props.Listing
import Verif.Props.Lookup
import Verif.Props.Names
import Verif.Props.Newton
import Verif.Props.NumbaCode
import Verif.Props.NumbaConvergence
import Verif.Props.NumbaEuler
import Verif.Props.NumbaFns
import Verif.Props.NumbaPrinter
import Verif.Props.NumbaSimulate
import Verif.Props.Numeraire
import Verif.Props.NumeraireArg
import Verif.Props.Objective
import Verif.Props.OneLabel
import Verif.Props.OneLabelExample
import Verif.Props.Optimum
import Verif.Props.Parsing
import Verif.Props.PartlyCompiled
import Verif.Props.PlotLines
import Verif.Props.PlotRefusals
import Verif.Props.PlotTogether
import Verif.Props.Plots
import Verif.Props.ProdRewrite
import Verif.Props.Production
import Verif.Props.ProductionArgs
import Verif.Props.ProductionValue
import Verif.Props.Progress
import Verif.Props.PytensorFns
import Verif.Props.Rebalance
import Verif.Props.RebalanceDerivs
import Verif.Props.RecursiveSolve
import Verif.Props.Reduce
import Verif.Props.Registry
import Verif.Props.Relabel
import Verif.Props.RelabelExample
import Verif.Props.Rename
import Verif.Props.RenameExample
import Verif.Props.Reorder
import Verif.Props.ReorderModels
import Verif.Props.Results
import Verif.Props.Returns
import Verif.Props.RunsPlaced
import Verif.Props.Satellite
import Verif.Props.SatelliteIndexed
import Verif.Props.Scalarise
import Verif.Props.Scenario
import Verif.Props.SharedDicts
import Verif.Props.Simulate
import Verif.Props.SimulateConverges
import Verif.Props.SimulateEuler
import Verif.Props.SimulateSolve
import Verif.Props.SmoothEuler
import Verif.Props.Stages
import Verif.Props.StagesNumba
import Verif.Props.StepByStep
import Verif.Props.SubInfo
import Verif.Props.SumRules
import Verif.Props.Summary
import Verif.Props.SympyTensor
import Verif.Props.Table
import Verif.Props.TableBody
import Verif.Props.TensorJacobian
import Verif.Props.Transpose
import Verif.Props.TransposeExample
import Verif.Props.Units
import Verif.Props.UnpackStrings
import Verif.Props.Wrappers
import Verif.Props.WrittenOut
import Verif.Props.WrittenOutExample
import Verif.Py.Basic
import Verif.Py.Dict
import Verif.Py.NDArray
import Verif.Py.Str
import Verif.Spec.ArrayModel
import Verif.Spec.ArrayText
import Verif.Spec.Calculus
import Verif.Spec.Euler
import Verif.Spec.EulerPoints
import Verif.Spec.ExprValue
import Verif.Spec.FlatFns
import Verif.Spec.Grammar
import Verif.Spec.JaxFns
import Verif.Spec.Layout
import Verif.Spec.OneLabel
import Verif.Spec.Optimum
import Verif.Spec.Production
import Verif.Spec.Put
import Verif.Spec.PyConditional
import Verif.Spec.PytensorFns
import Verif.Spec.Rebalance
import Verif.Spec.RecursiveSolve
import Verif.Spec.Reduce
import Verif.Spec.Registry
import Verif.Spec.Results
import Verif.Spec.Scalarise
import Verif.Spec.Scenario
import Verif.Spec.SimulateSolve
import Verif.Spec.SympyTensor
import Verif.Spec.Table
import Verif.Spec.Template
import Verif.Spec.Transpose
import Verif.Spec.WrittenOut
