import Verif.Props.Utils
import Verif.Lemmas.Requests
import Verif.Lemmas.Session
import Verif.Lemmas.Own
import Verif.Lemmas.Ready
import Verif.Spec.Poly
import Verif.Lemmas.Represent
import Verif.Props.Represent
import Verif.Props.Charts
import Verif.Model.Calc
import Verif.Lemmas.Trace
import Verif.Lemmas.Start
import Verif.Model.Curvature
import Verif.Props.Calc
import Verif.Props.Calls
import Verif.Props.Files
import Verif.Props.Formula
import Verif.Props.Mixed
import Verif.Lemmas.Curvature
import Verif.Props.Curvature
import Verif.Props.Upper
import Verif.Lemmas.AnyGeodesic
import Verif.Props.UpperGeodesic
import Verif.Props.UpperLeibniz
import Verif.Props.Norm
import Verif.Spec.Covariant
import Verif.Lemmas.Covariant
import Verif.Lemmas.Leibniz
import Verif.Props.Covariant
import Verif.Spec.Registry
import Verif.Spec.Line
import Verif.Lemmas.Registry
import Verif.Lemmas.Spares
import Verif.Lemmas.Passes
import Verif.Lemmas.Closed
import Verif.Lemmas.Orderly
import Verif.Lemmas.Tidiness
import Verif.Lemmas.Histories
import Verif.Lemmas.Counting
import Verif.Props.Registry
import Verif.Model.Lexer
import Verif.Model.Parser
import Verif.Model.Interpreter
import Verif.Spec.Syntax
import Verif.Spec.Grammar
import Verif.Spec.Written
import Verif.Lemmas.Lexer
import Verif.Lemmas.Parser
import Verif.Lemmas.Terminates
import Verif.Lemmas.Grammar
import Verif.Lemmas.Interpreter
import Verif.Lemmas.Written
import Verif.Props.Parser
import Verif.Model.Export
import Verif.Spec.Exported
import Verif.Spec.Codes
import Verif.Lemmas.Says
import Verif.Lemmas.Exported
import Verif.Lemmas.Imported
import Verif.Props.Export
import Verif.Props.ExportLimits
import Verif.Lemmas.Rebuilt
import Verif.Lemmas.ImportedAll
import Verif.Props.ExportAll
import Verif.Model.Options
import Verif.Model.Display
import Verif.Spec.Display
import Verif.Lemmas.Display
import Verif.Props.Display
import Verif.Model.Geodesic
import Verif.Spec.Geodesic
import Verif.Spec.Jets
import Verif.Lemmas.EulerLagrange
import Verif.Lemmas.Geodesic
import Verif.Lemmas.CurveChart
import Verif.Lemmas.NewLagrangian
import Verif.Props.Geodesic
import Verif.Spec.Moved
import Verif.Lemmas.NewChristoffel
import Verif.Lemmas.Single
import Verif.Lemmas.Stale
import Verif.Lemmas.First
import Verif.Lemmas.Lowered
import Verif.Spec.Shear
import Verif.Props.NewChristoffel
import Verif.Lemmas.Covariance
import Verif.Lemmas.NewCurvature
import Verif.Props.NewCurvature
import Verif.Props.CurvatureLimits
import Verif.Props.ChartExamples
import Verif.Model.Simplify
import Verif.Props.Simplify
import Verif.Props.Straight
import Verif.Model.Labels
import Verif.Lemmas.Names
import Verif.Props.Show
import Verif.Props.Scalars
import Verif.Props.Settings
import Verif.Props.Labels
import Verif.Props.Refused
import Verif.Spec.Cache
import Verif.Lemmas.Persists
import Verif.Lemmas.Lasting
import Verif.Lemmas.Attributes
import Verif.Props.Attributes
import Verif.Model.Replace
import Verif.Spec.Replace
import Verif.Lemmas.Replace
import Verif.Spec.PlaneCurves
import Verif.Props.Replace
import Verif.Props.Roles
import Verif.Lemmas.AnyIdentities
import Verif.Lemmas.Identities
import Verif.Lemmas.IdentitySessions
import Verif.Lemmas.Leaf
import Verif.Props.Identities
import Verif.Props.UpperIdentities
import Verif.Lemmas.Conserved
import Verif.Props.Conserved
import Verif.Lemmas.Inactive
import Verif.Props.Inactive
import Verif.Spec.Declared
import Verif.Spec.Scaled
import Verif.Lemmas.Constant
import Verif.Lemmas.LowDimension
import Verif.Props.Constant
import Verif.Props.LowDimension
import Verif.Model.Sharing
import Verif.Props.Sharing
import Verif.Props.Cyclic
import Verif.Props.Reparametrised
import Verif.Props.Messages
import Verif.Props.InfoText
import Verif.Props.SettingsShown
import Verif.Props.Conformal
import Verif.Props.Vacuum
import Verif.Props.Volume
import Verif.Props.Killing
import Verif.Props.Curl
import Verif.Model.Live
import Verif.Props.Cleared
import Verif.Props.Live
import Verif.Props.Deleted
import Verif.Model.RuleLists
import Verif.Props.RuleLists
import Verif.Props.NormRate
import Verif.Props.Laplace
import Verif.Props.Triple
import Verif.Spec.Algebra
import Verif.Lemmas.Algebra
import Verif.Lemmas.Differentiated
import Verif.Props.Algebra
import Verif.Props.Differentiated
import Verif.Spec.Product
import Verif.Lemmas.Product
import Verif.Props.Product
import Verif.Spec.ProductMotion
import Verif.Props.ProductMotion
import Verif.Spec.Default
import Verif.Props.Default
import Verif.Model.Symbols
import Verif.Props.Symbols
import Verif.Lemmas.Shapes
import Verif.Lemmas.ShapeCalls
import Verif.Lemmas.ShapeHistory
import Verif.Props.Shapes
import Verif.Spec.Entries
import Verif.Lemmas.Entries
import Verif.Props.Entries
import Verif.Lemmas.EntriesAll
import Verif.Props.EntriesAll
import Verif.Props.EntryRules
import Verif.Props.EntryRulesOne
