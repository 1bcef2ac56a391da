import Verif.Model.MetricSystem
import Verif.Props.MetricSystem
import Verif.Props.Symbolic
import Verif.Props.Container
import Verif.Props.Aliased
import Verif.Props.Project
import Verif.Props.Attrs
import Verif.Props.MetricNames
import Verif.Props.Metric
import Verif.Props.MetricConvert
import Verif.Props.MetricCache
import Verif.Props.SymbolicPrint
import Verif.Props.MetricDimension
import Verif.Props.NumericIndex
import Verif.Props.NumericRestrict
import Verif.Props.NamedArray
import Verif.Props.Transpose
import Verif.Props.MetricValues
import Verif.Props.UnitProducts
import Verif.Props.Measured
import Verif.Props.Axis
import Verif.Props.Axes
import Verif.Props.Physical
import Verif.Props.PhysicalFunctions
import Verif.Props.Comparisons
import Verif.Props.Measurable
import Verif.Props.Config
import Verif.Props.Parameters
import Verif.Props.Defaults
import Verif.Props.PackageTables
import Verif.Props.Exceptions
import Verif.Props.Atomic
import Verif.Props.Universal
import Verif.Model.Observable
import Verif.Spec.Observable
import Verif.Lemmas.Observable
import Verif.Props.Observable
import Verif.Model.Interpolate
import Verif.Spec.Interpolate
import Verif.Lemmas.Interpolate
import Verif.Props.Rigidity
import Verif.Props.Fluence
import Verif.Props.Interpolate
import Verif.Props.InterpolateAxes
import Verif.Model.Observer
import Verif.Props.Observer
import Verif.Model.Datafile
import Verif.Spec.Datafile
import Verif.Props.Datafile
import Verif.Model.Interfaces
import Verif.Props.Interfaces
import Verif.Model.Standardize
import Verif.Props.Standardize
import Verif.Model.UnitEquivalence
import Verif.Lemmas.UnitEquivalence
import Verif.Props.UnitEquivalence
import Verif.Spec.UnitAlgebra
import Verif.Lemmas.UnitAlgebra
import Verif.Model.ObservableAlgebra
import Verif.Spec.ObservableAlgebra
import Verif.Lemmas.ObservableAlgebra
import Verif.Props.ObservableAlgebra
import Verif.Model.Subscript
import Verif.Spec.Subscript
import Verif.Props.Subscript
import Verif.Spec.Parts
import Verif.Props.Parts
import Verif.Model.Gradient
import Verif.Spec.Gradient
import Verif.Lemmas.Gradient
import Verif.Props.Gradient
import Verif.Lemmas.ConvertCast
import Verif.Model.Distribution
import Verif.Lemmas.Distribution
import Verif.Props.Distribution
import Verif.Model.Observe
import Verif.Spec.Observe
import Verif.Props.Observe
import Verif.Props.ObserveInterpolate
import Verif.Props.ObserveRadius
import Verif.Model.RunLog
import Verif.Props.RunListing
import Verif.Spec.RunLog
import Verif.Props.RunLog
import Verif.Model.Transport
import Verif.Spec.Transport
import Verif.Lemmas.Broadcast
import Verif.Props.Transport
import Verif.Model.Acceleration
import Verif.Spec.Acceleration
import Verif.Props.Acceleration
import Verif.Model.IntegralFlux
import Verif.Spec.IntegralFlux
import Verif.Props.IntegralFlux
import Verif.Model.Stars
import Verif.Model.Names
import Verif.Spec.Compound
import Verif.Spec.Names
import Verif.Lemmas.Stars
import Verif.Lemmas.UnitPower
import Verif.Lemmas.CompoundNames
import Verif.Props.Names
import Verif.Props.CompoundNames
import Verif.Model.Coordinates
import Verif.Props.Coordinates
import Verif.Model.Declared
import Verif.Spec.Declared
import Verif.Props.Declared
import Verif.Model.Create
import Verif.Spec.Create
import Verif.Props.Create
import Verif.Model.Members
import Verif.Spec.Members
import Verif.Props.Members
import Verif.Model.IndexArith
import Verif.Spec.IndexArith
import Verif.Props.IndexArith
import Verif.Model.Source
import Verif.Spec.Source
import Verif.Lemmas.Source
import Verif.Props.Source
import Verif.Model.Cli
import Verif.Spec.Cli
import Verif.Props.Cli
import Verif.Model.SystemUnits
import Verif.Spec.SystemUnits
import Verif.Lemmas.SystemUnits
import Verif.Lemmas.ListedUnits
import Verif.Props.SystemUnits
import Verif.Model.Variable
import Verif.Props.Variable
import Verif.Model.IsMeasurable
import Verif.Spec.IsMeasurable
import Verif.Props.IsMeasurable
import Verif.Model.Terms
import Verif.Spec.Terms
import Verif.Lemmas.Terms
import Verif.Props.Terms
import Verif.Props.TermUse
import Verif.Model.Paths
import Verif.Props.Paths
import Verif.Model.NamedUnit
import Verif.Spec.NamedUnit
import Verif.Lemmas.NamedUnit
import Verif.Props.NamedUnit
import Verif.Model.Reshaping
import Verif.Props.Reshaping
import Verif.Model.Collections
import Verif.Props.Collections
import Verif.Model.Helpers
import Verif.Props.Helpers
import Verif.Props.Sentinels
import Verif.Model.Equivalence
import Verif.Lemmas.Equivalence
import Verif.Props.Equivalence
import Verif.Model.SourceViews
import Verif.Props.SourceViews
import Verif.Model.DimsOther
import Verif.Props.DimsOther
import Verif.Model.QuantityObjects
import Verif.Props.QuantityObjects
import Verif.Model.Arguments
import Verif.Props.Arguments
import Verif.Model.DatasetObject
import Verif.Props.DatasetObject
import Verif.Model.Reductions
import Verif.Props.Reductions
import Verif.Model.AliasedViews
import Verif.Props.AliasedViews
import Verif.Model.TableShow
import Verif.Props.TableShow
import Verif.Model.Etc
import Verif.Props.Etc
import Verif.Model.Implement
import Verif.Props.Implement
