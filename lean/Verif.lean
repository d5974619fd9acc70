import Verif.Py.Basic
import Verif.Py.Seq
import Verif.Py.Chars
import Verif.Iterables.Model
import Verif.Iterables.Lemmas
import Verif.Iterables.Props
import Verif.Aliased.Model
import Verif.Aliased.Lemmas
import Verif.Aliased.Props
import Verif.Aliased.Sets
import Verif.Aliased.SetProps
import Verif.Aliased.Operators
import Verif.Aliased.OperatorProps
import Verif.Symbolic.Model
import Verif.Symbolic.Parser
import Verif.Symbolic.Lemmas
import Verif.Symbolic.ParserLemmas
import Verif.Symbolic.Termination
import Verif.Symbolic.Spec
import Verif.Symbolic.Render
import Verif.Symbolic.RenderParse
import Verif.Symbolic.Semantics
import Verif.Symbolic.Strict
import Verif.Symbolic.Props
import Verif.Symbolic.FloatProps
import Verif.Symbolic.PowerProps
import Verif.Metric.Tables
import Verif.Metric.Units
import Verif.Metric.UnitsLemmas
import Verif.Metric.Lookup
import Verif.Metric.Convert
import Verif.Metric.ConvertLemmas
import Verif.Metric.Conversions
import Verif.Metric.Props
import Verif.Metric.Quantities
import Verif.Metric.Canonical
import Verif.Metric.Dims
import Verif.Metric.Actual
import Verif.Metric.Magnitudes
import Verif.Metric.ExprConvert
import Verif.Metric.DimProps
import Verif.Metric.ConversionProps
import Verif.Metric.UnitProps
import Verif.Metadata.Model
import Verif.Metadata.Props
import Verif.Metadata.Factory
import Verif.Metadata.FactoryProps
import Verif.Measurable.Model
import Verif.Measurable.Props
import Verif.Numerical.Model
import Verif.Numerical.Lemmas
import Verif.Numerical.Props
import Verif.Arrays.Model
import Verif.Arrays.Spec
import Verif.Arrays.Lemmas
import Verif.Arrays.Props
import Verif.Arrays.AxisProps
import Verif.Arrays.ProductProps
import Verif.Arrays.MismatchProps
import Verif.Arrays.EllipsisProps
import Verif.Arrays.ShapeProps
import Verif.Arrays.Equality
import Verif.Arrays.EqualityProps
import Verif.Runtime.Model
import Verif.Runtime.Props
import Verif.Runtime.OrderProps
import Verif.Runtime.EvalProps
import Verif.Runtime.InterfaceProps
import Verif.Eprem.Model
import Verif.Eprem.Props
import Verif.Eprem.Observer
import Verif.Eprem.ObserverProps
import Verif.Spelling.Model
import Verif.Spelling.Props
import Verif.Observing.Model
import Verif.Observing.Props
import Verif.Observing.ComposeProps
import Verif.Observing.RequestProps
import Verif.Files.Model
import Verif.Files.Props
import Verif.Files.Source
import Verif.Files.SourceProps
import Verif.Metric.GaussProps
import Verif.Metric.ProductProps
import Verif.Metric.Compare
import Verif.Metric.CompareProps
import Verif.Fundamental.Model
import Verif.Fundamental.Props
import Verif.Fundamental.Species
import Verif.Fundamental.SpeciesProps
import Verif.Operational.Model
import Verif.Operational.Props
import Verif.Physics.Model
import Verif.Physics.FieldProps
import Verif.Physics.SumProps
import Verif.Physics.FluenceProps
import Verif.Physics.InvarianceProps
import Verif.Defaults.Tables
import Verif.Defaults.Model
import Verif.Defaults.ConstProps
import Verif.Defaults.LayoutProps
import Verif.Defaults.ShippedProps
import Verif.Defaults.LineProps
import Verif.Defaults.JsonProps
import Verif.Defaults.DefaultProps
import Verif.Defaults.AliasProps
import Verif.Defaults.TableProps
import Verif.Defaults.Compare
import Verif.Axes.Props
import Verif.Axes.ObserveProps
import Verif.Axes.Reference
import Verif.Axes.ReferenceProps
import Verif.Axes.Whole
import Verif.Axes.WholeProps
import Verif.Axes.Stored
import Verif.Axes.StoredProps
import Verif.Shapes.Props
import Verif.Shapes.SpeciesProps
import Verif.Shapes.IntegralProps
import Verif.Shapes.ScaleProps
import Verif.Shapes.MassProps
import Verif.Shapes.DeclaredProps
import Verif.Shapes.ReferenceProps
import Verif.Shapes.SingleProps
import Verif.Shapes.AmountProps
import Verif.Systems.Model
import Verif.Systems.Spec
import Verif.Systems.Lemmas
import Verif.Systems.NormProps
import Verif.Systems.IdemProps
import Verif.Systems.SearchProps
import Verif.Systems.ConsistencyProps
import Verif.Systems.QuantityProps
import Verif.Systems.Request
import Verif.Systems.RequestProps
import Verif.Systems.Cache
import Verif.Systems.CacheProps
import Verif.Aliased.Views
import Verif.Aliased.ViewProps
import Verif.Quantities.Model
import Verif.Quantities.Props
import Verif.Quantities.Arith
import Verif.Quantities.ArithProps
import Verif.Results.Model
import Verif.Results.Props
import Verif.Ufunc.Model
import Verif.Ufunc.Props
import Verif.Datasets.Model
import Verif.Datasets.Props
import Verif.Terms.Model
import Verif.Terms.Props
import Verif.Layout.Parse
import Verif.Layout.Props
import Verif.Layout.ArithProps
import Verif.Subscripts.Model
import Verif.Subscripts.Spec
import Verif.Subscripts.Lemmas
import Verif.Subscripts.Props
import Verif.Reductions.Model
import Verif.Reductions.Props
import Verif.Reductions.Checks
import Verif.Reductions.Named
import Verif.Reductions.Names
import Verif.Helpers.Model
import Verif.Helpers.Props
import Verif.Aliased.GroupProps
import Verif.Observing.WithheldProps
import Verif.Terms.HashProps
import Verif.Measurable.IsProps
import Verif.Display.Model
import Verif.Display.Spec
import Verif.Display.Props
import Verif.Dispatch.Model
import Verif.Dispatch.Props
import Verif.Defaults.ConfigProps
import Verif.Iterables.Equality
import Verif.Physics.PositionProps
import Verif.Shapes.EnergyUnitProps
import Verif.Numerical.UnitProps
import Verif.Numerical.NearestProps
import Verif.Axes.UnitProps
import Verif.Axes.SumProps
import Verif.Axes.TimesProps
import Verif.Axes.ShellProps
import Verif.Axes.OrderProps
import Verif.Physics.LawProps
import Verif.Layout.MeaningProps
import Verif.Observing.LocalProps
import Verif.Symbolic.NameProps
import Verif.Runtime.FrameProps
import Verif.Numerical.LocalProps
import Verif.Iterables.TableProps
import Verif.Metric.DeclareProps
import Verif.Symbolic.RenameProps
import Verif.Numerical.FartherProps
import Verif.Spelling.MoreProps
import Verif.Shapes.Depend
import Verif.Shapes.DependProps
import Verif.Subscripts.NestedProps
import Verif.Physics.MixtureProps
import Verif.Aliased.OrderProps
import Verif.Runtime.ListProps
import Verif.Helpers.BoundProps
import Verif.Helpers.RestrictProps
