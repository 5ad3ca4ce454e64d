import Verif.Cache.Props
import Verif.Stats.Props
import Verif.Stats.LevelSpec
import Verif.Stats.Mills
import Verif.Stats.SensitivityProps
import Verif.Stats.Exact
import Verif.CacheKey.Props
import Verif.PerInstance.Props
import Verif.UpperLimit.Props
import Verif.Chi2.Props
import Verif.Chi2.WindowProps
import Verif.Config.Props
import Verif.Override.Props
import Verif.Optimizer.Props
import Verif.Combiner.Props
import Verif.Combiner.RenameProps
import Verif.Registry.Props
import Verif.Helpers.Props
import Verif.Synth.Props
import Verif.ThirdMoment.Props
import Verif.Backend.Props
import Verif.Backend.Asimov
import Verif.Interface.Props
import Verif.Interface.Fits
import Verif.Interface.Asimov
import Verif.Interface.RatioProps
import Verif.Interface.RatioFits
import Verif.Expectation.Props
import Verif.Logger.Props
import Verif.Logger.Format
import Verif.Web.Props
import Verif.Contour.Props
import Verif.Contour.RayProps
import Verif.Contour.BasinProps
import Verif.Contour.ChainProps
import Verif.Contour.IndexProps
import Verif.Contour.FindProps
import Verif.Contour.WhitenProps
import Verif.Contour.MoreProps
import Verif.Hypotest.Props
import Verif.Hypotest.ModelProps
import Verif.Hypotest.Gaussian
import Verif.Hypotest.BoundsProps
import Verif.Hypotest.ToysProps
import Verif.Hypotest.Bisection
import Verif.Hypotest.Limit
import Verif.Hypotest.LimitSpec
import Verif.Hypotest.LimitLemmas
import Verif.Hypotest.LimitProps
import Verif.Hypotest.Within
import Verif.Hypotest.LimitGaussian
import Verif.Hypotest.SigmaProps
import Verif.Chain.Model
import Verif.Chain.Spec
import Verif.Chain.Single
import Verif.Chain.Lemmas
import Verif.Chain.Fits
import Verif.Chain.GaussianProps
import Verif.Chain.CountingProps
import Verif.Chain.ProfileSpec
import Verif.Chain.Existence
import Verif.Chain.Tame
import Verif.Chain.Profile
import Verif.Chain.ProfileProps
import Verif.Chain.Exists
import Verif.Chain.LimitProps
import Verif.Joint.Model
import Verif.Joint.Spec
import Verif.Joint.Lemmas
import Verif.Joint.Pieces
import Verif.Joint.Members
import Verif.Joint.Witness
import Verif.Joint.Props
import Verif.Joint.LimitProps
import Verif.Joint.Gaussian
import Verif.Joint.GaussianProps
import Verif.Dist.Model
import Verif.Dist.Spec
import Verif.Dist.Props
import Verif.Tools.Model
import Verif.Tools.Spec
import Verif.Tools.Props
import Verif.Minimisers.Model
import Verif.Minimisers.Spec
import Verif.Minimisers.Lemmas
import Verif.Minimisers.Props
import Verif.PerInstance.Race
import Verif.PerInstance.RaceProps
import Verif.Stats.Left
import Verif.Synth.Names
import Verif.ThirdMoment.Reduces
import Verif.Uncorrelated.Spec
import Verif.Uncorrelated.Lemmas
import Verif.Uncorrelated.Fits
import Verif.Uncorrelated.Tests
import Verif.Uncorrelated.Props
import Verif.Uncorrelated.Order
import Verif.Uncorrelated.OrderProps
import Verif.Uncorrelated.ScaleProps
import Verif.Uncorrelated.LimitProps
import Verif.Uncorrelated.InformationSpec
import Verif.Uncorrelated.Information
import Verif.Uncorrelated.InformationProps
import Verif.Uncorrelated.Combined
import Verif.Uncorrelated.CombinedProps
import Verif.Uncorrelated.Unique
import Verif.Uncorrelated.UniqueProps
import Verif.Uncorrelated.CombinedLimitProps
import Verif.Uncorrelated.SubsetProps
import Verif.Linear.Spec
import Verif.Linear.Lemmas
import Verif.Linear.Asimov
import Verif.Linear.Levels
import Verif.Linear.Props
import Verif.Linear.LimitProps
import Verif.Linear.Combined
import Verif.Linear.CombinedProps
import Verif.Region.Model
import Verif.Region.Spec
import Verif.Region.Lemmas
import Verif.Region.Props
import Verif.Region.Exists
import Verif.Region.ConstraintProps
import Verif.Region.Radial
import Verif.Region.RadialProps
import Verif.Region.Examples
import Verif.Region.GradientProps
import Verif.Region.GradientExample
import Verif.Chain.BinnedLimitProps
import Verif.Reach.Props
import Verif.Reach.CombinedProps
import Verif.CrossSection.Props
import Verif.Toys.Props
import Verif.Toys.ExpectedProps
import Verif.Toys.GaussianProps
import Verif.Toys.ManyProps
import Verif.Toys.ManyBins
import Verif.Uncertain.CompareProps
import Verif.Memo.JointProps
import Verif.MultiParam.Props
import Verif.Memo.KeysProps
import Verif.Py.NormalStrict
import Verif.Toys.Coverage
import Verif.Toys.CoverageProps
import Verif.Interval.Model
import Verif.Interval.Spec
import Verif.Interval.Lemmas
import Verif.Interval.Gaussian
import Verif.Interval.Props
import Verif.Interval.Reads
import Verif.Interval.SoundProps
import Verif.Interval.Binned
import Verif.Interval.BinnedProps
import Verif.Interval.JointProps
import Verif.Nuisance.Model
import Verif.Nuisance.Spec
import Verif.Nuisance.Lemmas
import Verif.Nuisance.Reads
import Verif.Nuisance.Props
import Verif.Nuisance.Poi
import Verif.Nuisance.PoiProps
import Verif.Decorate.Model
import Verif.Decorate.Spec
import Verif.Decorate.Props
import Verif.Memo.Session
import Verif.Memo.SessionProps
import Verif.Joint.Coverage
import Verif.Joint.CoverageProps
import Verif.Interval.JointCoverage
import Verif.Hypotest.ZeroStart
import Verif.Joint.SensitivityProps
