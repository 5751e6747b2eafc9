import Verif.Props.Frechet
import Verif.Props.Tracking
import Verif.Props.Snapshot
import Verif.Props.Level
import Verif.Props.EddyTable
import Verif.Props.Similarity
import Verif.Props.Ellipse
import Verif.Props.EllipseShape
import Verif.Props.Gauss
import Verif.Props.Area
import Verif.Props.Window
import Verif.Props.Mask
import Verif.Props.Coords
import Verif.Props.Filter
import Verif.Props.Misc
import Verif.Props.Generator
import Verif.Props.Contour
import Verif.Props.ContourSym
import Verif.Props.Distance
import Verif.Props.Pipeline
import Verif.Props.PipelineExample
import Verif.Props.EndToEnd
import Verif.Proofs.Robust
import Verif.Proofs.Natural
import Verif.Props.Robust
import Verif.Proofs.Units
import Verif.Props.Units
import Verif.Model.Api
import Verif.Spec.Api
import Verif.Proofs.Api
import Verif.Props.Api
import Verif.Props.ApiExample
import Verif.Props.ApiMap
import Verif.Props.ApiFilter
import Verif.Model.Report
import Verif.Spec.Report
import Verif.Props.Report
import Verif.Spec.GaussFit
import Verif.Props.GaussFit
import Verif.Props.FromData
import Verif.Props.LonFirst
import Verif.Props.Negated
import Verif.Props.Origin
import Verif.Props.Continuity
import Verif.Props.Closed
import Verif.Props.Crossing
import Verif.Props.Crop
import Verif.Props.Traced
import Verif.Props.Local
import Verif.Props.Part
import Verif.Props.Defaults
import Verif.Props.Region
import Verif.Props.Flip
import Verif.Props.Times
import Verif.Props.LevelsExample
import Verif.Spec.Tracks
import Verif.Proofs.Tracks
import Verif.Props.Tracks
import Verif.Proofs.ExampleArea
import Verif.Props.Relax
import Verif.Props.RegionTracks
import Verif.Proofs.Mirror
import Verif.Props.Mirror
import Verif.Proofs.Isometry
import Verif.Props.Isometry
import Verif.Props.Missing
import Verif.Props.NegatedRun
import Verif.Props.RunsDataset
import Verif.Props.SeveralLevels
import Verif.Props.Merged
import Verif.Props.MergedRuns
import Verif.Props.Round
import Verif.Props.RoundExample
import Verif.Proofs.StarArea
import Verif.Props.Nested
import Verif.Props.Chord
import Verif.Props.Listing
import Verif.Props.Sizes
import Verif.Props.Memory
import Verif.Props.Rounding
import Verif.Spec.RoundedContours
import Verif.Proofs.Cntr.Rounded
import Verif.Props.RoundedContours
import Verif.Spec.AnyRounding
import Verif.Proofs.Cntr.AnyRounding
import Verif.Proofs.Cntr.Realise
import Verif.Proofs.Cntr.AnySim
import Verif.Props.AnyRounding
import Verif.Spec.Asked
import Verif.Props.Conserved
import Verif.Props.RelaxLevels
import Verif.Props.LostLevel
import Verif.Props.Gaps
import Verif.Props.Relink
import Verif.Props.DiscardedExample
import Verif.Props.RaisedExample
import Verif.Props.PerfectEllipse
import Verif.Props.SkippedFit
import Verif.Props.DefaultsExact
