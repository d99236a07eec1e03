import Verif.PermLemmas
import Verif.LabelLUT.Props
import Verif.GeoMap.Planar2
import Verif.GeoMap.Props2
import Verif.GeoMap.AngleProps
import Verif.Polygon.Props
import Verif.Iter.Props
import Verif.CellImage.Props
import Verif.DSL.Props
import Verif.Oversampling.Props
import Verif.Sigma.Props
import Verif.Utils.Props
import Verif.Hooks.Props
import Verif.Protection.Props
import Verif.GeoMap.AreaOrder
import Verif.Pyramid.Props
import Verif.Scan.Props
import Verif.Simplify.Props
import Verif.NodeIndex.Props
import Verif.SetPosition.Props
import Verif.Crack.Props
import Verif.Hull.Props
import Verif.LabelImage.Examples
import Verif.GeoMap.RenameProps
import Verif.Copy.Scan
import Verif.PointIter.Props
import Verif.FaceStats.Samples
import Verif.Locate.Props
import Verif.Locate.ImageProps
import Verif.Query.Example
import Verif.Euler.Props
import Verif.Check.Detect
import Verif.EdgeCache.Props
import Verif.Sigma.Outside
import Verif.Pickle.Thin
import Verif.Outer.Props
import Verif.Refuse.Props
import Verif.DartPos.Props
import Verif.Eventually.Seam
import Verif.Resample.Props
import Verif.Resample.GaussProps
import Verif.Resample.SplineProps
import Verif.PyPoly.Props
import Verif.FourEight.Examples
import Verif.FourEight.ConfigProps
import Verif.FourEight.DartProps
import Verif.FourEight.LabelProps
import Verif.FourEight.StartProps
import Verif.FourEight.StartReturns
import Verif.FourEight.HistProps
import Verif.FourEight.PyrProps
import Verif.FourEight.PyrLevels
import Verif.FourEight.StatExamples
import Verif.FourEight.MergedProps
import Verif.FourEight.EdgeStatExamples
import Verif.FourEight.ChangesProps
import Verif.FourEight.AutoProps
import Verif.FourEight.AutoStays
import Verif.FourEight.PyrEffect
import Verif.Parallel.Props
import Verif.Parallel.Fork
import Verif.Midcrack.Threshold
