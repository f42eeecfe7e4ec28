import Verif.Props.BitStream
import Verif.Props.Indices
import Verif.Props.MeshApi
import Verif.Props.Saving
import Verif.Props.Loading
import Verif.Props.RoundTrip
import Verif.Props.DecodedSize
import Verif.Props.Reorder
import Verif.Props.Unify
import Verif.Props.Verify
import Verif.Props.OptVertices
import Verif.Props.Precision
import Verif.Props.Edges
import Verif.Props.SaveOk
import Verif.Props.Lz77
import Verif.Props.ReorderTriangles
import Verif.Props.Triangulate
import Verif.Props.Obj
import Verif.Props.Accuracy
import Verif.Props.AccuracyRange
import Verif.Props.Normalize
import Verif.Props.NormalAngle
import Verif.Props.WideArrays
import Verif.Props.AnyBuild
import Verif.Props.F64
import Verif.Spec.SegmentCount
import Verif.Spec.FileSize
import Verif.Lemmas.SegmentCount
import Verif.Lemmas.FileSize
import Verif.Props.FileSize
import Verif.Props.FileAccuracy
import Verif.Props.ObjFile
import Verif.Spec.CustomPrecision
import Verif.Spec.Loaded
import Verif.Lemmas.Loaded
import Verif.Lemmas.WideArrays
import Verif.Lemmas.Collapse
import Verif.Props.CustomPrecision
import Verif.Props.Loaded
import Verif.Spec.Layout
import Verif.Spec.LayoutNumbers
import Verif.Lemmas.Layout
import Verif.Lemmas.LayoutUnique
import Verif.Lemmas.LayoutNumbers
import Verif.Props.Layout
import Verif.Model.CustomApi
import Verif.Spec.CustomApi
import Verif.Props.CustomApi
import Verif.Spec.BitCount
import Verif.Lemmas.BitCount
import Verif.Lemmas.Builds
import Verif.Lemmas.VertexWidth
import Verif.Props.Builds
import Verif.Props.BitCount
import Verif.Spec.EndToEnd
import Verif.Props.EndToEnd
import Verif.Model.FastTrig
import Verif.Spec.FastTrig
import Verif.Lemmas.PolyBound
import Verif.Lemmas.TrigTaylor
import Verif.Lemmas.FastTrig
import Verif.Lemmas.FastNormal
import Verif.Lemmas.FastFile
import Verif.Props.FastTrig
import Verif.Model.DoublePrecision
import Verif.Spec.DoublePrecision
import Verif.Spec.Across
import Verif.Lemmas.QuantizeAny
import Verif.Lemmas.DoubleRange
import Verif.Lemmas.DoubleOps
import Verif.Lemmas.SavedWidths
import Verif.Lemmas.Across
import Verif.Props.DoublePrecision
import Verif.Props.Across
import Verif.Props.Decimal
import Verif.Model.IndexWidth
import Verif.Spec.IndexWidth
import Verif.Lemmas.IndexWidth
import Verif.Props.IndexWidth
import Verif.Model.IndexWidthObj
import Verif.Spec.IndexWidthObj
import Verif.Lemmas.IndexWidthObj
import Verif.Props.IndexWidthObj
import Verif.Model.IndexWidthObjIo
import Verif.Lemmas.IndexWidthObjIo
import Verif.Props.IndexWidthObjIo
import Verif.Model.ObjIo
import Verif.Spec.ObjIo
import Verif.Lemmas.ObjIo
import Verif.Props.ObjIo
import Verif.Lemmas.TrisGain
import Verif.Props.Cutting
import Verif.Spec.Convert
import Verif.Lemmas.Convert
import Verif.Props.Convert
import Verif.Model.Tasks
import Verif.Props.Tasks
import Verif.Model.Analize
import Verif.Spec.Analize
import Verif.Lemmas.Analize
import Verif.Props.Analize
import Verif.Spec.Prepare
import Verif.Lemmas.Prepare
import Verif.Props.Prepare
import Verif.Props.Cover
import Verif.Props.Settled
import Verif.Props.Box
import Verif.Spec.Export
import Verif.Lemmas.Export
import Verif.Props.Export
import Verif.Spec.Polygon
import Verif.Lemmas.Polygon
import Verif.Props.Polygon
import Verif.Spec.DoubleNormals
import Verif.Lemmas.DoubleSqrt
import Verif.Lemmas.DoubleNormalReal
import Verif.Lemmas.DoubleNormal
import Verif.Lemmas.LibmWitness64
import Verif.Props.DoubleNormals
import Verif.Spec.Finer
import Verif.Lemmas.Finer
import Verif.Props.Finer
import Verif.Model.RawIndices
import Verif.Lemmas.RawIndices
import Verif.Props.RawIndices
import Verif.Model.DecodeParts
import Verif.Props.DecodeParts
import Verif.Lemmas.Depth
import Verif.Props.Depth
import Verif.Spec.ObjOptional
import Verif.Lemmas.ObjOptional
import Verif.Props.ObjOptional
import Verif.Spec.ObjAgain
import Verif.Lemmas.ObjAgain
import Verif.Props.ObjAgain
import Verif.Model.Report
import Verif.Lemmas.Report
import Verif.Props.Report
import Verif.Props.VertexDepth
import Verif.Props.CutWork
import Verif.Props.Accepted
import Verif.Props.Defaults
import Verif.Props.Drift
import Verif.Props.VertexDrift
import Verif.Props.SaveAgain
import Verif.Props.Streams
import Verif.Props.CustomDrift
import Verif.Props.FloatDrift
import Verif.Props.CorrectMath
import Verif.Props.One
import Verif.Props.Memory
import Verif.Props.Damage
import Verif.Props.DamageLoads
import Verif.Props.SegmentOrder
import Verif.Props.ObjLines
import Verif.Props.Independent
import Verif.Props.Order
import Verif.Props.Equal
import Verif.Props.NormalizeAgain
import Verif.Props.NormalizeAll
import Verif.Props.Mirror
import Verif.Props.PolyConvert
import Verif.Props.PolyStuck
import Verif.Props.Degenerate
import Verif.Props.Outside
import Verif.Props.Endless
import Verif.Props.Missing
import Verif.Props.MissingFloats
import Verif.Props.EndlessFloats
import Verif.Props.Unusable
import Verif.Props.UnusableFloats
