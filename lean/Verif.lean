import Verif.Model.Parallel
import Verif.Model.LgText
import Verif.Model.LgJson
import Verif.Model.XgLoad
import Verif.Model.SkLoad
import Verif.Model.Mat
import Verif.Proofs.F64Round
import Verif.Proofs.Convert
import Verif.Proofs.Adequate
import Verif.Props.Bitset
import Verif.Props.Split
import Verif.Props.LgTree
import Verif.Props.Predict
import Verif.Props.LeafLayout
import Verif.Props.Batch
import Verif.Props.XgTree
import Verif.Props.SkTree
import Verif.Props.JsonTree
import Verif.Props.Params
import Verif.Props.LgLoad
import Verif.Props.XgFile
import Verif.Props.Mat
import Verif.Props.Pickle
import Verif.Props.SkModel
import Verif.Props.Transform
import Verif.Props.TransformObject
import Verif.Props.SkAccept
import Verif.Props.Robust
import Verif.Props.Evaluate
import Verif.Props.JsonModel
import Verif.Props.JsonDoc
import Verif.Props.Crash
import Verif.Props.SkCrash
import Verif.Props.Compare
import Verif.Props.Relevant
import Verif.Props.SparseRows
import Verif.Props.Calls
import Verif.Props.Alias
import Verif.Props.Monotone
import Verif.Props.Names
import Verif.Props.LeafFiles
import Verif.Props.Accuracy
import Verif.Proofs.IEEE
import Verif.Props.Decimal
import Verif.Props.JsonText
import Verif.Props.DenseSize
import Verif.Spec.Range
import Verif.Props.Range
import Verif.Model.Write
import Verif.Spec.Writing
import Verif.Proofs.Write
import Verif.Props.Write
import Verif.Spec.Probability
import Verif.Proofs.Logistic
import Verif.Proofs.SoftmaxAccuracy
import Verif.Props.Classify
import Verif.Proofs.SumFinite
import Verif.Props.Probability
import Verif.Model.Bufio
import Verif.Spec.Streaming
import Verif.Proofs.Bufio
import Verif.Proofs.BufioText
import Verif.Proofs.BufioBytes
import Verif.Proofs.BufioXg
import Verif.Proofs.BufioPickle
import Verif.Props.MatTotal
import Verif.Props.Streaming
import Verif.Spec.Truncation
import Verif.Proofs.Truncation
import Verif.Proofs.TruncationText
import Verif.Props.Truncation
import Verif.Spec.CsrShape
import Verif.Props.CsrShape
import Verif.Spec.TextLayout
import Verif.Proofs.TextLayout
import Verif.Props.TextLayout
import Verif.Props.MatLayout
import Verif.Props.Bytes
import Verif.Props.Bom
import Verif.Props.Stream
import Verif.Props.JsonBytes
import Verif.Props.Machines
import Verif.Proofs.Mirror
import Verif.Props.AliasBatch
import Verif.Props.FeatureCount
import Verif.Spec.Prefix
import Verif.Props.Prefix
import Verif.Props.RowSelection
import Verif.Spec.Cells
import Verif.Props.Cells
import Verif.Props.JsonKinds
import Verif.Spec.Single
import Verif.Props.Single
import Verif.Spec.SameLeaves
import Verif.Props.SameLeaves
import Verif.Props.RawView
import Verif.Props.Classes
import Verif.Props.Columns
import Verif.Props.NoRows
import Verif.Props.RawLoad
import Verif.Props.Dart
import Verif.Props.TreeOrder
import Verif.Props.Visits
import Verif.Props.ZeroTrees
import Verif.Props.Decide
import Verif.Spec.Unsupported
import Verif.Props.Unsupported
import Verif.Props.Memory
import Verif.Spec.Obtain
import Verif.Props.Obtain
import Verif.Props.Cyclic
import Verif.Spec.XgKinds
import Verif.Props.XgKinds
import Verif.Spec.Opposite
import Verif.Props.Opposite
import Verif.Spec.Renumber
import Verif.Props.Renumber
import Verif.Spec.Unused
import Verif.Props.Unused
import Verif.Spec.NodeOrder
import Verif.Proofs.NodeOrder
import Verif.Props.NodeOrder
import Verif.Spec.Scale
import Verif.Props.Scale
import Verif.Spec.Formats
import Verif.Props.Formats
import Verif.Spec.Prune
import Verif.Props.Prune
import Verif.Spec.Meaning
import Verif.Props.Meaning
import Verif.Spec.Lookup
import Verif.Props.Lookup
import Verif.Spec.Hex
import Verif.Proofs.Hex
import Verif.Props.Hex
import Verif.Spec.Units
import Verif.Props.Units
import Verif.Spec.LeafOrder
import Verif.Proofs.ConvertOrder
import Verif.Props.LeafOrder
import Verif.Spec.SameSplits
import Verif.Props.SameSplits
import Verif.Proofs.Underscore
import Verif.Proofs.Accept
import Verif.Props.Notation
import Verif.Props.Written
import Verif.Props.WrittenSk
