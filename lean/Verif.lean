import Verif.Base.Dict
import Verif.TemporalLoops.Props
import Verif.Lpf.Props
import Verif.Lpf.CountProps
import Verif.Multiperm.Props
import Verif.Alloc.Props
import Verif.Engine.Props
import Verif.TemporalMapping.Props
import Verif.LayerNode.Props
import Verif.Decouple.Props
import Verif.SpatialInternal.Props
import Verif.SpatialMapping.Props
import Verif.SpatialGen.Positive
import Verif.SpatialGen.Props
import Verif.SpatialGen.Total
import Verif.SpatialGen.Roomy
import Verif.Diagonal.Props
import Verif.Conversion.Props
import Verif.Cme.Props
import Verif.Stages.Props
import Verif.Balance.Props
import Verif.Window.Props
import Verif.Energy.Props
import Verif.Buffer.Props
import Verif.Latency.Props
import Verif.Latency.Loading
import Verif.Latency.Borrow
import Verif.Base.Topo
import Verif.Salsa.Props
import Verif.Hierarchy.Props
import Verif.Workload.Props
import Verif.Ordering.Props
import Verif.Imc.Props
import Verif.Ports.Props
import Verif.Links.Props
import Verif.Locality.Props
import Verif.Equation.Props
import Verif.LayerBuild.Props
import Verif.Onnx.Props
import Verif.OnnxModel.Props
import Verif.MapInfo.Props
import Verif.Transfer.Props
import Verif.Print.Props
import Verif.Save.Props
import Verif.Pipeline.Props
import Verif.Keywords.Props
import Verif.HwOpt.Props
import Verif.HwEq.Props
import Verif.Cacti.Props
import Verif.CactiImc.Props
import Verif.Float.Props
import Verif.Hints.Props
import Verif.Json.Props
import Verif.Files.MapProps
import Verif.Plot.Props
import Verif.CactiText.Props
import Verif.Roles.Props
import Verif.Evaluate.FitExample
import Verif.Search.Example
import Verif.Conversion.Kept
import Verif.Whole.Model
import Verif.Whole.Spec
import Verif.Whole.Acc
import Verif.Whole.Map
import Verif.Whole.Props
import Verif.Whole.Fit
import Verif.Whole.Example
import Verif.Pipeline.Errors
import Verif.Whole.Energy
import Verif.Net.Model
import Verif.Net.Spec
import Verif.Net.Gen
import Verif.Net.Props
import Verif.Net.Example
import Verif.Call.Model
import Verif.Call.Spec
import Verif.Call.Layer
import Verif.Call.Acc
import Verif.Call.Props
import Verif.Call.Example
import Verif.OnnxCall.Model
import Verif.OnnxCall.Spec
import Verif.OnnxCall.Layer
import Verif.OnnxCall.Props
import Verif.OnnxCall.Example
import Verif.Compare.Layers
import Verif.Compare.Files
import Verif.Compare.Example
import Verif.Compare.Orders
import Verif.Compare.More
import Verif.Compare.Limit
import Verif.Energy.Cheaper
import Verif.Evaluate.Kin
import Verif.Compare.Prices
import Verif.Compare.Cases
import Verif.Ordering.Follow
import Verif.Whole.Order
import Verif.Whole.OrderExample
import Verif.Compare.Ordered
import Verif.Anneal.Model
import Verif.Anneal.Lemmas
import Verif.Anneal.Props
import Verif.Anneal.Example
import Verif.Reuse.Model
import Verif.Reuse.Spec
import Verif.Reuse.Alone
import Verif.Reuse.Prune
import Verif.Reuse.Stored
import Verif.Reuse.Props
import Verif.Reuse.Example
import Verif.ImcCall.Model
import Verif.ImcCall.Wrap
import Verif.ImcCall.Spec
import Verif.ImcCall.Answer
import Verif.ImcCall.Array
import Verif.ImcCall.Props
import Verif.ImcCall.Example
import Verif.Shipped.Docs
import Verif.Shipped.Check
import Verif.Shipped.Layers
import Verif.Shipped.Props
import Verif.Shipped.Example
import Verif.Shipped.Onnx
import Verif.Shipped.OnnxDocs
import Verif.Shipped.OnnxExample
import Verif.Reuse.Room
import Verif.LocalCall.Model
import Verif.LocalCall.Spec
import Verif.LocalCall.Layers
import Verif.LocalCall.Props
import Verif.LocalCall.Example
import Verif.LocalCall.Room
import Verif.LocalCall.RoomExample
import Verif.ImcFiles.Model
import Verif.ImcFiles.Spec
import Verif.ImcFiles.Props
import Verif.ImcFiles.Docs
import Verif.ImcFiles.Example
import Verif.Followed.Props
import Verif.Followed.Calls
import Verif.Followed.Imc
import Verif.Followed.Example
import Verif.Followed.Onnx
import Verif.Foreign.Props
import Verif.Foreign.Example
import Verif.Foreign.Onnx
import Verif.Foreign.OnnxExample
import Verif.AnnealFiles.Model
import Verif.AnnealFiles.Props
import Verif.AnnealFiles.Ignored
import Verif.AnnealFiles.Example
import Verif.Anneal.Outcome
import Verif.Anneal.Exhaustive
import Verif.Anneal.Free
import Verif.Anneal.Ordered
import Verif.Anneal.OutcomeExample
import Verif.AnnealFiles.Outcome
import Verif.AnnealFiles.Exhaustive
import Verif.Reuse.RoomAll
import Verif.Foreign.Local
import Verif.Foreign.LocalExample
import Verif.Free.Props
import Verif.Free.Ordered
import Verif.Free.Example
