import Verif.Index.Props
import Verif.PortGraph.PropsQuery
import Verif.PortGraph.PropsOps
import Verif.PortGraph.PropsSet
import Verif.PortGraph.PropsCompact
import Verif.PortGraph.PropsIter
import Verif.PortGraph.PropsInsert
import Verif.Secondary.Props
import Verif.Weights.Props
import Verif.Hierarchy.Props
import Verif.Algo.TopoProps
import Verif.Algo.PostProps
import Verif.Lca.Props
import Verif.Algo.DomProps
import Verif.Convex.TopoProps
import Verif.Convex.LineProps
import Verif.Dyn.ConvexProps
import Verif.View.Props
import Verif.View.PropsCap
import Verif.Boundary.Props
import Verif.Multi.Props
import Verif.Multi.IterProps
import Verif.CopyIn.Props
import Verif.Petgraph.Props
import Verif.Render.Props
import Verif.Render.StyleProps
import Verif.ViewAlgo.Props
import Verif.ViewAlgo.LineProps
import Verif.Serde.Props
import Verif.Index.MaybeProps
import Verif.Iter.Props
import Verif.Boundary.AccessProps
import Verif.Boundary.MultiProps
import Verif.Gen.Props
import Verif.Insert.Props
import Verif.Equality.Props
import Verif.ViewLaws.Props
import Verif.Simulate.Props
import Verif.Render.DotTextProps
import Verif.Undo.HierProps
import Verif.Undo.GraphProps
import Verif.Agree.Props
import Verif.Undo.Exact
import Verif.Undo.MultiSpec
import Verif.Undo.MultiProps
import Verif.Dyn.PassProps
import Verif.View.RoundProps
import Verif.Hierarchy.LawProps
import Verif.Words.Props
import Verif.Dyn.PortsProps
import Verif.Multi.FlatProps
import Verif.Serde.OffsetProps
import Verif.PortGraph.PropsCap
import Verif.Multi.FullProps
import Verif.Words.HierProps
import Verif.PortGraph.SwapFree
import Verif.Conform.PortGraph
import Verif.Conform.Dyn
import Verif.Conform.Data
import Verif.Algo.EmbedProps
import Verif.Lca.CostProps
import Verif.Render.ReadProps
import Verif.PortGraph.NormalProps
import Verif.Multi.BitsProps
import Verif.Multi.NormalProps
import Verif.ViewAlgo.LineSizeProps
import Verif.ViewAlgo.FloatProps
import Verif.Slots.Props
import Verif.Slots.IndistProps
import Verif.Slots.BoundedProps
import Verif.Follow.Props
import Verif.Weights.HistProps
import Verif.Weights.MultiProps
import Verif.Follow.MultiProps
import Verif.Follow.RegionProps
import Verif.Convex.ReplaceProps
import Verif.Boundary.ReplaceProps
import Verif.View.OrderProps
import Verif.View.KeepProps
