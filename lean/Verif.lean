import Verif.UnionFind.Props
import Verif.ThreadPool.ChunkProps
import Verif.ThreadPool.OrderedProps
import Verif.ThreadPool.PoolProps
import Verif.Text.Props
import Verif.Settings.Props
import Verif.Settings.EnumSpec
import Verif.Settings.EnumProps
import Verif.Settings.NumProps
import Verif.Template.Props
import Verif.GCode.MotionProps
import Verif.GCode.BoxProps
import Verif.GCode.AcctProps
import Verif.GCode.RetrProps
import Verif.GCode.PullProps
import Verif.Requests.Props
import Verif.Slicer.HeightProps
import Verif.Slicer.LoopProps
import Verif.Slicer.BalanceProps
import Verif.Slicer.WaterProps
import Verif.Slicer.StitchProps
import Verif.Beading.Props
import Verif.Grid.Props
import Verif.Box.Props
import Verif.Layers.Props
import Verif.Order.Props
import Verif.Adaptive.Props
import Verif.Heat.PreheatProps
import Verif.Heat.WriteProps
import Verif.Heat.BufferProps
import Verif.Heat.RangeProps
import Verif.Mst.Props
import Verif.Time.Props
import Verif.Time.Cases
import Verif.Cooling.Props
import Verif.Cooling.FanProps
import Verif.Cooling.Cases
import Verif.Flow.Props
import Verif.Flow.Cases
import Verif.Extruders.Props
import Verif.Extruders.Cases
import Verif.Volumes.Props
import Verif.Volumes.Cases
import Verif.Skin.Props
import Verif.Skin.InfillProps
import Verif.Skin.Cases
import Verif.Support.Props
import Verif.Support.Cover
import Verif.Support.Interface
import Verif.Support.ExcludeProps
import Verif.Support.Cases
import Verif.Load.Props
import Verif.Load.Cases
import Verif.Mold.Props
import Verif.Mold.Cases
import Verif.Cli.Props
import Verif.Cli.Cases
import Verif.Monotonic.Props
import Verif.Monotonic.Cases
import Verif.Lines.Props
import Verif.Lines.Cases
import Verif.Simplify.Props
import Verif.Simplify.Cases
import Verif.Simplify.Measure
import Verif.Coasting.Props
import Verif.Coasting.Cases
import Verif.Ooze.AmountProps
import Verif.Ooze.Props
import Verif.Ooze.Cases
import Verif.Spiral.Props
import Verif.Spiral.FollowProps
import Verif.Spiral.Cases
import Verif.Polylines.Props
import Verif.Polylines.Cases
import Verif.Walls.Props
import Verif.Walls.Cases
import Verif.Scarf.Props
import Verif.Scarf.Cases
import Verif.Bridge.Props
import Verif.Bridge.Cases
import Verif.Tree.Props
import Verif.Tree.Cases
import Verif.Tree.IncProps
import Verif.Tree.IncCases
import Verif.Nodes.Model
import Verif.Nodes.Spec
import Verif.Nodes.Lemmas
import Verif.Nodes.Contact
import Verif.Nodes.Inv
import Verif.Nodes.Run
import Verif.Nodes.More
import Verif.Nodes.Props
import Verif.Nodes.Cases
import Verif.Travel.Model
import Verif.Travel.Spec
import Verif.Travel.Lemmas
import Verif.Travel.Shape
import Verif.Travel.Inv
import Verif.Travel.Route
import Verif.Travel.Kept
import Verif.Travel.Props
import Verif.Travel.Cases
import Verif.Lightning.Model
import Verif.Lightning.Spec
import Verif.Lightning.Forest
import Verif.Lightning.New
import Verif.Lightning.Reconnect
import Verif.Lightning.Below
import Verif.Lightning.Realign
import Verif.Lightning.Lines
import Verif.Lightning.Props
import Verif.Lightning.Cases
import Verif.View.Spec
import Verif.View.Model
import Verif.View.Lemmas
import Verif.View.Run
import Verif.View.Objects
import Verif.View.Progress
import Verif.View.Props
import Verif.View.Cases
import Verif.SubDiv.Spec
import Verif.SubDiv.Model
import Verif.SubDiv.Lemmas
import Verif.SubDiv.Props
import Verif.SubDiv.Cases
import Verif.Skirt.Spec
import Verif.Skirt.Model
import Verif.Skirt.Lemmas
import Verif.Skirt.Run
import Verif.Skirt.Props
import Verif.Skirt.Cases
import Verif.Voxel.Spec
import Verif.Voxel.Model
import Verif.Voxel.Lemmas
import Verif.Voxel.Props
import Verif.Voxel.Cases
import Verif.Interlock.Spec
import Verif.Interlock.Model
import Verif.Interlock.Lemmas
import Verif.Interlock.Props
import Verif.Interlock.Cases
import Verif.Sierp.Spec
import Verif.Sierp.Model
import Verif.Sierp.Lemmas
import Verif.Sierp.Props
import Verif.Sierp.Cases
import Verif.Comb.Spec
import Verif.Comb.Model
import Verif.Comb.Lemmas
import Verif.Comb.Props
import Verif.Comb.Cases
import Verif.Wipe.Spec
import Verif.Wipe.Model
import Verif.Wipe.Lemmas
import Verif.Wipe.Props
import Verif.Wipe.Cases
import Verif.FirstLayers.Spec
import Verif.FirstLayers.Model
import Verif.FirstLayers.Lemmas
import Verif.FirstLayers.Props
import Verif.FirstLayers.Cases
import Verif.InfillOrder.Spec
import Verif.InfillOrder.Model
import Verif.InfillOrder.Lemmas
import Verif.InfillOrder.Props
import Verif.InfillOrder.Cases
import Verif.BelowSkin.Spec
import Verif.BelowSkin.Model
import Verif.BelowSkin.Lemmas
import Verif.BelowSkin.Props
import Verif.BelowSkin.Cases
import Verif.Overhang.Spec
import Verif.Overhang.Model
import Verif.Overhang.Lemmas
import Verif.Overhang.Props
import Verif.Overhang.Cases
import Verif.SkinLine.Spec
import Verif.SkinLine.Model
import Verif.SkinLine.Lemmas
import Verif.SkinLine.Props
import Verif.SkinLine.Cases
import Verif.Configs.Spec
import Verif.Configs.Model
import Verif.Configs.Lemmas
import Verif.Configs.Props
import Verif.Configs.Cases
import Verif.Gyroid.Spec
import Verif.Gyroid.Model
import Verif.Gyroid.Lemmas
import Verif.Gyroid.Props
import Verif.Gyroid.Cases
import Verif.Seam.Spec
import Verif.Seam.Model
import Verif.Seam.StartSpec
import Verif.Seam.Lemmas
import Verif.Seam.Props
import Verif.Paint.Spec
import Verif.Paint.Model
import Verif.Paint.Lemmas
import Verif.Paint.Props
import Verif.Seam.NeighbourSpec
import Verif.Seam.NeighbourModel
import Verif.Seam.NeighbourLemmas
import Verif.Seam.NeighbourProps
import Verif.Density.Spec
import Verif.Density.Model
import Verif.Density.Lemmas
import Verif.Density.Props
import Verif.Paint.UvSpec
import Verif.Paint.UvModel
import Verif.Paint.UvLemmas
import Verif.Paint.UvProps
import Verif.Paint.BarySpec
import Verif.Paint.BaryModel
import Verif.Paint.BaryLemmas
import Verif.Paint.BaryProps
import Verif.Parts.Spec
import Verif.Parts.Model
import Verif.Parts.Lemmas
import Verif.Parts.Props
