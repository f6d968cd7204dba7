import Verif.Access.Lemmas
import Verif.Access.Model
import Verif.Access.Network
import Verif.Access.Props
import Verif.Activations.Model
import Verif.Activations.Props
import Verif.Architecture.Lemmas
import Verif.Architecture.Model
import Verif.Architecture.Props
import Verif.Architecture.Spec
import Verif.Base.Dict
import Verif.Base.Lex
import Verif.Buffers.ContextProps
import Verif.Buffers.ForwardProps
import Verif.Buffers.Lemmas
import Verif.Buffers.Mirror
import Verif.Buffers.Model
import Verif.Buffers.Network
import Verif.Buffers.NetworkProps
import Verif.Buffers.Props
import Verif.Buffers.State
import Verif.Checkpoint.Demo
import Verif.Checkpoint.Model
import Verif.Checkpoint.Props
import Verif.Checkpoint.Resume
import Verif.Checkpoint.Spec
import Verif.Constrained.Apply
import Verif.Constrained.Demo
import Verif.Constrained.Keep
import Verif.Constrained.Model
import Verif.Constrained.Props
import Verif.Constrained.Spec
import Verif.Constrained.Steps
import Verif.Constrained.Unique
import Verif.Constrained.Views
import Verif.Construction.Generate
import Verif.Construction.GenerateLemmas
import Verif.Construction.GenerateProps
import Verif.Construction.Lemmas
import Verif.Construction.Model
import Verif.Construction.Props
import Verif.Construction.Spec
import Verif.Construction.WellFormed
import Verif.Conv.Lemmas
import Verif.Conv.Model
import Verif.Conv.Props
import Verif.Conv.Shapes
import Verif.Data.ExtractProps
import Verif.Data.Heap
import Verif.Data.Images
import Verif.Data.Model
import Verif.Data.Props
import Verif.Data.Save
import Verif.Data.Spec
import Verif.Data.Tools
import Verif.Descent.Demo
import Verif.Descent.Hadamard
import Verif.Descent.Motion
import Verif.Descent.Periods
import Verif.Descent.Props
import Verif.Descent.Spec
import Verif.Describe.Model
import Verif.Describe.Props
import Verif.Describe.Spec
import Verif.Determined.Backward
import Verif.Determined.Demo
import Verif.Determined.Props
import Verif.Determined.Rounds
import Verif.Determined.Settled
import Verif.Determined.Spec
import Verif.Determined.Steps
import Verif.EndToEnd.Clean
import Verif.EndToEnd.Convert
import Verif.EndToEnd.Formulas
import Verif.EndToEnd.Layout
import Verif.EndToEnd.LayoutParams
import Verif.EndToEnd.Order
import Verif.EndToEnd.Props
import Verif.EndToEnd.Spec
import Verif.Evaluate.Cut
import Verif.Evaluate.Demo
import Verif.Evaluate.Losses
import Verif.Evaluate.Model
import Verif.Evaluate.Props
import Verif.Evaluate.Ran
import Verif.Evaluate.Reads
import Verif.Evaluate.Results
import Verif.Evaluate.Save
import Verif.Evaluate.Spec
import Verif.Gpu.Conv
import Verif.Gpu.Elementwise
import Verif.Gpu.Launch
import Verif.Gpu.Merge
import Verif.Gpu.Owned
import Verif.Gpu.Pool
import Verif.Gpu.Softmax
import Verif.Info.Demo
import Verif.Info.Model
import Verif.Info.Props
import Verif.Initializers.Model
import Verif.Initializers.Props
import Verif.Instantiate.Checks
import Verif.Instantiate.Complete
import Verif.Instantiate.Model
import Verif.Instantiate.Props
import Verif.Iterate.Demo
import Verif.Iterate.Lemmas
import Verif.Iterate.Model
import Verif.Iterate.Props
import Verif.Iterate.Spec
import Verif.Layers.Accumulate
import Verif.Layers.BatchNorm
import Verif.Layers.ClockworkLstm
import Verif.Layers.Continue
import Verif.Layers.ContinueProps
import Verif.Layers.ConvGrad
import Verif.Layers.Forward
import Verif.Layers.Grad
import Verif.Layers.Lstm
import Verif.Layers.LstmGrad
import Verif.Layers.LstmProps
import Verif.Layers.MaskProps
import Verif.Layers.Merge
import Verif.Layers.Model
import Verif.Layers.Ops
import Verif.Layers.PoolGrad
import Verif.Layers.Props
import Verif.Layers.PropsLoss
import Verif.Layers.Recurrent
import Verif.Layers.RecurrentGrad
import Verif.Layers.Scan
import Verif.Layout.Create
import Verif.Layout.CreateLemmas
import Verif.Layout.Entries
import Verif.Layout.Exists
import Verif.Layout.ExistsProps
import Verif.Layout.Group
import Verif.Layout.GroupLemmas
import Verif.Layout.GroupProps
import Verif.Layout.HubLemmas
import Verif.Layout.HubProps
import Verif.Layout.Mirror
import Verif.Layout.MirrorProps
import Verif.Layout.Model
import Verif.Layout.ParamProps
import Verif.Layout.Spec
import Verif.Layout.WithParams
import Verif.Layout.WithParamsProps
import Verif.Locality.Demo
import Verif.Locality.Gradients
import Verif.Locality.GradientsDemo
import Verif.Locality.Lemmas
import Verif.Locality.Predictions
import Verif.Locality.Props
import Verif.Locality.Spec
import Verif.Locality.Training
import Verif.Memory.Arrays
import Verif.Memory.Bundle
import Verif.Memory.Cells
import Verif.Memory.Delta
import Verif.Memory.Equations
import Verif.Memory.Example
import Verif.Memory.Formulas
import Verif.Memory.FormulasProps
import Verif.Memory.Library
import Verif.Memory.LibraryExample
import Verif.Memory.LibraryOk
import Verif.Memory.LibraryPlaced
import Verif.Memory.LibraryProps
import Verif.Memory.Model
import Verif.Memory.Place
import Verif.Memory.Placed
import Verif.Memory.Props
import Verif.Memory.Sim
import Verif.Memory.Slots
import Verif.Memory.State
import Verif.Memory.Vec
import Verif.Memory.Wire
import Verif.Memory.Wiring
import Verif.Modifiers.Install
import Verif.Modifiers.InstallProps
import Verif.Modifiers.Model
import Verif.Modifiers.Props
import Verif.NetSpec.Accept
import Verif.NetSpec.Build
import Verif.NetSpec.DataName
import Verif.NetSpec.Flow
import Verif.NetSpec.HeadAccept
import Verif.NetSpec.Legal
import Verif.NetSpec.Limits
import Verif.NetSpec.Model
import Verif.NetSpec.Props
import Verif.NetSpec.Regex
import Verif.NetSpec.RoundTrip
import Verif.NetSpec.Scan
import Verif.NetSpec.Single
import Verif.NetSpec.Spec
import Verif.NetSpec.Stack
import Verif.NetSpec.StackProps
import Verif.NetSpec.Works
import Verif.Network.ConvPool
import Verif.Network.Example
import Verif.Network.FullMask
import Verif.Network.Instances
import Verif.Network.Model
import Verif.Network.Props
import Verif.Network.Recurrent
import Verif.Network.Vec
import Verif.Noise.Model
import Verif.Noise.Props
import Verif.Numeric.Loop
import Verif.Padding.Batches
import Verif.Padding.Demo
import Verif.Padding.Lemmas
import Verif.Padding.Model
import Verif.Padding.Nesterov
import Verif.Padding.Props
import Verif.Padding.Results
import Verif.Padding.Scores
import Verif.Padding.Spec
import Verif.Parts.Demo
import Verif.Parts.Everywhere
import Verif.Parts.Kinks
import Verif.Parts.Loss
import Verif.Parts.Nesterov
import Verif.Parts.Props
import Verif.Parts.Spec
import Verif.Pool.Lemmas
import Verif.Pool.Model
import Verif.Pool.Props
import Verif.Random.Props
import Verif.References.Arguments
import Verif.References.Errors
import Verif.References.InitProps
import Verif.References.Initialize
import Verif.References.Model
import Verif.References.Props
import Verif.References.Wildcard
import Verif.Reload.Demo
import Verif.Reload.Handler
import Verif.Reload.Model
import Verif.Reload.Outputs
import Verif.Reload.Props
import Verif.Reload.Spec
import Verif.SaveLoad.Model
import Verif.SaveLoad.Naturality
import Verif.SaveLoad.Props
import Verif.Scoring.Model
import Verif.Scoring.Props
import Verif.Sequence.Before
import Verif.Sequence.Cells
import Verif.Sequence.Context
import Verif.Sequence.Demo
import Verif.Sequence.Layers
import Verif.Sequence.LayersAll
import Verif.Sequence.LayersMore
import Verif.Sequence.Model
import Verif.Sequence.Network
import Verif.Sequence.Passes
import Verif.Sequence.Props
import Verif.Sequence.Spec
import Verif.Session.Lemmas
import Verif.Session.Loaded
import Verif.Session.Model
import Verif.Session.Passes
import Verif.Session.Props
import Verif.Session.Spec
import Verif.Session.Steps
import Verif.Setup.Context
import Verif.Setup.Lemmas
import Verif.Setup.LossNames
import Verif.Setup.Model
import Verif.Setup.Props
import Verif.Setup.Ready
import Verif.Shapes.Layers
import Verif.Shapes.Layers2
import Verif.Shapes.Layers3
import Verif.Shapes.Lemmas
import Verif.Shapes.Model
import Verif.Shapes.Props
import Verif.SpecNet.Props
import Verif.SpecNet.Ready
import Verif.SpecNet.Trainable
import Verif.Structure.Model
import Verif.Structure.Props
import Verif.Structure.Spec
import Verif.Trainer.Demo
import Verif.Trainer.Lemmas
import Verif.Trainer.Model
import Verif.Trainer.Plan
import Verif.Trainer.Props
import Verif.Trainer.Runs
import Verif.Trainer.Schedule
import Verif.Trainer.Spec
import Verif.Trainer.Track
import Verif.Trainer.Values
import Verif.Training.HookOrder
import Verif.Training.Hooks
import Verif.Training.Log
import Verif.Training.Run
import Verif.Training.Schedules
import Verif.Training.Steppers
import Verif.Training.Stock
import Verif.Training.StockProps
import Verif.Training.StockRun
import Verif.Training.Trainer
import Verif.Training.TrainerLemmas
import Verif.Training.TrainerProps
import Verif.Training.Watch
import Verif.Training.WatchProps
import Verif.Utils.NameOrder
import Verif.Utils.Names
import Verif.Utils.NamesLemmas
import Verif.Utils.Paths
import Verif.Views.Model
import Verif.Views.Props
