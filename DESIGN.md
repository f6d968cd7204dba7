# Formal model of IDSIA/brainstorm in Lean 4

Source: `/repo` (pinned commit, read as text, never run).  Model and proofs:
`/verif/lean/Verif/**`.  Property list: `properties.jsonl`; status per
property: `MANIFEST.json`; wrong-program experiments: `seeded/LOG.jsonl`.

## Layout of the Lean project

One directory per part of the code base, each with

* `Model.lean` – definitions mirroring the Python functions branch by branch;
  every definition cites file and lines, and says where it simplifies;
* `Spec.lean` (when the specification is more than a line) – independent, small
  definitions in which the property is phrased;
* `Lemmas.lean` – helper lemmas, never cited as a property;
* `Props.lean` – the property theorems, each with the id of the property, and
  an `example` showing that a concrete, non-trivial case meets the hypotheses.

## Trusted base

* Lean 4.33.0 kernel.  Axioms used: at most `propext`, `Classical.choice`,
  `Quot.sound` (checked with `#print axioms` for every theorem named in the
  manifest; no `sorry`, `native_decide`, `bv_decide`, own axioms).
* The reading of the Python source: the model is written by hand from the text
  in `/repo`.  The comments with file and line numbers are the only link.
* Semantics of Python/numpy assumed by the model:
  * `dict` = association list / finite map with unique keys; where iteration
    order could matter, the theorem is quantified over the order.
  * `sorted` = stable merge sort by the key; `set` = list without duplicates,
    iteration order arbitrary; strings are lists of Unicode code points compared
    lexicographically.
  * `int` = unbounded integers (true for Python; C `int`/`long` overflow in
    `_cpuop.pyx` is not modelled).
  * floats are replaced by exact arithmetic: an arbitrary commutative ring /
    ordered field or `ℝ`.  Rounding, NaN, infinities and overflow are not
    modelled (exception: `StopOnNan` has an abstract test for finite numbers).
  * numpy views alias memory: modelled by explicit addresses in the layout and
    buffer manager models; layer models use values and say which buffers are
    overwritten and which accumulated.
  * exceptions are values (`Except`); messages are not modelled, only the kind.
  * random number generator: an abstract deterministic state machine
    (`seed ↦ state`, `state ↦ (value, state)`); numpy's Mersenne Twister itself
    is not modelled.
* GPU: the kernels of `pycuda_handler.py` are modelled as programs of threads
  that are interleaved instruction by instruction on one memory (sequentially
  consistent, no 32-bit overflow, no rounding); calls of cuBLAS, scikit-cuda and
  `cumath` are taken as exact, curand is not modelled.
* Not modelled at all: plotting and
  drawing (`tools.draw_network`, Bokeh hooks), HDF5 library internals (file =
  finite map of strings to values), pickling, printing, progress bar text,
  operating-system signals, docstrings, numerical precision.

## What is modelled, file by file

A function counts as modelled if a comment of the model cites lines of it.  The directories under `lean/Verif` in which it is
are given; constructors that only store their arguments, abstract methods and one-line wrappers make up most of what is not modelled.

| file | modelled in | functions modelled | not modelled |
|---|---|---|---|
| `data_iterators.py` | Data, Noise, Padding | 18 of 22 | `DataIterator.__init__`, `DataIterator.__call__`, `Undivided.__init__`, `Undivided.__call__` |
| `describable.py` | Describe, References, SaveLoad | 8 of 8 | - |
| `handlers/base_handler.py` | Activations, EndToEnd, Layers, Shapes | 1 of 57 | `Handler.__init_from_description__`, `Handler.allocate`, `Handler.ones`, `Handler.zeros`, `Handler.copy_to`, `Handler.copy_to_if`, `Handler.create_from_numpy`, `Handler.fill`, `Handler.fill_if`, `Handler.get_numpy_copy`, `Handler.set_from_numpy`, `Handler.is_fully_finite`, `Handler.abs_t`, `Handler.add_into_if`, `Handler.add_mv`, `Handler.add_st`, `Handler.add_tt`, `Handler.avgpool2d_backward_batch`, `Handler.avgpool2d_forward_batch`, `Handler.binarize_v`, `Handler.broadcast_t`, `Handler.clip_t`, `Handler.conv2d_backward_batch`, `Handler.conv2d_forward_batch`, `Handler.dot_add_mm`, `Handler.dot_mm`, `Handler.divide_mv`, `Handler.divide_tt`, `Handler.fill_gaussian`, `Handler.generate_probability_mask`, `Handler.index_m_by_v`, `Handler.log_t`, `Handler.merge_tt`, `Handler.maxpool2d_backward_batch`, `Handler.maxpool2d_forward_batch`, `Handler.modulo_tt`, `Handler.mult_add_st`, `Handler.mult_add_tt`, `Handler.mult_mv`, `Handler.mult_st`, `Handler.mult_tt`, `Handler.sign_t`, `Handler.split_add_tt`, `Handler.sqrt_t`, `Handler.subtract_mv`, `Handler.subtract_tt`, `Handler.sum_t`, `Handler.rel`, `Handler.rel_deriv`, `Handler.sigmoid`, `Handler.sigmoid_deriv`, `Handler.softmax_m`, `Handler.tanh`, `Handler.tanh_deriv`, `Handler.el`, `Handler.el_deriv` |
| `handlers/debug_handler.py` | Shapes | 54 of 67 | `DebugArray.__init__`, `DebugArray.__getitem__`, `DebugArray.reshape`, `_check_for_inf`, `check_for_inf_or_nan`, `DebugHandler.__init__`, `DebugHandler.__init_from_description__`, `DebugHandler.allocate`, `DebugHandler.ones`, `DebugHandler.zeros`, `assert_is_shape`, `assert_debug_arrays`, `assert_is_scalar` |
| `handlers/numpy_handler.py` | Access, Activations, Buffers, Conv, Gpu, Layers, Modifiers, Shapes, Views | 51 of 59 | `NumpyHandler.__init__`, `NumpyHandler.__describe__`, `NumpyHandler.__init_from_description__`, `NumpyHandler.ones`, `NumpyHandler.zeros`, `NumpyHandler.create_from_numpy`, `NumpyHandler.fill`, `NumpyHandler.is_fully_finite` |
| `handlers/pycuda_handler.py` | Gpu | 15 of 60 | `PyCudaHandler.__init__`, `PyCudaHandler.__init_from_description__`, `PyCudaHandler.allocate`, `PyCudaHandler.ones`, `PyCudaHandler.zeros`, `PyCudaHandler.copy_to`, `PyCudaHandler.copy_to_if`, `PyCudaHandler.create_from_numpy`, `PyCudaHandler.fill`, `PyCudaHandler.fill_if`, `PyCudaHandler.get_numpy_copy`, `PyCudaHandler.set_from_numpy`, `PyCudaHandler.is_fully_finite`, `PyCudaHandler.abs_t`, `PyCudaHandler.add_into_if`, `PyCudaHandler.add_mv`, `PyCudaHandler.add_st`, `PyCudaHandler.add_tt`, `PyCudaHandler.clip_t`, `PyCudaHandler.dot_add_mm`, `PyCudaHandler.dot_mm`, `PyCudaHandler.divide_mv`, `PyCudaHandler.divide_tt`, `PyCudaHandler.fill_gaussian`, `PyCudaHandler.generate_probability_mask`, `PyCudaHandler.log_t`, `PyCudaHandler.mult_add_st`, `PyCudaHandler.mult_add_tt`, `PyCudaHandler.mult_mv`, `PyCudaHandler.mult_add_mv`, `PyCudaHandler.mult_st`, `PyCudaHandler.mult_tt`, `PyCudaHandler.sign_t`, `PyCudaHandler.sqrt_t`, `PyCudaHandler.subtract_mv`, `PyCudaHandler.subtract_tt`, `PyCudaHandler.sum_t`, `PyCudaHandler.rel`, `PyCudaHandler.rel_deriv`, `PyCudaHandler.el`, `PyCudaHandler.el_deriv`, `PyCudaHandler.sigmoid`, `PyCudaHandler.sigmoid_deriv`, `PyCudaHandler.tanh`, `PyCudaHandler.tanh_deriv` |
| `hooks.py` | Checkpoint, Describe, Session, Trainer, Training | 28 of 51 | `Hook.start`, `Hook.message`, `Hook.__call__`, `SaveLogs.__init__`, `SaveLogs.__call__`, `MonitorLayerDeltas.__init__`, `MonitorLayerDeltas.start`, `MonitorLayerGradients.__init__`, `MonitorLayerGradients.start`, `MonitorLayerInOuts.__init__`, `MonitorLayerInOuts.start`, `MonitorLayerParameters.__init__`, `MonitorLayerParameters.start`, `MonitorLayerParameters.__call__`, `StopAfterThresholdReached.__init__`, `StopOnNan.__init__`, `StopOnSigQuit.__init__`, `StopOnSigQuit.start`, `StopOnSigQuit.receive_signal`, `ProgressBar.__init__`, `ProgressBar.start`, `InfoUpdater.__init__`, `InfoUpdater.__call__` |
| `initializers.py` | Describe, Initializers, References, SaveLoad | 27 of 29 | `Initializer.__call__`, `Initializer._assert_atleast2d` |
| `layers/base_layer.py` | Instantiate, Layout, Setup, Shapes | 9 of 10 | `Layer.set_handler` |
| `layers/batch_normalization_layer.py` | Layers, NetSpec, Setup, Shapes | 4 of 4 | - |
| `layers/binomial_cross_entropy_layer.py` | Layers, Memory, Setup, Shapes | 3 of 4 | `BinomialCrossEntropy` |
| `layers/clockwork_layer.py` | EndToEnd, Layers, Memory, Setup, Shapes | 3 of 4 | `Clockwork` |
| `layers/clockwork_lstm_layer.py` | EndToEnd, Layers, Memory, Setup, Shapes | 3 of 4 | `ClockworkLstm` |
| `layers/convolution_layer_2d.py` | Conv, EndToEnd, Layers, Memory, NetSpec, Network, Setup, Shapes | 4 of 4 | - |
| `layers/deltas_scaling_layer.py` | Layers, Setup, Shapes | 3 of 4 | `DeltasScaling` |
| `layers/dropout_layer.py` | EndToEnd, Layers, Memory, NetSpec, Network, Setup, Shapes | 4 of 4 | - |
| `layers/elementwise_layer.py` | EndToEnd, Layers, Memory, Setup, Shapes | 3 of 4 | `Elementwise` |
| `layers/fully_connected_layer.py` | EndToEnd, Layers, Memory, NetSpec, Setup, Shapes | 4 of 4 | - |
| `layers/highway_layer.py` | Layers, Memory, Setup, Shapes | 3 of 4 | `Highway` |
| `layers/input_layer.py` | Setup, Shapes | 2 of 3 | `Input` |
| `layers/l1_decay.py` | Layers, Memory, Setup, Shapes | 3 of 4 | `L1Decay` |
| `layers/l2_decay.py` | Layers, Memory, Setup, Shapes | 3 of 4 | `L2Decay` |
| `layers/loss_layer.py` | EndToEnd, Layers, Memory, Scoring, Setup, Shapes | 3 of 4 | `Loss` |
| `layers/lstm_layer.py` | EndToEnd, Layers, Memory, NetSpec, Setup, Shapes | 4 of 4 | - |
| `layers/mask_layer.py` | Layers, Memory, Network, Setup, Shapes, Views | 4 of 5 | `Mask` |
| `layers/merge_layer.py` | Memory, Setup, Shapes | 3 of 4 | `Merge` |
| `layers/noop_layer.py` | Layers, Memory, Setup, Shapes | 3 of 4 | `NoOp` |
| `layers/pooling_layer_2d.py` | Conv, EndToEnd, Layers, Memory, NetSpec, Network, Setup, Shapes | 4 of 4 | - |
| `layers/recurrent_layer.py` | EndToEnd, Layers, Memory, NetSpec, Setup, Shapes | 4 of 4 | - |
| `layers/sigmoid_ce_layer.py` | Layers, Memory, Setup, Shapes | 3 of 4 | `SigmoidCE` |
| `layers/softmax_ce_layer.py` | Layers, Memory, Setup, Shapes | 3 of 4 | `SoftmaxCE` |
| `layers/squared_difference_layer.py` | Layers, Memory, Setup, Shapes | 3 of 4 | `SquaredDifference` |
| `layers/squared_error_layer.py` | Layers, Memory, Setup, Shapes | 3 of 4 | `SquaredError` |
| `optional.py` | - | 0 of 3 | `MissingDependencyMock.__init__`, `MissingDependencyMock.__getattribute__`, `MissingDependencyMock.__call__` |
| `randomness.py` | Describe, Modifiers, Random, References | 11 of 11 | - |
| `scorers.py` | Evaluate, Scoring, Trainer | 10 of 11 | `Hamming.__init__` |
| `structure/architecture.py` | Architecture, Buffers, Construction, Instantiate | 9 of 9 | - |
| `structure/buffer_structure.py` | Buffers, Setup, Structure, Views | 22 of 22 | - |
| `structure/buffer_views.py` | Access, Info, Shapes | 7 of 8 | `BufferView.values` |
| `structure/buffers.py` | Access, Buffers, Layers, Memory | 9 of 9 | - |
| `structure/construction.py` | Construction | 10 of 12 | `ConstructionWrapper.__init__`, `ConstructionWrapper.__repr__` |
| `structure/layout.py` | Access, Buffers, Layout, Network, Setup, Structure | 23 of 23 | - |
| `structure/network.py` | Access, Buffers, Checkpoint, Constrained, Iterate, Layers, Memory, Modifiers, Network, References, Reload, SaveLoad, Scoring, Sequence, Session, Setup, Trainer | 20 of 22 | `Network.from_layer`, `Network.get_input` |
| `structure/view_references.py` | Modifiers, References | 12 of 12 | - |
| `tools.py` | Data, Evaluate, Info, NetSpec, Scoring, Session, Trainer | 17 of 19 | `draw_network`, `print_network_info` |
| `training/schedules.py` | Training | 6 of 8 | `Exponential.__init__`, `DecreaseAfterEpoch.__init__` |
| `training/steppers.py` | Constrained, Describe, Session, Training | 9 of 12 | `TrainingStepper.__init__`, `TrainingStepper.start`, `TrainingStepper.run` |
| `training/trainer.py` | Constrained, Describe, Session, Trainer, Training | 8 of 9 | `Trainer.__init__` |
| `training/utils.py` | Constrained, Evaluate, Iterate, Session, Trainer | 1 of 1 | - |
| `utils.py` | Access, Describe, Layout, Shapes, Training, Utils, Views | 13 of 15 | `silence`, `get_brainstorm_info` |
| `value_modifiers.py` | Constrained, Modifiers | 20 of 20 | - |
| `handlers/_cpuop.pyx` | Conv, Data, Pool, Shapes, Views | 7 of 10 | `dtype_t_max`, `int_max`, `int_min` |

## Plan per property

* **C01 Layer names are unique inside a wired-up network.** `Naming`: state = list of layers (base name, creation id = index) plus shared scope classes exactly as the object graph keeps them (`scope` pointer per layer, heap of scopes); ops = create, `>>`. Model `name` with its inner while loop (shown to terminate). Invariant: scope of a layer holds exactly the layers of its connected component, per base name, sorted by id. Proof of uniqueness: generated `b_i` split uniquely at the last underscore.
* **C02 Layer names are the given name, or the given name plus an index in creation order.** same model; indices strictly increase along the scope list, which is sorted by creation id.
* **C03 The generated architecture does not depend on which layer you start from.** `Construction`: breadth-first closure over the undirected connection graph = connected component (both inclusions, termination); `get_layer_description` groups outgoing connections by output name. `WellFormed.lean`: the generated architecture is legal (`C03_legal`).
* **C04 Layers run in a topological order that exists exactly for acyclic architectures.** `Architecture.order`: fuel-free peel loop by recursion on the number of remaining layers; theorem: result is a permutation of the keys, topological; success iff no cycle (`TransGen` irreflexive).
* **C05 The layer order does not depend on dictionary order.** same; quantified over permutations of the association list and of the connection lists (string order is total, `mergeSort` is canonical on permutations).
* **C06 Architecture validation accepts exactly the well-formed architectures.** `Architecture.validate`: decision logic with errors as values; theorem: result = ok iff the specification predicate; KeyError branch explicit.
* **C07 Short and long connection notations mean the same.** parse/format round trip on `List Char`, plus equality of list and dict notation.
* **C08 Every array of the network belongs to exactly one memory hub and connections never cross hubs.** `Layout.closure`, `Layout.groupIntoHubs` on lists as sets; termination by size of the node universe; partition and connectedness theorems.
* **C09 Several layers feeding one input are concatenated without gaps.** `Layout.Hub`: connection table as `List (List Bool)`, `permute_rows` over `List.permutations` order abstracted; `get_indices` with `cumsum`, `argmax`; theorem: slices tile the hub, sink slice = union of its source slices.
* **C10 A network is laid out whenever a contiguous layout exists.** completeness of the search: success iff some permutation of the nested sources is contiguous (`C10_complete`, `C10_sound`, one hub). Verif/Layout/Exists.lean, ExistsProps.lean: the whole of `create_layout` succeeds iff the outputs of the network can be put into one order in which the sources of every input are adjacent (`C10_network`; orders of single hubs are restrictions of that order, and the orders of the hubs one after the other make it up); Verif/EndToEnd/Layout.lean: the same for every instantiated architecture of library layers in terms of its connections (`C10_architecture`), so always if every input has one source (`C10_single`, `C10_chain`). Verif/Layout/WithParams.lean, WithParamsProps.lean, Verif/EndToEnd/LayoutParams.lean: the same with connections that start at parameters, whose groups make up one hub together with the array of all parameters (`C10_parameters`, `C10_single_parameters`, `C10_arch_parameters`, `C10_arch_single`).
* **C11 Parameters and gradients have identical layout.** `Layout.createLayout` for the parameter and gradient hubs: order of the sorted tuples depends only on layer names ('.' sorts before all name characters).
* **C12 Buffers of different hubs never overlap.** `Buffers.slices`: cumulative sums; disjointness and cover of the address ranges.
* **C13 Shape templates accept exactly the matching shapes.** `Structure.matches` against an independent inductive specification.
* **C14 Combining inputs concatenates the last feature dimension.** `Structure.combine`, plus address map of the combined view; positive theorem for leading dims 1, negation with a 2×1+2×1 witness.
* **C15 Parameters survive every resize and handler change.** `Buffers.step`: heap of allocated buffers, views as addresses; ops = resize, setHandler, writes; invariant by induction over histories.
* **C16 Buffer memory only grows and every view has the requested size.** same model.
* **C17 A backward pass starts from cleared deltas and leaves forward values alone.** same model; clear_backward on addresses.
* **C18 A forward pass uses the data that was provided.** negation (concrete hub) + `_partial` under context_size 0 / exact description of what is erased.
* **C19 Context hand-over continues a sequence exactly.** `Recurrent`, `Lstm` forward as recursion over time with context row; theorem for every cut by induction; Clockwork: negation and theorem for multiples of the clock.
* **C20 The outputs depend only on parameters, data and context.** `Net` model: layers in topological order, each reading its inputs and parameters; result independent of stale buffers by induction over the order.
* **C21 backward_pass computes the gradient of the total loss.** `Net.backward` reverse accumulation; theorem by chain rule along differentiable curves (`HasDerivAt`).
* **C22 Layer backward passes are the derivatives of their forward passes.** per-layer models over `ℝ` and `HasDerivAt` theorems; deviations as negations.
* **C23 Loss bookkeeping.** `Loss` model, sum over list.
* **C24 Pattern dictionaries resolve as documented.** `References`: nested dictionaries as trees; resolve compared with a declarative specification per path.
* **C25 Wildcards match by characters.** `Wildcard`: regex semantics for the generated expression vs. existential split specification.
* **C26 initialize either sets every parameter or fails, and is reproducible.** `Initialize`: fold over sorted views with abstract rng; theorem on success/failure and order independence.
* **C27 Descriptions round-trip.** `Describable`: value trees, class table; round trip by structural induction.
* **C28 A saved network comes back with the same parameters.** `SaveLoad` on top of describe + parameters.
* **C29 Seeded randomness is reproducible.** `Rng`: abstract generator state machine; histories.
* **C30 Minibatches covers every sequence exactly once per epoch.** `Minibatches`: ceil division, slices of the index permutation; concat = permutation.
* **C31 Cutting to sequence length never drops unmasked data.** `Lengths`: last non-zero mask step; cut theorems.
* **C32 Data iterators do not change the user's data.** store-passing model of Undivided + wrapper; negation with witness, positive theorem for Minibatches.
* **C33 Image iterators move pixels only.** index-function models of Pad/Crop/Flip/OneHot.
* **C34 Training bookkeeping: hooks fire exactly at their interval.** `Trainer`: state machine with hooks as functions of counters; trace theorem.
* **C35 A stop request ends training at the right moment.** same model, stop behaviour.
* **C36 StopAfterEpoch(n) trains exactly n epochs.** same model, instantiated with StopAfterEpoch.
* **C37 Early stopping decision.** `EarlyStopper`: argmin/argmax first occurrence.
* **C38 SaveBestNetwork keeps the best parameters.** `SaveBest`: fold over history, invariant.
* **C39 Schedules follow their definition.** `Schedules` over ordered fields.
* **C40 Stepper updates.** `Steppers` over a commutative ring, induction over history.
* **C41 Evaluation does not depend on the batch size.** `Scores`: sums over concatenations.
* **C42 Scores are what their names say.** `Scores`: counting specification.
* **C43 Weight modifiers enforce their constraint.** `Modifiers` over ordered field / ℝ.
* **C44 FreezeValues freezes.** `Freeze` state machine.
* **C45 Gradient modifiers add weight decay.** `Decay` derivative.
* **C46 Initializers stay in their documented range.** `Initializers`: interval arithmetic with abstract draws; sparse counts.
* **C47 im2col-based convolution is convolution.** `Conv`: im2col/col2im pointer walk vs. sum specification; adjointness as equality of finite sums.
* **C48 Pooling.** `Pool`.
* **C49 Activation functions and softmax.** `Activations` over ℝ with Mathlib analysis.
* **C50 Merge and split are inverse.** `Merge`.
* **C51 split and shuffle_data keep the examples.** `Tools.split`, `shuffle`.
* **C52 extract returns the buffer of every example in order.** `Tools.extract`.
* **C53 Path helpers.** `Utils` nested trees.
* **C54 Hook order survives saving the trainer.** `Trainer.hooks`: priorities.
* **C55 Weight-shared or regularised parameters get all gradient contributions.** `Net` with overwriting layers: negation + positive theorem for accumulating layers.
* **C56 Convolution and pooling output shapes.** arithmetic (`omega`-style) on the shape formula.
* **C57 Masked steps carry no error.** `Mask` layer.
* **C58 Batch normalisation statistics.** `BatchNorm` layer over ℝ.
* **C59 Running the same description twice gives the same network.** `Instantiate`: fold over canonical order, order-independence of `combine`. `Complete.lean`: instantiation succeeds whenever fitting shapes exist (`C59_complete`).
* **C60 Flattened arrays are windows into the buffers.** `Views`: numpy's rule when a reshape is a view (strides); addresses of the flattened view vs. of the buffer; negation with the concrete network `twoNorms`.
* **C61 Layers compute their documented functions.** `Layers/Forward`: closed-form specification of each layer (recurrences for the recurrent ones: one unit, one step) next to the models of the forward passes; equality entrywise, by induction over time where the layer is recurrent.
* **C62 Installed modifiers act on exactly the weights they name.** `Modifiers/Install`: heap of modifier objects (identity = address), `set_*_modifiers` on a reference tree, application loop; theorems say which copy acts on which weight and in which order; aliasing excluded by addresses.
* **C63 Networks of library layers always get memory of the declared shapes.** `Verif/Setup`: the `setup` methods of all 24 layer classes (Model); each is a list of declarations, checked once for all by `Decl.Good` (Lemmas); instantiated layers (C59) then satisfy the assumptions `WellFormedLayers` and `Shaped` of the layout and buffer theorems (Ready), which gives the end-to-end theorem `C63_memory` (Props). Sizes are natural numbers: layers with negative sizes are outside.
* **C64 Passes never fail because of array shapes.** `Verif/Shapes`: the `forward_pass` and `backward_pass` of all 24 layer types as sequences of handler operations on shapes; each operation checks what the handler (or the debug handler, where the NumPy one relies on broadcasting) requires. Values, scalars and division are not modelled. One lemma per layer type (`runs_…`) from the declarations of `setup`; joined with C59 (what the layer is fed) in `C64_passes_partial` and with C63 (the memory has these shapes) in `C64_views`. Partial: three kinds of layers are accepted by `setup` but fail (`C64_unknown_activation`, `C64_binomial_rank`, `C64_merge_nothing`).
* **C65 GPU and CPU handlers compute the same.** `Verif/Gpu`: a launch is a list of programs (one list of instructions per thread: load, compute, store, atomic add); an execution is any interleaving of them, with barriers inside a block for the softmax kernel (`Softmax.lean`: `Phases`, `GridExec`). `Owned.lean`: if every cell is written by one thread only (or only by atomic adds), every interleaving gives what the threads give one after the other. Each kernel is transcribed with its index arithmetic and shown to leave what the model of the CPU operation leaves (`im2col`, `col2im`, `maxCell`, `avgCell`, … of C47 and C48; the elementwise formulas of `numpy_handler.py`). Memory is sequentially consistent; 32-bit overflow of indices and rounding of floats are not modelled, so reordering of additions does not matter. Calls of cuBLAS/scikit-cuda (dot products, matrix-vector products, sums over an axis, `cumath`) and the random generator are taken as exact or left out. Partial: `C65_merge_rows_lost`, `C65_split_rows_lost`, `C65_modulo_differs`, `C65_binarize_differs`.
* **C66 The library's hooks in a training run.** `Verif/Training/Run.lean`: a training run as a list of events, each with the state before it (`train_run`: every result of the model `train` of C34 is one). `Stock.lean`: the hooks of `hooks.py` as functions of counters, logs and an abstract world. `StockProps.lean`: what stopping hooks see and decide at each call, statistics, files. `StockRun.lean`: SaveBestNetwork and ModifyStepperAttribute followed through a run. `Watch.lean`, `WatchProps.lean`: a simulation between the training with a watching hook and the one without it; instances for monitors and the progress bar. Messages, plotting and Bokeh, Sacred, signal delivery and the time stamps are not modelled; hooks see each other only through the logs and the world. Partial because of `C66_threshold_fails`, `C66_monitor_deltas_fails`, `C66_progress_bar_second_training`, `C66_progress_bar_after_stop`.
* **C67 Networks built with get_in_out_layers.** `Verif/NetSpec/Build.lean`: `get_in_out_layers` as a construction script (operations of the model of C01-C03: create, connect). `Stack.lean`, `StackProps.lean`: running the script after any other script and generating the architecture (`Generates`, C03) gives exactly the expected layers and connections (`C67_network`); `C67_supported`.
* **C68 A spec line means the network it describes.** `Verif/NetSpec/Regex.lean`: a backtracking matcher with Python's preferences (greedy, first alternative first, last capture of a group), `finditer` and the odd parts of `split`. `Model.lean`: the five patterns, `trynumber` and the layer functions `F`, `B`, `D`, `R`, `L`, `C`, `P`. `Spec.lean`: layers of the documentation and all ways to write them. `Scan.lean`, `RoundTrip.lean`: the matcher finds each item and each argument. `Props.lean`: `C68_layers`, `C68_network`. `Flow.lean`: the shapes of data behind each layer; `Accept.lean`, `HeadAccept.lean`: each layer accepts its shapes (setup methods of C63); `Single.lean`, `Works.lean`: the network can be instantiated (`C68_works`, from `C59_complete`), `Legal.lean`: its architecture is legal (`C68_legal`). `Limits.lean`, `DataName.lean`: where it deviates. Decimal numbers are rationals; `\s` is ASCII white space; which exception is raised is not modelled.
* **C69 Iterators that add noise.** `Verif/Noise/Model.lean`: the two iterators over real numbers; the random generator is a stream of numbers with a position, so that which number is used for which entry can be said. `Props.lean`: the loop over items and batches by induction, giving each entry its own position (`C69_gaussian`, `C69_salt_and_pepper`); probabilities as Lebesgue measure of the set of random numbers (`C69_probabilities`); `C69_accepts`, `C69_never_is_not_never`. Numbers are real; that numpy's generator gives independent, normal or uniform numbers is not modelled.
* **C70 Buffers are reachable by name.** `Verif/Access/Model.lean`: `BufferView` objects in a heap (elements of the list and dictionary of the object; the dictionary hides methods), `create_buffer_views_from_layout` with and without existing views, `BufferManager.resize`, `get_by_path` and `Network.get`; arrays are values of any type, one for each place in the layout. `Lemmas.lean`: what the heap holds for a tree of views (`Holds`, `Matches`), kept by creating and adjusting. `Props.lean`: `C70_access` for every layout with usable names. `Network.lean`: the layout of a network, `C70_network` for every string, and the names that fail. `__getitem__` with slices or negative numbers and other list methods are not modelled.
* **C71 Deltas are laid out like the values they belong to.** `Verif/Layout/Mirror.lean`: a key stands for an array of values and the array of its deltas; connections, forced orders, items and groups of the two sides correspond under the two names of keys, and sorting by name gives the same order on both sides. `MirrorProps.lean`: hubs created from corresponding groups are equal up to names (`C71_same_place`, `C71_same_sharing`). `Verif/Buffers/Mirror.lean`: so the arrays in memory are translates of each other (`C71_views`). Connections from internal buffers are excluded: their deltas are found by the naming convention `d...` that the layout does not check.
* **C72 Gradients in the memory of the network.** `Verif/Memory/Model.lean`: the passes of `Network` on one memory (numbers at addresses), layers as state transformers. `Cells.lean`: the addresses of each array, from `resize` and the layout (C08, C10, C12); `delta` is the address of the delta of an entry. `Delta.lean`: it is well defined and injective, from C71. `Place.lean`, `Wire.lean`: `Site` (a layer keeps to its own arrays) and `Ordered` imply that the layers are wired as C21 needs. `Sim.lean`: splitting the memory into values and deltas is a simulation of the network of C20 and C21. `Props.lean`: `C72_*`. `Vec.lean`: the layers of C21 put at views of the memory satisfy the hypotheses. `State.lean`: the memory is the full buffer of the buffer manager of C12, at every point of a history. `Example.lean`: a network with four layers meets all hypotheses. Internal buffers are not connected to other layers here.
* **C73 The ways to pass initializers and modifiers are equivalent.** `Verif/References/Arguments.lean`: `_update_references_with_dict` and `_replace_lists_with_array_initializers` with what the argument of the caller holds afterwards, in front of `initialize` of C26 and `set_*_modifiers` of C62. The forms are equal by computation and induction over the keyword arguments; lists by transferring resolution (C24) along the replacement. Binding of Python arguments (patterns called `seed` or `self`) is not modelled.
* **C74 Networks of library layers compute derivatives in their memory.** `Verif/Memory/Slots.lean`: where a layer finds each of its numbers (category, array, position); the conditions under which a layer put there keeps to its arrays. `Placed.lean`, `Bundle.lean`: C72 for a network given by such places. `Arrays.lean`: positions in arrays of two and three dimensions. `Library.lean`: the places of each layer type of the library and the inductive type `LibLayer` of all of them with the shapes they need; `LibraryOk.lean`: the conditions hold; `LibraryPlaced.lean`: the layer is one of the layers of C21 (`LibLayer.placed`), `LibLayer.Regular` says at which memories it is differentiable. `LibraryProps.lean`: `C74_*`. `Equations.lean`, `LibraryExample.lean`: outputs after the forward pass in plain formulas; a network with four layers. BatchNorm (its statistics are parameters that the forward pass changes) and DeltasScaling (deliberately no derivative) are left out; random numbers of Dropout are numbers outside of the buffer.
* **C75 An accepted architecture trains with the right gradients.** `Verif/EndToEnd/Spec.lean`: which function a type and keyword arguments stand for (`Describes`), and what is asked of the architecture (`Trainable`, `Numeric`, `Smooth`). `Convert.lean`: for each class of the library, what `setup` declares (C63) is what `LibLayer` (C74) asks for. `Clean.lean`: no library class declares outputs or parameters as backward-only. `Order.lean`: the order of the layers, their connections and the hypotheses `Fits` of C74 follow from instantiation (C59) and layout (C08, C64). `Props.lean`: `C75_*`, and a network that meets all hypotheses.
* **C76 The forward pass computes what the architecture says.** `Verif/Memory/Formulas.lean`: `LibLayer.Computes`, the formula of every layer type in terms of entries of named arrays, and its proof from the forward theorems of C61, C29 and C48. `Wiring.lean`: addresses by row and column; inputs are the connected arrays side by side (from C08, C09). `FormulasProps.lean`: `C76_formulas`, `C76_inputs`, `C76_input_copy`, `C76_total_loss`. `Verif/EndToEnd/Formulas.lean`: the same for accepted architectures, with connections of the architecture and the number reported by `get_loss_values` (C23).
* **C77 Training is gradient descent on the reported loss.** `Verif/Session`: passes and steppers as functions on the state of the buffer manager (C14-C16: heap, views, full buffer), with the layers as in C72/C75 working on the part of the full buffer in use. `lossOf` (spec): the loss of a new network with given parameters; `Reachable` (spec): all states any sequence of operations leads to. Invariant: from every reachable state, after `provide` the memory agrees with that of the new network on parameters, data and (cleared) context rows, everything else is overwritten before it is read (C72); then induction over the updates.
* **C78 What a network computes for a sequence depends only on that sequence up to now.** `Verif/Sequence`: `Spec.lean` says which steps of which sequences are compared (`Align`, `SameData`, `SameOutputs`, `Piece`). `Layers*.lean`: for every layer type, by the formulas of C76 and induction over time: if inputs, parameters and the row before are the same, so are outputs (and LSTM states). `Network.lean`: induction over the layers, with the wiring of C76. `Cells.lean`, `Context.lean`, `Passes.lean`, `Before.lean`: from the states of the buffer manager (C77) to what the layers find: data, parameters, and the row before the first step (zeros, or the last step of the piece before). `Props.lean`: induction over the pieces. `Demo.lean`: a network with an LSTM layer that meets all hypotheses, for any data and any pieces.
* **C79 Evaluation and extraction do not depend on how the data are divided into batches.** `Verif/Evaluate`: `Model.lean` has the loops of `evaluate` and `extract` over the states of the buffer manager (C77), `Spec.lean` says what it means that batches divide the data (`Cut`). `Cut.lean`: the columns of a table, part by part, are a permutation of the table. `Ran.lean`, `Losses.lean`, `Reads.lean`: by the comparison of C78, sequence by sequence, the contributions of sequences to the losses, the rows that are scored and the rows of all outputs are those of the whole batch. `Results.lean`: weighted averages of losses (with the division by the batch size in the Loss layer, C76), scores as sums over rows, and the arrays that C52 puts together. `Props.lean`: for accepted architectures. `Demo.lean`: a network and any batches that meet all hypotheses.
* **C80 Training with modifiers follows the modified gradients and keeps the constraints.** `Verif/Constrained`. Modelled: the modifiers of the library as objects with their attributes, the loops of apply_weight_modifiers and apply_gradient_modifiers over layers, views and modifiers on the views of the buffer, backward_pass with them, the three gradient steppers and the round of the training loop (provide, run, record the loss, apply weight modifiers, evaluations by hooks). Specification: `part` (where a parameter lies in the array of all parameters), `inTurn` (modifiers one after the other on the entries of one parameter), `Modified` (each parameter is changed by its modifiers and not otherwise), `row` and the Euclidean norm. Proof: views of different parameters and gradients are disjoint slices of the two arrays (C17, aligned), so the loops do to each part what its modifiers do; the passes are those of C77; constraints by induction on updates: the last modifier of the list is called last and keeps its attributes. Not modelled: broadcasting of masks, modifiers that draw random numbers, reference counting of the device copies (C43, C44).
* **C81 Gradients and trainings depend only on parameters and data, not on the history of the network.** Verif/Determined: a layer is `Settled` if its backward pass after its forward pass does not depend on the old contents of outputs and internals (proved for every library layer, Dropout only in training passes). With the cleared deltas and gradients (Session model) it follows by induction over the layers, backwards, that both passes compute from any reachable state the gradients of a new network (`gradOf`). The loop of Trainer.train (Constrained model) is then a function of parameters, stepper memory and modifiers (`Same` is preserved), which gives independence of the history and the theorem on resuming. Derivatives at points without kinks come from C74.
* **C82 Hooks do not influence training, and what they report and keep belongs to the parameters of that moment.** Verif/Trainer: the abstract loop of Training/Trainer (C34, C66) with a concrete world: buffers, stepper, modifiers, data iterator, scores of the epoch, memories of hooks. `Track.lean`: induction over the events of a run; after each event parameters, velocities and modifiers are `Same` as in the plain loop of the Constrained model after as many updates (evaluations keep parameters, C77; rounds depend only on them, C81), and the scores are the losses of the batches of the epoch so far. `Values.lean`: weighted averages, and `evaluate` from any reachable state. `Plan.lean`: by the plan of C34, a monitor in front of SaveBestNetwork has logged at the same counts. `Props.lean`, `Schedule.lean`: with C66_save_best and C66_schedule. `Runs.lean`: no call and no log entry fails (logs of monitors are dictionaries of lists that are not empty). `Demo.lean`: a network with dropout and four hooks. Simplifications: no train_scorers; a failure in a batch is a flag (shown to stay off); hooks that only look are functions of logs and world.
* **C83 A network that is saved and loaded again behaves as the original.** Verif/Reload: `fromHdf5` on the memory (create, set_handler twice, initialize as assignments of arrays of the right sizes to parameters of layers, then all parameters). `Spec.lean`: `SameParameters` and `SameOutputs` say what `get` returns in the two networks. `Outputs.lean`: every cell of every output of every library layer is computed by its forward pass from inputs, parameters and cleared context, so outputs depend only on parameters and batch (by C72, C77 and C81). `Props.lean`: C59 for the layers, C81 for trainings, C82 for the best network. Simplified: names of parameter views and of the buffer of all parameters are those of the layout; the handler is always the numpy handler.
* **C84 The gradients are the derivative of the loss in all directions, and small steps decrease it.** Verif/Descent: `Motion.lean`: the layerwise simulation of C72 with all parameters moving (`Network.backward_motion`), read as a statement about the loss of a new network as a function of its parameters (C77, C81). `Hadamard.lean`: a function on ℝⁿ with the right derivative along every curve is Fréchet differentiable; a negative derivative along a line gives descent. `Periods.lean`: no library layer computes gradients for parameters called timing, so after clearing they stay zero. `Spec.lean`: `IsPeriod`, `FreePeriods`. `Props.lean`: `C84_*`; `Demo.lean`: networks that meet the hypotheses.
* **C85 The gradients of a batch are the weighted mean of the gradients of its parts.** Verif/Parts: the losses of the parts add up by the comparison of sequences of C79 (`loss_sum`), at all parameters; both sides are differentiated along each coordinate with C84's `loss_curve`, and derivatives are unique. Periods have no gradients (C84). Networks without kinks are shown to be differentiable at all parameters: the context rows of LSTM layers are zero after `clear_context`. The order of sequences: batches with the same sequences are cut into the same parts; induction over updates.
* **C86 Evaluating with Minibatches gives the same as evaluating with Undivided.** Verif/Iterate: `Model.lean`: which numbers `provide_external_data` takes from the dictionaries that a data iterator yields. `Lemmas.lean`: by C31, the batches of `Minibatches` are slices of the arrays; entry by entry they are a division of the data in the sense of C79, up to the order (`minibatches_cut`). `Props.lean`: composed with C79 (for batches in any order) and C85.
* **C87 Steps that are masked out have no effect.** Verif/Padding: `Spec.lean`: `Shortened` (a batch is the beginning of another, and what is left out is masked) and `MaskedBy` (how the mask is connected). By C78's comparison of sequences, all layers but Loss compute the same in the common steps; in the others the outputs of Mask layers are 0, so Loss layers, which divide by the number of sequences, get the same sum (`Lemmas.lean`, `Results.lean`). Equal losses for all parameters have equal derivatives, and by C84 the gradients are these derivatives where the layers are differentiable; trainings then follow by induction. `Batches.lean`: what `Minibatches` cuts off is masked (`_calculate_lengths_from_mask`). `Scores.lean`: rows with mask 0 count for no scorer. Assumption `DataAlone`: the data do not share a buffer with a recurrent layer, otherwise C18's bug gets in the way. `Demo.lean`: a concrete network, with data of any lengths.
* **C88 A network made from a spec line can be trained, and its gradients are right.** Verif/SpecNet: composes C68 (which layers, names, types, connections and shapes the network of a spec line has: `NetSpec/Works.lean`, `stack_works`), C10 (a layout exists if every input is fed by one output: `C10_chain`), C64 (shapes in the passes) and C84 (gradients, descent). `Ready.lean`: what the layers of such a network are (`Kind`): types, activation functions, names. `Trainable.lean`: from the list of connections, the network meets every condition of C75/C84 (`Trainable`, `Numeric`, `Supported`, no clockwork periods); so all of C75 to C87 apply to it. `Props.lean`: the consequences, stated for the text of the spec line.
* **C89 extract_and_save writes what extract returns.** Verif/Data/Save.lean: `extract_and_save` on the arrays that the buffers hold after each batch (`extractAndSave`, `saveLoop`, `saveBatch`; the HDF5 file is the list of its datasets; `create_dataset`, `resize` and assignment with broadcasting are modelled, `create_dataset` fails for a name that exists and for empty chunks). Induction over the batches with the state of the file after every batch (`fileOf`), inside it over the buffer names. Verif/Evaluate/Save.lean: the same for networks, on top of C79 (`C89_network`).
* **C90 After a crash, a saved network is complete or absent, and never a mixture.** Verif/Checkpoint: `save_as_hdf5` is a list of operations on files (open and truncate, write an entry, close); a crash after `k` operations leaves what the first `k` did. What is found in a file that was not closed is not determined: nothing readable, or any beginning of what was written (`Found`); HDF5 itself and the operating system are not modelled beyond that. `Spec.lean` says which savings are complete and which one was interrupted (`progress`). Induction over the savings gives the content of every file at every crash point (`crash_file`). `withSaves` adds SaveNetwork hooks to any training of C34; what the hooks save is followed through a `Training.Run`. That a loaded network behaves as the saved one is C28 and C83. `Resume.lean` puts the parts together for trainings as in C82: SaveNetwork hooks do not change the training (`run_plain`), each saving is placed in the list of updates (C82), and the continued training follows the one that was killed (C81, C83).
* **C91 get_network_info reports what the network has.** Verif/Info: the loops of `get_network_info` over layers and views; what is written is a list of records, the formatting of the text is left out. The order of `BufferView.keys` is a parameter (any permutation). That the slices of the parameters cover the array without overlap (`aligned`, used in C11) gives the sum by counting (`sum_sizes`); the shapes are those of C63_memory.
* **C92 The outputs of a layer depend on what lies before it and on nothing else.** Verif/Locality: no new model; the forward pass on the memory (C72, C77). `Upstream` is reachability along the connections of the architecture. The layers before a layer form a set that is closed under predecessors; by induction along the order of the layers, what a layer of the set reads is the same in both memories (`local_reads`), so its outputs are. For predictions, that the layers compute them from `default` alone is read off their formulas (`predicted`). For the gradients: the passes compute the derivative of the sum of the losses (C72); the losses come from Loss layers, whose outputs do not depend on such a parameter, so the derivative is that of a constant. Training: induction over the rounds with the equations of the steppers (C77).

## Disagreements found between the code and the property (to be proved as negations)

1. `BufferManager.clear_context` clears rows `T-ctx ..` of a hub, i.e. also the
   last `ctx` real time steps.  Harmless for recurrent outputs (recomputed), but
   it erases external input data when `Input` shares a hub with a recurrent
   layer's output (C18).
2. `FullyConnected` and `Convolution2D` overwrite their gradients in
   `backward_pass`; contributions from connections out of a parameter are lost
   (C55).
3. `Dropout.backward_pass` omits the factor 1/(1-p) used in the forward pass
   (C22).
4. LSTM peephole/recurrent gradients use wrong rows when the context is
   non-zero (C22).
5. `combine_buffer_structures` promises concatenation along the last feature
   dimension; the shared hub stores flat blocks (C14).
6. `validate_architecture` allows a missing `@outgoing_connections`, which then
   raises `KeyError` (C06).
7. `get_context`/`clear_context` index with a negative start when the time size
   is smaller than the context size.
8. `Undivided` hands out its own dictionary; wrappers then modify it (C32);
   `Flip` writes into the user's array.
9. A network saved before `initialize` cannot be loaded (C28).
10. `Trainer.train` short-circuits `_emit_hooks('update') or
    _emit_hooks('epoch')` before the first epoch (C34/C35).
11. Hook priorities are stored in the hook object: sharing a hook between two
    trainers changes the reload order of the first (C54).
12. LSTM, Clockwork and ClockworkLstm continue a sequence exactly only if the
    first part's length is a multiple of every clock period
    (`C19_clockwork_wrong`).
13. Cross-entropy layers clip the prediction in the forward pass but not in the
    gradient (`C22_softmax_ce_clipped`); the gradient is exact where the clip is
    inactive.
14. `Convolution2D` accepts kernels larger than the padded image
    (`C56_conv_no_check`); a stride of 0 raises `ZeroDivisionError`.
15. `flatten_all_but_last` of an array that shares its hub makes a copy: what is
    written into it is lost (C60); pooling raises `ValueError` for such arrays.
16. A description holding a dictionary with the key `'@type'` does not round-trip
    (C27).
17. The regular expression of a wildcard reference ends in `$`, which also
    matches before a trailing newline (C25).
18. `el` overflows to NaN for large positive arguments computed by
    `np.where` (C49: stated for exact arithmetic; `C49_el_overflow`).
19. `set_from_numpy` broadcasts; `initialize` and `set_*_modifiers` change the
    dictionary the user passed (it gains the default entry).
20. Value modifiers reaching one weight through different references are kept in
    a Python `set`: their order is arbitrary (C62 quantifies over it).
21. Loss layers ignore deltas arriving at their `predictions` output.
22. Batch normalisation's training forward pass writes parameters; the stored
    `mu` is the negative mean.
23. A dropout layer's mask survives a non-training forward pass, so a backward
    pass after it uses the mask of the last training pass.
24. `context_size` larger than one, with arrays of different context sizes in
    one hub, would be handed over shifted; all layers of the library use context
    sizes 0 and 1, and `C19_handover` asks for equal sizes.
25. `setup` accepts any activation name; an unknown one raises `KeyError` in
    the first forward pass (`C64_unknown_activation`).
26. `BinomialCrossEntropy` accepts images, and its forward pass works, but its
    backward pass broadcasts along axis 2 and fails unless the inputs are
    vectors (`C64_binomial_rank`).
27. `Merge` accepts an input of width 0 and then fails in the forward pass
    (`C64_merge_nothing`).
28. `merge_tt` and `split_add_tt` of the GPU handler use one thread per row and
    at most 384 * 256 threads: rows from number 98304 on are silently left as
    they were (`C65_merge_rows_lost`, `C65_split_rows_lost`).
29. The GPU's `modulo_tt` compares pointers (`a >= 0`) instead of numbers, so it
    always rounds by +0.5, and takes the remainder of integers: it differs from
    `np.fmod` for negative and fractional arguments (`C65_modulo_differs`), for
    example for a clockwork layer with a fractional period.
30. `binarize_v` takes a fractional class number as the class below on the CPU and
    as no class on the GPU (`C65_binarize_differs`).
31. `sum_t` of the GPU handler raises `NotImplementedError` for arrays of three
    and more dimensions with an axis; its `copy_to` copies bytes without looking
    at shapes; its `set_from_numpy` wants equal shapes where the CPU broadcasts.
32. The forward pooling kernels move the pointer to the input in each turn of the
    grid-stride loop; this is harmless only because the launch has at least as
    many threads as indices (used in `C65_maxpool_forward`).
33. `StopAfterThresholdReached`, and `StopOnNan` with `logs_to_check`, are called
    before the first epoch and raise `KeyError` if their log does not exist yet,
    as is the case for `rolling_training.*` (`C66_threshold_fails`).
34. `ProgressBar` keeps its finished generator: a second `train()` ends at once
    without an update (`C66_progress_bar_second_training`); after a stop within an
    epoch its assertion fails (`C66_progress_bar_after_stop`).
35. `MonitorLayerDeltas` looks a key up in an empty dictionary and fails for every
    layer that has inputs (`C66_monitor_deltas_fails`).
36. The message of `StopOnSigQuit` ends up in the logs (the value of a
    `StopIteration` is its first argument in Python 3).
37. Spec lines of `create_net_from_spec`: white space is not "completely ignored"
    (`F5 0` is a layer of size 5; `C68_white_space`), letters that touch (`BD`)
    raise `KeyError` (`C68_letters_touch`), a probability without decimal point
    (`D0`) fails an assertion (`C68_probability_integer`), surplus arguments
    and text in front of the first capital letter are dropped silently
    (`C68_further_arguments`, `C68_other_text_skipped`).
38. `get_in_out_layers` documents `data_name`, but the row always starts at the
    output `default` of the input layer: with any other name the network can
    never be created (`C68_data_name`).
39. A layer name that ends in a line break is accepted (`$` matches before it);
    used twice it becomes a name that `validate_architecture` refuses, so
    `C03_legal` asks for names without line breaks.
40. `AddSaltNPepper` compares with `<=`: with probability 0 an entry whose random
    number is exactly 0.0 still becomes 0 (`C69_never_is_not_never`). Neither it nor
    `AddGaussianNoise` checks the range of probabilities and ratios (`C69_accepts`).
41. A `BufferView` keeps its buffers in its own dictionary, next to its methods and private
    attributes, and layer names are not checked against these. A layer called `adjust`
    gives a network that fails on its first data (`C70_adjust_hidden`), one called `items`
    or `_asdict` a network that cannot be initialized or given modifiers (`C70_items_hidden`),
    one called `parameters` fails inside the constructor (`C70_parameters_hidden`);
    `_keys` and `_buffer_names` fail too (examples in `Verif/Access/Network.lean`).
    A view without buffers is not adjusted but made anew on each size change, because an
    empty list counts as false.
42. `initialize` and `set_*_modifiers` store keyword arguments in the dictionary of the
    caller, so the same call `net.initialize(d, Layer=...)` fails the second time with
    "Conflicting values" (`C73_twice_fails`); the documentation says that keyword arguments
    take precedence, but a pattern given twice always raises (`C73_conflict`).
43. With `NesterovStepper` the recorded training loss is the one at the look-ahead point
    theta + mu v, not at the parameters the network has before or after the update
    (`C77_training`, third part).
44. Outputs of recurrent layers have `T + 1` rows when they are read: the context row is
    returned by `net.get` and `extract` as if it were one more time step
    (`C79_extract`: the number of steps is `T + context_size`). A scorer that is given such
    an output as predictions compares arrays of different sizes, so `C79_scores` asks for
    outputs without context.
45. `FreezeValues()` "prevents the weights from changing at all" only after the first update:
    it remembers the weights when it is first called, and the trainer calls weight modifiers
    after the stepper (`C80_freeze_first`). `net.apply_weight_modifiers()` before training
    makes it true (`C80_freeze_before`). In the same way nothing is clipped, masked or
    constrained before the first update, so a first evaluation (`start` hooks) sees
    unconstrained weights.
46. `SaveBestNetwork` documents "Defaults to 'min'", but the default of `criterion` is `'max'`:
    with a loss as log entry and the default it keeps the worst network. It holds the parameters that
    belong to the logged value only if it is called at the counts of the monitor and after it
    (hypotheses of `C82_best`); otherwise it stores the current parameters with an old value.
    `load_best_network` without file raises `AttributeError` if there was no improvement yet
    (`best_parameters` is set but never used).
47. `Trainer.train` calls `stepper.start` each time, so a second `train` sets the velocities of
    `MomentumStepper` and `NesterovStepper` to zero while the trainer goes on counting: two trainings
    of n epochs are not one of 2 n epochs (`C81_resume` asks for equal velocities).
48. The `start` methods of the `MonitorLayer...` hooks and of `ProgressBar` do not call the one of
    `Hook`, so `run_verbosity` stays `None` and `message` prints nothing.
49. A monitor whose data iterator yields nothing raises in `_weighted_average` (its assertion on the
    shape), and so does an epoch without batches; `C82_runs` asks for data that are not empty.
50. A description of `FreezeValues(weights)` leaves the weights out (`__undescribed__`), so a network
    that is saved and loaded freezes whatever the first update leaves.
51. `Convolution2D` has the default activation `'rel'` in the function that makes its construction
    layer and `'tanh'` in the layer itself, so an architecture dictionary without `activation` makes
    another network than the wrapper without argument.
52. A numpy array is described by `tolist()` and comes back as a list, so a `MaskValues`
    object that is created from its description has a list instead of an
    array; `MaskValues` then fails at `self.mask.shape`.
53. Cutting batches according to a mask is only harmless if the data do not share a buffer with a
    recurrent layer: otherwise the error of C18 depends on the number of steps (assumption
    `DataAlone` of C87).
54. A layer called `seed` cannot be given an initializer by keyword: `Network.initialize` takes the
    argument of that name for its random seed. The dictionary form works.
55. An input that is fed by an output and by parameters (both of a type that is scaled neither with time
    nor with the batch, or their shapes could not be combined) makes `create_layout` fail on Python 3:
    `sorted` compares the name of the output with the tuple of the parameters (`C10_parameters`).
56. If a batch with sequences of one step follows a batch with longer sequences, `extract` and
    `extract_and_save` repeat this one step over all steps (numpy broadcasts the assignment), without any
    message (`C89_one_step`). For all other lengths the assignment raises.
57. A buffer name that is given twice makes `extract_and_save` fail (`C89_duplicate_name`), while `extract`
    silently returns zeros for the first batch (`C52_duplicate_name`).
58. `save_as_hdf5` truncates the file before anything is written. If the process dies while a network is being
    saved, then neither this network nor the one saved before can be loaded (`C90_one_file`). SaveNetwork and
    SaveBestNetwork always write to the same file. Two hooks with different files help (`C90_two_files`).
59. `save_as_hdf5` makes the description after it has truncated the file: if the network cannot be described
    (for instance an initializer `Gaussian(std=np.float32(0.1))`: `get_description` rejects this number), the
    network saved before is lost (`C90_undescribable`).

## Axioms

`AXIOMS.md` lists for every theorem named in `MANIFEST.json` the axioms printed
by `#print axioms`.
