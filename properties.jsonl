{"id": "C01", "title": "Layer names are unique inside a wired-up network", "statement": "However layers are created and wired with >>, any two different layers that end up connected to each other (directly or through other layers) report different names, and asking any layer for its name always returns a name (the search for a free index ends).", "quantifier": "every finite sequence of layer creations (any base names, including ones that already look like 'X_3') and >> operations, and every pair of connected layers after it", "why_tests_cant": "the clash cases depend on arbitrary base names colliding with generated indices and on the order in which separate pieces are joined; a test picks a few", "anchors": ["brainstorm/structure/construction.py:UniquelyNamed.name", "brainstorm/structure/construction.py:UniquelyNamed.merge_scopes", "brainstorm/structure/construction.py:ConstructionWrapper.__rshift__"]}
{"id": "C02", "title": "Layer names are the given name, or the given name plus an index in creation order", "statement": "A layer whose given name is used by no other connected layer is called exactly that; if several connected layers share it, each is called <given name>_<i> with a positive integer i, and among those i increases strictly with the order in which the layers were created, whatever the order in which they were wired.", "quantifier": "every construction history and every layer", "why_tests_cant": "order independence over all wirings is a statement about all interleavings of >>", "anchors": ["brainstorm/structure/construction.py:UniquelyNamed.name", "brainstorm/structure/construction.py:UniquelyNamed.merge_scopes"]}
{"id": "C03", "title": "The generated architecture does not depend on which layer you start from", "statement": "generate_architecture / Network.from_layer applied to any two layers of the same connected piece give the same architecture: exactly the connected layers, each once, each listing exactly the connections made from it with >> in the order they were made.", "quantifier": "every construction history, every pair of connected layers", "why_tests_cant": "graph reachability over arbitrary wirings, including cycles and repeated connections", "anchors": ["brainstorm/structure/architecture.py:generate_architecture", "brainstorm/structure/architecture.py:get_layer_description", "brainstorm/structure/construction.py:LayerDetails.collect_connected_layers"]}
{"id": "C04", "title": "Layers run in a topological order that exists exactly for acyclic architectures", "statement": "The canonical layer order contains every layer exactly once and places the start of every connection before its end; it is produced exactly when the connections have no cycle, otherwise network creation fails with an assertion naming the layers that could not be ordered.", "quantifier": "every architecture (any number of layers and connections, including self loops and dangling layers)", "why_tests_cant": "quantifies over all finite directed graphs", "anchors": ["brainstorm/structure/architecture.py:get_canonical_layer_order", "brainstorm/structure/architecture.py:instantiate_layers_from_architecture"]}
{"id": "C05", "title": "The layer order does not depend on dictionary order", "statement": "Two architectures that are equal as dictionaries (the same layers and connections, listed in any order) give the same canonical layer order and the same list of connections.", "quantifier": "every architecture and every reordering of its layers and of the connections inside a layer", "why_tests_cant": "dictionary order changes from run to run and between Python versions; tests see one order", "anchors": ["brainstorm/structure/architecture.py:get_canonical_layer_order", "brainstorm/structure/architecture.py:collect_all_connections"]}
{"id": "C06", "title": "Architecture validation accepts exactly the well-formed architectures", "statement": "Architecture validation succeeds exactly when every layer has a string type, every layer name is a legal identifier other than 'default' and 'fallback', every connection ends at a listed layer, there is a layer called 'Input' of type 'Input' and nothing connects to it; otherwise it raises a validation error. (A layer without an '@outgoing_connections' entry, which the schema check lets through, makes it crash with KeyError instead.)", "quantifier": "every architecture dictionary", "why_tests_cant": "decision logic over unbounded dictionaries", "anchors": ["brainstorm/structure/architecture.py:validate_architecture", "brainstorm/utils.py:is_valid_layer_name"]}
{"id": "C07", "title": "Short and long connection notations mean the same", "statement": "Listing outgoing connections as a plain list is the same as a dictionary with the single output 'default', and writing 'Layer' as a target is the same as 'Layer.default'; architectures generated from >> describe exactly the connections that were made (parsing the generated strings gives back layer and input names).", "quantifier": "every list of connection strings / every layer and input name", "why_tests_cant": "string splitting must invert string joining for all names", "anchors": ["brainstorm/structure/architecture.py:parse_connection", "brainstorm/structure/architecture.py:collect_all_outgoing_connections", "brainstorm/structure/architecture.py:get_layer_description"]}
{"id": "C08", "title": "Every array of the network belongs to exactly one memory hub and connections never cross hubs", "statement": "Grouping connected arrays into hubs partitions all arrays of the network: every source array lies in exactly one hub, every connection has both ends in the same hub, and two arrays share a hub only if a chain of connections (or the forced parameter order) links them.", "quantifier": "every set of sources and every list of connections", "why_tests_cant": "fix-point computation over arbitrary bipartite graphs", "anchors": ["brainstorm/structure/layout.py:get_forward_closure", "brainstorm/structure/layout.py:group_into_hubs", "brainstorm/structure/layout.py:merge_connections"]}
{"id": "C09", "title": "Several layers feeding one input are concatenated without gaps", "statement": "Inside a hub each source array gets a block of its own feature size, blocks are disjoint, lie in hub order and fill the hub exactly; and every sink (layer input, or the network-wide 'parameters'/'gradients') covers exactly the union of the blocks of the sources connected to it, or hub creation is rejected with an error.", "quantifier": "every hub: any sources, sizes, connection table and forced order", "why_tests_cant": "depends on a permutation search over all orders of the sources", "anchors": ["brainstorm/structure/layout.py:Hub.get_indices", "brainstorm/structure/layout.py:Hub.setup", "brainstorm/structure/layout.py:Hub.permute_rows", "brainstorm/structure/layout.py:Hub.can_be_connected_with_single_buffer"]}
{"id": "C10", "title": "A network is laid out whenever a contiguous layout exists", "statement": "The search for a source order succeeds whenever some order of the sources that respects the forced (parameter) order makes every sink contiguous, and fails with a NetworkValidationError exactly when there is none. For whole networks: if only outputs are connected to inputs, a layout is created exactly if the outputs of all layers can be put into one order in which the outputs connected to any one input stand next to each other; so always if every input has a single source. If parameters are connected to inputs too, a layout is created exactly if in addition the layers can be put into one order in which the parameters connected to any one input stand next to each other (those of a layer stay together in their order), and no input is fed by outputs as well as parameters.", "quantifier": "every hub connection table; every architecture of library layers", "why_tests_cant": "completeness of a search over all permutations", "anchors": ["brainstorm/structure/layout.py:Hub.permute_rows", "brainstorm/structure/layout.py:Hub.can_be_connected_with_single_buffer"]}
{"id": "C11", "title": "Parameters and gradients have identical layout", "statement": "The flat 'parameters' buffer contains every parameter array of every layer exactly once, and the flat 'gradients' buffer has the same length with the gradient of each parameter entry at the same position, so steppers can combine them elementwise.", "quantifier": "every network whose layout can be created", "why_tests_cant": "index alignment of two independently computed layouts for all architectures", "anchors": ["brainstorm/structure/layout.py:create_layout", "brainstorm/structure/layout.py:get_parameter_order", "brainstorm/structure/layout.py:get_gradient_order", "brainstorm/structure/layout.py:get_forced_orders"]}
{"id": "C12", "title": "Buffers of different hubs never overlap", "statement": "For every time size and batch size the hubs occupy consecutive disjoint regions of the single allocated buffer, filling it exactly, so two array entries share memory only if they are the same hub entry.", "quantifier": "every list of hubs, every time and batch size", "why_tests_cant": "address arithmetic over all shapes", "anchors": ["brainstorm/structure/buffers.py:get_total_size_slices_and_shapes", "brainstorm/structure/layout.py:Hub.get_shape"]}
{"id": "C13", "title": "Shape templates accept exactly the matching shapes", "statement": "A StructureTemplate matches a buffer structure exactly when they agree on the leading 'T'/'B' markers and every fixed feature size is equal, with 'F' standing for any one size and '...' for any list of sizes; the template that is only '...' leaves the leading markers open too and matches every structure.", "quantifier": "every template and every structure", "why_tests_cant": "decision logic over unbounded shapes", "anchors": ["brainstorm/structure/buffer_structure.py:StructureTemplate.matches"]}
{"id": "C14", "title": "Combining inputs concatenates the last feature dimension", "statement": "Connecting several sources to one input yields a shape whose last feature dimension is the sum of theirs and whose other dimensions equal theirs, independent of the order; mismatching types or leading dimensions are rejected. The memory seen through that shape is the elementwise last-dimension concatenation of the sources only when the leading feature dimensions are all 1 (or there is one source); for images it is not.", "quantifier": "every list of structures and all data", "why_tests_cant": "all shapes and all data", "anchors": ["brainstorm/structure/buffer_structure.py:combine_buffer_structures", "brainstorm/structure/layout.py:Hub.get_indices", "brainstorm/structure/buffer_structure.py:BufferStructure.create_from_buffer_hub"]}
{"id": "C15", "title": "Parameters survive every resize and handler change", "statement": "The values of all network parameters are unchanged by any sequence of provide_external_data calls with any time/batch sizes (growing or shrinking) and any handler changes, forward passes in between included as long as they do not write parameters.", "quantifier": "every sequence of resizes and handler changes", "why_tests_cant": "all histories", "anchors": ["brainstorm/structure/buffers.py:BufferManager.resize", "brainstorm/structure/buffers.py:BufferManager.set_handler"]}
{"id": "C16", "title": "Buffer memory only grows and every view has the requested size", "statement": "After any sequence of resizes the views have exactly the shapes of the last requested (time, batch) sizes, the allocated size is the maximum ever required since the last handler change, and a repeated request changes nothing.", "quantifier": "every sequence of resize requests", "why_tests_cant": "all histories", "anchors": ["brainstorm/structure/buffers.py:BufferManager.resize"]}
{"id": "C17", "title": "A backward pass starts from cleared deltas and leaves forward values alone", "statement": "Clearing the backward buffers sets every delta and gradient to zero and changes no output, internal forward value or parameter.", "quantifier": "every network layout and every buffer contents", "why_tests_cant": "all layouts and states", "anchors": ["brainstorm/structure/buffers.py:BufferManager.clear_backward_buffers", "brainstorm/structure/network.py:Network.backward_pass"]}
{"id": "C18", "title": "A forward pass uses the data that was provided", "statement": "The layers see in forward_pass exactly the values given to provide_external_data. (This fails in the code: when an input shares a hub with a recurrent output, clearing the context before the pass also erases the last time step of the external input.)", "quantifier": "every network layout, time size, batch size and data", "why_tests_cant": "depends on which arrays the layout puts in one hub", "anchors": ["brainstorm/structure/buffers.py:BufferManager.clear_context", "brainstorm/structure/network.py:Network.forward_pass"]}
{"id": "C19", "title": "Context hand-over continues a sequence exactly", "statement": "For simple recurrent and LSTM layers, running a sequence in pieces, passing get_context() of each piece as context of the next forward_pass, gives the same outputs as one pass over the whole sequence, for every way of cutting the sequence into non-empty pieces; the context of the last piece equals the context of the whole. (Not so for Clockwork layers, whose clock restarts with each piece.)", "quantifier": "every sequence, every cut into pieces, all parameters and all initial contexts", "why_tests_cant": "all lengths and cuts", "anchors": ["brainstorm/structure/buffers.py:BufferManager.get_context", "brainstorm/structure/buffers.py:BufferManager.apply_context", "brainstorm/layers/recurrent_layer.py:RecurrentLayerImpl.forward_pass", "brainstorm/layers/lstm_layer.py:LstmLayerImpl.forward_pass", "brainstorm/layers/clockwork_layer.py:ClockworkLayerImpl.forward_pass"]}
{"id": "C20", "title": "The outputs depend only on parameters, data and context", "statement": "The result of forward_pass is a function of the parameters, the provided data and the context: what earlier passes left in the buffers has no influence.", "quantifier": "every acyclic network, every pair of buffer contents agreeing on parameters and inputs", "why_tests_cant": "hidden state between calls; all histories", "anchors": ["brainstorm/structure/network.py:Network.forward_pass"]}
{"id": "C21", "title": "backward_pass computes the gradient of the total loss", "statement": "After forward_pass and backward_pass the gradients buffer holds the derivative of the sum of all loss outputs with respect to each parameter, for every acyclic network of layers whose own backward pass is correct and accumulates into its input deltas and gradients.", "quantifier": "every acyclic network, all parameters and data", "why_tests_cant": "gradient checks sample points and architectures", "anchors": ["brainstorm/structure/network.py:Network.backward_pass", "brainstorm/structure/network.py:Network.forward_pass"]}
{"id": "C22", "title": "Layer backward passes are the derivatives of their forward passes", "statement": "For each layer type the input deltas and parameter gradients added by backward_pass are the derivative of the forward pass contracted with the output deltas (fully connected, recurrent, LSTM, convolution, pooling, batch normalisation, highway, merge, mask, elementwise, loss, squared error, squared difference, softmax-CE, sigmoid-CE, binomial-CE, L1/L2, dropout); where the code deviates (dropout scale, LSTM with non-zero context) that is shown.", "quantifier": "all shapes, parameters, inputs and deltas", "why_tests_cant": "numerical gradient checks use random samples of fixed small shapes", "anchors": ["brainstorm/layers/fully_connected_layer.py", "brainstorm/layers/recurrent_layer.py", "brainstorm/layers/lstm_layer.py", "brainstorm/layers/convolution_layer_2d.py", "brainstorm/layers/dropout_layer.py", "brainstorm/layers/highway_layer.py"]}
{"id": "C23", "title": "Loss bookkeeping", "statement": "get_loss_values always contains 'total_loss', equal to the sum of the losses of all loss layers; with exactly one loss layer it is the only entry, otherwise there is one entry per loss layer as well.", "quantifier": "every network and every number of loss layers", "why_tests_cant": "all numbers and names of loss layers", "anchors": ["brainstorm/structure/network.py:Network.get_loss_values", "brainstorm/structure/network.py:_get_loss_layers"]}
{"id": "C24", "title": "Pattern dictionaries resolve as documented", "statement": "In initialize and set_*_modifiers every parameter gets the values of all patterns that match its layer and view name ('*' matches any run of identifier characters), a 'default' entry applies exactly where no other pattern of its dictionary matches, a nested default is inherited by deeper levels only where nothing is given, and a pattern that matches nothing is an error.", "quantifier": "every structure and every nested pattern dictionary", "why_tests_cant": "wildcard matching and inheritance over all nestings", "anchors": ["brainstorm/structure/view_references.py:resolve_references", "brainstorm/structure/view_references.py:get_key_to_references_mapping", "brainstorm/structure/view_references.py:apply_references_recursively"]}
{"id": "C25", "title": "Wildcards match by characters", "statement": "A reference with '*' matches a name exactly when the name can be obtained by replacing each '*' by some (possibly empty) string of letters, digits and underscores; a reference without '*' matches only itself.", "quantifier": "every reference and every layer name", "why_tests_cant": "regular expression semantics for all strings", "anchors": ["brainstorm/structure/view_references.py:get_regex_for_reference"]}
{"id": "C26", "title": "initialize either sets every parameter or fails, and is reproducible", "statement": "If initialize returns, every parameter view was set exactly once by its single resolved initializer (or its fallback when that one raised InitializationError), and the result depends only on the seed, the shapes and the initializers, not on dictionary order; if some view has none or several initializers it raises a NetworkValidationError.", "quantifier": "every set of parameter views, reference dictionary and seed", "why_tests_cant": "all layouts and dictionaries", "anchors": ["brainstorm/structure/network.py:Network.initialize", "brainstorm/initializers.py:evaluate_initializer"]}
{"id": "C27", "title": "Descriptions round-trip", "statement": "Creating an object from its description and describing it again gives the same description, and basic values (numbers, strings, booleans, None, lists, dictionaries without '@type') come back equal; tuples and arrays come back as lists.", "quantifier": "every describable value, arbitrarily nested", "why_tests_cant": "all nestings of all classes", "anchors": ["brainstorm/describable.py:get_description", "brainstorm/describable.py:create_from_description"]}
{"id": "C28", "title": "A saved network comes back with the same parameters", "statement": "Saving a network that has been initialised and loading it again gives a network with the same architecture, the same layer order and the same parameter values; a network that was saved without ever calling initialize cannot be loaded if it has parameters.", "quantifier": "every network", "why_tests_cant": "all architectures and parameter values", "anchors": ["brainstorm/structure/network.py:Network.save_as_hdf5", "brainstorm/structure/network.py:Network.from_hdf5", "brainstorm/structure/network.py:Network.__new_from_description__"]}
{"id": "C29", "title": "Seeded randomness is reproducible", "statement": "A random state draws the same values after set_seed(s) (or reset) as a fresh state created with seed s, whatever was drawn before, and two objects seeded through the same parent in the same order get the same seeds.", "quantifier": "every history of draws, seeds and resets", "why_tests_cant": "all histories", "anchors": ["brainstorm/randomness.py:RandomState", "brainstorm/randomness.py:Seedable"]}
{"id": "C30", "title": "Minibatches covers every sequence exactly once per epoch", "statement": "One pass of Minibatches yields each sequence exactly once, in batches of batch_size (the last one possibly smaller), and without shuffling in the original order; the number of batches is the announced length.", "quantifier": "every number of sequences, batch size and shuffle order", "why_tests_cant": "all sizes, boundary at non-divisible sizes", "anchors": ["brainstorm/data_iterators.py:Minibatches.__call__", "brainstorm/data_iterators.py:Minibatches.__init__"]}
{"id": "C31", "title": "Cutting to sequence length never drops unmasked data", "statement": "With a mask, each minibatch is cut to the last time step at which any of its sequences has a non-zero mask; no unmasked step is removed and at least one sequence has an unmasked step at the final kept time step.", "quantifier": "every mask and batch partition", "why_tests_cant": "all masks, including empty ones", "anchors": ["brainstorm/data_iterators.py:_calculate_lengths_from_mask", "brainstorm/data_iterators.py:Minibatches.__call__"]}
{"id": "C32", "title": "Data iterators do not change the user's data", "statement": "Iterating any number of times yields the same data (up to fresh randomness) and leaves the arrays given by the user unchanged. (False for wrappers around Undivided, which hand out and modify the stored dictionary, and for Flip, which flips in place.)", "quantifier": "every nesting of iterators and every number of passes", "why_tests_cant": "effects accumulate over repeated passes", "anchors": ["brainstorm/data_iterators.py:Undivided.__call__", "brainstorm/data_iterators.py:Pad.__call__", "brainstorm/data_iterators.py:Flip.__call__"]}
{"id": "C33", "title": "Image iterators move pixels only", "statement": "Pad puts the image in the middle of a constant frame (for pad size at least 1), RandomCrop returns a window of the image lying inside it, Flip reverses the width axis and is its own inverse, OneHot/MultiHot put ones exactly at the given indices.", "quantifier": "every image size, pad/crop size and random choice", "why_tests_cant": "all shapes", "anchors": ["brainstorm/data_iterators.py:Pad", "brainstorm/data_iterators.py:RandomCrop", "brainstorm/data_iterators.py:Flip", "brainstorm/data_iterators.py:OneHot", "brainstorm/handlers/_cpuop.pyx:_crop_images"]}
{"id": "C34", "title": "Training bookkeeping: hooks fire exactly at their interval", "statement": "During train a hook with timescale 'update'/'epoch' and interval k is called exactly at the update/epoch counts divisible by k (including 0, before training), in the order hooks were added, and each non-empty result is appended to its log.", "quantifier": "every set of hooks, every number of batches per epoch and every stopping behaviour", "why_tests_cant": "all schedules of hooks", "anchors": ["brainstorm/training/trainer.py:Trainer.train", "brainstorm/training/trainer.py:Trainer._emit_hooks", "brainstorm/training/trainer.py:Trainer._add_log"]}
{"id": "C35", "title": "A stop request ends training at the right moment", "statement": "When an update hook asks to stop, no further batch is processed but all hooks due at that update and at the end of the epoch still run; when an epoch hook asks to stop, no further epoch starts; a stop request before training (count 0) prevents any update.", "quantifier": "every set of hooks and every stopping time", "why_tests_cant": "all interleavings of hooks and batches", "anchors": ["brainstorm/training/trainer.py:Trainer.train", "brainstorm/training/trainer.py:Trainer._call_hook"]}
{"id": "C36", "title": "StopAfterEpoch(n) trains exactly n epochs", "statement": "With StopAfterEpoch(n) called every epoch and no other stopping hook, training runs exactly n epochs and n times the number of batches updates.", "quantifier": "every n and every number of batches per epoch", "why_tests_cant": "all n", "anchors": ["brainstorm/hooks.py:StopAfterEpoch", "brainstorm/training/trainer.py:Trainer.train"]}
{"id": "C37", "title": "Early stopping decision", "statement": "EarlyStopper(patience p) stops at the first check at which the logged value has not improved on its best for p further entries, i.e. exactly when the best value (first occurrence) is at least p entries before the newest one; it never stops earlier.", "quantifier": "every log history, criterion and patience", "why_tests_cant": "all histories", "anchors": ["brainstorm/hooks.py:EarlyStopper.__call__"]}
{"id": "C38", "title": "SaveBestNetwork keeps the best parameters", "statement": "After any run the stored parameters are those the network had at the first time the logged value reached its best value so far according to the criterion.", "quantifier": "every history of log values and parameters", "why_tests_cant": "all histories", "anchors": ["brainstorm/hooks.py:SaveBestNetwork.__call__"]}
{"id": "C39", "title": "Schedules follow their definition", "statement": "Linear starts at initial_value, moves by equal steps and stays at final_value from the last change on; Exponential multiplies by factor each interval and stays within [minimum, maximum]; MultiStep returns the value of the last passed step; DecreaseAfterEpoch is constant for T epochs and then proportional to 1/epoch.", "quantifier": "every schedule setting and every epoch/update count", "why_tests_cant": "all counts and boundaries", "anchors": ["brainstorm/training/schedules.py"]}
{"id": "C40", "title": "Stepper updates", "statement": "SGD moves the parameters by -learning_rate * gradient; momentum keeps the velocity equal to the exponentially weighted sum of all past gradients; Nesterov evaluates the gradient at the look-ahead point; with momentum 0 both equal SGD.", "quantifier": "every history of gradients, all learning rates and momenta", "why_tests_cant": "closed forms over all histories", "anchors": ["brainstorm/training/steppers.py:SgdStepper", "brainstorm/training/steppers.py:MomentumStepper", "brainstorm/training/steppers.py:NesterovStepper"]}
{"id": "C41", "title": "Evaluation does not depend on the batch size", "statement": "The averaged losses, accuracy, Hamming score and mean squared error reported by evaluate are the same for every way of cutting the data into consecutive batches.", "quantifier": "every data set and every partition into batches", "why_tests_cant": "all partitions", "anchors": ["brainstorm/scorers.py:gather_losses_and_scores", "brainstorm/scorers.py:aggregate_losses_and_scores", "brainstorm/tools.py:evaluate", "brainstorm/layers/loss_layer.py"]}
{"id": "C42", "title": "Scores are what their names say", "statement": "Accuracy is the fraction of unmasked positions where the (first) largest output equals the label, always between 0 and 1; Hamming is the fraction of correctly thresholded entries; a masked position never counts.", "quantifier": "every prediction, label and mask", "why_tests_cant": "all inputs incl. ties and thresholds", "anchors": ["brainstorm/scorers.py:Accuracy", "brainstorm/scorers.py:Hamming", "brainstorm/scorers.py:MeanSquaredError"]}
{"id": "C43", "title": "Weight modifiers enforce their constraint", "statement": "After ClipValues all weights lie in [low, high]; after ConstrainL2Norm every row has norm at most limit, rows already within the limit are unchanged and others keep their direction; after MaskValues masked weights are zero and others unchanged; each is idempotent.", "quantifier": "all weights", "why_tests_cant": "all real inputs", "anchors": ["brainstorm/value_modifiers.py:ClipValues", "brainstorm/value_modifiers.py:ConstrainL2Norm", "brainstorm/value_modifiers.py:MaskValues"]}
{"id": "C44", "title": "FreezeValues freezes", "statement": "After the first application the frozen weights have the same value after every later application, whatever updates happen in between and whatever handler changes occur.", "quantifier": "every history of updates and handler changes", "why_tests_cant": "all histories", "anchors": ["brainstorm/value_modifiers.py:FreezeValues.__call__"]}
{"id": "C45", "title": "Gradient modifiers add weight decay", "statement": "L1Decay/L2Decay add factor*sign(parameter) / factor*parameter to the gradient, which is the derivative of factor*|w| (w != 0) and factor*w^2/2, so minimising with them minimises the regularised loss.", "quantifier": "all parameters, gradients, factors", "why_tests_cant": "derivative statement over all reals", "anchors": ["brainstorm/value_modifiers.py:L1Decay", "brainstorm/value_modifiers.py:L2Decay"]}
{"id": "C46", "title": "Initializers stay in their documented range", "statement": "Uniform and DenseSqrtFanIn/InOut return values inside their documented interval for all draws in [0,1); SparseInputs/SparseOutputs leave at most 'connections' non-zero entries per column/row; LstmOptInit puts each sub-initializer in its quarter; shape errors raise InitializationError.", "quantifier": "every shape and every sequence of random draws", "why_tests_cant": "all draws", "anchors": ["brainstorm/initializers.py"]}
{"id": "C47", "title": "im2col-based convolution is convolution", "statement": "conv2d_forward_batch computes for every output pixel and filter the sum over the kernel window of input times weight (zero outside the image) plus bias, for all sizes, paddings and strides; col2im is the exact adjoint of im2col.", "quantifier": "all image sizes, kernels, paddings, strides, data", "why_tests_cant": "index arithmetic over all sizes", "anchors": ["brainstorm/handlers/_cpuop.pyx:im2col", "brainstorm/handlers/_cpuop.pyx:col2im", "brainstorm/handlers/numpy_handler.py:NumpyHandler.conv2d_forward_batch"]}
{"id": "C48", "title": "Pooling", "statement": "Max pooling outputs the maximum of the window clipped to the image and remembers a position attaining it, so that the backward pass adds the delta to exactly that input; average pooling divides by the number of real pixels and its backward pass is its adjoint.", "quantifier": "all sizes, windows, paddings, strides and data", "why_tests_cant": "index arithmetic over all sizes", "anchors": ["brainstorm/handlers/_cpuop.pyx:maxpool_forward", "brainstorm/handlers/_cpuop.pyx:maxpool_backward", "brainstorm/handlers/_cpuop.pyx:avgpool_forward", "brainstorm/handlers/_cpuop.pyx:avgpool_backward"]}
{"id": "C49", "title": "Activation functions and softmax", "statement": "The two-branch sigmoid equals 1/(1+exp(-x)), softmax outputs are positive and sum to 1 and are unchanged by adding a constant, and each *_deriv is the derivative of its activation expressed through the output (for rel and el away from the kink).", "quantifier": "all real inputs", "why_tests_cant": "all reals", "anchors": ["brainstorm/handlers/numpy_handler.py:NumpyHandler.sigmoid", "brainstorm/handlers/numpy_handler.py:NumpyHandler.softmax_m", "brainstorm/handlers/numpy_handler.py:NumpyHandler.rel_deriv"]}
{"id": "C50", "title": "Merge and split are inverse", "statement": "merge_tt followed by split_add_tt into zeros returns both parts; elementwise the merged array is the concatenation along the last axis.", "quantifier": "all shapes and data", "why_tests_cant": "all shapes", "anchors": ["brainstorm/handlers/numpy_handler.py:NumpyHandler.merge_tt", "brainstorm/handlers/numpy_handler.py:NumpyHandler.split_add_tt", "brainstorm/layers/merge_layer.py"]}
{"id": "C51", "title": "split and shuffle_data keep the examples", "statement": "split cuts all given arrays at the same places into consecutive parts that together are the original data, one part per ratio; shuffle_data applies one common permutation to all arrays, so examples stay aligned.", "quantifier": "every number of examples, ratios and permutation", "why_tests_cant": "rounding boundaries over all ratios", "anchors": ["brainstorm/tools.py:split", "brainstorm/tools.py:shuffle_data"]}
{"id": "C52", "title": "extract returns the buffer of every example in order", "statement": "extract over an unshuffled Minibatches iterator returns, for each requested (distinct) buffer, the concatenation over batches of that buffer along the example axis.", "quantifier": "every number of batches and batch sizes, every list of distinct buffer names", "why_tests_cant": "all partitions", "anchors": ["brainstorm/tools.py:extract"]}
{"id": "C53", "title": "Path helpers", "statement": "flatten_keys lists exactly the paths at which get_by_path finds a leaf; get_normalized_path removes '..' together with the preceding part; flatten and convert_to_nested_indices enumerate the leaves of a nested list in order as 0,1,2,...", "quantifier": "every nested dictionary / list", "why_tests_cant": "all nestings", "anchors": ["brainstorm/utils.py:get_by_path", "brainstorm/utils.py:flatten_keys", "brainstorm/utils.py:get_normalized_path", "brainstorm/utils.py:flatten", "brainstorm/utils.py:convert_to_nested_indices"]}
{"id": "C54", "title": "Hook order survives saving the trainer", "statement": "A trainer recreated from its description calls its hooks in the order in which they were added, as long as the hook objects are not shared with another trainer.", "quantifier": "every history of add_hook calls", "why_tests_cant": "all histories", "anchors": ["brainstorm/training/trainer.py:Trainer.add_hook", "brainstorm/training/trainer.py:Trainer.__init_from_description__"]}
{"id": "C55", "title": "Weight-shared or regularised parameters get all gradient contributions", "statement": "When a parameter is also connected to another layer (e.g. a loss on the weights), its gradient is the sum of both contributions. (Fails for FullyConnected and Convolution2D, whose backward pass overwrites the gradient; holds for Recurrent and LSTM.)", "quantifier": "every network connecting parameters to other layers", "why_tests_cant": "interaction of two layers through a shared buffer", "anchors": ["brainstorm/layers/fully_connected_layer.py:FullyConnectedLayerImpl.backward_pass", "brainstorm/layers/recurrent_layer.py:RecurrentLayerImpl.backward_pass", "brainstorm/structure/layout.py:get_backward_connection"]}
{"id": "C56", "title": "Convolution and pooling output shapes", "statement": "The declared output height and width are exactly the numbers of window positions inside the padded image, and every window read by the forward pass starts inside the padded image; a stride of 0 makes layer creation fail with ZeroDivisionError.", "quantifier": "all sizes, kernels, paddings, strides", "why_tests_cant": "arithmetic over all sizes", "anchors": ["brainstorm/layers/convolution_layer_2d.py:Convolution2DLayerImpl.setup", "brainstorm/layers/pooling_layer_2d.py:Pooling2DLayerImpl.setup", "brainstorm/handlers/_cpuop.pyx:im2col"]}
{"id": "C57", "title": "Masked steps carry no error", "statement": "A Mask layer makes outputs and input deltas zero exactly where the mask is zero and passes them through where it is one; the loss and all gradients of a masked network do not depend on values at masked steps (for layers without recurrence).", "quantifier": "all data and masks", "why_tests_cant": "all inputs", "anchors": ["brainstorm/layers/mask_layer.py"]}
{"id": "C58", "title": "Batch normalisation statistics", "statement": "In a training pass the normalised activations have mean zero and variance v/(v+eps) per feature over time and batch, the stored statistics are the exponential moving averages of the batch statistics, and a non-training pass changes no statistics.", "quantifier": "all data and histories", "why_tests_cant": "all reals and histories", "anchors": ["brainstorm/layers/batch_normalization_layer.py"]}
{"id": "C59", "title": "Running the same description twice gives the same network", "statement": "Instantiating layers computes each layer's input shapes only from layers earlier in the canonical order and gives the same result for every dictionary order and every iteration order of the incoming connection sets.", "quantifier": "every architecture", "why_tests_cant": "set iteration order varies between runs", "anchors": ["brainstorm/structure/architecture.py:instantiate_layers_from_architecture", "brainstorm/structure/buffer_structure.py:combine_buffer_structures"]}
{"id": "C60", "title": "Flattened arrays are windows into the buffers", "statement": "The flattened forms of the arrays handed to a layer (time and batch merged, features merged, all but the last dimension merged) show the same numbers in the same order, and writing into the flattened form writes the buffer itself. (Holds for merging time and batch; merging all but the last dimension of an array with several feature dimensions that shares its memory hub with another array makes a copy, so that what is written is lost; contiguous arrays, which pooling needs, are exactly those alone in their hub or with at most one row.)", "quantifier": "all shapes, hubs and offsets", "why_tests_cant": "all memory layouts", "anchors": ["brainstorm/utils.py:flatten_time", "brainstorm/utils.py:flatten_time_and_features", "brainstorm/utils.py:flatten_all_but_last", "brainstorm/structure/buffers.py:create_buffer_views_from_layout"]}
{"id": "C61", "title": "Layers compute their documented functions", "statement": "The forward pass of every layer type (fully connected, elementwise, highway, merge, mask, dropout, recurrent, LSTM, clockwork variants, batch normalisation and the loss layers) writes exactly the function of inputs, parameters and context its documentation gives, at every time step, sequence and feature.", "quantifier": "all sizes, all parameters and data (real numbers), all lengths", "why_tests_cant": "all inputs and all sequence lengths; tests compare a few random arrays with a tolerance", "anchors": ["brainstorm/layers/fully_connected_layer.py", "brainstorm/layers/recurrent_layer.py", "brainstorm/layers/lstm_layer.py", "brainstorm/layers/clockwork_layer.py", "brainstorm/layers/clockwork_lstm_layer.py", "brainstorm/layers/highway_layer.py", "brainstorm/layers/dropout_layer.py", "brainstorm/layers/loss_layer.py", "brainstorm/layers/softmax_ce_layer.py", "brainstorm/layers/sigmoid_ce_layer.py", "brainstorm/layers/binomial_cross_entropy_layer.py", "brainstorm/layers/squared_difference_layer.py", "brainstorm/layers/squared_error_layer.py", "brainstorm/layers/merge_layer.py", "brainstorm/layers/mask_layer.py", "brainstorm/layers/batch_normalization_layer.py"]}
{"id": "C62", "title": "Installed modifiers act on exactly the weights they name", "statement": "After set_weight_modifiers or set_gradient_modifiers a weight is changed by exactly the modifiers whose reference names it, in the order listed, by copies of its own (state and random numbers are not shared between weights), and no other weight or gradient changes.", "quantifier": "every network, every nested dictionary of references with wildcards and lists of modifiers, every number of applications", "why_tests_cant": "all references and histories", "anchors": ["brainstorm/structure/network.py:Network.set_weight_modifiers", "brainstorm/structure/network.py:Network.set_gradient_modifiers", "brainstorm/structure/network.py:Network.apply_weight_modifiers", "brainstorm/structure/network.py:Network.apply_gradient_modifiers", "brainstorm/structure/view_references.py:order_and_copy_modifiers", "brainstorm/value_modifiers.py"]}
{"id": "C63", "title": "Networks of library layers always get memory of the declared shapes", "statement": "Every layer type of the library, whatever its name, keyword arguments and input shapes, either refuses to be set up or declares only legal structures with distinct plain names, unscaled parameters and matching delta buffers; so every architecture of library layers that can be instantiated and laid out gets buffers, and for every number of time steps and sequences each input, output, parameter, internal buffer, delta and gradient is an array of distinct cells with exactly the declared shape.", "quantifier": "all 24 layer types, all keyword arguments and input shapes, all architectures, all time and batch sizes", "why_tests_cant": "all combinations of layer types, sizes and connections", "anchors": ["brainstorm/structure/architecture.py:instantiate_layers_from_architecture", "brainstorm/structure/layout.py:create_layout", "brainstorm/structure/buffers.py:BufferManager", "brainstorm/layers/base_layer.py:Layer.__init__", "brainstorm/layers/fully_connected_layer.py:FullyConnectedLayerImpl.setup", "brainstorm/layers/lstm_layer.py:LstmLayerImpl.setup", "brainstorm/layers/convolution_layer_2d.py:Convolution2DLayerImpl.setup", "brainstorm/layers/merge_layer.py:MergeLayerImpl.setup"]}
{"id": "C64", "title": "Passes never fail because of array shapes", "statement": "If a network of library layers can be created, then the forward pass (training or not) and the backward pass of each layer complete for every number of time steps and sequences: no operation meets arrays of shapes it does not accept, no reshape changes the number of elements and no index is out of range. (Three exceptions, each proved: an activation function that does not exist, a binomial cross entropy of images, and merging or classifying inputs of width 0.)", "quantifier": "all architectures of the 24 library layer types, all keyword arguments, all time and batch sizes", "why_tests_cant": "all combinations of layer types, sizes, connections and input sizes", "anchors": ["brainstorm/layers/fully_connected_layer.py", "brainstorm/layers/lstm_layer.py", "brainstorm/layers/clockwork_lstm_layer.py", "brainstorm/layers/recurrent_layer.py", "brainstorm/layers/convolution_layer_2d.py", "brainstorm/layers/pooling_layer_2d.py", "brainstorm/layers/batch_normalization_layer.py", "brainstorm/layers/binomial_cross_entropy_layer.py", "brainstorm/layers/merge_layer.py", "brainstorm/handlers/numpy_handler.py", "brainstorm/handlers/debug_handler.py"]}
{"id": "C65", "title": "GPU and CPU handlers compute the same", "statement": "Every operation of the GPU handler that runs a kernel of its own (convolution and pooling in both directions, elementwise operations and activation functions with their derivatives, matrix-vector operations, softmax, one-hot coding, indexing, broadcasting, merging and splitting) leaves in its output arrays what the CPU handler leaves there, however the hardware schedules the threads, and reads and writes only inside the arrays. (Three exceptions, each proved: merging and splitting ignore all rows from number 98304 on; the modulo of the GPU handler is right only for non-negative whole numbers; one-hot coding treats fractional class numbers differently.)", "quantifier": "all array sizes and contents, all kernel, padding and stride sizes, all interleavings of the instructions of all threads", "why_tests_cant": "all sizes and all schedules of the threads; tests compare a few small arrays on one device", "anchors": ["brainstorm/handlers/pycuda_handler.py:PyCudaHandler", "brainstorm/handlers/numpy_handler.py:NumpyHandler", "brainstorm/handlers/_cpuop.pyx"]}
{"id": "C66", "title": "The library's hooks in a training run", "statement": "In every training run: an early stopper asks to stop exactly when the best value of its log, as it is at that moment, is at least `patience` entries old; a threshold hook exactly when some entry has reached the threshold; the NaN hook exactly when a watched number is not finite; SaveBestNetwork holds the parameters the network had when the best value was logged; a step-size schedule gives every update the value of the last due count before it; monitors and the progress bar change neither the network, nor the other logs, nor when training ends; a saved log file reads back as the logs. (Exceptions, each proved: a threshold hook whose log does not exist yet makes training fail at the start; the monitor of layer deltas always fails; a progress bar makes every second call of train end at once, or fail after a stop within an epoch.)", "quantifier": "every network, stepper, data iterator and combination of hooks, every history of logs, every number of epochs and updates, repeated training", "why_tests_cant": "all histories and combinations of hooks", "anchors": ["brainstorm/hooks.py", "brainstorm/training/trainer.py:Trainer.train", "brainstorm/training/trainer.py:Trainer._emit_hooks", "brainstorm/training/schedules.py", "brainstorm/utils.py:progress_bar", "brainstorm/utils.py:get_by_path"]}
{"id": "C67", "title": "Networks built with get_in_out_layers", "statement": "Putting any layers in a row between the two layers that get_in_out_layers returns and creating the network, at any point of a program that builds other networks too, gives a network that consists of exactly these layers and of the projection, output, input, loss (and mask) layers, each with its own name, and whose connections are exactly: input, row, projection, output in a chain, the targets (and the mask) from the input layer, and the loss. It can be built exactly for the three tasks and for outputs of one or three dimensions or with use_conv given.", "quantifier": "all tasks, shapes, names and mask options, all rows of layers, all programs before it", "why_tests_cant": "all combinations of options and all construction histories", "anchors": ["brainstorm/tools.py:get_in_out_layers", "brainstorm/structure/construction.py:ConstructionWrapper", "brainstorm/structure/architecture.py:generate_architecture"]}
{"id": "C68", "title": "A spec line means the network it describes", "statement": "create_net_from_spec turns every line in which layers are written as documented (letter, optional activation or pooling type, numbers, padding and stride, with white space and separators anywhere) into the network with exactly these layers in this order, with the written sizes and the documented defaults; if every window fits into its picture, this network can be created, each layer gets data of the shape the layers before it give, and the predictions have the wanted shape. (Exceptions, each proved: capital letters that touch make it fail, white space inside numbers is not ignored, a probability without decimal point is refused, surplus arguments and other text are skipped silently, and data under another name than 'default' never give a network.)", "quantifier": "all lines, all sequences of layers, all numbers, all ways to place white space and separators", "why_tests_cant": "infinitely many lines and ways to write the same network", "anchors": ["brainstorm/tools.py:create_net_from_spec", "brainstorm/tools.py:create_layer", "brainstorm/tools.py:trynumber"]}
{"id": "C69", "title": "Iterators that add noise", "statement": "AddGaussianNoise and AddSaltNPepper give one batch for each batch of the iterator they wrap, with the same names and shapes and with all items that are not mentioned unchanged. Every entry x of a mentioned item becomes x + std * z + mean, or 0, 1 or x according to its random number, where each entry of each item of each batch has a random number of its own; with uniform random numbers pepper (0) has probability p * (1 - ratio), salt (1) has p * ratio and the entry stays with probability 1 - p. They can be made exactly if all mentioned items exist and means or ratios, if given, are given for the same items. (Exception, proved: with p = 0 an entry whose random number is 0 is still set to 0.)", "quantifier": "all wrapped iterators and batches, all settings, all streams of random numbers", "why_tests_cant": "all data and all random streams; probabilities cannot be settled by samples", "anchors": ["brainstorm/data_iterators.py:AddGaussianNoise", "brainstorm/data_iterators.py:AddSaltNPepper"]}
{"id": "C70", "title": "Buffers are reachable by name", "statement": "net.get('Layer.category.buffer') gives the array of exactly that buffer for the current time and batch size, at every point of every sequence of size changes, and so do net.get('parameters') and net.get('gradients'); every other string raises an exception. Each view gives the same children by name, by attribute, by number and as pairs, and a view kept by the user stays the view of the network and shows the new arrays after a size change. (Exceptions, each proved: a layer or input called 'adjust', 'items' or 'parameters' hides what the library itself needs, so that the network fails when sizes change, when it is initialized, or when it is created.)", "quantifier": "all networks, all strings, all sequences of sizes", "why_tests_cant": "all names, all strings and all histories of size changes", "anchors": ["brainstorm/structure/buffer_views.py:BufferView", "brainstorm/structure/buffers.py:create_buffer_views_from_layout", "brainstorm/structure/network.py:Network.get", "brainstorm/utils.py:get_by_path"]}
{"id": "C71", "title": "Deltas are laid out like the values they belong to", "statement": "In every network without connections from internal buffers, the deltas of each input and output, the gradients of each parameter and all gradients together lie, in a different hub of the same size, type and context, at exactly the slice at which the values they belong to lie in theirs; two arrays of values lie in the same hub exactly if their deltas do. So for every number of time steps and sequences, deltas have the shape of the values, deltas overlap exactly where values do, and the deltas a layer writes for its input are the deltas of the outputs and parameters that input consists of.", "quantifier": "all networks without connections from internal buffers, all shapes, all time and batch sizes", "why_tests_cant": "all networks; the layout algorithm sorts and permutes buffers of values and of deltas separately", "anchors": ["brainstorm/structure/layout.py:create_layout", "brainstorm/structure/layout.py:get_backward_connection", "brainstorm/structure/layout.py:get_forced_orders", "brainstorm/structure/layout.py:gather_array_nodes", "brainstorm/structure/layout.py:Hub.create"]}
{"id": "C72", "title": "Gradients in the memory of the network", "statement": "In every network whose connections lead from outputs and parameters to inputs, whose layers are in topological order, keep to their own arrays and differentiate correctly, for every number of time steps and sequences: after forward_pass and backward_pass the i-th number of the flat array net.buffer.gradients (and of each layer's gradient array) is the derivative of the total loss with respect to the i-th parameter, and the output deltas of the Input layer are the derivatives with respect to the data, although outputs, parameters and their deltas of different layers share one memory in which they partly overlap; outputs depend on nothing but parameters, data and context; neither pass changes parameters; and a second forward pass gives the same outputs.", "quantifier": "all networks, all layouts, all time and batch sizes, all layers that are right by themselves, all contents of the memory", "why_tests_cant": "all networks and memories; a single overlap of arrays would silently change gradients", "anchors": ["brainstorm/structure/network.py:Network.forward_pass", "brainstorm/structure/network.py:Network.backward_pass", "brainstorm/structure/network.py:Network.get_loss_values", "brainstorm/structure/buffers.py:BufferManager.clear_backward_buffers", "brainstorm/structure/layout.py:create_layout"]}
{"id": "C73", "title": "The ways to pass initializers and modifiers are equivalent", "statement": "initialize(x), initialize({'default': x}) and initialize(default=x) do the same, initialize(d) and initialize(**d) do the same, and a dictionary together with keyword arguments without common patterns means the dictionary of both; the same holds for set_weight_modifiers and set_gradient_modifiers. A list or array given for a weight is what is written to it. Calling initialize(d) again with the same seed writes the same values. (Exceptions, each proved: keyword arguments do not take precedence as documented, the call fails; and the dictionary of the caller is changed, so that the same call with a dictionary and keyword arguments always fails the second time.)", "quantifier": "all dictionaries, keyword arguments, nestings and networks", "why_tests_cant": "all combinations of arguments and histories of calls", "anchors": ["brainstorm/structure/network.py:Network.initialize", "brainstorm/structure/network.py:Network.set_weight_modifiers", "brainstorm/structure/network.py:Network.set_gradient_modifiers", "brainstorm/structure/network.py:_update_references_with_dict", "brainstorm/structure/network.py:_replace_lists_with_array_initializers"]}
{"id": "C74", "title": "Networks of library layers compute derivatives in their memory", "statement": "In every network made of layers of the library (FullyConnected, Elementwise, NoOp, Highway, Merge, Mask, Dropout, SquaredDifference, SquaredError, SigmoidCE, SoftmaxCE, BinomialCrossEntropy, L1Decay, L2Decay, Loss, Recurrent, Clockwork, Lstm, ClockworkLstm, Convolution2D, Pooling2D), laid out in memory, for every number of time steps and sequences and every content of the memory at which no layer has a kink: after forward_pass and backward_pass the i-th number of net.buffer.gradients is the derivative of the total loss with respect to the i-th parameter (except timing arrays), and the deltas of the data are the derivatives with respect to the data (except targets and masks). After forward_pass, the outputs of every layer are the function the layer stands for, of the inputs and parameters then in memory. This assumes that targets and masks come from the Input layer, that predictions and losses are not connected any further, and that the parameters of FullyConnected and Convolution2D layers are not connected to other layers.", "quantifier": "all networks of these layers, all layouts, shapes, time and batch sizes, all contents of the memory", "why_tests_cant": "all networks and memories; gradient checks cover single layers at a few points", "anchors": ["brainstorm/structure/network.py:Network.forward_pass", "brainstorm/structure/network.py:Network.backward_pass", "brainstorm/structure/layout.py:create_layout", "brainstorm/layers/"]}
{"id": "C75", "title": "An accepted architecture trains with the right gradients", "statement": "For every architecture of library layers (with one Input layer, no BatchNorm or DeltasScaling layer, targets and masks connected to the Input layer, predictions, losses, internals and the parameters of FullyConnected and Convolution2D layers not connected any further, and no output connected twice to the same layer) that is accepted by the network constructor: the Input layer comes first, every other layer computes the function that its @type and keyword arguments say (activation function, size, kernel, stride, padding, drop probability, importance, with the defaults of the layer class), and after forward_pass and backward_pass every number in net.buffer.gradients is the derivative of the total loss with respect to the parameter at the same position (except timing arrays), wherever no layer has a kink; if all layers are of types that are differentiable everywhere, this is so for all contents of the memory.", "quantifier": "all architectures, keyword arguments, orders in which sets are enumerated, time and batch sizes, all contents of the memory", "why_tests_cant": "all architectures and memories; gradient checks cover single layers and a few networks at a few points", "anchors": ["brainstorm/structure/network.py:Network.from_architecture", "brainstorm/structure/network.py:Network.forward_pass", "brainstorm/structure/network.py:Network.backward_pass", "brainstorm/layers/base_layer.py:Layer.__init__", "brainstorm/structure/layout.py:create_layout"]}
{"id": "C76", "title": "The forward pass computes what the architecture says", "statement": "In every accepted architecture of library layers (as in C75), for every number of time steps and sequences and whatever was in the memory before: after forward_pass the arrays of each layer, by name and position (net.get('Layer.outputs.default') and so on), fit together by the formula of its layer type with its keyword arguments, e.g. activation(W x + bias) for FullyConnected, the LSTM equations with the row before (the context row at step 0), zero padded cross-correlations, softmax and cross-entropies; each input of a layer is exactly the outputs and parameters that the architecture connects to it, side by side without gap or overlap; and the gradients are the derivatives of the very number that get_loss_values() reports as 'total_loss'.", "quantifier": "all architectures, keyword arguments, time and batch sizes, all contents of the memory", "why_tests_cant": "all architectures and memories; tests run single layers or a few networks", "anchors": ["brainstorm/structure/network.py:Network.forward_pass", "brainstorm/structure/network.py:Network.get_loss_values", "brainstorm/structure/layout.py:create_layout", "brainstorm/layers/"]}
{"id": "C77", "title": "Training is gradient descent on the reported loss", "statement": "For every accepted architecture of library layers (as in C75), from every state the network can be in (whatever data, handlers, assignments and passes came before): giving it a batch and calling forward_pass reports the loss that a new network with the same parameters would report for that batch, and leaves the parameters alone. If the layers are of types that are differentiable everywhere and there is no Clockwork layer, then the array 'gradients' holds after backward_pass the partial derivatives of that loss, and Trainer.train follows, for any number of updates, on batches of any varying sizes and with learning rate and momentum that may change from update to update, exactly: with SgdStepper theta - lr grad(theta); with MomentumStepper v := mu v - rate grad(theta), theta := theta + v, with v = 0 at first; with NesterovStepper the same with the gradient taken at theta + mu v; the recorded losses are those of the parameters at which the gradients were taken; and evaluations of the network by hooks between updates, on other data of other sizes, make no difference to any of this.", "quantifier": "all architectures, histories, batches, sizes, learning rates, numbers of updates, evaluations in between", "why_tests_cant": "all histories and numbers of updates; a number left over in memory from an earlier batch or evaluation would silently change training", "anchors": ["brainstorm/training/trainer.py:Trainer.train", "brainstorm/training/steppers.py:SgdStepper.run", "brainstorm/training/steppers.py:MomentumStepper.run", "brainstorm/training/steppers.py:NesterovStepper.run", "brainstorm/structure/network.py:Network.forward_pass", "brainstorm/structure/network.py:Network.backward_pass", "brainstorm/structure/network.py:Network.provide_external_data", "brainstorm/structure/buffers.py:BufferManager"]}
{"id": "C78", "title": "What a network computes for a sequence depends only on that sequence up to now", "statement": "For every accepted architecture of library layers (as in C75) and every two states the network can be in (whatever was done before) with the same parameters: if a sequence of one batch and a sequence of another batch begin with the same n steps of data, then after provide_external_data and forward_pass every output of every layer has the same values in these n steps of these two sequences, whatever the other sequences, the later steps, the sizes of the two batches and the random numbers are. And if long sequences are given in pieces, with forward_pass(context=net.get_context()) from the second piece on, then the outputs of every layer in each piece are those in the corresponding steps when the whole sequences are given at once, for any number of pieces of any lengths. (Except: Loss layers, which add up sequences; Dropout in training passes; Clockwork layers in pieces, which start their clocks anew, see C19; and data that share a buffer with a recurrent layer, whose last step is erased, see C18.)", "quantifier": "all architectures, states, batches, sizes, positions in the batch, numbers and lengths of pieces", "why_tests_cant": "all batches and sizes; one wrong stride or one number left over from another sequence or an earlier pass would mix up sequences", "anchors": ["brainstorm/structure/network.py:Network.provide_external_data", "brainstorm/structure/network.py:Network.forward_pass", "brainstorm/structure/network.py:Network.get_context", "brainstorm/structure/buffers.py:BufferManager.apply_context", "brainstorm/structure/buffers.py:BufferManager.get_context", "brainstorm/structure/buffers.py:BufferManager.clear_context", "brainstorm/layers/"]}
{"id": "C79", "title": "Evaluation and extraction do not depend on how the data are divided into batches", "statement": "For every accepted architecture of library layers (as in C75) and every two states the network can be in (whatever was done before) with the same parameters: if sequences of equal length are distributed over any number of batches of any sizes, then every loss and every score (Accuracy, Hamming, MeanSquaredError, with or without mask) that evaluate returns is the one it returns for all sequences in one batch, 'total_loss' is what get_loss_values() reports after one forward pass over all sequences, and extract returns for every requested output (with time and batch axes) an array of all sequences, in order, which holds at every time step what the network holds there after one forward pass over all sequences. (Arrays of recurrent layers have one more row than there are steps: the context.)", "quantifier": "all architectures, states, data, numbers and sizes of batches, scorers, masks, requested outputs", "why_tests_cant": "all ways to divide the data; a wrong weight, a wrong stride or a number left over from the batch before would change results only for some sizes", "anchors": ["brainstorm/tools.py:evaluate", "brainstorm/tools.py:extract", "brainstorm/scorers.py:gather_losses_and_scores", "brainstorm/scorers.py:aggregate_losses_and_scores", "brainstorm/scorers.py:_weighted_average", "brainstorm/training/utils.py:run_network", "brainstorm/structure/network.py:Network.get_loss_values", "brainstorm/layers/loss_layer.py:LossLayerImpl"]}
{"id": "C80", "title": "Training with modifiers follows the modified gradients and keeps the constraints", "statement": "For every accepted architecture of library layers (as in C75) with any weight and gradient modifiers of the library installed (masks and weights of the right size), from every state the network can be in: in every update of Trainer.train, each gradient array that the stepper uses is the gradient of the loss of the batch (C77) changed by the gradient modifiers installed for that parameter, one after the other, and each parameter afterwards is what SgdStepper, MomentumStepper or NesterovStepper makes of it changed by its weight modifiers, one after the other; other parameters are not touched, evaluations in between make no difference, and the recorded losses are the plain losses. In particular, with any stepper (also one written by the user), after every update a parameter whose last modifier is ClipValues lies between the bounds, one with MaskValues is zero where the mask is, one with FreezeValues(weights) has these weights, one with FreezeValues() still has the values that the first update left (or, if apply_weight_modifiers() was called before training, the values from then), and no row of one with ConstrainL2Norm is longer than the limit (as long as numbers do not overflow). With L2Decay(f) on all parameters, training with SgdStepper is gradient descent on the loss plus f/2 times the sum of squares of the parameters.", "quantifier": "all architectures, histories, modifiers and lists of modifiers, batches, sizes, learning rates, numbers of updates, steppers", "why_tests_cant": "all histories, lists of modifiers and numbers of updates; tests call single modifiers once", "anchors": ["brainstorm/training/trainer.py:Trainer.train", "brainstorm/training/utils.py:run_network", "brainstorm/structure/network.py:Network.apply_weight_modifiers", "brainstorm/structure/network.py:Network.apply_gradient_modifiers", "brainstorm/structure/network.py:Network.backward_pass", "brainstorm/value_modifiers.py", "brainstorm/training/steppers.py"]}
{"id": "C81", "title": "Gradients and trainings depend only on parameters and data, not on the history of the network", "statement": "For every accepted architecture of library layers (as in C75, including rectified, dropout, max-pooling and clockwork layers, which C77 and C80 exclude) and every state the network can be in: after provide_external_data, forward_pass and backward_pass, net.buffer.gradients and the reported loss are those that a newly created network with the same parameters computes from the same batch (and the same random numbers); at parameters where no layer has a kink the gradients are the derivatives of the loss. Hence two trainings with SgdStepper, MomentumStepper or NesterovStepper that start with the same parameters, velocities and modifiers and see the same batches record the same losses and end with the same parameters, velocities and modifiers, whatever was done with the networks before and whatever hooks evaluate in between; and a training that is interrupted after any number of updates and continued in another (for example new) network with the same parameters, velocities and modifiers records the same losses and reaches the same parameters as the uninterrupted one; the same is true if set_handler is called, at any time, with a handler that computes the same. (With Dropout layers this holds for training passes: after a pass for evaluation, backward_pass uses an old mask.)", "quantifier": "all architectures of library layers, sizes, batches, parameters, reachable states, steppers, learning rates, momenta, modifiers, numbers of updates and points of interruption", "why_tests_cant": "tests compare a few runs from fresh networks; stale contents of buffers show up only after particular histories", "anchors": ["brainstorm/training/trainer.py:Trainer.train", "brainstorm/training/steppers.py", "brainstorm/structure/network.py:Network.forward_pass", "brainstorm/structure/network.py:Network.backward_pass", "brainstorm/structure/buffers.py:BufferManager"]}
{"id": "C82", "title": "Hooks do not influence training, and what they report and keep belongs to the parameters of that moment", "statement": "For every accepted architecture of library layers (as in C75), every state the network can be in and every stepper of the library with any modifiers: Trainer.train with any hooks of the library does the same to parameters, velocities and modifiers as the bare loop over the batches of all epochs without hooks, with the learning rates and momenta that the stepper has at each update; evaluations by hooks in between make no difference, and no batch raises. The loss in 'rolling_training' at the end of an epoch is the average of the losses of the batches of that epoch (weighted by the numbers of sequences), and what MonitorLoss or MonitorScores logs as 'total_loss' is the average loss that a new network with the parameters of that moment has on the data of the monitor. If SaveBestNetwork watches this loss and is called after the monitor on the same timescale, then after every training it holds the parameters that the loop had at the moment when the loss was best (the first one, if there are more), among all moments when it was called. With one ModifyStepperAttribute hook on the update timescale with interval i, update number k (from 0) uses the learning rate that the schedule gives for i * (k div i). And a new trainer whose hooks are monitors of losses (on data that are not empty), SaveBestNetwork for these losses, schedules and watchers that do not raise themselves never raises, for any number of epochs.", "quantifier": "all architectures of library layers, states, steppers, modifiers, data and numbers of batches in each epoch, lists of hooks with timescales and intervals, numbers of epochs, points where hooks stop the training", "why_tests_cant": "tests run a few epochs with one hook; whether a hook disturbs training, or a reported or saved value belongs to other parameters, depends on the combination of hooks, intervals, batch sizes and histories", "anchors": ["brainstorm/training/trainer.py:Trainer.train", "brainstorm/training/trainer.py:Trainer._emit_hooks", "brainstorm/hooks.py:MonitorLoss", "brainstorm/hooks.py:MonitorScores", "brainstorm/hooks.py:SaveBestNetwork", "brainstorm/hooks.py:ModifyStepperAttribute", "brainstorm/scorers.py:aggregate_losses_and_scores", "brainstorm/tools.py:evaluate"]}
{"id": "C83", "title": "A network that is saved and loaded again behaves as the original", "statement": "For every accepted architecture of library layers (as in C75) and every state the network can be in (whatever was done before): if what Network.save_as_hdf5 stores of it (architecture and parameters) is read by Network.from_hdf5, loading gives exactly the layers of the saved network, however the file lists layers and connections; it succeeds whatever initialize assigns before the parameters are restored; and all parameters of all layers are those of the original. When the two networks then process the same batch (with the same random numbers, if Dropout layers are in training mode), every output of every layer and the reported losses are equal. A training of the loaded network records the same losses and ends with the same parameters as if the original had gone on, with the same modifiers and what the stepper remembers. And if SaveBestNetwork watched the loss on some data during a training, a network loaded with the parameters it stored has on these data exactly the best loss that was remembered. (JSON and HDF5 are assumed to give back what was stored; initializers that cannot be created again are the subject of C28.)", "quantifier": "all architectures of library layers, states and histories, orders in the file, initial values, batches and their sizes, modes, steppers, modifiers, numbers of updates, hooks", "why_tests_cant": "tests compare one saved and loaded network with the original right after creation; a view that is not refreshed, a parameter that initialize overwrites later or a left-over context row would show only for some networks and histories", "anchors": ["brainstorm/structure/network.py:Network.save_as_hdf5", "brainstorm/structure/network.py:Network.from_hdf5", "brainstorm/structure/network.py:Network.set_handler", "brainstorm/structure/network.py:Network.initialize", "brainstorm/structure/buffers.py:BufferManager", "brainstorm/hooks.py:SaveBestNetwork"]}
{"id": "C84", "title": "The gradients are the derivative of the loss in all directions, and small steps decrease it", "statement": "For every accepted architecture of library layers (as in C75, clockwork and dropout layers included), from every state the network can be in, at parameters where no layer has a kink: when all parameters move at once along any differentiable curve that leaves the periods of clockwork layers alone, the loss that the network reports for the batch changes at the rate given by the sum of gradients times velocities; without clockwork layers the loss is (totally) differentiable in the parameters and net.buffer.gradients is its derivative. Hence one update by SgdStepper with any learning rate below some positive bound leads to parameters whose loss on the batch is below the recorded loss by at least half of the learning rate times the squared norm of the gradients. And the steppers never change the periods of clockwork layers, for any number of updates, batches, learning rates and momenta (unless the periods are connected to a regularization).", "quantifier": "all architectures, states, batches, sizes, curves of parameters, small learning rates; for the periods all numbers of updates", "why_tests_cant": "all directions of movement and all networks; gradient checks move one parameter of one layer at a time", "anchors": ["brainstorm/training/steppers.py:SgdStepper.run", "brainstorm/training/steppers.py:MomentumStepper.run", "brainstorm/training/steppers.py:NesterovStepper.run", "brainstorm/structure/network.py:Network.forward_pass", "brainstorm/structure/network.py:Network.backward_pass", "brainstorm/layers/clockwork_layer.py:ClockworkLayerImpl", "brainstorm/layers/clockwork_lstm_layer.py:ClockworkLstmLayerImpl"]}
{"id": "C85", "title": "The gradients of a batch are the weighted mean of the gradients of its parts", "statement": "For every accepted architecture of library layers without Dropout (as in C75), from every state the network can be in (with periods of clockwork layers that are not zero, and not regularized): if the sequences of a batch are distributed over several batches, of any sizes, then the loss that the network reports for the batch is the mean of the losses that it reports for the parts, weighted with their numbers of sequences. Where the layers are differentiable, the same holds for each entry of the gradients; for networks of layers without kinks, including LSTM layers, this is the case at all parameters. Hence trainings with SgdStepper, MomentumStepper and NesterovStepper do not depend on the order of the sequences in the batches: replacing every batch by one with the same sequences in another order leaves all recorded losses and the parameters as they are.", "quantifier": "all architectures without Dropout, states, batches, ways to cut them into parts, orders of the sequences, numbers of updates, learning rates and momenta", "why_tests_cant": "all cuts and orders; a wrong normalization, a stride over the batch axis or a sum over too few sequences shows only for some sizes, and only if results for several sizes are compared", "anchors": ["brainstorm/layers/loss_layer.py:LossLayerImpl", "brainstorm/structure/network.py:Network.forward_pass", "brainstorm/structure/network.py:Network.backward_pass", "brainstorm/structure/network.py:Network.get_loss_values", "brainstorm/training/steppers.py:SgdStepper", "brainstorm/training/steppers.py:MomentumStepper", "brainstorm/data_iterators.py:Minibatches"]}
{"id": "C86", "title": "Evaluating with Minibatches gives the same as evaluating with Undivided", "statement": "For every accepted architecture of library layers (as in C75), from every state the network can be in: `evaluate(network, Minibatches(batch_size, shuffle, **data))` returns the same losses and scores as evaluation of all data in one batch, for every batch size, with or without shuffling, as long as batches are not shortened according to a mask. Without shuffling, `extract` returns what one forward pass over all data computes. For networks without Dropout, the mean of the gradients of the minibatches at the same parameters, weighted with their numbers of sequences, is the gradient for all data (where the layers are differentiable).", "quantifier": "all architectures, states, data sets (numbers of sequences, steps, further arrays), batch sizes, orders of the batches, random numbers", "why_tests_cant": "all sizes, in particular last batches that are smaller, and all orders; wrong slices or weights show only for some of them", "anchors": ["brainstorm/data_iterators.py:Minibatches.__call__", "brainstorm/data_iterators.py:Undivided.__call__", "brainstorm/tools.py:evaluate", "brainstorm/tools.py:extract", "brainstorm/structure/network.py:Network.provide_external_data", "brainstorm/scorers.py:aggregate_losses_and_scores", "brainstorm/training/utils.py:run_network"]}
{"id": "C87", "title": "Steps that are masked out have no effect", "statement": "For every accepted architecture of library layers (as in C75) in which all time-dependent values reach the Loss layers through Mask layers that use one array of the data as the mask: padding sequences with further steps in which the mask is 0 for all sequences, or leaving such steps out, changes neither the losses that the network reports after a forward pass, nor the gradients (where the layers are differentiable), nor the parameters and recorded losses of trainings with SgdStepper, MomentumStepper and NesterovStepper, whatever the padding contains. In particular, evaluating with `Minibatches(..., cut_according_to=mask)` gives the same losses, and with scorers that use the mask the same scores, as evaluating all data, uncut, in one batch.", "quantifier": "all architectures, states, data, lengths of the sequences, contents of the padding, batch sizes, orders of the batches, learning rates, numbers of updates", "why_tests_cant": "all lengths and all contents of the padding; a leak from padded steps back into earlier ones (or a normalisation by the padded length) shows only for some of them", "anchors": ["brainstorm/data_iterators.py:Minibatches.__call__", "brainstorm/data_iterators.py:_calculate_lengths_from_mask", "brainstorm/layers/mask_layer.py:MaskLayerImpl.forward_pass", "brainstorm/layers/loss_layer.py:LossLayerImpl.forward_pass", "brainstorm/tools.py:evaluate", "brainstorm/scorers.py:gather_losses_and_scores", "brainstorm/structure/network.py:Network.forward_pass", "brainstorm/structure/network.py:Network.backward_pass"]}
{"id": "C88", "title": "A network made from a spec line can be trained, and its gradients are right", "statement": "For every text that writes down hidden layers as the documentation of `create_net_from_spec` describes (in any of the ways to write them), every task, mask or no mask, and every shape of data for which the windows of convolution and pooling layers fit and the projection yields the wanted shape (with proper data names, the data called `default`, and at least one class in a classification): the network can be instantiated, its memory can be laid out, and no pass of any layer fails because of the shape of an array. If there is no batch normalization, the gradients after a forward and a backward pass are the derivative of the reported loss by all parameters at all parameters where the layers are differentiable (with dropout: in training mode), and one update by SgdStepper with a sufficiently small learning rate decreases the loss of the batch.", "quantifier": "all spec lines and ways to write them, tasks, shapes, names of targets and masks, numbers of steps and sequences, parameters, data, reachable states of the network, orders in which sets are enumerated", "why_tests_cant": "all spec lines of any length: a test trains a few networks; that every layer sequence whose shapes fit is wired, laid out and differentiated correctly ranges over all of them", "anchors": ["brainstorm/tools.py:create_net_from_spec", "brainstorm/tools.py:get_in_out_layers", "brainstorm/structure/network.py:Network.from_layer", "brainstorm/structure/network.py:Network.from_architecture", "brainstorm/structure/layout.py:create_layout", "brainstorm/structure/network.py:Network.forward_pass", "brainstorm/structure/network.py:Network.backward_pass", "brainstorm/training/steppers.py:SgdStepper.run"]}
{"id": "C89", "title": "extract_and_save writes what extract returns", "statement": "For distinct buffer names, and batches with at least one sequence and the same positive number of time steps, the file that `extract_and_save` writes has exactly one dataset per requested buffer, in the order of the request, with as many sequences as all batches together, and the sequences of all batches one after the other; this is the same as what `extract` returns for the same batches. For every accepted architecture, and requested outputs of layers other than Loss layers, the file holds at every time step what the network holds after one forward pass over all data, however the data are divided into batches. A buffer that is requested twice makes `extract_and_save` fail.", "quantifier": "all lists of buffer names, numbers and sizes of batches, numbers of steps, contents of buffers; for networks: all accepted architectures, parameters, data, reachable states, divisions of the data into batches", "why_tests_cant": "all numbers and sizes of batches: datasets are resized and the new columns written at an offset computed from a counter that only the first buffer advances, so a test with one batch or with one buffer does not see a wrong offset", "anchors": ["brainstorm/tools.py:extract_and_save", "brainstorm/tools.py:extract", "brainstorm/tools.py:run_network"]}
{"id": "C90", "title": "After a crash, a saved network is complete or absent, and never a mixture", "statement": "Networks are saved with `save_as_hdf5` (also by the hook SaveNetwork), any number of times and to any files, and the process dies at any point. Then a file that was not being written just then yields exactly the description and the parameters of the last network that was saved to it; a file that was being written yields those of the network that was being saved, or cannot be loaded. Never are parts of two savings mixed. In a training with SaveNetwork hooks, what can be loaded is the network as it was when a hook with this file was called. If two files are used, and each has been saved once, then at least one can be loaded at every point. With one file there is no such guarantee, and it is also lost if the network cannot be described. A training with SgdStepper that is continued from such a file with the next batch, in a network that is initialized anew and with the modifiers installed again, records the losses and leads to the parameters of the training that was killed; with momentum this needs the velocities, which no file has.", "quantifier": "all sequences of savings to any files, all points at which the process may die (between any two operations on files), everything that may be found in a file that was not closed, all trainings with any hooks", "why_tests_cant": "all crash points: a test cannot kill the process at each operation of each saving in each training", "anchors": ["brainstorm/structure/network.py:Network.save_as_hdf5", "brainstorm/structure/network.py:Network.from_hdf5", "brainstorm/hooks.py:SaveNetwork.__call__", "brainstorm/hooks.py:SaveNetwork.load_network", "brainstorm/training/trainer.py:Trainer.train"]}
{"id": "C91", "title": "get_network_info reports what the network has", "statement": "For every network of library layers, at any time, `get_network_info` succeeds. It lists the layers in the order of `network.layers`, each with the names and shapes of the parameters, inputs and outputs that the layer declared, and with the number of its parameters. The total it gives is the length of `net.get('parameters')` and the sum of the numbers of the layers: no parameter is counted twice and none is left out.", "quantifier": "all architectures of library layers that can be instantiated, all sizes, all histories of the buffers, all orders in which a dictionary may be enumerated", "why_tests_cant": "all architectures and all histories: the total is read from the memory of the whole network, the numbers of the layers from their views, and that they agree depends on the layout of every network", "anchors": ["brainstorm/tools.py:get_network_info", "brainstorm/structure/buffer_views.py:BufferView.keys", "brainstorm/structure/layout.py:create_layout"]}
{"id": "C92", "title": "The outputs of a layer depend on what lies before it and on nothing else", "statement": "For every network of library layers: what a layer outputs in a forward pass depends only on the parameters of the layers from which a chain of connections leads to it, on its own parameters and on the data connected to these layers. Other parameters, other data and everything done before (old batches, old sizes, old contents of the buffers) do not matter. The `predictions` of a SquaredError, SigmoidCE or SoftmaxCE layer depend only on what lies before its input `default`, so not on the targets. Conversely, parameters of layers from which no Loss layer can be reached get the gradient zero in every backward pass and are not changed by training with SGD, momentum or Nesterov momentum, in networks of differentiable layers.", "quantifier": "all architectures of library layers that can be instantiated, all their layers, all pairs of networks and batches of the same size, all histories of both, all random numbers", "why_tests_cant": "all architectures and all histories: a layer writing or reading beyond its arrays, or arrays sharing memory, would let unrelated layers influence each other, for some sizes only", "anchors": ["brainstorm/structure/network.py:Network.forward_pass", "brainstorm/structure/network.py:Network.provide_external_data", "brainstorm/structure/layout.py:create_layout", "brainstorm/structure/buffers.py:BufferManager", "brainstorm/layers/squared_error_layer.py:SquaredErrorLayerImpl.forward_pass", "brainstorm/layers/softmax_ce_layer.py:SoftmaxCELayerImpl.forward_pass"]}
