{
 "claims": [
  {
   "property": "C01",
   "status": "proved",
   "theorems": [
    "Verif.Construction.C01_name_returns",
    "Verif.Construction.C01_names_distinct"
   ],
   "note": "All scripts of create/connect operations; termination of the name loops is part of the claim."
  },
  {
   "property": "C02",
   "status": "proved",
   "theorems": [
    "Verif.Construction.C02_sole_name",
    "Verif.Construction.C02_shared_name"
   ],
   "note": "Unshared names and indices in creation order."
  },
  {
   "property": "C03",
   "status": "proved",
   "theorems": [
    "Verif.Construction.C03_content",
    "Verif.Construction.C03_independent",
    "Verif.Construction.C03_connections",
    "Verif.Construction.C03_legal"
   ],
   "note": "Content, independence of the starting layer and of set enumeration, the connections of the generated architecture, and its legality (C03_legal)."
  },
  {
   "property": "C04",
   "status": "proved",
   "theorems": [
    "Verif.Architecture.C04_terminates",
    "Verif.Architecture.C04_exists_iff",
    "Verif.Architecture.C04_perm",
    "Verif.Architecture.C04_topological",
    "Verif.Architecture.C04_sorted"
   ],
   "note": "Termination, existence iff closed and acyclic, permutation, topological, and the (height, name) characterisation."
  },
  {
   "property": "C05",
   "status": "proved",
   "theorems": [
    "Verif.Architecture.C05_connections",
    "Verif.Architecture.C05_order"
   ],
   "note": "Connection list and canonical order agree for architectures that differ in dictionary and list order only."
  },
  {
   "property": "C06",
   "status": "proved",
   "theorems": [
    "Verif.Architecture.C06_validate_iff",
    "Verif.Architecture.C06_missing_outgoing"
   ],
   "note": "Exact characterisation of acceptance; a missing @outgoing_connections entry raises KeyError (C06_missing_outgoing)."
  },
  {
   "property": "C07",
   "status": "proved",
   "theorems": [
    "Verif.Architecture.C07_denotes",
    "Verif.Architecture.C07_collect",
    "Verif.Architecture.C07_round_trip",
    "Verif.Architecture.C07_short_forms"
   ],
   "note": "Connection strings, list and dictionary form, round trip."
  },
  {
   "property": "C08",
   "status": "proved",
   "theorems": [
    "Verif.Layout.C08_every_array",
    "Verif.Layout.C08_partition",
    "Verif.Layout.C08_connections",
    "Verif.Layout.C08_linked",
    "Verif.Layout.C08_terminates"
   ],
   "note": "Partition, connections stay in one hub, exact characterisation of sharing a hub, termination of the closure; C08_every_array is the statement for the layout of a whole network."
  },
  {
   "property": "C09",
   "status": "proved",
   "theorems": [
    "Verif.Layout.C09_sources_tile",
    "Verif.Layout.C09_sink_union",
    "Verif.Layout.C09_forced_order"
   ],
   "note": "Source slices tile the hub; sink slice = union of connected source slices; forced order kept."
  },
  {
   "property": "C10",
   "status": "proved",
   "theorems": [
    "Verif.EndToEnd.C10_architecture",
    "Verif.EndToEnd.C10_chain",
    "Verif.EndToEnd.C10_arch_parameters",
    "Verif.EndToEnd.C10_arch_single",
    "Verif.Layout.C10_network",
    "Verif.Layout.C10_single",
    "Verif.Layout.C10_complete",
    "Verif.Layout.C10_sound",
    "Verif.Layout.C10_parameters",
    "Verif.Layout.C10_single_parameters"
   ],
   "note": "Completeness and soundness of the search over orders for one hub (C10_complete, C10_sound); success of the whole of create_layout characterised for all networks whose connections start at outputs (C10_network, C10_single) or at outputs and parameters (C10_parameters, C10_single_parameters), and for all instantiated architectures of library layers (C10_architecture, C10_chain, C10_arch_parameters, C10_arch_single). Connections from internals (..internals.x) are not covered by the whole-network versions."
  },
  {
   "property": "C11",
   "status": "proved",
   "theorems": [
    "Verif.Layout.C11_aligned"
   ],
   "note": "Root slices have the same length, each parameter and its gradient lie at the same place, and every position belongs to exactly one parameter."
  },
  {
   "property": "C12",
   "status": "proved",
   "theorems": [
    "Verif.Buffers.C12_network",
    "Verif.Buffers.C12_regions",
    "Verif.Buffers.C12_share",
    "Verif.Buffers.C12_inside"
   ],
   "note": "Address arithmetic of hub buffers and views for all sizes; C12_network states it for the layouts create_layout returns."
  },
  {
   "property": "C13",
   "status": "proved",
   "theorems": [
    "Verif.Structure.C13_structures",
    "Verif.Structure.C13_templates",
    "Verif.Structure.C13_matches"
   ],
   "note": "Validation of structures and templates, and exact characterisation of matches (a bare ... matches everything)."
  },
  {
   "property": "C14",
   "status": "partial",
   "theorems": [
    "Verif.Structure.C14_combine",
    "Verif.Structure.C14_reject",
    "Verif.Structure.C14_order",
    "Verif.Structure.C14_memory_vectors_partial",
    "Verif.Structure.C14_memory_single_partial",
    "Verif.Structure.C14_memory_not_concat"
   ],
   "note": "Shapes, rejection and order independence proved; the memory claim (feature concatenation along the last dimension) is proved when all leading dimensions are 1 or there is one input and refuted in general (C14_memory_not_concat)."
  },
  {
   "property": "C15",
   "status": "proved",
   "theorems": [
    "Verif.Buffers.C15_parameters_survive",
    "Verif.Buffers.C15_parameters_readable",
    "Verif.Buffers.C15_total"
   ],
   "note": "All histories of provide_external_data, handler changes and writes to other memory."
  },
  {
   "property": "C16",
   "status": "proved",
   "theorems": [
    "Verif.Buffers.C16_shapes",
    "Verif.Buffers.C16_repeat"
   ],
   "note": "Memory size = maximum of requests since the last handler change; view shapes; repeated request is a no-op."
  },
  {
   "property": "C17",
   "status": "proved",
   "theorems": [
    "Verif.Buffers.C17_network",
    "Verif.Buffers.C17_clear_backward"
   ],
   "note": "Generic in the layout, and C17_network for the layouts create_layout returns."
  },
  {
   "property": "C18",
   "status": "partial",
   "theorems": [
    "Verif.Buffers.C18_with_context_partial",
    "Verif.Buffers.C18_without_context",
    "Verif.Buffers.C18_input_erased"
   ],
   "note": "False as stated: clear_context erases the last steps of data sharing a hub with a recurrent output (C18_input_erased, exact effect in C18_without_context). Proved when a context is passed (C18_with_context_partial) and for hubs without context."
  },
  {
   "property": "C19",
   "status": "proved",
   "theorems": [
    "Verif.Buffers.C19_handover",
    "Verif.Layers.C19_network",
    "Verif.Layers.C19_recurrent",
    "Verif.Layers.C19_lstm",
    "Verif.Layers.C19_pointwise",
    "Verif.Layers.C19_clockwork_at_ticks",
    "Verif.Layers.C19_clockwork_lstm_at_ticks",
    "Verif.Layers.C19_clockwork_wrong"
   ],
   "note": "C19_network: any stack of causal layers (each reading earlier layers only), any cut into pieces. C19_recurrent, C19_lstm, C19_pointwise show which layers are causal. Clockwork layers only when the pieces start at multiples of all timings (C19_clockwork_at_ticks); C19_clockwork_wrong is the negation otherwise."
  },
  {
   "property": "C20",
   "status": "proved",
   "theorems": [
    "Verif.Network.C20_convolution",
    "Verif.Network.C20_avg_pooling",
    "Verif.Network.C20_max_pooling",
    "Verif.Network.C20_dropout",
    "Verif.Network.C20_mask_full",
    "Verif.Network.C20_fully_connected",
    "Verif.Network.C20_elementwise",
    "Verif.Network.C20_highway",
    "Verif.Network.C20_noop",
    "Verif.Network.C20_merge",
    "Verif.Network.C20_mask",
    "Verif.Network.C20_squared_difference",
    "Verif.Network.C20_squared_error",
    "Verif.Network.C20_softmax_ce",
    "Verif.Network.C20_sigmoid_ce",
    "Verif.Network.C20_binomial_ce",
    "Verif.Network.C20_l1",
    "Verif.Network.C20_l2",
    "Verif.Network.C20_loss",
    "Verif.Network.C20_network",
    "Verif.Network.C20_recurrent",
    "Verif.Network.C20_clockwork",
    "Verif.Network.C20_lstm",
    "Verif.Network.C20_clockwork_lstm",
    "Verif.Network.C20_batch_norm"
   ],
   "note": "C20_network: for every wired list of layers, outputs after forward_pass depend only on parameters, inputs and context. Its per-layer hypothesis is proved for each concrete layer (C20_fully_connected etc.). C72_outputs says the same of the laid out memory."
  },
  {
   "property": "C21",
   "status": "proved",
   "theorems": [
    "Verif.Network.C21_convolution",
    "Verif.Network.C21_avg_pooling",
    "Verif.Network.C21_max_pooling",
    "Verif.Network.C21_dropout_no_drop",
    "Verif.Network.C21_mask_full",
    "Verif.Network.C21_fully_connected",
    "Verif.Network.C21_elementwise",
    "Verif.Network.C21_highway",
    "Verif.Network.C21_noop",
    "Verif.Network.C21_merge",
    "Verif.Network.C21_mask",
    "Verif.Network.C21_squared_difference",
    "Verif.Network.C21_squared_error",
    "Verif.Network.C21_softmax_ce",
    "Verif.Network.C21_sigmoid_ce",
    "Verif.Network.C21_binomial_ce",
    "Verif.Network.C21_l1",
    "Verif.Network.C21_l2",
    "Verif.Network.C21_loss",
    "Verif.Network.C21_network",
    "Verif.Network.C21_recurrent",
    "Verif.Network.C21_clockwork",
    "Verif.Network.C21_lstm",
    "Verif.Network.C21_clockwork_lstm",
    "Verif.Network.C21_batch_norm"
   ],
   "note": "C21_network: for every wired list of layers whose backward passes differentiate their forward passes, the deltas after backward_pass are the partial derivatives of the total loss. The per-layer hypothesis is proved for each concrete layer (C21_fully_connected etc.). Layers whose parameter gradients are overwritten must not share these parameters (Wired), cf. C55. C72 carries this over to the laid out memory."
  },
  {
   "property": "C22",
   "status": "partial",
   "theorems": [
    "Verif.Layers.C22_batch_norm",
    "Verif.Layers.C22_clockwork_lstm_context",
    "Verif.Layers.C22_clockwork_lstm_partial",
    "Verif.Layers.C22_convolution",
    "Verif.Layers.C22_lstm_context",
    "Verif.Layers.C22_lstm_partial",
    "Verif.Layers.C22_lstm_context_wrong",
    "Verif.Layers.C22_avg_pooling",
    "Verif.Layers.C22_max_pooling",
    "Verif.Layers.C22_fully_connected",
    "Verif.Layers.C22_elementwise",
    "Verif.Layers.C22_highway",
    "Verif.Layers.C22_noop",
    "Verif.Layers.C22_deltas_scaling",
    "Verif.Layers.C22_merge",
    "Verif.Layers.C22_mask",
    "Verif.Layers.C22_squared_error",
    "Verif.Layers.C22_squared_difference",
    "Verif.Layers.C22_l1",
    "Verif.Layers.C22_l2",
    "Verif.Layers.C22_loss",
    "Verif.Layers.C22_dropout_partial",
    "Verif.Layers.C22_dropout_wrong",
    "Verif.Layers.C22_sigmoid_ce",
    "Verif.Layers.C22_binomial_ce",
    "Verif.Layers.C22_softmax_ce",
    "Verif.Layers.C22_softmax_ce_clipped",
    "Verif.Layers.C22_recurrent",
    "Verif.Layers.C22_clockwork"
   ],
   "note": "All layers, including Convolution2D and Pooling2D. C22_lstm_partial/C22_clockwork_lstm_partial need zero context (C22_lstm_context_wrong shows the gradients are wrong otherwise); Dropout is wrong (C22_dropout_wrong); cross entropies ignore clipping (C22_softmax_ce_clipped)."
  },
  {
   "property": "C23",
   "status": "proved",
   "theorems": [
    "Verif.Scoring.C23_loss_values",
    "Verif.Scoring.C23_total",
    "Verif.Setup.C23_network"
   ],
   "note": "All numbers of loss layers."
  },
  {
   "property": "C24",
   "status": "proved",
   "theorems": [
    "Verif.References.C24_no_match",
    "Verif.References.C24_no_match_kind",
    "Verif.References.C24_values",
    "Verif.References.C24_paths"
   ],
   "note": "Values, defaults and fallbacks of every path are characterised; a pattern that matches nothing is an error (C24_no_match); fuel suffices (applyRefs_fuel)."
  },
  {
   "property": "C25",
   "status": "proved",
   "theorems": [
    "Verif.References.C25_wildcard",
    "Verif.References.C25_literal",
    "Verif.References.C25_accepted",
    "Verif.References.C25_newline_quirk"
   ],
   "note": "Wildcard matching characterised; a key with a trailing newline also matches (C25_newline_quirk), impossible for valid names."
  },
  {
   "property": "C26",
   "status": "partial",
   "theorems": [
    "Verif.References.C26_set_once",
    "Verif.References.C26_reproducible",
    "Verif.References.C26_rejects",
    "Verif.References.C26_rejects_kind",
    "Verif.References.C26_sub_initializer_not_reseeded"
   ],
   "note": "Proved for all initializers except sparse initializers with a random sub-initializer, for which reproducibility is false (C26_sub_initializer_not_reseeded). Numpy generators and the arithmetic of initializers are parameters."
  },
  {
   "property": "C27",
   "status": "proved",
   "theorems": [
    "Verif.Describe.C27_roundtrip",
    "Verif.Describe.C27_basic",
    "Verif.Describe.C27_basic_equal",
    "Verif.Describe.C27_type_key"
   ],
   "note": "Up to the order of dictionaries. Hypotheses on __init_from_description__ shown for Seedable and Trainer. Network overrides __new_from_description__: see C28."
  },
  {
   "property": "C28",
   "status": "partial",
   "theorems": [
    "Verif.SaveLoad.C28_roundtrip",
    "Verif.SaveLoad.C28_never_initialized",
    "Verif.SaveLoad.C28_uniform",
    "Verif.SaveLoad.C28_shared_object"
   ],
   "note": "Round trip proved if no initializer is a Uniform and no initializer object is mentioned twice; both conditions are needed: C28_uniform (a network initialised with Uniform cannot be loaded) and C28_shared_object. Handler and modifiers of the description are not modelled."
  },
  {
   "property": "C29",
   "status": "proved",
   "theorems": [
    "Verif.Random.C29_set_seed",
    "Verif.Random.C29_reset",
    "Verif.Random.C29_copy",
    "Verif.Random.C29_program",
    "Verif.Random.C29_children",
    "Verif.Random.C29_unseeded"
   ],
   "note": "Numpy generator is a parameter. set_seed with an integer; all programs creating, drawing from, reseeding, resetting and copying states."
  },
  {
   "property": "C30",
   "status": "proved",
   "theorems": [
    "Verif.Data.C30_cover_once"
   ],
   "note": "All numbers of sequences, batch sizes, shuffle orders and cut settings; sequence contents as well as counts."
  },
  {
   "property": "C31",
   "status": "proved",
   "theorems": [
    "Verif.Data.C31_cut",
    "Verif.Data.C31_uncut",
    "Verif.Data.C31_lengths"
   ],
   "note": "The cut is the last unmasked step of the batch; a batch masked everywhere is cut to zero steps."
  },
  {
   "property": "C32",
   "status": "partial",
   "theorems": [
    "Verif.Data.C32_minibatches_partial",
    "Verif.Data.C32_undivided_bare_partial",
    "Verif.Data.C32_undivided_accumulates",
    "Verif.Data.C32_undivided_differs",
    "Verif.Data.C32_flip_changes_user_data"
   ],
   "note": "False as stated: accumulating wrappers around Undivided (C32_undivided_accumulates, C32_undivided_differs) and Flip writing into user arrays (C32_flip_changes_user_data). Proved for Minibatches with any nesting of array-making wrappers and for a bare Undivided."
  },
  {
   "property": "C33",
   "status": "proved",
   "theorems": [
    "Verif.Data.C33_pad",
    "Verif.Data.C33_pad_zero",
    "Verif.Data.C33_crop",
    "Verif.Data.C33_crop_total",
    "Verif.Data.C33_flip",
    "Verif.Data.C33_one_hot",
    "Verif.Data.C33_one_hot_negative",
    "Verif.Data.C33_multi_hot"
   ],
   "note": "Pad (size >= 1; size 0 fails), RandomCrop, Flip, OneHot, MultiHot."
  },
  {
   "property": "C34",
   "status": "proved",
   "theorems": [
    "Verif.Training.C34_log_appends",
    "Verif.Training.C34_trace",
    "Verif.Training.C34_schedule",
    "Verif.Training.C34_logs"
   ],
   "note": "Trainer.train modelled with an arbitrary world and hooks; the trace of a run is fixed as a whole (C34_trace), per count (C34_schedule) and the logs follow the events (C34_logs, C34_log_appends). Exception found: an update hook that stops in the very first emission keeps the epoch hooks due at that count from being called (short-circuit or)."
  },
  {
   "property": "C35",
   "status": "proved",
   "theorems": [
    "Verif.Training.C35_stop",
    "Verif.Training.C35_stop_at_start",
    "Verif.Training.C35_complete_epochs"
   ],
   "note": "Stop requests: exactly when training ends, all made at the final counts, no batch after one (C35_stop), none at all after a request at the start, complete epochs otherwise."
  },
  {
   "property": "C36",
   "status": "proved",
   "theorems": [
    "Verif.Training.C36_stop_after_epoch"
   ],
   "note": "For a constant number of batches per epoch; includes termination (enough fuel implies finished)."
  },
  {
   "property": "C37",
   "status": "proved",
   "theorems": [
    "Verif.Training.C37_decision",
    "Verif.Training.C37_no_improvement",
    "Verif.Training.C37_missing_log"
   ],
   "note": "Values from any linear order (NaN excluded)."
  },
  {
   "property": "C38",
   "status": "proved",
   "theorems": [
    "Verif.Training.C38_best",
    "Verif.Training.C38_nothing"
   ],
   "note": "Values from any linear order (NaN excluded); values not better than the initial infinite bound are never stored (C38_nothing)."
  },
  {
   "property": "C39",
   "status": "proved",
   "theorems": [
    "Verif.Training.C39_linear",
    "Verif.Training.C39_linear_zero_changes",
    "Verif.Training.C39_exponential",
    "Verif.Training.C39_exponential_step",
    "Verif.Training.C39_multistep",
    "Verif.Training.C39_multistep_between",
    "Verif.Training.C39_decrease_constant",
    "Verif.Training.C39_decrease_after"
   ],
   "note": "Exact arithmetic over any ordered field. num_changes = 0 fails in the first interval (C39_linear_zero_changes)."
  },
  {
   "property": "C40",
   "status": "proved",
   "theorems": [
    "Verif.Training.C40_sgd_step",
    "Verif.Training.C40_sgd_run",
    "Verif.Training.C40_momentum",
    "Verif.Training.C40_momentum_constant",
    "Verif.Training.C40_nesterov_step",
    "Verif.Training.C40_nesterov",
    "Verif.Training.C40_no_momentum"
   ],
   "note": "Exact arithmetic over any field; learning rate and momentum may change between steps."
  },
  {
   "property": "C41",
   "status": "proved",
   "theorems": [
    "Verif.Scoring.C41_scores",
    "Verif.Scoring.C41_losses",
    "Verif.Scoring.C41_total"
   ],
   "note": "Same number of time steps in all batches; network outputs per sequence do not depend on the batch (data given per sequence)."
  },
  {
   "property": "C42",
   "status": "proved",
   "theorems": [
    "Verif.Scoring.C42_argmax",
    "Verif.Scoring.C42_accuracy",
    "Verif.Scoring.C42_accuracy_range",
    "Verif.Scoring.C42_masked",
    "Verif.Scoring.C42_hamming",
    "Verif.Scoring.C42_squared_error"
   ],
   "note": "Exact counts for masks of zeros and ones, range for non-negative masks, masked rows irrelevant."
  },
  {
   "property": "C43",
   "status": "proved",
   "theorems": [
    "Verif.Modifiers.C43_clip_range",
    "Verif.Modifiers.C43_clip_values",
    "Verif.Modifiers.C43_clip_idempotent",
    "Verif.Modifiers.C43_norm",
    "Verif.Modifiers.C43_norm_bias",
    "Verif.Modifiers.C43_norm_idempotent",
    "Verif.Modifiers.C43_mask",
    "Verif.Modifiers.C43_mask_idempotent"
   ],
   "note": "Real arithmetic; ConstrainL2Norm assumes that norm/limit does not exceed the largest number."
  },
  {
   "property": "C44",
   "status": "proved",
   "theorems": [
    "Verif.Modifiers.C44_frozen",
    "Verif.Modifiers.C44_applications"
   ],
   "note": "All histories of updates and handler types."
  },
  {
   "property": "C45",
   "status": "proved",
   "theorems": [
    "Verif.Modifiers.C45_values",
    "Verif.Modifiers.C45_l2_gradient",
    "Verif.Modifiers.C45_l1_gradient"
   ],
   "note": "Derivative of the regularised loss along every differentiable curve."
  },
  {
   "property": "C46",
   "status": "proved",
   "theorems": [
    "Verif.Initializers.C46_fan_in",
    "Verif.Initializers.C46_fan_in_out",
    "Verif.Initializers.C46_fans_agree",
    "Verif.Initializers.C46_linear_differs",
    "Verif.Initializers.C46_uniform_interval",
    "Verif.Initializers.C46_uniform_range",
    "Verif.Initializers.C46_sparse_inputs",
    "Verif.Initializers.C46_sparse_outputs",
    "Verif.Initializers.C46_lstm_opt",
    "Verif.Initializers.C46_identity",
    "Verif.Initializers.C46_orthogonal"
   ],
   "note": "Draws are arguments. The documented equivalence of DenseSqrtFanIn and DenseSqrtFanInOut for equal fans holds for rel, tanh, sigmoid and fails for linear (C46_linear_differs)."
  },
  {
   "property": "C47",
   "status": "proved",
   "theorems": [
    "Verif.Conv.C47_im2col",
    "Verif.Conv.C47_col2im",
    "Verif.Conv.C47_adjoint",
    "Verif.Conv.C47_forward",
    "Verif.Conv.C47_backward"
   ],
   "note": "im2col and col2im over all geometries, every access in bounds; forward is the convolution sum, backward the adjoint; numbers are elements of a commutative ring"
  },
  {
   "property": "C48",
   "status": "proved",
   "theorems": [
    "Verif.Pool.C48_max",
    "Verif.Pool.C48_max_none",
    "Verif.Pool.C48_max_backward",
    "Verif.Pool.C48_avg",
    "Verif.Pool.C48_avg_none",
    "Verif.Pool.C48_avg_backward",
    "Verif.Pool.C48_avg_adjoint"
   ],
   "note": "The backward theorem for max pooling assumes that the remembered index survives being stored as a float (true below 2^24 in float32)."
  },
  {
   "property": "C49",
   "status": "proved",
   "theorems": [
    "Verif.Activations.C49_sigmoid",
    "Verif.Activations.C49_sigmoid_inplace",
    "Verif.Activations.C49_sigmoid_deriv",
    "Verif.Activations.C49_tanh_deriv",
    "Verif.Activations.C49_rel",
    "Verif.Activations.C49_rel_deriv",
    "Verif.Activations.C49_el",
    "Verif.Activations.C49_el_overflow",
    "Verif.Activations.C49_el_deriv",
    "Verif.Activations.C49_softmax",
    "Verif.Activations.C49_softmax_distribution",
    "Verif.Activations.C49_softmax_shift"
   ],
   "note": "Over the reals with an overflow bound for exp. Finding: el gives NaN where exp overflows (C49_el_overflow); its positive theorem is for inputs below the bound."
  },
  {
   "property": "C50",
   "status": "proved",
   "theorems": [
    "Verif.Layers.Merge.C50_merge",
    "Verif.Layers.Merge.C50_split",
    "Verif.Layers.Merge.C50_round_trip"
   ],
   "note": "merge_tt and split_add_tt over arrays with any number of leading dimensions: the merged array holds both inputs side by side, the split adds the right columns, and the two are inverse."
  },
  {
   "property": "C51",
   "status": "proved",
   "theorems": [
    "Verif.Data.C51_split",
    "Verif.Data.C51_shuffle"
   ],
   "note": "Exact rational ratios; cuts within half an example of the exact share."
  },
  {
   "property": "C52",
   "status": "proved",
   "theorems": [
    "Verif.Data.C52_extract",
    "Verif.Data.C52_duplicate_name"
   ],
   "note": "Distinct names and equal number of steps per batch; C52_duplicate_name shows why names must be distinct."
  },
  {
   "property": "C53",
   "status": "proved",
   "theorems": [
    "Verif.Paths.C53_flatten_keys",
    "Verif.Paths.C53_flatten_keys_nodup",
    "Verif.Paths.C53_dotted_key",
    "Verif.Paths.C53_normalized",
    "Verif.Paths.C53_dots_in_the_middle",
    "Verif.Paths.C53_nested_indices"
   ],
   "note": "flatten_keys for keys without dots (C53_dotted_key); dots in the middle of an argument of get_normalized_path become @ (C53_dots_in_the_middle)."
  },
  {
   "property": "C54",
   "status": "proved",
   "theorems": [
    "Verif.Training.C54_order",
    "Verif.Training.C54_added",
    "Verif.Training.C54_shared_hook"
   ],
   "note": "Includes the counterexample for hooks shared between trainers (C54_shared_hook)."
  },
  {
   "property": "C55",
   "status": "partial",
   "theorems": [
    "Verif.Layers.C55_recurrent",
    "Verif.Layers.C55_clockwork",
    "Verif.Layers.C55_lstm",
    "Verif.Layers.C55_clockwork_lstm",
    "Verif.Layers.C55_batch_norm",
    "Verif.Layers.C55_fully_connected_wrong",
    "Verif.Layers.C55_l2_wrong",
    "Verif.Layers.C55_convolution_wrong"
   ],
   "note": "Proved for Recurrent, Clockwork, Lstm, ClockworkLstm and BatchNorm: with what was in the gradient buffers the result is the derivative of the sum. False of the code for FullyConnected and Convolution2D, which overwrite their gradients: C55_fully_connected_wrong, C55_l2_wrong (weights also connected to L2Decay) and C55_convolution_wrong."
  },
  {
   "property": "C56",
   "status": "proved",
   "theorems": [
    "Verif.Conv.C56_positions",
    "Verif.Conv.C56_inside",
    "Verif.Conv.C56_conv",
    "Verif.Conv.C56_pool",
    "Verif.Conv.C56_zero_stride",
    "Verif.Conv.C56_conv_no_check",
    "Verif.Conv.C56_im2col"
   ],
   "note": "output sizes count exactly the window positions inside the padded image; the convolution layer performs no check on the size (C56_conv_no_check) and a stride of 0 raises"
  },
  {
   "property": "C57",
   "status": "proved",
   "theorems": [
    "Verif.Layers.C57_mask",
    "Verif.Layers.C57_independent"
   ],
   "note": "Mask layer, and independence of masked entries from gradients for networks of fully connected and elementwise layers."
  },
  {
   "property": "C58",
   "status": "proved",
   "theorems": [
    "Verif.Layers.C58_normalised",
    "Verif.Layers.C58_training_statistics",
    "Verif.Layers.C58_non_training",
    "Verif.Layers.C58_history"
   ],
   "note": "Batch statistics, running averages over any history of training passes, and non-training passes."
  },
  {
   "property": "C59",
   "status": "proved",
   "theorems": [
    "Verif.Instantiate.C59_constructor",
    "Verif.Instantiate.C59_acceptable",
    "Verif.Instantiate.C59_complete",
    "Verif.Instantiate.C59_terminates",
    "Verif.Instantiate.C59_deterministic",
    "Verif.Instantiate.C59_layers",
    "Verif.Instantiate.C59_sources_ready"
   ],
   "note": "Layer classes are a parameter (expected kwargs and inputs, setup); the constructor and its validation are modelled. C59_complete: instantiation succeeds whenever fitting shapes exist. Which of several exceptions is raised is not modelled."
  },
  {
   "property": "C60",
   "status": "partial",
   "theorems": [
    "Verif.Views.C60_arrays",
    "Verif.Views.C60_flatten_time",
    "Verif.Views.C60_flatten_all_but_last",
    "Verif.Views.C60_copy",
    "Verif.Views.C60_contiguous",
    "Verif.Views.C60_copy_happens"
   ],
   "note": "Holds for flatten_time and contiguous arrays; flatten_all_but_last of an array with several feature dimensions sharing its hub is a copy (C60_copy, C60_copy_happens)."
  },
  {
   "property": "C61",
   "status": "proved",
   "theorems": [
    "Verif.Layers.C61_activation",
    "Verif.Layers.C61_fully_connected",
    "Verif.Layers.C61_elementwise",
    "Verif.Layers.C61_highway",
    "Verif.Layers.C61_copy",
    "Verif.Layers.C61_merge",
    "Verif.Layers.C61_mask",
    "Verif.Layers.C61_dropout",
    "Verif.Layers.C61_dropout_mean",
    "Verif.Layers.C61_squared_error",
    "Verif.Layers.C61_squared_difference",
    "Verif.Layers.C61_l1",
    "Verif.Layers.C61_l2",
    "Verif.Layers.C61_loss",
    "Verif.Layers.C61_softmax_ce",
    "Verif.Layers.C61_sigmoid_ce",
    "Verif.Layers.C61_binomial_ce",
    "Verif.Layers.C61_batch_norm",
    "Verif.Layers.C61_recurrent",
    "Verif.Layers.C61_clockwork",
    "Verif.Layers.C61_lstm",
    "Verif.Layers.C61_clockwork_lstm"
   ],
   "note": "`Layers/Forward`: every forward-pass model equals the documented formula entrywise; recurrent layers as the documented recurrence, for all lengths."
  },
  {
   "property": "C62",
   "status": "proved",
   "theorems": [
    "Verif.Modifiers.C62_install",
    "Verif.Modifiers.C62_in_order",
    "Verif.Modifiers.C62_nowhere_else",
    "Verif.Modifiers.C62_own",
    "Verif.Modifiers.C62_fallback",
    "Verif.Modifiers.C62_apply_weights",
    "Verif.Modifiers.C62_apply_gradients",
    "Verif.Modifiers.C62_freeze"
   ],
   "note": "Order between modifiers of different references is a parameter (they sit in a Python set); within one reference the listed order is proved."
  },
  {
   "property": "C63",
   "status": "proved",
   "theorems": [
    "Verif.Setup.C63_declares",
    "Verif.Setup.C63_ready",
    "Verif.Setup.C63_memory"
   ],
   "note": "All 24 layer types; sizes are natural numbers, external input names are plain. C63_memory assumes that create_layout finds a layout (C10 says when) and that some layer has an output."
  },
  {
   "property": "C64",
   "status": "partial",
   "theorems": [
    "Verif.Shapes.C64_passes_partial",
    "Verif.Shapes.C64_views",
    "Verif.Shapes.C64_binomial_rank",
    "Verif.Shapes.C64_unknown_activation",
    "Verif.Shapes.C64_merge_nothing"
   ],
   "note": "Holds for every supported layer; for unknown activation names, binomial cross entropy of images and merging empty inputs the code accepts the network and then fails, which is proved (findings 25-27). Values of arrays are not modelled here."
  },
  {
   "property": "C65",
   "status": "partial",
   "theorems": [
    "Verif.Gpu.C65_im2col",
    "Verif.Gpu.C65_col2im",
    "Verif.Gpu.C65_conv_forward",
    "Verif.Gpu.C65_conv_backward",
    "Verif.Gpu.C65_kernel",
    "Verif.Gpu.C65_elements",
    "Verif.Gpu.C65_elementwise",
    "Verif.Gpu.C65_binarize",
    "Verif.Gpu.C65_binarize_differs",
    "Verif.Gpu.C65_index",
    "Verif.Gpu.C65_broadcast",
    "Verif.Gpu.C65_modulo_partial",
    "Verif.Gpu.C65_modulo_differs",
    "Verif.Gpu.C65_merge_partial",
    "Verif.Gpu.C65_merge_rows_lost",
    "Verif.Gpu.C65_split_partial",
    "Verif.Gpu.C65_split_rows_lost",
    "Verif.Gpu.C65_maxpool_forward",
    "Verif.Gpu.C65_maxpool_backward",
    "Verif.Gpu.C65_avgpool_forward",
    "Verif.Gpu.C65_avgpool_backward",
    "Verif.Gpu.C65_softmax"
   ],
   "note": "Proved for every interleaving of the threads. Missing: false as stated for merging/splitting 98305 and more rows, modulo of negative or fractional numbers and one-hot coding of fractional class numbers; the negations are proved (C65_merge_rows_lost, C65_split_rows_lost, C65_modulo_differs, C65_binarize_differs). Library calls (cuBLAS, cumath, curand) are outside the model."
  },
  {
   "property": "C66",
   "status": "partial",
   "theorems": [
    "Verif.Training.C66_logs_shown",
    "Verif.Training.C66_early_stopper",
    "Verif.Training.C66_threshold",
    "Verif.Training.C66_threshold_fails",
    "Verif.Training.C66_nan_sound",
    "Verif.Training.C66_nan_complete",
    "Verif.Training.C66_stats",
    "Verif.Training.C66_monitor_deltas_fails",
    "Verif.Training.C66_save_logs",
    "Verif.Training.C66_save_best",
    "Verif.Training.C66_schedule",
    "Verif.Training.C66_linear",
    "Verif.Training.C66_exponential",
    "Verif.Training.C66_watcher",
    "Verif.Training.C66_watcher_silent",
    "Verif.Training.C66_monitor",
    "Verif.Training.C66_progress_bar",
    "Verif.Training.C66_progress_bar_second_training",
    "Verif.Training.C66_progress_bar_after_stop"
   ],
   "note": "Everything claimed is proved for all runs; partial because the library violates the general expectation in four proved cases (threshold hook without log, MonitorLayerDeltas, ProgressBar in a second training and after a stop within an epoch)."
  },
  {
   "property": "C67",
   "status": "proved",
   "theorems": [
    "Verif.NetSpec.C67_supported",
    "Verif.NetSpec.C67_network"
   ],
   "note": "The script of get_in_out_layers and of a row of layers, run after any other construction script, gives exactly the expected architecture; names, types and connections are all stated."
  },
  {
   "property": "C68",
   "status": "partial",
   "theorems": [
    "Verif.NetSpec.C68_data_name",
    "Verif.NetSpec.C68_legal",
    "Verif.NetSpec.C68_letters_touch",
    "Verif.NetSpec.C68_white_space",
    "Verif.NetSpec.C68_probability_integer",
    "Verif.NetSpec.C68_further_arguments",
    "Verif.NetSpec.C68_other_text_skipped",
    "Verif.NetSpec.C68_numbers",
    "Verif.NetSpec.C68_layers",
    "Verif.NetSpec.C68_network",
    "Verif.NetSpec.C68_works"
   ],
   "note": "The round trip is proved for all lines written as documented in which no two capitals and no two numbers touch; C68_works: the network can be instantiated if the shapes fit; C68_letters_touch, C68_white_space, C68_probability_integer, C68_further_arguments, C68_other_text_skipped and C68_data_name prove where the documented behaviour fails."
  },
  {
   "property": "C69",
   "status": "proved",
   "theorems": [
    "Verif.Noise.C69_gaussian",
    "Verif.Noise.C69_salt_and_pepper",
    "Verif.Noise.C69_probabilities",
    "Verif.Noise.C69_never_is_not_never",
    "Verif.Noise.C69_accepts"
   ],
   "note": "The random generator is a stream of real numbers; its distribution is a hypothesis of the probability statement (Lebesgue measure on [0,1))."
  },
  {
   "property": "C70",
   "status": "proved",
   "theorems": [
    "Verif.Access.C70_network",
    "Verif.Access.C70_adjust_hidden",
    "Verif.Access.C70_items_hidden",
    "Verif.Access.C70_parameters_hidden",
    "Verif.Access.C70_access"
   ],
   "note": "C70_access: for every layout whose names are usable (not names of the view class itself, no dot). C70_network: for the layouts of networks, with the exact set of strings net.get accepts. Negative: C70_adjust_hidden, C70_items_hidden, C70_parameters_hidden."
  },
  {
   "property": "C71",
   "status": "proved",
   "theorems": [
    "Verif.Buffers.C71_views",
    "Verif.Layout.C71_same_place",
    "Verif.Layout.C71_same_sharing"
   ],
   "note": "Networks with connections from internal buffers are excluded: the deltas of an internal buffer are found by the naming convention of get_backward_connection only."
  },
  {
   "property": "C72",
   "status": "proved",
   "theorems": [
    "Verif.Memory.C72_gradients",
    "Verif.Memory.C72_layer_gradients",
    "Verif.Memory.C72_data_deltas",
    "Verif.Memory.C72_outputs",
    "Verif.Memory.C72_parameters_kept",
    "Verif.Memory.C72_rerun",
    "Verif.Memory.C72_read",
    "Verif.Memory.C72_clear",
    "Verif.Memory.C72_honest",
    "Verif.Memory.C72_differentiates"
   ],
   "note": "Layers enter through Site, Honest and Differentiates; C72_honest and C72_differentiates derive the latter two for the layers of C21 placed at views of the memory, and Example.lean meets all hypotheses with a network of four layers. Connections from internal buffers are excluded (see C71)."
  },
  {
   "property": "C73",
   "status": "partial",
   "theorems": [
    "Verif.References.C73_forms",
    "Verif.References.C73_combined",
    "Verif.References.C73_conflict",
    "Verif.References.C73_held",
    "Verif.References.C73_twice_fails",
    "Verif.References.C73_again",
    "Verif.References.C73_lists",
    "Verif.References.C73_modifiers"
   ],
   "note": "Proved apart from what the code gets wrong: precedence of keyword arguments (C73_conflict) and repeating a call that combines a dictionary with keyword arguments (C73_twice_fails)."
  },
  {
   "property": "C74",
   "status": "proved",
   "theorems": [
    "Verif.Memory.C74_fully_connected",
    "Verif.Memory.C74_squared_error",
    "Verif.Memory.C74_loss",
    "Verif.Memory.C74_elementwise",
    "Verif.Memory.C74_gradients",
    "Verif.Memory.C74_layer_gradients",
    "Verif.Memory.C74_data_deltas",
    "Verif.Memory.C74_forward",
    "Verif.Memory.C74_parameters_kept",
    "Verif.Memory.C74_rerun"
   ],
   "note": "LibLayer lists the layers with the shapes they need; the addresses of all numbers follow from the layout. Assumptions about the wiring (targets and masks are data, predictions and losses end there, parameters of layers that overwrite gradients are not shared) are conditions of LibLayer; C55 shows that the last one is needed. BatchNorm and DeltasScaling are not included."
  },
  {
   "property": "C75",
   "status": "proved",
   "theorems": [
    "Verif.EndToEnd.C75_network",
    "Verif.EndToEnd.C75_gradients",
    "Verif.EndToEnd.C75_smooth"
   ],
   "note": "Joins C59, C63, C64, C08 and C74: from the architecture and the keyword arguments to the derivatives. C75_gradients assumes that no layer is at a kink (AllRegular, as in C74), C75_smooth needs no such assumption. BatchNorm and DeltasScaling are excluded as in C74; settings of a wrong kind (unknown activation names, widths of 0 for Merge and SoftmaxCE, drop probabilities that are no numbers) are excluded."
  },
  {
   "property": "C76",
   "status": "proved",
   "theorems": [
    "Verif.EndToEnd.C76_network",
    "Verif.EndToEnd.C76_connections",
    "Verif.EndToEnd.C76_gradients",
    "Verif.Memory.C76_formulas",
    "Verif.Memory.C76_inputs",
    "Verif.Memory.C76_input_copy",
    "Verif.Memory.C76_total_loss"
   ],
   "note": "Random numbers of Dropout are numbers behind the buffer. Numbers are real numbers. Same class of architectures as C75."
  },
  {
   "property": "C77",
   "status": "proved",
   "theorems": [
    "Verif.Session.C77_loss",
    "Verif.Session.C77_gradients",
    "Verif.Session.C77_training"
   ],
   "note": "The functions of the layers are those of C75 (Describes). Restrictions in the gradient part: everywhere differentiable layer types, no Clockwork layer (its timing array is a parameter that the steppers would move by a gradient of zero), no weight or gradient modifiers, real numbers, random numbers drawn in a pass are part of the batch."
  },
  {
   "property": "C78",
   "status": "proved",
   "theorems": [
    "Verif.Sequence.C78_sequence",
    "Verif.Sequence.C78_pieces"
   ],
   "note": "The exceptions in the statement are hypotheses of the theorems; C18, C19 and C32 show that they are needed (clear_context erases data, clocks start anew, sums over sequences)."
  },
  {
   "property": "C79",
   "status": "proved",
   "theorems": [
    "Verif.Evaluate.C79_losses",
    "Verif.Evaluate.C79_scores",
    "Verif.Evaluate.C79_extract"
   ],
   "note": "Losses, scores and extraction, for all accepted architectures and all ways to divide the sequences into batches of positive size with the same number of steps. Passes are not training passes, clock periods are not zero, scored outputs have one feature axis and no context rows. Numbers are real."
  },
  {
   "property": "C80",
   "status": "proved",
   "theorems": [
    "Verif.Constrained.C80_training",
    "Verif.Constrained.C80_parts",
    "Verif.Constrained.C80_constraints",
    "Verif.Constrained.C80_freeze_before",
    "Verif.Constrained.C80_freeze_first",
    "Verif.Constrained.C80_decay"
   ],
   "note": "Real arithmetic; architectures, layers and batches as in C77. Modifiers are those of the library; masks and weights must have the size of the array (no broadcasting). C80_constraints holds for every stepper that changes the network only through passes and assignments, and C80_constraints also shows that those of the library do."
  },
  {
   "property": "C81",
   "status": "proved",
   "theorems": [
    "Verif.Determined.C81_gradients",
    "Verif.Determined.C81_training",
    "Verif.Determined.C81_history",
    "Verif.Determined.C81_resume",
    "Verif.Reload.C81_set_handler"
   ],
   "note": "For the model of Session/Constrained (real numbers; random numbers are part of the batch). Restoring parameters and velocities themselves (files, descriptions) is not part of this claim; the theorem says that nothing else needs to be restored. BatchNorm and several Input layers are excluded as in C75; hooks evaluate the network, they do not change it."
  },
  {
   "property": "C82",
   "status": "proved",
   "theorems": [
    "Verif.Trainer.C82_training",
    "Verif.Trainer.C82_best",
    "Verif.Trainer.C82_runs",
    "Verif.Trainer.C82_schedule"
   ],
   "note": "End to end: Trainer.train with the hooks of the library on the memory of a network built from any accepted architecture. C82_training: parameters, velocities and modifiers follow the plain loop (hooks have no influence), rolling_training and monitors report the right averages; C82_best: SaveBestNetwork holds the parameters of the best moment; C82_schedule: learning rates by a schedule; C82_runs: no exceptions. Hypotheses met by a network with dropout and four hooks (Demo.lean). Numbers are real; no train_scorers; scores other than losses are not related to parameters here (see C79)."
  },
  {
   "property": "C83",
   "status": "proved",
   "theorems": [
    "Verif.Reload.C83_layers",
    "Verif.Reload.C83_outputs",
    "Verif.Reload.C83_training",
    "Verif.Reload.C83_best"
   ],
   "note": "JSON and HDF5 are assumed to give back what was stored; that the file holds the architecture, and the cases where initializers cannot be created again, are C28. What initialize assigns is arbitrary (of the right sizes), so the theorems do not depend on random numbers."
  },
  {
   "property": "C84",
   "status": "proved",
   "theorems": [
    "Verif.Descent.C84_derivative",
    "Verif.Descent.C84_descent",
    "Verif.Descent.C84_periods",
    "Verif.Parts.C84_everywhere"
   ],
   "note": "C84_derivative: along every curve, and as Fr\u00e9chet derivative without clockwork layers. C84_descent: one round of training with SgdStepper and small learning rate. C84_periods: all three gradient steppers, any number of updates. Numbers are real numbers, as everywhere (no rounding)."
  },
  {
   "property": "C85",
   "status": "proved",
   "theorems": [
    "Verif.Parts.C85_order_nesterov",
    "Verif.Parts.C85_parts",
    "Verif.Parts.C85_order"
   ],
   "note": "For networks without Dropout whose periods are not zero and not regularized. Gradients: where the layers are differentiable, which networks without kinks (NoKinks: no rectifiers, no clipped losses, no maximum pooling; LSTM included) always are."
  },
  {
   "property": "C86",
   "status": "proved",
   "theorems": [
    "Verif.Iterate.C86_losses",
    "Verif.Iterate.C86_scores",
    "Verif.Iterate.C86_extract",
    "Verif.Iterate.C86_gradients"
   ],
   "note": "Batches that are shortened according to a mask or lengths are not covered (then the time steps of the batches differ from those of all data; C31 says which are cut). Numbers are real; the mean over no sequences (an error in Python) is excluded by the assumption that there is one."
  },
  {
   "property": "C87",
   "status": "proved",
   "theorems": [
    "Verif.Padding.C87_training_nesterov",
    "Verif.Padding.C87_losses",
    "Verif.Padding.C87_gradients",
    "Verif.Padding.C87_training",
    "Verif.Padding.C87_evaluate",
    "Verif.Padding.C87_scores"
   ],
   "note": "For all architectures, states and data; gradients and trainings where the layers are differentiable (everywhere without kinks, see C84), without Dropout. The data must not share a buffer with a recurrent layer (DataAlone, see C18), unless nothing is cut."
  },
  {
   "property": "C88",
   "status": "proved",
   "theorems": [
    "Verif.SpecNet.C88_layout",
    "Verif.SpecNet.C88_derivative",
    "Verif.SpecNet.C88_descent"
   ],
   "note": "Spec lines with the default names of projection and output layer (C68). BatchNorm layers change parameters in the forward pass and are excluded from the derivative and descent theorems, not from the layout theorem. Regular means, per layer, that the values at which it is not differentiable (zero under rel, ties in max pooling) are not met. The exclusions of C68 (data not called default, finding there) and C64 (classification into 0 classes) are hypotheses."
  },
  {
   "property": "C89",
   "status": "proved",
   "theorems": [
    "Verif.Data.C89_file",
    "Verif.Data.C89_same_as_extract",
    "Verif.Data.C89_duplicate_name",
    "Verif.Data.C89_one_step",
    "Verif.Evaluate.C89_network"
   ],
   "note": "C89_file, C89_same_as_extract: any batches of arrays; C89_network: any accepted architecture. C89_duplicate_name and C89_one_step show that the conditions on the names and on the number of steps are needed."
  },
  {
   "property": "C90",
   "status": "proved",
   "theorems": [
    "Verif.Checkpoint.C90_crash",
    "Verif.Checkpoint.C90_one_save",
    "Verif.Checkpoint.C90_two_files",
    "Verif.Checkpoint.C90_one_file",
    "Verif.Checkpoint.C90_undescribable",
    "Verif.Checkpoint.C90_training",
    "Verif.Checkpoint.C90_killed",
    "Verif.Checkpoint.C90_resume"
   ],
   "note": "Found is the assumption on files that were not closed. C90_one_file and C90_undescribable state what is not guaranteed (findings 58 and 59)."
  },
  {
   "property": "C91",
   "status": "proved",
   "theorems": [
    "Verif.Info.C91_info"
   ],
   "note": "C91_info: any accepted architecture in which no layer is called parameters or gradients (such a layer replaces the array of that name, see C70)."
  },
  {
   "property": "C92",
   "status": "proved",
   "theorems": [
    "Verif.Locality.C92_gradients",
    "Verif.Locality.C92_locality",
    "Verif.Locality.C92_predictions",
    "Verif.Locality.C92_untrained"
   ],
   "note": "C92_locality: all outputs of all layers but Input, two networks and two batches; C92_predictions: the predictions of the cost layers. C92_gradients: gradient zero without a way to a Loss layer, C92_untrained: such parameters stay as they are in a whole training, both in the Smooth architectures of C72 without Clockwork. The architectures are those of C77 (no BatchNorm, targets and masks come from the Input layer)."
  }
 ]
}